import Verif.Lemmas.Param
import Mathlib.Tactic.Positivity
import Mathlib.Tactic.NormNum
import Mathlib.Tactic.Ring
import Mathlib.Tactic.FieldSimp

/-!
# Lemmas on numbers with a limited range
-/

namespace Unc
open Spec UReal

namespace Ext
variable {f : Fmt} {M : ℝ}

/-- the relation: if the number with limits is ordinary, it is the number without limits -/
def Weak (x : Ext f M) (y : FP f) : Prop := ∀ a h, x = .fin a h → a = y

theorem weak_ofFP (a : FP f) : Weak (ofFP M a) a := by
  intro c h e
  unfold ofFP at e
  split_ifs at e with h'
  simp only [fin.injEq] at e
  exact e.symm

theorem weak_nan (a : FP f) : Weak (nan : Ext f M) a := by rintro _ _ ⟨⟩
theorem weak_inf (s : Bool) (a : FP f) : Weak (inf s : Ext f M) a := by rintro _ _ ⟨⟩
theorem Weak.fin_eq {a b : FP f} {h : |a.val| ≤ M} (w : Weak (fin a h) b) : a = b := w a h rfl

theorem ofFP_of_le {a : FP f} (h : |a.val| ≤ M) : ofFP M a = fin a h := by rw [ofFP, dif_pos h]
theorem ofFP_of_lt {a : FP f} (h : M < |a.val|) : ofFP M a = inf (decide (a.val < 0)) := by rw [ofFP, dif_neg (not_le.2 h)]

theorem add_def (a b : Ext f M) : a + b = add' a b := rfl
theorem sub_def (a b : Ext f M) : a - b = sub' a b := rfl
theorem mul_def (a b : Ext f M) : a * b = mul' a b := rfl
theorem div_def (a b : Ext f M) : a / b = div' a b := rfl

theorem fin_add {a b : FP f} (ha : |a.val| ≤ M) (hb : |b.val| ≤ M) : (fin a ha + fin b hb : Ext f M) = ofFP M (a + b) := rfl
theorem fin_mul {a b : FP f} (ha : |a.val| ≤ M) (hb : |b.val| ≤ M) : (fin a ha * fin b hb : Ext f M) = ofFP M (a * b) := rfl

theorem weak_add {a c : Ext f M} {b d : FP f} (h : Weak a b) (h' : Weak c d) : Weak (a + c) (b + d) := by
  rw [add_def]
  rcases a with _ | s | ⟨a, ha⟩ <;> rcases c with _ | t | ⟨c, hc⟩ <;> simp only [add'] <;>
    first | exact weak_nan _ | exact weak_inf _ _ | (split_ifs <;> first | exact weak_nan _ | exact weak_inf _ _) | skip
  rw [h.fin_eq, h'.fin_eq]
  exact weak_ofFP _

theorem weak_sub {a c : Ext f M} {b d : FP f} (h : Weak a b) (h' : Weak c d) : Weak (a - c) (b - d) := by
  rw [sub_def]
  rcases a with _ | s | ⟨a, ha⟩ <;> rcases c with _ | t | ⟨c, hc⟩ <;> simp only [sub'] <;>
    first | exact weak_nan _ | exact weak_inf _ _ | (split_ifs <;> first | exact weak_nan _ | exact weak_inf _ _) | skip
  rw [h.fin_eq, h'.fin_eq]
  exact weak_ofFP _

theorem weak_mul {a c : Ext f M} {b d : FP f} (h : Weak a b) (h' : Weak c d) : Weak (a * c) (b * d) := by
  rw [mul_def]
  rcases a with _ | s | ⟨a, ha⟩ <;> rcases c with _ | t | ⟨c, hc⟩ <;> simp only [mul'] <;>
    first | exact weak_nan _ | exact weak_inf _ _ | (split_ifs <;> first | exact weak_nan _ | exact weak_inf _ _) | skip
  rw [h.fin_eq, h'.fin_eq]
  exact weak_ofFP _

/-- a product with a factor which is not ordinary is not ordinary -/
theorem weak_mul_right {a c : Ext f M} {d : FP f} (h : ¬ Finite a) : Weak (c * a) d := by
  rw [mul_def]
  rcases a with _ | s | ⟨a, ha⟩
  · rcases c with _ | t | ⟨c, hc⟩ <;> exact weak_nan _
  · rcases c with _ | t | ⟨c, hc⟩ <;> simp only [mul'] <;>
    first | exact weak_nan _ | exact weak_inf _ _ | (split_ifs <;> first | exact weak_nan _ | exact weak_inf _ _)
  · exact absurd ⟨_, a, ha, rfl, rfl⟩ h

theorem weak_div {a c : Ext f M} {b d : FP f} (h : Weak a b) (h' : Weak c d) (hi : ¬ Infinite c) : Weak (a / c) (b / d) := by
  rw [div_def]
  rcases c with _ | t | ⟨c, hc⟩
  · rcases a with _ | s | ⟨a, ha⟩ <;> exact weak_nan _
  · exact absurd ⟨t, rfl⟩ hi
  · rcases a with _ | s | ⟨a, ha⟩
    · exact weak_nan _
    · exact weak_inf _ _
    · simp only [div']
      split_ifs
      · exact weak_nan _
      · exact weak_inf _ _
      · rw [h.fin_eq, h'.fin_eq]
        exact weak_ofFP _

theorem weak_neg {a : Ext f M} {b : FP f} (h : Weak a b) : Weak (-a) (-b) := by
  rcases a with _ | s | ⟨a, ha⟩
  · exact weak_nan _
  · exact weak_inf _ _
  · rw [← h.fin_eq]; exact weak_ofFP _

theorem weak_sqrt {a : Ext f M} {b : FP f} (h : Weak a b) : Weak (CSqrt.sqrt a) (CSqrt.sqrt b) := by
  rcases a with _ | s | ⟨a, ha⟩
  · exact weak_nan _
  · simp only [CSqrt.sqrt]
    split_ifs
    · exact weak_nan _
    · exact weak_inf _ _
  · rw [← h.fin_eq]
    simp only [CSqrt.sqrt]
    split_ifs
    · exact weak_nan _
    · exact weak_ofFP _

theorem weak_abs {a : Ext f M} {b : FP f} (h : Weak a b) : Weak (CSqrt.abs a) (CSqrt.abs b) := by
  rcases a with _ | s | ⟨a, ha⟩
  · exact weak_nan _
  · exact weak_inf _ _
  · rw [← h.fin_eq]; exact weak_ofFP _

variable (hM : 1 ≤ M)
include hM

theorem zero_eq : (0 : Ext f M) = fin 0 (by simp; linarith) := ofFP_of_le _
theorem one_eq : (1 : Ext f M) = fin 1 (by simpa using hM) := ofFP_of_le _
theorem neg_one_eq : (-1 : Ext f M) = fin (-1) (by simpa using hM) := by
  rw [one_eq hM]; exact ofFP_of_le _

omit hM in
theorem fin_leb {a b : FP f} (ha : |a.val| ≤ M) (hb : |b.val| ≤ M) : CCmp.leb (fin a ha : Ext f M) (fin b hb) = true ↔ a.val ≤ b.val := by
  simp [CCmp.leb, cmp', ereal]
omit hM in
theorem fin_ltb {a b : FP f} (ha : |a.val| ≤ M) (hb : |b.val| ≤ M) : CCmp.ltb (fin a ha : Ext f M) (fin b hb) = true ↔ a.val < b.val := by
  simp [CCmp.ltb, cmp', ereal]
omit hM in
theorem fin_eqb {a b : FP f} (ha : |a.val| ≤ M) (hb : |b.val| ≤ M) : CCmp.eqb (fin a ha : Ext f M) (fin b hb) = true ↔ a.val = b.val := by
  simp [CCmp.eqb, cmp', ereal]

theorem weak_rel : OpRel (Weak : Ext f M → FP f → Prop) where
  zero := weak_ofFP _
  one := weak_ofFP _
  neg := weak_neg
  add := weak_add
  sub := weak_sub
  mul := weak_mul
  sqrt := weak_sqrt
  abs := weak_abs
  scale := by
    intro a b c d hab hcd
    rcases a with _ | s | ⟨a, ha⟩
    · have e : CCmp.eqb (nan : Ext f M) 1 = false := by simp [CCmp.eqb, cmp', ereal]
      rw [e]
      exact weak_mul_right (by rintro ⟨v, a, h, e, -⟩; cases e)
    · have e : CCmp.eqb (inf s : Ext f M) 1 = false := by
        rw [one_eq hM]
        cases s <;> simp [CCmp.eqb, cmp', ereal]
        · exact (EReal.coe_ne_top 1).symm
        · exact (EReal.coe_ne_bot 1).symm
      rw [e]
      exact weak_mul_right (by rintro ⟨v, a, h, e, -⟩; cases e)
    · have e := hab.fin_eq
      subst e
      have : CCmp.eqb (fin a ha : Ext f M) 1 = CCmp.eqb a 1 := by
        rw [Bool.eq_iff_iff, one_eq hM, fin_eqb, FP.eqb_fp]
      rw [this]
      split_ifs
      · exact hcd
      · exact weak_mul hcd hab
  fresh := by
    constructor
    · rw [← Bool.not_eq_true, zero_eq hM, neg_one_eq hM, fin_leb]; simp
    · rw [← Bool.not_eq_true, FP.leb_fp]; simp
  fresh' := by
    constructor
    · rw [← Bool.not_eq_true, zero_eq hM, neg_one_eq hM, fin_ltb]; simp
    · rw [← Bool.not_eq_true, FP.ltb_fp]; simp
  still := by
    constructor
    · rw [← Bool.not_eq_true, zero_eq hM, fin_ltb]; simp
    · rw [← Bool.not_eq_true, FP.ltb_fp]; simp

theorem weak_given {x : UReal (Ext f M)} {y : UReal (FP f)} (h : SameGiven x y) : URel Weak x y := by
  obtain ⟨⟨g1, g2, g3⟩, ⟨g1', g2', g3'⟩, h3, ⟨a, ha, e, hv⟩, ⟨b, hb, e', hv'⟩⟩ := h
  refine ⟨h3, ?_, ?_, ?_, fun h => absurd h (by omega), fun h => ⟨g3 h, g3' (h3 ▸ h)⟩⟩
  · rintro c hc e2
    rw [e] at e2
    cases e2
    exact FP.ext hv
  · rintro c hc e2
    rw [e'] at e2
    cases e2
    exact FP.ext hv'
  · rw [g2, g2']; exact .nil

/-- whole computations -/
theorem weak_run {env : ℕ → UReal (Ext f M)} {env' : ℕ → UReal (FP f)} (h : ∀ i, SameGiven (env i) (env' i)) :
    ∀ (t : Calc), Tame env t → Option.Rel (URel Weak) (t.run env) (t.run env')
  | .leaf i, _ => .some (weak_given hM (h i))
  | .un o a, ht => by
    have := weak_run h a ht
    unfold Calc.run
    generalize a.run env = p at this
    generalize a.run env' = q at this
    cases this with
    | none => exact .none
    | some hr => exact .some (un_rel (weak_rel hM) hr o)
  | .bin o a b, ht => by
    obtain ⟨h1, h2, h3⟩ := ht
    have A := weak_run h a h1
    have B := weak_run h b h2
    unfold Calc.run
    generalize a.run env = p at A
    generalize a.run env' = q at A
    cases A with
    | none => exact .none
    | some hr =>
      generalize b.run env = p' at B h3
      generalize b.run env' = q' at B
      cases B with
      | none => exact .none
      | some hr' =>
        exact bin_rel (weak_rel hM) hr hr' o (fun ho => weak_div (weak_rel hM).one hr'.mu (h3 ho _ rfl))

end Ext

/-! ### the binary64 format -/

section
variable {p : ℕ} {emin : ℤ}

/-- numbers with few digits are not rounded -/
theorem ieee_int (hp : 1 ≤ p) (he : emin ≤ 0) (N : ℤ) (k : ℤ) (hN : |N| < 2 ^ p) (hk : emin - p + 1 ≤ k) : (ieee p emin hp he).rd (N * 2 ^ k) = N * 2 ^ k := by
  have key : ∀ N : ℤ, 0 < N → N < 2 ^ p → ieeePos p emin (N * 2 ^ k) = N * 2 ^ k := by
    intro N h0 hN
    refine ieeePos_fix N ?_
    have hpos : (0 : ℝ) < N * 2 ^ k := mul_pos (by exact_mod_cast h0) (two_zpow_pos _)
    have : expo emin (N * 2 ^ k) ≤ max (k + p - 1) emin := by
      refine expo_le hpos (le_max_right _ _) (lt_of_lt_of_le ?_ (zpow_le_zpow_right₀ (by norm_num) (by omega : k + p ≤ max (k + p - 1) emin + 1)))
      rw [zpow_add₀ (by norm_num), mul_comm, zpow_natCast]
      exact mul_lt_mul_of_pos_left (by exact_mod_cast hN) (two_zpow_pos _)
    omega
  change ieeeRd p emin _ = _
  unfold ieeeRd
  rcases lt_trichotomy N 0 with h | h | h
  · have h1 : (N : ℝ) * 2 ^ k < 0 := mul_neg_of_neg_of_pos (by exact_mod_cast h) (two_zpow_pos _)
    rw [if_neg h1.not_gt, if_pos h1]
    have := key (-N) (by omega) (by rw [abs_of_neg h] at hN; exact hN)
    push_cast at this
    rw [← neg_mul, this]; ring
  · simp [h]
  · have h1 : (0 : ℝ) < (N : ℝ) * 2 ^ k := mul_pos (by exact_mod_cast h) (two_zpow_pos _)
    rw [if_pos h1, key N h (by rw [abs_of_pos h] at hN; exact hN)]

/-- the relative error is at most `2 ^ -p` as long as there is no underflow -/
theorem ieee_err (hp : 1 ≤ p) (he : emin ≤ 0) {x : ℝ} (hx : 2 ^ emin ≤ x) : |(ieee p emin hp he).rd x - x| ≤ (1 / 2) ^ p * x := by
  have h0 : 0 < x := lt_of_lt_of_le (two_zpow_pos _) hx
  change |ieeeRd p emin x - x| ≤ _
  rw [ieeeRd, if_pos h0]
  refine (ieeePos_err x).trans ?_
  have hl : expo emin x = Int.log 2 x := by
    unfold expo
    exact max_eq_left ((Int.zpow_le_iff_le_log (b := 2) (by norm_num) h0).1 (by exact_mod_cast hx))
  rw [hl, show (2 : ℝ) ^ (Int.log 2 x - p + 1) / 2 = (1 / 2) ^ p * 2 ^ Int.log 2 x by
    rw [zpow_add₀ (by norm_num), zpow_sub₀ (by norm_num), zpow_natCast, one_div, inv_pow]; field_simp]
  exact mul_le_mul_of_nonneg_left (log_bounds h0).1 (by positivity)

end

end Unc
