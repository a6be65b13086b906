import Verif.Model.Predicates
import Verif.Props.Range

/-!
# C99: `isfinite` and `isnormal` in `double`
-/

namespace Unc.Props
open Unc.Spec UReal Ext
variable {f : Fmt} {M : ℝ}

theorem isFin_iff (x : Ext f M) : x.isFin = true ↔ Finite x := by
  rcases x with _ | s | ⟨a, h⟩ <;> simp only [isFin]
  · simp [Spec.Finite, Is]
  · simp [Spec.Finite, Is]
  · exact ⟨fun _ => ⟨_, a, h, rfl, rfl⟩, fun _ => trivial⟩

theorem isNorm_iff (t : ℝ) (x : Ext f M) : x.isNorm t = true ↔ ∃ v, Is x v ∧ t ≤ |v| := by
  rcases x with _ | s | ⟨a, h⟩ <;> simp only [isNorm]
  · simp [Is]
  · simp [Is]
  · rw [decide_eq_true_iff]
    constructor
    · exact fun ht => ⟨_, ⟨a, h, rfl, rfl⟩, ht⟩
    · rintro ⟨v, ⟨b, hb, e, rfl⟩, ht⟩
      cases e
      exact ht

theorem abs_finite (x : Ext f M) : Finite (CSqrt.abs x) ↔ Finite x := by
  rw [← isFin_iff, ← isFin_iff]
  rcases x with _ | s | ⟨a, h⟩
  · rfl
  · rfl
  · show (ofFP M (CSqrt.abs a)).isFin = true ↔ _
    have : |(CSqrt.abs a : FP f).val| ≤ M := by rw [FP.val_abs, abs_abs]; exact h
    rw [ofFP, dif_pos this]
    simp [isFin]

/-- **C99** `isfinite` is true for an elementary variable or a constant exactly if its mean and its uncertainty are finite.  If it is true for a computed value, the mean and all the
coefficients are finite: no infinity or NaN is missed. -/
theorem C99_isfinite (x : UReal (Ext f M)) :
    (0 ≤ x.id → (UMath.isfinite x = true ↔ Finite x.mu ∧ Finite x.sdev)) ∧
    (x.id < 0 → CCmp.leb 0 x.sdev = false → UMath.isfinite x = true → Finite x.mu ∧ ∀ p ∈ x.sigma, Finite p.2) := by
  unfold UMath.isfinite UMath.both
  rw [Bool.and_eq_true, isFin_iff, isFin_iff, UReal.n]
  refine ⟨fun h => ?_, fun h hf => ?_⟩
  · rw [UReal.s, if_pos h, abs_finite]
  · exact fun ⟨h1, h2⟩ => ⟨h1, fun p hp => by_contra fun hn => (C68_shown h hf hp hn).1 h2⟩

/-- **C99** in the range where the squares neither overflow nor underflow `isfinite` says of a computed value exactly whether the mean is finite. -/
theorem C99_isfinite_partial {x : UReal Dbl} (hi : x.id < 0) (hf : CCmp.leb 0 x.sdev = false) {c : List ℝ} (hx : List.Forall₂ (fun p v => Is p.2 v) x.sigma c)
    (hc : ∀ v ∈ c, v = 0 ∨ 2 ^ (-511 : ℤ) ≤ |v|) (hS : (1 + (1 / 2) ^ 53) ^ (c.length + 1) * (c.map fun v => v * v).sum ≤ dblMax) :
    UMath.isfinite x = true ↔ Finite x.mu := by
  obtain ⟨s, hs, -⟩ := C68_s_double_partial hi hf hx hc hS
  unfold UMath.isfinite UMath.both
  rw [Bool.and_eq_true, isFin_iff, isFin_iff, UReal.n]
  exact and_iff_left ⟨s, hs⟩

/-- **C99** `isnormal` is true only where `isfinite` is, and says exactly that the mean and the uncertainty reported are numbers of magnitude at least `t`. -/
theorem C99_isnormal (t : ℝ) (x : UReal (Ext f M)) :
    (UMath.isnormal t x = true ↔ ∃ m s, Is x.n m ∧ Is x.s s ∧ t ≤ |m| ∧ t ≤ |s|) ∧ (UMath.isnormal t x = true → UMath.isfinite x = true) := by
  unfold UMath.isnormal UMath.isfinite UMath.both
  simp only [Bool.and_eq_true, isNorm_iff, isFin_iff]
  constructor
  · constructor
    · rintro ⟨⟨m, h1, h2⟩, s, h3, h4⟩
      exact ⟨m, s, h1, h3, h2, h4⟩
    · rintro ⟨m, s, h1, h3, h2, h4⟩
      exact ⟨⟨m, h1, h2⟩, s, h3, h4⟩
  · rintro ⟨⟨m, h1, -⟩, s, h3, -⟩
    exact ⟨⟨m, h1⟩, s, h3⟩

theorem Is.unique {x : Ext f M} {a b : ℝ} (h : Is x a) (h' : Is x b) : a = b := by
  obtain ⟨u, hu, e, rfl⟩ := h
  obtain ⟨v, hv, e', rfl⟩ := h'
  rw [e] at e'
  cases e'
  rfl

/-- **C99** `isnormal` is false for every constant, whatever its value, for every value with mean 0 and for every value with uncertainty 0. -/
theorem C99_isnormal_zero {t : ℝ} (ht : 0 < t) :
    (∀ m : Ext f M, UMath.isnormal t (UReal.const m) = false) ∧
    ∀ x : UReal (Ext f M), Is x.n 0 ∨ Is x.s 0 → UMath.isnormal t x = false := by
  have key : ∀ x : UReal (Ext f M), Is x.n 0 ∨ Is x.s 0 → UMath.isnormal t x = false := by
    intro x h
    rw [← Bool.not_eq_true, (C99_isnormal t x).1]
    rintro ⟨m, s, h1, h2, h3, h4⟩
    rcases h with h | h
    · rw [Is.unique h1 h, abs_zero] at h3; linarith
    · rw [Is.unique h2 h, abs_zero] at h4; linarith
  refine ⟨fun m => ?_, key⟩
  by_cases hs : Finite (UReal.const m : UReal (Ext f M)).s
  · refine key _ (Or.inr ?_)
    obtain ⟨v, hv⟩ := hs
    have e : (UReal.const m : UReal (Ext f M)).s = CSqrt.abs (ofFP M 0) := rfl
    have hv0 := hv
    rw [e] at hv
    by_cases h : |(0 : FP f).val| ≤ M
    · rw [ofFP, dif_pos h] at hv
      have h' : |(CSqrt.abs (0 : FP f) : FP f).val| ≤ M := by rw [FP.val_abs, abs_abs]; exact h
      have : Is (CSqrt.abs (.fin 0 h : Ext f M)) 0 := by
        show Is (ofFP M (CSqrt.abs 0)) 0
        rw [ofFP, dif_pos h']
        exact ⟨_, _, rfl, by rw [FP.val_abs]; exact abs_zero⟩
      rwa [Is.unique hv this] at hv0
    · rw [ofFP, dif_neg h] at hv
      obtain ⟨a, ha, e, -⟩ := hv
      cases e
  · rw [← Bool.not_eq_true]
    intro h
    obtain ⟨-, s, -, h2, -⟩ := (C99_isnormal t _).1.1 h
    exact hs ⟨s, h2⟩

theorem ltb_leb {a b : Ext f M} (h : CCmp.ltb a b = true) (h' : CCmp.leb b a = true) : False := by
  change cmp' (· < ·) a b = true at h
  change cmp' (· ≤ ·) b a = true at h'
  unfold cmp' at h h'
  cases ea : a.ereal <;> cases eb : b.ereal <;> simp only [ea, eb, reduceCtorEq, decide_eq_true_eq] at h h'
  exact absurd h (not_lt.2 h')

/-- **C99** asking a variable for its uncertainty or its variance before, which may store the uncertainty, changes neither answer, also if what is stored is infinite or NaN. -/
theorem C99_cached (t : ℝ) (x : UReal (Ext f M)) :
    UMath.isfinite x.sCache.2 = UMath.isfinite x ∧ UMath.isfinite x.varCache.2 = UMath.isfinite x ∧
    UMath.isnormal t x.sCache.2 = UMath.isnormal t x ∧ UMath.isnormal t x.varCache.2 = UMath.isnormal t x := by
  have hs : x.sCache.2.s = x.s ∧ x.sCache.2.n = x.n := by
    by_cases h : x.id ≥ 0
    · simp only [sCache, if_pos h, and_self]
    · by_cases hl : CCmp.ltb x.sdev 0 = true
      · have hn : CCmp.leb 0 x.sdev = false := by
          rw [← Bool.not_eq_true]
          exact fun h' => ltb_leb hl h'
        simp only [sCache, if_neg h, hl, if_true]
        refine ⟨?_, rfl⟩
        simp only [UReal.s, if_neg h, hn, UReal.s2]
        rw [if_neg (by simp : ¬(false = true))]
        exact ite_self _
      · simp only [sCache, if_neg h, if_neg hl, and_self]
  have hv : x.varCache.2 = x.sCache.2 := by
    unfold varCache sCache
    split <;> rfl
  rw [hv]
  unfold UMath.isfinite UMath.isnormal UMath.both
  rw [hs.1, hs.2]
  exact ⟨rfl, rfl, rfl, rfl⟩

/-- **C99** in the range where the squares neither overflow nor underflow `isnormal` says of a computed value with an uncertainty exactly whether the mean is a normal number. -/
theorem C99_isnormal_partial {x : UReal Dbl} (hi : x.id < 0) (hf : CCmp.leb 0 x.sdev = false) {c : List ℝ} (hx : List.Forall₂ (fun p v => Is p.2 v) x.sigma c)
    (hc : ∀ v ∈ c, v = 0 ∨ 2 ^ (-511 : ℤ) ≤ |v|) (hS : (1 + (1 / 2) ^ 53) ^ (c.length + 1) * (c.map fun v => v * v).sum ≤ dblMax)
    (hl : c.length < 2 ^ 51) (hn : ∃ v ∈ c, v ≠ 0) :
    UMath.isnormal dblMin x = true ↔ ∃ m, Is x.mu m ∧ dblMin ≤ |m| := by
  obtain ⟨s, hs, s0, h1, -⟩ := C68_s_double_partial hi hf hx hc hS
  have hsum : (2 : ℝ) ^ (-1022 : ℤ) ≤ (c.map fun v => v * v).sum := by
    obtain ⟨v, hv, v0⟩ := hn
    have h2 : 2 ^ (-511 : ℤ) ≤ |v| := (hc v hv).resolve_left v0
    have h3 : v * v ≤ (c.map fun v => v * v).sum :=
      List.single_le_sum (fun y hy => by
        obtain ⟨w, -, rfl⟩ := List.mem_map.1 hy
        exact mul_self_nonneg w) _ (List.mem_map_of_mem hv)
    refine le_trans ?_ h3
    rw [show (-1022 : ℤ) = -511 + -511 by norm_num, zpow_add₀ (by norm_num), ← abs_mul_abs_self v]
    exact mul_le_mul h2 h2 (two_zpow_pos _).le (abs_nonneg _)
  have hb : (1 / 2 : ℝ) ≤ (1 - (1 / 2) ^ 53) ^ (c.length + 3) := by
    have h2 := one_add_mul_le_pow (a := -((1 / 2 : ℝ) ^ 53)) (by norm_num) (c.length + 3)
    have h3 : ((c.length + 3 : ℕ) : ℝ) ≤ 2 ^ 52 := by
      have : c.length + 3 ≤ 2 ^ 52 := by
        have : (2 : ℕ) ^ 51 + 3 ≤ 2 ^ 52 := by norm_num
        omega
      exact_mod_cast this
    rw [← sub_eq_add_neg] at h2
    refine le_trans ?_ h2
    have h4 : ((c.length + 3 : ℕ) : ℝ) * (1 / 2) ^ 53 ≤ 2 ^ 52 * (1 / 2) ^ 53 := mul_le_mul_of_nonneg_right h3 (by positivity)
    have h5 : (2 : ℝ) ^ 52 * (1 / 2) ^ 53 = 1 / 2 := by norm_num
    linarith
  have hd : dblMin ≤ |s| := by
    rw [abs_of_nonneg s0]
    refine le_of_sq_le_sq ?_ s0
    have h2 : (1 / 2 : ℝ) * 2 ^ (-1022 : ℤ) ≤ s ^ 2 := le_trans (mul_le_mul hb hsum (two_zpow_pos _).le (by linarith)) h1
    refine le_trans ?_ h2
    have h3 : dblMin ^ 2 = 2 ^ (-1022 : ℤ) * 2 ^ (-1022 : ℤ) := by rw [dblMin]; ring
    rw [h3]
    refine mul_le_mul_of_nonneg_right ?_ (two_zpow_pos _).le
    have : (2 : ℝ) ^ (-1022 : ℤ) ≤ 2 ^ (-1 : ℤ) := zpow_le_zpow_right₀ (by norm_num) (by norm_num)
    simpa using this
  rw [(C99_isnormal _ _).1]
  constructor
  · rintro ⟨m, s', h2, -, h3, -⟩
    exact ⟨m, h2, h3⟩
  · rintro ⟨m, h2, h3⟩
    exact ⟨m, s, h2, hs, h3, hd⟩

theorem one_add_zero : (1 + 0 : Dbl) = 1 := by
  have e : (1 + 0 : FP dblFmt) = 1 := FP.ext (by rw [FP.val_add]; simp [Fmt.one])
  rw [one_eq one_le_dblMax, zero_eq one_le_dblMax, fin_add, e]
  exact ofFP_of_le _

theorem is_one' : Is (1 : Dbl) 1 := ⟨_, _, one_eq one_le_dblMax, rfl⟩

theorem dblMin_le {k : ℤ} (h : -1022 ≤ k) : dblMin ≤ |(2 : ℝ) ^ k| := by
  rw [abs_of_pos (two_zpow_pos k), dblMin]
  exact zpow_le_zpow_right₀ (by norm_num) h

/-- **C99**, what fails: an elementary variable with mean 1 and uncertainty `2 ^ 512` is finite and normal, `x + 0` has finite mean and coefficient, but is neither: the square of the coefficient
overflows. -/
theorem C99_overflow_false : let x : UReal Dbl := ⟨1, pd 512, 1, []⟩
    UMath.isfinite x = true ∧ UMath.isnormal dblMin x = true ∧ ∃ y, add x (UReal.const 0) = some y ∧ Is y.mu 1 ∧ (∀ p ∈ y.sigma, Is p.2 (2 ^ (512 : ℤ))) ∧
      UMath.isfinite y = false ∧ UMath.isnormal dblMin y = false := by
  intro x
  have hs : Is x.s (2 ^ (512 : ℤ)) := (C68_overflow_false 1).1
  have hn : UMath.isnormal dblMin x = true :=
    (C99_isnormal _ _).1.2 ⟨1, _, is_one', hs, by simpa using dblMin_le (k := 0) (by norm_num), dblMin_le (by norm_num)⟩
  refine ⟨(C99_isnormal _ _).2 hn, hn, ?_⟩
  have e : add x (UReal.const 0) = some ⟨-1, -1, 1, [(1, pd 512)]⟩ := by
    have : add x (UReal.const 0) = some ⟨-1, -1, 1 + 0, [(1, pd 512)]⟩ := by
      simp (disch := norm_num) [add, binary, x, UReal.const, SMap.upsert, invalidId, one_pd, pd_mul]
    rw [this, one_add_zero]
  obtain ⟨y, ey, hy⟩ := (C68_overflow_false 1).2.1
  change add x (UReal.const 0) = some y at ey
  rw [e] at ey
  cases ey
  have hf : UMath.isfinite (⟨-1, -1, 1, [(1, pd 512)]⟩ : UReal Dbl) = false := by
    rw [UMath.isfinite, UMath.both, hy]
    simp [isFin]
  refine ⟨_, e, is_one', ?_, hf, ?_⟩
  · simpa using pd_is (k := 512) (by norm_num) (by norm_num)
  · rw [← Bool.not_eq_true]
    intro h
    rw [(C99_isnormal _ _).2 h] at hf
    cases hf

/-- **C99**, what fails: an elementary variable with mean 1 and uncertainty `2 ^ -538` is normal, `x + 0`, with the same mean and coefficient, is not: the square of the coefficient underflows. -/
theorem C99_underflow_false : let x : UReal Dbl := ⟨1, pd (-538), 1, []⟩
    UMath.isnormal dblMin x = true ∧ ∃ y, add x (UReal.const 0) = some y ∧ Is y.mu 1 ∧ (∀ p ∈ y.sigma, Is p.2 (2 ^ (-538 : ℤ))) ∧
      UMath.isfinite y = true ∧ UMath.isnormal dblMin y = false := by
  intro x
  have hs : Is x.s (2 ^ (-538 : ℤ)) := (C68_underflow_false 1).1
  refine ⟨(C99_isnormal _ _).1.2 ⟨1, _, is_one', hs, by simpa using dblMin_le (k := 0) (by norm_num), dblMin_le (by norm_num)⟩, ?_⟩
  obtain ⟨y, ey, hy, hy0⟩ := (C68_underflow_false 1).2
  change add x (UReal.const 0) = some y at ey
  have e : add x (UReal.const 0) = some ⟨-1, -1, 1, [(1, pd (-538))]⟩ := by
    have : add x (UReal.const 0) = some ⟨-1, -1, 1 + 0, [(1, pd (-538))]⟩ := by
      simp (disch := norm_num) [add, binary, x, UReal.const, SMap.upsert, invalidId, one_pd, pd_mul]
    rw [this, one_add_zero]
  rw [e] at ey
  cases ey
  refine ⟨_, e, is_one', ?_, ?_, (C99_isnormal_zero (two_zpow_pos _)).2 _ (Or.inr hy0)⟩
  · simpa using pd_is (k := -538) (by norm_num) (by norm_num)
  · rw [UMath.isfinite, UMath.both, Bool.and_eq_true, isFin_iff, isFin_iff]
    exact ⟨⟨_, is_one'⟩, _, hy0⟩

/-! Hypotheses can be met: a computed value with mean 1 which depends on one variable with coefficient 2 and on another one with coefficient 0. -/

/-- a computed value -/
noncomputable def exPred (m : Dbl) : UReal Dbl := ⟨-1, -1, m, [(1, pd 1), (4, 0)]⟩

theorem exPred_coeff (m : Dbl) : List.Forall₂ (fun p v => Is p.2 v) (exPred m).sigma [2, 0] :=
  .cons (by simpa using pd_is (k := 1) (by norm_num) (by norm_num)) (.cons is_zero .nil)

theorem exPred_sum : (1 + (1 / 2) ^ 53) ^ (([2, 0] : List ℝ).length + 1) * (([2, 0] : List ℝ).map fun v => v * v).sum ≤ dblMax := by
  refine le_trans ?_ (le_trans (zpow_le_zpow_right₀ (by norm_num : (1 : ℝ) ≤ 2) (by norm_num : (4 : ℤ) ≤ 1023)) le_dblMax)
  norm_num

/-- it is normal, though one of the coefficients, which is 0, is not -/
example : UMath.isnormal dblMin (exPred 1) = true ∧ isNorm dblMin (0 : Dbl) = false := by
  refine ⟨(C99_isnormal_partial (by decide) dbl_fresh (exPred_coeff 1) ?_ exPred_sum (by norm_num) ⟨2, by simp, by norm_num⟩).2
    ⟨1, is_one', by simpa using dblMin_le (k := 0) (by norm_num)⟩, ?_⟩
  · intro v hv
    rcases List.mem_cons.1 hv with rfl | hv
    · right
      rw [abs_of_pos (by norm_num)]
      exact le_trans (zpow_le_one_of_nonpos₀ (by norm_num) (by norm_num)) (by norm_num)
    · left; simpa using hv
  · rw [← Bool.not_eq_true, isNorm_iff]
    rintro ⟨v, hv, h⟩
    rw [Is.unique hv is_zero, abs_zero] at h
    exact absurd h (not_le.2 (two_zpow_pos _))

/-- with an infinite mean it is not finite -/
example : UMath.isfinite (exPred (.inf true)) = false := by
  rw [← Bool.not_eq_true, C99_isfinite_partial (by decide) dbl_fresh (exPred_coeff _) ?_ exPred_sum]
  · rintro ⟨v, a, h, e, -⟩
    cases e
  · intro v hv
    rcases List.mem_cons.1 hv with rfl | hv
    · right
      rw [abs_of_pos (by norm_num)]
      exact le_trans (zpow_le_one_of_nonpos₀ (by norm_num) (by norm_num)) (by norm_num)
    · left; simpa using hv

/-- a NaN among the coefficients, the uncertainty of an elementary variable being infinite -/
example : UMath.isfinite (⟨-1, -1, 1, [(2, 1), (7, .nan)]⟩ : UReal Dbl) = false ∧ UMath.isfinite (⟨3, .inf false, 1, []⟩ : UReal Dbl) = false := by
  constructor
  · rw [← Bool.not_eq_true]
    intro h
    obtain ⟨v, a, h, e, -⟩ := ((C99_isfinite _).2 (by decide) dbl_fresh h).2 (7, .nan) (by simp)
    cases e
  · rw [← Bool.not_eq_true, (C99_isfinite _).1 (by decide)]
    rintro ⟨-, v, a, h, e, -⟩
    cases e

/-- the square of the coefficient is infinite; the answers before and after asking -/
example : let y : UReal Dbl := ⟨-1, -1, 1, [(1, pd 512)]⟩
    UMath.isfinite y.sCache.2 = UMath.isfinite y ∧ UMath.isnormal dblMin y.varCache.2 = UMath.isnormal dblMin y :=
  ⟨(C99_cached dblMin _).1, (C99_cached dblMin _).2.2.2⟩

/-- the constant 1 is finite and not normal -/
example : UMath.isfinite (UReal.const 1 : UReal Dbl) = true ∧ UMath.isnormal dblMin (UReal.const 1 : UReal Dbl) = false :=
  ⟨((C99_isfinite _).1 le_rfl).2 ⟨⟨_, is_one'⟩, _, is_zero⟩, (C99_isnormal_zero (two_zpow_pos _)).1 1⟩

end Unc.Props
