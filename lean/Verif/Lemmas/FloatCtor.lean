import Verif.Lemmas.SqrtSq
import Verif.Lemmas.Range2
import Verif.Spec.FloatCtor
import Verif.Spec.Range
import Verif.Model.CheckMoments
import Verif.Model.IEEE2

/-!
# Second-order variables in floating point (C94)
-/

namespace Unc
open Unc.Spec HessGrad SMap Mom Ext

variable {f : Fmt}

/-! ## one variable -/

theorem m2_single {R : Type*} [Zero R] [Add R] [Sub R] [Mul R] [NatCast R] (i : VId) (d : Diag R) (n : R) :
    UReal2.m ⟨⟨[(i, d)], []⟩, n⟩ 2 = some (m2A 0 d - (0 + d.hhess) * (0 + d.hhess)) := rfl

theorem build_std {R : Type*} [Zero R] (u : Moments R) (i : VId) (n s : R) (T : ℕ → R) :
    UReal2.buildStd u i n s T = ⟨⟨[(i, ⟨s, 0, UReal2.momOfArray T⟩)], []⟩, n⟩ := rfl

/-- the variance of a variable is the rounded square -/
theorem var_single (i : VId) (s n : FP f) (t : Moments (FP f)) : UReal2.m ⟨⟨[(i, ⟨s, 0, t⟩)], []⟩, n⟩ 2 = some (s * s) := by
  rw [m2_single]
  congr 1
  apply FP.ext
  simp only [m2A, FP.val_sub, FP.val_add, FP.val_mul, FP.val_zero, mul_zero, zero_mul, add_zero, zero_add, f.rd_zero, f.idem, sub_zero]

theorem m3_single {R : Type*} [Zero R] [Add R] [Sub R] [Mul R] [NatCast R] (i : VId) (d : Diag R) (n : R) :
    UReal2.m ⟨⟨[(i, d)], []⟩, n⟩ 3 = some (m3A 0 d - (0 + d.hhess) * (lit 3 * (m2A 0 d - (0 + d.hhess) * (0 + d.hhess)) + (0 + d.hhess) * (0 + d.hhess))) := rfl

theorem m4_single {R : Type*} [Zero R] [Add R] [Sub R] [Mul R] [NatCast R] (i : VId) (d : Diag R) (n : R) :
    ∃ y, UReal2.m ⟨⟨[(i, d)], []⟩, n⟩ 4 = some (m4A 0 d - (0 + d.hhess) * y) := by
  have e : Mom.compute (⟨[(i, d)], []⟩ : HessGrad R) 4 = some (m4A 0 d) := by
    show some (if i = i then m4A 0 d else _) = _
    rw [if_pos rfl]
  have e3 : UReal2.momArray (⟨[(i, d)], []⟩ : HessGrad R) 3 = some [0 + d.hhess, m2A 0 d - (0 + d.hhess) * (0 + d.hhess),
    m3A 0 d - (0 + d.hhess) * (lit 3 * (m2A 0 d - (0 + d.hhess) * (0 + d.hhess)) + (0 + d.hhess) * (0 + d.hhess))] := rfl
  rw [UReal2.m, if_pos (by norm_num), UReal2.momArray, e3, Option.bind_some, UReal2.updateMom, e]
  exact ⟨_, rfl⟩

theorem third_single (i : VId) (s n : FP f) (t : Moments (FP f)) : UReal2.m ⟨⟨[(i, ⟨s, 0, t⟩)], []⟩, n⟩ 3 = some (s * s * s * t.v3) := by
  rw [m3_single]
  congr 1
  apply FP.ext
  simp only [m3A, FP.val_sub, FP.val_add, FP.val_mul, FP.val_zero, mul_zero, zero_mul, add_zero, zero_add, f.rd_zero, f.idem, sub_zero]

theorem fourth_single (i : VId) (s n : FP f) (t : Moments (FP f)) : UReal2.m ⟨⟨[(i, ⟨s, 0, t⟩)], []⟩, n⟩ 4 = some (s * s * s * s * t.v4) := by
  obtain ⟨y, e⟩ := m4_single i (⟨s, 0, t⟩ : Diag (FP f)) n
  rw [e]
  congr 1
  apply FP.ext
  simp only [m4A, FP.val_sub, FP.val_add, FP.val_mul, FP.val_zero, mul_zero, zero_mul, add_zero, zero_add, f.rd_zero, f.idem, sub_zero]

/-! ## relative errors -/

section
variable {u : ℝ}

variable (hu : Acc f.rd u)
include hu

theorem one_le_fac : 1 ≤ 1 / (1 - u) := by
  have := hu.nonneg
  rw [le_div_iff₀ (by linarith [hu.lt])]; linarith

theorem fac_rd (x : ℝ) : Factor u 1 (f.rd x) x := by
  have h := hu.err x
  have h0 := hu.nonneg
  have h1 := hu.lt
  have d : (0 : ℝ) < 1 - u := by linarith
  rcases eq_or_ne x 0 with rfl | hx
  · exact ⟨1, one_pos, by rw [pow_one]; exact one_le_fac hu, by rw [pow_one, one_mul]; exact one_le_fac hu, by rw [f.rd_zero]; simp⟩
  · have e : |f.rd x / x - 1| ≤ u := by
      rw [show f.rd x / x - 1 = (f.rd x - x) / x by field_simp, abs_div, div_le_iff₀ (abs_pos.2 hx)]
      exact h
    obtain ⟨e1, e2⟩ := abs_le.1 e
    refine ⟨f.rd x / x, by linarith, ?_, ?_, by field_simp⟩
    · rw [pow_one, le_div_iff₀ d]; nlinarith
    · rw [pow_one, mul_one_div, le_div_iff₀ d]; linarith

theorem fac_mono {k l : ℕ} {r w : ℝ} (h : Factor u k r w) (hkl : k ≤ l) : Factor u l r w := by
  obtain ⟨ρ, h0, h1, h2, e⟩ := h
  have := pow_le_pow_right₀ (one_le_fac hu) hkl
  exact ⟨ρ, h0, h1.trans this, h2.trans (mul_le_mul_of_nonneg_left this h0.le), e⟩

theorem fac_mul {k l : ℕ} {r w r' w' : ℝ} (h : Factor u k r w) (h' : Factor u l r' w') : Factor u (k + l) (r * r') (w * w') := by
  obtain ⟨ρ, h0, h1, h2, rfl⟩ := h
  obtain ⟨σ, k0, k1, k2, rfl⟩ := h'
  refine ⟨ρ * σ, mul_pos h0 k0, ?_, ?_, by ring⟩
  · rw [pow_add]; exact mul_le_mul h1 k1 k0.le (h0.le.trans h1)
  · rw [pow_add, mul_mul_mul_comm]; exact one_le_mul_of_one_le_of_one_le h2 k2

theorem fac_inv {k : ℕ} {r w : ℝ} (h : Factor u k r w) : Factor u k (r⁻¹) (w⁻¹) := by
  obtain ⟨ρ, h0, h1, h2, rfl⟩ := h
  refine ⟨ρ⁻¹, inv_pos.2 h0, ?_, ?_, by rw [mul_inv]⟩
  · rw [inv_le_iff_one_le_mul₀ h0, mul_comm]; exact h2
  · rw [inv_mul_eq_div, le_div_iff₀ h0, one_mul]; exact h1

theorem fac_trans {k l : ℕ} {r w v : ℝ} (h : Factor u k r w) (h' : Factor u l w v) : Factor u (k + l) r v := by
  obtain ⟨ρ, h0, h1, h2, rfl⟩ := h
  obtain ⟨σ, k0, k1, k2, rfl⟩ := h'
  refine ⟨ρ * σ, mul_pos h0 k0, ?_, ?_, by ring⟩
  · rw [pow_add]; exact mul_le_mul h1 k1 k0.le (h0.le.trans h1)
  · rw [pow_add, mul_mul_mul_comm]; exact one_le_mul_of_one_le_of_one_le h2 k2

theorem fac_rdmul {k l : ℕ} {a b : FP f} {w w' : ℝ} (h : Factor u k a.val w) (h' : Factor u l b.val w') : Factor u (k + l + 1) (a * b).val (w * w') := by
  rw [FP.val_mul, add_comm (k + l)]
  exact fac_trans hu (fac_rd hu _) (fac_mul hu h h')

theorem fac_rddiv {k l : ℕ} {a b : FP f} {w w' : ℝ} (h : Factor u k a.val w) (h' : Factor u l b.val w') : Factor u (k + l + 1) (a / b).val (w / w') := by
  rw [FP.val_div, add_comm (k + l), div_eq_mul_inv, div_eq_mul_inv]
  exact fac_trans hu (fac_rd hu _) (fac_mul hu h (fac_inv hu h'))

theorem fac_sqrt {k : ℕ} {r w : ℝ} (h : Factor u k r w) : Factor u k (Real.sqrt r) (Real.sqrt w) := by
  obtain ⟨ρ, h0, h1, h2, rfl⟩ := h
  have p1 : 1 ≤ (1 / (1 - u)) ^ k := one_le_pow₀ (one_le_fac hu)
  have s0 := Real.sqrt_nonneg ρ
  have ss := Real.mul_self_sqrt h0.le
  refine ⟨Real.sqrt ρ, Real.sqrt_pos.2 h0, ?_, ?_, Real.sqrt_mul h0.le _⟩
  · rw [Real.sqrt_le_left (by linarith)]; nlinarith
  · rcases le_total 1 ρ with h | h
    · have : 1 ≤ Real.sqrt ρ := Real.one_le_sqrt.2 h
      nlinarith
    · have : ρ ≤ Real.sqrt ρ := by
        have : Real.sqrt ρ ≤ 1 := Real.sqrt_le_one.2 h
        nlinarith
      nlinarith

theorem fac_bound {k : ℕ} {r w : ℝ} (h : Factor u k r w) : |r - w| ≤ ((1 / (1 - u)) ^ k - 1) * |w| := by
  obtain ⟨ρ, h0, h1, h2, rfl⟩ := h
  rw [show ρ * w - w = (ρ - 1) * w by ring, abs_mul]
  refine mul_le_mul_of_nonneg_right ?_ (abs_nonneg _)
  set v := (1 / (1 - u)) ^ k
  have hv : 1 ≤ v := one_le_pow₀ (one_le_fac hu)
  rw [abs_le]
  constructor
  · nlinarith [sq_nonneg (v - 1)]
  · linarith

end

/-! ## the constructors -/

theorem build_central {R : Type*} [Zero R] [Mul R] [Div R] [CCmp R] [CSqrt R] (u : Moments R) (i : VId) (n : R) (c : ℕ → R) :
    UReal2.buildCentral u i n c = ⟨⟨[(i, ⟨CSqrt.sqrt (c 0), 0, if CCmp.ltb 0 (CSqrt.sqrt (c 0)) then UReal2.stdMoments (CSqrt.sqrt (c 0)) c else ⟨0, 0, 0, 0, 0, 0⟩⟩)], []⟩, n⟩ := by
  show (⟨⟨[(i, if _ then _ else _)], []⟩, n⟩ : UReal2 R) = _
  split_ifs <;> rfl

theorem powers_fac {u : ℝ} (hu : Acc f.rd u) {a g : FP f} {w : ℝ} {k : ℕ} {v : ℝ} (ha : Factor u k a.val v) (hg : Factor u 1 g.val w) : Factor u (k + 2) (a * g).val (v * w) := fac_rdmul hu ha hg

/-- underflow -/
theorem ieee_tiny {p : ℕ} {emin : ℤ} (hp : 1 ≤ p) (he : emin ≤ 0) {k : ℤ} (h : k < emin - p) : (ieee p emin hp he).rd ((2 : ℝ) ^ k) = 0 := by
  have h0 := two_zpow_pos k
  change ieeeRd p emin _ = 0
  rw [ieeeRd, if_pos h0, ieeePos]
  have e : expo emin ((2 : ℝ) ^ k) = emin := le_antisymm (expo_le h0 le_rfl (zpow_lt_zpow_right₀ (by norm_num) (by omega))) (le_max_right _ _)
  rw [e, ← zpow_sub₀ (by norm_num), nearEven_near (n := 0), Int.cast_zero, zero_mul]
  rw [Int.cast_zero, sub_zero, abs_of_pos (two_zpow_pos _), show (1 / 2 : ℝ) = 2 ^ (-1 : ℤ) by norm_num]
  exact zpow_lt_zpow_right₀ (by norm_num) (by omega)

/-- what is divided by zero is infinite or NaN -/
theorem not_fin_div_zero {f : Fmt} {M : ℝ} (hM : 0 ≤ M) (a : Ext f M) : ¬ Spec.Finite (a / 0) := by
  have z : (0 : Ext f M) = .fin 0 (by rw [FP.val_zero, abs_zero]; exact hM) := ofFP_of_le _
  rintro ⟨v, c, hc, e, -⟩
  rw [z, div_def] at e
  rcases a with _ | s | ⟨a, ha⟩
  · cases e
  · cases e
  · rw [div', if_pos FP.val_zero] at e
    split_ifs at e

end Unc
