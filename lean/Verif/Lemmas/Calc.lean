import Verif.Model.Math
import Verif.Spec.Diff
import Mathlib.Analysis.Calculus.Deriv.Abs
import Mathlib.Analysis.Calculus.FDeriv.Mul
import Mathlib.Analysis.Calculus.Deriv.Inv
import Mathlib.Analysis.SpecialFunctions.Pow.Deriv
import Mathlib.Analysis.SpecialFunctions.Log.Deriv
import Mathlib.Analysis.SpecialFunctions.Complex.LogDeriv
import Mathlib.Analysis.SpecialFunctions.Trigonometric.ArctanDeriv
import Mathlib.Analysis.SpecialFunctions.Trigonometric.InverseDeriv
import Mathlib.Analysis.SpecialFunctions.Trigonometric.DerivHyp
import Mathlib.Analysis.SpecialFunctions.Sqrt
import Mathlib.Analysis.SpecialFunctions.Gaussian.GaussianIntegral
import Mathlib.MeasureTheory.Integral.IntervalIntegral.FundThmCalculus

/-! # Calculus lemmas for the exact real functions -/

namespace Unc
open Filter Topology Unc.Spec Unc.Props UReal

theorem floor_eventually {q : ℝ} (h : ∀ n : ℤ, q ≠ n) : ∀ᶠ x in 𝓝 q, ⌊x⌋ = ⌊q⌋ := by
  have h1 : (⌊q⌋ : ℝ) < q := lt_of_le_of_ne (Int.floor_le q) (h _).symm
  filter_upwards [Ioo_mem_nhds h1 (Int.lt_floor_add_one q)] with x hx
  exact Int.floor_eq_iff.2 ⟨hx.1.le, hx.2⟩

theorem ceil_eventually {q : ℝ} (h : ∀ n : ℤ, q ≠ n) : ∀ᶠ x in 𝓝 q, ⌈x⌉ = ⌈q⌉ := by
  have h1 : q < (⌈q⌉ : ℝ) := lt_of_le_of_ne (Int.le_ceil q) (h _)
  have h2 : (⌈q⌉ : ℝ) - 1 < q := by have := Int.ceil_lt_add_one q; linarith
  filter_upwards [Ioo_mem_nhds h2 h1] with x hx
  exact Int.ceil_eq_iff.2 ⟨hx.1, hx.2.le⟩

/-- rounding to zero is locally constant except at non-zero integers -/
theorem trunc_eventually {q : ℝ} (h : |q| < 1 ∨ ∀ n : ℤ, q ≠ n) : ∀ᶠ x in 𝓝 q, truncR x = truncR q := by
  have small : ∀ x : ℝ, |x| < 1 → truncR x = 0 := by
    intro x hx
    obtain ⟨h1, h2⟩ := abs_lt.1 hx
    unfold truncR
    split_ifs with h0
    · have : ⌊x⌋ = 0 := Int.floor_eq_iff.2 ⟨by simpa using h0, by simpa using h2⟩
      simp [this]
    · have : ⌈x⌉ = 0 := Int.ceil_eq_iff.2 ⟨by push_cast; linarith, by push_cast; linarith⟩
      simp [this]
  rcases h with h | h
  · have : ∀ᶠ x in 𝓝 q, |x| < 1 := continuous_abs.continuousAt.eventually_lt continuousAt_const h
    filter_upwards [this] with x hx
    rw [small x hx, small q h]
  · have hq : q ≠ 0 := by simpa using h 0
    rcases lt_or_gt_of_ne hq with h0 | h0
    · filter_upwards [ceil_eventually h, Iio_mem_nhds h0] with x hx hx0
      simp [truncR, not_le.2 h0, not_le.2 (Set.mem_Iio.1 hx0), hx]
    · filter_upwards [floor_eventually h, Ioi_mem_nhds h0] with x hx hx0
      simp [truncR, h0.le, (le_of_lt hx0 : (0:ℝ) ≤ x), hx]

/-- away from halves all roundings to nearest agree -/
theorem round_eq {x : ℝ} (h : ∀ n : ℤ, x + 1 / 2 ≠ n) : roundEvenR x = ⌊x + 1 / 2⌋ ∧ roundAwayR x = ⌊x + 1 / 2⌋ := by
  have hf := Int.floor_le x
  have hl := Int.lt_floor_add_one x
  constructor
  · unfold roundEvenR
    split_ifs with h1 h2 h3
    · exact (Int.floor_eq_iff.2 ⟨by linarith, by linarith⟩).symm
    · exact (Int.floor_eq_iff.2 ⟨by push_cast; linarith, by push_cast; linarith⟩).symm
    · exact absurd (by push_cast; linarith) (h (⌊x⌋ + 1))
    · exact absurd (by push_cast; linarith) (h (⌊x⌋ + 1))
  · unfold roundAwayR
    split_ifs with h0
    · rfl
    · have h1 := Int.floor_le (x + 1 / 2)
      have h2 := Int.lt_floor_add_one (x + 1 / 2)
      have h3 : (⌊x + 1 / 2⌋ : ℝ) < x + 1 / 2 := lt_of_le_of_ne h1 (h _).symm
      have : ⌈x - 1 / 2⌉ = ⌊x + 1 / 2⌋ := Int.ceil_eq_iff.2 ⟨by linarith, by linarith⟩
      rw [this]

theorem round_eventually {q : ℝ} (h : ∀ n : ℤ, q + 1 / 2 ≠ n) :
    ∀ᶠ x in 𝓝 q, (roundEvenR x : ℝ) = roundAwayR q := by
  have h1 : (⌊q + 1 / 2⌋ : ℝ) < q + 1 / 2 := lt_of_le_of_ne (Int.floor_le _) (h _).symm
  have h2 := Int.lt_floor_add_one (q + 1 / 2)
  filter_upwards [Ioo_mem_nhds (a := (⌊q + 1 / 2⌋ : ℝ) - 1 / 2) (b := ⌊q + 1 / 2⌋ + 1 / 2) (by linarith) (by linarith)] with x hx
  have hfl : ⌊x + 1 / 2⌋ = ⌊q + 1 / 2⌋ := Int.floor_eq_iff.2 ⟨by linarith [hx.1], by linarith [hx.2]⟩
  have hx' : ∀ n : ℤ, x + 1 / 2 ≠ n := by
    intro n hn
    have a : ⌊q + 1 / 2⌋ < n := by exact_mod_cast (by linarith [hx.1] : (⌊q + 1 / 2⌋ : ℝ) < n)
    have b : n < ⌊q + 1 / 2⌋ + 1 := by exact_mod_cast (by linarith [hx.2] : (n : ℝ) < ⌊q + 1 / 2⌋ + 1)
    omega
  rw [(round_eq hx').1, (round_eq h).2, hfl]

/-- the gradient of the polar angle -/
theorem hasFDerivAt_arg {y x : ℝ} (h : 0 < x ∨ y ≠ 0) :
    HasFDerivAt (fun p : ℝ × ℝ => Complex.arg ⟨p.2, p.1⟩)
      ((x / (y ^ 2 + x ^ 2)) • ContinuousLinearMap.fst ℝ ℝ ℝ + (-y / (y ^ 2 + x ^ 2)) • ContinuousLinearMap.snd ℝ ℝ ℝ) (y, x) := by
  have hz : (⟨x, y⟩ : ℂ) ∈ Complex.slitPlane := h
  have hl := (Complex.hasStrictFDerivAt_log_real hz).hasFDerivAt
  let L : ℝ × ℝ →L[ℝ] ℂ := (ContinuousLinearMap.snd ℝ ℝ ℝ).smulRight (1 : ℂ) + (ContinuousLinearMap.fst ℝ ℝ ℝ).smulRight Complex.I
  have hL : ∀ p : ℝ × ℝ, L p = ⟨p.2, p.1⟩ := fun p => by
    simp only [L]
    apply Complex.ext <;> simp
  have h1 : HasFDerivAt (fun p : ℝ × ℝ => (⟨p.2, p.1⟩ : ℂ)) L (y, x) := by
    have := L.hasFDerivAt (x := (y, x))
    refine this.congr_of_eventuallyEq (Eventually.of_forall fun p => (hL p).symm)
  have h2 := (Complex.imCLM.hasFDerivAt (x := Complex.log ⟨x, y⟩)).comp (y, x) (hl.comp (y, x) h1)
  have hf : (fun p : ℝ × ℝ => Complex.arg ⟨p.2, p.1⟩) = (Complex.imCLM : ℂ → ℝ) ∘ (Complex.log ∘ fun p : ℝ × ℝ => (⟨p.2, p.1⟩ : ℂ)) := by
    funext p; simp [Complex.log_im]
  rw [hf]
  refine h2.congr_fderiv ?_
  have hn : Complex.normSq ⟨x, y⟩ = y ^ 2 + x ^ 2 := by simp [Complex.normSq_apply]; ring
  ext <;> simp [L, Complex.inv_re, Complex.inv_im, hn]

theorem cbrt_pos {x : ℝ} (h : 0 < x) : HasDerivAt cbrtR (x ^ (-2 / 3 : ℝ) / 3) x := by
  have h1 := Real.hasDerivAt_rpow_const (x := x) (p := 1 / 3) (Or.inl h.ne')
  have h2 : HasDerivAt cbrtR (1 / 3 * x ^ ((1 / 3 : ℝ) - 1)) x :=
    h1.congr_of_eventuallyEq (by filter_upwards [Ioi_mem_nhds h] with t ht; simp [cbrtR, not_lt.2 (Set.mem_Ioi.1 ht).le, (Set.mem_Ioi.1 ht).le])
  convert h2 using 1
  rw [show ((1 : ℝ) / 3 - 1) = -2 / 3 by norm_num]; ring

theorem cbrt_neg' {x : ℝ} (h : x < 0) : HasDerivAt cbrtR ((-x) ^ (-2 / 3 : ℝ) / 3) x := by
  have h1 := (Real.hasDerivAt_rpow_const (x := -x) (p := 1 / 3) (Or.inl (by linarith))).comp x (hasDerivAt_neg x)
  have h2 : HasDerivAt cbrtR (-(1 / 3 * (-x) ^ ((1 / 3 : ℝ) - 1) * -1)) x :=
    h1.neg.congr_of_eventuallyEq (by filter_upwards [Iio_mem_nhds h] with t ht; simp [cbrtR, not_le.2 (Set.mem_Iio.1 ht)])
  convert h2 using 1
  rw [show ((1 : ℝ) / 3 - 1) = -2 / 3 by norm_num]; ring

theorem cbrt_cube (x : ℝ) : cbrtR x ^ 3 = x := by
  unfold cbrtR
  split_ifs with h
  · rw [← Real.rpow_natCast, ← Real.rpow_mul h]; norm_num
  · have h' : 0 ≤ -x := by linarith
    rw [Odd.neg_pow (by decide), ← Real.rpow_natCast, ← Real.rpow_mul h']; norm_num

theorem erf_deriv (x : ℝ) : HasDerivAt erfR (2 / Real.sqrt Real.pi * Real.exp (-x ^ 2)) x := by
  have hc : Continuous fun t : ℝ => Real.exp (-t ^ 2) := by fun_prop
  exact (intervalIntegral.integral_hasDerivAt_right (hc.intervalIntegrable _ _) (hc.stronglyMeasurableAtFilter _ _) hc.continuousAt).const_mul _

/-! ### from calculus to `Propagates` -/

theorem propagates1_of {F D : ℝ → ℝ} {a : ℝ} (g : UReal ℝ → UReal ℝ) (hg : ∀ x, g x = unary x (F x.n) (D x.n))
    (h : HasDerivAt F (D a) a) : Propagates1 g F a := by
  refine ⟨D a, h, fun x hx ha => ?_⟩
  obtain ⟨h1, h2, h3⟩ := C01_unary_linear hx.valid (F x.n) (D x.n)
  rw [hg]
  subst ha
  exact ⟨⟨h1, fun i hi => hx.below i (by rwa [deps_unary] at hi)⟩, h2, h3⟩

theorem propagates2_of {F Dx Dy : ℝ → ℝ → ℝ} {a b : ℝ} (g : UReal ℝ → UReal ℝ → Option (UReal ℝ))
    (hg : ∀ x y, g x y = binary x y (F x.n y.n) (Dx x.n y.n) (Dy x.n y.n))
    (h : HasFDerivAt (fun p : ℝ × ℝ => F p.1 p.2)
      (Dx a b • ContinuousLinearMap.fst ℝ ℝ ℝ + Dy a b • ContinuousLinearMap.snd ℝ ℝ ℝ) (a, b)) :
    Propagates2 g F a b := by
  refine ⟨Dx a b, Dy a b, h, fun x y hx hy ha hb => ?_⟩
  subst ha hb
  obtain ⟨z, e, hz, hm, -⟩ := binary_ok hx hy (F x.n y.n) (Dx x.n y.n) (Dy x.n y.n)
  obtain ⟨z', e', -, -, hc⟩ := C01_binary_linear hx.valid hy.valid hx.below hy.below (F x.n y.n) (Dx x.n y.n) (Dy x.n y.n)
  rw [e] at e'
  cases e'
  exact ⟨z, by rw [hg, e], hz, hm, hc⟩

end Unc
