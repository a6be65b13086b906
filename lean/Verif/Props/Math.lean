import Verif.Lemmas.Calc

/-!
# Derivatives propagated by the functions of `math.hpp` on `UReal` (C14)

`Propagates1 g F a` / `Propagates2 g F a b` (see `Verif/Spec/Diff.lean`): `g` has mean `F` and propagates the derivative of `F`.
`F` is always a function of Mathlib or an explicit formula, and the hypotheses describe where `F` is differentiable.
-/

namespace Unc.Props
open Unc Unc.Spec UReal Filter Topology

/-! ## operators -/

theorem C14_neg (a : ℝ) : Propagates1 UReal.neg (fun t => -t) a :=
  propagates1_of (F := fun t => -t) (D := fun _ => -1) _ (fun _ => rfl) (hasDerivAt_neg a)

example := C14_neg (-3)

theorem C14_add (a b : ℝ) : Propagates2 UReal.add (fun s t => s + t) a b :=
  propagates2_of (F := fun s t => s + t) (Dx := fun _ _ => 1) (Dy := fun _ _ => 1) _ (fun _ _ => rfl) <| by
    refine ((hasFDerivAt_fst (𝕜 := ℝ) (p := (a, b))).add hasFDerivAt_snd).congr_fderiv ?_
    ext <;> simp

theorem C14_sub (a b : ℝ) : Propagates2 UReal.sub (fun s t => s - t) a b :=
  propagates2_of (F := fun s t => s - t) (Dx := fun _ _ => 1) (Dy := fun _ _ => -1) _ (fun _ _ => rfl) <| by
    refine ((hasFDerivAt_fst (𝕜 := ℝ) (p := (a, b))).sub hasFDerivAt_snd).congr_fderiv ?_
    ext <;> simp

theorem C14_mul (a b : ℝ) : Propagates2 UReal.mul (fun s t => s * t) a b :=
  propagates2_of (F := fun s t => s * t) (Dx := fun _ t => t) (Dy := fun s _ => s) _ (fun _ _ => rfl) <| by
    refine ((hasFDerivAt_fst (𝕜 := ℝ) (p := (a, b))).mul hasFDerivAt_snd).congr_fderiv ?_
    ext <;> simp

theorem C14_div {a b : ℝ} (hb : b ≠ 0) : Propagates2 UReal.div (fun s t => s / t) a b := by
  refine propagates2_of (F := fun s t => s / t) (Dx := fun _ t => 1 / t) (Dy := fun s t => -(s * (1 / t)) * (1 / t)) _
    (fun x y => ?_) ?_
  · simp only [UReal.div, UReal.n]
    congr 1; ring
  · have h1 : HasFDerivAt (fun p : ℝ × ℝ => p.2⁻¹) (-(b ^ 2)⁻¹ • ContinuousLinearMap.snd ℝ ℝ ℝ) (a, b) :=
      (hasDerivAt_inv hb).comp_hasFDerivAt (a, b) hasFDerivAt_snd
    have h2 := (hasFDerivAt_fst (𝕜 := ℝ) (p := (a, b))).mul h1
    simp only [div_eq_mul_inv]
    refine h2.congr_fderiv ?_
    ext <;> simp
    ring

/-- operands with shared variables: the product of `ex2` and `ex3` -/
example : ∃ z, UReal.mul ex2 ex3 = some z ∧ z.n = 7 * -2 ∧ cov z ex1 = -2 * (2 * 3) + 7 * (3 * 3) := by
  obtain ⟨z, e, -, h1, h2⟩ := C01_binary_linear valid_ex2 valid_ex3 below_ex2 below_ex3 (ex2.mu * ex3.mu) ex3.mu ex2.mu
  refine ⟨z, e, by rw [h1]; simp [ex2, ex3], ?_⟩
  rw [h2 ex1 valid_ex1]
  simp [cov, ex1, ex2, ex3, SMap.find?]

/-! ## functions of one argument -/

theorem C14_abs {a : ℝ} (h : a ≠ 0) : Propagates1 UMath.abs (fun t => |t|) a := by
  refine propagates1_of (F := fun t => |t|) (D := fun t => if CCmp.leb 0 t then 1 else -1) _ (fun _ => rfl) ?_
  rcases lt_or_gt_of_ne h with h | h
  · simpa [not_le.2 h] using hasDerivAt_abs_neg h
  · simpa [h.le] using hasDerivAt_abs_pos h

theorem C14_exp (a : ℝ) : Propagates1 UMath.exp Real.exp a :=
  propagates1_of (D := Real.exp) _ (fun _ => rfl) (Real.hasDerivAt_exp a)

theorem C14_exp2 (a : ℝ) : Propagates1 UMath.exp2 (fun t => (2 : ℝ) ^ t) a := by
  refine propagates1_of (F := fun t => (2 : ℝ) ^ t) (D := fun t => Real.log 2 * (2 : ℝ) ^ t) _ (fun x => ?_) ?_
  · simp [UMath.exp2, CMath.exp2, CMath.log]
  · have := Real.hasStrictDerivAt_const_rpow (a := 2) two_pos a
    rw [mul_comm]; exact this.hasDerivAt

example := C14_exp2 (-3 / 2)

theorem C14_expm1 (a : ℝ) : Propagates1 UMath.expm1 (fun t => Real.exp t - 1) a :=
  propagates1_of (F := fun t => Real.exp t - 1) (D := Real.exp) _ (fun _ => rfl) ((Real.hasDerivAt_exp a).sub_const 1)

example := C14_expm1 (1 / 4)

theorem C14_log {a : ℝ} (h : 0 < a) : Propagates1 UMath.log Real.log a :=
  propagates1_of (D := fun t => 1 / t) _ (fun _ => rfl) (by simpa using Real.hasDerivAt_log h.ne')

theorem C14_log10 {a : ℝ} (h : 0 < a) : Propagates1 UMath.log10 (Real.logb 10) a := by
  refine propagates1_of (D := fun t => 1 / (t * Real.log 10)) _ (fun x => ?_) ?_
  · simp [UMath.log10, CMath.log10, CMath.log]
  · refine ((Real.hasDerivAt_log h.ne').div_const (Real.log 10)).congr_deriv ?_
    rw [one_div, mul_inv, div_eq_mul_inv]

example := C14_log10 (a := 2) (by norm_num)

theorem C14_log2 {a : ℝ} (h : 0 < a) : Propagates1 UMath.log2 (Real.logb 2) a := by
  refine propagates1_of (D := fun t => 1 / (t * Real.log 2)) _ (fun x => ?_) ?_
  · simp [UMath.log2, CMath.log2, CMath.log]
  · refine ((Real.hasDerivAt_log h.ne').div_const (Real.log 2)).congr_deriv ?_
    rw [one_div, mul_inv, div_eq_mul_inv]

example := C14_log2 (a := 3) (by norm_num)

theorem C14_log1p {a : ℝ} (h : -1 < a) : Propagates1 UMath.log1p (fun t => Real.log (1 + t)) a := by
  refine propagates1_of (F := fun t => Real.log (1 + t)) (D := fun t => 1 / (1 + t)) _ (fun _ => rfl) ?_
  exact ((hasDerivAt_id a).const_add 1).log (by simp; linarith)

example := C14_log1p (a := -1 / 2) (by norm_num)

theorem C14_sqrt {a : ℝ} (h : 0 < a) : Propagates1 UMath.sqrt Real.sqrt a := by
  refine propagates1_of (D := fun t => 1 / (2 * Real.sqrt t)) _ (fun x => ?_) (Real.hasDerivAt_sqrt h.ne')
  simp [UMath.sqrt]

example := C14_sqrt (a := 2) (by norm_num)

/-- For `a < 0`, where the cube root is also differentiable, see `C14_cbrt_nan`. -/
theorem C14_cbrt_partial {a : ℝ} (h : 0 < a) : Propagates1 UMath.cbrt cbrtR a ∧ ∀ t, cbrtR t ^ 3 = t := by
  refine ⟨propagates1_of (D := fun t => t ^ (-2 / 3 : ℝ) / 3) _ (fun x => ?_) (cbrt_pos h), cbrt_cube⟩
  simp [UMath.cbrt, CMath.cbrt, CMath.pow]

example := C14_cbrt_partial (a := 8) (by norm_num)

theorem C14_sin (a : ℝ) : Propagates1 UMath.sin Real.sin a :=
  propagates1_of (D := Real.cos) _ (fun _ => rfl) (Real.hasDerivAt_sin a)

theorem C14_cos (a : ℝ) : Propagates1 UMath.cos Real.cos a :=
  propagates1_of (D := fun t => -Real.sin t) _ (fun _ => rfl) (Real.hasDerivAt_cos a)

theorem C14_tan {a : ℝ} (h : Real.cos a ≠ 0) : Propagates1 UMath.tan Real.tan a := by
  refine propagates1_of (D := fun t => 1 + Real.tan t * Real.tan t) _ (fun _ => rfl) ?_
  convert Real.hasDerivAt_tan h using 1
  rw [Real.tan_eq_sin_div_cos]
  field_simp
  rw [add_comm]; exact Real.sin_sq_add_cos_sq a

example := C14_tan (a := 1) ((Real.cos_pos_of_le_one (by norm_num)).ne')

theorem C14_asin {a : ℝ} (h1 : -1 < a) (h2 : a < 1) : Propagates1 UMath.asin Real.arcsin a := by
  refine propagates1_of (D := fun t => 1 / Real.sqrt (1 - t * t)) _ (fun _ => rfl) ?_
  simpa [sq] using Real.hasDerivAt_arcsin h1.ne' h2.ne

theorem C14_acos {a : ℝ} (h1 : -1 < a) (h2 : a < 1) : Propagates1 UMath.acos Real.arccos a := by
  refine propagates1_of (D := fun t => -1 / Real.sqrt (1 - t * t)) _ (fun _ => rfl) ?_
  simpa [sq, neg_div] using Real.hasDerivAt_arccos h1.ne' h2.ne

example := C14_acos (a := -1 / 2) (by norm_num) (by norm_num)

theorem C14_atan (a : ℝ) : Propagates1 UMath.atan Real.arctan a := by
  refine propagates1_of (D := fun t => 1 / (1 + t * t)) _ (fun _ => rfl) ?_
  simpa [sq] using Real.hasDerivAt_arctan a

example := C14_atan (-3)

theorem C14_sinh (a : ℝ) : Propagates1 UMath.sinh Real.sinh a :=
  propagates1_of (D := Real.cosh) _ (fun _ => rfl) (Real.hasDerivAt_sinh a)

example := C14_sinh 2

theorem C14_cosh (a : ℝ) : Propagates1 UMath.cosh Real.cosh a :=
  propagates1_of (D := Real.sinh) _ (fun _ => rfl) (Real.hasDerivAt_cosh a)

example := C14_cosh 2

theorem hasDerivAt_tanh' (a : ℝ) : HasDerivAt Real.tanh (1 - Real.tanh a * Real.tanh a) a := by
  have h := (Real.hasDerivAt_sinh a).div (Real.hasDerivAt_cosh a) (Real.cosh_pos a).ne'
  have e : Real.tanh = fun t => Real.sinh t / Real.cosh t := by funext t; exact Real.tanh_eq_sinh_div_cosh t
  rw [e]
  refine h.congr_deriv ?_
  have := (Real.cosh_pos a).ne'
  field_simp

theorem C14_tanh (a : ℝ) : Propagates1 UMath.tanh Real.tanh a :=
  propagates1_of (D := fun t => 1 - Real.tanh t * Real.tanh t) _ (fun _ => rfl) (hasDerivAt_tanh' a)

example := C14_tanh 2

theorem C14_asinh (a : ℝ) : Propagates1 UMath.asinh Real.arsinh a := by
  refine propagates1_of (D := fun t => 1 / Real.sqrt (t * t + 1)) _ (fun _ => rfl) ?_
  simpa [sq, add_comm] using Real.hasDerivAt_arsinh a

example := C14_asinh (-2)

theorem C14_acosh {a : ℝ} (h : 1 < a) : Propagates1 UMath.acosh Real.arcosh a := by
  refine propagates1_of (D := fun t => 1 / Real.sqrt (t * t - 1)) _ (fun _ => rfl) ?_
  simpa [sq] using Real.hasDerivAt_arcosh h

example := C14_acosh (a := 3 / 2) (by norm_num)

theorem hasDerivAt_artanh' {a : ℝ} (h1 : -1 < a) (h2 : a < 1) : HasDerivAt Real.artanh (1 / (1 - a * a)) a := by
  have hp : (1 + a) / (1 - a) ≠ 0 := (div_pos (by linarith) (by linarith)).ne'
  have hd : HasDerivAt (fun t : ℝ => 1 / 2 * Real.log ((1 + t) / (1 - t))) (1 / (1 - a * a)) a := by
    have h := ((((hasDerivAt_id a).const_add 1).div ((hasDerivAt_id a).const_sub 1) (by simp; linarith)).log hp).const_mul (1 / 2)
    refine h.congr_deriv ?_
    have e1 : (1 - a) ≠ 0 := by linarith
    have e2 : (1 + a) ≠ 0 := by linarith
    have e3 : 1 - a * a ≠ 0 := by
      have : 1 - a * a = (1 - a) * (1 + a) := by ring
      rw [this]; exact mul_ne_zero e1 e2
    simp only [_root_.id, Pi.div_apply]
    rw [show 1 - a * a = (1 - a) * (1 + a) by ring]
    field_simp
    ring
  refine hd.congr_of_eventuallyEq ?_
  filter_upwards [Ioo_mem_nhds h1 h2] with t ht
  rw [Real.artanh_eq_half_log ⟨ht.1.le, ht.2.le⟩]

theorem C14_atanh {a : ℝ} (h1 : -1 < a) (h2 : a < 1) : Propagates1 UMath.atanh Real.artanh a :=
  propagates1_of (D := fun t => 1 / (1 - t * t)) _ (fun _ => rfl) (hasDerivAt_artanh' h1 h2)

example := C14_atanh (a := 1 / 2) (by norm_num) (by norm_num)

theorem erfCoeff_eq : (UMath.erfCoeff : ℝ) = 2 / Real.sqrt Real.pi := by
  have : (⟨-1, 0⟩ : ℂ) = -1 := by apply Complex.ext <;> simp
  simp [UMath.erfCoeff, CMath.atan2, this, Complex.arg_neg_one]

/-- the error function, as the integral `2/√π ∫_0^x exp(-t²) dt` -/
theorem C14_erf (a : ℝ) : Propagates1 UMath.erf (fun x => 2 / Real.sqrt Real.pi * ∫ t in (0 : ℝ)..x, Real.exp (-t ^ 2)) a := by
  refine propagates1_of (F := erfR) (D := fun t => 2 / Real.sqrt Real.pi * Real.exp (-t ^ 2)) _ (fun x => ?_) (erf_deriv a)
  simp only [UMath.erf, erfCoeff_eq, CMath.erf, CMath.exp]
  congr 3; ring

example := C14_erf (1 / 3)

theorem C14_erfc (a : ℝ) : Propagates1 UMath.erfc (fun x => 1 - 2 / Real.sqrt Real.pi * ∫ t in (0 : ℝ)..x, Real.exp (-t ^ 2)) a := by
  refine propagates1_of (F := fun x => 1 - erfR x) (D := fun t => -(2 / Real.sqrt Real.pi * Real.exp (-t ^ 2))) _ (fun x => ?_)
    ((erf_deriv a).const_sub 1)
  simp only [UMath.erfc, erfCoeff_eq, CMath.erfc, CMath.exp, neg_mul]
  congr 4; ring

example := C14_erfc (1 / 3)

/-- Arguments meeting the hypotheses: `ex1` (mean 5), `ex2` (mean 7), `ex3` (mean -2) and a value with mean 1/2 that depends on
two variables. -/
noncomputable def exHalf : UReal ℝ := ⟨-1, -1, 1 / 2, [(1, 1), (4, -1)]⟩

theorem ok_exHalf : Ok exHalf :=
  ⟨⟨⟨by simp [exHalf], by simp [exHalf], by simp [exHalf, SMap.Sorted], by simp [exHalf]⟩,
    fun _ h => by simp only [exHalf] at h; norm_num at h⟩, by simp [Below, exHalf, deps, maxId]⟩

example : (UMath.asin exHalf).n = Real.arcsin (1 / 2) ∧ cov (UMath.asin exHalf) ex1 = 1 / Real.sqrt (1 - 1 / 2 * (1 / 2)) * 3 := by
  obtain ⟨d, hd, h⟩ := C14_asin (a := 1 / 2) (by norm_num) (by norm_num)
  obtain ⟨-, h1, h2⟩ := h exHalf ok_exHalf rfl
  refine ⟨h1, ?_⟩
  rw [h2 ex1 valid_ex1, hd.unique (Real.hasDerivAt_arcsin (by norm_num) (by norm_num))]
  simp only [cov, exHalf, ex1, SMap.find?]
  norm_num

example : (UMath.abs ex3).n = 2 ∧ cov (UMath.abs ex3) ex1 = -9 := by
  obtain ⟨d, hd, h⟩ := C14_abs (a := -2) (by norm_num)
  obtain ⟨-, h1, h2⟩ := h ex3 ⟨valid_ex3, below_ex3⟩ rfl
  refine ⟨by rw [h1]; norm_num, ?_⟩
  rw [h2 ex1 valid_ex1, hd.unique (hasDerivAt_abs_neg (by norm_num))]
  simp [cov, ex1, ex3, SMap.find?]; norm_num

/-! ## functions of two arguments -/

/-- `x - trunc(x/y) y`, differentiable unless `x/y` is a non-zero integer -/
theorem C14_fmod {a b : ℝ} (hb : b ≠ 0) (h : |a / b| < 1 ∨ ∀ n : ℤ, a / b ≠ n) :
    Propagates2 UMath.fmod (fun s t => s - (if 0 ≤ s / t then (⌊s / t⌋ : ℝ) else ⌈s / t⌉) * t) a b := by
  refine propagates2_of (F := fun s t => s - truncR (s / t) * t) (Dx := fun _ _ => 1) (Dy := fun s t => -truncR (s / t)) _
    (fun _ _ => rfl) ?_
  have hc : ContinuousAt (fun p : ℝ × ℝ => p.1 / p.2) (a, b) := continuousAt_fst.div continuousAt_snd hb
  have h1 : HasFDerivAt (fun p : ℝ × ℝ => p.1 - truncR (a / b) * p.2)
      (ContinuousLinearMap.fst ℝ ℝ ℝ - truncR (a / b) • ContinuousLinearMap.snd ℝ ℝ ℝ) (a, b) :=
    (hasFDerivAt_fst (𝕜 := ℝ)).sub ((hasFDerivAt_snd (𝕜 := ℝ)).const_mul _)
  refine (h1.congr_of_eventuallyEq ?_).congr_fderiv ?_
  · filter_upwards [hc.eventually (trunc_eventually h)] with p hp
    rw [hp]
  · ext <;> simp

example := C14_fmod (a := 7) (b := -2) (by norm_num) (Or.inr fun n h => by
    have : (7 : ℤ) = -2 * n := by
      have : (7 : ℝ) = -2 * n := by rw [← h]; norm_num
      exact_mod_cast this
    omega)

/-- `x - n y` with `n` the integer nearest to `x/y`, differentiable unless `x/y` is a half-integer -/
theorem C14_remainder {a b : ℝ} (hb : b ≠ 0) (h : ∀ n : ℤ, a / b + 1 / 2 ≠ n) :
    Propagates2 UMath.remainder (fun s t => s - roundEvenR (s / t) * t) a b ∧
      roundEvenR (a / b) = ⌊a / b + 1 / 2⌋ := by
  refine ⟨propagates2_of (F := fun s t => s - roundEvenR (s / t) * t) (Dx := fun _ _ => 1) (Dy := fun s t => -roundAwayR (s / t)) _
    (fun _ _ => rfl) ?_, (round_eq h).1⟩
  have hc : ContinuousAt (fun p : ℝ × ℝ => p.1 / p.2) (a, b) := continuousAt_fst.div continuousAt_snd hb
  have h1 : HasFDerivAt (fun p : ℝ × ℝ => p.1 - roundAwayR (a / b) * p.2)
      (ContinuousLinearMap.fst ℝ ℝ ℝ - roundAwayR (a / b) • ContinuousLinearMap.snd ℝ ℝ ℝ) (a, b) :=
    (hasFDerivAt_fst (𝕜 := ℝ)).sub ((hasFDerivAt_snd (𝕜 := ℝ)).const_mul _)
  refine (h1.congr_of_eventuallyEq ?_).congr_fderiv ?_
  · filter_upwards [hc.eventually (round_eventually h)] with p hp
    rw [hp]
  · ext <;> simp

example := C14_remainder (a := 7) (b := 5) (by norm_num) (fun n h => by
    have : (19 : ℤ) = 10 * n := by
      have : (19 : ℝ) = 10 * n := by rw [← h]; norm_num
      exact_mod_cast this
    omega)

theorem C14_fmax {a b : ℝ} (h : a ≠ b) : Propagates2 UMath.fmax max a b := by
  refine propagates2_of (F := max) (Dx := fun s t => if CCmp.eqb (max s t) s then 1 else 0)
    (Dy := fun s t => if CCmp.eqb (max s t) s then 0 else 1) _ (fun _ _ => rfl) ?_
  rcases lt_or_gt_of_ne h with h | h
  · have : HasFDerivAt (fun p : ℝ × ℝ => max p.1 p.2) (ContinuousLinearMap.snd ℝ ℝ ℝ) (a, b) :=
      (hasFDerivAt_snd (𝕜 := ℝ)).congr_of_eventuallyEq (by
        filter_upwards [(continuousAt_fst (p := (a, b))).eventually_lt continuousAt_snd h] with p hp
        exact max_eq_right hp.le)
    refine this.congr_fderiv ?_
    simp [max_eq_right h.le, h.ne']
  · have : HasFDerivAt (fun p : ℝ × ℝ => max p.1 p.2) (ContinuousLinearMap.fst ℝ ℝ ℝ) (a, b) :=
      (hasFDerivAt_fst (𝕜 := ℝ)).congr_of_eventuallyEq (by
        filter_upwards [(continuousAt_snd (p := (a, b))).eventually_lt continuousAt_fst h] with p hp
        exact max_eq_left hp.le)
    refine this.congr_fderiv ?_
    simp [max_eq_left h.le]

example := C14_fmax (a := 7) (b := -2) (by norm_num)

theorem C14_fmin {a b : ℝ} (h : a ≠ b) : Propagates2 UMath.fmin min a b := by
  refine propagates2_of (F := min) (Dx := fun s t => if CCmp.eqb (min s t) s then 1 else 0)
    (Dy := fun s t => if CCmp.eqb (min s t) s then 0 else 1) _ (fun _ _ => rfl) ?_
  rcases lt_or_gt_of_ne h with h | h
  · have : HasFDerivAt (fun p : ℝ × ℝ => min p.1 p.2) (ContinuousLinearMap.fst ℝ ℝ ℝ) (a, b) :=
      (hasFDerivAt_fst (𝕜 := ℝ)).congr_of_eventuallyEq (by
        filter_upwards [(continuousAt_fst (p := (a, b))).eventually_lt continuousAt_snd h] with p hp
        exact min_eq_left hp.le)
    refine this.congr_fderiv ?_
    simp [min_eq_left h.le]
  · have : HasFDerivAt (fun p : ℝ × ℝ => min p.1 p.2) (ContinuousLinearMap.snd ℝ ℝ ℝ) (a, b) :=
      (hasFDerivAt_snd (𝕜 := ℝ)).congr_of_eventuallyEq (by
        filter_upwards [(continuousAt_snd (p := (a, b))).eventually_lt continuousAt_fst h] with p hp
        exact min_eq_right hp.le)
    refine this.congr_fderiv ?_
    simp [min_eq_right h.le, h.ne]

example := C14_fmin (a := 7) (b := -2) (by norm_num)

theorem C14_pow {a b : ℝ} (h : 0 < a) : Propagates2 UMath.pow (fun s t => s ^ t) a b := by
  refine propagates2_of (F := fun s t => s ^ t) (Dx := fun s t => s ^ t * t / s) (Dy := fun s t => s ^ t * Real.log s) _
    (fun _ _ => rfl) ?_
  refine (Real.hasStrictFDerivAt_rpow_of_pos (a, b) h).hasFDerivAt.congr_fderiv ?_
  simp only [Real.rpow_sub_one h.ne']
  congr 2
  ring

example := C14_pow (a := 1 / 2) (b := -2) (by norm_num)

/-- `pow` with a constant integer exponent: also for negative bases -/
theorem C14_pow_int {a : ℝ} (k : ℤ) (h : a ≠ 0) :
    Propagates1 (fun x => (UMath.pow x (UReal.const (k : ℝ))).getD (UReal.const 0)) (fun t => t ^ k) a ∧
      ∀ x, Ok x → (UMath.pow x (UReal.const (k : ℝ))).isSome := by
  have key : ∀ x, Ok x → ∃ z, UMath.pow x (UReal.const (k : ℝ)) = some z ∧ Ok z ∧ z.n = x.n ^ k ∧
      ∀ w : UReal ℝ, w.Valid → cov z w = (x.n ^ k * k / x.n) * cov x w := by
    intro x hx
    have hc : Ok (UReal.const (k : ℝ)) := ⟨valid_const _, by simp [Below, deps, UReal.const]⟩
    obtain ⟨z, e, hz, hm, -⟩ := binary_ok hx hc (x.n ^ (k : ℝ)) (x.n ^ (k : ℝ) * k / x.n) (x.n ^ (k : ℝ) * Real.log x.n)
    obtain ⟨z', e', -, -, hcv⟩ := C01_binary_linear hx.valid hc.valid hx.below hc.below (x.n ^ (k : ℝ)) (x.n ^ (k : ℝ) * k / x.n)
      (x.n ^ (k : ℝ) * Real.log x.n)
    rw [e] at e'; cases e'
    refine ⟨z, e, hz, by rw [UReal.n, hm, Real.rpow_intCast], fun w hw => ?_⟩
    rw [hcv w hw, Real.rpow_intCast]
    have : cov (UReal.const (k : ℝ)) w = 0 := by simp [cov, UReal.const]
    rw [this, mul_zero, add_zero]
  refine ⟨⟨a ^ k * k / a, ?_, fun x hx ha => ?_⟩, fun x hx => ?_⟩
  · have := hasDerivAt_zpow k a (Or.inl h)
    refine this.congr_deriv ?_
    rw [zpow_sub_one₀ h]; ring
  · obtain ⟨z, e, hz, hm, hcv⟩ := key x hx
    simp only [e, Option.getD_some]
    subst ha
    exact ⟨hz, hm, hcv⟩
  · obtain ⟨z, e, -⟩ := key x hx
    simp [e]

example := C14_pow_int (a := -3) 5 (by norm_num)

theorem C14_hypot {a b : ℝ} (h : a ≠ 0 ∨ b ≠ 0) : Propagates2 UMath.hypot (fun s t => Real.sqrt (s ^ 2 + t ^ 2)) a b := by
  refine propagates2_of (F := fun s t => Real.sqrt (s ^ 2 + t ^ 2)) (Dx := fun s t => s / Real.sqrt (s ^ 2 + t ^ 2))
    (Dy := fun s t => t / Real.sqrt (s ^ 2 + t ^ 2)) _ (fun _ _ => rfl) ?_
  have hp : a ^ 2 + b ^ 2 ≠ 0 := by
    rcases h with h | h
    · have := sq_nonneg b; have : 0 < a ^ 2 := by positivity
      linarith
    · have := sq_nonneg a; have : 0 < b ^ 2 := by positivity
      linarith
  have h1 := ((hasFDerivAt_fst (𝕜 := ℝ) (p := (a, b))).pow 2).add ((hasFDerivAt_snd (𝕜 := ℝ) (p := (a, b))).pow 2)
  have h2 := h1.sqrt hp
  refine h2.congr_fderiv ?_
  have : Real.sqrt (a ^ 2 + b ^ 2) ≠ 0 := by
    rw [Real.sqrt_ne_zero']; positivity
  ext
  · simp; field_simp
  · simp; field_simp

/-- **C14** for `atan2`: what should hold; the first argument is the ordinate. -/
def C14_atan2_statement : Prop :=
  ∀ a b : ℝ, (0 < b ∨ a ≠ 0) → Propagates2 UMath.atan2 (fun s t => Complex.arg ⟨t, s⟩) a b

/-- **C14** fails for `atan2`: at (1, 1) the derivative with respect to the first argument is propagated with the wrong sign. -/
theorem C14_atan2_false : ¬ C14_atan2_statement := by
  intro h
  obtain ⟨dx, dy, hd, hg⟩ := h 1 1 (Or.inl one_pos)
  have hu := hd.unique (hasFDerivAt_arg (y := 1) (x := 1) (Or.inl one_pos))
  have hdx : dx = 1 / 2 := by
    have := congrArg (fun L : ℝ × ℝ →L[ℝ] ℝ => L (1, 0)) hu
    simp at this; rw [this]; norm_num
  let x : UReal ℝ := ⟨1, 1, 1, []⟩
  have hx : Ok x := ⟨valid_of_nonneg_id ⟨by simp [x], by simp [x], by simp [x], by simp [x]⟩ (by simp [x]), by simp [x, Below, deps, maxId]⟩
  have hc : Ok (UReal.const (1 : ℝ)) := ⟨valid_const _, by simp [Below, deps, UReal.const]⟩
  obtain ⟨z, e, hz, -, hcv⟩ := hg x (UReal.const 1) hx hc rfl rfl
  have h1 := hcv x hx.valid
  obtain ⟨z', e', -, -, hcv'⟩ := C01_binary_linear hx.valid hc.valid hx.below hc.below (CMath.atan2 x.n (UReal.const (1 : ℝ)).n)
    (1 / ((1 + (UReal.const (1 : ℝ)).n / x.n * ((UReal.const (1 : ℝ)).n / x.n)) * x.n) * (-((UReal.const (1 : ℝ)).n / x.n)))
    (1 / ((1 + (UReal.const (1 : ℝ)).n / x.n * ((UReal.const (1 : ℝ)).n / x.n)) * x.n))
  rw [show UMath.atan2 x (UReal.const 1) = some z' from e'] at e
  cases e
  rw [hcv' x hx.valid, hdx] at h1
  simp [cov, x, UReal.const, UReal.n] at h1
  norm_num at h1

/-- What does hold for `atan2` with first mean not 0: both derivatives have the right size and the wrong sign, so the variance is
right and covariances with other variables are wrong by the sign. -/
theorem C14_atan2_partial {a b : ℝ} (ha : a ≠ 0) :
    ∃ dx dy : ℝ, HasFDerivAt (fun p : ℝ × ℝ => Complex.arg ⟨p.2, p.1⟩)
      (dx • ContinuousLinearMap.fst ℝ ℝ ℝ + dy • ContinuousLinearMap.snd ℝ ℝ ℝ) (a, b) ∧
    ∀ x y, Ok x → Ok y → x.n = a → y.n = b →
      ∃ z, UMath.atan2 x y = some z ∧ Ok z ∧ z.n = Complex.arg ⟨b, a⟩ ∧
        (∀ w : UReal ℝ, w.Valid → cov z w = -(dx * cov x w + dy * cov y w)) ∧
        var z = dx ^ 2 * var x + 2 * dx * dy * cov x y + dy ^ 2 * var y := by
  refine ⟨_, _, hasFDerivAt_arg (Or.inr ha), fun x y hx hy h1 h2 => ?_⟩
  have hdy : ∀ a b : ℝ, a ≠ 0 → 1 / ((1 + b / a * (b / a)) * a) = -(-a / (a ^ 2 + b ^ 2)) := by
    intro a b ha
    have : a ^ 2 + b ^ 2 ≠ 0 := by positivity
    have h3 : 1 + b / a * (b / a) = (a ^ 2 + b ^ 2) / a ^ 2 := by field_simp
    rw [h3]; field_simp
  have hdx : 1 / ((1 + b / a * (b / a)) * a) * (-(b / a)) = -(b / (a ^ 2 + b ^ 2)) := by
    rw [hdy a b ha]
    have : a ^ 2 + b ^ 2 ≠ 0 := by positivity
    field_simp
  obtain ⟨z, e, hz, hm, -⟩ := binary_ok hx hy (Complex.arg ⟨y.n, x.n⟩) (-(b / (a ^ 2 + b ^ 2))) (-(-a / (a ^ 2 + b ^ 2)))
  obtain ⟨z', e', -, -, hcv⟩ := C01_binary_linear hx.valid hy.valid hx.below hy.below (Complex.arg ⟨y.n, x.n⟩) (-(b / (a ^ 2 + b ^ 2)))
    (-(-a / (a ^ 2 + b ^ 2)))
  obtain ⟨z'', e'', hv⟩ := C01_binary_var hx.valid hy.valid hx.below hy.below (Complex.arg ⟨y.n, x.n⟩) (-(b / (a ^ 2 + b ^ 2)))
    (-(-a / (a ^ 2 + b ^ 2)))
  rw [e] at e' e''; cases e'; cases e''
  refine ⟨z, ?_, hz, by rw [UReal.n, hm, h1, h2], fun w hw => ?_, ?_⟩
  · rw [← e]
    simp only [UMath.atan2, h1, h2, hdx, CMath.atan2]
    rw [hdy a b ha]
  · rw [hcv w hw]; ring
  · rw [hv]; ring

example := C14_atan2_partial (a := 7) (b := -2) (by norm_num)

example : ∃ z, UMath.hypot ex2 ex3 = some z ∧ Ok z ∧ z.n = Real.sqrt (7 ^ 2 + (-2) ^ 2) := by
  obtain ⟨dx, dy, -, h⟩ := C14_hypot (a := 7) (b := -2) (Or.inl (by norm_num))
  obtain ⟨z, e, hz, hm, -⟩ := h ex2 ex3 ⟨valid_ex2, below_ex2⟩ ⟨valid_ex3, below_ex3⟩ rfl rfl
  exact ⟨z, e, hz, hm⟩

/-- `fmod` and `remainder` of 7 and -2: the quotient -3.5 is not an integer but is a tie; 5 and -2 is also a tie, 7 and 5 neither -/
example : (|(7 : ℝ) / -2| < 1 ∨ ∀ n : ℤ, (7 : ℝ) / -2 ≠ n) ∧ ¬ (∀ n : ℤ, (7 : ℝ) / -2 + 1 / 2 ≠ n) ∧ (∀ n : ℤ, (7 : ℝ) / 5 + 1 / 2 ≠ n) := by
  refine ⟨Or.inr fun n h => ?_, fun h => h (-3) (by norm_num), fun n h => ?_⟩
  · have : (7 : ℤ) = -2 * n := by
      have : (7 : ℝ) = -2 * n := by rw [← h]; norm_num
      exact_mod_cast this
    omega
  · have : (19 : ℤ) = 10 * n := by
      have : (19 : ℝ) = 10 * n := by rw [← h]; norm_num
      exact_mod_cast this
    omega

end Unc.Props
