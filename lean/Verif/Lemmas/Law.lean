import Verif.Spec.Law
import Mathlib.MeasureTheory.Integral.Indicator

/-! # Linear combinations of independent errors -/

namespace Unc.Spec
open MeasureTheory ProbabilityTheory Filter Topology
variable {Ω : Type*} [MeasurableSpace Ω] {P : Measure Ω} {n : ℕ} {Z : Fin n → Ω → ℝ}

theorem Errors.prob (h : Errors P Z) : IsProbabilityMeasure P := h.indep.isProbabilityMeasure

theorem measurable_combo (hm : ∀ i, Measurable (Z i)) (a : Fin n → ℝ) : Measurable (combo a Z) :=
  Finset.measurable_sum _ fun i _ => (hm i).const_mul (a i)

theorem Errors.memLp (h : Errors P Z) (a : Fin n → ℝ) : MemLp (combo a Z) 2 P :=
  memLp_finsetSum _ fun i _ => (h.sq i).const_mul (a i)

theorem Errors.integral_combo (h : Errors P Z) (a : Fin n → ℝ) : ∫ ω, combo a Z ω ∂P = 0 := by
  have := h.prob
  unfold combo
  rw [integral_finsetSum _ fun i _ => ((h.sq i).integrable one_le_two).const_mul (a i)]
  simp [integral_const_mul, h.mean]

theorem Errors.cov (h : Errors P Z) (a b : Fin n → ℝ) : cov[combo a Z, combo b Z; P] = ∑ i, a i * b i := by
  have := h.prob
  have e : ∀ i j, cov[Z i, Z j; P] = if i = j then 1 else 0 := by
    intro i j
    split_ifs with hij
    · subst hij
      rw [covariance_self (h.meas i).aemeasurable, h.var]
    · exact (h.indep.indepFun hij).covariance_eq_zero (h.sq i) (h.sq j)
  have hs : ∀ c : Fin n → ℝ, combo c Z = fun ω => ∑ i, (fun i ω => c i * Z i ω) i ω := fun c => rfl
  rw [hs a, hs b, covariance_fun_sum_fun_sum (fun i => (h.sq i).const_mul _) fun i => (h.sq i).const_mul _]
  simp only [covariance_const_mul_left, covariance_const_mul_right, e]
  simp [mul_comm]

theorem Errors.variance (h : Errors P Z) (a : Fin n → ℝ) : Var[combo a Z; P] = ∑ i, a i ^ 2 := by
  rw [← covariance_self (measurable_combo h.meas a).aemeasurable, h.cov]
  exact Finset.sum_congr rfl fun i _ => (pow_two _).symm

/-- independent standard normal errors are errors in the sense above -/
theorem errors_of_gaussian (hi : iIndepFun Z P) (hm : ∀ i, Measurable (Z i)) (hg : ∀ i, P.map (Z i) = gaussianReal 0 1) : Errors P Z := by
  have hl : ∀ i, HasGaussianLaw (Z i) P := fun i => ⟨by rw [hg i]; infer_instance⟩
  refine ⟨hi, hm, fun i => (hl i).memLp_two, fun i => ?_, fun i => ?_⟩
  · have := integral_map (hm i).aemeasurable (f := fun x : ℝ => x) (by fun_prop) (μ := P)
    rw [hg i, integral_id_gaussianReal] at this
    exact this.symm
  · have := variance_map (X := fun x : ℝ => x) (by fun_prop) (hm i).aemeasurable (μ := P)
    rw [hg i, variance_fun_id_gaussianReal] at this
    simpa [Function.comp_def] using this.symm

/-- a linear combination of independent normal errors is normal -/
theorem map_combo (hi : iIndepFun Z P) (hm : ∀ i, Measurable (Z i)) (hg : ∀ i, P.map (Z i) = gaussianReal 0 1) (a : Fin n → ℝ) :
    P.map (combo a Z) = gaussianReal 0 (∑ i, a i ^ 2).toNNReal := by
  have h := errors_of_gaussian hi hm hg
  have hl : ∀ i, HasGaussianLaw (Z i) P := fun i => ⟨by rw [hg i]; infer_instance⟩
  have hj := hi.hasGaussianLaw hl
  have hc : HasGaussianLaw (combo a Z) P := by
    have := hj.map_fun (∑ i, a i • ContinuousLinearMap.proj (R := ℝ) (φ := fun _ : Fin n => ℝ) i)
    rw [show combo a Z = fun ω => ∑ i, a i * Z i ω from rfl]
    simpa [ContinuousLinearMap.sum_apply] using this
  rw [hc.map_eq_gaussianReal, h.integral_combo, h.variance]

end Unc.Spec
