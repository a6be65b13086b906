import Mathlib.Probability.Moments.Covariance
import Mathlib.Probability.Distributions.Gaussian.HasGaussianLaw.Independence

/-!
# Specification: measured quantities as random variables (C67)

Nothing here refers to the library.
-/

namespace Unc.Spec
open MeasureTheory ProbabilityTheory
variable {Ω : Type*} [MeasurableSpace Ω]

/-- standardised errors: independent, with mean 0 and variance 1 -/
structure Errors {n : ℕ} (P : Measure Ω) (Z : Fin n → Ω → ℝ) : Prop where
  indep : iIndepFun Z P
  meas : ∀ i, Measurable (Z i)
  sq : ∀ i, MemLp (Z i) 2 P
  mean : ∀ i, ∫ ω, Z i ω ∂P = 0
  var : ∀ i, Var[Z i; P] = 1

/-- the quantities with means `mu` and standard deviations `s` -/
def quantity {n : ℕ} (mu s : Fin n → ℝ) (Z : Fin n → Ω → ℝ) (ω : Ω) : Fin n → ℝ := fun i => mu i + s i * Z i ω

/-- a linear combination of the errors -/
def combo {n : ℕ} (a : Fin n → ℝ) (Z : Fin n → Ω → ℝ) (ω : Ω) : ℝ := ∑ i, a i * Z i ω

end Unc.Spec
