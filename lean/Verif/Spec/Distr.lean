import Verif.Spec.Check
import Verif.Spec.Second
import Mathlib.Probability.Distributions.Gaussian.Real
import Mathlib.Probability.ConditionalProbability
import Mathlib.MeasureTheory.Constructions.Pi

/-!
# Distributions and the variables standing for them
-/

namespace Unc
open MeasureTheory ProbabilityTheory

/-- Law of the sum of the squares of `k` independent standard normal variables. -/
noncomputable def chiSquareLaw (k : ℕ) : Measure ℝ :=
  (Measure.pi fun _ : Fin k => gaussianReal 0 1).map fun x => ∑ i, x i ^ 2

/-- Uniform distribution on an interval: Lebesgue measure conditioned on it. -/
noncomputable def uniformLaw (a b : ℝ) : Measure ℝ := ProbabilityTheory.cond volume (Set.Icc a b)

/-- The value is a new variable with id `id`, and reports the mean, the standard deviation, the skewness and the
kurtosis of the distribution; its stored standardized moments 3 to 8 are those of the distribution. -/
structure Carries (x : UReal2 ℝ) (id : VId) (ν : Measure ℝ) : Prop where
  dist : Distribution ν
  mean : ∀ p, x.n p = some (dMean ν)
  sdev : x.s = some (Real.sqrt (dCentral ν 2))
  vars : x.hg.vars = {id}
  skew : x.skew = some (dStd ν 3)
  kurt : x.kurt = some (dStd ν 4)
  mom : x.hg.momOf id = some ⟨dStd ν 3, dStd ν 4, dStd ν 5, dStd ν 6, dStd ν 7, dStd ν 8⟩

end Unc
