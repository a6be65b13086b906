import Verif.Spec.Bias
import Verif.Spec.Moments

/-!
# Specification: second-order values and random variables (C70)

The errors are random variables; the moments are integrals.  Nothing here refers to the algorithms of the library: `Moments` is the record of the six
numbers given to the constructor.
-/

namespace Unc.Spec
open MeasureTheory ProbabilityTheory
variable {Ω : Type*} [MeasurableSpace Ω]

/-- standardised errors: independent, with mean 0, variance 1, and the given moments from the third to the eighth -/
structure Errors8 {n : ℕ} (P : Measure Ω) (X : Fin n → Ω → ℝ) (mom : Fin n → Moments ℝ) : Prop where
  prob : IsProbabilityMeasure P
  indep : iIndepFun X P
  meas : ∀ i, AEMeasurable (X i) P
  int : ∀ i, ∀ k ≤ 8, Integrable (fun ω => X i ω ^ k) P
  mean : ∀ i, ∫ ω, X i ω ∂P = 0
  var : ∀ i, ∫ ω, X i ω ^ 2 ∂P = 1
  m3 : ∀ i, ∫ ω, X i ω ^ 3 ∂P = (mom i).v3
  m4 : ∀ i, ∫ ω, X i ω ^ 4 ∂P = (mom i).v4
  m5 : ∀ i, ∫ ω, X i ω ^ 5 ∂P = (mom i).v5
  m6 : ∀ i, ∫ ω, X i ω ^ 6 ∂P = (mom i).v6
  m7 : ∀ i, ∫ ω, X i ω ^ 7 ∂P = (mom i).v7
  m8 : ∀ i, ∫ ω, X i ω ^ 8 ∂P = (mom i).v8

/-- the `r`-th central moment of a random variable -/
noncomputable def central (P : Measure Ω) (Q : Ω → ℝ) (r : ℕ) : ℝ := ∫ ω, (Q ω - ∫ ω', Q ω' ∂P) ^ r ∂P

/-- the covariance of two random variables -/
noncomputable def covar (P : Measure Ω) (Q R : Ω → ℝ) : ℝ := ∫ ω, (Q ω - ∫ ω', Q ω' ∂P) * (R ω - ∫ ω', R ω' ∂P) ∂P

/-- What the library reports about `x` are the mean, the standard deviation and the moments of the random variable `Q`. -/
structure Reports (P : Measure Ω) (x : UReal2 ℝ) (Q : Ω → ℝ) : Prop where
  int : Integrable Q P
  mean : x.n .mean = some (∫ ω, Q ω ∂P)
  var : x.var = some (central P Q 2)
  s : x.s = some (Real.sqrt (central P Q 2))
  m : ∀ r, 2 ≤ r → r ≤ 4 → x.m r = some (central P Q r)
  skew : central P Q 2 ≠ 0 → x.skew = some (central P Q 3 / Real.sqrt (central P Q 2) ^ 3)
  kurt : central P Q 2 ≠ 0 → x.kurt = some (central P Q 4 / central P Q 2 ^ 2)

end Unc.Spec
