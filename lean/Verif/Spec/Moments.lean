import Verif.Spec.Second
import Mathlib.Probability.Moments.Variance
import Mathlib.Probability.Independence.Integration

/-!
# What the moments of a second-order value should be

A second-order value stands for the random variable `Q = sum_i G_i X_i + sum_ij H_ij X_i X_j`, where the
`X_i` are independent random variables with mean 0, variance 1 and the stored moments 3 to 8.
The expected values are integrals over a probability space.
-/

namespace Unc
open MeasureTheory ProbabilityTheory

/-- The random variables `X i`, `i ∈ S`, are independent, standardized and have moments up to the
eighth. -/
structure StdIndep {Ω : Type*} [MeasurableSpace Ω] (P : Measure Ω) (X : VId → Ω → ℝ) (S : Finset VId) : Prop where
  meas : ∀ i ∈ S, AEMeasurable (X i) P
  indep : iIndepFun (fun i : S => X i) P
  int : ∀ i ∈ S, ∀ k ≤ 8, Integrable (fun ω => X i ω ^ k) P
  mean : ∀ i ∈ S, ∫ ω, X i ω ∂P = 0
  var : ∀ i ∈ S, ∫ ω, X i ω ^ 2 ∂P = 1

/-- The random variables have the moments stored in the value. -/
def HasMoments {Ω : Type*} [MeasurableSpace Ω] (P : Measure Ω) (X : VId → Ω → ℝ) (hg : HessGrad ℝ) : Prop :=
  ∀ i m, hg.momOf i = some m →
    ∫ ω, X i ω ^ 3 ∂P = m.v3 ∧ ∫ ω, X i ω ^ 4 ∂P = m.v4 ∧ ∫ ω, X i ω ^ 5 ∂P = m.v5 ∧
    ∫ ω, X i ω ^ 6 ∂P = m.v6 ∧ ∫ ω, X i ω ^ 7 ∂P = m.v7 ∧ ∫ ω, X i ω ^ 8 ∂P = m.v8

/-- The random variable a second-order value stands for, relative to the first order mean. -/
noncomputable def HessGrad.rv {Ω : Type*} (X : VId → Ω → ℝ) (hg : HessGrad ℝ) (ω : Ω) : ℝ :=
  ∑ i ∈ hg.vars, hg.G i * X i ω + ∑ i ∈ hg.vars, ∑ j ∈ hg.vars, hg.H i j * X i ω * X j ω

/-- Two values store the same moments for the variables they share (true of values built from the same
elementary variables). -/
def AgreeMoments {R : Type*} (a b : HessGrad R) : Prop :=
  ∀ i ma mb, a.momOf i = some ma → b.momOf i = some mb → ma = mb

/-- The third and fourth moments are possible ones (`v4 >= v3^2 + 1`) for every variable the value really
depends on.  A variable constructed with variance zero stores zero moments, but then also zero
derivatives. -/
def SoundMoments {R : Type*} [Zero R] [One R] [Add R] [Mul R] [LE R] (hg : HessGrad R) : Prop :=
  ∀ i m, hg.momOf i = some m → m.v3 * m.v3 + 1 ≤ m.v4 ∨ (hg.G i = 0 ∧ hg.H i i = 0)

end Unc
