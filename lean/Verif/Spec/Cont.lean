import Verif.Spec.AnyNode
import Verif.Spec.Diff2
import Mathlib.Topology.ContinuousOn

/-!
# Specification: results as functions of the data (C98)

The data are the means and the uncertainties of the variables.
-/

namespace Unc.Spec
open Unc Filter Topology

/-- `f` gives a number for all arguments near `d`, and the number is continuous at `d` -/
def ContAt {D : Type*} [TopologicalSpace D] (f : D → Option ℝ) (d : D) : Prop := ∃ g : D → ℝ, (∀ᶠ e in 𝓝 d, f e = some (g e)) ∧ ContinuousAt g d

/-- means and uncertainties of `n` variables -/
abbrev Data (n : ℕ) : Type := (Fin n → ℝ) × (Fin n → ℝ)

/-- the result `k` of a computation with `UReal`, as a function of the data -/
noncomputable def result1 {n : ℕ} (p : List Node) (ids : Fin n → VId) (k : ℕ) (d : Data n) : Option (UReal ℝ) :=
  (evalU p (elems ids d.1 d.2)).bind fun out => out[k]?

/-- the result `k` of a computation with `UReal2`, as a function of the data -/
noncomputable def result2 {n : ℕ} (p : List Node2) (ids : Fin n → VId) (mom : Fin n → Moments ℝ) (k : ℕ) (d : Data n) : Option (UReal2 ℝ) :=
  (evalU2 p (List.ofFn fun i => elem2 (ids i) (d.1 i) (d.2 i) (mom i))).bind fun out => out[k]?

/-- everything that can be asked about one second-order value is continuous: first order mean, `n()` in both modes, mean and central moments, standard
deviation, and skewness and kurtosis where the variance is positive -/
structure ContValue {D : Type*} [TopologicalSpace D] (r : D → Option (UReal2 ℝ)) (d : D) : Prop where
  mu : ContAt (fun e => (r e).map UReal2.mu) d
  n : ∀ mode, ContAt (fun e => (r e).bind (UReal2.n mode)) d
  m : ∀ k, 1 ≤ k → k ≤ 4 → ContAt (fun e => (r e).bind fun x => x.m k) d
  var : ContAt (fun e => (r e).bind UReal2.var) d
  s : ContAt (fun e => (r e).bind UReal2.s) d
  skew : (∃ v, (r d).bind UReal2.var = some v ∧ 0 < v) → ContAt (fun e => (r e).bind UReal2.skew) d
  kurt : (∃ v, (r d).bind UReal2.var = some v ∧ 0 < v) → ContAt (fun e => (r e).bind UReal2.kurt) d

/-- and about two values: covariance, and correlation where the variances are positive -/
structure ContPair {D : Type*} [TopologicalSpace D] (r r' : D → Option (UReal2 ℝ)) (d : D) : Prop where
  cov : ContAt (fun e => (r e).bind fun x => (r' e).bind fun y => x.cov y) d
  corr : (∃ v w, (r d).bind UReal2.var = some v ∧ (r' d).bind UReal2.var = some w ∧ 0 < v ∧ 0 < w) →
    ContAt (fun e => (r e).bind fun x => (r' e).bind fun y => x.corr y) d

/-- `D` is continuous at `a`, and it is not 0 there, or it is 0 everywhere nearby -/
def Steady {E : Type*} [TopologicalSpace E] (D : E → ℝ) (a : E) : Prop := ContinuousAt D a ∧ (D a ≠ 0 ∨ ∀ᶠ t in 𝓝 a, D t = 0)

/-- near the mean `a` the function `g` passes on the value of `F` and continuous derivatives, the second one steady -/
def SteadyStep1 (g : UReal2 ℝ → Option (UReal2 ℝ)) (F : ℝ → ℝ) (a : ℝ) : Prop :=
  ∃ (u : Moments ℝ) (D DD : ℝ → ℝ), (∀ᶠ t in 𝓝 a, ∀ x : UReal2 ℝ, x.mu = t → g x = UReal2.unary u x (F t) (D t) (DD t)) ∧
    ContinuousAt F a ∧ ContinuousAt D a ∧ Steady DD a

/-- the same for two arguments -/
def SteadyStep2 (g : UReal2 ℝ → UReal2 ℝ → Option (UReal2 ℝ)) (F : ℝ → ℝ → ℝ) (a : ℝ × ℝ) : Prop :=
  ∃ (u : Moments ℝ) (Dx Dy Dxx Dyy Dxy : ℝ × ℝ → ℝ),
    (∀ᶠ t in 𝓝 a, ∀ x y : UReal2 ℝ, x.mu = t.1 → y.mu = t.2 → g x y = UReal2.binary u x y (F t.1 t.2) (Dx t) (Dy t) (Dxx t) (Dyy t) (Dxy t)) ∧
    ContinuousAt (fun t : ℝ × ℝ => F t.1 t.2) a ∧ ContinuousAt Dx a ∧ ContinuousAt Dy a ∧ Steady Dxx a ∧ Steady Dyy a ∧ Steady Dxy a

/-- all steps of a computation which starts with the means `acc` -/
def SteadySteps : List Node2 → List ℝ → Prop
  | [], _ => True
  | .const c :: t, acc => SteadySteps t (acc ++ [c])
  | .un g F a :: t, acc => SteadyStep1 g F (acc.getD a 0) ∧ SteadySteps t (acc ++ [F (acc.getD a 0)])
  | .bin g F a b :: t, acc => SteadyStep2 g F (acc.getD a 0, acc.getD b 0) ∧ SteadySteps t (acc ++ [F (acc.getD a 0) (acc.getD b 0)])

end Unc.Spec
