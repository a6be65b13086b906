import Verif.Spec.Distr
import Verif.Spec.Observe2

/-!
# Specification: a value reports the moments of a distribution (C71)
-/

namespace Unc.Spec
open MeasureTheory

/-- Mean, standard deviation and the central moments from the second to the fourth are those of the distribution. -/
structure ReportsLaw (x : UReal2 ℝ) (ν : Measure ℝ) : Prop where
  dist : Distribution ν
  mean : x.n .mean = some (dMean ν)
  sdev : x.s = some (Real.sqrt (dCentral ν 2))
  m : ∀ r, 2 ≤ r → r ≤ 4 → x.m r = some (dCentral ν r)

/-- finitely many operands of an expression -/
noncomputable def operands {n : ℕ} (v : Fin n → UReal2 ℝ) (k : ℕ) : UReal2 ℝ := (List.ofFn v).getD k (UReal2.const 0)

end Unc.Spec
