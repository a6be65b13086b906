import Verif.Spec.Linear
import Mathlib.Data.Real.Basic
import Mathlib.Algebra.Order.Ring.Abs

/-!
# What the floating point results are compared with

The real number which a quantity would be if only the stored coefficients were rounded.
-/

namespace Unc.Spec

/-- Each rounding has relative error at most `u`. -/
structure Acc (rd : ℝ → ℝ) (u : ℝ) : Prop where
  nonneg : 0 ≤ u
  lt : u < 1
  err : ∀ x, |rd x - x| ≤ u * |x|

/-- the sum of the absolute values of the terms of a covariance -/
def absCov (a b : LinForm ℝ) : ℝ := ∑ i ∈ a.deps ∪ b.deps, |a.coef i * b.coef i|

end Unc.Spec
