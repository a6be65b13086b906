import Verif.Spec.Diff2
import Verif.Spec.Moments

/-!
# Results of the same computation with variables created in a different order
-/

namespace Unc.Spec
open Unc

/-- What a user can observe of `x`, the result of a computation with variables which have the identifiers `ids`, is the same as
for `y`, the result of the same computation when they have the identifiers `ids'`: means, moments and derivatives with respect to the
variables. -/
structure SameUpToIds {n : ℕ} (ids ids' : Fin n → VId) (mu sd : Fin n → ℝ) (mom : Fin n → Moments ℝ) (x y : UReal2 ℝ) : Prop where
  first : x.mu = y.mu
  n : ∀ p, x.n p = y.n p
  m : ∀ k, x.m k = y.m k
  s : x.s = y.s
  skew : x.skew = y.skew
  kurt : x.kurt = y.kurt
  grad : ∀ u i, UReal2.grad u x (elem2 (ids i) (mu i) (sd i) (mom i)) = UReal2.grad u y (elem2 (ids' i) (mu i) (sd i) (mom i))
  hess : ∀ u i j, UReal2.hess u x (elem2 (ids i) (mu i) (sd i) (mom i)) (elem2 (ids j) (mu j) (sd j) (mom j)) =
    UReal2.hess u y (elem2 (ids' i) (mu i) (sd i) (mom i)) (elem2 (ids' j) (mu j) (sd j) (mom j))

end Unc.Spec
