import Verif.Spec.Expr

/-!
# Computations with arbitrary functions

The functions of `math.hpp` give `unary` and `binary` numbers which depend on the means of the arguments only, whether they are the right derivatives or not.
-/

namespace Unc.Spec
open Unc

/-- the function gives numbers which depend on the mean of its argument to `unary` -/
def OfMean1 (g : UReal ℝ → UReal ℝ) : Prop := ∃ F D : ℝ → ℝ, ∀ x, g x = UReal.unary x (F x.n) (D x.n)

/-- the function gives numbers which depend on the means of its arguments to `binary` -/
def OfMean2 (g : UReal ℝ → UReal ℝ → Option (UReal ℝ)) : Prop := ∃ F Dx Dy : ℝ → ℝ → ℝ, ∀ x y, g x y = UReal.binary x y (F x.n y.n) (Dx x.n y.n) (Dy x.n y.n)

/-- all functions of a computation are such, and it uses results which were computed before, when there are `n` values at the beginning -/
def NodesOfMean : List Node → ℕ → Prop
  | [], _ => True
  | .const _ :: t, n => NodesOfMean t (n + 1)
  | .un g _ a :: t, n => a < n ∧ OfMean1 g ∧ NodesOfMean t (n + 1)
  | .bin g _ a b :: t, n => a < n ∧ b < n ∧ OfMean2 g ∧ NodesOfMean t (n + 1)

end Unc.Spec
