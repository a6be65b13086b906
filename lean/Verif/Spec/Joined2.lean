import Verif.Spec.Schedule

/-!
# Calls after the threads have finished

The calls on `UReal2` variables which do not need the iteration over all pairs of variables of an operand.
-/

namespace Unc.Spec
open Unc

variable {R : Type*}

/-- A call on `UReal2` variables which does not need the second derivative of a function of several variables: each
operand of `unary` and `binary` either has second derivative 0 (as with `+`, `-`, `*`) or `isindep()` is true of it. -/
def Calm [Zero R] (w : MWorld R) : MStep R → Prop
  | .one _ => False
  | .two (.unary _ a _ _ fxx) _ => fxx = 0 ∨ (w.second a).isindep = true
  | .two (.binary _ a b _ _ _ fxx fyy _) _ => (fxx = 0 ∨ (w.second a).isindep = true) ∧ (fyy = 0 ∨ (w.second b).isindep = true)
  | .two _ _ => True

/-- All calls of `q`, made one after the other from the state `w`, are such. -/
def CalmRun [Zero R] [One R] [Neg R] [Add R] [Sub R] [Mul R] [Div R] [NatCast R] [CCmp R] [CSqrt R] (solve : (ℕ → ℕ → R) → Option (List R)) :
    MWorld R → List (MStep R) → Prop
  | _, [] => True
  | w, st :: q => Calm w st ∧ ∀ w' o, w.step solve st = some (w', o) → CalmRun solve w' q

end Unc.Spec
