import Verif.Model.HessCalls
import Mathlib.Data.Sym.Sym2
import Mathlib.Data.Set.Card

/-!
# Specification of the storage of gradients and hessians: a partial function on variables and one on unordered pairs
-/

namespace Unc.Spec
open Unc

/-- what is stored for variables and for unordered pairs of variables -/
structure Store (R : Type*) where
  /-- variables -/
  var : ℤ → Option (Diag R)
  /-- pairs -/
  pair : Sym2 ℤ → Option R

namespace Store
variable {R : Type*}

/-- nothing -/
def empty : Store R := ⟨fun _ => none, fun _ => none⟩

/-- the number of variables -/
noncomputable def size (s : Store R) : ℕ := {i | s.var i ≠ none}.ncard

/-- write a variable -/
def setVar (s : Store R) (i : ℤ) (d : Diag R) : Store R := { s with var := fun k => if k = i then some d else s.var k }

/-- write a pair -/
def setPair (s : Store R) (i j : ℤ) (x : R) : Store R := { s with pair := fun k => if k = s(i, j) then some x else s.pair k }

/-- a missing variable: derivatives zero, any moments -/
def missing [Zero R] (u : Moments R) : Diag R := ⟨0, 0, u⟩

/-- what is stored or an exception -/
def orThrow : Option R → HessGrad.Ret R
  | some x => .num x
  | none => .outOfRange

/-- a call -/
noncomputable def call [Zero R] (s : Store R) : HessGrad.Call R → Option (Store R × HessGrad.Ret R)
  | .size => some (s, .nat s.size)
  | .diagAt i => some (s, ((s.var i).map HessGrad.Ret.diag).getD .outOfRange)
  | .diag u i f => some (s.setVar i (f ((s.var i).getD (missing u))), .done)
  | .diagGet u i => some (s, .diag ((s.var i).getD (missing u)))
  | .triAt i j => if i < j then some (s, orThrow (s.pair s(i, j))) else none
  | .tri i j f => if i < j then some (s.setPair i j (f ((s.pair s(i, j)).getD 0)), .done) else none
  | .triGet i j => if i < j then some (s, .num ((s.pair s(i, j)).getD 0)) else none
  | .triFind i j => some (s, .ptr (s.pair s(i, j)))
  | .hhess u i j f =>
    if i < j then some (s.setPair i j (f ((s.pair s(i, j)).getD 0)), .done)
    else if i = j then
      let d := (s.var i).getD (missing u)
      some (s.setVar i ⟨d.grad, f d.hhess, d.mom⟩, .done)
    else none
  | .hhessGet _ i j => some (s, .num (if i = j then ((s.var i).map Diag.hhess).getD 0 else (s.pair s(i, j)).getD 0))

/-- calls -/
noncomputable def calls [Zero R] (s : Store R) : List (HessGrad.Call R) → Option (Store R × List (HessGrad.Ret R))
  | [] => some (s, [])
  | c :: l => (s.call c).bind fun q => (calls q.1 l).map fun p => (p.1, q.2 :: p.2)

/-- each pair is of stored variables -/
def Complete (s : Store R) : Prop := ∀ i j, s.pair s(i, j) ≠ none → s.var i ≠ none ∧ s.var j ≠ none

end Store
end Unc.Spec
