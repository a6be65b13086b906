import Verif.Spec.Schedule
import Verif.Model.Moves

/-!
# Specification of programs which move variables

A variable is *gone* after it was moved from, until something is assigned to it.  A careful program does not read gone variables.
-/

namespace Unc.Spec
open Unc

variable {R : Type*}

/-- The same program with copies in place of moves. -/
def copied [Zero R] : VStep R → MStep R
  | .call st => st
  | .move1 r a _ => .one (.copy r a)
  | .move2 r a _ => .two (.copy r a) ⟨⟨0, 0, 0, 0, 0, 0⟩, fun _ _ => 0⟩

/-- The variables which are gone. -/
structure Gone where
  /-- of class `UReal` -/
  first : Set Reg
  /-- of class `UReal2` -/
  second : Set Reg

/-- The variables gone after a call with its outcome: if it threw, nothing was assigned. -/
def Gone.step (g : Gone) : VStep R → Out R → Gone
  | .call _, .threw _ => g
  | .call (.one st), _ => { g with first := g.first \ {writes st} }
  | .call (.two st _), _ => { g with second := {q ∈ g.second | some q ≠ writes2 st} }
  | .move1 r a _, _ => { g with first := insert a (g.first \ {r}) }
  | .move2 r a _, _ => { g with second := insert a (g.second \ {r}) }

/-- The variables gone in the end. -/
def Gone.run (g : Gone) : List (VStep R × Out R) → Gone
  | [] => g
  | (st, o) :: t => (g.step st o).run t

/-- A call or move which reads no variable that is gone. -/
def ReadsNone (g : Gone) : VStep R → Prop
  | .call (.one st) => ∀ q ∈ reads st, q ∉ g.first
  | .call (.two st _) => ∀ q ∈ reads2 st, q ∉ g.second
  | .move1 _ a _ => a ∉ g.first
  | .move2 _ a _ => a ∉ g.second

/-- A program, with the outcomes of its calls, in which variables that are gone are not read. -/
def Careful (g : Gone) : List (VStep R × Out R) → Prop
  | [] => True
  | (st, o) :: t => ReadsNone g st ∧ Careful (g.step st o) t

/-- Moves leave maps empty. -/
def LeavesEmpty : VStep R → Prop
  | .call _ => True
  | .move1 _ _ left => left = []
  | .move2 _ _ left => left.diagmap = [] ∧ left.trimap = []

end Unc.Spec
