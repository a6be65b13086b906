import Verif.Model.World2

/-!
# Programs with both `UReal` and `UReal2` variables

The two classes share only the counter of the identifiers.
-/

namespace Unc

/-- State: the counter shared by the two classes (uncertainties/impl.hpp:46), the variables of type `UReal`
(uncertainties/ureal.hpp:371) and those of type `UReal2` (uncertainties/ureal2.hpp:580). -/
structure MWorld (R : Type*) where
  /-- `internal::last_id` -/
  lastId : ℤ
  /-- variables of type `UReal` -/
  first : Reg → UReal R
  /-- variables of type `UReal2` -/
  second : Reg → UReal2 R

/-- Library calls on one of the two classes (uncertainties/ureal.hpp:350-808, uncertainties/ureal2.hpp:519-897). -/
inductive MStep (R : Type*) where
  /-- a call on `UReal` variables -/
  | one (st : Step R)
  /-- a call on `UReal2` variables, with the content of uninitialised storage -/
  | two (st : Step2 R) (k : Junk R)

namespace MWorld
variable {R : Type*} [Zero R] [One R] [Neg R] [Add R] [Mul R] [Div R] [NatCast R] [CCmp R] [CSqrt R]

/-- One library call: both classes take new identifiers from the same counter (uncertainties/ureal.hpp:351,
uncertainties/ureal2.hpp:526,562). -/
def step (solve : (ℕ → ℕ → R) → Option (List R)) (w : MWorld R) : MStep R → Option (MWorld R × Out R)
  | .one st => (World.step ⟨w.lastId, w.first⟩ st).map fun (v, o) => (⟨v.lastId, v.regs, w.second⟩, o)
  | .two st k => (World2.step solve ⟨w.lastId, w.second⟩ k st).map fun (v, o) => (⟨v.lastId, w.first, v.regs⟩, o)

/-- A sequence of calls (no counterpart in /repo: a user program). -/
def run (solve : (ℕ → ℕ → R) → Option (List R)) (w : MWorld R) : List (MStep R) → Option (MWorld R × List (Out R))
  | [] => some (w, [])
  | st :: t => (w.step solve st).bind fun (w', o) => (w'.run solve t).map fun (w'', os) => (w'', o :: os)

/-- Program start (uncertainties/impl.hpp:46). -/
def init : MWorld R := ⟨0, fun _ => UReal.default', fun _ => UReal2.default'⟩

end MWorld

/-- Number of calls that may take an identifier (uncertainties/ureal.hpp:350, uncertainties/ureal2.hpp:519, 550). -/
def countNewM {R : Type*} : List (MStep R) → ℕ
  | [] => 0
  | .one st :: t => countNew [st] + countNewM t
  | .two st _ :: t => countNew2 [st] + countNewM t

end Unc
