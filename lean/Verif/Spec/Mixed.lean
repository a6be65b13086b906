import Verif.Spec.Deps
import Verif.Spec.Program2
import Verif.Model.Mixed

/-!
# Specification of dependencies in programs with both classes

Plain data-flow, no arithmetic.  Constructions of elementary variables are numbered in the order in which they happen, whichever class
they are of; whether a constructor of `UReal2` threw is read from what the call returned.
-/

namespace Unc.Spec
open Unc

/-- number of constructions so far; which constructions each variable was computed from -/
structure DMix where
  /-- number of constructions -/
  count : ℕ
  /-- origins of the `UReal` variables -/
  first : Reg → Finset ℤ
  /-- origins of the `UReal2` variables -/
  second : Reg → Finset ℤ

namespace DMix

/-- assignment to a `UReal2` variable -/
def set2 (w : DMix) (r : Reg) (x : Finset ℤ) : DMix :=
  { w with second := fun q => if q = r then x else w.second q }

/-- a construction of a `UReal2`: nothing happens if it throws -/
def new2 {R : Type*} (w : DMix) (r : Reg) : Out R → DMix
  | .threw _ => w
  | _ => { w with count := w.count + 1 }.set2 r {((w.count + 1 : ℕ) : ℤ)}

/-- one call with its outcome -/
def step {R : Type*} [Zero R] [CCmp R] (w : DMix) (o : Out R) : MStep R → DMix
  | .one st =>
    let v := DWorld.step ⟨w.count, w.first⟩ st
    ⟨v.count, v.regs, w.second⟩
  | .two (.newCentral r _ _ _) _ => w.new2 r o
  | .two (.newStd r _ _ _ _) _ => w.new2 r o
  | .two (.const r _) _ => w.set2 r ∅
  | .two (.copy r a) _ => w.set2 r (w.second a)
  | .two (.unary r a _ _ _) _ => w.set2 r (w.second a)
  | .two (.binary r a b _ _ _ _ _ _) _ => w.set2 r (w.second a ∪ w.second b)
  | .two .otherNew _ => { w with count := w.count + 1 }

/-- a program with its outcomes -/
def run {R : Type*} [Zero R] [CCmp R] (w : DMix) : List (MStep R × Out R) → DMix
  | [] => w
  | (st, o) :: t => (w.step o st).run t

/-- start -/
def init : DMix := ⟨0, fun _ => ∅, fun _ => ∅⟩

end DMix

/-- The threshold passed to a constructor of `UReal2` is not NaN. -/
def ThresholdOkM {R : Type*} [Zero R] [CCmp R] : MStep R → Prop
  | .one _ => True
  | .two st _ => ThresholdOk st

end Unc.Spec
