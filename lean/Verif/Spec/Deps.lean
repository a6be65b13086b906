import Verif.Model.World
import Mathlib.Data.Finset.Image
import Mathlib.Data.Finset.Union

/-!
# Specification of dependencies: the set of constructions a value was computed from

Plain data-flow over programs, no arithmetic: the k-th call of the constructor `UReal(n, s)` is number k.
-/

namespace Unc.Spec
open Unc

/-- number of constructor calls so far; which constructions each variable was computed from -/
structure DWorld where
  /-- number of constructions -/
  count : ℕ
  /-- origins -/
  regs : Reg → Finset ℤ

namespace DWorld

/-- assignment -/
def set (w : DWorld) (r : Reg) (x : Finset ℤ) : DWorld :=
  { w with regs := fun q => if q = r then x else w.regs q }

/-- one call: where the written variable's value comes from -/
def step {R : Type*} [Zero R] [CCmp R] (w : DWorld) : Step R → DWorld
  | .new r _ s =>
    let w' : DWorld := { w with count := w.count + 1 }
    if CCmp.ltb s 0 then w' else w'.set r {((w.count + 1 : ℕ) : ℤ)}
  | .const r _ => w.set r ∅
  | .copy r a => w.set r (w.regs a)
  | .unary r a _ _ => w.set r (w.regs a)
  | .binary r a b _ _ _ => w.set r (w.regs a ∪ w.regs b)
  | .nary r xs _ => w.set r ((xs.map fun p => w.regs p.1).foldr (· ∪ ·) ∅)
  | .assign r a _ _ _ => w.set r (w.regs r ∪ w.regs a)
  | .changeNom r a _ => w.set r (w.regs a)
  | .readS _ => w
  | .readVar _ => w

/-- a program -/
def run {R : Type*} [Zero R] [CCmp R] (w : DWorld) : List (Step R) → DWorld
  | [] => w
  | st :: t => (w.step st).run t

/-- start -/
def init : DWorld := ⟨0, fun _ => ∅⟩

end DWorld
end Unc.Spec
