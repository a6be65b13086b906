import Verif.Model.World2
import Mathlib.Data.Finset.Prod
import Mathlib.Data.Finset.Image

/-!
# Specification of sparsity: which pairs of variables a value couples

Plain data flow over programs, on sets of variables and of pairs of variables.  Nothing is said of derivatives other than whether
the caller gives them as zero.
-/

namespace Unc.Spec
open Unc

/-- the variables a value was computed from, and the pairs `i < j` of them which it may depend on other than as a sum of a function of
each -/
structure Coupling where
  /-- variables -/
  vars : Finset ℤ
  /-- coupled pairs -/
  pairs : Finset (ℤ × ℤ)

namespace Coupling

/-- all the pairs `i < j` with one element in `s` and the other in `t` -/
def cross (s t : Finset ℤ) : Finset (ℤ × ℤ) := ((s ×ˢ t) ∪ (t ×ˢ s)).filter fun p => p.1 < p.2

/-- a number -/
def const : Coupling := ⟨∅, ∅⟩

/-- an elementary variable -/
def single (i : ℤ) : Coupling := ⟨{i}, ∅⟩

/-- a function of one value; `lin`: it is linear, which couples nothing new -/
def unary (lin : Bool) (x : Coupling) : Coupling := ⟨x.vars, if lin then x.pairs else cross x.vars x.vars⟩

/-- a function of two values; `linx`: linear in the first, `liny`: linear in the second, `sep`: no mixed derivative -/
def binary (linx liny sep : Bool) (x y : Coupling) : Coupling :=
  ⟨x.vars ∪ y.vars, (if linx then x.pairs else cross x.vars x.vars) ∪ (if liny then y.pairs else cross y.vars y.vars) ∪
    if sep then ∅ else cross x.vars y.vars⟩

end Coupling

/-- number of elementary variables made so far; shape of each program variable -/
structure SWorld where
  /-- number of constructions -/
  count : ℕ
  /-- shapes -/
  regs : Reg → Coupling

namespace SWorld
variable {R : Type*}

/-- assignment -/
def set (w : SWorld) (r : Reg) (x : Coupling) : SWorld := { w with regs := fun q => if q = r then x else w.regs q }

/-- the number, halved, is zero -/
def Null [Zero R] [Div R] [NatCast R] [CCmp R] (a : R) : Bool := CCmp.eqb (a / Nat.cast 2) 0

/-- one call, with its outcome -/
def step [Zero R] [Div R] [NatCast R] [CCmp R] (w : SWorld) : Step2 R × Out R → SWorld
  | (.newCentral r _ _ _, o) => match o with
    | .threw _ => w
    | _ => { w with count := w.count + 1 }.set r (.single (w.count + 1))
  | (.newStd r _ _ _ _, o) => match o with
    | .threw _ => w
    | _ => { w with count := w.count + 1 }.set r (.single (w.count + 1))
  | (.const r _, _) => w.set r .const
  | (.copy r a, _) => w.set r (w.regs a)
  | (.unary r a _ _ fxx, _) => w.set r (.unary (Null fxx) (w.regs a))
  | (.binary r a b _ _ _ fxx fyy fxy, _) => w.set r (.binary (Null fxx) (Null fyy) (Null fxy) (w.regs a) (w.regs b))
  | (.otherNew, _) => { w with count := w.count + 1 }

/-- a program -/
def run [Zero R] [Div R] [NatCast R] [CCmp R] (w : SWorld) (l : List (Step2 R × Out R)) : SWorld := l.foldl step w

/-- start -/
def init : SWorld := ⟨0, fun _ => .const⟩

end SWorld

/-- All the second derivatives the calls give are zero. -/
def AllLinear {R : Type*} [Zero R] [Div R] [NatCast R] [CCmp R] : Step2 R → Prop
  | .unary _ _ _ _ fxx => SWorld.Null fxx = true
  | .binary _ _ _ _ _ _ fxx fyy fxy => SWorld.Null fxx = true ∧ SWorld.Null fyy = true ∧ SWorld.Null fxy = true
  | _ => True

end Unc.Spec
