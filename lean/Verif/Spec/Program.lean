import Verif.Spec.Linear
import Verif.Model.World

/-!
# Specification of programs: every variable is a linear form

The syntax of programs (`Step`, `Reg`, `Out`) is shared with the model, the meaning is given here
with linear forms only; ids are natural numbers that never run out and there is no cache.
-/

namespace Unc.Spec
open Unc

/-- Specification state. -/
structure AWorld (R : Type*) where
  /-- number of constructions so far -/
  count : ℕ
  /-- variables -/
  regs : Reg → LinForm R

namespace AWorld
variable {R : Type*}

/-- assignment -/
def set (w : AWorld R) (r : Reg) (x : LinForm R) : AWorld R :=
  { w with regs := fun q => if q = r then x else w.regs q }

/-- linear combination of several variables -/
def lincomb [AddCommMonoid R] [Mul R] (xs : List (LinForm R × R)) (mu : R) : LinForm R where
  mean := mu
  deps := (xs.map (fun p => p.1.deps)).foldr (· ∪ ·) ∅
  coef := fun i => (xs.map (fun p => p.2 * p.1.coef i)).sum

/-- the meaning of one library call -/
noncomputable def step (w : AWorld ℝ) : Step ℝ → AWorld ℝ × Out ℝ
  | .new r n s =>
    let w' : AWorld ℝ := { w with count := w.count + 1 }
    if s < 0 then (w', .threw .invalidArgument)
    else (w'.set r (LinForm.elem (w.count + 1 : ℕ) n s), .done)
  | .const r n => (w.set r (LinForm.const n), .done)
  | .copy r a => (w.set r (w.regs a), .done)
  | .unary r a mu dx => (w.set r ((w.regs a).scale mu dx), .done)
  | .binary r a b mu dx dy => (w.set r ((w.regs a).comb (w.regs b) mu dx dy), .done)
  | .nary r xs mu => (w.set r (lincomb (xs.map fun p => (w.regs p.1, p.2)) mu), .done)
  | .assign r a mu dt dx => (w.set r ((w.regs r).comb (w.regs a) mu dt dx), .done)
  | .changeNom r a n => (w.set r ⟨n, (w.regs a).deps, (w.regs a).coef⟩, .done)
  | .readS r => (w, .num (Real.sqrt (w.regs r).var))
  | .readVar r => (w, .num (w.regs r).var)

/-- the meaning of a program -/
noncomputable def run (w : AWorld ℝ) : List (Step ℝ) → AWorld ℝ × List (Out ℝ)
  | [] => (w, [])
  | st :: t => let (w', o) := w.step st; let (w'', os) := w'.run t; (w'', o :: os)

/-- start -/
def init : AWorld ℝ := ⟨0, fun _ => LinForm.const 0⟩

end AWorld
end Unc.Spec
