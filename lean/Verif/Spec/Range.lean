import Verif.Model.IEEE
import Verif.Model.UReal

/-!
# Computations on numbers with a limited range

A computation is a tree of operators of the class; it is run with any type of numbers.
-/

namespace Unc.Spec
open Unc

/-- operators with two operands -/
inductive BinOp where
  | add | sub | mul | div
  /-- `t = a; t += b` etc. -/
  | addTo | subTo | mulTo | divTo

/-- operators with one operand -/
inductive UnOp where
  | neg
  /-- `t = a; t += t` etc. -/
  | twice | cancel | square

/-- a computation: the leaves are given values -/
inductive Calc where
  | leaf (i : ℕ)
  | un (o : UnOp) (a : Calc)
  | bin (o : BinOp) (a b : Calc)

section
variable {R : Type*} [Zero R] [One R] [Neg R] [Add R] [Sub R] [Mul R] [Div R] [CCmp R]

/-- the operator of the library -/
def UnOp.call : UnOp → UReal R → UReal R
  | .neg => UReal.neg
  | .twice => UReal.addAssignSelf
  | .cancel => UReal.subAssignSelf
  | .square => UReal.mulAssignSelf

/-- the operator of the library; `none` is undefined behaviour -/
def BinOp.call : BinOp → UReal R → UReal R → Option (UReal R)
  | .add => UReal.add
  | .sub => UReal.sub
  | .mul => UReal.mul
  | .div => UReal.div
  | .addTo => fun a b => some (UReal.addAssign a b)
  | .subTo => fun a b => some (UReal.subAssign a b)
  | .mulTo => fun a b => some (UReal.mulAssign a b)
  | .divTo => fun a b => some (UReal.divAssign a b)

/-- the result of a computation -/
def Calc.run (env : ℕ → UReal R) : Calc → Option (UReal R)
  | .leaf i => some (env i)
  | .un o a => (a.run env).map o.call
  | .bin o a b => (a.run env).bind fun x => (b.run env).bind fun y => o.call x y

end

/-- is it a division? -/
def BinOp.divides : BinOp → Bool
  | .div | .divTo => true
  | _ => false

variable {f : Fmt} {M : ℝ}

/-- an ordinary number, with its value -/
def Is (x : Ext f M) (v : ℝ) : Prop := ∃ a h, x = .fin a h ∧ a.val = v

/-- an ordinary number -/
def Finite (x : Ext f M) : Prop := ∃ v, Is x v

/-- plus or minus infinity -/
def Infinite (x : Ext f M) : Prop := ∃ s, x = .inf s

/-- The means by which the computation divides are never infinite. -/
def Tame (env : ℕ → UReal (Ext f M)) : Calc → Prop
  | .leaf _ => True
  | .un _ a => Tame env a
  | .bin o a b => Tame env a ∧ Tame env b ∧ (o.divides = true → ∀ y, b.run env = some y → ¬ Infinite y.n)

/-- a given value: an elementary variable or a constant -/
def Given {R : Type*} [Zero R] (x : UReal R) : Prop := 0 ≤ x.id ∧ x.sigma = [] ∧ (x.id = 0 → x.sdev = 0)

/-- the same given value with and without limits on the range -/
def SameGiven (x : UReal (Ext f M)) (y : UReal (FP f)) : Prop := Given x ∧ Given y ∧ x.id = y.id ∧ Is x.mu y.mu.val ∧ Is x.sdev y.sdev.val

end Unc.Spec
