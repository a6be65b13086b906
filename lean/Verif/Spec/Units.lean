import Verif.Spec.Range
import Verif.Model.UReal2
import Verif.Model.FloatMath

/-!
# Specification of a change of units by powers of two

The same quantities are expressed in units which are smaller by powers of two.  A binary format without limits to the exponent represents them with the same digits.
-/

namespace Unc.Spec
variable {f : Fmt}

/-- The rounding does not see the exponent: true of a binary format without limits to the exponent. -/
def TwoScaled (f : Fmt) : Prop := ∀ (k : ℤ) (x : ℝ), f.rd (2 ^ k * x) = 2 ^ k * f.rd x

/-- `b` is `a` in a unit which is `2 ^ k` times smaller, exactly -/
def Times2 (k : ℤ) (a b : FP f) : Prop := b.val = 2 ^ k * a.val

/-- the same quantity in another unit, first order, with the uncertainty not cached -/
structure InUnits (k : ℤ) (x y : UReal (FP f)) : Prop where
  id : x.id = y.id
  mu : Times2 k x.mu y.mu
  sdev : 0 ≤ x.id → Times2 k x.sdev y.sdev
  sigma : List.Forall₂ (fun p q => p.1 = q.1 ∧ Times2 k p.2 q.2) x.sigma y.sigma
  fresh : x.id < 0 → x.sdev = -1 ∧ y.sdev = -1
  const : x.id = 0 → x.sdev = 0 ∧ y.sdev = 0

/-- the unit of the result of an operator, if the operands can be combined; each unit is given by its exponent of 2 -/
def BinOp.unit : BinOp → ℤ → ℤ → Option ℤ
  | .add, k, l | .sub, k, l | .addTo, k, l | .subTo, k, l => if k = l then some k else none
  | .mul, k, l | .mulTo, k, l => some (k + l)
  | .div, k, l | .divTo, k, l => some (k - l)

/-- the unit of the result of a calculation, if it is dimensionally correct, from those of the given values -/
def Calc.unit (w : ℕ → ℤ) : Calc → Option ℤ
  | .leaf i => some (w i)
  | .un .square a => (a.unit w).map fun k => k + k
  | .un _ a => a.unit w
  | .bin o a b => (a.unit w).bind fun k => (b.unit w).bind fun l => o.unit k l

/-- the same quantity in another unit, second order: the derivatives with respect to the standardized variables change, the moments of these do not -/
structure InUnits2 (k : ℤ) (x y : UReal2 (FP f)) : Prop where
  mu : Times2 k x.mu y.mu
  diag : List.Forall₂ (fun p q => p.1 = q.1 ∧ Times2 k p.2.grad q.2.grad ∧ Times2 k p.2.hhess q.2.hhess ∧ p.2.mom = q.2.mom) x.hg.diagmap y.hg.diagmap
  tri : List.Forall₂ (fun p q => p.1 = q.1 ∧ Times2 k p.2 q.2) x.hg.trimap y.hg.trimap

/-- a calculation at second order with the operators -/
inductive Calc2 where
  | leaf (i : ℕ)
  | neg (a : Calc2)
  | add (a b : Calc2)
  | sub (a b : Calc2)
  | mul (a b : Calc2)
  | div (a b : Calc2)

/-- its result; `none` is undefined behaviour -/
def Calc2.run {R : Type*} [Zero R] [One R] [Neg R] [Add R] [Sub R] [Mul R] [Div R] [NatCast R] [CCmp R] (u : Moments R) (env : ℕ → UReal2 R) : Calc2 → Option (UReal2 R)
  | .leaf i => some (env i)
  | .neg a => (a.run u env).bind (UReal2.neg u)
  | .add a b => (a.run u env).bind fun x => (b.run u env).bind fun y => UReal2.add u x y
  | .sub a b => (a.run u env).bind fun x => (b.run u env).bind fun y => UReal2.sub u x y
  | .mul a b => (a.run u env).bind fun x => (b.run u env).bind fun y => UReal2.mul u x y
  | .div a b => (a.run u env).bind fun x => (b.run u env).bind fun y => UReal2.div u x y

/-- its unit, if it is dimensionally correct -/
def Calc2.unit (w : ℕ → ℤ) : Calc2 → Option ℤ
  | .leaf i => some (w i)
  | .neg a => a.unit w
  | .add a b | .sub a b => (a.unit w).bind fun k => (b.unit w).bind fun l => if k = l then some k else none
  | .mul a b => (a.unit w).bind fun k => (b.unit w).map fun l => k + l
  | .div a b => (a.unit w).bind fun k => (b.unit w).map fun l => k - l

end Unc.Spec
