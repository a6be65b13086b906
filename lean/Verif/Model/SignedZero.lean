import Verif.Model.IEEE2

/-!
# Numbers with signed zeros

In `Verif/Model/IEEE.lean` there is one zero.  Here zeros have the sign of IEEE 754, which C++ looks at in divisions.  Simplification: NaN has no sign.
-/

namespace Unc

/-- A number of `double` or `float` with its sign bit, which says something more than the value only for zeros (uncertainties/ureal.hpp:831-832). -/
structure SExt (f : Fmt) (M : ℝ) where
  /-- the value -/
  v : Ext f M
  /-- the sign bit -/
  neg : Bool
  /-- the sign bit is the sign of the value -/
  agree : v.isZero = false → neg = v.isNeg

namespace SExt
variable {f : Fmt} {M : ℝ}

/-- a value with the sign to be used if it is zero (uncertainties/ureal.hpp:831-832) -/
noncomputable def of (v : Ext f M) (neg : Bool) : SExt f M := ⟨v, if v.isZero then neg else v.isNeg, fun h => by rw [h]; rfl⟩

/-- the literal `0` (uncertainties/ureal.hpp:326 etc.) -/
noncomputable instance : Zero (SExt f M) := ⟨of 0 false⟩
/-- the literal `1` (uncertainties/ureal.hpp:757 etc.) -/
noncomputable instance : One (SExt f M) := ⟨of 1 false⟩
/-- an integer literal or variable converted to the number type (uncertainties/internal/moments.hpp:75 and following) -/
noncomputable instance : NatCast (SExt f M) := ⟨fun n => of n false⟩
/-- `-x` (uncertainties/ureal.hpp:779 etc.) -/
noncomputable instance : Neg (SExt f M) := ⟨fun a => of (-a.v) !a.neg⟩

/-- the sign of a sum which is zero: negative if both terms are negative, or if a sum of numbers which is negative was rounded to zero (uncertainties/ureal.hpp:329 etc.) -/
noncomputable def zeroSign (a b : Ext f M) (neg : Bool) : Bool :=
  match a, b with
  | .fin a _, .fin b _ => if a.val + b.val = 0 then neg else decide (a.val + b.val < 0)
  | _, _ => neg

/-- `x + y`: `-0 + -0` is `-0`, `x + -x` is `0` (uncertainties/ureal.hpp:329 etc.) -/
noncomputable instance : Add (SExt f M) := ⟨fun a b => of (a.v + b.v) (zeroSign a.v b.v (a.neg && b.neg))⟩
/-- `x - y` (uncertainties/ureal.hpp:785 etc.) -/
noncomputable instance : Sub (SExt f M) := ⟨fun a b => of (a.v - b.v) (zeroSign a.v (-b.v) (a.neg && !b.neg))⟩
/-- `x * y` (uncertainties/ureal.hpp:329 etc.) -/
noncomputable instance : Mul (SExt f M) := ⟨fun a b => of (a.v * b.v) (xor a.neg b.neg)⟩

/-- the value of `x / y`: infinities have the sign which is the product of the signs, those of the zeros included (uncertainties/ureal.hpp:568, 791 etc.) -/
noncomputable def quot (a b : SExt f M) : Ext f M :=
  if b.v.isZero then
    match a.v with
    | .nan => .nan
    | .inf _ => .inf (xor a.neg b.neg)
    | .fin c _ => if c.val = 0 then .nan else .inf (xor a.neg b.neg)
  else a.v / b.v

/-- `operator/` (uncertainties/ureal.hpp:568, 791 etc.) -/
noncomputable instance : Div (SExt f M) := ⟨fun a b => of (quot a b) (xor a.neg b.neg)⟩

/-- the comparisons do not see the sign of zero (uncertainties/ureal.hpp:352 etc.) -/
noncomputable instance : CCmp (SExt f M) := ⟨fun a b => CCmp.ltb a.v b.v, fun a b => CCmp.leb a.v b.v, fun a b => CCmp.eqb a.v b.v⟩

/-- `sqrt(-0)` is `-0`, `abs(-0)` is `0` (uncertainties/ureal.hpp:416-422) -/
noncomputable instance : CSqrt (SExt f M) where
  sqrt a := of (CSqrt.sqrt a.v) a.neg
  abs a := of (CSqrt.abs a.v) false

end SExt

/-- the type `double` with signed zeros (uncertainties/ureal.hpp:831) -/
abbrev SDbl := SExt dblFmt dblMax

end Unc
