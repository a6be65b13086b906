import Verif.Model.Math2

/-!
# Specification: a function template instantiated with numbers, `UReal` and `UReal2` (C72)

An expression as written in a function template, and its value when the template parameter is the number type itself.  The number
type has operations but no laws: it can be `double`, with rounding, infinities and NaN.
-/

namespace Unc.Spec
open Unc

/-- functions of one argument with the same name for numbers and for both classes -/
inductive Fn1 where
  | pos | neg | abs | exp | exp2 | expm1 | log | log10 | log2 | log1p | sqrt | cbrt | sin | cos | tan | asin | acos | atan | sinh | cosh | tanh | asinh | acosh | atanh | erf | erfc

/-- operators and functions of two arguments -/
inductive Fn2 where
  | add | sub | mul | div | fmod | remainder | fmax | fmin | pow | hypot | atan2

/-- the body of a function template -/
inductive GExpr (R : Type*) where
  /-- the argument number `i` -/
  | arg (i : ℕ)
  /-- a number, converted implicitly -/
  | num (c : R)
  /-- a function of one argument -/
  | un (f : Fn1) (a : GExpr R)
  /-- an operator or a function of two arguments -/
  | bin (f : Fn2) (a b : GExpr R)
  /-- `uunary(f, df)(a)`, `uunary2(f, df, ddf)(a)`; for numbers `f(a)` -/
  | user1 (f df ddf : R → R) (a : GExpr R)
  /-- `ubinary(f, dfdx, dfdy)(a, b)`, `ubinary2(…)(a, b)`; for numbers `f(a, b)` -/
  | user2 (f dfdx dfdy ddfdxdx ddfdydy ddfdxdy : R → R → R) (a b : GExpr R)

/-- the arguments which appear in the expression -/
def GExpr.args {R : Type*} : GExpr R → Finset ℕ
  | .arg i => {i}
  | .num _ => ∅
  | .un _ a => a.args
  | .bin _ a b => a.args ∪ b.args
  | .user1 _ _ _ a => a.args
  | .user2 _ _ _ _ _ _ a b => a.args ∪ b.args

variable {R : Type*} [Zero R] [One R] [Neg R] [Add R] [Sub R] [Mul R] [Div R] [NatCast R] [CCmp R] [CSqrt R] [CMath R]

/-- the function on numbers -/
def Fn1.num : Fn1 → R → R
  | .pos => fun x => x
  | .neg => fun x => -x
  | .abs => CSqrt.abs
  | .exp => CMath.exp
  | .exp2 => CMath.exp2
  | .expm1 => CMath.expm1
  | .log => CMath.log
  | .log10 => CMath.log10
  | .log2 => CMath.log2
  | .log1p => CMath.log1p
  | .sqrt => CSqrt.sqrt
  | .cbrt => CMath.cbrt
  | .sin => CMath.sin
  | .cos => CMath.cos
  | .tan => CMath.tan
  | .asin => CMath.asin
  | .acos => CMath.acos
  | .atan => CMath.atan
  | .sinh => CMath.sinh
  | .cosh => CMath.cosh
  | .tanh => CMath.tanh
  | .asinh => CMath.asinh
  | .acosh => CMath.acosh
  | .atanh => CMath.atanh
  | .erf => CMath.erf
  | .erfc => CMath.erfc

/-- the function on numbers, `d` being what is done for `/` -/
def Fn2.num (d : R → R → R) : Fn2 → R → R → R
  | .add => (· + ·)
  | .sub => (· - ·)
  | .mul => (· * ·)
  | .div => d
  | .fmod => CMath.fmod
  | .remainder => CMath.remainder
  | .fmax => CMath.fmax
  | .fmin => CMath.fmin
  | .pow => CMath.pow
  | .hypot => CMath.hypot
  | .atan2 => CMath.atan2

/-- the template instantiated with the number type, `d` being what is done for `/` -/
def GExpr.plainWith (d : R → R → R) (x : ℕ → R) : GExpr R → R
  | .arg i => x i
  | .num c => c
  | .un f a => f.num (a.plainWith d x)
  | .bin f a b => f.num d (a.plainWith d x) (b.plainWith d x)
  | .user1 f _ _ a => f (a.plainWith d x)
  | .user2 f _ _ _ _ _ a b => f (a.plainWith d x) (b.plainWith d x)

/-- the template instantiated with the number type -/
def GExpr.plain (x : ℕ → R) (e : GExpr R) : R := e.plainWith (· / ·) x

/-- no `/` in the expression -/
def GExpr.NoDiv {R : Type*} : GExpr R → Prop
  | .arg _ => True
  | .num _ => True
  | .un _ a => a.NoDiv
  | .bin f a b => f ≠ .div ∧ a.NoDiv ∧ b.NoDiv
  | .user1 _ _ _ a => a.NoDiv
  | .user2 _ _ _ _ _ _ a b => a.NoDiv ∧ b.NoDiv

/-- the function on `UReal`; unary `+` returns its argument (uncertainties/ureal.hpp:775-777) -/
def Fn1.first : Fn1 → UReal R → UReal R
  | .pos => fun x => x
  | .neg => UReal.neg
  | .abs => UMath.abs
  | .exp => UMath.exp
  | .exp2 => UMath.exp2
  | .expm1 => UMath.expm1
  | .log => UMath.log
  | .log10 => UMath.log10
  | .log2 => UMath.log2
  | .log1p => UMath.log1p
  | .sqrt => UMath.sqrt
  | .cbrt => UMath.cbrt
  | .sin => UMath.sin
  | .cos => UMath.cos
  | .tan => UMath.tan
  | .asin => UMath.asin
  | .acos => UMath.acos
  | .atan => UMath.atan
  | .sinh => UMath.sinh
  | .cosh => UMath.cosh
  | .tanh => UMath.tanh
  | .asinh => UMath.asinh
  | .acosh => UMath.acosh
  | .atanh => UMath.atanh
  | .erf => UMath.erf
  | .erfc => UMath.erfc

/-- the function on `UReal` -/
def Fn2.first : Fn2 → UReal R → UReal R → Option (UReal R)
  | .add => UReal.add
  | .sub => UReal.sub
  | .mul => UReal.mul
  | .div => UReal.div
  | .fmod => UMath.fmod
  | .remainder => UMath.remainder
  | .fmax => UMath.fmax
  | .fmin => UMath.fmin
  | .pow => UMath.pow
  | .hypot => UMath.hypot
  | .atan2 => UMath.atan2

/-- the template instantiated with `UReal`; `none` is undefined behaviour -/
def GExpr.first (x : ℕ → UReal R) : GExpr R → Option (UReal R)
  | .arg i => some (x i)
  | .num c => some (UReal.const c)
  | .un f a => (a.first x).map f.first
  | .bin f a b => (a.first x).bind fun a => (b.first x).bind fun b => f.first a b
  | .user1 f df _ a => (a.first x).map (UFun.uunary f df)
  | .user2 f dfdx dfdy _ _ _ a b => (a.first x).bind fun a => (b.first x).bind fun b => UFun.ubinary f dfdx dfdy a b

/-- the function on `UReal2`; unary `+` returns its argument (uncertainties/ureal2.hpp:988-991) -/
def Fn1.second (u : Moments R) : Fn1 → UReal2 R → Option (UReal2 R)
  | .pos => fun x => some x
  | .neg => UReal2.neg u
  | .abs => UMath2.abs u
  | .exp => UMath2.exp u
  | .exp2 => UMath2.exp2 u
  | .expm1 => UMath2.expm1 u
  | .log => UMath2.log u
  | .log10 => UMath2.log10 u
  | .log2 => UMath2.log2 u
  | .log1p => UMath2.log1p u
  | .sqrt => UMath2.sqrt u
  | .cbrt => UMath2.cbrt u
  | .sin => UMath2.sin u
  | .cos => UMath2.cos u
  | .tan => UMath2.tan u
  | .asin => UMath2.asin u
  | .acos => UMath2.acos u
  | .atan => UMath2.atan u
  | .sinh => UMath2.sinh u
  | .cosh => UMath2.cosh u
  | .tanh => UMath2.tanh u
  | .asinh => UMath2.asinh u
  | .acosh => UMath2.acosh u
  | .atanh => UMath2.atanh u
  | .erf => UMath2.erf u
  | .erfc => UMath2.erfc u

/-- the function on `UReal2` -/
def Fn2.second (u : Moments R) : Fn2 → UReal2 R → UReal2 R → Option (UReal2 R)
  | .add => UReal2.add u
  | .sub => UReal2.sub u
  | .mul => UReal2.mul u
  | .div => UReal2.div u
  | .fmod => UMath2.fmod u
  | .remainder => UMath2.remainder u
  | .fmax => UMath2.fmax u
  | .fmin => UMath2.fmin u
  | .pow => UMath2.pow u
  | .hypot => UMath2.hypot u
  | .atan2 => UMath2.atan2 u

/-- the template instantiated with `UReal2` -/
def GExpr.second (u : Moments R) (x : ℕ → UReal2 R) : GExpr R → Option (UReal2 R)
  | .arg i => some (x i)
  | .num c => some (UReal2.const c)
  | .un f a => (a.second u x).bind (f.second u)
  | .bin f a b => (a.second u x).bind fun a => (b.second u x).bind fun b => f.second u a b
  | .user1 f df ddf a => (a.second u x).bind (UFun2.uunary2 u f df ddf)
  | .user2 f dfdx dfdy ddfdxdx ddfdydy ddfdxdy a b => (a.second u x).bind fun a => (b.second u x).bind fun b =>
      UFun2.ubinary2 u f dfdx dfdy ddfdxdx ddfdydy ddfdxdy a b

end Unc.Spec
