import Verif.Spec.Error2Fun

/-!
# Specification of the rounding errors of the other functions

For arguments with the value `t`, the magnitude `w` and `k` roundings; `L` is a bound of the derivative of the function of the C library near the argument, `D` one of the change of a function of two arguments.
-/

namespace Unc.Spec
variable {f : Fmt}

/-- how much the function changes near `t` -/
def Lip (e t L : ℝ) (g : ℝ → ℝ) : Prop := 0 ≤ L ∧ ∀ s, |s - t| ≤ e → |g s - g t| ≤ L * |s - t|

/-- `abs` -/
noncomputable def absFun (f : Fmt) (w : ℝ) (k : ℕ) : Fun1 f where
  F x := CSqrt.abs x
  F1 x := if CCmp.leb 0 x then 1 else -1
  F2 _ := 0
  g x := |x|
  g1 x := if 0 ≤ x then 1 else -1
  g2 _ := 0
  S := w
  S1 := 1
  S2 := 0
  j := k

/-- `exp2` -/
noncomputable def exp2Fun (f : Fmt) (t w L : ℝ) (k : ℕ) : Fun1 f where
  F x := CMath.exp2 x
  F1 x := CMath.log (Mom.lit 2) * CMath.exp2 x
  F2 x := CMath.log (Mom.lit 2) * CMath.log (Mom.lit 2) * CMath.exp2 x
  g x := 2 ^ x
  g1 x := Real.log 2 * 2 ^ x
  g2 x := Real.log 2 * Real.log 2 * 2 ^ x
  S := 2 ^ t + L * w
  S1 := (Real.log 2 + 2) * (2 ^ t + L * w)
  S2 := (Real.log 2 + 2) * (Real.log 2 + 2) * (2 ^ t + L * w)
  j := k + 7

/-- `expm1` -/
noncomputable def expm1Fun (f : Fmt) (t w L : ℝ) (k : ℕ) : Fun1 f where
  F x := CMath.expm1 x
  F1 x := CMath.exp x
  F2 x := CMath.exp x
  g x := Real.exp x - 1
  g1 := Real.exp
  g2 := Real.exp
  S := |Real.exp t - 1| + L * w
  S1 := Real.exp t + L * w
  S2 := Real.exp t + L * w
  j := k + 1

/-- the magnitude of `1 / log b` -/
noncomputable def iLog (b : ℕ) : ℝ := (Real.log b + 2) / Real.log b ^ 2

/-- `log10` and `log2`, the logarithm to the base `b` by the function `F` of the C library -/
noncomputable def logbFun (f : Fmt) (F : FP f → FP f) (b : ℕ) (t w L : ℝ) (k : ℕ) : Fun1 f where
  F := F
  F1 x := 1 / CMath.log (Mom.lit b) / x
  F2 x := -(1 / CMath.log (Mom.lit b)) / (x * x)
  g := Real.logb b
  g1 x := 1 / Real.log b / x
  g2 x := -(1 / Real.log b) / (x * x)
  S := |Real.logb b t| + L * w
  S1 := iLog b * (w / t ^ 2)
  S2 := iLog b * (w * w / (t * t) ^ 2)
  j := 4 * k + 8

/-- `log1p` -/
noncomputable def log1pFun (f : Fmt) (t w L : ℝ) (k : ℕ) : Fun1 f where
  F x := CMath.log1p x
  F1 x := 1 / (1 + x)
  F2 x := -(1 / (1 + x)) * (1 / (1 + x))
  g x := Real.log (1 + x)
  g1 x := 1 / (1 + x)
  g2 x := -(1 / (1 + x)) * (1 / (1 + x))
  S := |Real.log (1 + t)| + L * w
  S1 := (1 + w) / (1 + t) ^ 2
  S2 := (1 + w) / (1 + t) ^ 2 * ((1 + w) / (1 + t) ^ 2)
  j := 4 * k + 7

/-- `cbrt` -/
noncomputable def cbrtFun (f : Fmt) (t w L : ℝ) (k : ℕ) : Fun1 f :=
  let S := |cbrtR t| + L * w
  let I := S * S / (cbrtR t * cbrtR t) ^ 2
  { F := fun x => CMath.cbrt x
    F1 := fun x => 1 / (CMath.cbrt x * CMath.cbrt x) / Mom.lit 3
    F2 := fun x => -Mom.lit 2 / (Mom.lit 9 * x) * (1 / (CMath.cbrt x * CMath.cbrt x))
    g := cbrtR
    g1 := fun x => 1 / (cbrtR x * cbrtR x) / 3
    g2 := fun x => -2 / (9 * x) * (1 / (cbrtR x * cbrtR x))
    S := S
    S1 := I * (3 / 3 ^ 2)
    S2 := 2 * (9 * w / (9 * t) ^ 2) * I
    j := 6 * k + 14 }

/-- `tan` -/
noncomputable def tanFun (f : Fmt) (t w L : ℝ) (k : ℕ) : Fun1 f :=
  let S := |Real.tan t| + L * w
  { F := fun x => CMath.tan x
    F1 := fun x => 1 + CMath.tan x * CMath.tan x
    F2 := fun x => Mom.lit 2 * CMath.tan x * (1 + CMath.tan x * CMath.tan x)
    g := Real.tan
    g1 := fun x => 1 + Real.tan x * Real.tan x
    g2 := fun x => 2 * Real.tan x * (1 + Real.tan x * Real.tan x)
    S := S
    S1 := 1 + S * S
    S2 := 2 * S * (1 + S * S)
    j := 3 * k + 8 }

/-- `asin` -/
noncomputable def asinFun (f : Fmt) (t w L : ℝ) (k : ℕ) : Fun1 f :=
  let I := (1 + w * w) / (1 - t * t) ^ 2
  let Q := Real.sqrt (1 / (1 - t * t)) + 1 / Real.sqrt (1 / (1 - t * t)) * I
  { F := fun x => CMath.asin x
    F1 := fun x => CSqrt.sqrt (1 / (1 - x * x))
    F2 := fun x => x * CSqrt.sqrt (1 / (1 - x * x)) * (1 / (1 - x * x))
    g := Real.arcsin
    g1 := fun x => Real.sqrt (1 / (1 - x * x))
    g2 := fun x => x * Real.sqrt (1 / (1 - x * x)) * (1 / (1 - x * x))
    S := |Real.arcsin t| + L * w
    S1 := Q
    S2 := w * Q * I
    j := 9 * k + 13 }

/-- `acos` -/
noncomputable def acosFun (f : Fmt) (t w L : ℝ) (k : ℕ) : Fun1 f :=
  let I := (1 + w * w) / (1 - t * t) ^ 2
  let Q := Real.sqrt (1 / (1 - t * t)) + 1 / Real.sqrt (1 / (1 - t * t)) * I
  { F := fun x => CMath.acos x
    F1 := fun x => -CSqrt.sqrt (1 / (1 - x * x))
    F2 := fun x => -x * CSqrt.sqrt (1 / (1 - x * x)) * (1 / (1 - x * x))
    g := Real.arccos
    g1 := fun x => -Real.sqrt (1 / (1 - x * x))
    g2 := fun x => -x * Real.sqrt (1 / (1 - x * x)) * (1 / (1 - x * x))
    S := |Real.arccos t| + L * w
    S1 := Q
    S2 := w * Q * I
    j := 9 * k + 13 }

/-- `atan` -/
noncomputable def atanFun (f : Fmt) (t w : ℝ) (k : ℕ) : Fun1 f :=
  let I := (1 + w * w) / (1 + t * t) ^ 2
  { F := fun x => CMath.atan x
    F1 := fun x => 1 / (1 + x * x)
    F2 := fun x => -Mom.lit 2 * x * (1 / (1 + x * x)) * (1 / (1 + x * x))
    g := Real.arctan
    g1 := fun x => 1 / (1 + x * x)
    g2 := fun x => -2 * x * (1 / (1 + x * x)) * (1 / (1 + x * x))
    S := |Real.arctan t| + w
    S1 := I
    S2 := 2 * w * I * I
    j := 9 * k + 14 }

/-- `sinh` -/
noncomputable def sinhFun (f : Fmt) (t w L : ℝ) (k : ℕ) : Fun1 f where
  F x := CMath.sinh x
  F1 x := CMath.cosh x
  F2 x := CMath.sinh x
  g := Real.sinh
  g1 := Real.cosh
  g2 := Real.sinh
  S := |Real.sinh t| + L * w
  S1 := |Real.cosh t| + L * w
  S2 := |Real.sinh t| + L * w
  j := k + 1

/-- `cosh` -/
noncomputable def coshFun (f : Fmt) (t w L : ℝ) (k : ℕ) : Fun1 f where
  F x := CMath.cosh x
  F1 x := CMath.sinh x
  F2 x := CMath.cosh x
  g := Real.cosh
  g1 := Real.sinh
  g2 := Real.cosh
  S := |Real.cosh t| + L * w
  S1 := |Real.sinh t| + L * w
  S2 := |Real.cosh t| + L * w
  j := k + 1

/-- `tanh` -/
noncomputable def tanhFun (f : Fmt) (t w L : ℝ) (k : ℕ) : Fun1 f :=
  let S := |Real.tanh t| + L * w
  { F := fun x => CMath.tanh x
    F1 := fun x => 1 - CMath.tanh x * CMath.tanh x
    F2 := fun x => -Mom.lit 2 * CMath.tanh x * (1 - CMath.tanh x * CMath.tanh x)
    g := Real.tanh
    g1 := fun x => 1 - Real.tanh x * Real.tanh x
    g2 := fun x => -2 * Real.tanh x * (1 - Real.tanh x * Real.tanh x)
    S := S
    S1 := 1 + S * S
    S2 := 2 * S * (1 + S * S)
    j := 3 * k + 8 }

/-- `asinh` -/
noncomputable def asinhFun (f : Fmt) (t w L : ℝ) (k : ℕ) : Fun1 f :=
  let I := (1 + w * w) / (1 + t * t) ^ 2
  let Q := Real.sqrt (1 / (1 + t * t)) + 1 / Real.sqrt (1 / (1 + t * t)) * I
  { F := fun x => CMath.asinh x
    F1 := fun x => CSqrt.sqrt (1 / (1 + x * x))
    F2 := fun x => -x * (1 / (1 + x * x)) * CSqrt.sqrt (1 / (1 + x * x))
    g := Real.arsinh
    g1 := fun x => Real.sqrt (1 / (1 + x * x))
    g2 := fun x => -x * (1 / (1 + x * x)) * Real.sqrt (1 / (1 + x * x))
    S := |Real.arsinh t| + L * w
    S1 := Q
    S2 := w * I * Q
    j := 9 * k + 13 }

/-- `acosh` -/
noncomputable def acoshFun (f : Fmt) (t w L : ℝ) (k : ℕ) : Fun1 f :=
  let I := (w * w + 1) / (t * t - 1) ^ 2
  let Q := Real.sqrt (1 / (t * t - 1)) + 1 / Real.sqrt (1 / (t * t - 1)) * I
  { F := fun x => CMath.acosh x
    F1 := fun x => CSqrt.sqrt (1 / (x * x - 1))
    F2 := fun x => -x * (1 / (x * x - 1)) * CSqrt.sqrt (1 / (x * x - 1))
    g := Real.arcosh
    g1 := fun x => Real.sqrt (1 / (x * x - 1))
    g2 := fun x => -x * (1 / (x * x - 1)) * Real.sqrt (1 / (x * x - 1))
    S := |Real.arcosh t| + L * w
    S1 := Q
    S2 := w * I * Q
    j := 9 * k + 13 }

/-- `atanh` -/
noncomputable def atanhFun (f : Fmt) (t w L : ℝ) (k : ℕ) : Fun1 f :=
  let I := (1 + w * w) / (1 - t * t) ^ 2
  { F := fun x => CMath.atanh x
    F1 := fun x => 1 / (1 - x * x)
    F2 := fun x => Mom.lit 2 * x * (1 / (1 - x * x)) * (1 / (1 - x * x))
    g := Real.artanh
    g1 := fun x => 1 / (1 - x * x)
    g2 := fun x => 2 * x * (1 / (1 - x * x)) * (1 / (1 - x * x))
    S := |Real.artanh t| + L * w
    S1 := I
    S2 := 2 * w * I * I
    j := 9 * k + 14 }

/-- `erf`; the derivative of `exp` near `-t * t` is at most `M` -/
noncomputable def erfFun (f : Fmt) (t w L M : ℝ) (k : ℕ) : Fun1 f :=
  let C := 4 / Real.sqrt Real.pi * (Real.exp (-t * t) + M * (w * w))
  { F := fun x => CMath.erf x
    F1 := fun x => UMath.erfCoeff * CMath.exp (-x * x)
    F2 := fun x => -Mom.lit 2 * x * (UMath.erfCoeff * CMath.exp (-x * x))
    g := erfR
    g1 := fun x => 2 / Real.sqrt Real.pi * Real.exp (-x * x)
    g2 := fun x => -2 * x * (2 / Real.sqrt Real.pi * Real.exp (-x * x))
    S := |erfR t| + L * w
    S1 := C
    S2 := 2 * w * C
    j := 3 * k + 12 }

/-- `erfc` -/
noncomputable def erfcFun (f : Fmt) (t w L M : ℝ) (k : ℕ) : Fun1 f :=
  let C := 4 / Real.sqrt Real.pi * (Real.exp (-t * t) + M * (w * w))
  { F := fun x => CMath.erfc x
    F1 := fun x => -(UMath.erfCoeff * CMath.exp (-x * x))
    F2 := fun x => Mom.lit 2 * x * (UMath.erfCoeff * CMath.exp (-x * x))
    g := fun x => 1 - erfR x
    g1 := fun x => -(2 / Real.sqrt Real.pi * Real.exp (-x * x))
    g2 := fun x => 2 * x * (2 / Real.sqrt Real.pi * Real.exp (-x * x))
    S := |1 - erfR t| + L * w
    S1 := C
    S2 := 2 * w * C
    j := 3 * k + 12 }

end Unc.Spec
