import Verif.Model.UReal
import Mathlib.Analysis.SpecialFunctions.Arcosh
import Mathlib.Analysis.SpecialFunctions.Arsinh
import Mathlib.Analysis.SpecialFunctions.Artanh
import Mathlib.Analysis.SpecialFunctions.Trigonometric.Inverse
import Mathlib.Analysis.SpecialFunctions.Trigonometric.Arctan
import Mathlib.Analysis.SpecialFunctions.Complex.Arg
import Mathlib.Analysis.SpecialFunctions.Log.Base
import Mathlib.Analysis.SpecialFunctions.Pow.Real
import Mathlib.MeasureTheory.Integral.IntervalIntegral.Basic

/-!
# Model of `uncertainties/math.hpp`, first-order part, and of the first-order part of `uncertainties/functions.hpp`

The `<cmath>` functions are operations of the number type (class `CMath`, no laws), with two instances: exact real
functions, and exact real functions with a NaN (`Verif/Model/NaN.lean`).
-/

namespace Unc

/-- The functions of `<cmath>` called by uncertainties/math.hpp:42-247 (`sqrt` and `abs` are in `CSqrt`). -/
class CMath (R : Type*) where
  /-- `std::fmod` -/
  fmod : R → R → R
  /-- `std::remainder` -/
  remainder : R → R → R
  /-- `trunc` -/
  trunc : R → R
  /-- `std::round` -/
  round : R → R
  /-- `std::fmax` -/
  fmax : R → R → R
  /-- `std::fmin` -/
  fmin : R → R → R
  /-- `std::exp` -/
  exp : R → R
  /-- `std::exp2` -/
  exp2 : R → R
  /-- `std::expm1` -/
  expm1 : R → R
  /-- `std::log` -/
  log : R → R
  /-- `std::log10` -/
  log10 : R → R
  /-- `std::log2` -/
  log2 : R → R
  /-- `std::log1p` -/
  log1p : R → R
  /-- `std::pow` -/
  pow : R → R → R
  /-- `std::cbrt` -/
  cbrt : R → R
  /-- `std::hypot` -/
  hypot : R → R → R
  /-- `std::sin` -/
  sin : R → R
  /-- `std::cos` -/
  cos : R → R
  /-- `std::tan` -/
  tan : R → R
  /-- `std::asin` -/
  asin : R → R
  /-- `std::acos` -/
  acos : R → R
  /-- `std::atan` -/
  atan : R → R
  /-- `std::atan2`, first argument the ordinate -/
  atan2 : R → R → R
  /-- `std::sinh` -/
  sinh : R → R
  /-- `std::cosh` -/
  cosh : R → R
  /-- `std::tanh` -/
  tanh : R → R
  /-- `std::asinh` -/
  asinh : R → R
  /-- `std::acosh` -/
  acosh : R → R
  /-- `std::atanh` -/
  atanh : R → R
  /-- `std::erf` -/
  erf : R → R
  /-- `std::erfc` -/
  erfc : R → R

/-- Exact `trunc`: rounding towards zero (used at uncertainties/math.hpp:50). -/
noncomputable def truncR (x : ℝ) : ℝ := if 0 ≤ x then (⌊x⌋ : ℝ) else (⌈x⌉ : ℝ)

/-- Exact `std::round`: to nearest, halves away from zero (used at uncertainties/math.hpp:56). -/
noncomputable def roundAwayR (x : ℝ) : ℝ := if 0 ≤ x then (⌊x + 1 / 2⌋ : ℝ) else (⌈x - 1 / 2⌉ : ℝ)

/-- Rounding to nearest with halves to even, the quotient of `std::remainder` (used at uncertainties/math.hpp:56). -/
noncomputable def roundEvenR (x : ℝ) : ℤ :=
  if x - ⌊x⌋ < 1 / 2 then ⌊x⌋ else if 1 / 2 < x - ⌊x⌋ then ⌊x⌋ + 1
  else if ⌊x⌋ % 2 = 0 then ⌊x⌋ else ⌊x⌋ + 1

/-- Exact cube root of any sign (`std::cbrt`, used at uncertainties/math.hpp:125). -/
noncomputable def cbrtR (x : ℝ) : ℝ := if 0 ≤ x then x ^ (1 / 3 : ℝ) else -(-x) ^ (1 / 3 : ℝ)

/-- Exact error function (`std::erf`, used at uncertainties/math.hpp:219). -/
noncomputable def erfR (x : ℝ) : ℝ := 2 / Real.sqrt Real.pi * ∫ t in (0 : ℝ)..x, Real.exp (-t ^ 2)

/-- Exact real functions (those called at uncertainties/math.hpp:42-247).  Simplification: outside the domain where C++
returns NaN this instance returns some number; theorems using it assume the arguments are in the domain. -/
noncomputable instance instCMathReal : CMath ℝ where
  fmod x y := x - truncR (x / y) * y
  remainder x y := x - roundEvenR (x / y) * y
  trunc := truncR
  round := roundAwayR
  fmax := max
  fmin := min
  exp := Real.exp
  exp2 x := (2 : ℝ) ^ x
  expm1 x := Real.exp x - 1
  log := Real.log
  log10 := Real.logb 10
  log2 := Real.logb 2
  log1p x := Real.log (1 + x)
  pow x y := x ^ y
  cbrt := cbrtR
  hypot x y := Real.sqrt (x ^ 2 + y ^ 2)
  sin := Real.sin
  cos := Real.cos
  tan := Real.tan
  asin := Real.arcsin
  acos := Real.arccos
  atan := Real.arctan
  atan2 y x := Complex.arg ⟨x, y⟩
  sinh := Real.sinh
  cosh := Real.cosh
  tanh := Real.tanh
  asinh := Real.arsinh
  acosh := Real.arcosh
  atanh := Real.artanh
  erf := erfR
  erfc x := 1 - erfR x

namespace UMath
open UReal CMath CSqrt
variable {R : Type*} [Zero R] [One R] [Neg R] [Add R] [Sub R] [Mul R] [Div R] [NatCast R] [CCmp R] [CSqrt R] [CMath R]

/-- `abs` (uncertainties/math.hpp:42-46). -/
def abs (x : UReal R) : UReal R := unary x (CSqrt.abs x.n) (if CCmp.leb 0 x.n then 1 else -1)
/-- `fmod` (uncertainties/math.hpp:47-51). -/
def fmod (x y : UReal R) : Option (UReal R) := binary x y (CMath.fmod x.n y.n) 1 (-CMath.trunc (x.n / y.n))
/-- `remainder` (uncertainties/math.hpp:52-57). -/
def remainder (x y : UReal R) : Option (UReal R) :=
  binary x y (CMath.remainder x.n y.n) 1 (-CMath.round (x.n / y.n))
/-- `fmax` (uncertainties/math.hpp:58-64). -/
def fmax (x y : UReal R) : Option (UReal R) :=
  let m := CMath.fmax x.n y.n
  let c := CCmp.eqb m x.n
  binary x y m (if c then 1 else 0) (if c then 0 else 1)
/-- `fmin` (uncertainties/math.hpp:65-71). -/
def fmin (x y : UReal R) : Option (UReal R) :=
  let m := CMath.fmin x.n y.n
  let c := CCmp.eqb m x.n
  binary x y m (if c then 1 else 0) (if c then 0 else 1)
/-- `exp` (uncertainties/math.hpp:73-77). -/
def exp (x : UReal R) : UReal R := unary x (CMath.exp x.n) (CMath.exp x.n)
/-- `exp2` (uncertainties/math.hpp:78-83). -/
def exp2 (x : UReal R) : UReal R := unary x (CMath.exp2 x.n) (CMath.log ((2 : ℕ) : R) * CMath.exp2 x.n)
/-- `expm1` (uncertainties/math.hpp:84-89). -/
def expm1 (x : UReal R) : UReal R := unary x (CMath.expm1 x.n) (CMath.exp x.n)
/-- `log` (uncertainties/math.hpp:90-94). -/
def log (x : UReal R) : UReal R := unary x (CMath.log x.n) (1 / x.n)
/-- `log10` (uncertainties/math.hpp:95-100). -/
def log10 (x : UReal R) : UReal R := unary x (CMath.log10 x.n) (1 / (x.n * CMath.log ((10 : ℕ) : R)))
/-- `log2` (uncertainties/math.hpp:101-106). -/
def log2 (x : UReal R) : UReal R := unary x (CMath.log2 x.n) (1 / (x.n * CMath.log ((2 : ℕ) : R)))
/-- `log1p` (uncertainties/math.hpp:107-111). -/
def log1p (x : UReal R) : UReal R := unary x (CMath.log1p x.n) (1 / (1 + x.n))
/-- `pow` (uncertainties/math.hpp:112-118). -/
def pow (x y : UReal R) : Option (UReal R) :=
  let p := CMath.pow x.n y.n
  binary x y p (p * y.n / x.n) (p * CMath.log x.n)
/-- `sqrt` (uncertainties/math.hpp:119-123). -/
def sqrt (x : UReal R) : UReal R := unary x (CSqrt.sqrt x.n) (1 / (((2 : ℕ) : R) * CSqrt.sqrt x.n))
/-- `cbrt` (uncertainties/math.hpp:124-129). -/
def cbrt (x : UReal R) : UReal R :=
  unary x (CMath.cbrt x.n) (CMath.pow x.n (-((2 : ℕ) : R) / ((3 : ℕ) : R)) / ((3 : ℕ) : R))
/-- `hypot` (uncertainties/math.hpp:130-135). -/
def hypot (x y : UReal R) : Option (UReal R) :=
  let h := CMath.hypot x.n y.n
  binary x y h (x.n / h) (y.n / h)
/-- `sin` (uncertainties/math.hpp:136-141). -/
def sin (x : UReal R) : UReal R := unary x (CMath.sin x.n) (CMath.cos x.n)
/-- `cos` (uncertainties/math.hpp:142-147). -/
def cos (x : UReal R) : UReal R := unary x (CMath.cos x.n) (-CMath.sin x.n)
/-- `tan` (uncertainties/math.hpp:148-153). -/
def tan (x : UReal R) : UReal R :=
  let t := CMath.tan x.n
  unary x t (1 + t * t)
/-- `asin` (uncertainties/math.hpp:154-159). -/
def asin (x : UReal R) : UReal R := unary x (CMath.asin x.n) (1 / CSqrt.sqrt (1 - x.n * x.n))
/-- `acos` (uncertainties/math.hpp:160-165). -/
def acos (x : UReal R) : UReal R := unary x (CMath.acos x.n) (-1 / CSqrt.sqrt (1 - x.n * x.n))
/-- `atan` (uncertainties/math.hpp:166-170). -/
def atan (x : UReal R) : UReal R := unary x (CMath.atan x.n) (1 / (1 + x.n * x.n))
/-- `atan2` (uncertainties/math.hpp:171-178). -/
def atan2 (x y : UReal R) : Option (UReal R) :=
  let yx := y.n / x.n
  let dy := 1 / ((1 + yx * yx) * x.n)
  let dx := dy * (-yx)
  binary x y (CMath.atan2 x.n y.n) dx dy
/-- `sinh` (uncertainties/math.hpp:179-184). -/
def sinh (x : UReal R) : UReal R := unary x (CMath.sinh x.n) (CMath.cosh x.n)
/-- `cosh` (uncertainties/math.hpp:185-190). -/
def cosh (x : UReal R) : UReal R := unary x (CMath.cosh x.n) (CMath.sinh x.n)
/-- `tanh` (uncertainties/math.hpp:191-196). -/
def tanh (x : UReal R) : UReal R :=
  let t := CMath.tanh x.n
  unary x t (1 - t * t)
/-- `asinh` (uncertainties/math.hpp:197-202). -/
def asinh (x : UReal R) : UReal R := unary x (CMath.asinh x.n) (1 / CSqrt.sqrt (x.n * x.n + 1))
/-- `acosh` (uncertainties/math.hpp:203-208). -/
def acosh (x : UReal R) : UReal R := unary x (CMath.acosh x.n) (1 / CSqrt.sqrt (x.n * x.n - 1))
/-- `atanh` (uncertainties/math.hpp:209-213). -/
def atanh (x : UReal R) : UReal R := unary x (CMath.atanh x.n) (1 / (1 - x.n * x.n))
/-- `erf_coeff` (uncertainties/math.hpp:220, 229). -/
def erfCoeff : R := ((2 : ℕ) : R) / CSqrt.sqrt (CMath.atan2 (0 : R) (-1))
/-- `erf` (uncertainties/math.hpp:214-222). -/
def erf (x : UReal R) : UReal R := unary x (CMath.erf x.n) (erfCoeff * CMath.exp (-x.n * x.n))
/-- `erfc` (uncertainties/math.hpp:223-231). -/
def erfc (x : UReal R) : UReal R := unary x (CMath.erfc x.n) (-erfCoeff * CMath.exp (-x.n * x.n))

/-- `isfinite` and `isnormal`, given the predicate on numbers (uncertainties/math.hpp:235-247). -/
def both (p : R → Bool) (x : UReal R) : Bool := p x.n && p x.s

end UMath

namespace UFun
open UReal
variable {R : Type*} [Zero R] [One R] [Neg R] [Add R] [Sub R] [Mul R] [Div R]

/-- `uunary(f, df)` (uncertainties/functions.hpp:97-101). -/
def uunary (f df : R → R) (x : UReal R) : UReal R := unary x (f x.n) (df x.n)

/-- `ubinary(f, dfdx, dfdy)` (uncertainties/functions.hpp:109-118). -/
def ubinary (f dfdx dfdy : R → R → R) (x y : UReal R) : Option (UReal R) :=
  binary x y (f x.n y.n) (dfdx x.n y.n) (dfdy x.n y.n)

/-- `default_step<Real>(order)` (uncertainties/functions.hpp:123-128); `eps` is `numeric_limits<Real>::epsilon()`. -/
def defaultStep [CSqrt R] (eps : R) : ℕ → R
  | 0 => eps
  | k + 1 => CSqrt.sqrt (defaultStep eps k)

/-- `uunary(f, step)` (uncertainties/functions.hpp:140-151). -/
def uunaryNum (f : R → R) (step : R) (x : UReal R) : UReal R :=
  let mu := x.n
  let fmu := f mu
  let dx := (f (mu + step) - fmu) / step
  unary x fmu dx

/-- `ubinary(f, step)` (uncertainties/functions.hpp:166-179). -/
def ubinaryNum (f : R → R → R) (step : R) (x y : UReal R) : Option (UReal R) :=
  let xn := x.n
  let yn := y.n
  let fn := f xn yn
  let dfdx := (f (xn + step) yn - fn) / step
  let dfdy := (f xn (yn + step) - fn) / step
  binary x y fn dfdx dfdy

end UFun
end Unc
