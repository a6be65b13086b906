import Verif.Model.Float
import Verif.Model.Math

/-!
# The functions of `<cmath>` on floating point numbers

Simplification: every function gives the exact real result rounded to the format (correct rounding).  Real libraries promise this for `fmod`, `remainder`, `trunc`,
`round`, `fmax`, `fmin` (where the exact result is a number of the format) and `sqrt`, and only come near it for the others.  Outside the domain, where C++ gives NaN,
the result is some number, so theorems assume the arguments are in the domain.
-/

namespace Unc
variable {f : Fmt}

/-- a literal such as `Real(2)` (uncertainties/math.hpp:81, 98, 104, 121, 127) -/
noncomputable instance instNatCastFP : NatCast (FP f) := ⟨fun n => FP.round f n⟩

/-- correctly rounded functions (those called at uncertainties/math.hpp:42-231) -/
noncomputable instance instCMathFP : CMath (FP f) where
  fmod x y := FP.round f (CMath.fmod x.val y.val)
  remainder x y := FP.round f (CMath.remainder x.val y.val)
  trunc x := FP.round f (CMath.trunc x.val)
  round x := FP.round f (CMath.round x.val)
  fmax x y := FP.round f (CMath.fmax x.val y.val)
  fmin x y := FP.round f (CMath.fmin x.val y.val)
  exp x := FP.round f (CMath.exp x.val)
  exp2 x := FP.round f (CMath.exp2 x.val)
  expm1 x := FP.round f (CMath.expm1 x.val)
  log x := FP.round f (CMath.log x.val)
  log10 x := FP.round f (CMath.log10 x.val)
  log2 x := FP.round f (CMath.log2 x.val)
  log1p x := FP.round f (CMath.log1p x.val)
  pow x y := FP.round f (CMath.pow x.val y.val)
  cbrt x := FP.round f (CMath.cbrt x.val)
  hypot x y := FP.round f (CMath.hypot x.val y.val)
  sin x := FP.round f (CMath.sin x.val)
  cos x := FP.round f (CMath.cos x.val)
  tan x := FP.round f (CMath.tan x.val)
  asin x := FP.round f (CMath.asin x.val)
  acos x := FP.round f (CMath.acos x.val)
  atan x := FP.round f (CMath.atan x.val)
  atan2 x y := FP.round f (CMath.atan2 x.val y.val)
  sinh x := FP.round f (CMath.sinh x.val)
  cosh x := FP.round f (CMath.cosh x.val)
  tanh x := FP.round f (CMath.tanh x.val)
  asinh x := FP.round f (CMath.asinh x.val)
  acosh x := FP.round f (CMath.acosh x.val)
  atanh x := FP.round f (CMath.atanh x.val)
  erf x := FP.round f (CMath.erf x.val)
  erfc x := FP.round f (CMath.erfc x.val)

end Unc

namespace Unc

/-- `std::numeric_limits<Real>::epsilon()` of the binary format with `p` digits (uncertainties/functions.hpp:127): the distance from 1 to the next number -/
noncomputable def epsFP (p : ℕ) (hp : 1 ≤ p) : FP (bits p hp) := FP.round _ ((2 : ℝ) ^ (1 - p : ℤ))

end Unc
