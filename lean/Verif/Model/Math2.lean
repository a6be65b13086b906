import Verif.Model.UReal2
import Verif.Model.Math

/-!
# Model of the second-order part of `uncertainties/math.hpp` and of `uncertainties/functions.hpp`

Every function takes the content `u` of uninitialised moments like `UReal2.unary` and `UReal2.binary`.  `isfinite` and
`isnormal` (uncertainties/math.hpp:534-546) call `x.all(x, p)`, but `all` is not a member: it is a
friend function (uncertainties/ureal2.hpp:1035), so they cannot be instantiated and are not modelled; `all` is
(`UReal2.all`).
-/

namespace Unc
namespace UMath2
open UReal2 Mom
variable {R : Type*} [Zero R] [One R] [Neg R] [Add R] [Sub R] [Mul R] [Div R] [NatCast R] [CCmp R] [CSqrt R] [CMath R]

/-- `abs` (uncertainties/math.hpp:252-257). -/
def abs (u : Moments R) (x : UReal2 R) : Option (UReal2 R) :=
  unary u x (CSqrt.abs x.mu) (if CCmp.leb 0 x.mu then 1 else -1) 0
/-- `fmod` (uncertainties/math.hpp:258-264). -/
def fmod (u : Moments R) (x y : UReal2 R) : Option (UReal2 R) :=
  binary u x y (CMath.fmod x.mu y.mu) 1 (-CMath.trunc (x.mu / y.mu)) 0 0 0
/-- `remainder` (uncertainties/math.hpp:265-272). -/
def remainder (u : Moments R) (x y : UReal2 R) : Option (UReal2 R) :=
  binary u x y (CMath.remainder x.mu y.mu) 1 (-CMath.round (x.mu / y.mu)) 0 0 0
/-- `fmax` (uncertainties/math.hpp:273-281). -/
def fmax (u : Moments R) (x y : UReal2 R) : Option (UReal2 R) :=
  let max := CMath.fmax x.mu y.mu
  let c := CCmp.eqb max x.mu
  binary u x y max (if c then 1 else 0) (if c then 0 else 1) 0 0 0
/-- `fmin` (uncertainties/math.hpp:282-290). -/
def fmin (u : Moments R) (x y : UReal2 R) : Option (UReal2 R) :=
  let min := CMath.fmin x.mu y.mu
  let c := CCmp.eqb min x.mu
  binary u x y min (if c then 1 else 0) (if c then 0 else 1) 0 0 0
/-- `exp` (uncertainties/math.hpp:292-297). -/
def exp (u : Moments R) (x : UReal2 R) : Option (UReal2 R) :=
  unary u x (CMath.exp x.mu) (CMath.exp x.mu) (CMath.exp x.mu)
/-- `exp2` (uncertainties/math.hpp:298-305). -/
def exp2 (u : Moments R) (x : UReal2 R) : Option (UReal2 R) :=
  let coeff : R := CMath.log (lit 2)
  unary u x (CMath.exp2 x.mu) (coeff * CMath.exp2 x.mu) (coeff * coeff * CMath.exp2 x.mu)
/-- `expm1` (uncertainties/math.hpp:306-312). -/
def expm1 (u : Moments R) (x : UReal2 R) : Option (UReal2 R) :=
  unary u x (CMath.expm1 x.mu) (CMath.exp x.mu) (CMath.exp x.mu)
/-- `log` (uncertainties/math.hpp:313-318). -/
def log (u : Moments R) (x : UReal2 R) : Option (UReal2 R) :=
  unary u x (CMath.log x.mu) (1 / x.mu) (-1 / (x.mu * x.mu))
/-- `log10` (uncertainties/math.hpp:319-326). -/
def log10 (u : Moments R) (x : UReal2 R) : Option (UReal2 R) :=
  let coeff : R := 1 / CMath.log (lit 10)
  unary u x (CMath.log10 x.mu) (coeff / x.mu) (-coeff / (x.mu * x.mu))
/-- `log2` (uncertainties/math.hpp:327-334). -/
def log2 (u : Moments R) (x : UReal2 R) : Option (UReal2 R) :=
  let coeff : R := 1 / CMath.log (lit 2)
  unary u x (CMath.log2 x.mu) (coeff / x.mu) (-coeff / (x.mu * x.mu))
/-- `log1p` (uncertainties/math.hpp:335-341). -/
def log1p (u : Moments R) (x : UReal2 R) : Option (UReal2 R) :=
  let ixnp1 := 1 / (1 + x.mu)
  unary u x (CMath.log1p x.mu) ixnp1 (-ixnp1 * ixnp1)
/-- `pow` (uncertainties/math.hpp:342-360). -/
def pow (u : Moments R) (x y : UReal2 R) : Option (UReal2 R) :=
  let x2y := CMath.pow x.mu y.mu
  let logx := CMath.log x.mu
  let ix := 1 / x.mu
  let x2yix := x2y * ix
  let x2yixy := x2yix * y.mu
  let x2ylogx := x2y * logx
  binary u x y x2y x2yixy x2ylogx (x2yixy * ix * (y.mu - 1)) (x2ylogx * logx) (x2yix + x2yixy * logx)
/-- `sqrt` (uncertainties/math.hpp:361-367). -/
def sqrt (u : Moments R) (x : UReal2 R) : Option (UReal2 R) :=
  let sqrtx := CSqrt.sqrt x.mu
  unary u x sqrtx (1 / (lit 2 * sqrtx)) (-1 / (lit 4 * x.mu * sqrtx))
/-- `cbrt` (uncertainties/math.hpp:368-376). -/
def cbrt (u : Moments R) (x : UReal2 R) : Option (UReal2 R) :=
  let cbrtx := CMath.cbrt x.mu
  let icbrt2 := 1 / (cbrtx * cbrtx)
  unary u x cbrtx (icbrt2 / lit 3) (-lit 2 / (lit 9 * x.mu) * icbrt2)
/-- `hypot` (uncertainties/math.hpp:377-391). -/
def hypot (u : Moments R) (x y : UReal2 R) : Option (UReal2 R) :=
  let h := CMath.hypot x.mu y.mu
  let ih := 1 / h
  let xnih := x.mu * ih
  let ynih := y.mu * ih
  binary u x y h xnih ynih (ih * (1 - xnih * xnih)) (ih * (1 - ynih * ynih)) (-xnih * ynih * ih)
/-- `sin` (uncertainties/math.hpp:392-399). -/
def sin (u : Moments R) (x : UReal2 R) : Option (UReal2 R) :=
  let sinx := CMath.sin x.mu
  unary u x sinx (CMath.cos x.mu) (-sinx)
/-- `cos` (uncertainties/math.hpp:400-407). -/
def cos (u : Moments R) (x : UReal2 R) : Option (UReal2 R) :=
  let cosx := CMath.cos x.mu
  unary u x cosx (-CMath.sin x.mu) (-cosx)
/-- `tan` (uncertainties/math.hpp:408-415). -/
def tan (u : Moments R) (x : UReal2 R) : Option (UReal2 R) :=
  let t := CMath.tan x.mu
  let tt1 := 1 + t * t
  unary u x t tt1 (lit 2 * t * tt1)
/-- `asin` (uncertainties/math.hpp:416-424). -/
def asin (u : Moments R) (x : UReal2 R) : Option (UReal2 R) :=
  let i1xx := 1 / (1 - x.mu * x.mu)
  let isqrt1xx := CSqrt.sqrt i1xx
  unary u x (CMath.asin x.mu) isqrt1xx (x.mu * isqrt1xx * i1xx)
/-- `acos` (uncertainties/math.hpp:425-433). -/
def acos (u : Moments R) (x : UReal2 R) : Option (UReal2 R) :=
  let i1xx := 1 / (1 - x.mu * x.mu)
  let isqrt1xx := CSqrt.sqrt i1xx
  unary u x (CMath.acos x.mu) (-isqrt1xx) (-x.mu * isqrt1xx * i1xx)
/-- `atan` (uncertainties/math.hpp:434-440). -/
def atan (u : Moments R) (x : UReal2 R) : Option (UReal2 R) :=
  let i1xx := 1 / (1 + x.mu * x.mu)
  unary u x (CMath.atan x.mu) i1xx (-lit 2 * x.mu * i1xx * i1xx)
/-- `atan2` (uncertainties/math.hpp:441-459). -/
def atan2 (u : Moments R) (x y : UReal2 R) : Option (UReal2 R) :=
  let x2 := x.mu * x.mu
  let y2 := y.mu * y.mu
  let xxyy := x2 + y2
  let ixxyy := 1 / xxyy
  let xixxyy := x.mu * ixxyy
  let yixxyy := y.mu * ixxyy
  let xy2ixxyy2 := lit 2 * xixxyy * yixxyy
  binary u x y (CMath.atan2 x.mu y.mu) yixxyy (-xixxyy) (-xy2ixxyy2) xy2ixxyy2 ((x2 - y2) * ixxyy * ixxyy)
/-- `sinh` (uncertainties/math.hpp:460-467). -/
def sinh (u : Moments R) (x : UReal2 R) : Option (UReal2 R) :=
  let sinhx := CMath.sinh x.mu
  unary u x sinhx (CMath.cosh x.mu) sinhx
/-- `cosh` (uncertainties/math.hpp:468-475). -/
def cosh (u : Moments R) (x : UReal2 R) : Option (UReal2 R) :=
  let coshx := CMath.cosh x.mu
  unary u x coshx (CMath.sinh x.mu) coshx
/-- `tanh` (uncertainties/math.hpp:476-483). -/
def tanh (u : Moments R) (x : UReal2 R) : Option (UReal2 R) :=
  let t := CMath.tanh x.mu
  let tt1 := 1 - t * t
  unary u x t tt1 (-lit 2 * t * tt1)
/-- `asinh` (uncertainties/math.hpp:484-492). -/
def asinh (u : Moments R) (x : UReal2 R) : Option (UReal2 R) :=
  let i1xx := 1 / (1 + x.mu * x.mu)
  let sqrti1xx := CSqrt.sqrt i1xx
  unary u x (CMath.asinh x.mu) sqrti1xx (-x.mu * i1xx * sqrti1xx)
/-- `acosh` (uncertainties/math.hpp:493-501). -/
def acosh (u : Moments R) (x : UReal2 R) : Option (UReal2 R) :=
  let ixx1 := 1 / (x.mu * x.mu - 1)
  let sqrtixx1 := CSqrt.sqrt ixx1
  unary u x (CMath.acosh x.mu) sqrtixx1 (-x.mu * ixx1 * sqrtixx1)
/-- `atanh` (uncertainties/math.hpp:502-508). -/
def atanh (u : Moments R) (x : UReal2 R) : Option (UReal2 R) :=
  let i1xx := 1 / (1 - x.mu * x.mu)
  unary u x (CMath.atanh x.mu) i1xx (lit 2 * x.mu * i1xx * i1xx)
/-- `erf` (uncertainties/math.hpp:509-519). -/
def erf (u : Moments R) (x : UReal2 R) : Option (UReal2 R) :=
  let cexx := UMath.erfCoeff * CMath.exp (-x.mu * x.mu)
  unary u x (CMath.erf x.mu) cexx (-lit 2 * x.mu * cexx)
/-- `erfc` (uncertainties/math.hpp:520-530). -/
def erfc (u : Moments R) (x : UReal2 R) : Option (UReal2 R) :=
  let cexx := UMath.erfCoeff * CMath.exp (-x.mu * x.mu)
  unary u x (CMath.erfc x.mu) (-cexx) (lit 2 * x.mu * cexx)

end UMath2

namespace UFun2
open UReal2 Mom
variable {R : Type*} [Zero R] [One R] [Neg R] [Add R] [Sub R] [Mul R] [Div R] [NatCast R] [CCmp R]

/-- `uunary2(f, dfdx, ddfdxdx)` (uncertainties/functions.hpp:201-209). -/
def uunary2 (u : Moments R) (f dfdx ddfdxdx : R → R) (x : UReal2 R) : Option (UReal2 R) :=
  unary u x (f x.mu) (dfdx x.mu) (ddfdxdx x.mu)

/-- `ubinary2(f, dfdx, dfdy, ddfdxdx, ddfdydy, ddfdxdy)` (uncertainties/functions.hpp:214-228). -/
def ubinary2 (u : Moments R) (f dfdx dfdy ddfdxdx ddfdydy ddfdxdy : R → R → R) (x y : UReal2 R) : Option (UReal2 R) :=
  binary u x y (f x.mu y.mu) (dfdx x.mu y.mu) (dfdy x.mu y.mu) (ddfdxdx x.mu y.mu) (ddfdydy x.mu y.mu) (ddfdxdy x.mu y.mu)

/-- `uunary2(f, dfdx, step)` (uncertainties/functions.hpp:240-251). -/
def uunary2Fwd (u : Moments R) (f dfdx : R → R) (step : R) (x : UReal2 R) : Option (UReal2 R) :=
  let dfdxn := dfdx x.mu
  let ddfdxdx := (dfdx (x.mu + step) - dfdxn) / step
  unary u x (f x.mu) dfdxn ddfdxdx

/-- `uunary2(f, step)` (uncertainties/functions.hpp:265-278). -/
def uunary2Num (u : Moments R) (f : R → R) (step : R) (x : UReal2 R) : Option (UReal2 R) :=
  let fc := f x.mu
  let fr := f (x.mu + step)
  let fl := f (x.mu - step)
  let dfdx := (fr - fl) / (lit 2 * step)
  let ddfdxdx := (fr + fl - lit 2 * fc) / (step * step)
  unary u x fc dfdx ddfdxdx

/-- `ubinary2(f, dfdx, dfdy, step)` (uncertainties/functions.hpp:295-313). -/
def ubinary2Fwd (u : Moments R) (f dfdx dfdy : R → R → R) (step : R) (x y : UReal2 R) : Option (UReal2 R) :=
  let xn := x.mu
  let yn := y.mu
  let dfdxn := dfdx xn yn
  let dfdyn := dfdy xn yn
  let ddfdxdx := (dfdx (xn + step) yn - dfdxn) / step
  let ddfdydy := (dfdy xn (yn + step) - dfdyn) / step
  let ddfdxdy := (dfdx xn (yn + step) - dfdxn) / step
  binary u x y (f xn yn) dfdxn dfdyn ddfdxdx ddfdydy ddfdxdy

/-- `ubinary2(f, step)` (uncertainties/functions.hpp:338-370). -/
def ubinary2Num (u : Moments R) (f : R → R → R) (step : R) (x y : UReal2 R) : Option (UReal2 R) :=
  let xc := x.mu
  let yc := y.mu
  let fcc := f xc yc
  let xr := xc + step
  let xl := xc - step
  let yr := yc + step
  let yl := yc - step
  let frc := f xr yc
  let flc := f xl yc
  let fcr := f xc yr
  let fcl := f xc yl
  let frr := f xr yr
  let fll := f xl yl
  let frclc := frc + flc
  let fcrcl := fcr + fcl
  let fcc2 := lit 2 * fcc
  let step2 := lit 2 * step
  let stepsq := step * step
  let dfdx := (frc - flc) / step2
  let dfdy := (fcr - fcl) / step2
  let ddfdxdx := (frclc - fcc2) / stepsq
  let ddfdydy := (fcrcl - fcc2) / stepsq
  let ddfdxdy := (frr + fll - frclc - fcrcl + fcc2) / (lit 2 * stepsq)
  binary u x y fcc dfdx dfdy ddfdxdx ddfdydy ddfdxdy

end UFun2
end Unc
