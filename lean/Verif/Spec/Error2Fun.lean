import Verif.Spec.Error2
import Verif.Model.Math2

/-!
# Specification of the rounding errors of functions

For an argument with the value `t`, the magnitude `w` and `k` roundings.
-/

namespace Unc.Spec
variable {f : Fmt}

/-- `exp` -/
noncomputable def expFun (f : Fmt) (u t w : ℝ) (k : ℕ) : Fun1 f where
  F x := CMath.exp x
  F1 x := CMath.exp x
  F2 x := CMath.exp x
  g := Real.exp
  g1 := Real.exp
  g2 := Real.exp
  S := Real.exp t + Real.exp (t + relErr u k * w) * w
  S1 := Real.exp t + Real.exp (t + relErr u k * w) * w
  S2 := Real.exp t + Real.exp (t + relErr u k * w) * w
  j := k + 1

/-- `sin` -/
noncomputable def sinFun (f : Fmt) (t w : ℝ) (k : ℕ) : Fun1 f where
  F x := CMath.sin x
  F1 x := CMath.cos x
  F2 x := -CMath.sin x
  g := Real.sin
  g1 := Real.cos
  g2 x := -Real.sin x
  S := |Real.sin t| + w
  S1 := |Real.cos t| + w
  S2 := |Real.sin t| + w
  j := k + 1

/-- `cos` -/
noncomputable def cosFun (f : Fmt) (t w : ℝ) (k : ℕ) : Fun1 f where
  F x := CMath.cos x
  F1 x := -CMath.sin x
  F2 x := -CMath.cos x
  g := Real.cos
  g1 x := -Real.sin x
  g2 x := -Real.cos x
  S := |Real.cos t| + w
  S1 := |Real.sin t| + w
  S2 := |Real.cos t| + w
  j := k + 1

/-- `log` -/
noncomputable def logFun (f : Fmt) (t w : ℝ) (k : ℕ) : Fun1 f where
  F x := CMath.log x
  F1 x := 1 / x
  F2 x := -1 / (x * x)
  g := Real.log
  g1 x := 1 / x
  g2 x := -1 / (x * x)
  S := |Real.log t| + 2 / t * w
  S1 := w / t ^ 2
  S2 := w ^ 2 / t ^ 4
  j := 4 * k + 3

/-- `sqrt` -/
noncomputable def sqrtFun (f : Fmt) (t w : ℝ) (k : ℕ) : Fun1 f where
  F x := CSqrt.sqrt x
  F1 x := 1 / (Mom.lit 2 * CSqrt.sqrt x)
  F2 x := -1 / (Mom.lit 4 * x * CSqrt.sqrt x)
  g := Real.sqrt
  g1 x := 1 / (2 * Real.sqrt x)
  g2 x := -1 / (4 * x * Real.sqrt x)
  S := Real.sqrt t + w / Real.sqrt t
  S1 := (Real.sqrt t + w / Real.sqrt t) / (2 * t)
  S2 := w * (Real.sqrt t + w / Real.sqrt t) / (4 * t ^ 3)
  j := 4 * k + 9

/-- `hypot`, for two arguments with `k` roundings; `h` is the value and `S` its magnitude -/
noncomputable def hypotFun (f : Fmt) (t w t' w' : ℝ) (k : ℕ) : Fun2 f :=
  let h := Real.sqrt (t ^ 2 + t' ^ 2)
  let S := h + (w + w')
  { F := fun x y => CMath.hypot x y
    Fx := fun x y => x * (1 / CMath.hypot x y)
    Fy := fun x y => y * (1 / CMath.hypot x y)
    Fxx := fun x y => 1 / CMath.hypot x y * (1 - x * (1 / CMath.hypot x y) * (x * (1 / CMath.hypot x y)))
    Fyy := fun x y => 1 / CMath.hypot x y * (1 - y * (1 / CMath.hypot x y) * (y * (1 / CMath.hypot x y)))
    Fxy := fun x y => -(x * (1 / CMath.hypot x y)) * (y * (1 / CMath.hypot x y)) * (1 / CMath.hypot x y)
    g := fun x y => Real.sqrt (x ^ 2 + y ^ 2)
    gx := fun x y => x * (1 / Real.sqrt (x ^ 2 + y ^ 2))
    gy := fun x y => y * (1 / Real.sqrt (x ^ 2 + y ^ 2))
    gxx := fun x y => 1 / Real.sqrt (x ^ 2 + y ^ 2) * (1 - x * (1 / Real.sqrt (x ^ 2 + y ^ 2)) * (x * (1 / Real.sqrt (x ^ 2 + y ^ 2))))
    gyy := fun x y => 1 / Real.sqrt (x ^ 2 + y ^ 2) * (1 - y * (1 / Real.sqrt (x ^ 2 + y ^ 2)) * (y * (1 / Real.sqrt (x ^ 2 + y ^ 2))))
    gxy := fun x y => -(x * (1 / Real.sqrt (x ^ 2 + y ^ 2))) * (y * (1 / Real.sqrt (x ^ 2 + y ^ 2))) * (1 / Real.sqrt (x ^ 2 + y ^ 2))
    S := S
    Sx := w * (S / h ^ 2)
    Sy := w' * (S / h ^ 2)
    Sxx := S / h ^ 2 * (1 + w * (S / h ^ 2) * (w * (S / h ^ 2)))
    Syy := S / h ^ 2 * (1 + w' * (S / h ^ 2) * (w' * (S / h ^ 2)))
    Sxy := w * (S / h ^ 2) * (w' * (S / h ^ 2)) * (S / h ^ 2)
    j := 8 * k + 14 }

end Unc.Spec
