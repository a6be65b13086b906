import Verif.Spec.Error2More

/-!
# Specification of the rounding errors of the other functions of two arguments
-/

namespace Unc.Spec
variable {f : Fmt}

/-- `pow`; `D` times the error of the arguments bounds the change of the power near the arguments, `L` the derivative of the logarithm near `t` -/
noncomputable def powFun (f : Fmt) (t w t' w' D L : ℝ) (k : ℕ) : Fun2 f :=
  let S := |t ^ t'| + D
  let l := |Real.log t| + L * w
  let I := w / t ^ 2
  { F := fun x y => CMath.pow x y
    Fx := fun x y => CMath.pow x y * (1 / x) * y
    Fy := fun x y => CMath.pow x y * CMath.log x
    Fxx := fun x y => CMath.pow x y * (1 / x) * y * (1 / x) * (y - 1)
    Fyy := fun x y => CMath.pow x y * CMath.log x * CMath.log x
    Fxy := fun x y => CMath.pow x y * (1 / x) + CMath.pow x y * (1 / x) * y * CMath.log x
    g := fun x y => x ^ y
    gx := fun x y => x ^ y * (1 / x) * y
    gy := fun x y => x ^ y * Real.log x
    gxx := fun x y => x ^ y * (1 / x) * y * (1 / x) * (y - 1)
    gyy := fun x y => x ^ y * Real.log x * Real.log x
    gxy := fun x y => x ^ y * (1 / x) + x ^ y * (1 / x) * y * Real.log x
    S := S
    Sx := S * I * w'
    Sy := S * l
    Sxx := S * I * w' * I * (w' + 1)
    Syy := S * l * l
    Sxy := S * I + S * I * w' * l
    j := 7 * k + 8 }

/-- `atan2` -/
noncomputable def atan2Fun (f : Fmt) (t w t' w' D : ℝ) (k : ℕ) : Fun2 f :=
  let I := (w * w + w' * w') / (t * t + t' * t') ^ 2
  { F := fun x y => CMath.atan2 x y
    Fx := fun x y => y * (1 / (x * x + y * y))
    Fy := fun x y => -(x * (1 / (x * x + y * y)))
    Fxx := fun x y => -(Mom.lit 2 * (x * (1 / (x * x + y * y))) * (y * (1 / (x * x + y * y))))
    Fyy := fun x y => Mom.lit 2 * (x * (1 / (x * x + y * y))) * (y * (1 / (x * x + y * y)))
    Fxy := fun x y => (x * x - y * y) * (1 / (x * x + y * y)) * (1 / (x * x + y * y))
    g := fun x y => Complex.arg ⟨y, x⟩
    gx := fun x y => y * (1 / (x * x + y * y))
    gy := fun x y => -(x * (1 / (x * x + y * y)))
    gxx := fun x y => -(2 * (x * (1 / (x * x + y * y))) * (y * (1 / (x * x + y * y))))
    gyy := fun x y => 2 * (x * (1 / (x * x + y * y))) * (y * (1 / (x * x + y * y)))
    gxy := fun x y => (x * x - y * y) * (1 / (x * x + y * y)) * (1 / (x * x + y * y))
    S := |Complex.arg ⟨t', t⟩| + D
    Sx := w' * I
    Sy := w * I
    Sxx := 2 * (w * I) * (w' * I)
    Syy := 2 * (w * I) * (w' * I)
    Sxy := (w * w + w' * w') * I * I
    j := 10 * k + 15 }

/-- `fmod` -/
noncomputable def fmodFun (f : Fmt) (t t' D : ℝ) (k : ℕ) : Fun2 f where
  F x y := CMath.fmod x y
  Fx _ _ := 1
  Fy x y := -CMath.trunc (x / y)
  Fxx _ _ := 0
  Fyy _ _ := 0
  Fxy _ _ := 0
  g x y := x - truncR (x / y) * y
  gx _ _ := 1
  gy x y := -truncR (x / y)
  gxx _ _ := 0
  gyy _ _ := 0
  gxy _ _ := 0
  S := |t - truncR (t / t') * t'| + D
  Sx := 1
  Sy := |truncR (t / t')|
  Sxx := 0
  Syy := 0
  Sxy := 0
  j := 3 * k + 2

/-- `remainder` -/
noncomputable def remainderFun (f : Fmt) (t t' D : ℝ) (k : ℕ) : Fun2 f where
  F x y := CMath.remainder x y
  Fx _ _ := 1
  Fy x y := -CMath.round (x / y)
  Fxx _ _ := 0
  Fyy _ _ := 0
  Fxy _ _ := 0
  g x y := x - roundEvenR (x / y) * y
  gx _ _ := 1
  gy x y := -roundAwayR (x / y)
  gxx _ _ := 0
  gyy _ _ := 0
  gxy _ _ := 0
  S := |t - roundEvenR (t / t') * t'| + D
  Sx := 1
  Sy := |roundAwayR (t / t')|
  Sxx := 0
  Syy := 0
  Sxy := 0
  j := 3 * k + 2

/-- `fmax` and `fmin` -/
noncomputable def selFun (f : Fmt) (F : FP f → FP f → FP f) (g : ℝ → ℝ → ℝ) (w w' : ℝ) (k : ℕ) : Fun2 f where
  F := F
  Fx x y := if CCmp.eqb (F x y) x then 1 else 0
  Fy x y := if CCmp.eqb (F x y) x then 0 else 1
  Fxx _ _ := 0
  Fyy _ _ := 0
  Fxy _ _ := 0
  g := g
  gx x y := if g x y = x then 1 else 0
  gy x y := if g x y = x then 0 else 1
  gxx _ _ := 0
  gyy _ _ := 0
  gxy _ _ := 0
  S := max w w'
  Sx := 1
  Sy := 1
  Sxx := 0
  Syy := 0
  Sxy := 0
  j := k

end Unc.Spec
