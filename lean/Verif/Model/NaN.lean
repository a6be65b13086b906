import Verif.Model.Math

/-!
# Exact numbers with a NaN

A second instance of the number operations, used where the exact real instance would hide a C++ NaN: real numbers plus `nan`,
every operation with a `nan` operand or outside its domain gives `nan`.  Simplification: there are no infinities, a pole
(`1 / 0`, `log 0`) gives `nan`; the theorems that use this instance only use arguments outside the closed domain.
-/

namespace Unc

/-- A real number or NaN (the result of a domain error in the calls at uncertainties/math.hpp:42-247). -/
inductive NReal where
  /-- NaN -/
  | nan
  /-- an ordinary value -/
  | val (x : ℝ)

namespace NReal

/-- apply an operation defined on a domain (domain errors of the calls at uncertainties/math.hpp:42-247) -/
noncomputable def lift1 (dom : ℝ → Prop) (f : ℝ → ℝ) : NReal → NReal
  | nan => nan
  | val x => open Classical in if dom x then val (f x) else nan

/-- apply an operation of two arguments defined on a domain (uncertainties/math.hpp:42-247) -/
noncomputable def lift2 (dom : ℝ → ℝ → Prop) (f : ℝ → ℝ → ℝ) : NReal → NReal → NReal
  | val x, val y => open Classical in if dom x y then val (f x y) else nan
  | _, _ => nan

/-- `true` when both numbers are ordinary and the relation holds: comparisons with NaN are false (IEEE 754, as used at
uncertainties/ureal.hpp:352) -/
noncomputable def cmp (r : ℝ → ℝ → Prop) : NReal → NReal → Bool
  | val x, val y => open Classical in decide (r x y)
  | _, _ => false

noncomputable instance : Zero NReal := ⟨val 0⟩
noncomputable instance : One NReal := ⟨val 1⟩
noncomputable instance : NatCast NReal := ⟨fun n => val n⟩
noncomputable instance : Neg NReal := ⟨lift1 (fun _ => True) (- ·)⟩
noncomputable instance : Add NReal := ⟨lift2 (fun _ _ => True) (· + ·)⟩
noncomputable instance : Sub NReal := ⟨lift2 (fun _ _ => True) (· - ·)⟩
noncomputable instance : Mul NReal := ⟨lift2 (fun _ _ => True) (· * ·)⟩
noncomputable instance : Div NReal := ⟨lift2 (fun _ y => y ≠ 0) (· / ·)⟩
/-- comparisons (IEEE 754: false with NaN), used at uncertainties/ureal.hpp:352 and elsewhere -/
noncomputable instance : CCmp NReal := ⟨cmp (· < ·), cmp (· ≤ ·), cmp (· = ·)⟩
/-- `sqrt`, `abs` (uncertainties/ureal.hpp:416-422) -/
noncomputable instance : CSqrt NReal := ⟨lift1 (0 ≤ ·) Real.sqrt, lift1 (fun _ => True) (|·|)⟩

/-- `std::fmax`, which ignores one NaN; same for `fmin` (uncertainties/math.hpp:58-71) -/
def sel (f : ℝ → ℝ → ℝ) : NReal → NReal → NReal
  | val x, val y => val (f x y)
  | val x, nan => val x
  | nan, y => y

/-- domain-checked real functions (uncertainties/math.hpp:42-247) -/
noncomputable instance : CMath NReal where
  fmod := lift2 (fun _ y => y ≠ 0) CMath.fmod
  remainder := lift2 (fun _ y => y ≠ 0) CMath.remainder
  trunc := lift1 (fun _ => True) CMath.trunc
  round := lift1 (fun _ => True) CMath.round
  fmax := sel max
  fmin := sel min
  exp := lift1 (fun _ => True) CMath.exp
  exp2 := lift1 (fun _ => True) CMath.exp2
  expm1 := lift1 (fun _ => True) CMath.expm1
  log := lift1 (0 < ·) CMath.log
  log10 := lift1 (0 < ·) CMath.log10
  log2 := lift1 (0 < ·) CMath.log2
  log1p := lift1 (-1 < ·) CMath.log1p
  pow := lift2 (fun x y => 0 < x ∨ (x = 0 ∧ 0 ≤ y) ∨ (x < 0 ∧ ∃ k : ℤ, y = k)) CMath.pow
  cbrt := lift1 (fun _ => True) CMath.cbrt
  hypot := lift2 (fun _ _ => True) CMath.hypot
  sin := lift1 (fun _ => True) CMath.sin
  cos := lift1 (fun _ => True) CMath.cos
  tan := lift1 (fun x => Real.cos x ≠ 0) CMath.tan
  asin := lift1 (fun x => -1 ≤ x ∧ x ≤ 1) CMath.asin
  acos := lift1 (fun x => -1 ≤ x ∧ x ≤ 1) CMath.acos
  atan := lift1 (fun _ => True) CMath.atan
  atan2 := lift2 (fun _ _ => True) CMath.atan2
  sinh := lift1 (fun _ => True) CMath.sinh
  cosh := lift1 (fun _ => True) CMath.cosh
  tanh := lift1 (fun _ => True) CMath.tanh
  asinh := lift1 (fun _ => True) CMath.asinh
  acosh := lift1 (1 ≤ ·) CMath.acosh
  atanh := lift1 (fun x => -1 < x ∧ x < 1) CMath.atanh
  erf := lift1 (fun _ => True) CMath.erf
  erfc := lift1 (fun _ => True) CMath.erfc

end NReal
end Unc
