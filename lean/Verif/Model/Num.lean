import Mathlib.Analysis.Real.Sqrt

/-!
# Operations required of the template parameter `Real`

uncertainties-cpp is generic in the number type `Real`.  The model functions are generic in a
Lean type `R` and use only operation classes (no laws), so that theorems which do not need
arithmetic laws hold for floating-point types too.
-/

namespace Unc

/-- Comparison operators of the C++ number type: `a < b`, `a <= b`, `a == b` as booleans, without laws
(for floating point `leb` is not the negation of the swapped `ltb` because of NaN).
Models the comparisons used in uncertainties/ureal.hpp:352,418,439,537,554,749,757 and elsewhere. -/
class CCmp (R : Type*) where
  /-- `a < b` -/
  ltb : R → R → Bool
  /-- `a <= b` -/
  leb : R → R → Bool
  /-- `a == b` -/
  eqb : R → R → Bool

/-- `std::sqrt` and `std::abs` as found by argument-dependent lookup
(uncertainties/ureal.hpp:416-422, 436-441). -/
class CSqrt (R : Type*) where
  /-- `sqrt(x)` -/
  sqrt : R → R
  /-- `abs(x)` -/
  abs : R → R

/-- In exact arithmetic the comparisons are those of the linear order
(models the built-in comparisons at uncertainties/ureal.hpp:352 etc.). -/
instance instCCmpOfLinearOrder {R : Type*} [LinearOrder R] : CCmp R where
  ltb a b := decide (a < b)
  leb a b := decide (a ≤ b)
  eqb a b := decide (a = b)

/-- Exact real square root and absolute value (uncertainties/ureal.hpp:416-422).
Simplification: `Real.sqrt` of a negative number is 0 where C++ gives NaN; the theorems that use `sqrt`
show that the argument is non-negative. -/
noncomputable instance instCSqrtReal : CSqrt ℝ where
  sqrt := Real.sqrt
  abs x := |x|

section
variable {R : Type*} [LinearOrder R]
@[simp] theorem ltb_iff (a b : R) : CCmp.ltb a b = true ↔ a < b := by
  simp [CCmp.ltb]
@[simp] theorem leb_iff (a b : R) : CCmp.leb a b = true ↔ a ≤ b := by
  simp [CCmp.leb]
@[simp] theorem eqb_iff (a b : R) : CCmp.eqb a b = true ↔ a = b := by
  simp [CCmp.eqb]
end

@[simp] theorem csqrt_real (x : ℝ) : CSqrt.sqrt x = Real.sqrt x := rfl
@[simp] theorem cabs_real (x : ℝ) : CSqrt.abs x = |x| := rfl

end Unc
