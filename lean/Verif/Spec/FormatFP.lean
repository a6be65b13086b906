import Verif.Spec.Format

/-!
# Specification: formatting of floating point numbers (C69)
-/

namespace Unc.Spec

/-- `x` is `y` up to a relative error of `4e-16` -/
def Near (x y : ℝ) : Prop := |x - y| ≤ 4 * 10 ^ (-16 : ℤ) * |y|

/-- `out` reads as the mean `mu` and the uncertainty `s`, both rounded to the place `k`, which is the place of the last of the `d` digits of the uncertainty. -/
def ReadsD (mu s : ℝ) (d : ℕ) (k : ℤ) (out sep : List Char) : Prop :=
  ∃ M S E, Layout out (decide (mu < 0)) M S sep E ∧ Numeral M ∧ Numeral S ∧
    RoundsTo k |mu| (decVal M * 10 ^ scale E) ∧ RoundsTo k s (decVal S * 10 ^ scale E) ∧ scale E - decimals S = k ∧ sigDigits S = d

/-- The mean is not slightly less than 10, 100, …, or it is not small compared to the uncertainty.  (The digit lost in the other case is in C39 and C40.) -/
def KeepsDigit (mu s : ℝ) : Prop := 3 * s ≤ |mu| ∨ ∀ j : ℕ, 1 ≤ j → ¬ (10 ^ j - 1 ≤ |mu| ∧ |mu| ≤ 10 ^ j)

end Unc.Spec
