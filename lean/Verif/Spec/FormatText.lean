import Verif.Spec.Format

/-!
# Specification: the whole text (C77)

Nothing here refers to the model.
-/

namespace Unc.Spec

/-- `out` is the text for the mean `m` with its last digit at the place `km` (with a minus sign if `neg`) and the uncertainty `t` with its last
digit at the place `k`.  There is a common exponent exactly if the larger number is below 0.1 or the last digit of the mean is above the
units, and it is the position of the leading digit of the larger number. -/
def Writes (out sep : List Char) (neg : Bool) (m t : ℝ) (km k : ℤ) : Prop :=
  ∃ M S E, Layout out neg M S sep E ∧ Numeral M ∧ Numeral S ∧ decVal M * 10 ^ scale E = m ∧ decVal S * 10 ^ scale E = t ∧
    scale E - decimals M = km ∧ scale E - decimals S = k ∧ (∀ e, E = some e → e = leadPos (max m t)) ∧
    (E ≠ none ↔ leadPos (max m t) < -1 ∨ 1 ≤ km)

/-- `out` is the text for the number `m > 0` without uncertainty: six digits, and an exponent exactly if the number is below 0.1 or the digits
before the point are more than six. -/
def Writes1 (out : List Char) (m : ℝ) : Prop :=
  ∃ M E, Layout1 out M E ∧ Numeral M ∧ decVal M * 10 ^ scale E = m ∧ scale E - decimals M = leadPos m - 5 ∧
    (∀ e, E = some e → e = leadPos m) ∧ (E ≠ none ↔ leadPos m < -1 ∨ 6 ≤ leadPos m)

end Unc.Spec
