import Verif.Spec.Format

/-!
# Specification: reading a formatted number back (C76)

Nothing here refers to the model.
-/

namespace Unc.Spec

/-- The text `out` reads as the mean `mu` and the uncertainty `s`, exactly: the digits are taken at their face value. -/
def ReadAs (out sep : List Char) (mu s : ℝ) : Prop :=
  ∃ neg M S E, Layout out neg M S sep E ∧ Numeral M ∧ Numeral S ∧
    mu = (if neg then -1 else 1) * (decVal M * 10 ^ scale E) ∧ s = decVal S * 10 ^ scale E

end Unc.Spec
