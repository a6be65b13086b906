import Verif.Model.Format
import Verif.Model.UReal2

/-!
# Formatting second-order values

Same simplifications as in `Verif/Model/Format.lean`: exact numbers.
-/

namespace Unc.Fmt

/-- `s()` as the formatting sees it (uncertainties/ureal2.hpp:626-629, 1079-1082): the square root of a negative variance is NaN. -/
noncomputable def sdevNum (m2 : ℝ) : FNum := open Classical in if m2 < 0 then .nan else .fin √m2

/-- `format(x, errdig, sep)` and `x.format(errdig, sep)` for a `UReal2` (uncertainties/ureal2.hpp:668-671, 1071-1082,
uncertainties/io.hpp:150-189); `none` is undefined behaviour. -/
noncomputable def ofUReal2 (p : PropMode) (x : UReal2 ℝ) (errdig : FNum) (sep : List Char) : Option (Except Exn (List Char)) :=
  (x.n p).bind fun m => (x.m 2).bind fun m2 => format (.fin m) (sdevNum m2) errdig sep

end Unc.Fmt
