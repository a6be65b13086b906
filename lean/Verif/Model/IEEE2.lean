import Verif.Model.IEEE
import Verif.Model.FormatFP
import Verif.Model.FloatMath

/-!
# `float` and the integer literals on numbers with infinities and NaN
-/

namespace Unc

/-- an integer literal or variable converted to the number type (uncertainties/internal/moments.hpp:75 and following) -/
noncomputable instance instNatCastExt {f : Fmt} {M : ℝ} : NatCast (Ext f M) := ⟨fun n => Ext.ofFP M (FP.round f n)⟩

/-- `std::numeric_limits<float>::max()` (`float` of uncertainties/ureal.hpp:832) -/
noncomputable def fltMax : ℝ := (2 ^ 24 - 1) * 2 ^ 104

/-- the type `float` (uncertainties/ureal.hpp:832) -/
abbrev Flt := Ext fltFmt fltMax

end Unc
