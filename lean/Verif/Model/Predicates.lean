import Verif.Model.IEEE
import Verif.Model.Math

/-!
# `isfinite` and `isnormal` on numbers with infinities and NaN
-/

namespace Unc
variable {f : Fmt} {M : ℝ}

namespace Ext

/-- `std::isfinite` (called in uncertainties/math.hpp:238) -/
def isFin : Ext f M → Bool
  | fin _ _ => true
  | _ => false

/-- `std::isnormal`, `t` being the smallest positive normal number (called in uncertainties/math.hpp:246) -/
noncomputable def isNorm (t : ℝ) : Ext f M → Bool
  | fin a _ => decide (t ≤ |a.val|)
  | _ => false

end Ext

namespace UMath

/-- `isfinite(UReal)` (uncertainties/math.hpp:235-239) -/
noncomputable def isfinite (x : UReal (Ext f M)) : Bool := both Ext.isFin x

/-- `isnormal(UReal)`, `t` being the smallest positive normal number (uncertainties/math.hpp:243-247) -/
noncomputable def isnormal (t : ℝ) (x : UReal (Ext f M)) : Bool := both (Ext.isNorm t) x

end UMath

/-- `std::numeric_limits<double>::min()`, the smallest normal number (`double` of uncertainties/ureal.hpp:831) -/
noncomputable def dblMin : ℝ := 2 ^ (-1022 : ℤ)

/-- `std::numeric_limits<float>::min()`, the smallest normal number (`float` of uncertainties/ureal.hpp:832) -/
noncomputable def fltMin : ℝ := 2 ^ (-126 : ℤ)

end Unc
