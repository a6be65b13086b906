import Verif.Model.IEEE2

/-!
# Conversion between the floating point types
-/

namespace Unc

/-- a number converted to another floating point type: rounded to the nearest (the assignments `x.sdev = this->sdev` and following, uncertainties/ureal.hpp:484-487, and
uncertainties/ureal2.hpp:680-699); formats without limit of the exponent -/
noncomputable def FP.conv {f : Fmt} (g : Fmt) (a : FP f) : FP g := FP.round g a.val

/-- the same with infinities and NaN, as `double` to `float` (uncertainties/ureal.hpp:484-487): infinite if too large, as in IEEE 754 (the C++ standard alone leaves this undefined) -/
noncomputable def Ext.conv {f : Fmt} {M : ℝ} (g : Fmt) (N : ℝ) : Ext f M → Ext g N
  | .nan => .nan
  | .inf s => .inf s
  | .fin a _ => Ext.ofFP N (FP.conv g a)

end Unc
