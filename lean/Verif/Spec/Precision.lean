import Verif.Model.Float

/-!
# Formats contained in one another (C96)
-/

namespace Unc.Spec

/-- each number of `f` is a number of `g`, as those of `float` are numbers of `double` -/
def Wider (f g : Fmt) : Prop := ∀ a, f.rd a = a → g.rd a = a

end Unc.Spec
