import Verif.Spec.Range
import Verif.Spec.Error2
import Verif.Model.IEEE2

/-!
# Calculations at second order with numbers of limited range
-/

namespace Unc.Spec
variable {f : Fmt} {M : ℝ}

/-- The means by which the calculation divides are never infinite. -/
def Tame2 (env : ℕ → UReal2 (Ext f M)) : Calc2 → Prop
  | .leaf _ => True
  | .neg a => Tame2 env a
  | .add a b | .sub a b | .mul a b => Tame2 env a ∧ Tame2 env b
  | .div a b => Tame2 env a ∧ Tame2 env b ∧ ∀ v y, b.run v env = some y → ¬ Infinite y.mu

/-- a result with limits on the range, where it is an ordinary number, is the one without limits -/
def Shown (a : Ext f M) (b : FP f) : Prop := Finite a → Is a b.val

/-- the given values with limits on the range: the numbers which are too large are infinite -/
noncomputable def limited (M : ℝ) (env : ℕ → UReal2 (FP f)) (i : ℕ) : UReal2 (Ext f M) := numbers (Ext.ofFP M) (env i)

end Unc.Spec
