import Verif.Model.SignedZero
import Verif.Spec.Range2

/-!
# Results which do not depend on the sign of zeros
-/

namespace Unc.Spec
variable {f : Fmt} {M : ℝ}

/-- the same ordinary number (with zeros of any sign), or none of the two is an ordinary number -/
def Alike (a b : Ext f M) : Prop := (∃ v, Is a v ∧ Is b v) ∨ (¬ Finite a ∧ ¬ Finite b)

/-- The means by which the computation divides are never infinite. -/
def TameS (env : ℕ → UReal (SExt f M)) : Calc → Prop
  | .leaf _ => True
  | .un _ a => TameS env a
  | .bin o a b => TameS env a ∧ TameS env b ∧ (o.divides = true → ∀ y, b.run env = some y → ¬ Infinite y.n.v)

/-- The means by which the computation divides are never zero. -/
def NoZero (env : ℕ → UReal (SExt f M)) : Calc → Prop
  | .leaf _ => True
  | .un _ a => NoZero env a
  | .bin o a b => NoZero env a ∧ NoZero env b ∧ (o.divides = true → ∀ y, b.run env = some y → ¬ Is y.n.v 0)

/-- given values which differ at most in the sign of zeros -/
def SameUpToSign (x y : UReal (SExt f M)) : Prop := Given x ∧ Given y ∧ x.id = y.id ∧ x.mu.v = y.mu.v ∧ x.sdev.v = y.sdev.v

/-- the given value without the signs of zeros -/
def noSigns (x : UReal (SExt f M)) : UReal (Ext f M) := ⟨x.id, x.sdev.v, x.mu.v, x.sigma.map fun p => (p.1, p.2.v)⟩

/-- The means by which the calculation divides are never infinite, second order. -/
def TameS2 (env : ℕ → UReal2 (SExt f M)) : Calc2 → Prop
  | .leaf _ => True
  | .neg a => TameS2 env a
  | .add a b | .sub a b | .mul a b => TameS2 env a ∧ TameS2 env b
  | .div a b => TameS2 env a ∧ TameS2 env b ∧ ∀ v y, b.run v env = some y → ¬ Infinite y.mu.v

/-- The means by which the calculation divides are never zero, second order. -/
def NoZero2 (env : ℕ → UReal2 (SExt f M)) : Calc2 → Prop
  | .leaf _ => True
  | .neg a => NoZero2 env a
  | .add a b | .sub a b | .mul a b => NoZero2 env a ∧ NoZero2 env b
  | .div a b => NoZero2 env a ∧ NoZero2 env b ∧ ∀ v y, b.run v env = some y → ¬ Is y.mu.v 0

end Unc.Spec
