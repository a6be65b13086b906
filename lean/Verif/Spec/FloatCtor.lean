import Verif.Spec.Float

/-!
# Relative errors of several roundings
-/

namespace Unc.Spec

/-- `r` is `w` times a factor which `k` roundings with the relative error `u` can make: not more than `1 / (1 - u) ^ k`, and not less than its inverse. -/
def Factor (u : ℝ) (k : ℕ) (r w : ℝ) : Prop := ∃ ρ, 0 < ρ ∧ ρ ≤ (1 / (1 - u)) ^ k ∧ 1 ≤ ρ * (1 / (1 - u)) ^ k ∧ r = ρ * w

end Unc.Spec
