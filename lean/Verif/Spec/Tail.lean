import Mathlib.MeasureTheory.Integral.Bochner.Basic

/-!
# Specification: how often a quantity is away from its mean (C100)

Nothing here refers to the library.
-/

namespace Unc.Spec
open MeasureTheory
variable {Ω : Type*} [MeasurableSpace Ω]

/-- What mean `m` and standard deviation `s` say about the random variable `Q`: it is `c * s` away from `m` with probability at most `1 / c ^ 2`, on a given side at most
`1 / (1 + c ^ 2)`. -/
structure Tails (P : Measure Ω) (Q : Ω → ℝ) (m s : ℝ) : Prop where
  two : ∀ c, 0 < c → P.real {ω | c * s ≤ |Q ω - m|} ≤ 1 / c ^ 2
  above : ∀ c, 0 < c → P.real {ω | m + c * s ≤ Q ω} ≤ 1 / (1 + c ^ 2)
  below : ∀ c, 0 < c → P.real {ω | Q ω ≤ m - c * s} ≤ 1 / (1 + c ^ 2)

/-- What the kurtosis `k` says moreover: the probability of being more than `c * s` away has an upper bound which decreases as `1 / c ^ 4`, and for `c < 1` a lower one, so that the
uncertainty is not larger than it need be. -/
structure Tails4 (P : Measure Ω) (Q : Ω → ℝ) (m s k : ℝ) : Prop where
  far : ∀ c, 1 < c → P.real {ω | c * s ≤ |Q ω - m|} ≤ (k - 1) / (k - 1 + (c ^ 2 - 1) ^ 2)
  near : ∀ c, 0 ≤ c → c < 1 → (1 - c ^ 2) ^ 2 / (k - 1 + (1 - c ^ 2) ^ 2) ≤ P.real {ω | c * s < |Q ω - m|}

end Unc.Spec
