import Verif.Spec.Check
import Verif.Spec.Second

/-! # Values whose moments could be those of random variables -/

namespace Unc

/-- Moments 0 to 8 of a standardized variable. -/
def Moments.seq (m : Moments ℝ) : ℕ → ℝ := seqStd fun
  | 0 => m.v3
  | 1 => m.v4
  | 2 => m.v5
  | 3 => m.v6
  | 4 => m.v7
  | 5 => m.v8
  | _ => 0

/-- All the stored moments up to the eighth are possible, apart from those of variables on which the value does not
depend. -/
def PossibleMoments (hg : HessGrad ℝ) : Prop :=
  ∀ i m, hg.momOf i = some m → HankelPSD m.seq ∨ (hg.G i = 0 ∧ ∀ j, hg.H i j = 0)

end Unc
