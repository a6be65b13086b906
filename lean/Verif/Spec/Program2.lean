import Verif.Spec.Second
import Verif.Model.World2

/-!
# Assumptions on programs over `UReal2`
-/

namespace Unc

/-- The eigenvalue solver reads only the lower triangle of the 5×5 matrix (documentation of
`Eigen::SelfAdjointEigenSolver::compute`: "Only the lower triangular part of the matrix is referenced"). -/
def LowerOnly {R : Type*} (solve : (ℕ → ℕ → R) → Option (List R)) : Prop :=
  ∀ M M', (∀ i j, j ≤ i → i < 5 → M i j = M' i j) → solve M = solve M'

/-- The threshold passed to a constructor is not NaN: it is negative or non-negative. -/
def ThresholdOk {R : Type*} [Zero R] [CCmp R] : Step2 R → Prop
  | .newCentral _ _ _ t => CCmp.ltb t 0 = true ∨ CCmp.leb 0 t = true
  | .newStd _ _ _ _ t => CCmp.ltb t 0 = true ∨ CCmp.leb 0 t = true
  | _ => True

/-- The constructors are called with threshold 0: any violation of the conditions on the moments throws. -/
def Checked {R : Type*} [Zero R] : Step2 R → Prop
  | .newCentral _ _ _ t => t = 0
  | .newStd _ _ _ _ t => t = 0
  | _ => True

/-- All values of the state take the moments of each elementary variable from the same table. -/
def SharedMoments {R : Type*} (w : World2 R) (tab : VId → Moments R) : Prop :=
  ∀ r i m, (w.regs r).hg.momOf i = some m → m = tab i

end Unc
