import Verif.Spec.Diff2
import Verif.Spec.Expr

/-!
# Variables with zero uncertainty (C57)

The same inputs as `elems`/`elems2`, with each variable which has no uncertainty replaced by a plain number.
-/

namespace Unc.Spec
open Unc

/-- First order inputs: the variables with standard deviation zero are replaced by the constants `mu i`. -/
noncomputable def consts {n : ℕ} (ids : Fin n → ℤ) (mu s : Fin n → ℝ) : List (UReal ℝ) :=
  List.ofFn fun i => if s i = 0 then UReal.const (mu i) else ⟨ids i, s i, mu i, []⟩

/-- Second order inputs: the variables with standard deviation zero are replaced by the constants `mu i`. -/
noncomputable def consts2 {n : ℕ} (ids : Fin n → VId) (mu s : Fin n → ℝ) (mom : Fin n → Moments ℝ) : List (UReal2 ℝ) :=
  List.ofFn fun i => if s i = 0 then UReal2.const (mu i) else elem2 (ids i) (mu i) (s i) (mom i)

end Unc.Spec
