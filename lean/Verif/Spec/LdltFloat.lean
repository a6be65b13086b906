import Verif.Spec.LdltMore
import Verif.Model.Float

/-!
# A decomposition computed in floating point, seen in exact arithmetic

The numbers of the matrix and of the decomposition are taken at their real value; the equation `A = P^T L D L^T P` is then between real numbers and holds only within
an error, which is an argument of `LdltNear`.
-/

namespace Unc.Spec
open Unc.UReals

/-- what Eigen is assumed to give on floating point numbers, whatever its rounding errors: `D` is not negative when it says so, `L` is unit lower triangular -/
structure LdltShape {f : Fmt} {n : ℕ} (r : Ldlt n (FP f)) : Prop where
  diag_nonneg : r.success = true → r.isPositive = true → ∀ i, 0 ≤ (r.D i).val
  unit : ∀ i, r.L i i = 1
  lower : ∀ i j, i < j → r.L i j = 0

/-- the decomposition with the real values of its numbers -/
noncomputable def realLdlt {f : Fmt} {n : ℕ} (r : Ldlt n (FP f)) : Ldlt n ℝ :=
  ⟨r.success, r.isPositive, fun i j => (r.L i j).val, fun i => (r.D i).val, r.perm⟩

/-- the element `(i, j)` of the matrix which a decomposition stands for: `P^T L D L^T P` -/
noncomputable def prodLdlt {n : ℕ} (r : Ldlt n ℝ) (i j : Fin n) : ℝ :=
  ∑ k, r.L ((permOf r.perm)⁻¹ i) k * r.D k * r.L ((permOf r.perm)⁻¹ j) k

/-- the element `(i, j)` of the matrix given to `ureals`: the lower triangle, read by columns, completed symmetrically -/
def asked {R : Type*} {n : ℕ} (cv : ℕ → R) (i j : Fin n) : R := if j ≤ i then cv (i + n * j) else cv (j + n * i)

end Unc.Spec
