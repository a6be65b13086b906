import Verif.Model.UReals
import Mathlib.GroupTheory.Perm.Basic
import Mathlib.Algebra.BigOperators.Fin
import Mathlib.Data.Real.Basic

/-!
# Contract of `Eigen::LDLT` (external library, assumed)

`A = P^T L D L^T P` with `L` unit lower triangular, `P` the product of the transpositions `(k, perm k)` applied in
increasing order of `k`, `A` the symmetric matrix whose lower triangle is that of the argument.
-/

namespace Unc.Spec
open Unc.UReals

/-- `P` as a permutation of indices: `(P v) k = v (permOf k)`. Applying transposition `0`, then `1`, ... to a vector. -/
def permOf {n : ℕ} (perm : Fin n → Fin n) : Equiv.Perm (Fin n) :=
  ((List.finRange n).map fun k => Equiv.swap k (perm k)).prod

/-- The symmetric completion of the lower triangle. -/
def symLower {n : ℕ} (V : Fin n → Fin n → ℝ) : Fin n → Fin n → ℝ := fun i j => if j ≤ i then V i j else V j i

/-- The contract for one call with argument `V`: when it succeeds and reports a positive (semidefinite) matrix, the
diagonal is non-negative and `A i j = sum_k (P^T L)_{i k} D_k (P^T L)_{j k}`, i.e. `(P A P^T) = L D L^T`. -/
structure LdltContract {n : ℕ} (V : Fin n → Fin n → ℝ) (r : Ldlt n ℝ) : Prop where
  diag_nonneg : r.success = true → r.isPositive = true → ∀ i, 0 ≤ r.D i
  unit : ∀ i, r.L i i = 1
  lower : ∀ i j, i < j → r.L i j = 0
  decomp : r.success = true → ∀ i j,
    symLower V (permOf r.perm i) (permOf r.perm j) = ∑ k, r.L i k * r.D k * r.L j k

end Unc.Spec
