import Verif.Spec.Ldlt
import Mathlib.Algebra.Order.AbsoluteValue.Basic

/-!
# What a decomposition may be asked for beyond the contract of `Spec/Ldlt.lean`

A floating point decomposition meets its equation only up to an error; and a decomposition is useful only if it accepts the
covariance matrices that exist.
-/

namespace Unc.Spec
open Unc.UReals

/-- Positive semidefinite: no linear combination of variables with covariances `A` has negative variance. -/
def Semidefinite {n : ℕ} (A : Fin n → Fin n → ℝ) : Prop := ∀ v : Fin n → ℝ, 0 ≤ ∑ i, ∑ j, v i * A i j * v j

/-- The contract with an error: the equation holds within `ε` for each element. -/
structure LdltNear {n : ℕ} (ε : ℝ) (V : Fin n → Fin n → ℝ) (r : Ldlt n ℝ) : Prop where
  diag_nonneg : r.success = true → r.isPositive = true → ∀ i, 0 ≤ r.D i
  unit : ∀ i, r.L i i = 1
  lower : ∀ i j, i < j → r.L i j = 0
  near : r.success = true → ∀ i j,
    |symLower V (permOf r.perm i) (permOf r.perm j) - ∑ k, r.L i k * r.D k * r.L j k| ≤ ε

/-- The routine succeeds and reports a positive matrix on every positive semidefinite matrix. -/
def Complete {n : ℕ} (eigen : (Fin n → Fin n → ℝ) → Ldlt n ℝ) : Prop :=
  ∀ V, Semidefinite (symLower V) → (eigen V).success = true ∧ (eigen V).isPositive = true

end Unc.Spec
