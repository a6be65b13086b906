import Verif.Spec.Check

/-!
# Specification: eigenvalues with an error (C78)
-/

namespace Unc.Spec
open Unc

/-- the quadratic form of a matrix -/
def qform (A : Matrix (Fin 5) (Fin 5) ℝ) (c : Fin 5 → ℝ) : ℝ := ∑ i, ∑ j, c i * c j * A i j

/-- the square of the length of a vector -/
def lenSq (c : Fin 5 → ℝ) : ℝ := ∑ i, c i ^ 2

/-- `N` is a bound for the size of the matrix. -/
def FormBound (A : Matrix (Fin 5) (Fin 5) ℝ) (N : ℝ) : Prop := ∀ c, |qform A c| ≤ N * lenSq c

/-- What is known of eigenvalue routines in floating point (backward stability): they return the exact eigenvalues of a symmetric matrix
which differs from the given one by a relative error `ε`. -/
def NearSolver (ε : ℝ) (solve : (ℕ → ℕ → ℝ) → Option (List ℝ)) : Prop :=
  ∀ M, ∃ (v : List ℝ) (E : Matrix (Fin 5) (Fin 5) ℝ), solve M = some v ∧ (v : Multiset ℝ) = (symLower M + E).charpoly.roots ∧
    (∀ i j, E i j = E j i) ∧ ∀ N, FormBound (symLower M) N → FormBound E (ε * N)

end Unc.Spec
