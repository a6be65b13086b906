import Verif.Model.CheckMoments
import Mathlib.Analysis.Matrix.PosDef
import Mathlib.MeasureTheory.Integral.Bochner.Basic

/-!
# What the check of the moments should do

A sequence `a 0, a 1, …, a 8` of moments must make the quadratic form `sum_ij c_i c_j a (i + j)` non-negative,
because it is the expectation of `(sum_i c_i X^i)^2`.
-/

namespace Unc
open MeasureTheory

/-- Moments 0 to 8 of a variable with mean 0, variance 1 and moments `v 0, …, v 5` from the third on. -/
def seqStd (v : ℕ → ℝ) : ℕ → ℝ
  | 0 => 1
  | 1 => 0
  | 2 => 1
  | n + 3 => v n

/-- Moments 0 to 8 of a variable with mean 0 and moments `m 0, …, m 6` from the second on. -/
def seqCentral (m : ℕ → ℝ) : ℕ → ℝ
  | 0 => 1
  | 1 => 0
  | n + 2 => m n

/-- The Hankel matrix of the sequence is positive semidefinite. -/
def HankelPSD (a : ℕ → ℝ) : Prop :=
  ∀ c : Fin 5 → ℝ, 0 ≤ ∑ i : Fin 5, ∑ j : Fin 5, c i * c j * a (i + j)

/-- The symmetric matrix with the given lower triangle. -/
def symLower (M : ℕ → ℕ → ℝ) : Matrix (Fin 5) (Fin 5) ℝ := Matrix.of fun i j => M (max i j) (min i j)

/-- Contract of `Eigen::SelfAdjointEigenSolver` in exact arithmetic: it succeeds and returns the eigenvalues with
multiplicity, in any order, of the symmetric matrix given by the lower triangle. -/
def EigenSolver (solve : (ℕ → ℕ → ℝ) → Option (List ℝ)) : Prop :=
  ∀ M, ∃ v : List ℝ, solve M = some v ∧ (v : Multiset ℝ) = (symLower M).charpoly.roots

/-- A distribution on the line with finite moments up to the eighth. -/
structure Distribution (ν : Measure ℝ) : Prop where
  prob : IsProbabilityMeasure ν
  int : ∀ k ≤ 8, Integrable (fun x : ℝ => x ^ k) ν

/-- Mean of a distribution. -/
noncomputable def dMean (ν : Measure ℝ) : ℝ := ∫ x, x ∂ν

/-- Central moments of a distribution. -/
noncomputable def dCentral (ν : Measure ℝ) (k : ℕ) : ℝ := ∫ x, (x - dMean ν) ^ k ∂ν

/-- Standardized moments of a distribution. -/
noncomputable def dStd (ν : Measure ℝ) (k : ℕ) : ℝ := dCentral ν k / Real.sqrt (dCentral ν 2) ^ k

end Unc
