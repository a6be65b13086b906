import Mathlib.Algebra.BigOperators.Fin
import Mathlib.Algebra.BigOperators.Field
import Mathlib.Data.Real.Basic
import Mathlib.Tactic.Ring
import Mathlib.Tactic.FieldSimp
import Mathlib.Tactic.Positivity
import Mathlib.Tactic.Linarith

/-!
# Elimination decides when a quadratic form is not negative
-/

namespace Unc.Check

/-- the matrix left after the first variable is eliminated -/
def schur {n : ℕ} (A : Fin (n + 1) → Fin (n + 1) → ℚ) (i j : Fin n) : ℚ := A i.succ j.succ - A i.succ 0 * A 0 j.succ / A 0 0

/-- all pivots are positive -/
def pivotsPos : (n : ℕ) → (Fin n → Fin n → ℚ) → Bool
  | 0, _ => true
  | n + 1, A => decide (0 < A 0 0) && pivotsPos n (schur A)

theorem schur_symm {n : ℕ} {A : Fin (n + 1) → Fin (n + 1) → ℚ} (h : ∀ i j, A i j = A j i) (i j : Fin n) : schur A i j = schur A j i := by
  rw [schur, schur, h i.succ j.succ, h i.succ 0, h 0 j.succ]
  ring

theorem pivots_form : ∀ (n : ℕ) (A : Fin n → Fin n → ℚ), (∀ i j, A i j = A j i) → pivotsPos n A = true →
    ∀ c : Fin n → ℝ, 0 ≤ ∑ i, ∑ j, c i * c j * (A i j : ℝ)
  | 0, _, _, _, c => by simp
  | n + 1, A, h, hp, c => by
    rw [pivotsPos, Bool.and_eq_true, decide_eq_true_eq] at hp
    have ih := pivots_form n (schur A) (schur_symm h) hp.2 fun i => c i.succ
    have ha : (0 : ℝ) < (A 0 0 : ℝ) := by exact_mod_cast hp.1
    set S : ℝ := ∑ j : Fin n, c j.succ * (A 0 j.succ : ℝ) with hS
    have e : ∑ i : Fin n, ∑ j : Fin n, c i.succ * c j.succ * (schur A i j : ℝ) =
        ∑ i : Fin n, ∑ j : Fin n, c i.succ * c j.succ * (A i.succ j.succ : ℝ) - S * S / (A 0 0 : ℝ) := by
      have : S * S / (A 0 0 : ℝ) = ∑ i : Fin n, ∑ j : Fin n, c i.succ * (A 0 i.succ : ℝ) * (c j.succ * (A 0 j.succ : ℝ)) / (A 0 0 : ℝ) := by
        rw [hS, Finset.sum_mul_sum, Finset.sum_div]
        exact Finset.sum_congr rfl fun i _ => Finset.sum_div _ _ _
      rw [this, ← Finset.sum_sub_distrib]
      refine Finset.sum_congr rfl fun i _ => ?_
      rw [← Finset.sum_sub_distrib]
      refine Finset.sum_congr rfl fun j _ => ?_
      rw [schur, h i.succ 0]
      push_cast
      ring
    have t : ∑ i, ∑ j, c i * c j * (A i j : ℝ) = (A 0 0 : ℝ) * c 0 ^ 2 + 2 * c 0 * S +
        ∑ i : Fin n, ∑ j : Fin n, c i.succ * c j.succ * (A i.succ j.succ : ℝ) := by
      simp only [Fin.sum_univ_succ, Finset.sum_add_distrib]
      have r1 : ∑ j : Fin n, c 0 * c j.succ * (A 0 j.succ : ℝ) = c 0 * S := by
        rw [hS, Finset.mul_sum]
        exact Finset.sum_congr rfl fun j _ => by ring
      have r2 : ∑ i : Fin n, c i.succ * c 0 * (A i.succ 0 : ℝ) = c 0 * S := by
        rw [hS, Finset.mul_sum]
        exact Finset.sum_congr rfl fun j _ => by rw [h j.succ 0]; ring
      rw [r1, r2]
      ring
    have q : (A 0 0 : ℝ) * c 0 ^ 2 + 2 * c 0 * S + S * S / (A 0 0 : ℝ) = ((A 0 0 : ℝ) * c 0 + S) ^ 2 / (A 0 0 : ℝ) := by
      field_simp
      ring
    have : 0 ≤ ((A 0 0 : ℝ) * c 0 + S) ^ 2 / (A 0 0 : ℝ) := by positivity
    rw [e] at ih
    rw [t]
    linarith

end Unc.Check
