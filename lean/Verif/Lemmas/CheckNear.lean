import Verif.Spec.CheckNear
import Verif.Lemmas.Check

/-! # Quadratic forms and eigenvalues of 5 by 5 matrices -/

namespace Unc.Check
open Matrix Unc.Spec
open scoped ComplexOrder

theorem qform_eq (A : Matrix (Fin 5) (Fin 5) ℝ) (c : Fin 5 → ℝ) : qform A c = c ⬝ᵥ (A *ᵥ c) := by
  simp only [qform, dotProduct, mulVec, Finset.mul_sum]
  exact Finset.sum_congr rfl fun i _ => Finset.sum_congr rfl fun j _ => by ring

theorem lenSq_eq (c : Fin 5 → ℝ) : lenSq c = c ⬝ᵥ c := by
  simp only [lenSq, dotProduct]
  exact Finset.sum_congr rfl fun i _ => by ring

theorem lenSq_nonneg (c : Fin 5 → ℝ) : 0 ≤ lenSq c := Finset.sum_nonneg fun i _ => sq_nonneg _

theorem qform_add (A B : Matrix (Fin 5) (Fin 5) ℝ) (c : Fin 5 → ℝ) : qform (A + B) c = qform A c + qform B c := by
  simp [qform_eq, add_mulVec]

theorem qform_smul_one (k : ℝ) (c : Fin 5 → ℝ) : qform (k • (1 : Matrix (Fin 5) (Fin 5) ℝ)) c = k * lenSq c := by
  simp [qform_eq, lenSq_eq, smul_mulVec]

/-- A symmetric matrix in its principal axes. -/
theorem spectral {A : Matrix (Fin 5) (Fin 5) ℝ} (hA : A.IsHermitian) : ∃ (l : Fin 5 → ℝ) (T : (Fin 5 → ℝ) → Fin 5 → ℝ) (S : (Fin 5 → ℝ) → Fin 5 → ℝ),
    A.charpoly.roots = Finset.univ.val.map l ∧ (∀ c, T (S c) = c) ∧ (∀ c, lenSq (T c) = lenSq c) ∧ ∀ c, qform A c = ∑ i, l i * T c i ^ 2 := by
  set U : Matrix (Fin 5) (Fin 5) ℝ := (hA.eigenvectorUnitary : Matrix (Fin 5) (Fin 5) ℝ) with hU
  have u1 : Uᵀ * U = 1 := by
    have := Unitary.coe_star_mul_self hA.eigenvectorUnitary
    rwa [star_eq_conjTranspose, conjTranspose_eq_transpose_of_trivial] at this
  have u2 : U * Uᵀ = 1 := mul_eq_one_comm.1 u1
  have sp : A = U * diagonal hA.eigenvalues * Uᵀ := by
    have := hA.spectral_theorem
    rw [Unitary.conjStarAlgAut_apply, star_eq_conjTranspose, conjTranspose_eq_transpose_of_trivial] at this
    exact this
  refine ⟨hA.eigenvalues, fun c => Uᵀ *ᵥ c, fun c => U *ᵥ c, ?_, fun c => ?_, fun c => ?_, fun c => ?_⟩
  · rw [hA.roots_charpoly_eq_eigenvalues]; rfl
  · simp [mulVec_mulVec, u1]
  · simp only [lenSq_eq]
    rw [dotProduct_mulVec, vecMul_transpose, mulVec_mulVec, u2, one_mulVec]
  · have e : ∑ i, hA.eigenvalues i * (Uᵀ *ᵥ c) i ^ 2 = (Uᵀ *ᵥ c) ⬝ᵥ (diagonal hA.eigenvalues *ᵥ (Uᵀ *ᵥ c)) := by
      simp only [dotProduct, mulVec_diagonal]
      exact Finset.sum_congr rfl fun i _ => by ring
    rw [e, qform_eq]
    conv_lhs => rw [sp]
    rw [← mulVec_mulVec, ← mulVec_mulVec, dotProduct_mulVec, ← mulVec_transpose]

/-- The eigenvalues are the extremes of the quadratic form. -/
theorem form_lower {A : Matrix (Fin 5) (Fin 5) ℝ} (hA : A.IsHermitian) (k : ℝ) :
    (∀ r ∈ A.charpoly.roots, k ≤ r) ↔ ∀ c, k * lenSq c ≤ qform A c := by
  obtain ⟨l, T, S, h1, h2, h3, h4⟩ := spectral hA
  rw [h1]
  simp only [Multiset.mem_map, Finset.mem_val, Finset.mem_univ, true_and, forall_exists_index, forall_apply_eq_imp_iff]
  constructor
  · intro h c
    rw [h4, ← h3, lenSq, Finset.mul_sum]
    exact Finset.sum_le_sum fun i _ => mul_le_mul_of_nonneg_right (h i) (sq_nonneg _)
  · intro h i
    have := h (S (Pi.single i 1))
    rw [h4, ← h3, h2] at this
    simpa [lenSq, Pi.single_apply] using this

theorem form_upper {A : Matrix (Fin 5) (Fin 5) ℝ} (hA : A.IsHermitian) (k : ℝ) :
    (∀ r ∈ A.charpoly.roots, r ≤ k) ↔ ∀ c, qform A c ≤ k * lenSq c := by
  obtain ⟨l, T, S, h1, h2, h3, h4⟩ := spectral hA
  rw [h1]
  simp only [Multiset.mem_map, Finset.mem_val, Finset.mem_univ, true_and, forall_exists_index, forall_apply_eq_imp_iff]
  constructor
  · intro h c
    rw [h4, ← h3, lenSq, Finset.mul_sum]
    exact Finset.sum_le_sum fun i _ => mul_le_mul_of_nonneg_right (h i) (sq_nonneg _)
  · intro h i
    have := h (S (Pi.single i 1))
    rw [h4, ← h3, h2] at this
    simpa [lenSq, Pi.single_apply] using this

/-- The smallest and the largest eigenvalue. -/
theorem extremes {A : Matrix (Fin 5) (Fin 5) ℝ} (hA : A.IsHermitian) : ∃ lo ∈ A.charpoly.roots, ∃ hi ∈ A.charpoly.roots,
    (∀ r ∈ A.charpoly.roots, lo ≤ r ∧ r ≤ hi) ∧ ∀ c, lo * lenSq c ≤ qform A c ∧ qform A c ≤ hi * lenSq c := by
  obtain ⟨l, -, -, h1, -⟩ := spectral hA
  obtain ⟨i, -, hi⟩ := Finset.exists_min_image Finset.univ l ⟨0, Finset.mem_univ _⟩
  obtain ⟨j, -, hj⟩ := Finset.exists_max_image Finset.univ l ⟨0, Finset.mem_univ _⟩
  have a : ∀ r ∈ A.charpoly.roots, l i ≤ r := by
    rw [h1]
    intro r hr
    obtain ⟨k, hk, rfl⟩ := Multiset.mem_map.1 hr
    exact hi k hk
  have b : ∀ r ∈ A.charpoly.roots, r ≤ l j := by
    rw [h1]
    intro r hr
    obtain ⟨k, hk, rfl⟩ := Multiset.mem_map.1 hr
    exact hj k hk
  exact ⟨l i, by rw [h1]; exact Multiset.mem_map_of_mem l (Finset.mem_univ_val i), l j, by rw [h1]; exact Multiset.mem_map_of_mem l (Finset.mem_univ_val j), fun r hr => ⟨a r hr, b r hr⟩,
    fun c => ⟨(form_lower hA _).1 a c, (form_upper hA _).1 b c⟩⟩

theorem symLower_herm (M : ℕ → ℕ → ℝ) : (symLower M).IsHermitian := by
  ext i j
  simp [symLower, max_comm, min_comm]

theorem herm_of_symm {E : Matrix (Fin 5) (Fin 5) ℝ} (h : ∀ i j, E i j = E j i) : E.IsHermitian := by
  ext i j
  simp [h i j]

/-- the size of a symmetric matrix: the smallest bound -/
theorem bound_exists {A : Matrix (Fin 5) (Fin 5) ℝ} (hA : A.IsHermitian) : ∃ N, 0 ≤ N ∧ FormBound A N ∧ ∀ N', FormBound A N' → N ≤ N' := by
  obtain ⟨lo, hlo, hi, hhi, h1, h2⟩ := extremes hA
  refine ⟨max |lo| |hi|, le_max_of_le_left (abs_nonneg _), fun c => ?_, fun N' h => ?_⟩
  · have hc := lenSq_nonneg c
    rw [abs_le]
    obtain ⟨a, b⟩ := h2 c
    constructor
    · have : -max |lo| |hi| ≤ lo := (neg_le_neg (le_max_left _ _)).trans (neg_abs_le lo)
      nlinarith
    · have : hi ≤ max |lo| |hi| := (le_abs_self _).trans (le_max_right _ _)
      nlinarith
  · have a := (form_lower hA (-N')).2 fun c => by have := (abs_le.1 (h c)).1; linarith
    have b := (form_upper hA N').2 fun c => (abs_le.1 (h c)).2
    exact max_le (abs_le.2 ⟨a lo hlo, b lo hlo⟩) (abs_le.2 ⟨a hi hhi, b hi hhi⟩)

end Unc.Check
