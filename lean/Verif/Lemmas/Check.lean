import Verif.Spec.Check
import Verif.Lemmas.UReal
import Mathlib.Tactic.Linarith
import Mathlib.Tactic.Ring
import Mathlib.Tactic.NormNum
import Mathlib.Algebra.BigOperators.Fin

/-! # Eigenvalues of the Hankel matrix and the loop of `hamburger` -/

namespace Unc
namespace Check
open Matrix
open scoped ComplexOrder

/-! ## The loop over the eigenvalues -/

section
variable {R : Type*} [Field R] [LinearOrder R] [IsStrictOrderedRing R]

/-- State of the loop after the eigenvalues `v`. -/
theorem eig_loop (v : List R) :
    ((v.foldl eigStep (-1, 1)).1 = -1 ∧ (∀ a ∈ v, a < 0)
      ∨ 0 ≤ (v.foldl eigStep (-1, 1)).1 ∧ (v.foldl eigStep (-1, 1)).1 ∈ v ∧ ∀ a ∈ v, a ≤ (v.foldl eigStep (-1, 1)).1)
    ∧ ((v.foldl eigStep (-1, 1)).2 = 1 ∧ (∀ a ∈ v, 0 ≤ a)
      ∨ (v.foldl eigStep (-1, 1)).2 < 0 ∧ (v.foldl eigStep (-1, 1)).2 ∈ v ∧ ∀ a ∈ v, (v.foldl eigStep (-1, 1)).2 ≤ a) := by
  induction v using List.reverseRecOn with
  | nil => simp
  | append_singleton v a ih =>
    rw [List.foldl_append]
    generalize hst : v.foldl eigStep (-1, 1) = st at ih ⊢
    simp only [List.foldl_cons, List.foldl_nil, List.mem_append, List.mem_singleton]
    obtain ⟨h1, h2⟩ := ih
    unfold eigStep
    simp only [Bool.and_eq_true, ltb_iff, leb_iff]
    split_ifs with c1 c2
    · refine ⟨?_, Or.inr ⟨c1.1, Or.inr rfl, ?_⟩⟩
      · rcases h1 with ⟨e, h⟩ | ⟨e, h, h'⟩
        · exact Or.inl ⟨e, fun b hb => hb.elim (h b) fun hb => hb ▸ c1.1⟩
        · exact Or.inr ⟨e, Or.inl h, fun b hb => hb.elim (h' b) fun hb => hb ▸ c1.1.le.trans e⟩
      · rintro b (hb | rfl)
        · rcases h2 with ⟨e, h⟩ | ⟨e, h, h'⟩
          · exact c1.1.le.trans (h b hb)
          · exact c1.2.le.trans (h' b hb)
        · exact le_rfl
    · refine ⟨Or.inr ⟨c2.1, Or.inr rfl, ?_⟩, ?_⟩
      · rintro b (hb | rfl)
        · rcases h1 with ⟨e, h⟩ | ⟨e, h, h'⟩
          · exact (h b hb).le.trans c2.1
          · exact (h' b hb).trans c2.2.le
        · exact le_rfl
      · rcases h2 with ⟨e, h⟩ | ⟨e, h, h'⟩
        · exact Or.inl ⟨e, fun b hb => hb.elim (h b) fun hb => hb ▸ c2.1⟩
        · exact Or.inr ⟨e, Or.inl h, fun b hb => hb.elim (h' b) fun hb => by rw [hb]; exact e.le.trans c2.1⟩
    · rcases lt_or_ge a 0 with ha | ha
      · have hle : st.2 ≤ a := not_lt.1 fun h => c1 ⟨ha, h⟩
        have h2' := h2.resolve_left fun ⟨e, _⟩ => by rw [e] at hle; linarith
        refine ⟨?_, Or.inr ⟨h2'.1, Or.inl h2'.2.1, fun b hb => hb.elim (h2'.2.2 b) fun hb => hb ▸ hle⟩⟩
        rcases h1 with ⟨e, h⟩ | ⟨e, h, h'⟩
        · exact Or.inl ⟨e, fun b hb => hb.elim (h b) fun hb => hb ▸ ha⟩
        · exact Or.inr ⟨e, Or.inl h, fun b hb => hb.elim (h' b) fun hb => hb ▸ ha.le.trans e⟩
      · have hle : a ≤ st.1 := not_lt.1 fun h => c2 ⟨ha, h⟩
        have h1' := h1.resolve_left fun ⟨e, _⟩ => by rw [e] at hle; linarith
        refine ⟨Or.inr ⟨h1'.1, Or.inl h1'.2.1, fun b hb => hb.elim (h1'.2.2 b) fun hb => hb ▸ hle⟩, ?_⟩
        rcases h2 with ⟨e, h⟩ | ⟨e, h, h'⟩
        · exact Or.inl ⟨e, fun b hb => hb.elim (h b) fun hb => hb ▸ ha⟩
        · exact Or.inr ⟨e, Or.inl h, fun b hb => hb.elim (h' b) fun hb => hb ▸ e.le.trans ha⟩

end

/-! ## The matrix -/

theorem hk_std (v : ℕ → ℝ) (junk : ℕ → ℕ → ℝ) {i j : ℕ} (h : j ≤ i) : hkMatrix 0 v junk i j = seqStd v (i + j) := by
  unfold hkMatrix
  rw [if_pos h]
  obtain ⟨n, hn⟩ : ∃ n, n = i + j := ⟨_, rfl⟩
  have e : ((i : ℤ) + j - 3 + 0) = (n : ℤ) - 3 := by rw [hn]; push_cast; ring
  dsimp only
  rw [e, ← hn]
  match n with
  | 0 => simp [seqStd]
  | 1 => simp [seqStd]
  | 2 => simp [seqStd]
  | n + 3 =>
    have : ((n + 3 : ℕ) : ℤ) - 3 = (n : ℤ) := by push_cast; ring
    rw [this, if_pos (by positivity)]
    simp [seqStd]

theorem hk_central (m : ℕ → ℝ) (junk : ℕ → ℕ → ℝ) {i j : ℕ} (h : j ≤ i) :
    hkMatrix 1 m junk i j = seqCentral m (i + j) := by
  unfold hkMatrix
  rw [if_pos h]
  obtain ⟨n, hn⟩ : ∃ n, n = i + j := ⟨_, rfl⟩
  have e : ((i : ℤ) + j - 3 + 1) = (n : ℤ) - 2 := by rw [hn]; push_cast; ring
  dsimp only
  rw [e, ← hn]
  match n with
  | 0 => simp [seqCentral]
  | 1 => simp [seqCentral]
  | n + 2 =>
    have : ((n + 2 : ℕ) : ℤ) - 2 = (n : ℤ) := by push_cast; ring
    rw [this, if_pos (by positivity)]
    simp [seqCentral]

theorem sym_eq {M : ℕ → ℕ → ℝ} {a : ℕ → ℝ} (h : ∀ i j, j ≤ i → M i j = a (i + j)) :
    symLower M = Matrix.of fun i j : Fin 5 => a (i + j) := by
  ext i j
  simp only [symLower, Matrix.of_apply]
  rw [h _ _ min_le_max]
  rcases le_total (i : ℕ) (j : ℕ) with hij | hij
  · rw [max_eq_right hij, min_eq_left hij, add_comm]
  · rw [max_eq_left hij, min_eq_right hij]

/-- The Hankel matrix. -/
def hankel (a : ℕ → ℝ) : Matrix (Fin 5) (Fin 5) ℝ := Matrix.of fun i j : Fin 5 => a (i + j)

theorem hankel_herm (a : ℕ → ℝ) : (hankel a).IsHermitian := by
  ext i j
  simp [hankel, Matrix.conjTranspose_apply, add_comm]

theorem hankel_psd (a : ℕ → ℝ) : (hankel a).PosSemidef ↔ HankelPSD a := by
  rw [posSemidef_iff_dotProduct_mulVec]
  simp only [hankel_herm, true_and, HankelPSD]
  refine forall_congr' fun c => ?_
  have : star c ⬝ᵥ (hankel a *ᵥ c) = ∑ i : Fin 5, ∑ j : Fin 5, c i * c j * a (i + j) := by
    simp only [dotProduct, mulVec, hankel, Matrix.of_apply, Finset.mul_sum, Pi.star_apply, star_trivial]
    exact Finset.sum_congr rfl fun i _ => Finset.sum_congr rfl fun j _ => by ring
  rw [this]

theorem roots_nonneg (a : ℕ → ℝ) : HankelPSD a ↔ ∀ r ∈ (hankel a).charpoly.roots, 0 ≤ r := by
  rw [← hankel_psd, (hankel_herm a).posSemidef_iff_eigenvalues_nonneg, (hankel_herm a).roots_charpoly_eq_eigenvalues,
    Pi.le_def]
  simp only [Multiset.mem_map, Finset.mem_val, Finset.mem_univ, true_and, forall_exists_index,
    forall_apply_eq_imp_iff, Function.comp_apply, Pi.zero_apply]
  rfl

/-- There is a positive eigenvalue, because the top left element is 1. -/
theorem exists_pos (a : ℕ → ℝ) (h0 : 0 < a 0) : ∃ r ∈ (hankel a).charpoly.roots, 0 < r := by
  by_contra hc
  push Not at hc
  have hA := hankel_herm a
  have hle : ∀ i, hA.eigenvalues i ≤ 0 := fun i => hc _ (by
    rw [hA.roots_charpoly_eq_eigenvalues]
    exact Multiset.mem_map.2 ⟨i, Finset.mem_univ_val i, rfl⟩)
  have hneg : (-hankel a).PosSemidef := by
    rw [hA.spectral_theorem, ← map_neg, diagonal_neg]
    simp only [Unitary.conjStarAlgAut_apply, Unitary.isUnit_coe.posSemidef_star_right_conjugate_iff]
    exact posSemidef_diagonal_iff.2 fun i => by simpa using hle i
  have := hneg.diag_nonneg (i := 0)
  simp [hankel] at this
  linarith

end Check
end Unc
