import Verif.Lemmas.Same2
import Verif.Lemmas.Check
import Mathlib.Analysis.Matrix.Order

/-!
# The expectation of a square is not negative

`E mu` is defined from the moments of the variables only; it is positive on the squares of the polynomials of degree at
most 4 if the Hankel matrix of the moments of each variable is positive semidefinite. The matrix of the products of two
monomials is an entrywise product of such matrices.
-/

namespace Unc
namespace Mom
open HessGrad SMap Expect Sums Matrix Check

theorem ones_psd (ι : Type*) [Fintype ι] : (Matrix.of fun _ _ : ι => (1 : ℝ)).PosSemidef := by
  refine posSemidef_iff_dotProduct_mulVec.2 ⟨by ext i j; simp [Matrix.conjTranspose_apply], fun c => ?_⟩
  have : star c ⬝ᵥ ((Matrix.of fun _ _ : ι => (1 : ℝ)) *ᵥ c) = (∑ i, c i) * ∑ i, c i := by
    simp [dotProduct, mulVec, Finset.sum_mul]
  rw [this]
  exact mul_self_nonneg _

theorem prod_psd {ι : Type*} [Fintype ι] (S : Finset VId) (A : VId → Matrix ι ι ℝ) (h : ∀ i ∈ S, (A i).PosSemidef) :
    (Matrix.of fun s t : ι => ∏ i ∈ S, A i s t).PosSemidef := by
  induction S using Finset.induction_on with
  | empty => simpa using ones_psd ι
  | insert i S hi ih =>
    have h1 := h i (Finset.mem_insert_self i S)
    have h2 := ih fun j hj => h j (Finset.mem_insert_of_mem hj)
    have e : (Matrix.of fun s t : ι => ∏ j ∈ insert i S, A j s t)
        = Matrix.hadamard (A i) (Matrix.of fun s t : ι => ∏ j ∈ S, A j s t) := by
      ext s t
      simp [Matrix.hadamard, Finset.prod_insert hi]
    rw [e]
    exact h1.hadamard h2

theorem E_mul_sum (mu : VId → ℕ → ℝ) (q : MvPolynomial VId ℝ) :
    E mu (q * q) = ∑ s ∈ q.support, ∑ t ∈ q.support, q.coeff s * q.coeff t * wt mu (s + t) := by
  conv_lhs => rw [q.as_sum]
  rw [Finset.sum_mul_sum, map_sum]
  refine Finset.sum_congr rfl fun s _ => ?_
  rw [map_sum]
  refine Finset.sum_congr rfl fun t _ => ?_
  rw [MvPolynomial.monomial_mul, E, wsum_monomial]

theorem wt_sub {mu : VId → ℕ → ℝ} (h0 : ∀ i, mu i 0 = 1) {S : Finset VId} {s : VId →₀ ℕ} (hs : s.support ⊆ S) :
    wt mu s = ∏ i ∈ S, mu i (s i) := by
  rw [wt]
  refine Finset.prod_subset hs fun i _ hi => ?_
  rw [Finsupp.notMem_support_iff.1 hi, h0]

theorem E_sq_nonneg {mu : VId → ℕ → ℝ} (h0 : ∀ i, mu i 0 = 1) {q : MvPolynomial VId ℝ} (hd : q.totalDegree ≤ 4)
    (hp : ∀ i ∈ q.vars, HankelPSD (mu i)) : 0 ≤ E mu (q * q) := by
  classical
  have hle : ∀ (s : q.support) (i : VId), (s : VId →₀ ℕ) i < 5 := by
    intro s i
    have h1 := (MvPolynomial.le_totalDegree s.2).trans hd
    have h2 : (s : VId →₀ ℕ) i ≤ (s : VId →₀ ℕ).sum fun _ e => e := by
      by_cases hi : i ∈ (s : VId →₀ ℕ).support
      · exact Finset.single_le_sum (f := fun j => (s : VId →₀ ℕ) j) (fun _ _ => Nat.zero_le _) hi
      · rw [Finsupp.notMem_support_iff.1 hi]; exact Nat.zero_le _
    omega
  have hpsd := prod_psd (ι := q.support) q.vars
    (fun i => (hankel (mu i)).submatrix (fun s => ⟨(s : VId →₀ ℕ) i, hle s i⟩) (fun s => ⟨(s : VId →₀ ℕ) i, hle s i⟩))
    (fun i hi => ((hankel_psd _).2 (hp i hi)).submatrix _)
  have h := (posSemidef_iff_dotProduct_mulVec.1 hpsd).2 fun s => q.coeff s
  rw [E_mul_sum, ← Finset.sum_coe_sort]
  refine le_of_le_of_eq h ?_
  simp only [dotProduct, mulVec, Matrix.of_apply, Matrix.submatrix_apply, hankel, Finset.mul_sum, Pi.star_apply,
    star_trivial]
  refine Finset.sum_congr rfl fun s _ => ?_
  rw [← Finset.sum_coe_sort q.support]
  refine Finset.sum_congr rfl fun t _ => ?_
  rw [wt_sub h0 (S := q.vars)]
  · simp only [Finsupp.add_apply]; ring
  · refine Finsupp.support_add.trans (Finset.union_subset ?_ ?_) <;>
      exact fun i hi => (MvPolynomial.mem_vars i).2 ⟨_, Subtype.coe_prop _, hi⟩

/-- The inequality between the second, third and fourth moment of a centered polynomial of degree 2. -/
theorem E_moments {mu : VId → ℕ → ℝ} (h0 : ∀ i, mu i 0 = 1) {p : MvPolynomial VId ℝ} (hd : p.totalDegree ≤ 2)
    (hp : ∀ i ∈ p.vars, HankelPSD (mu i)) (hc : E mu p = 0) :
    0 ≤ E mu (p ^ 2) ∧ 0 ≤ E mu (p ^ 4) ∧ E mu (p ^ 3) ^ 2 + E mu (p ^ 2) ^ 3 ≤ E mu (p ^ 2) * E mu (p ^ 4) := by
  have key : ∀ a b c : ℝ, 0 ≤ c ^ 2 * E mu (p ^ 4) + 2 * b * c * E mu (p ^ 3) + (b ^ 2 + 2 * a * c) * E mu (p ^ 2) + a ^ 2 := by
    intro a b c
    have hd' : (MvPolynomial.C a + MvPolynomial.C b * p + MvPolynomial.C c * p ^ 2).totalDegree ≤ 4 := by
      refine (MvPolynomial.totalDegree_add _ _).trans (max_le ((MvPolynomial.totalDegree_add _ _).trans (max_le ?_ ?_)) ?_)
      · simp
      · exact (MvPolynomial.totalDegree_mul _ _).trans (by rw [MvPolynomial.totalDegree_C]; omega)
      · refine (MvPolynomial.totalDegree_mul _ _).trans ?_
        rw [MvPolynomial.totalDegree_C]
        have := MvPolynomial.totalDegree_pow p 2
        omega
    have hv : (MvPolynomial.C a + MvPolynomial.C b * p + MvPolynomial.C c * p ^ 2).vars ⊆ p.vars := by
      classical
      refine (MvPolynomial.vars_add_subset _ _).trans (Finset.union_subset
        ((MvPolynomial.vars_add_subset _ _).trans (Finset.union_subset ?_ ?_)) ?_)
      · simp
      · exact (MvPolynomial.vars_mul _ _).trans (by simp)
      · exact (MvPolynomial.vars_mul _ _).trans (by simpa using MvPolynomial.vars_pow p 2)
    have h := E_sq_nonneg h0 hd' fun i hi => hp i (hv hi)
    have e : (MvPolynomial.C a + MvPolynomial.C b * p + MvPolynomial.C c * p ^ 2)
        * (MvPolynomial.C a + MvPolynomial.C b * p + MvPolynomial.C c * p ^ 2)
        = MvPolynomial.C (c ^ 2) * p ^ 4 + MvPolynomial.C (2 * b * c) * p ^ 3 + MvPolynomial.C (b ^ 2 + 2 * a * c) * p ^ 2
          + MvPolynomial.C (2 * a * b) * p + MvPolynomial.C (a ^ 2) := by
      simp only [map_mul, map_pow, map_add, map_ofNat]; ring
    rw [e, map_add, map_add, map_add, map_add, E_C_mul, E_C_mul, E_C_mul, E_C_mul, E_C, hc] at h
    linarith
  generalize E mu (p ^ 2) = m2 at *
  generalize E mu (p ^ 3) = m3 at *
  generalize E mu (p ^ 4) = m4 at *
  have h2 : 0 ≤ m2 := by have := key 0 1 0; linarith
  have h4 : 0 ≤ m4 := by have := key 0 0 1; linarith
  refine ⟨h2, h4, ?_⟩
  rcases h2.eq_or_lt with h | h
  · have e : m3 = 0 := by
      by_contra hne
      have h1 := key 0 (-(m4 + 1) / (2 * m3)) 1
      rw [← h] at h1
      have : 2 * (-(m4 + 1) / (2 * m3)) * 1 * m3 = -(m4 + 1) := by field_simp
      rw [this] at h1
      linarith
    rw [e, ← h]; simp
  · have h1 := key (-m2 ^ 2) (-m3) m2
    have : m2 * (m2 * m4 - (m3 ^ 2 + m2 ^ 3)) ≥ 0 := by nlinarith
    have := nonneg_of_mul_nonneg_right this h
    linarith

end Mom
end Unc
