import Verif.Lemmas.Expect
import Verif.Lemmas.Sums

/-! # Expectations of products of quadratic polynomials -/

namespace Unc
namespace Expect
open MvPolynomial Sums

variable {σ R : Type*} [LinearOrder σ] [CommRing R]

/-- The quadratic polynomial with linear coefficients `g` and matrix `h`. -/
noncomputable def Q (S : Finset σ) (g : σ → R) (h : σ → σ → R) : MvPolynomial σ R :=
  (∑ i ∈ S, C (g i) * X i) + ∑ i ∈ S, ∑ j ∈ S, C (h i j) * X i * X j

theorem cut_Q {S T : Finset σ} (hTS : T ⊆ S) (g : σ → R) (h : σ → σ → R) : cut T (Q S g h) = Q T g h := by
  have hX : ∀ i, cut (R := R) T (X i) = if i ∈ T then X i else 0 := fun i => by
    rw [cut, aeval_X]
  have hC : ∀ r : R, cut (σ := σ) T (C r) = C r := fun r => by
    rw [← algebraMap_eq, AlgHom.commutes]
  unfold Q
  simp only [map_add, map_sum, map_mul, hX, hC]
  refine congrArg₂ _ ?_ ?_
  · rw [← Finset.sum_subset hTS]
    · exact Finset.sum_congr rfl fun i hi => by rw [if_pos hi]
    · intro i _ hi; rw [if_neg hi, mul_zero]
  · rw [← Finset.sum_subset hTS]
    · refine Finset.sum_congr rfl fun i hi => ?_
      rw [← Finset.sum_subset hTS]
      · exact Finset.sum_congr rfl fun j hj => by rw [if_pos hi, if_pos hj]
      · intro j _ hj; rw [if_neg hj, mul_zero]
    · intro i _ hi
      exact Finset.sum_eq_zero fun j _ => by rw [if_neg hi]; ring

theorem Q_vars (S : Finset σ) (g : σ → R) (h : σ → σ → R) : Q S g h ∈ supported R (S : Set σ) := by
  have hX : ∀ i ∈ S, (X i : MvPolynomial σ R) ∈ supported R (S : Set σ) := fun i hi =>
    Algebra.subset_adjoin ⟨i, hi, rfl⟩
  have hC : ∀ r : R, (C r : MvPolynomial σ R) ∈ supported R (S : Set σ) := fun r => by
    rw [← algebraMap_eq]; exact Subalgebra.algebraMap_mem _ _
  refine Subalgebra.add_mem _ (Subalgebra.sum_mem _ fun i hi => Subalgebra.mul_mem _ (hC _) (hX i hi))
    (Subalgebra.sum_mem _ fun i hi => Subalgebra.sum_mem _ fun j hj =>
      Subalgebra.mul_mem _ (Subalgebra.mul_mem _ (hC _) (hX i hi)) (hX j hj))

theorem Q_degree (S : Finset σ) (g : σ → R) (h : σ → σ → R) : (Q S g h).totalDegree ≤ 2 := by
  have hX : ∀ i, (X i : MvPolynomial σ R).totalDegree ≤ 1 := fun i => by
    refine totalDegree_le_of_support_subset (q := monomial (Finsupp.single i 1) 1) ?_ |>.trans ?_
    · exact subset_rfl
    · refine (totalDegree_monomial_le _ _).trans ?_
      rw [Finsupp.sum_single_index] <;> simp
  have hCX : ∀ (r : R) i, (C r * X i : MvPolynomial σ R).totalDegree ≤ 1 := fun r i =>
    (totalDegree_mul _ _).trans (by rw [totalDegree_C]; simpa using hX i)
  refine (totalDegree_add _ _).trans (max_le ?_ ?_)
  · refine totalDegree_finsetSum_le fun i _ => (hCX _ i).trans (by norm_num)
  · refine totalDegree_finsetSum_le fun i _ => totalDegree_finsetSum_le fun j _ => ?_
    exact (totalDegree_mul _ _).trans (Nat.add_le_add (hCX _ i) (hX j))

/-- Adding one variable. -/
theorem Q_insert {d : σ} {T : Finset σ} (hd : d ∉ T) (g : σ → R) (h : σ → σ → R) :
    Q (insert d T) g h = Q T g h + (C (g d) + ∑ i ∈ T, C (h i d + h d i) * X i) * X d + C (h d d) * X d ^ 2 := by
  unfold Q
  rw [Finset.sum_insert hd, Finset.sum_insert hd, Finset.sum_insert hd]
  have : ∀ i ∈ T, ∑ j ∈ insert d T, C (h i j) * X i * X j
      = C (h i d) * X i * X d + ∑ j ∈ T, C (h i j) * X i * X j := fun i _ => Finset.sum_insert hd
  rw [Finset.sum_congr rfl this, Finset.sum_add_distrib]
  have e : ∑ i ∈ T, C (h i d + h d i) * X i = (∑ i ∈ T, C (h i d) * X i) + ∑ i ∈ T, C (h d i) * X i := by
    rw [← Finset.sum_add_distrib]
    exact Finset.sum_congr rfl fun i _ => by rw [C_add]; ring
  rw [e, ← Finset.sum_mul]
  have e2 : ∑ j ∈ T, C (h d j) * X d * X j = (∑ i ∈ T, C (h d i) * X i) * X d := by
    rw [Finset.sum_mul]
    exact Finset.sum_congr rfl fun i _ => by ring
  rw [e2]
  ring

/-- Expectation of a polynomial of degree at most eight in which every proper part is given by cutting. -/
theorem E_expand (mu : σ → ℕ → R) (h1 : ∀ i, mu i 1 = 0) {S : Finset σ} {p : MvPolynomial σ R}
    (hp : p ∈ supported R (S : Set σ)) (hdeg : p.totalDegree ≤ 8) :
    E mu p = Eo mu ∅ (cut ∅ p) + (∑ a ∈ S, Eo mu {a} (cut {a} p))
      + (S2 S fun a b => Eo mu (insert b {a}) (cut (insert b {a}) p))
      + (S3 S fun x y z => Eo mu (insert z (insert y {x})) (cut (insert z (insert y {x})) p))
      + S4 S fun x y z w => Eo mu (insert w (insert z (insert y {x}))) (cut (insert w (insert z (insert y {x}))) p) := by
  have hvars : p.vars ⊆ S := by
    have := mem_supported.1 hp
    exact_mod_cast this
  rw [E_eq_sum mu hvars]
  simp only [Eo_cut]
  exact powerset4 S (fun T => Eo mu T p) fun T hT => Eo_eq_zero mu h1 hdeg (by omega)

theorem S2_congr {S : Finset σ} {f g : σ → σ → R} (h : ∀ a ∈ S, ∀ b ∈ S, a < b → f a b = g a b) :
    S2 S f = S2 S g := by
  unfold S2
  refine Finset.sum_congr rfl fun a ha => Finset.sum_congr rfl fun b hb => ?_
  split_ifs with hab
  · exact h a ha b hb hab
  · rfl

theorem S3_congr {S : Finset σ} {f g : σ → σ → σ → R}
    (h : ∀ a ∈ S, ∀ b ∈ S, ∀ c ∈ S, a < b → b < c → f a b c = g a b c) : S3 S f = S3 S g := by
  unfold S3
  refine Finset.sum_congr rfl fun a ha => Finset.sum_congr rfl fun b hb => Finset.sum_congr rfl fun c hc => ?_
  split_ifs with hab
  · exact h a ha b hb c hc hab.1 hab.2
  · rfl

theorem S4_congr {S : Finset σ} {f g : σ → σ → σ → σ → R}
    (h : ∀ a ∈ S, ∀ b ∈ S, ∀ c ∈ S, ∀ d ∈ S, a < b → b < c → c < d → f a b c d = g a b c d) : S4 S f = S4 S g := by
  unfold S4
  refine Finset.sum_congr rfl fun a ha => Finset.sum_congr rfl fun b hb => Finset.sum_congr rfl fun c hc =>
    Finset.sum_congr rfl fun d hd => ?_
  split_ifs with hab
  · exact h a ha b hb c hc d hd hab.1 hab.2.1 hab.2.2
  · rfl

/-! ## Integration of one variable, for polynomials given by their coefficients -/

/-- The polynomial with coefficients `L` in `x`. -/
def polyL {A : Type*} [CommRing A] (x : A) : List A → A
  | [] => 0
  | p :: t => p + x * polyL x t

/-- Sum of the coefficients `L` weighted with the moments from the `k`-th on. -/
noncomputable def dotL (w : ℕ → R) : ℕ → List (MvPolynomial σ R) → MvPolynomial σ R
  | _, [] => 0
  | k, p :: t => C (w k) * p + dotL w (k + 1) t

theorem Eo_list_aux (mu : σ → ℕ → R) {d : σ} {T : Finset σ} (hd : d ∉ T) (L : List (MvPolynomial σ R))
    (hL : ∀ p ∈ L, Free d p) (k : ℕ) (hk : k ≠ 0) :
    Eo mu (insert d T) (X d ^ k * polyL (X d) L) = Eo mu T (dotL (mu d) k L) := by
  induction L generalizing k with
  | nil => simp [polyL, dotL]
  | cons p t ih =>
    have e : X d ^ k * polyL (X d) (p :: t) = p * X d ^ k + X d ^ (k + 1) * polyL (X d) t := by
      rw [polyL]; ring
    rw [e, map_add, Eo_insert mu hd (hL p List.mem_cons_self) hk,
      ih (fun q hq => hL q (List.mem_cons_of_mem _ hq)) _ (Nat.succ_ne_zero k), dotL, map_add]
    congr 1
    rw [← smul_eq_C_mul, map_smul, smul_eq_mul]

/-- Integrate variable `d` out of a polynomial in `d` with the given coefficients. -/
theorem Eo_list (mu : σ → ℕ → R) {d : σ} {T : Finset σ} (hd : d ∉ T) (h1 : mu d 1 = 0) (h2 : mu d 2 = 1)
    (p0 p1 p2 : MvPolynomial σ R) (L : List (MvPolynomial σ R))
    (h0' : Free d p0) (h1' : Free d p1) (h2' : Free d p2) (hL : ∀ p ∈ L, Free d p) :
    Eo mu (insert d T) (polyL (X d) (p0 :: p1 :: p2 :: L)) = Eo mu T (p2 + dotL (mu d) 3 L) := by
  have e : polyL (X d) (p0 :: p1 :: p2 :: L) = p0 + X d ^ 1 * polyL (X d) (p1 :: p2 :: L) := by
    simp only [polyL]; ring
  rw [e, map_add, Eo_free mu h0', Eo_list_aux mu hd _ (by simpa [h1', h2'] using hL) 1 one_ne_zero]
  simp only [dotL, h1, h2, C_0, C_1, zero_mul, zero_add, one_mul]

end Expect
end Unc
