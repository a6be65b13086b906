import Verif.Lemmas.CovForm

/-!
# The moments depend only on the coefficients

Two values with the same gradient and Hessian, which agree on the moments of the variables they share, have the same
moments and covariances, even if they store different sets of variables.  Expectations of products of polynomials in
different variables.
-/

namespace Unc
namespace Mom
open HessGrad SMap Expect Sums

section ring
variable {R : Type*} [CommRing R]

theorem E_congr {mu nu : VId → ℕ → R} {p : MvPolynomial VId R} (h : ∀ i ∈ p.vars, ∀ k, mu i k = nu i k) :
    E mu p = E nu p := by
  rw [E, E, wsum_apply, wsum_apply]
  refine Finset.sum_congr rfl fun s hs => ?_
  rw [wt, wt, Finset.prod_congr rfl fun i hi => h i ((MvPolynomial.mem_vars i).2 ⟨s, hs, hi⟩) _]

theorem vars_sub_of {p : MvPolynomial VId R} {S : Finset VId} (h : p ∈ MvPolynomial.supported R (S : Set VId)) :
    p.vars ⊆ S := fun i hi => by
  have := (MvPolynomial.mem_supported.1 h) hi
  simpa using this

theorem poly_same {a b : HessGrad R} (ha : a.Valid) (hb : b.Valid) (hG : ∀ i, a.G i = b.G i)
    (hH : ∀ i j, a.H i j = b.H i j) : poly a = poly b := by
  rw [poly_eq ha (Finset.subset_union_left (s₂ := b.vars)), poly_eq hb (Finset.subset_union_right (s₁ := a.vars)),
    funext hG, funext fun i => funext (hH i)]

theorem mus_agree {a b : HessGrad R} (hag : AgreeMoments a b) {i : VId} (h1 : i ∈ a.vars) (h2 : i ∈ b.vars) (k : ℕ) :
    mus a i k = mus b i k := by
  rw [mus, mus, hag i _ _ (momOf_dOf h1) (momOf_dOf h2)]

/-- Any table of moments which agrees with the stored ones can be used. -/
theorem E_mus {a : HessGrad R} {mu : VId → ℕ → R} (h : ∀ i ∈ a.vars, ∀ k, mu i k = mus a i k) (k : ℕ) :
    E (mus a) (poly a ^ k) = E mu (poly a ^ k) :=
  E_congr fun i hi j => (h i (vars_sub_of (poly_vars a) (MvPolynomial.vars_pow _ _ hi)) j).symm

theorem E_same {a b : HessGrad R} (ha : a.Valid) (hb : b.Valid) (hG : ∀ i, a.G i = b.G i)
    (hH : ∀ i j, a.H i j = b.H i j) (hag : AgreeMoments a b) (k : ℕ) :
    E (mus a) (poly a ^ k) = E (mus b) (poly b ^ k) := by
  have e := poly_same ha hb hG hH
  rw [← e]
  refine E_congr fun i hi j => ?_
  have hi' := MvPolynomial.vars_pow _ _ hi
  exact mus_agree hag (vars_sub_of (poly_vars a) hi') (vars_sub_of (poly_vars b) (e ▸ hi')) j

theorem m_out {x : UReal2 R} {k : ℕ} (h : ¬ (1 ≤ k ∧ k ≤ 4)) : x.m k = none := by
  simp [UReal2.m, h]

/-- `m(k)` in terms of a table of moments. -/
theorem m_table {x : UReal2 R} (hx : x.hg.Valid) {mu : VId → ℕ → R} (h : ∀ i ∈ x.hg.vars, ∀ k, mu i k = mus x.hg i k) :
    x.m 1 = some (E mu (poly x.hg)) ∧
    x.m 2 = some (E mu ((poly x.hg - MvPolynomial.C (E mu (poly x.hg))) ^ 2)) ∧
    x.m 3 = some (E mu ((poly x.hg - MvPolynomial.C (E mu (poly x.hg))) ^ 3)) ∧
    x.m 4 = some (E mu ((poly x.hg - MvPolynomial.C (E mu (poly x.hg))) ^ 4)) := by
  have h1 := E_mus h 1
  rw [pow_one] at h1
  refine ⟨by rw [m_one hx, h1], ?_, ?_, ?_⟩
  · rw [m_two hx, E_central2, h1, E_mus h]
  · rw [m_three hx, E_central3, h1, E_mus h, E_mus h]
  · rw [m_four hx, E_central4, h1, E_mus h, E_mus h, E_mus h]

theorem m_same {x y : UReal2 R} (hx : x.hg.Valid) (hy : y.hg.Valid) (hG : ∀ i, x.hg.G i = y.hg.G i)
    (hH : ∀ i j, x.hg.H i j = y.hg.H i j) (hag : AgreeMoments x.hg y.hg) (k : ℕ) : x.m k = y.m k := by
  have e := E_same hx hy hG hH hag
  have e1 := e 1
  rw [pow_one, pow_one] at e1
  by_cases hk : 1 ≤ k ∧ k ≤ 4
  · obtain ⟨h1, h4⟩ := hk
    interval_cases k
    · rw [m_one hx, m_one hy, e1]
    · rw [m_two hx, m_two hy, e1, e]
    · rw [m_three hx, m_three hy, e1, e, e]
    · rw [m_four hx, m_four hy, e1, e, e, e]
  · rw [m_out hk, m_out hk]

/-- The covariance with the moments of the second operand. -/
theorem cov_right {x z : UReal2 R} (hx : x.hg.Valid) (hz : z.hg.Valid) (hag : AgreeMoments x.hg z.hg)
    {S : Finset VId} (hxS : x.hg.vars ⊆ S) (hzS : z.hg.vars ⊆ S) :
    x.cov z = some (covForm (mus z.hg) S x.hg z.hg) := by
  refine cov_mix hx hz _ (fun _ => rfl) (fun _ => rfl) (fun i hi hi' => ?_) hxS hzS
  have := hag i _ _ (momOf_dOf hi) (momOf_dOf hi')
  simp [mus, mseq, this]

theorem covForm_same {mu : VId → ℕ → R} {S : Finset VId} {a b c : HessGrad R} (hG : ∀ i, a.G i = b.G i)
    (hH : ∀ i j, a.H i j = b.H i j) : covForm mu S a c = covForm mu S b c := by
  unfold covForm; simp only [hG, hH]

theorem cov_same {x y z : UReal2 R} (hx : x.hg.Valid) (hy : y.hg.Valid) (hz : z.hg.Valid)
    (hG : ∀ i, x.hg.G i = y.hg.G i) (hH : ∀ i j, x.hg.H i j = y.hg.H i j) (hxz : AgreeMoments x.hg z.hg)
    (hyz : AgreeMoments y.hg z.hg) : x.cov z = y.cov z := by
  have s1 : x.hg.vars ⊆ x.hg.vars ∪ y.hg.vars ∪ z.hg.vars :=
    Finset.subset_union_left.trans Finset.subset_union_left
  have s2 : y.hg.vars ⊆ x.hg.vars ∪ y.hg.vars ∪ z.hg.vars :=
    Finset.subset_union_right.trans Finset.subset_union_left
  rw [cov_right hx hz hxz s1 Finset.subset_union_right, cov_right hy hz hyz s2 Finset.subset_union_right,
    covForm_same hG hH]

theorem covForm_lin {mu : VId → ℕ → R} {S : Finset VId} {a b : R} {x y z w : HessGrad R}
    (hG : ∀ i, z.G i = a * x.G i + b * y.G i) (hH : ∀ i j, z.H i j = a * x.H i j + b * y.H i j) :
    covForm mu S z w = a * covForm mu S x w + b * covForm mu S y w := by
  have h1 : ∑ i ∈ S, (z.G i * w.G i + z.H i i * w.G i * mu i 3 + z.G i * w.H i i * mu i 3 + z.H i i * w.H i i * (mu i 4 - 1)) =
      a * (∑ i ∈ S, (x.G i * w.G i + x.H i i * w.G i * mu i 3 + x.G i * w.H i i * mu i 3 + x.H i i * w.H i i * (mu i 4 - 1))) +
      b * ∑ i ∈ S, (y.G i * w.G i + y.H i i * w.G i * mu i 3 + y.G i * w.H i i * mu i 3 + y.H i i * w.H i i * (mu i 4 - 1)) := by
    rw [Finset.mul_sum, Finset.mul_sum, ← Finset.sum_add_distrib]
    exact Finset.sum_congr rfl fun i _ => by rw [hG, hH]; ring
  have h2 : (S2 S fun i j => 4 * z.H i j * w.H i j) =
      a * (S2 S fun i j => 4 * x.H i j * w.H i j) + b * S2 S fun i j => 4 * y.H i j * w.H i j := by
    unfold S2
    rw [Finset.mul_sum, Finset.mul_sum, ← Finset.sum_add_distrib]
    refine Finset.sum_congr rfl fun i _ => ?_
    rw [Finset.mul_sum, Finset.mul_sum, ← Finset.sum_add_distrib]
    refine Finset.sum_congr rfl fun j _ => ?_
    dsimp only
    split_ifs
    · rw [hH]; ring
    · ring
  unfold covForm
  rw [h1, h2]; ring

/-! ## Products of polynomials in different variables -/

theorem wt_add {s t : VId →₀ ℕ} (h : Disjoint s.support t.support) (mu : VId → ℕ → R) :
    wt mu (s + t) = wt mu s * wt mu t := by
  rw [wt, wt, wt, Finsupp.support_add_eq h, Finset.prod_union h]
  refine congrArg₂ _ (Finset.prod_congr rfl fun i hi => ?_) (Finset.prod_congr rfl fun i hi => ?_)
  · have : t i = 0 := Finsupp.notMem_support_iff.1 (Finset.disjoint_left.1 h hi)
    simp [this]
  · have : s i = 0 := Finsupp.notMem_support_iff.1 (Finset.disjoint_right.1 h hi)
    simp [this]

theorem E_mul_disjoint {p q : MvPolynomial VId R} (h : Disjoint p.vars q.vars) (mu : VId → ℕ → R) :
    E mu (p * q) = E mu p * E mu q := by
  rw [p.as_sum, q.as_sum, Finset.sum_mul_sum, map_sum, map_sum, map_sum, Finset.sum_mul_sum]
  refine Finset.sum_congr rfl fun s hs => ?_
  rw [map_sum]
  refine Finset.sum_congr rfl fun t ht => ?_
  rw [MvPolynomial.monomial_mul, E, wsum_monomial, wsum_monomial, wsum_monomial, wt_add]
  · ring
  · exact Finset.disjoint_left.2 fun i h1 h2 => Finset.disjoint_left.1 h
      ((MvPolynomial.mem_vars i).2 ⟨s, hs, h1⟩) ((MvPolynomial.mem_vars i).2 ⟨t, ht, h2⟩)

end ring
end Mom
end Unc
