import Verif.Lemmas.Prob

/-! # Closed form of the second-order covariance -/

namespace Unc
namespace Mom
open SMap HessGrad Sums Expect

section
variable {R : Type*} [CommRing R] {a b : HessGrad R} {x y : UReal2 R}

/-- Moments of the variables of two values. -/
def mixMu (a b : HessGrad R) (i : VId) : ℕ → R := if i ∈ a.vars then mus a i else mus b i

theorem mixMu_0 (a b : HessGrad R) (i : VId) : mixMu a b i 0 = 1 := by unfold mixMu; split <;> rfl
theorem mixMu_1 (a b : HessGrad R) (i : VId) : mixMu a b i 1 = 0 := by unfold mixMu; split <;> rfl
theorem mixMu_2 (a b : HessGrad R) (i : VId) : mixMu a b i 2 = 1 := by unfold mixMu; split <;> rfl

/-- Covariance in terms of the coefficients. -/
def covForm (mu : VId → ℕ → R) (S : Finset VId) (a b : HessGrad R) : R :=
  (∑ i ∈ S, (a.G i * b.G i + a.H i i * b.G i * mu i 3 + a.G i * b.H i i * mu i 3
        + a.H i i * b.H i i * (mu i 4 - 1)))
      + S2 S fun i j => 4 * a.H i j * b.H i j

theorem m1_sum (ha : a.Valid) {S : Finset VId} (hS : a.vars ⊆ S) : m1 a = ∑ i ∈ S, a.H i i := by
  rw [m1_eq ha, ← Finset.sum_subset hS]
  · simp only [H_self]
  · intro i _ hi
    rw [H_out ha hi]

theorem m_one' (hv : x.hg.Valid) : x.m 1 = some (m1 x.hg) := by
  rw [m_one hv, raw1 hv]

theorem cov_mix (hx : x.hg.Valid) (hy : y.hg.Valid) (mu : VId → ℕ → R) (h1 : ∀ i, mu i 1 = 0)
    (h2 : ∀ i, mu i 2 = 1) (h3 : ∀ i ∈ x.hg.vars, i ∈ y.hg.vars → mu i 3 = (x.hg.dOf i).mom.v3
      ∧ mu i 4 = (x.hg.dOf i).mom.v4) {S : Finset VId} (hxS : x.hg.vars ⊆ S) (hyS : y.hg.vars ⊆ S) :
    x.cov y = some (covForm mu S x.hg y.hg) := by
  unfold UReal2.cov
  rw [rawc2 hx hy mu h1 h2 h3, E_product hx hy hxS hyS mu h1 h2, m_one' hx, m_one' hy, m1_sum hx hxS,
    m1_sum hy hyS]
  simp only [Option.bind_some, Option.map_some]
  congr 1
  have e : (∑ i ∈ S, x.hg.H i i) * (∑ j ∈ S, y.hg.H j j)
      = (∑ i ∈ S, x.hg.H i i * y.hg.H i i) + S2 S fun i j => x.hg.H i i * y.hg.H j j + x.hg.H j j * y.hg.H i i := by
    rw [← D2_eq (f := fun i j => x.hg.H i i * y.hg.H j j), Finset.sum_mul_sum, D2, ← Finset.sum_add_distrib]
    refine Finset.sum_congr rfl fun i hi => ?_
    rw [← Finset.add_sum_erase _ _ hi, ← Finset.add_sum_erase (a := i) S _ hi]
    simp only [ne_eq, not_true_eq_false, if_false, zero_add]
    congr 1
    refine Finset.sum_congr rfl fun j hj => ?_
    rw [if_pos fun h => (Finset.mem_erase.1 hj).1 h.symm]
  rw [e, covForm]
  have e2 : (S2 S fun i j => x.hg.H i i * y.hg.H j j + x.hg.H j j * y.hg.H i i + 4 * x.hg.H i j * y.hg.H i j)
      = (S2 S fun i j => x.hg.H i i * y.hg.H j j + x.hg.H j j * y.hg.H i i)
        + S2 S fun i j => 4 * x.hg.H i j * y.hg.H i j := by rw [S2_add]
  have e3 : ∑ i ∈ S, (x.hg.G i * y.hg.G i + x.hg.H i i * y.hg.G i * mu i 3 + x.hg.G i * y.hg.H i i * mu i 3
        + x.hg.H i i * y.hg.H i i * (mu i 4 - 1))
      = (∑ i ∈ S, (x.hg.G i * y.hg.G i + x.hg.H i i * y.hg.G i * mu i 3 + x.hg.G i * y.hg.H i i * mu i 3
        + x.hg.H i i * y.hg.H i i * mu i 4)) - ∑ i ∈ S, x.hg.H i i * y.hg.H i i := by
    rw [← Finset.sum_sub_distrib]
    exact Finset.sum_congr rfl fun i _ => by ring
  rw [e2, e3]
  ring

theorem momOf_dOf {i : VId} (h : i ∈ a.vars) : a.momOf i = some (a.dOf i).mom := by
  have hk : i ∈ keys a.diagmap := by simpa [vars] using h
  unfold momOf; rw [find_dOf hk]; rfl

theorem cov_form (hx : x.hg.Valid) (hy : y.hg.Valid) {S : Finset VId} (hxS : x.hg.vars ⊆ S) (hyS : y.hg.vars ⊆ S) :
    x.cov y = some (covForm (mixMu x.hg y.hg) S x.hg y.hg) := by
  refine cov_mix hx hy _ (mixMu_1 _ _) (mixMu_2 _ _) (fun i hi _ => ?_) hxS hyS
  simp [mixMu, hi, mus, mseq]

/-- When the two values agree on the moments it does not matter which ones are used. -/
theorem cov_form' (hx : x.hg.Valid) (hy : y.hg.Valid) (hag : AgreeMoments x.hg y.hg) {S : Finset VId}
    (hxS : x.hg.vars ⊆ S) (hyS : y.hg.vars ⊆ S) :
    x.cov y = some (covForm (mixMu y.hg x.hg) S x.hg y.hg) := by
  refine cov_mix hx hy _ (mixMu_1 _ _) (mixMu_2 _ _) (fun i hi hi' => ?_) hxS hyS
  have := hag i _ _ (momOf_dOf hi) (momOf_dOf hi')
  simp [mixMu, hi', mus, mseq, this]

theorem covForm_comm (mu : VId → ℕ → R) (S : Finset VId) (a b : HessGrad R) :
    covForm mu S a b = covForm mu S b a := by
  unfold covForm
  refine congrArg₂ _ (Finset.sum_congr rfl fun i _ => by ring) ?_
  unfold S2
  refine Finset.sum_congr rfl fun i _ => Finset.sum_congr rfl fun j _ => ?_
  split
  · ring
  · rfl

theorem cov_self (hx : x.hg.Valid) : x.cov x = x.m 2 := by
  unfold UReal2.cov
  rw [rawc2 hx hx (mus x.hg) (fun _ => rfl) (fun _ => rfl) (fun _ _ _ => ⟨rfl, rfl⟩), m_two hx, m_one hx, pow_two]
  rfl

theorem var_form (hx : x.hg.Valid) : x.m 2 = some (covForm (mus x.hg) x.hg.vars x.hg x.hg) := by
  rw [← cov_self hx]
  exact cov_mix hx hx _ (fun _ => rfl) (fun _ => rfl) (fun _ _ _ => ⟨rfl, rfl⟩) subset_rfl subset_rfl

end

section ordered
variable {R : Type*} [Field R] [LinearOrder R] [IsStrictOrderedRing R]

theorem S2_nonneg (S : Finset VId) (f : VId → VId → R) (h : ∀ i ∈ S, ∀ j ∈ S, i < j → 0 ≤ f i j) : 0 ≤ S2 S f := by
  unfold S2
  refine Finset.sum_nonneg fun i hi => Finset.sum_nonneg fun j hj => ?_
  split_ifs with hij
  · exact h i hi j hj hij
  · exact le_rfl

/-- The quadratic form of a linear combination. -/
theorem covForm_comb (mu : VId → ℕ → R) (S : Finset VId) (a b : HessGrad R)
    (hmu : ∀ i ∈ S, mu i 3 ^ 2 + 1 ≤ mu i 4 ∨ (a.G i = 0 ∧ a.H i i = 0 ∧ b.G i = 0 ∧ b.H i i = 0)) (t : R) :
    0 ≤ covForm mu S a a * (t * t) + 2 * covForm mu S a b * t + covForm mu S b b := by
  have e : covForm mu S a a * (t * t) + 2 * covForm mu S a b * t + covForm mu S b b
      = (∑ i ∈ S, ((t * a.G i + b.G i) ^ 2 + 2 * (t * a.G i + b.G i) * (t * a.H i i + b.H i i) * mu i 3
        + (t * a.H i i + b.H i i) ^ 2 * (mu i 4 - 1))) + S2 S fun i j => 4 * (t * a.H i j + b.H i j) ^ 2 := by
    have e1 : (∑ i ∈ S, ((t * a.G i + b.G i) ^ 2 + 2 * (t * a.G i + b.G i) * (t * a.H i i + b.H i i) * mu i 3
        + (t * a.H i i + b.H i i) ^ 2 * (mu i 4 - 1)))
        = (∑ i ∈ S, (a.G i * a.G i + a.H i i * a.G i * mu i 3 + a.G i * a.H i i * mu i 3
          + a.H i i * a.H i i * (mu i 4 - 1))) * (t * t)
        + 2 * (∑ i ∈ S, (a.G i * b.G i + a.H i i * b.G i * mu i 3 + a.G i * b.H i i * mu i 3
          + a.H i i * b.H i i * (mu i 4 - 1))) * t
        + ∑ i ∈ S, (b.G i * b.G i + b.H i i * b.G i * mu i 3 + b.G i * b.H i i * mu i 3
          + b.H i i * b.H i i * (mu i 4 - 1)) := by
      rw [Finset.sum_mul, Finset.mul_sum, Finset.sum_mul, ← Finset.sum_add_distrib, ← Finset.sum_add_distrib]
      exact Finset.sum_congr rfl fun i _ => by ring
    have e2 : (S2 S fun i j => 4 * (t * a.H i j + b.H i j) ^ 2)
        = (S2 S fun i j => 4 * a.H i j * a.H i j) * (t * t) + 2 * (S2 S fun i j => 4 * a.H i j * b.H i j) * t
          + S2 S fun i j => 4 * b.H i j * b.H i j := by
      unfold S2
      rw [Finset.sum_mul, Finset.mul_sum, Finset.sum_mul, ← Finset.sum_add_distrib, ← Finset.sum_add_distrib]
      refine Finset.sum_congr rfl fun i _ => ?_
      rw [Finset.sum_mul, Finset.mul_sum, Finset.sum_mul, ← Finset.sum_add_distrib, ← Finset.sum_add_distrib]
      refine Finset.sum_congr rfl fun j _ => ?_
      split <;> ring
    unfold covForm
    linear_combination - e1 - e2
  rw [e]
  refine add_nonneg (Finset.sum_nonneg fun i hi => ?_) (S2_nonneg _ _ fun i _ j _ _ => by positivity)
  rcases hmu i hi with h | ⟨h1, h2, h3, h4⟩
  · nlinarith [sq_nonneg ((t * a.G i + b.G i) + (t * a.H i i + b.H i i) * mu i 3),
      mul_nonneg (sq_nonneg (t * a.H i i + b.H i i)) (sub_nonneg.2 h)]
  · rw [h1, h2, h3, h4]; simp

theorem covForm_sq_le (mu : VId → ℕ → R) (S : Finset VId) (a b : HessGrad R)
    (hmu : ∀ i ∈ S, mu i 3 ^ 2 + 1 ≤ mu i 4 ∨ (a.G i = 0 ∧ a.H i i = 0 ∧ b.G i = 0 ∧ b.H i i = 0)) :
    0 ≤ covForm mu S a a ∧ 0 ≤ covForm mu S b b ∧ covForm mu S a b ^ 2 ≤ covForm mu S a a * covForm mu S b b := by
  have h := discrim_le_zero (covForm_comb mu S a b hmu)
  unfold discrim at h
  have h' : ∀ i ∈ S, mu i 3 ^ 2 + 1 ≤ mu i 4 ∨ (b.G i = 0 ∧ b.H i i = 0 ∧ a.G i = 0 ∧ a.H i i = 0) :=
    fun i hi => (hmu i hi).imp_right fun ⟨p, q, r, s⟩ => ⟨r, s, p, q⟩
  have h0 := covForm_comb mu S b a h' 0
  have h1 := covForm_comb mu S a b hmu 0
  simp only [mul_zero, zero_add] at h0 h1
  exact ⟨h0, h1, by nlinarith⟩

/-- The matrix of covariances is positive semidefinite. -/
theorem covForm_psd {ι : Type*} (T : Finset ι) (mu : VId → ℕ → R) (S : Finset VId) (x : ι → HessGrad R) (c : ι → R)
    (hmu : ∀ i ∈ S, mu i 3 ^ 2 + 1 ≤ mu i 4 ∨ ∀ k ∈ T, (x k).G i = 0 ∧ (x k).H i i = 0) :
    0 ≤ ∑ k ∈ T, ∑ l ∈ T, c k * c l * covForm mu S (x k) (x l) := by
  have e1 : ∀ i, ∑ k ∈ T, ∑ l ∈ T, c k * c l * ((x k).G i * (x l).G i + (x k).H i i * (x l).G i * mu i 3
        + (x k).G i * (x l).H i i * mu i 3 + (x k).H i i * (x l).H i i * (mu i 4 - 1))
      = (∑ k ∈ T, c k * (x k).G i) ^ 2 + 2 * (∑ k ∈ T, c k * (x k).G i) * (∑ k ∈ T, c k * (x k).H i i) * mu i 3
        + (∑ k ∈ T, c k * (x k).H i i) ^ 2 * (mu i 4 - 1) := by
    intro i
    have a1 : (∑ k ∈ T, c k * (x k).G i) ^ 2 + 2 * (∑ k ∈ T, c k * (x k).G i) * (∑ k ∈ T, c k * (x k).H i i) * mu i 3
        + (∑ k ∈ T, c k * (x k).H i i) ^ 2 * (mu i 4 - 1)
        = (∑ k ∈ T, c k * (x k).G i) * (∑ k ∈ T, c k * (x k).G i)
        + (∑ k ∈ T, c k * (x k).H i i) * (∑ k ∈ T, c k * (x k).G i) * mu i 3
        + (∑ k ∈ T, c k * (x k).G i) * (∑ k ∈ T, c k * (x k).H i i) * mu i 3
        + (∑ k ∈ T, c k * (x k).H i i) * (∑ k ∈ T, c k * (x k).H i i) * (mu i 4 - 1) := by ring
    rw [a1, Finset.sum_mul_sum, Finset.sum_mul_sum, Finset.sum_mul_sum, Finset.sum_mul_sum]
    simp only [Finset.sum_mul]
    simp only [← Finset.sum_add_distrib]
    exact Finset.sum_congr rfl fun k _ => Finset.sum_congr rfl fun l _ => by ring
  have e2 : ∀ i j, ∑ k ∈ T, ∑ l ∈ T, c k * c l * (4 * (x k).H i j * (x l).H i j) = 4 * (∑ k ∈ T, c k * (x k).H i j) ^ 2 := by
    intro i j
    rw [pow_two, Finset.sum_mul_sum]
    simp only [Finset.mul_sum]
    exact Finset.sum_congr rfl fun k _ => Finset.sum_congr rfl fun l _ => by ring
  have e : ∑ k ∈ T, ∑ l ∈ T, c k * c l * covForm mu S (x k) (x l)
      = (∑ i ∈ S, ((∑ k ∈ T, c k * (x k).G i) ^ 2 + 2 * (∑ k ∈ T, c k * (x k).G i) * (∑ k ∈ T, c k * (x k).H i i) * mu i 3
        + (∑ k ∈ T, c k * (x k).H i i) ^ 2 * (mu i 4 - 1))) + S2 S fun i j => 4 * (∑ k ∈ T, c k * (x k).H i j) ^ 2 := by
    simp only [← e1, ← e2]
    unfold covForm S2
    simp only [mul_add, Finset.sum_add_distrib, Finset.mul_sum]
    refine congrArg₂ (· + ·) ?_ ?_
    · simp only [← Finset.sum_add_distrib]
      simp only [Finset.sum_comm (s := S) (t := T)]
    · have sw : ∀ f : ι → ι → VId → R, ∑ k ∈ T, ∑ l ∈ T, ∑ i ∈ S, f k l i = ∑ i ∈ S, ∑ k ∈ T, ∑ l ∈ T, f k l i := by
        intro f
        exact (Finset.sum_congr rfl fun k _ => Finset.sum_comm).trans Finset.sum_comm
      rw [sw]
      refine Finset.sum_congr rfl fun i _ => ?_
      rw [sw]
      refine Finset.sum_congr rfl fun j _ => ?_
      split_ifs <;> simp
  rw [e]
  refine add_nonneg (Finset.sum_nonneg fun i hi => ?_) (S2_nonneg _ _ fun i _ j _ _ => by positivity)
  rcases hmu i hi with h | h
  · nlinarith [sq_nonneg ((∑ k ∈ T, c k * (x k).G i) + (∑ k ∈ T, c k * (x k).H i i) * mu i 3),
      mul_nonneg (sq_nonneg (∑ k ∈ T, c k * (x k).H i i)) (sub_nonneg.2 h)]
  · rw [Finset.sum_eq_zero fun k hk => by rw [(h k hk).1, mul_zero], Finset.sum_eq_zero fun k hk => by rw [(h k hk).2, mul_zero]]
    simp

end ordered

end Mom
end Unc
