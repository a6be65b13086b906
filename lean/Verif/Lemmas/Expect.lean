import Mathlib.Algebra.MvPolynomial.Supported
import Mathlib.Algebra.MvPolynomial.Monad
import Mathlib.RingTheory.MvPolynomial.Basic
import Mathlib.Data.Finset.Powerset
import Mathlib.Algebra.BigOperators.Ring.Finset
import Mathlib.Tactic.Ring

/-!
# Moment functionals on polynomials

`E mu p` is the expectation of `p` when the variables are independent with moments `mu i k`; `Eo mu T p` keeps
the monomials whose variables are exactly `T`.
-/

namespace Unc
namespace Expect
open MvPolynomial

variable {σ R : Type*} [DecidableEq σ] [CommRing R]

/-- The linear functional with value `w s` on the monomial `s`. -/
noncomputable def wsum (w : (σ →₀ ℕ) → R) : MvPolynomial σ R →ₗ[R] R := (basisMonomials σ R).constr R w

theorem wsum_monomial (w : (σ →₀ ℕ) → R) (s : σ →₀ ℕ) (a : R) : wsum w (monomial s a) = a * w s := by
  have h : monomial s a = a • (basisMonomials σ R) s := by
    rw [coe_basisMonomials, smul_monomial, smul_eq_mul, mul_one]
  rw [h, map_smul, wsum, Module.Basis.constr_basis, smul_eq_mul]

theorem wsum_apply (w : (σ →₀ ℕ) → R) (p : MvPolynomial σ R) :
    wsum w p = ∑ s ∈ p.support, coeff s p * w s := by
  conv_lhs => rw [p.as_sum]
  rw [map_sum]
  exact Finset.sum_congr rfl fun s _ => wsum_monomial w s _

/-- The moment of a monomial. -/
noncomputable def wt (mu : σ → ℕ → R) (s : σ →₀ ℕ) : R := ∏ i ∈ s.support, mu i (s i)

/-- Expectation of a polynomial in independent variables with moments `mu`. -/
noncomputable def E (mu : σ → ℕ → R) : MvPolynomial σ R →ₗ[R] R := wsum (wt mu)

/-- The part of the expectation which comes from the monomials with variables exactly `T`. -/
noncomputable def Eo (mu : σ → ℕ → R) (T : Finset σ) : MvPolynomial σ R →ₗ[R] R :=
  wsum fun s => if s.support = T then wt mu s else 0

variable (mu : σ → ℕ → R)

theorem E_eq_sum {S : Finset σ} {p : MvPolynomial σ R} (hp : p.vars ⊆ S) :
    E mu p = ∑ T ∈ S.powerset, Eo mu T p := by
  rw [E, wsum_apply]
  simp only [Eo, wsum_apply]
  rw [Finset.sum_comm]
  refine Finset.sum_congr rfl fun s hs => ?_
  rw [Finset.sum_eq_single s.support]
  · simp
  · intro T _ hT
    rw [if_neg (Ne.symm hT), mul_zero]
  · intro h
    exact absurd (Finset.mem_powerset.2 fun i hi =>
      hp ((mem_vars i).2 ⟨s, hs, hi⟩)) h

theorem Eo_eq_zero (h1 : ∀ i, mu i 1 = 0) {T : Finset σ} {p : MvPolynomial σ R} {n : ℕ}
    (hp : p.totalDegree ≤ n) (hT : n < 2 * T.card) : Eo mu T p = 0 := by
  rw [Eo, wsum_apply]
  refine Finset.sum_eq_zero fun s hs => ?_
  split_ifs with hsT
  · have hdeg : (s.sum fun _ e => e) ≤ n := (le_totalDegree hs).trans hp
    by_contra hne
    have hge : ∀ i ∈ T, 2 ≤ s i := by
      intro i hi
      have hi0 : s i ≠ 0 := Finsupp.mem_support_iff.1 (hsT ▸ hi)
      rcases Nat.lt_or_ge (s i) 2 with h | h
      · have hi1 : s i = 1 := by omega
        exfalso
        apply hne
        rw [wt, Finset.prod_eq_zero (hsT ▸ hi : i ∈ s.support), mul_zero]
        rw [hi1, h1]
      · exact h
    have : T.card * 2 ≤ ∑ i ∈ T, s i := by
      rw [← smul_eq_mul]; exact Finset.card_nsmul_le_sum _ _ _ hge
    rw [Finsupp.sum, hsT] at hdeg
    omega
  · rw [mul_zero]

/-- Set the variables outside `T` to zero. -/
noncomputable def cut (T : Finset σ) : MvPolynomial σ R →ₐ[R] MvPolynomial σ R :=
  aeval fun i => if i ∈ T then X i else 0

theorem cut_monomial (T : Finset σ) (s : σ →₀ ℕ) (a : R) :
    cut T (monomial s a) = if s.support ⊆ T then monomial s a else 0 := by
  rw [cut, aeval_monomial]
  split_ifs with h
  · rw [monomial_eq (s := s)]
    congr 1
    rw [Finsupp.prod, Finsupp.prod]
    refine Finset.prod_congr rfl fun i hi => ?_
    rw [if_pos (h hi)]
  · obtain ⟨i, hi, hiT⟩ := Finset.not_subset.1 h
    rw [Finsupp.prod, Finset.prod_eq_zero hi, mul_zero]
    rw [if_neg hiT, zero_pow (Finsupp.mem_support_iff.1 hi)]

theorem Eo_cut (T : Finset σ) (p : MvPolynomial σ R) : Eo mu T (cut T p) = Eo mu T p := by
  induction p using MvPolynomial.induction_on' with
  | monomial s a =>
    rw [cut_monomial]
    split_ifs with h
    · rfl
    · rw [map_zero, Eo, wsum_monomial, if_neg, mul_zero]
      rintro rfl
      exact h subset_rfl
  | add p q hp hq => rw [map_add, map_add, map_add, hp, hq]

/-- `p` does not contain variable `d`. -/
def Free (d : σ) (p : MvPolynomial σ R) : Prop := p ∈ supported R ({d}ᶜ : Set σ)

theorem Free.add {d : σ} {p q : MvPolynomial σ R} (hp : Free d p) (hq : Free d q) : Free d (p + q) :=
  Subalgebra.add_mem _ hp hq

theorem Free.sub {d : σ} {p q : MvPolynomial σ R} (hp : Free d p) (hq : Free d q) : Free d (p - q) :=
  Subalgebra.sub_mem _ hp hq

theorem Free.mul {d : σ} {p q : MvPolynomial σ R} (hp : Free d p) (hq : Free d q) : Free d (p * q) :=
  Subalgebra.mul_mem _ hp hq

theorem Free.pow {d : σ} {p : MvPolynomial σ R} (hp : Free d p) (n : ℕ) : Free d (p ^ n) :=
  Subalgebra.pow_mem _ hp n

theorem Free.C {d : σ} (r : R) : Free d (C r : MvPolynomial σ R) := by
  have := Subalgebra.algebraMap_mem (supported R ({d}ᶜ : Set σ)) r
  rwa [algebraMap_eq] at this

theorem Free.X {d i : σ} (h : i ≠ d) : Free d (X i : MvPolynomial σ R) :=
  Algebra.subset_adjoin ⟨i, h, rfl⟩

theorem Free.natCast {d : σ} (n : ℕ) : Free d (n : MvPolynomial σ R) :=
  Subalgebra.natCast_mem _ n

theorem Free.ofNat {d : σ} (n : ℕ) [n.AtLeastTwo] : Free d (OfNat.ofNat n : MvPolynomial σ R) := by
  rw [← Nat.cast_ofNat]; exact Free.natCast n

theorem Free.zero {d : σ} : Free d (0 : MvPolynomial σ R) := Subalgebra.zero_mem _

theorem Free.coeff {d : σ} {p : MvPolynomial σ R} (h : Free d p) {s : σ →₀ ℕ} (hs : s ∈ p.support) : s d = 0 := by
  by_contra hne
  have h' := mem_supported.1 h
  have : d ∈ (p.vars : Set σ) := (mem_vars d).2 ⟨s, hs, Finsupp.mem_support_iff.2 hne⟩
  exact h' this rfl

theorem wt_single {d : σ} {s : σ →₀ ℕ} (hs : s d = 0) {k : ℕ} (hk : k ≠ 0) :
    wt mu (s + Finsupp.single d k) = mu d k * wt mu s := by
  have hsup : (s + Finsupp.single d k).support = insert d s.support := by
    ext i
    rcases eq_or_ne i d with rfl | hi
    · simp [hk]
    · simp [hi, Finsupp.single_apply, Ne.symm hi]
  have hd : d ∉ s.support := by simpa using hs
  rw [wt, hsup, Finset.prod_insert hd, wt]
  congr 1
  · simp [hs]
  · refine Finset.prod_congr rfl fun i hi => ?_
    have : d ≠ i := fun h => hd (h ▸ hi)
    simp [Finsupp.single_apply, this]

/-- Integration of one variable. -/
theorem Eo_insert {d : σ} {T : Finset σ} (hd : d ∉ T) {p : MvPolynomial σ R} (hp : Free d p) {k : ℕ} (hk : k ≠ 0) :
    Eo mu (insert d T) (p * X d ^ k) = mu d k * Eo mu T p := by
  conv_lhs => rw [p.as_sum, Finset.sum_mul, map_sum]
  rw [Eo, Eo, wsum_apply, Finset.mul_sum]
  refine Finset.sum_congr rfl fun s hs => ?_
  have hs0 := hp.coeff hs
  rw [X_pow_eq_monomial, monomial_mul, mul_one, wsum_monomial, wt_single mu hs0 hk]
  have hsup : (s + Finsupp.single d k).support = insert d s.support := by
    ext i
    rcases eq_or_ne i d with rfl | hi
    · simp [hk]
    · simp [hi, Finsupp.single_apply, Ne.symm hi]
  have hds : d ∉ s.support := by simpa using hs0
  have : (s + Finsupp.single d k).support = insert d T ↔ s.support = T := by
    rw [hsup]
    constructor
    · intro h
      have := congrArg (fun u => Finset.erase u d) h
      simpa [hds, hd] using this
    · rintro rfl; rfl
  simp only [this]
  split_ifs <;> ring

theorem Eo_free {d : σ} {T : Finset σ} {p : MvPolynomial σ R} (hp : Free d p) : Eo mu (insert d T) p = 0 := by
  rw [Eo, wsum_apply]
  refine Finset.sum_eq_zero fun s hs => ?_
  rw [if_neg, mul_zero]
  intro h
  have : d ∈ s.support := h ▸ Finset.mem_insert_self d T
  exact Finsupp.mem_support_iff.1 this (hp.coeff hs)

theorem Eo_empty_C (r : R) : Eo mu ∅ (C r) = r := by
  rw [← monomial_zero', Eo, wsum_monomial]
  simp [wt]

theorem Eo_zero_free {p : MvPolynomial σ R} : Eo mu ∅ p = coeff 0 p := by
  rw [Eo, wsum_apply]
  have : ∀ s ∈ p.support, coeff s p * (if s.support = ∅ then wt mu s else 0) = if s = 0 then coeff 0 p else 0 := by
    intro s _
    by_cases h : s = 0
    · subst h; simp [wt]
    · rw [if_neg (by simpa using h), if_neg h, mul_zero]
  rw [Finset.sum_congr rfl this, Finset.sum_ite_eq']
  split_ifs with h
  · rfl
  · exact (notMem_support_iff.1 h).symm

end Expect
end Unc
