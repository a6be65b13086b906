import Verif.Spec.Repro
import Verif.Props.Algebra2
import Verif.Props.Distr
import Verif.Props.Law2
import Mathlib.Probability.Distributions.Gaussian.HasGaussianLaw.Independence

/-!
# C71: sums of independent values, and the distributions which reproduce (test/distr.cpp)
-/

namespace Unc.Props
open Unc Unc.Spec SMap HessGrad Mom Expect Dist MeasureTheory ProbabilityTheory

/-! ## cumulants add up -/

section cum
variable {ι : Type*} {mu : VId → ℕ → ℝ}

theorem E_cum_sum (s : Finset ι) (p : ι → MvPolynomial VId ℝ) (S : ι → Finset VId) (hp : ∀ k, p k ∈ MvPolynomial.supported ℝ (S k : Set VId))
    (hd : ∀ k l, k ≠ l → Disjoint (S k) (S l)) (h0 : ∀ k, E mu (p k) = 0) :
    E mu (∑ k ∈ s, p k) = 0 ∧ E mu ((∑ k ∈ s, p k) ^ 2) = ∑ k ∈ s, E mu (p k ^ 2) ∧ E mu ((∑ k ∈ s, p k) ^ 3) = ∑ k ∈ s, E mu (p k ^ 3) ∧
      E mu ((∑ k ∈ s, p k) ^ 4) = (∑ k ∈ s, (E mu (p k ^ 4) - 3 * E mu (p k ^ 2) ^ 2)) + 3 * (∑ k ∈ s, E mu (p k ^ 2)) ^ 2 := by
  classical
  induction s using Finset.induction_on with
  | empty => simp
  | insert k s hk ih =>
    obtain ⟨i1, i2, i3, i4⟩ := ih
    have hq : ∑ l ∈ s, p l ∈ MvPolynomial.supported ℝ ((s.biUnion S : Finset VId) : Set VId) :=
      Subalgebra.sum_mem _ fun l hl => MvPolynomial.supported_mono (by
        intro i hi; simp only [Finset.coe_biUnion, Set.mem_iUnion]; exact ⟨l, hl, hi⟩) (hp l)
    have hdis : Disjoint (S k) (s.biUnion S) := by
      rw [Finset.disjoint_biUnion_right]
      exact fun l hl => hd k l fun e => hk (e ▸ hl)
    simp only [Finset.sum_insert hk]
    set a := p k with ha
    set b := ∑ l ∈ s, p l with hb
    have ind : ∀ m n, E mu (a ^ m * b ^ n) = E mu (a ^ m) * E mu (b ^ n) := fun m n =>
      E_mul_disjoint (Finset.disjoint_of_subset_left (vars_sub_of (Subalgebra.pow_mem _ (hp k) m))
        (Finset.disjoint_of_subset_right (vars_sub_of (Subalgebra.pow_mem _ hq n)) hdis)) mu
    have a0 : E mu (a ^ 1) = 0 := by rw [pow_one]; exact h0 k
    have b0 : E mu (b ^ 1) = 0 := by rw [pow_one]; exact i1
    have w2 : E mu ((a + b) ^ 2) = E mu (a ^ 2) + E mu (b ^ 2) := by
      have : (a + b) ^ 2 = a ^ 2 + MvPolynomial.C 2 * (a ^ 1 * b ^ 1) + b ^ 2 := by simp only [map_ofNat]; ring
      rw [this, map_add, map_add, E_C_mul, ind, a0]; ring
    have w3 : E mu ((a + b) ^ 3) = E mu (a ^ 3) + E mu (b ^ 3) := by
      have : (a + b) ^ 3 = a ^ 3 + MvPolynomial.C 3 * (a ^ 2 * b ^ 1) + MvPolynomial.C 3 * (a ^ 1 * b ^ 2) + b ^ 3 := by
        simp only [map_ofNat]; ring
      rw [this, map_add, map_add, map_add, E_C_mul, E_C_mul, ind, ind, a0, b0]; ring
    have w4 : E mu ((a + b) ^ 4) = E mu (a ^ 4) + E mu (b ^ 4) + 6 * E mu (a ^ 2) * E mu (b ^ 2) := by
      have : (a + b) ^ 4 = a ^ 4 + MvPolynomial.C 4 * (a ^ 3 * b ^ 1) + MvPolynomial.C 6 * (a ^ 2 * b ^ 2)
          + MvPolynomial.C 4 * (a ^ 1 * b ^ 3) + b ^ 4 := by
        simp only [map_ofNat]; ring
      rw [this, map_add, map_add, map_add, map_add, E_C_mul, E_C_mul, E_C_mul, ind, ind, ind, a0, b0]; ring
    refine ⟨by rw [map_add, i1, add_zero]; exact h0 k, by rw [w2, i2], by rw [w3, i3], ?_⟩
    rw [w4, i4, i2]; ring

theorem poly_sum (s : Finset ι) {x : ι → HessGrad ℝ} {z : HessGrad ℝ} (hx : ∀ k, (x k).Valid) (hz : z.Valid)
    (hG : ∀ i, z.G i = ∑ k ∈ s, (x k).G i) (hH : ∀ i j, z.H i j = ∑ k ∈ s, (x k).H i j) : Mom.poly z = ∑ k ∈ s, Mom.poly (x k) := by
  classical
  have s1 : ∀ k ∈ s, (x k).vars ⊆ s.biUnion (fun k => (x k).vars) ∪ z.vars := fun k hk =>
    (Finset.subset_biUnion_of_mem (fun k => (x k).vars) hk).trans Finset.subset_union_left
  rw [poly_eq hz Finset.subset_union_right (S := s.biUnion (fun k => (x k).vars) ∪ z.vars), Finset.sum_congr rfl fun k hk => poly_eq (hx k) (s1 k hk)]
  generalize s.biUnion (fun k => (x k).vars) ∪ z.vars = T
  unfold Q
  rw [Finset.sum_add_distrib]
  congr 1
  · rw [Finset.sum_comm]
    exact Finset.sum_congr rfl fun i _ => by rw [hG, map_sum, Finset.sum_mul]
  · rw [@Finset.sum_comm _ _ _ _ s T]
    refine Finset.sum_congr rfl fun i _ => ?_
    rw [@Finset.sum_comm _ _ _ _ s T]
    exact Finset.sum_congr rfl fun j _ => by rw [hH, map_sum, Finset.sum_mul, Finset.sum_mul]

theorem parts_sum (s : Finset ι) (f : ι → DualNumber (DualNumber ℝ)) : (∑ k ∈ s, f k).fst.fst = ∑ k ∈ s, (f k).fst.fst ∧
    (∑ k ∈ s, f k).fst.snd = ∑ k ∈ s, (f k).fst.snd ∧ (∑ k ∈ s, f k).snd.fst = ∑ k ∈ s, (f k).snd.fst ∧
    (∑ k ∈ s, f k).snd.snd = ∑ k ∈ s, (f k).snd.snd := by
  classical
  induction s using Finset.induction_on with
  | empty => simp
  | insert k s hk ih => simp [Finset.sum_insert hk, ih.1, ih.2.1, ih.2.2.1, ih.2.2.2]

theorem parts_alg (c : ℝ) : (algebraMap ℝ (DualNumber (DualNumber ℝ)) c).fst.fst = c ∧ (algebraMap ℝ (DualNumber (DualNumber ℝ)) c).fst.snd = 0 ∧
    (algebraMap ℝ (DualNumber (DualNumber ℝ)) c).snd.fst = 0 ∧ (algebraMap ℝ (DualNumber (DualNumber ℝ)) c).snd.snd = 0 := by
  rw [← jet_const 0 0 c]
  simp [jet_parts, UReal2.const, HessGrad.G, HessGrad.empty, SMap.find?, D2, HessGrad.H]

theorem parts_mul (p q : DualNumber (DualNumber ℝ)) : (p * q).fst.fst = p.fst.fst * q.fst.fst ∧
    (p * q).fst.snd = p.fst.fst * q.fst.snd + p.fst.snd * q.fst.fst ∧ (p * q).snd.fst = p.fst.fst * q.snd.fst + p.snd.fst * q.fst.fst ∧
    (p * q).snd.snd = p.fst.fst * q.snd.snd + p.fst.snd * q.snd.fst + p.snd.fst * q.fst.snd + p.snd.snd * q.fst.fst := by
  refine ⟨?_, ?_, ?_, ?_⟩ <;> simp <;> ring

end cum

variable {n : ℕ}

theorem operands_of (v : Fin n → UReal2 ℝ) (k : Fin n) : operands v k = v k := by
  simp [operands, List.getD_eq_getElem?_getD]

theorem operands_fine {tab : VId → Moments ℝ} {v : Fin n → UReal2 ℝ} (hv : ∀ k, Fine tab (v k)) (k : ℕ) : Fine tab (operands v k) := by
  by_cases hk : k < n
  · rw [show operands v k = v ⟨k, hk⟩ from operands_of v ⟨k, hk⟩]; exact hv _
  · have : operands v k = UReal2.const 0 := by simp [operands, List.getD_eq_getElem?_getD, hk]
    rw [this]; exact Fine.const _ _

/-- **C71** Sums of any number of values without common variables, however they are written: means add up, central moments 2 and 3 add up, and so do the
fourth cumulants `m(4) - 3 m(2)^2`. -/
theorem C71_cumulants {tab : VId → Moments ℝ} {v : Fin n → UReal2 ℝ} (hv : ∀ k, Ok2 (v k)) (hm : ∀ k i m, (v k).hg.momOf i = some m → m = tab i)
    (hd : ∀ k l, k ≠ l → Disjoint (v k).hg.vars (v l).hg.vars) {e : RExpr} (he : e.poly = ∑ k : Fin n, MvPolynomial.X (k : ℕ)) (u : Moments ℝ)
    {k1 k2 k3 k4 : Fin n → ℝ} (h1 : ∀ k, (v k).n .mean = some (k1 k)) (h2 : ∀ k, (v k).m 2 = some (k2 k)) (h3 : ∀ k, (v k).m 3 = some (k3 k))
    (h4 : ∀ k, (v k).m 4 = some (k4 k + 3 * k2 k ^ 2)) :
    ∃ z, e.eval2 u (operands v) = some z ∧ z.n .mean = some (∑ k, k1 k) ∧ z.m 2 = some (∑ k, k2 k) ∧ z.m 3 = some (∑ k, k3 k) ∧
      z.m 4 = some (∑ k, k4 k + 3 * (∑ k, k2 k) ^ 2) := by
  have hf : ∀ k, Fine tab (v k) := fun k => ⟨hv k, hm k⟩
  obtain ⟨z, ez, fz, jz⟩ := eval2_jet tab u (operands v) (operands_fine hf) e
  have jz' : ∀ i j, jet i j z = ∑ k, jet i j (v k) := fun i j => by
    rw [jz, he, map_sum]
    exact Finset.sum_congr rfl fun k _ => by rw [MvPolynomial.aeval_X, operands_of]
  have key : ∀ i j, z.mu = ∑ k, (v k).mu ∧ z.hg.G i = ∑ k, (v k).hg.G i ∧ D2 z i j = ∑ k, D2 (v k) i j := fun i j => by
    obtain ⟨q1, q2, -, q4⟩ := jet_eq.1 (jz' i j)
    obtain ⟨p1, p2, -, p4⟩ := parts_sum Finset.univ fun k => jet i j (v k)
    have jp := fun k => jet_parts i j (v k)
    simp only [(jp _).1] at p1
    simp only [(jp _).2.1] at p2
    simp only [(jp _).2.2.2] at p4
    exact ⟨q1.trans p1, q2.trans p2, q4.trans p4⟩
  have hp := poly_sum Finset.univ (fun k => (hv k).valid) fz.ok.valid (fun i => (key i i).2.1) fun i j => by
    have := (key i j).2.2
    simp only [D2, ← Finset.mul_sum] at this
    linarith
  obtain ⟨z1, z2, z3, z4⟩ := m_table fz.ok.valid fz.mus
  have ck := fun k => m_table (hf k).ok.valid (hf k).mus
  obtain ⟨-, c2, c3, c4⟩ := E_cum_sum (mu := tabMu tab) Finset.univ (fun k => Mom.poly (v k).hg - MvPolynomial.C (E (tabMu tab) (Mom.poly (v k).hg)))
    (fun k => (v k).hg.vars) (fun k => Subalgebra.sub_mem _ (poly_vars _) (Subalgebra.algebraMap_mem _ _)) hd fun k => by rw [map_sub, E_C, sub_self]
  have e0 : Mom.poly z.hg - MvPolynomial.C (E (tabMu tab) (Mom.poly z.hg))
      = ∑ k, (Mom.poly (v k).hg - MvPolynomial.C (E (tabMu tab) (Mom.poly (v k).hg))) := by
    rw [hp, map_sum, map_sum, ← Finset.sum_sub_distrib]
  rw [e0, c2] at z2
  rw [e0, c3] at z3
  rw [e0, c4] at z4
  have e2 : ∀ k, E (tabMu tab) ((Mom.poly (v k).hg - MvPolynomial.C (E (tabMu tab) (Mom.poly (v k).hg))) ^ 2) = k2 k := fun k =>
    Option.some_inj.1 ((ck k).2.1.symm.trans (h2 k))
  have e3 : ∀ k, E (tabMu tab) ((Mom.poly (v k).hg - MvPolynomial.C (E (tabMu tab) (Mom.poly (v k).hg))) ^ 3) = k3 k := fun k =>
    Option.some_inj.1 ((ck k).2.2.1.symm.trans (h3 k))
  have e4 : ∀ k, E (tabMu tab) ((Mom.poly (v k).hg - MvPolynomial.C (E (tabMu tab) (Mom.poly (v k).hg))) ^ 4) = k4 k + 3 * k2 k ^ 2 := fun k =>
    Option.some_inj.1 ((ck k).2.2.2.symm.trans (h4 k))
  refine ⟨z, ez, ?_, by rw [z2]; simp only [e2], by rw [z3]; simp only [e3], ?_⟩
  · rw [UReal2.n, z1, hp, map_sum, (key 0 0).1]
    simp only [Option.map_some, Option.some.injEq]
    rw [← Finset.sum_add_distrib]
    refine Finset.sum_congr rfl fun k _ => ?_
    have := h1 k
    rw [UReal2.n, (ck k).1] at this
    simpa using this
  · rw [z4]; simp only [e2, e4, add_sub_cancel_right]

/-! ## quadratic polynomials -/

theorem eval2_table (T : VId → Moments ℝ → Prop) {u : Moments ℝ} {v : ℕ → UReal2 ℝ} (hv : ∀ i, FineP T (v i)) (e : RExpr) :
    ∀ z, e.eval2 u v = some z → FineP T z := by
  induction e with
  | var i => rintro z ⟨⟩; exact hv i
  | const c => rintro z ⟨⟩; exact .const T c
  | neg e ih =>
    intro z hz
    obtain ⟨x, ex, hz⟩ := Option.bind_eq_some_iff.1 hz
    exact (ih x ex).unary hz
  | add e f ih ih' =>
    intro z hz
    obtain ⟨x, ex, hz⟩ := Option.bind_eq_some_iff.1 hz
    obtain ⟨y, ey, hz⟩ := Option.bind_eq_some_iff.1 hz
    exact (ih x ex).binary (ih' y ey) hz
  | sub e f ih ih' =>
    intro z hz
    obtain ⟨x, ex, hz⟩ := Option.bind_eq_some_iff.1 hz
    obtain ⟨y, ey, hz⟩ := Option.bind_eq_some_iff.1 hz
    exact (ih x ex).binary (ih' y ey) hz
  | mul e f ih ih' =>
    intro z hz
    obtain ⟨x, ex, hz⟩ := Option.bind_eq_some_iff.1 hz
    obtain ⟨y, ey, hz⟩ := Option.bind_eq_some_iff.1 hz
    exact (ih x ex).binary (ih' y ey) hz

theorem mom_elem2 {i j : VId} {mu s : ℝ} {m m' : Moments ℝ} (h : (elem2 i mu s m).hg.momOf j = some m') : i = j ∧ m' = m := by
  simp only [momOf, elem2, find?] at h
  split_ifs at h with hi
  · simp at h; exact ⟨hi, h.symm⟩
  · simp at h

variable {ids : Fin n → VId} {mu s : Fin n → ℝ} {mom : Fin n → Moments ℝ}

theorem elems_fineP (hlt : ∀ i, ids i < maxId) (k : ℕ) :
    FineP (fun i m => ∃ j, ids j = i ∧ m = mom j) (operands (fun k => elem2 (ids k) (mu k) (s k) (mom k)) k) := by
  by_cases hk : k < n
  · rw [show operands (fun k => elem2 (ids k) (mu k) (s k) (mom k)) k = _ from operands_of _ ⟨k, hk⟩]
    exact ⟨ok_elem2 (hlt _) _ _ _, fun i m h => ⟨_, mom_elem2 h⟩⟩
  · have : operands (fun k => elem2 (ids k) (mu k) (s k) (mom k)) k = UReal2.const 0 := by simp [operands, List.getD_eq_getElem?_getD, hk]
    rw [this]; exact FineP.const _ _

theorem exists_tab (hinj : Function.Injective ids) (mom : Fin n → Moments ℝ) : ∃ tab : VId → Moments ℝ, ∀ k, tab (ids k) = mom k :=
  ⟨fun i => if h : ∃ k, ids k = i then mom h.choose else ⟨0, 0, 0, 0, 0, 0⟩, fun k => by
    have h : ∃ k', ids k' = ids k := ⟨k, rfl⟩
    exact (dif_pos h).trans (by rw [hinj h.choose_spec])⟩

/-- a quadratic polynomial as an expression in the operands -/
noncomputable def quadPoly (c : ℝ) (b : Fin n → ℝ) (a : Fin n → Fin n → ℝ) : MvPolynomial ℕ ℝ :=
  MvPolynomial.C c + ∑ k : Fin n, MvPolynomial.C (b k) * MvPolynomial.X (k : ℕ)
    + ∑ k : Fin n, ∑ l : Fin n, MvPolynomial.C (a k l) * MvPolynomial.X (k : ℕ) * MvPolynomial.X (l : ℕ)

theorem quad_eval (hinj : Function.Injective ids) (hlt : ∀ i, ids i < maxId) {c : ℝ} {b : Fin n → ℝ} {a : Fin n → Fin n → ℝ} {e : RExpr}
    (he : e.poly = quadPoly c b a) (u : Moments ℝ) :
    ∃ z, e.eval2 u (operands fun k => elem2 (ids k) (mu k) (s k) (mom k)) = some z ∧ FineP (fun i m => ∃ j, ids j = i ∧ m = mom j) z ∧
      (∀ x, expn ids z x = quadr c b a fun k => mu k + s k * x k) ∧ ∀ m q, z.hg.G (ids m) = (b m + ∑ j, (a m j + a j m) * mu j) * s m ∧
      D2 z (ids m) (ids q) = (a m q + a q m) * s m * s q := by
  obtain ⟨tab, ht⟩ := exists_tab hinj mom
  have hf : ∀ k, Fine tab (operands (fun k => elem2 (ids k) (mu k) (s k) (mom k)) k) :=
    operands_fine fun k => ⟨ok_elem2 (hlt k) _ _ _, fun i m h => by obtain ⟨rfl, rfl⟩ := mom_elem2 h; exact (ht k).symm⟩
  obtain ⟨z, ez, fz, jz⟩ := eval2_jet tab u _ hf e
  have J : ∀ i j, jet i j z = algebraMap ℝ _ c + ∑ k, algebraMap ℝ _ (b k) * jet i j (elem2 (ids k) (mu k) (s k) (mom k))
      + ∑ k, ∑ l, algebraMap ℝ _ (a k l) * jet i j (elem2 (ids k) (mu k) (s k) (mom k)) * jet i j (elem2 (ids l) (mu l) (s l) (mom l)) := fun i j => by
    rw [jz, he, quadPoly]
    simp only [map_add, map_sum, map_mul, MvPolynomial.aeval_C, MvPolynomial.aeval_X, operands_of]
  have gk : ∀ k m, (elem2 (ids k) (mu k) (s k) (mom k)).hg.G (ids m) = if k = m then s k else 0 := fun k m => by
    rw [G_elem2]; simp [hinj.eq_iff]
  have dk : ∀ k i j, D2 (elem2 (ids k) (mu k) (s k) (mom k)) i j = 0 := fun k i j => by simp [D2, H_elem2]
  have gm : ∀ k, (elem2 (ids k) (mu k) (s k) (mom k)).mu = mu k := fun k => rfl
  have kmu : z.mu = quadr c b a mu := by
    obtain ⟨q1, -⟩ := jet_eq.1 (J 0 0)
    have jp := fun k => jet_parts 0 0 (elem2 (ids k) (mu k) (s k) (mom k))
    simpa only [TrivSqZeroExt.fst_add, (parts_sum _ _).1, (parts_mul _ _).1, (parts_alg _).1, (jp _).1, gm, quadr] using q1
  have key : ∀ m q, z.hg.G (ids m) = (b m + ∑ j, (a m j + a j m) * mu j) * s m ∧
      D2 z (ids m) (ids q) = (a m q + a q m) * s m * s q := fun m q => by
    obtain ⟨-, q2, -, q4⟩ := jet_eq.1 (J (ids m) (ids q))
    have jp := fun k => jet_parts (ids m) (ids q) (elem2 (ids k) (mu k) (s k) (mom k))
    simp only [TrivSqZeroExt.fst_add, TrivSqZeroExt.snd_add, (parts_sum _ _).1, (parts_sum _ _).2.1, (parts_sum _ _).2.2.2, (parts_mul _ _).1,
      (parts_mul _ _).2.1, (parts_mul _ _).2.2.1, (parts_mul _ _).2.2.2, (parts_alg _).1, (parts_alg _).2.1, (parts_alg _).2.2.1, (parts_alg _).2.2.2,
      (jp _).1, (jp _).2.1, (jp _).2.2.1, (jp _).2.2.2, gk, dk, gm] at q2 q4
    refine ⟨q2.trans ?_, q4.trans ?_⟩
    · have hi : ∀ k, (∑ l, if k = m then a k l * s k * mu l else 0) = if k = m then ∑ l, a k l * s k * mu l else 0 := fun k => by
        split_ifs <;> simp
      simp only [zero_mul, zero_add, mul_zero, add_zero, mul_ite, ite_mul, Finset.sum_add_distrib, hi, Finset.sum_ite_eq', Finset.mem_univ, if_true]
      rw [add_mul, Finset.sum_mul, add_comm (∑ k, a k m * mu k * s m), ← Finset.sum_add_distrib]
      exact congrArg _ (Finset.sum_congr rfl fun j _ => by ring)
    · simp only [zero_mul, mul_zero, zero_add, add_zero, mul_ite, ite_mul, Finset.sum_add_distrib, Finset.sum_ite_eq', Finset.mem_univ, if_true,
        Finset.sum_const_zero, ite_self]
      ring
  refine ⟨z, ez, eval2_table _ (elems_fineP hlt) e z ez, fun x => ?_, key⟩
  have hq : quadr c b a (fun k => mu k + s k * x k) = quadr (quadr c b a mu) (fun i => (b i + ∑ j, (a i j + a j i) * mu j) * s i)
      (fun i j => a i j * s i * s j) x := by
    rw [quad_shift (F := quadr c b a) (fun _ => rfl) mu fun i => s i * x i]
    unfold quadr
    refine congrArg₂ _ (congrArg₂ _ rfl (Finset.sum_congr rfl fun i _ => by ring)) ?_
    exact Finset.sum_congr rfl fun i _ => Finset.sum_congr rfl fun j _ => by ring
  have hh : ∑ i, ∑ j, a j i * s j * s i * x j * x i = ∑ i, ∑ j, a i j * s i * s j * x i * x j := by rw [Finset.sum_comm]
  rw [hq, expn, kmu]
  simp only [quadr]
  congr 1
  · exact congrArg _ (Finset.sum_congr rfl fun i _ => by rw [(key i i).1])
  · have h1 : ∀ i j, z.hg.H (ids i) (ids j) * x i * x j = (a i j * s i * s j * x i * x j + a j i * s j * s i * x j * x i) / 2 := fun i j => by
      have := (key i j).2
      rw [D2] at this
      linear_combination x i * x j / 2 * this
    simp only [h1]
    rw [← Finset.sum_congr rfl fun i _ => Finset.sum_div _ _ _, ← Finset.sum_div]
    simp only [Finset.sum_add_distrib]
    rw [hh]
    ring

variable {Ω : Type*} [MeasurableSpace Ω] {P : Measure Ω} {X : Fin n → Ω → ℝ}

/-- **C71** Polynomials of degree 2 of independent variables, however they are written: the library reports the moments and the covariances of the random
variables. -/
theorem C71_quadratic (hinj : Function.Injective ids) (hlt : ∀ i, ids i < maxId) (hX : Errors8 P X mom) {c c' : ℝ} {b b' : Fin n → ℝ}
    {a a' : Fin n → Fin n → ℝ} {e e' : RExpr} (he : e.poly = quadPoly c b a) (he' : e'.poly = quadPoly c' b' a') (u : Moments ℝ) :
    ∃ z z', e.eval2 u (operands fun k => elem2 (ids k) (mu k) (s k) (mom k)) = some z ∧
      e'.eval2 u (operands fun k => elem2 (ids k) (mu k) (s k) (mom k)) = some z' ∧
      Reports P z (fun ω => quadr c b a fun k => mu k + s k * X k ω) ∧ Reports P z' (fun ω => quadr c' b' a' fun k => mu k + s k * X k ω) ∧
      z.cov z' = some (covar P (fun ω => quadr c b a fun k => mu k + s k * X k ω) fun ω => quadr c' b' a' fun k => mu k + s k * X k ω) := by
  obtain ⟨z, ez, fz, hz, -⟩ := quad_eval (mu := mu) (s := s) (mom := mom) hinj hlt he u
  obtain ⟨z', ez', fz', hz', -⟩ := quad_eval (mu := mu) (s := s) (mom := mom) hinj hlt he' u
  have h1 := value_moments hinj hX fz
  have h2 := value_moments hinj hX fz'
  have h3 := value_cov hinj hX fz fz'
  simp only [hz, hz'] at h1 h2 h3
  exact ⟨z, z', ez, ez', h1, h2, h3⟩

/-! ## normal variables -/

/-- standard normal errors -/
theorem errors_normal (n : ℕ) : Errors8 (Measure.pi fun _ : Fin n => gaussianReal 0 1) (fun i ω => ω i) fun _ => ⟨0, 3, 0, 15, 0, 105⟩ := by
  have hm : ∀ i k, ∫ ω : Fin n → ℝ, ω i ^ k ∂(Measure.pi fun _ => gaussianReal 0 1) = ∫ x, x ^ k ∂gaussianReal 0 1 := fun i k => by
    conv_rhs => rw [← (measurePreserving_eval (fun _ : Fin n => gaussianReal 0 1) i).map_eq]
    rw [integral_map (measurable_pi_apply i).aemeasurable (by fun_prop)]
  have g2 : ∫ x, x ^ 2 ∂gaussianReal 0 1 = 1 := by rw [gauss_succ 0, gauss_zero]; norm_num
  have g4 : ∫ x, x ^ 4 ∂gaussianReal 0 1 = 3 := by rw [gauss_succ 2, g2]; norm_num
  have g6 : ∫ x, x ^ 6 ∂gaussianReal 0 1 = 15 := by rw [gauss_succ 4, g4]; norm_num
  have g8 : ∫ x, x ^ 8 ∂gaussianReal 0 1 = 105 := by rw [gauss_succ 6, g6]; norm_num
  have g3 : ∫ x, x ^ 3 ∂gaussianReal 0 1 = 0 := by rw [gauss_succ 1, gauss_one, mul_zero]
  have g5 : ∫ x, x ^ 5 ∂gaussianReal 0 1 = 0 := by rw [gauss_succ 3, g3, mul_zero]
  have g7 : ∫ x, x ^ 7 ∂gaussianReal 0 1 = 0 := by rw [gauss_succ 5, g5, mul_zero]
  refine ⟨inferInstance, iIndepFun_pi fun i => measurable_id.aemeasurable, fun i => (measurable_pi_apply i).aemeasurable, fun i k _ => ?_, fun i => ?_,
    fun i => (hm i 2).trans g2, fun i => (hm i 3).trans g3, fun i => (hm i 4).trans g4, fun i => (hm i 5).trans g5, fun i => (hm i 6).trans g6,
    fun i => (hm i 7).trans g7, fun i => (hm i 8).trans g8⟩
  · exact (measurePreserving_eval (fun _ : Fin n => gaussianReal 0 1) i).integrable_comp_of_integrable (gauss_int k)
  · simpa using (hm i 1).trans gauss_one

theorem elem_of_mkStd {solve : (ℕ → ℕ → ℝ) → Option (List ℝ)} {junk : ℕ → ℕ → ℝ} {u : Moments ℝ} {id : VId} {m sd t : ℝ} {v : ℕ → ℝ} {x : UReal2 ℝ}
    (hx : UReal2.mkStd solve junk u id m sd v t = some (.ok x)) : x = elem2 id m sd ⟨v 0, v 1, v 2, v 3, v 4, v 5⟩ := by
  unfold UReal2.mkStd at hx
  split at hx
  · simp at hx
  cases hc : Check.ctorCheck solve junk 0 v t with
  | none => simp [hc] at hx
  | some r => cases r with
    | error e => simp [hc, Except.map] at hx
    | ok _ => simp [hc, Except.map, buildStd_eq] at hx; exact hx.symm

theorem elem_of_normal {solve : (ℕ → ℕ → ℝ) → Option (List ℝ)} {junk : ℕ → ℕ → ℝ} {u : Moments ℝ} {id : VId} {m sd : ℝ} {x : UReal2 ℝ}
    (hx : Distr.normal solve junk u id m sd = some (.ok x)) : x = elem2 id m sd ⟨0, 3, 0, 15, 0, 105⟩ := by
  rw [elem_of_mkStd hx]
  simp [Distr.arr6, Mom.lit]

/-- What is reported about a random variable is reported about its distribution. -/
theorem reports_law {x : UReal2 ℝ} {Q : Ω → ℝ} (h : Reports P x Q) (hm : AEMeasurable Q P) {ν : Measure ℝ} (hν : P.map Q = ν) (hd : Distribution ν) :
    ReportsLaw x ν := by
  have e1 : dMean ν = ∫ ω, Q ω ∂P := by rw [dMean, ← hν, integral_map hm (by fun_prop)]
  have e2 : ∀ r, dCentral ν r = central P Q r := fun r => by
    rw [dCentral, e1, central, ← hν, integral_map hm (by fun_prop)]
  exact ⟨hd, by rw [e1]; exact h.mean, by rw [e2]; exact h.s, fun r h1 h2 => by rw [e2]; exact h.m r h1 h2⟩

theorem normal_sum (w : Fin n → ℝ) (t : Finset (Fin n)) :
    (Measure.pi fun _ : Fin n => gaussianReal 0 1).map (fun ω => ∑ k ∈ t, w k * ω k) = gaussianReal 0 (Real.toNNReal (∑ k ∈ t, w k ^ 2)) := by
  classical
  have hi : iIndepFun (fun k (ω : Fin n → ℝ) => w k * ω k) (Measure.pi fun _ : Fin n => gaussianReal 0 1) :=
    iIndepFun_pi (X := fun k x => w k * x) fun k => by fun_prop
  have h1 : ∀ k, (Measure.pi fun _ : Fin n => gaussianReal 0 1).map (fun ω => w k * ω k) = gaussianReal 0 (Real.toNNReal (w k ^ 2)) := fun k => by
    have e1 : (Measure.pi fun _ : Fin n => gaussianReal 0 1).map (fun ω => ω k) = gaussianReal 0 1 :=
      (measurePreserving_eval (fun _ : Fin n => gaussianReal 0 1) k).map_eq
    have e2 := Measure.map_map (μ := Measure.pi fun _ : Fin n => gaussianReal 0 1) (g := fun x => w k * x) (f := fun ω => ω k) (by fun_prop) (by fun_prop)
    rw [e1, gaussianReal_map_const_mul, mul_zero, mul_one] at e2
    refine e2.symm.trans ?_
    congr 1
    exact NNReal.eq (by simp [sq_nonneg])
  induction t using Finset.induction_on with
  | empty => simp [Measure.map_const]
  | insert k t hk ih =>
    have hind := (hi.indepFun_finset_sum_of_notMem (fun k => by fun_prop) hk).symm
    have e0 : (∑ j ∈ t, fun ω : Fin n → ℝ => w j * ω j) = fun ω => ∑ j ∈ t, w j * ω j := by ext ω; simp
    rw [e0] at hind
    have := gaussianReal_add_gaussianReal_of_indepFun hind (h1 k) ih
    simp only [Finset.sum_insert hk]
    rw [Real.toNNReal_add (sq_nonneg _) (Finset.sum_nonneg fun _ _ => sq_nonneg _)]
    rw [add_zero] at this
    exact this

variable {solve : (ℕ → ℕ → ℝ) → Option (List ℝ)}

/-- **C71** Linear functions of independent normal variables, however they are written, are normal: mean, standard deviation and moments. -/
theorem C71_normal (hinj : Function.Injective ids) (hlt : ∀ i, ids i < maxId) {junk : ℕ → ℕ → ℝ} {u0 : Moments ℝ} {sigma : Fin n → ℝ} {v : Fin n → UReal2 ℝ}
    (hv : ∀ k, Distr.normal solve junk u0 (ids k) (mu k) (sigma k) = some (.ok (v k))) {c : ℝ} {b : Fin n → ℝ} {e : RExpr}
    (he : e.poly = MvPolynomial.C c + ∑ k : Fin n, MvPolynomial.C (b k) * MvPolynomial.X (k : ℕ)) (u : Moments ℝ) :
    ∃ z, e.eval2 u (operands v) = some z ∧
      ReportsLaw z (gaussianReal (c + ∑ k, b k * mu k) (Real.toNNReal (∑ k, (b k * sigma k) ^ 2))) := by
  have e0 : v = fun k => elem2 (ids k) (mu k) (sigma k) ⟨0, 3, 0, 15, 0, 105⟩ := funext fun k => elem_of_normal (hv k)
  have he' : e.poly = quadPoly c b fun _ _ => 0 := by rw [he, quadPoly]; simp
  obtain ⟨z, -, ez, -, hz, -⟩ := C71_quadratic (mu := mu) (s := sigma) hinj hlt (errors_normal n) he' he' u
  refine ⟨z, by rw [e0]; exact ez, reports_law hz (by unfold quadr; fun_prop) ?_ (norm_dist _ _)⟩
  have eq : (fun ω : Fin n → ℝ => quadr c b (fun _ _ => 0) fun k => mu k + sigma k * ω k)
      = (fun x => c + ∑ k, b k * mu k + x) ∘ fun ω => ∑ k, (b k * sigma k) * ω k := by
    funext ω
    simp only [quadr, zero_mul, Finset.sum_const_zero, add_zero, Function.comp_apply, mul_add, Finset.sum_add_distrib, mul_assoc, add_assoc]
  rw [eq, ← Measure.map_map (by fun_prop) (by fun_prop), normal_sum, gaussianReal_map_const_add, zero_add]

theorem normal_cov (hinj : Function.Injective ids) {x y : UReal2 ℝ} (hx : FineP (fun i m => ∃ j, ids j = i ∧ m = ⟨0, 3, 0, 15, 0, 105⟩) x)
    (hy : FineP (fun i m => ∃ j, ids j = i ∧ m = ⟨0, 3, 0, 15, 0, 105⟩) y) :
    x.cov y = some (∑ i, x.hg.G (ids i) * y.hg.G (ids i) + 2 * ∑ i, ∑ j, x.hg.H (ids i) (ids j) * y.hg.H (ids i) (ids j)) := by
  have sx := table_sub (mom := fun _ => ⟨0, 3, 0, 15, 0, 105⟩) hx
  have sy := table_sub (mom := fun _ => ⟨0, 3, 0, 15, 0, 105⟩) hy
  rw [cov_mix hx.ok.valid hy.ok.valid (fun _ => mseq ⟨0, 3, 0, 15, 0, 105⟩) (fun _ => rfl) (fun _ => rfl) (fun i hi _ => by
    obtain ⟨-, -, h⟩ := hx.mom i _ (momOf_dOf hi)
    rw [h]; exact ⟨rfl, rfl⟩) sx sy]
  have e0 : ∀ f : VId → ℝ, ∑ i, f (ids i) = ∑ i ∈ Finset.univ.image ids, f i := fun f => (Finset.sum_image fun i _ j _ h => hinj h).symm
  rw [e0 fun i => x.hg.G i * y.hg.G i, Finset.sum_congr rfl fun i _ => e0 fun j => x.hg.H (ids i) j * y.hg.H (ids i) j,
    e0 fun i => ∑ j ∈ Finset.univ.image ids, x.hg.H i j * y.hg.H i j]
  generalize Finset.univ.image ids = T
  have h2 : (Sums.S2 T fun i j => 4 * x.hg.H i j * y.hg.H i j) = ∑ i ∈ T, ∑ j ∈ T, if i ≠ j then 2 * (x.hg.H i j * y.hg.H i j) else 0 := by
    rw [show (∑ i ∈ T, ∑ j ∈ T, if i ≠ j then 2 * (x.hg.H i j * y.hg.H i j) else 0) = Sums.D2 T fun i j => 2 * (x.hg.H i j * y.hg.H i j) from rfl,
      Sums.D2_eq]
    congr 1
    funext i j
    rw [H_comm x.hg j i, H_comm y.hg j i]
    ring
  rw [covForm, h2, Finset.mul_sum, ← Finset.sum_add_distrib, ← Finset.sum_add_distrib]
  refine congrArg _ (Finset.sum_congr rfl fun i hi => ?_)
  rw [Finset.mul_sum, ← Finset.add_sum_erase _ (fun j => 2 * (x.hg.H i j * y.hg.H i j)) hi,
    ← Finset.add_sum_erase _ (fun j => if i ≠ j then 2 * (x.hg.H i j * y.hg.H i j) else 0) hi,
    Finset.sum_congr rfl fun j hj => if_pos (Finset.ne_of_mem_erase hj).symm]
  simp only [mseq, ne_eq, not_true_eq_false, if_false]
  ring

/-- **C71** Covariance of two polynomials of degree 2 of independent normal variables, however they are written: with `G` the first derivatives and `S` the
second ones, by the uncertainties, it is the sum of the `G G'` and half the sum of the `S S'`. -/
theorem C71_normal_cov (hinj : Function.Injective ids) (hlt : ∀ i, ids i < maxId) {junk : ℕ → ℕ → ℝ} {u0 : Moments ℝ} {sigma : Fin n → ℝ}
    {v : Fin n → UReal2 ℝ} (hv : ∀ k, Distr.normal solve junk u0 (ids k) (mu k) (sigma k) = some (.ok (v k))) {c c' : ℝ} {b b' : Fin n → ℝ}
    {a a' : Fin n → Fin n → ℝ} {e e' : RExpr} (he : e.poly = quadPoly c b a) (he' : e'.poly = quadPoly c' b' a') (u : Moments ℝ) :
    ∃ z z', e.eval2 u (operands v) = some z ∧ e'.eval2 u (operands v) = some z' ∧
      z.cov z' = some (∑ i, (b i + ∑ j, (a i j + a j i) * mu j) * (b' i + ∑ j, (a' i j + a' j i) * mu j) * sigma i ^ 2
        + (∑ i, ∑ j, (a i j + a j i) * (a' i j + a' j i) * sigma i ^ 2 * sigma j ^ 2) / 2) := by
  have e0 : v = fun k => elem2 (ids k) (mu k) (sigma k) ⟨0, 3, 0, 15, 0, 105⟩ := funext fun k => elem_of_normal (hv k)
  obtain ⟨z, ez, fz, -, hz⟩ := quad_eval (mu := mu) (s := sigma) (mom := fun _ => ⟨0, 3, 0, 15, 0, 105⟩) hinj hlt he u
  obtain ⟨z', ez', fz', -, hz'⟩ := quad_eval (mu := mu) (s := sigma) (mom := fun _ => ⟨0, 3, 0, 15, 0, 105⟩) hinj hlt he' u
  refine ⟨z, z', by rw [e0]; exact ez, by rw [e0]; exact ez', ?_⟩
  rw [normal_cov hinj fz fz', Finset.mul_sum, Finset.sum_div]
  refine congrArg some (congrArg₂ _ (Finset.sum_congr rfl fun i _ => ?_) (Finset.sum_congr rfl fun i _ => ?_))
  · rw [(hz i i).1, (hz' i i).1]; ring
  · rw [Finset.mul_sum, Finset.sum_div]
    refine Finset.sum_congr rfl fun j _ => ?_
    have h1 : z.hg.H (ids i) (ids j) = (a i j + a j i) * sigma i * sigma j / 2 := by have := (hz i j).2; rw [D2] at this; linarith
    have h2 : z'.hg.H (ids i) (ids j) = (a' i j + a' j i) * sigma i * sigma j / 2 := by have := (hz' i j).2; rw [D2] at this; linarith
    rw [h1, h2]; ring

/-- **C71** The sum of the squares of independent standard normal variables, however it is written, is chi-square. -/
theorem C71_squares (hinj : Function.Injective ids) (hlt : ∀ i, ids i < maxId) {junk : ℕ → ℕ → ℝ} {u0 : Moments ℝ} {v : Fin n → UReal2 ℝ}
    (hv : ∀ k, Distr.normal solve junk u0 (ids k) 0 1 = some (.ok (v k))) {e : RExpr}
    (he : e.poly = ∑ k : Fin n, MvPolynomial.X (k : ℕ) ^ 2) (u : Moments ℝ) :
    ∃ z, e.eval2 u (operands v) = some z ∧ ReportsLaw z (chiSquareLaw n) := by
  have e0 : v = fun k => elem2 (ids k) 0 1 ⟨0, 3, 0, 15, 0, 105⟩ := funext fun k => elem_of_normal (hv k)
  have he' : e.poly = quadPoly 0 (fun _ => 0) fun k l : Fin n => if k = l then 1 else 0 := by
    rw [he, quadPoly]
    simp [apply_ite, ite_mul, pow_two]
  obtain ⟨z, -, ez, -, hz, -⟩ := C71_quadratic (mu := fun _ => 0) (s := fun _ => 1) hinj hlt (errors_normal n) he' he' u
  refine ⟨z, by rw [e0]; exact ez, reports_law hz (by unfold quadr; fun_prop) ?_ (chi_dist _)⟩
  have eq : (fun ω : Fin n → ℝ => quadr 0 (fun _ => 0) (fun k l : Fin n => if k = l then 1 else 0) fun k => 0 + 1 * ω k) = fun ω => ∑ k, ω k ^ 2 := by
    funext ω
    simp [quadr, pow_two]
  rw [eq, chiSquareLaw]

theorem E_X_pow (mu : VId → ℕ → ℝ) (h0 : ∀ i, mu i 0 = 1) (i : VId) (r : ℕ) : E mu (MvPolynomial.X i ^ r) = mu i r := by
  rw [MvPolynomial.X_pow_eq_monomial, E, wsum_monomial, one_mul, wt]
  by_cases hr : r = 0
  · simp [hr, h0]
  · rw [Finsupp.support_single_ne_zero _ hr]; simp

theorem elem_m {i : VId} (hi : i < maxId) (mu s : ℝ) (m : Moments ℝ) : (elem2 i mu s m).n .mean = some mu ∧ (elem2 i mu s m).m 2 = some (s ^ 2) ∧
    (elem2 i mu s m).m 3 = some (s ^ 3 * m.v3) ∧ (elem2 i mu s m).m 4 = some (s ^ 4 * m.v4) := by
  have hf : Fine (fun _ => m) (elem2 i mu s m) := ⟨ok_elem2 hi _ _ _, fun j m' h => (mom_elem2 h).2⟩
  obtain ⟨z1, z2, z3, z4⟩ := m_table hf.ok.valid hf.mus
  have hp : Mom.poly (elem2 i mu s m).hg = MvPolynomial.C s * MvPolynomial.X i := by
    rw [poly_eq hf.ok.valid (S := {i}) (by simp [elem2, HessGrad.vars, keys]), Q]
    simp [G_elem2, H_elem2]
  have hr : ∀ r, E (tabMu fun _ => m) ((MvPolynomial.C s * MvPolynomial.X i) ^ r) = s ^ r * mseq m r := fun r => by
    rw [mul_pow, ← map_pow, E_C_mul, E_X_pow _ (fun _ => rfl)]; rfl
  have h1 : E (tabMu fun _ => m) (MvPolynomial.C s * MvPolynomial.X i) = 0 := by
    have := hr 1; rw [pow_one] at this; rw [this]; simp [mseq]
  rw [hp, h1] at z1
  rw [hp, h1, map_zero, sub_zero, hr] at z2 z3 z4
  refine ⟨by rw [UReal2.n, z1]; simp [elem2], by rw [z2]; simp [mseq], by rw [z3]; simp [mseq], by rw [z4]; simp [mseq]⟩

/-- **C71** The sum of independent chi-square variables, however it is written, is chi-square; `chisquare(0)` is allowed. -/
theorem C71_chisquare (hinj : Function.Injective ids) (hlt : ∀ i, ids i < maxId) {junk : ℕ → ℕ → ℝ} {u0 : Moments ℝ} {ks : Fin n → ℕ}
    {v : Fin n → UReal2 ℝ} (hv : ∀ k, Distr.chisquare solve junk u0 (ids k) (ks k) = some (.ok (v k))) {e : RExpr}
    (he : e.poly = ∑ k : Fin n, MvPolynomial.X (k : ℕ)) (u : Moments ℝ) :
    ∃ z, e.eval2 u (operands v) = some z ∧ ReportsLaw z (chiSquareLaw (∑ k, ks k)) := by
  have one : ∀ k, ∃ mo : Moments ℝ, Ok2 (v k) ∧ (v k).hg.vars ⊆ {ids k} ∧ (∀ i m, (v k).hg.momOf i = some m → ids k = i ∧ m = mo) ∧
      (v k).n .mean = some (ks k : ℝ) ∧ (v k).m 2 = some (2 * (ks k : ℝ)) ∧ (v k).m 3 = some (8 * (ks k : ℝ)) ∧
      (v k).m 4 = some (48 * (ks k : ℝ) + 3 * (2 * (ks k : ℝ)) ^ 2) := fun k => by
    have h := hv k
    rw [Distr.chisquare, if_neg (by omega)] at h
    by_cases hk : ks k = 0
    · rw [if_pos (by omega)] at h
      have hx : v k = UReal2.const 0 := by simpa using h.symm
      have hf : Fine (fun _ => ⟨0, 0, 0, 0, 0, 0⟩) (v k) := hx ▸ Fine.const _ _
      obtain ⟨z1, z2, z3, z4⟩ := m_table hf.ok.valid hf.mus
      have hvars : (v k).hg.vars = ∅ := by rw [hx]; simp [UReal2.const, HessGrad.empty, vars, keys]
      have hp : Mom.poly (v k).hg = 0 := by rw [poly_eq hf.ok.valid (S := ∅) (by rw [hvars]), Q]; simp
      rw [hp] at z1 z2 z3 z4
      refine ⟨⟨0, 0, 0, 0, 0, 0⟩, hf.ok, by rw [hvars]; simp, fun i m hm => ?_, ?_, by rw [z2, hk]; simp, by rw [z3, hk]; simp, by rw [z4, hk]; simp⟩
      · rw [hx] at hm; simp [UReal2.const, HessGrad.empty, momOf, find?] at hm
      · rw [UReal2.n, z1, hk, hx]; simp [UReal2.const]
    · rw [if_neg (by omega)] at h
      have hx := elem_of_mkStd h
      have hK : (0 : ℝ) < ks k := by exact_mod_cast Nat.pos_of_ne_zero hk
      have hq : Real.sqrt (ks k : ℝ) ^ 2 = ks k := Real.sq_sqrt hK.le
      have hr : Real.sqrt (2 : ℝ) ^ 2 = 2 := Real.sq_sqrt (by norm_num)
      have hq0 : 0 < Real.sqrt (ks k : ℝ) := Real.sqrt_pos.2 hK
      obtain ⟨m1, m2, m3, m4⟩ := hx ▸ elem_m (hlt k) _ _ _
      refine ⟨_, hx ▸ ok_elem2 (hlt k) _ _ _, by rw [hx]; simp [elem2, HessGrad.vars, keys], fun i m hm => mom_elem2 (hx ▸ hm), ?_, ?_, ?_, ?_⟩
      · rw [m1]; simp
      · rw [m2]
        simp only [CSqrt.sqrt, Mom.lit, Int.cast_natCast, Nat.cast_ofNat, mul_pow, hq, hr]
      · rw [m3]
        simp only [CSqrt.sqrt, Mom.lit, Int.cast_natCast, Nat.cast_ofNat, Distr.chiMoments, Distr.arr6, Option.some.injEq]
        rw [show (Real.sqrt 2 * Real.sqrt (ks k : ℝ)) ^ 3 * (2 * Real.sqrt 2 / Real.sqrt (ks k : ℝ))
          = 2 * (Real.sqrt 2 ^ 2) ^ 2 * (Real.sqrt (ks k : ℝ) ^ 2) by field_simp, hr, hq]
        ring
      · rw [m4]
        simp only [CSqrt.sqrt, Mom.lit, Int.cast_natCast, Nat.cast_ofNat, Distr.chiMoments, Distr.arr6, Option.some.injEq]
        rw [show (Real.sqrt 2 * Real.sqrt (ks k : ℝ)) ^ 4 = (Real.sqrt 2 ^ 2) ^ 2 * (Real.sqrt (ks k : ℝ) ^ 2) ^ 2 by ring, hr, hq]
        field_simp
        ring
  choose mo ok hvars hmom h1 h2 h3 h4 using one
  obtain ⟨tab, ht⟩ := exists_tab hinj mo
  obtain ⟨z, ez, z1, z2, z3, z4⟩ := C71_cumulants ok (fun k i m h => by obtain ⟨rfl, rfl⟩ := hmom k i m h; exact (ht k).symm)
    (fun k l hkl => Finset.disjoint_of_subset_left (hvars k) (Finset.disjoint_of_subset_right (hvars l) (by simpa using fun h => hkl (hinj h))))
    he u h1 h2 h3 h4
  obtain ⟨c2, c3, c4, -⟩ := chi_central (∑ k, ks k)
  rw [← Finset.mul_sum] at z2 z3
  rw [← Finset.mul_sum, ← Finset.mul_sum] at z4
  refine ⟨z, ez, chi_dist _, by rw [z1, chi_mean]; simp, ?_, fun r r1 r2 => ?_⟩
  · rw [UReal2.s, z2, c2]; simp [CSqrt.sqrt]
  · interval_cases r
    · rw [z2, c2]; simp
    · rw [z3, c3]; simp
    · rw [z4, c4]
      simp only [Nat.cast_sum, Option.some.injEq]
      ring

/-! ## examples -/

theorem normals_exist (hs : EigenSolver solve) (junk : ℕ → ℕ → ℝ) (u0 : Moments ℝ) (ids : Fin n → VId) (mu : Fin n → ℝ) {sigma : Fin n → ℝ}
    (h : ∀ k, 0 < sigma k) : ∃ v : Fin n → UReal2 ℝ, ∀ k, Distr.normal solve junk u0 (ids k) (mu k) (sigma k) = some (.ok (v k)) := by
  choose v hv using fun k => C32_normal hs junk u0 (ids k) (mu k) (h k)
  exact ⟨v, fun k => (hv k).1⟩

/-- `(x + y) + 3`, written `3 + (y + x)` -/
example (junk : ℕ → ℕ → ℝ) (u0 u : Moments ℝ) : ∃ v : Fin 2 → UReal2 ℝ, ∃ z, (RExpr.add (.const 3) (.add (.var 1) (.var 0))).eval2 u (operands v) = some z ∧
    ReportsLaw z (gaussianReal 6 5) := by
  obtain ⟨v, hv⟩ := normals_exist exactSolve_ok junk u0 ![4, 5] ![1, 2] (sigma := ![1, 2]) (by intro k; fin_cases k <;> simp)
  obtain ⟨z, ez, hz⟩ := C71_normal (c := 3) (b := ![1, 1]) (by decide) (by decide) hv
    (e := .add (.const 3) (.add (.var 1) (.var 0))) (by simp [RExpr.poly, Fin.sum_univ_two]; ring) u
  refine ⟨v, z, ez, ?_⟩
  convert hz using 2
  · simp [Fin.sum_univ_two]; norm_num
  · refine NNReal.eq ?_
    rw [Real.coe_toNNReal _ (by positivity)]
    simp [Fin.sum_univ_two]; norm_num

/-- the sum of two squares, written `(x + y)^2 - 2 x y` -/
example (junk : ℕ → ℕ → ℝ) (u0 u : Moments ℝ) : ∃ v : Fin 2 → UReal2 ℝ, ∃ z,
    (RExpr.sub (.mul (.add (.var 0) (.var 1)) (.add (.var 0) (.var 1))) (.mul (.const 2) (.mul (.var 0) (.var 1)))).eval2 u (operands v) = some z ∧
    ReportsLaw z (chiSquareLaw 2) := by
  obtain ⟨v, hv⟩ := normals_exist exactSolve_ok junk u0 ![4, 5] (fun _ => 0) (sigma := fun _ => 1) (by simp)
  obtain ⟨z, ez, hz⟩ := C71_squares (by decide) (by decide) hv
    (e := .sub (.mul (.add (.var 0) (.var 1)) (.add (.var 0) (.var 1))) (.mul (.const 2) (.mul (.var 0) (.var 1))))
    (by simp only [RExpr.poly, Fin.sum_univ_two, map_ofNat, Fin.val_zero, Fin.val_one]; ring) u
  exact ⟨v, z, ez, hz⟩

/-- test/distr.cpp:120-154: two sums of squares with a common half -/
example (junk : ℕ → ℕ → ℝ) (u0 u : Moments ℝ) : ∃ v : Fin 3 → UReal2 ℝ, ∃ z z',
    (RExpr.add (.mul (.var 0) (.var 0)) (.mul (.mul (.const (1 / 2)) (.var 2)) (.var 2))).eval2 u (operands v) = some z ∧
    (RExpr.add (.mul (.var 1) (.var 1)) (.mul (.mul (.const (1 / 2)) (.var 2)) (.var 2))).eval2 u (operands v) = some z' ∧ z.cov z' = some (1 / 2) := by
  obtain ⟨v, hv⟩ := normals_exist exactSolve_ok junk u0 ![4, 5, 7] (fun _ => 0) (sigma := fun _ => 1) (by simp)
  obtain ⟨z, z', ez, ez', hz⟩ := C71_normal_cov (c := 0) (c' := 0) (b := fun _ => 0) (b' := fun _ => 0)
    (a := ![![1, 0, 0], ![0, 0, 0], ![0, 0, 1 / 2]]) (a' := ![![0, 0, 0], ![0, 1, 0], ![0, 0, 1 / 2]]) (by decide) (by decide) hv
    (e := .add (.mul (.var 0) (.var 0)) (.mul (.mul (.const (1 / 2)) (.var 2)) (.var 2)))
    (e' := .add (.mul (.var 1) (.var 1)) (.mul (.mul (.const (1 / 2)) (.var 2)) (.var 2)))
    (by simp [RExpr.poly, quadPoly, Fin.sum_univ_three]) (by simp [RExpr.poly, quadPoly, Fin.sum_univ_three]) u
  refine ⟨v, z, z', ez, ez', hz.trans ?_⟩
  simp [Fin.sum_univ_three]; norm_num

/-- `chisquare(2) + chisquare(0) + chisquare(3)` -/
example (junk : ℕ → ℕ → ℝ) (u0 u : Moments ℝ) : ∃ v : Fin 3 → UReal2 ℝ, ∃ z, (RExpr.add (.var 0) (.add (.var 1) (.var 2))).eval2 u (operands v) = some z ∧
    ReportsLaw z (chiSquareLaw 5) := by
  have h : ∀ k : Fin 3, ∃ x, Distr.chisquare exactSolve junk u0 (![4, 5, 7] k) ((![2, 0, 3] k : ℕ) : ℤ) = some (.ok x) := by
    intro k
    fin_cases k
    · obtain ⟨x, hx, -⟩ := C32_chisquare exactSolve_ok junk u0 4 2 (by norm_num); exact ⟨x, hx⟩
    · obtain ⟨x, hx, -⟩ := (C32_chisquare_edge exactSolve junk u0 5 0).2 rfl; exact ⟨x, hx⟩
    · obtain ⟨x, hx, -⟩ := C32_chisquare exactSolve_ok junk u0 7 3 (by norm_num); exact ⟨x, hx⟩
  choose v hv using h
  obtain ⟨z, ez, hz⟩ := C71_chisquare (by decide) (by decide) hv (e := .add (.var 0) (.add (.var 1) (.var 2)))
    (by simp [RExpr.poly, Fin.sum_univ_three]; ring) u
  exact ⟨v, z, ez, by simpa [Fin.sum_univ_three] using hz⟩

/-- two skewed variables, `x * x + x * y` and `x * y - 1` -/
example (u) := C71_quadratic (ids := ![1, 2]) (mu := ![3, 4]) (s := ![1, 2]) (by decide) (by decide) (errors_twoPoint (ids := ![1, 2]) (by decide))
  (e := .add (.mul (.var 0) (.var 0)) (.mul (.var 0) (.var 1))) (e' := .sub (.mul (.var 0) (.var 1)) (.const 1))
  (c := 0) (b := fun _ => 0) (a := ![![1, 1], ![0, 0]]) (c' := -1) (b' := fun _ => 0) (a' := ![![0, 1], ![0, 0]])
  (by simp [RExpr.poly, quadPoly, Fin.sum_univ_two]) (by simp [RExpr.poly, quadPoly, Fin.sum_univ_two]; ring) u

/-- two skewed values and one without uncertainty -/
example (m m' : Moments ℝ) (u) : ∃ z, (RExpr.add (.var 1) (.add (.var 0) (.var 2))).eval2 u
    (operands ![elem2 1 3 2 m, elem2 2 4 1 m', elem2 3 5 0 m']) = some z ∧ z.n .mean = some 12 ∧ z.m 2 = some 5 ∧ z.m 3 = some (8 * m.v3 + m'.v3) := by
  obtain ⟨a1, a2, a3, a4⟩ := elem_m (i := 1) (by decide) 3 2 m
  obtain ⟨b1, b2, b3, b4⟩ := elem_m (i := 2) (by decide) 4 1 m'
  obtain ⟨c1, c2, c3, c4⟩ := elem_m (i := 3) (by decide) 5 0 m'
  obtain ⟨z, ez, h1, h2, h3, -⟩ := C71_cumulants (tab := fun i => if i = 1 then m else m') (v := ![elem2 1 3 2 m, elem2 2 4 1 m', elem2 3 5 0 m'])
    (by intro k; fin_cases k <;> exact ok_elem2 (by decide) _ _ _)
    (by
      intro k i mo h
      fin_cases k <;> (obtain ⟨rfl, rfl⟩ := mom_elem2 h; simp))
    (by
      intro k l h
      fin_cases k <;> fin_cases l <;> simp [elem2, HessGrad.vars, keys] at h ⊢)
    (e := .add (.var 1) (.add (.var 0) (.var 2))) (by simp [RExpr.poly, Fin.sum_univ_three]; ring) u
    (k1 := ![3, 4, 5]) (k2 := ![4, 1, 0]) (k3 := ![8 * m.v3, m'.v3, 0]) (k4 := ![16 * m.v4 - 48, m'.v4 - 3, 0])
    (by intro k; fin_cases k; exacts [a1, b1, c1])
    (by intro k; fin_cases k; exacts [a2.trans (by norm_num), b2.trans (by norm_num), c2.trans (by norm_num)])
    (by intro k; fin_cases k; exacts [a3.trans (by norm_num), b3.trans (by norm_num), c3.trans (by norm_num)])
    (by intro k; fin_cases k; exacts [a4.trans (by norm_num), b4.trans (by norm_num), c4.trans (by norm_num)])
  exact ⟨z, ez, h1.trans (by simp [Fin.sum_univ_three]; norm_num), h2.trans (by simp [Fin.sum_univ_three]; norm_num),
    h3.trans (by simp [Fin.sum_univ_three])⟩

end Unc.Props
