import Verif.Spec.Moments
import Verif.Lemmas.RawMom2
import Mathlib.Probability.Independence.InfinitePi

/-! # From the moment functional to expectations on a probability space -/

namespace Unc
namespace Mom
open MeasureTheory ProbabilityTheory Expect SMap HessGrad
variable {Ω : Type*} [MeasurableSpace Ω] {P : Measure Ω} {X : VId → Ω → ℝ} {S : Finset VId}

theorem prod_monomial {s : VId →₀ ℕ} (hs : s.support ⊆ S) (f : VId → ℕ → ℝ) (h0 : ∀ i, f i 0 = 1) :
    ∏ i ∈ s.support, f i (s i) = ∏ i : S, f i (s i) := by
  rw [Finset.prod_coe_sort S fun i => f i (s i)]
  exact Finset.prod_subset hs fun i _ hi => by rw [Finsupp.notMem_support_iff.1 hi, h0]

theorem int_prod (h : StdIndep P X S) (s : VId →₀ ℕ) (h8 : ∀ i, s i ≤ 8) :
    Integrable (fun ω => ∏ i : S, X i ω ^ s i) P := by
  have hp := h.indep.isProbabilityMeasure
  have hm : ∀ i : S, AEMeasurable (X i) P := fun i => h.meas i i.2
  have h1 : Integrable (fun x : S → ℝ => ∏ i : S, x i ^ s i) (P.map fun ω (i : S) => X i ω) := by
    have hpi := h.indep.map_fun_eq_pi_map hm
    rw [hpi]
    have : ∀ i : S, IsProbabilityMeasure (P.map (X i)) := fun i => Measure.isProbabilityMeasure_map (hm i)
    refine Integrable.fintype_prod (f := fun (i : S) (x : ℝ) => x ^ s i) fun i => ?_
    rw [integrable_map_measure (by fun_prop) (hm i)]
    exact h.int i i.2 _ (h8 i)
  exact h1.comp_aemeasurable (aemeasurable_pi_lambda _ hm)

theorem integral_prod (h : StdIndep P X S) (s : VId →₀ ℕ) :
    ∫ ω, ∏ i : S, X i ω ^ s i ∂P = ∏ i : S, ∫ ω, X i ω ^ s i ∂P :=
  h.indep.integral_fun_prod_comp (f := fun (i : S) (x : ℝ) => x ^ s i) (fun i => h.meas i i.2) fun i => by fun_prop

theorem integral_aeval (h : StdIndep P X S) {mu : VId → ℕ → ℝ}
    (hmu : ∀ i ∈ S, ∀ k ≤ 8, ∫ ω, X i ω ^ k ∂P = mu i k) (h0 : ∀ i, mu i 0 = 1) {p : MvPolynomial VId ℝ}
    (hp : p ∈ MvPolynomial.supported ℝ (S : Set VId)) (hd : p.totalDegree ≤ 8) :
    Integrable (fun ω => MvPolynomial.eval (fun i => X i ω) p) P
      ∧ ∫ ω, MvPolynomial.eval (fun i => X i ω) p ∂P = E mu p := by
  have hs : ∀ s ∈ p.support, s.support ⊆ S ∧ ∀ i, s i ≤ 8 := by
    intro s hs
    refine ⟨fun i hi => ?_, fun i => ?_⟩
    · have := MvPolynomial.mem_supported.1 hp
      exact_mod_cast this (MvPolynomial.mem_vars i |>.2 ⟨s, hs, hi⟩)
    · refine le_trans ?_ ((MvPolynomial.le_totalDegree hs).trans hd)
      by_cases hi : i ∈ s.support
      · exact Finset.single_le_sum (f := fun i => s i) (fun _ _ => Nat.zero_le _) hi
      · rw [Finsupp.notMem_support_iff.1 hi]; exact Nat.zero_le _
  have e : ∀ ω, MvPolynomial.eval (fun i => X i ω) p = ∑ s ∈ p.support, p.coeff s * ∏ i : S, X i ω ^ s i := by
    intro ω
    rw [MvPolynomial.eval_eq]
    refine Finset.sum_congr rfl fun s hs' => ?_
    rw [prod_monomial (hs s hs').1 (fun i k => X i ω ^ k) fun i => pow_zero _]
  simp only [e]
  have hint : ∀ s ∈ p.support, Integrable (fun ω => p.coeff s * ∏ i : S, X i ω ^ s i) P := fun s hs' =>
    (int_prod h s (hs s hs').2).const_mul _
  refine ⟨integrable_finset_sum _ hint, ?_⟩
  rw [integral_finset_sum _ hint, E, wsum_apply]
  refine Finset.sum_congr rfl fun s hs' => ?_
  rw [integral_const_mul, integral_prod h, wt, prod_monomial (hs s hs').1 mu h0]
  refine congrArg (p.coeff s * ·) (Finset.prod_congr rfl fun i _ => hmu i i.2 _ ((hs s hs').2 i))

theorem eval_poly (hg : HessGrad ℝ) (ω : Ω) :
    MvPolynomial.eval (fun i => X i ω) (poly hg) = hg.rv X ω := by
  simp only [poly, Q, HessGrad.rv, map_add, map_sum, map_mul, MvPolynomial.eval_C, MvPolynomial.eval_X]

theorem StdIndep.mono {T : Finset VId} (h : StdIndep P X S) (hT : T ⊆ S) : StdIndep P X T where
  meas i hi := h.meas i (hT hi)
  indep := h.indep.precomp (g := fun i : T => (⟨i, hT i.2⟩ : S)) fun i j hij =>
    Subtype.ext (congrArg (fun z : S => (z : VId)) hij)
  int i hi := h.int i (hT hi)
  mean i hi := h.mean i (hT hi)
  var i hi := h.var i (hT hi)

variable {hg : HessGrad ℝ}

theorem mom_mus (h : StdIndep P X hg.vars) (hm : HasMoments P X hg) :
    ∀ i ∈ hg.vars, ∀ k ≤ 8, ∫ ω, X i ω ^ k ∂P = mus hg i k := by
  have hp := h.indep.isProbabilityMeasure
  intro i hi k hk
  have hk' : i ∈ keys hg.diagmap := by simpa [vars] using hi
  have hmm : hg.momOf i = some (hg.dOf i).mom := by
    unfold momOf; rw [find_dOf hk']; rfl
  obtain ⟨e3, e4, e5, e6, e7, e8⟩ := hm i _ hmm
  interval_cases k
  · simp [mus, mseq]
  · simpa [mus, mseq] using h.mean i hi
  · simpa [mus, mseq] using h.var i hi
  all_goals assumption

section ring
variable {R : Type*} [CommRing R]

theorem poly_vars (hg : HessGrad R) : poly hg ∈ MvPolynomial.supported R (hg.vars : Set VId) := Q_vars _ _ _

theorem poly_degree (hg : HessGrad R) : (poly hg).totalDegree ≤ 2 := Q_degree _ _ _

theorem shift_degree (hg : HessGrad R) (c : R) : (poly hg - MvPolynomial.C c).totalDegree ≤ 2 :=
  (MvPolynomial.totalDegree_sub_C_le _ _).trans (poly_degree hg)

theorem E_C (mu : VId → ℕ → R) (c : R) : E mu (MvPolynomial.C c) = c := by
  rw [E, MvPolynomial.C_apply, wsum_monomial, wt]; simp

theorem E_C_mul (mu : VId → ℕ → R) (c : R) (p : MvPolynomial VId R) : E mu (MvPolynomial.C c * p) = c * E mu p := by
  rw [MvPolynomial.C_mul', map_smul, smul_eq_mul]

end ring

/-- Expectation of a value. -/
theorem integral_rv (h : StdIndep P X hg.vars) (hm : HasMoments P X hg) :
    Integrable (hg.rv X) P ∧ ∫ ω, hg.rv X ω ∂P = E (mus hg) (poly hg) := by
  have := integral_aeval h (mom_mus h hm) (fun _ => rfl) (poly_vars hg) ((poly_degree hg).trans (by norm_num))
  simpa only [eval_poly] using this

theorem integral_central (h : StdIndep P X hg.vars) (hm : HasMoments P X hg) (c : ℝ) {k : ℕ} (hk : k ≤ 4) :
    ∫ ω, (hg.rv X ω - c) ^ k ∂P = E (mus hg) ((poly hg - MvPolynomial.C c) ^ k) := by
  have hv : (poly hg - MvPolynomial.C c) ^ k ∈ MvPolynomial.supported ℝ (hg.vars : Set VId) :=
    Subalgebra.pow_mem _ (Subalgebra.sub_mem _ (poly_vars hg) (Subalgebra.algebraMap_mem _ c)) _
  have := integral_aeval h (mom_mus h hm) (fun _ => rfl) hv
    ((pow_degree _ (shift_degree hg c) k).trans (by omega))
  rw [← this.2]
  simp only [map_pow, map_sub, MvPolynomial.eval_C, eval_poly]

theorem E_central2 {R : Type*} [CommRing R] (mu : VId → ℕ → R) (p : MvPolynomial VId R) :
    E mu ((p - MvPolynomial.C (E mu p)) ^ 2) = E mu (p ^ 2) - E mu p * E mu p := by
  generalize hc : E mu p = c
  have : (p - MvPolynomial.C c) ^ 2 = p ^ 2 - MvPolynomial.C (2 * c) * p + MvPolynomial.C (c ^ 2) := by
    simp only [map_mul, map_pow, map_ofNat]; ring
  rw [this, map_add, map_sub, E_C_mul, E_C, hc]; ring

theorem E_central3 {R : Type*} [CommRing R] (mu : VId → ℕ → R) (p : MvPolynomial VId R) :
    E mu ((p - MvPolynomial.C (E mu p)) ^ 3) = E mu (p ^ 3) - 3 * E mu p * E mu (p ^ 2) + 2 * E mu p ^ 3 := by
  generalize hc : E mu p = c
  have : (p - MvPolynomial.C c) ^ 3 = p ^ 3 - MvPolynomial.C (3 * c) * p ^ 2 + MvPolynomial.C (3 * c ^ 2) * p
      - MvPolynomial.C (c ^ 3) := by
    simp only [map_mul, map_pow, map_ofNat]; ring
  rw [this, map_sub, map_add, map_sub, E_C_mul, E_C_mul, E_C, hc]; ring

theorem E_central4 {R : Type*} [CommRing R] (mu : VId → ℕ → R) (p : MvPolynomial VId R) :
    E mu ((p - MvPolynomial.C (E mu p)) ^ 4)
      = E mu (p ^ 4) - 4 * E mu p * E mu (p ^ 3) + 6 * E mu p ^ 2 * E mu (p ^ 2) - 3 * E mu p ^ 4 := by
  generalize hc : E mu p = c
  have : (p - MvPolynomial.C c) ^ 4 = p ^ 4 - MvPolynomial.C (4 * c) * p ^ 3 + MvPolynomial.C (6 * c ^ 2) * p ^ 2
      - MvPolynomial.C (4 * c ^ 3) * p + MvPolynomial.C (c ^ 4) := by
    simp only [map_mul, map_pow, map_ofNat]; ring
  rw [this, map_add, map_sub, map_add, map_sub, E_C_mul, E_C_mul, E_C_mul, E_C, hc]; ring

/-! ## Independent variables with given distributions exist -/

theorem stdIndep_pi (ν : VId → Measure ℝ) [hν : ∀ i, IsProbabilityMeasure (ν i)]
    (hint : ∀ i, ∀ k ≤ 8, Integrable (fun x : ℝ => x ^ k) (ν i)) (h1 : ∀ i, ∫ x, x ∂ν i = 0)
    (h2 : ∀ i, ∫ x, x ^ 2 ∂ν i = 1) (S : Finset VId) :
    StdIndep (Measure.infinitePi ν) (fun i (ω : VId → ℝ) => ω i) S
      ∧ ∀ i k, ∫ ω : VId → ℝ, ω i ^ k ∂Measure.infinitePi ν = ∫ x, x ^ k ∂ν i := by
  have hk : ∀ i k, ∫ ω : VId → ℝ, ω i ^ k ∂Measure.infinitePi ν = ∫ x, x ^ k ∂ν i := by
    intro i k
    rw [← Measure.infinitePi_map_eval ν i, integral_map (measurable_pi_apply i).aemeasurable (by fun_prop)]
  refine ⟨⟨fun i _ => (measurable_pi_apply i).aemeasurable, ?_, fun i _ k hk => ?_, fun i _ => ?_, fun i _ => ?_⟩, hk⟩
  · have := iIndepFun_infinitePi (P := ν) (X := fun _ x => x) fun i => measurable_id
    exact this.precomp (g := fun i : S => (i : VId)) Subtype.val_injective
  · have := hint i k hk
    rw [← Measure.infinitePi_map_eval ν i] at this
    exact this.comp_measurable (measurable_pi_apply i)
  · have := hk i 1
    simpa [h1 i] using this
  · rw [hk i 2, h2 i]

/-- The distribution which takes value 2 with probability 1/5 and -1/2 with probability 4/5. -/
noncomputable def twoPoint : Measure ℝ :=
  ENNReal.ofReal (1 / 5) • Measure.dirac 2 + ENNReal.ofReal (4 / 5) • Measure.dirac (-1 / 2)

instance : IsProbabilityMeasure twoPoint := by
  constructor
  simp only [twoPoint, Measure.add_apply, Measure.smul_apply, measure_univ, smul_eq_mul, mul_one]
  rw [← ENNReal.ofReal_add (by norm_num) (by norm_num)]
  norm_num

theorem twoPoint_int (k : ℕ) : Integrable (fun x : ℝ => x ^ k) twoPoint :=
  Integrable.add_measure ((integrable_dirac (by simp)).smul_measure ENNReal.ofReal_ne_top)
    ((integrable_dirac (by simp)).smul_measure ENNReal.ofReal_ne_top)

theorem twoPoint_mom (k : ℕ) : ∫ x, x ^ k ∂twoPoint = 1 / 5 * 2 ^ k + 4 / 5 * (-1 / 2) ^ k := by
  rw [twoPoint, integral_add_measure ((integrable_dirac (by simp)).smul_measure ENNReal.ofReal_ne_top)
    ((integrable_dirac (by simp)).smul_measure ENNReal.ofReal_ne_top), integral_smul_measure,
    integral_smul_measure, integral_dirac, integral_dirac, ENNReal.toReal_ofReal (by norm_num),
    ENNReal.toReal_ofReal (by norm_num), smul_eq_mul, smul_eq_mul]

/-- Moments 3 to 8 of `twoPoint`. -/
noncomputable def twoPointMom : Moments ℝ := ⟨3 / 2, 13 / 4, 51 / 8, 205 / 16, 819 / 32, 3277 / 64⟩

/-- Independent variables distributed as `twoPoint`. -/
theorem twoPoint_indep (S : Finset VId) :
    StdIndep (Measure.infinitePi fun _ => twoPoint) (fun i (ω : VId → ℝ) => ω i) S := by
  refine (stdIndep_pi (fun _ => twoPoint) (fun _ k _ => twoPoint_int k) (fun _ => ?_) (fun _ => ?_) S).1
  · have := twoPoint_mom 1
    norm_num at this
    exact this
  · rw [twoPoint_mom]; norm_num

theorem twoPoint_has {hg : HessGrad ℝ} (h : ∀ i m, hg.momOf i = some m → m = twoPointMom) :
    HasMoments (Measure.infinitePi fun _ => twoPoint) (fun i (ω : VId → ℝ) => ω i) hg := by
  intro i m hm
  rw [h i m hm]
  have hk := (stdIndep_pi (fun _ => twoPoint) (fun _ k _ => twoPoint_int k) (fun _ => by
    have := twoPoint_mom 1
    norm_num at this
    exact this) (fun _ => by rw [twoPoint_mom]; norm_num) ∅).2
  simp only [hk, twoPoint_mom, twoPointMom]
  norm_num

/-! ## `m(n)` -/

theorem m_one {R : Type*} [CommRing R] {x : UReal2 R} (hv : x.hg.Valid) : x.m 1 = some (E (mus x.hg) (poly x.hg)) := by
  simp [UReal2.m, UReal2.momArray, UReal2.updateMom, compute, raw1 hv]

theorem m_two {R : Type*} [CommRing R] {x : UReal2 R} (hv : x.hg.Valid) :
    x.m 2 = some (E (mus x.hg) (poly x.hg ^ 2) - E (mus x.hg) (poly x.hg) * E (mus x.hg) (poly x.hg)) := by
  simp [UReal2.m, UReal2.momArray, UReal2.updateMom, compute, raw1 hv, raw2 hv]

theorem m_three {R : Type*} [CommRing R] {x : UReal2 R} (hv : x.hg.Valid) :
    x.m 3 = some (E (mus x.hg) (poly x.hg ^ 3) - 3 * E (mus x.hg) (poly x.hg) * E (mus x.hg) (poly x.hg ^ 2)
      + 2 * E (mus x.hg) (poly x.hg) ^ 3) := by
  simp [UReal2.m, UReal2.momArray, UReal2.updateMom, compute, raw1 hv, raw2 hv, raw3 hv, lit]
  ring

theorem m_four {R : Type*} [CommRing R] {x : UReal2 R} (hv : x.hg.Valid) :
    x.m 4 = some (E (mus x.hg) (poly x.hg ^ 4) - 4 * E (mus x.hg) (poly x.hg) * E (mus x.hg) (poly x.hg ^ 3)
      + 6 * E (mus x.hg) (poly x.hg) ^ 2 * E (mus x.hg) (poly x.hg ^ 2) - 3 * E (mus x.hg) (poly x.hg) ^ 4) := by
  simp [UReal2.m, UReal2.momArray, UReal2.updateMom, compute, raw1 hv, raw2 hv, raw3 hv, raw4 hv, lit]
  ring

end Mom
end Unc
