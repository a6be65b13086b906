import Verif.Lemmas.CovForm

/-!
# Moments of second-order values: C24 to C29

The random variable a value stands for, `HessGrad.rv`, and the probability space are in
`Verif/Spec/Moments.lean`.  Nothing is assumed about the number of variables, the coefficients or the
distributions, except that moments up to the eighth exist.
-/

namespace Unc.Props
open Unc SMap HessGrad Mom Expect MeasureTheory ProbabilityTheory

/-! Concrete values: two variables with a skewed distribution, and a second value sharing one of them. -/

/-- depends on 1 and 3 -/
noncomputable def exMx : UReal2 ℝ :=
  ⟨⟨[(1, ⟨1, 1 / 2, twoPointMom⟩), (3, ⟨-2, 1 / 3, twoPointMom⟩)], [(toLex (1, 3), 1 / 5)]⟩, 7⟩
/-- depends on 3 and 8 -/
noncomputable def exMy : UReal2 ℝ :=
  ⟨⟨[(3, ⟨4, -1, twoPointMom⟩), (8, ⟨3, 2, twoPointMom⟩)], [(toLex (3, 8), -1 / 2)]⟩, 0⟩

theorem valid_exMx : exMx.hg.Valid := by
  refine ⟨by simp [exMx, Sorted, keys], by simp [exMx, Sorted, keys], ?_⟩
  intro i j h
  simp only [exMx, keys_cons, keys_nil, List.mem_singleton, key_eq_iff] at h ⊢
  obtain ⟨rfl, rfl⟩ := h
  simp
theorem valid_exMy : exMy.hg.Valid := by
  refine ⟨by simp [exMy, Sorted, keys], by simp [exMy, Sorted, keys], ?_⟩
  intro i j h
  simp only [exMy, keys_cons, keys_nil, List.mem_singleton, key_eq_iff] at h ⊢
  obtain ⟨rfl, rfl⟩ := h
  simp

theorem mom_exMx : ∀ i m, exMx.hg.momOf i = some m → m = twoPointMom := by
  intro i m h
  simp only [momOf, exMx, find?] at h
  split_ifs at h <;> simp_all
theorem mom_exMy : ∀ i m, exMy.hg.momOf i = some m → m = twoPointMom := by
  intro i m h
  simp only [momOf, exMy, find?] at h
  split_ifs at h <;> simp_all

variable {Ω : Type*} [MeasurableSpace Ω] {P : Measure Ω} {X : VId → Ω → ℝ}

/-! ## C24: the expectation and the propagation mode -/

/-- **C24** `m(1)` is the expectation of the quadratic expansion. -/
theorem C24_m1 {x : UReal2 ℝ} (hv : x.hg.Valid) (h : StdIndep P X x.hg.vars) (hm : HasMoments P X x.hg) :
    Integrable (x.hg.rv X) P ∧ x.m 1 = some (∫ ω, x.hg.rv X ω ∂P) := by
  obtain ⟨h1, h2⟩ := integral_rv h hm
  exact ⟨h1, by rw [m_one hv, h2]⟩

/-- **C24** In estimate mode `n()` subtracts the expectation of the expansion. -/
theorem C24_n_est {x : UReal2 ℝ} (hv : x.hg.Valid) (h : StdIndep P X x.hg.vars) (hm : HasMoments P X x.hg) :
    x.n .est = some (x.mu - ∫ ω, x.hg.rv X ω ∂P) := by
  rw [UReal2.n, (C24_m1 hv h hm).2]
  simp [sub_eq_add_neg]

/-- **C24** In mean mode `n()` adds it, so that `n()` is the expectation of `first_order_n() + Q`. -/
theorem C24_n_mean {x : UReal2 ℝ} (hv : x.hg.Valid) (h : StdIndep P X x.hg.vars) (hm : HasMoments P X x.hg) :
    x.n .mean = some (∫ ω, (x.mu + x.hg.rv X ω) ∂P) := by
  have hp := h.indep.isProbabilityMeasure
  obtain ⟨h1, h2⟩ := C24_m1 hv h hm
  rw [UReal2.n, h2, integral_add (integrable_const _) h1]
  simp

/-- **C24** Over any commutative ring (so also where no probability is available): the sum of the diagonal
half second derivatives. -/
theorem C24_trace {R : Type*} [CommRing R] {x : UReal2 R} (hv : x.hg.Valid) :
    x.m 1 = some (∑ i ∈ x.hg.vars, x.hg.H i i) := by
  rw [m_one' hv, m1_sum hv subset_rfl]

/-- **C24** `m(n)` is defined only for `n` from 1 to 4; every other argument fails the assert. -/
theorem C24_range {R : Type*} [CommRing R] {x : UReal2 R} (hv : x.hg.Valid) (n : ℕ) :
    (x.m n).isSome ↔ 1 ≤ n ∧ n ≤ 4 := by
  constructor
  · intro h
    by_contra hc
    simp [UReal2.m, hc] at h
  · rintro ⟨h1, h4⟩
    interval_cases n
    · rw [m_one hv]; rfl
    · rw [m_two hv]; rfl
    · rw [m_three hv]; rfl
    · rw [m_four hv]; rfl

example : exMx.m 1 = some (∫ ω, exMx.hg.rv (fun i (ω : VId → ℝ) => ω i) ω ∂Measure.infinitePi fun _ => twoPoint) :=
  (C24_m1 valid_exMx (twoPoint_indep _) (twoPoint_has mom_exMx)).2
example : exMx.n .est = some (7 - ∫ ω, exMx.hg.rv (fun i (ω : VId → ℝ) => ω i) ω ∂Measure.infinitePi fun _ => twoPoint) :=
  C24_n_est valid_exMx (twoPoint_indep _) (twoPoint_has mom_exMx)
example : exMx.n .mean
    = some (∫ ω, (7 + exMx.hg.rv (fun i (ω : VId → ℝ) => ω i) ω) ∂Measure.infinitePi fun _ => twoPoint) :=
  C24_n_mean valid_exMx (twoPoint_indep _) (twoPoint_has mom_exMx)
example : (exMx.m 4).isSome := (C24_range valid_exMx 4).2 (by norm_num)
example : ¬ (exMx.m 5).isSome := fun h => absurd ((C24_range valid_exMx 5).1 h).2 (by norm_num)
example : exMx.m 1 = some (5 / 6) := by
  rw [C24_trace valid_exMx]
  simp [exMx, vars, keys, HessGrad.H, find?]
  norm_num

/-! ## C25, C26, C27: central moments -/

/-- **C25** `m(2)`, that is `var(x)`, is the variance of the quadratic expansion. -/
theorem C25_var {x : UReal2 ℝ} (hv : x.hg.Valid) (h : StdIndep P X x.hg.vars) (hm : HasMoments P X x.hg) :
    x.var = some (∫ ω, (x.hg.rv X ω - ∫ ω', x.hg.rv X ω' ∂P) ^ 2 ∂P) := by
  rw [UReal2.var, m_two hv, integral_central h hm _ (by norm_num), (integral_rv h hm).2, E_central2]

/-- **C25** `s()` is the standard deviation. -/
theorem C25_s {x : UReal2 ℝ} (hv : x.hg.Valid) (h : StdIndep P X x.hg.vars) (hm : HasMoments P X x.hg) :
    x.s = some (Real.sqrt (∫ ω, (x.hg.rv X ω - ∫ ω', x.hg.rv X ω' ∂P) ^ 2 ∂P)) := by
  have := C25_var hv h hm
  rw [UReal2.var] at this
  rw [UReal2.s, this]; rfl

/-- **C26** `m(3)` is the third central moment of the quadratic expansion. -/
theorem C26_m3 {x : UReal2 ℝ} (hv : x.hg.Valid) (h : StdIndep P X x.hg.vars) (hm : HasMoments P X x.hg) :
    x.m 3 = some (∫ ω, (x.hg.rv X ω - ∫ ω', x.hg.rv X ω' ∂P) ^ 3 ∂P) := by
  rw [m_three hv, integral_central h hm _ (by norm_num), (integral_rv h hm).2, E_central3]

/-- **C27** `m(4)` is the fourth central moment of the quadratic expansion. -/
theorem C27_m4 {x : UReal2 ℝ} (hv : x.hg.Valid) (h : StdIndep P X x.hg.vars) (hm : HasMoments P X x.hg) :
    x.m 4 = some (∫ ω, (x.hg.rv X ω - ∫ ω', x.hg.rv X ω' ∂P) ^ 4 ∂P) := by
  rw [m_four hv, integral_central h hm _ (by norm_num), (integral_rv h hm).2, E_central4]

/-- **C26** `skew()` is the skewness of the expansion (when its variance is not 0). -/
theorem C26_skew {x : UReal2 ℝ} (hv : x.hg.Valid) (h : StdIndep P X x.hg.vars) (hm : HasMoments P X x.hg)
    (_h0 : ∫ ω, (x.hg.rv X ω - ∫ ω', x.hg.rv X ω' ∂P) ^ 2 ∂P ≠ 0) :
    x.skew = some ((∫ ω, (x.hg.rv X ω - ∫ ω', x.hg.rv X ω' ∂P) ^ 3 ∂P)
      / Real.sqrt (∫ ω, (x.hg.rv X ω - ∫ ω', x.hg.rv X ω' ∂P) ^ 2 ∂P) ^ 3) := by
  have hp : 0 ≤ ∫ ω, (x.hg.rv X ω - ∫ ω', x.hg.rv X ω' ∂P) ^ 2 ∂P := integral_nonneg fun ω => sq_nonneg _
  have h2 := C25_var hv h hm
  rw [UReal2.var] at h2
  rw [UReal2.skew, C26_m3 hv h hm, C25_s hv h hm, h2]
  simp only [Option.bind_some, Option.map_some]
  congr 2
  rw [pow_succ', Real.sq_sqrt hp]

/-- **C27** `kurt()` is the kurtosis of the expansion (when its variance is not 0). -/
theorem C27_kurt {x : UReal2 ℝ} (hv : x.hg.Valid) (h : StdIndep P X x.hg.vars) (hm : HasMoments P X x.hg)
    (_h0 : ∫ ω, (x.hg.rv X ω - ∫ ω', x.hg.rv X ω' ∂P) ^ 2 ∂P ≠ 0) :
    x.kurt = some ((∫ ω, (x.hg.rv X ω - ∫ ω', x.hg.rv X ω' ∂P) ^ 4 ∂P)
      / (∫ ω, (x.hg.rv X ω - ∫ ω', x.hg.rv X ω' ∂P) ^ 2 ∂P) ^ 2) := by
  have h2 := C25_var hv h hm
  rw [UReal2.var] at h2
  rw [UReal2.kurt, C27_m4 hv h hm, h2]
  simp only [Option.bind_some, Option.map_some, pow_two]

/-- **C25** The variance in terms of the coefficients, over any commutative ring. -/
theorem C25_closed {R : Type*} [CommRing R] {x : UReal2 R} (hv : x.hg.Valid) (v3 v4 : VId → R)
    (hm : ∀ i m, x.hg.momOf i = some m → v3 i = m.v3 ∧ v4 i = m.v4) :
    x.var = some ((∑ i ∈ x.hg.vars, (x.hg.G i ^ 2 + 2 * x.hg.G i * x.hg.H i i * v3 i + x.hg.H i i ^ 2 * (v4 i - 1)))
      + ∑ i ∈ x.hg.vars, ∑ j ∈ x.hg.vars, if i < j then (2 * x.hg.H i j) ^ 2 else 0) := by
  rw [UReal2.var, var_form hv, covForm]
  congr 2
  · refine Finset.sum_congr rfl fun i hi => ?_
    obtain ⟨e3, e4⟩ := hm i _ (momOf_dOf hi)
    simp only [mus, mseq, e3, e4]; ring
  · unfold Sums.S2
    refine Finset.sum_congr rfl fun i _ => Finset.sum_congr rfl fun j _ => ?_
    split
    · ring
    · rfl

example := C25_closed valid_exMx (fun _ => twoPointMom.v3) (fun _ => twoPointMom.v4) (fun i m h => by rw [mom_exMx i m h]; exact ⟨rfl, rfl⟩)

/-- The variance of the concrete value. -/
theorem var_exMx : exMx.var = some (2189 / 400) := by
  rw [C25_closed valid_exMx (fun _ => 3 / 2) (fun _ => 13 / 4) fun i m h => by
    rw [mom_exMx i m h]; exact ⟨rfl, rfl⟩]
  simp [exMx, vars, keys, HessGrad.H, HessGrad.G, find?, SMap.get, twoPointMom]
  norm_num

example : ∃ v, exMx.var = some v ∧ v ≠ 0
    ∧ v = ∫ ω, (exMx.hg.rv (fun i (ω : VId → ℝ) => ω i) ω
      - ∫ ω', exMx.hg.rv (fun i (ω : VId → ℝ) => ω i) ω' ∂Measure.infinitePi fun _ => twoPoint) ^ 2
        ∂Measure.infinitePi fun _ => twoPoint := by
  have h := C25_var valid_exMx (twoPoint_indep _) (twoPoint_has mom_exMx)
  rw [var_exMx] at h ⊢
  exact ⟨_, rfl, by norm_num, Option.some.inj h⟩
example := C25_s valid_exMx (twoPoint_indep _) (twoPoint_has mom_exMx)
example := C26_m3 valid_exMx (twoPoint_indep _) (twoPoint_has mom_exMx)
example := C27_m4 valid_exMx (twoPoint_indep _) (twoPoint_has mom_exMx)
example := C26_skew valid_exMx (twoPoint_indep _) (twoPoint_has mom_exMx) (by
  have h := C25_var valid_exMx (twoPoint_indep _) (twoPoint_has mom_exMx)
  rw [var_exMx] at h
  rw [← Option.some.inj h]; norm_num)
example := C27_kurt valid_exMx (twoPoint_indep _) (twoPoint_has mom_exMx) (by
  have h := C25_var valid_exMx (twoPoint_indep _) (twoPoint_has mom_exMx)
  rw [var_exMx] at h
  rw [← Option.some.inj h]; norm_num)

/-! ## C28: covariance -/

theorem union_left' {x y : HessGrad ℝ} (h : StdIndep P X (x.vars ∪ y.vars)) : StdIndep P X x.vars :=
  StdIndep.mono h Finset.subset_union_left
theorem union_right' {x y : HessGrad ℝ} (h : StdIndep P X (x.vars ∪ y.vars)) : StdIndep P X y.vars :=
  StdIndep.mono h Finset.subset_union_right

/-- **C28** `cov(x, y)` is the covariance of the two quadratic expansions. -/
theorem C28_cov {x y : UReal2 ℝ} (hx : x.hg.Valid) (hy : y.hg.Valid) (h : StdIndep P X (x.hg.vars ∪ y.hg.vars))
    (hmx : HasMoments P X x.hg) (hmy : HasMoments P X y.hg) :
    x.cov y = some (∫ ω, (x.hg.rv X ω - ∫ ω', x.hg.rv X ω' ∂P) * (y.hg.rv X ω - ∫ ω', y.hg.rv X ω' ∂P) ∂P) := by
  have hl := union_left' h
  have hr := union_right' h
  have hmu : ∀ i ∈ x.hg.vars ∪ y.hg.vars, ∀ k ≤ 8, ∫ ω, X i ω ^ k ∂P = mixMu x.hg y.hg i k := by
    intro i hi k hk
    unfold mixMu
    split_ifs with hix
    · exact mom_mus hl hmx i hix k hk
    · exact mom_mus hr hmy i ((Finset.mem_union.1 hi).resolve_left hix) k hk
  have hsx : poly x.hg ∈ MvPolynomial.supported ℝ ((x.hg.vars ∪ y.hg.vars : Finset VId) : Set VId) :=
    MvPolynomial.supported_mono (by simp) (poly_vars x.hg)
  have hsy : poly y.hg ∈ MvPolynomial.supported ℝ ((x.hg.vars ∪ y.hg.vars : Finset VId) : Set VId) :=
    MvPolynomial.supported_mono (by simp) (poly_vars y.hg)
  have ex := (integral_aeval h hmu (mixMu_0 _ _) hsx ((poly_degree _).trans (by norm_num))).2
  have ey := (integral_aeval h hmu (mixMu_0 _ _) hsy ((poly_degree _).trans (by norm_num))).2
  simp only [eval_poly] at ex ey
  generalize hc : (∫ ω', x.hg.rv X ω' ∂P) = c at *
  generalize hd : (∫ ω', y.hg.rv X ω' ∂P) = d at *
  have hs : (poly x.hg - MvPolynomial.C c) * (poly y.hg - MvPolynomial.C d)
      ∈ MvPolynomial.supported ℝ ((x.hg.vars ∪ y.hg.vars : Finset VId) : Set VId) :=
    Subalgebra.mul_mem _ (Subalgebra.sub_mem _ hsx (Subalgebra.algebraMap_mem _ c))
      (Subalgebra.sub_mem _ hsy (Subalgebra.algebraMap_mem _ d))
  have hdg : ((poly x.hg - MvPolynomial.C c) * (poly y.hg - MvPolynomial.C d)).totalDegree ≤ 8 :=
    (MvPolynomial.totalDegree_mul _ _).trans
      ((Nat.add_le_add (shift_degree _ _) (shift_degree _ _)).trans (by norm_num))
  have e := (integral_aeval h hmu (mixMu_0 _ _) hs hdg).2
  simp only [map_mul, map_sub, MvPolynomial.eval_C, eval_poly] at e
  rw [e, UReal2.cov, rawc2 hx hy (mixMu x.hg y.hg) (mixMu_1 _ _) (mixMu_2 _ _) (fun i hi _ => by
    simp [mixMu, hi, mus, mseq]), m_one hx, m_one hy, ← (integral_rv hl hmx).2, ← (integral_rv hr hmy).2, hc, hd]
  simp only [Option.bind_some, Option.map_some]
  have ep : (poly x.hg - MvPolynomial.C c) * (poly y.hg - MvPolynomial.C d)
      = poly x.hg * poly y.hg - MvPolynomial.C c * poly y.hg - MvPolynomial.C d * poly x.hg + MvPolynomial.C (c * d) := by
    rw [MvPolynomial.C_mul]; ring
  rw [ep, map_add, map_sub, map_sub, E_C_mul, E_C_mul, E_C, ← ex, ← ey]
  congr 1
  ring

section ring
variable {R : Type*} [CommRing R]

/-- **C28** Covariance is symmetric for values which agree on the moments of shared variables. -/
theorem C28_symm {x y : UReal2 R} (hx : x.hg.Valid) (hy : y.hg.Valid) (hag : AgreeMoments x.hg y.hg) :
    x.cov y = y.cov x := by
  rw [cov_form' hx hy hag (Finset.subset_union_left (s₂ := y.hg.vars)) Finset.subset_union_right,
    cov_form hy hx Finset.subset_union_right Finset.subset_union_left, covForm_comm]

/-- **C28** The covariance with itself is the variance. -/
theorem C28_self {x : UReal2 R} (hx : x.hg.Valid) : x.cov x = x.var := cov_self hx

/-- **C28** Values without common variables have covariance 0. -/
theorem C28_disjoint {x y : UReal2 R} (hx : x.hg.Valid) (hy : y.hg.Valid) (hd : Disjoint x.hg.vars y.hg.vars) :
    x.cov y = some 0 := by
  rw [cov_form hx hy (Finset.subset_union_left (s₂ := y.hg.vars)) Finset.subset_union_right]
  congr 1
  have hz : ∀ i, (x.hg.G i = 0 ∧ ∀ j, x.hg.H i j = 0) ∨ (y.hg.G i = 0 ∧ ∀ j, y.hg.H i j = 0) := by
    intro i
    by_cases h : i ∈ x.hg.vars
    · exact Or.inr ⟨G_out (Finset.disjoint_left.1 hd h), H_out hy (Finset.disjoint_left.1 hd h)⟩
    · exact Or.inl ⟨G_out h, H_out hx h⟩
  unfold covForm Sums.S2
  rw [Finset.sum_eq_zero, Finset.sum_eq_zero, zero_add]
  · intro i _
    refine Finset.sum_eq_zero fun j _ => ?_
    rcases hz i with ⟨-, h⟩ | ⟨-, h⟩ <;> simp [h]
  · intro i _
    rcases hz i with ⟨h1, h⟩ | ⟨h1, h⟩ <;> simp [h, h1]

/-- **C28** Without agreement on the moments of a shared variable the covariance is not symmetric: the moments
of the first operand are used. (The library never makes such values from its own variables, but
`internal` interfaces and number type conversions can.) -/
theorem C28_not_symm : ∃ x y : UReal2 ℚ, x.hg.Valid ∧ y.hg.Valid ∧ ¬ AgreeMoments x.hg y.hg ∧ x.cov y ≠ y.cov x := by
  refine ⟨⟨⟨[(1, ⟨1, 1, ⟨0, 3, 0, 15, 0, 105⟩⟩)], []⟩, 0⟩, ⟨⟨[(1, ⟨1, 1, ⟨0, 2, 0, 15, 0, 105⟩⟩)], []⟩, 0⟩,
    ⟨by simp [Sorted, keys], by simp [Sorted, keys], by simp [keys]⟩,
    ⟨by simp [Sorted, keys], by simp [Sorted, keys], by simp [keys]⟩, ?_, by decide +kernel⟩
  intro h
  have := h 1 _ _ rfl rfl
  simp at this

end ring

example := C28_cov valid_exMx valid_exMy (twoPoint_indep _) (twoPoint_has mom_exMx) (twoPoint_has mom_exMy)

theorem agree_exM : AgreeMoments exMx.hg exMy.hg := fun i ma mb ha hb =>
  (mom_exMx i ma ha).trans (mom_exMy i mb hb).symm

example : exMx.cov exMy = exMy.cov exMx := C28_symm valid_exMx valid_exMy agree_exM
example : exMx.cov exMx = exMx.var := C28_self valid_exMx
example : exMx.cov ⟨⟨[(2, ⟨1, 1, twoPointMom⟩)], []⟩, 0⟩ = some 0 :=
  C28_disjoint valid_exMx ⟨by simp [Sorted, keys], by simp [Sorted, keys], by simp [keys]⟩
    (by simp [exMx, vars, keys])

/-! ## C29: non-negative variance, bounded correlation -/

section ordered
variable {R : Type*} [Field R] [LinearOrder R] [IsStrictOrderedRing R]

/-- **C29** The variance is not negative. -/
theorem C29_var {x : UReal2 R} (hx : x.hg.Valid) (hs : SoundMoments x.hg) : ∃ v, x.var = some v ∧ 0 ≤ v := by
  refine ⟨_, var_form hx, (covForm_sq_le _ _ x.hg x.hg fun i hi => ?_).1⟩
  rcases hs i _ (momOf_dOf hi) with h | ⟨h1, h2⟩
  · left
    simpa [mus, mseq, pow_two] using h
  · exact Or.inr ⟨h1, h2, h1, h2⟩

theorem mix_sound {x y : HessGrad R} (hx : x.Valid) (hy : y.Valid) (hag : AgreeMoments x y) (hsx : SoundMoments x)
    (hsy : SoundMoments y) (i : VId) (hi : i ∈ x.vars ∪ y.vars) :
    mixMu x y i 3 ^ 2 + 1 ≤ mixMu x y i 4 ∨ (x.G i = 0 ∧ x.H i i = 0 ∧ y.G i = 0 ∧ y.H i i = 0) := by
  by_cases hix : i ∈ x.vars
  · have e : mixMu x y i = mseq (x.dOf i).mom := by simp [mixMu, hix, mus]
    rw [e]
    rcases hsx i _ (momOf_dOf hix) with h | ⟨h1, h2⟩
    · left; simpa [mseq, pow_two] using h
    · by_cases hiy : i ∈ y.vars
      · rw [hag i _ _ (momOf_dOf hix) (momOf_dOf hiy)]
        rcases hsy i _ (momOf_dOf hiy) with h | ⟨h3, h4⟩
        · left; simpa [mseq, pow_two] using h
        · exact Or.inr ⟨h1, h2, h3, h4⟩
      · exact Or.inr ⟨h1, h2, G_out hiy, H_out hy hiy i⟩
  · have hiy := (Finset.mem_union.1 hi).resolve_left hix
    have e : mixMu x y i = mseq (y.dOf i).mom := by simp [mixMu, hix, mus]
    rw [e]
    rcases hsy i _ (momOf_dOf hiy) with h | ⟨h1, h2⟩
    · left; simpa [mseq, pow_two] using h
    · exact Or.inr ⟨G_out hix, H_out hx hix i, h1, h2⟩

/-- **C29** The square of the covariance is at most the product of the variances. -/
theorem C29_cov_sq {x y : UReal2 R} (hx : x.hg.Valid) (hy : y.hg.Valid) (hag : AgreeMoments x.hg y.hg)
    (hsx : SoundMoments x.hg) (hsy : SoundMoments y.hg) :
    ∃ c vx vy, x.cov y = some c ∧ x.var = some vx ∧ y.var = some vy ∧ 0 ≤ vx ∧ 0 ≤ vy ∧ c ^ 2 ≤ vx * vy := by
  obtain ⟨h1, h2, h3⟩ := covForm_sq_le (mixMu x.hg y.hg) (x.hg.vars ∪ y.hg.vars) x.hg y.hg
    (mix_sound hx hy hag hsx hsy)
  refine ⟨_, _, _, cov_form hx hy Finset.subset_union_left Finset.subset_union_right, ?_, ?_, h1, h2, h3⟩
  · rw [UReal2.var, ← cov_self hx]
    refine cov_mix hx hx _ (mixMu_1 _ _) (mixMu_2 _ _) (fun i hi _ => ?_) Finset.subset_union_left
      Finset.subset_union_left
    simp [mixMu, hi, mus, mseq]
  · rw [UReal2.var, ← cov_self hy]
    refine cov_mix hy hy _ (mixMu_1 _ _) (mixMu_2 _ _) (fun i hi _ => ?_) Finset.subset_union_right
      Finset.subset_union_right
    unfold mixMu
    split_ifs with h
    · simp [mus, mseq, hag i _ _ (momOf_dOf h) (momOf_dOf hi)]
    · simp [mus, mseq]

end ordered

/-- **C29** `|corr(x, y)| <= 1` when neither standard deviation is 0. -/
theorem C29_corr {x y : UReal2 ℝ} (hx : x.hg.Valid) (hy : y.hg.Valid) (hag : AgreeMoments x.hg y.hg)
    (hsx : SoundMoments x.hg) (hsy : SoundMoments y.hg) (h0x : x.s ≠ some 0) (h0y : y.s ≠ some 0) :
    ∃ r, x.corr y = some r ∧ |r| ≤ 1 := by
  obtain ⟨c, vx, vy, hc, hvx, hvy, h1, h2, h3⟩ := C29_cov_sq hx hy hag hsx hsy
  rw [UReal2.var] at hvx hvy
  have hsx' : x.s = some (Real.sqrt vx) := by rw [UReal2.s, hvx]; rfl
  have hsy' : y.s = some (Real.sqrt vy) := by rw [UReal2.s, hvy]; rfl
  refine ⟨c / (Real.sqrt vx * Real.sqrt vy), by rw [UReal2.corr, hc, hsx', hsy']; rfl, ?_⟩
  have px : 0 < Real.sqrt vx := lt_of_le_of_ne (Real.sqrt_nonneg _) fun h => h0x (by rw [hsx', ← h])
  have py : 0 < Real.sqrt vy := lt_of_le_of_ne (Real.sqrt_nonneg _) fun h => h0y (by rw [hsy', ← h])
  rw [abs_div, abs_of_pos (mul_pos px py), div_le_one (mul_pos px py), ← Real.sqrt_mul h1]
  exact Real.abs_le_sqrt h3

theorem sound_exMx : SoundMoments exMx.hg := fun i m h => by
  rw [mom_exMx i m h]; left; norm_num [twoPointMom]
theorem sound_exMy : SoundMoments exMy.hg := fun i m h => by
  rw [mom_exMy i m h]; left; norm_num [twoPointMom]

theorem var_exMy : ∃ v, exMy.var = some v ∧ 0 < v := by
  rw [C25_closed valid_exMy (fun _ => 3 / 2) (fun _ => 13 / 4) fun i m h => by
    rw [mom_exMy i m h]; exact ⟨rfl, rfl⟩]
  refine ⟨_, rfl, ?_⟩
  simp [exMy, vars, keys, HessGrad.H, HessGrad.G, find?, SMap.get, twoPointMom]
  norm_num

example : ∃ v, exMx.var = some v ∧ 0 ≤ v := C29_var valid_exMx sound_exMx
example := C29_cov_sq valid_exMx valid_exMy agree_exM sound_exMx sound_exMy
example : ∃ r, exMx.corr exMy = some r ∧ |r| ≤ 1 := by
  refine C29_corr valid_exMx valid_exMy agree_exM sound_exMx sound_exMy ?_ ?_
  · have := var_exMx
    rw [UReal2.var] at this
    rw [UReal2.s, this]
    simp only [Option.map_some, ne_eq, Option.some.injEq]
    exact (Real.sqrt_pos.2 (by norm_num)).ne'
  · obtain ⟨v, h, hp⟩ := var_exMy
    rw [UReal2.var] at h
    rw [UReal2.s, h]
    simp only [Option.map_some, ne_eq, Option.some.injEq]
    exact (Real.sqrt_pos.2 hp).ne'

/-- **C29** Without the condition on the moments the variance can be negative: the check in the constructors is
needed. -/
theorem C29_needs_check : ∃ x : UReal2 ℚ, x.hg.Valid ∧ ∃ v, x.var = some v ∧ v < 0 :=
  ⟨⟨⟨[(1, ⟨0, 1, ⟨0, 0, 0, 0, 0, 0⟩⟩)], []⟩, 0⟩,
    ⟨by simp [Sorted, keys], by simp [Sorted, keys], by simp [keys]⟩, -1, by decide +kernel, by norm_num⟩

end Unc.Props
