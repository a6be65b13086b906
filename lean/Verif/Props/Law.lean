import Verif.Props.AutoDiff
import Verif.Lemmas.Law

/-!
# C67: what the uncertainties of the first order class mean for random variables

The measured quantities are random variables `mu i + s i * Z i`, the standardised errors `Z i` being independent.  Computations are
those of C13.
-/

namespace Unc.Props
open Unc Unc.Spec UReal MeasureTheory ProbabilityTheory Filter Topology
variable {Ω : Type*} [MeasurableSpace Ω] {P : Measure Ω} {n : ℕ} {Z : Fin n → Ω → ℝ}

section helpers
variable {ids : Fin n → ℤ} {mu s : Fin n → ℝ} {G : (Fin n → ℝ) → ℝ} {u : UReal ℝ}

theorem Rel.s_eq (hinj : Function.Injective ids) (h : Rel ids mu s G u) {L : (Fin n → ℝ) →L[ℝ] ℝ} (hL : HasFDerivAt G L mu) :
    var u = ∑ i, (L (Pi.single i 1) * s i) ^ 2 ∧ u.s = Real.sqrt (∑ i, (L (Pi.single i 1) * s i) ^ 2) := by
  have hv : var u = ∑ i, (L (Pi.single i 1) * s i) ^ 2 := by
    rw [← C02_cov_self h.ok.valid, cov_of_rel hinj h h, hL.fderiv]
    exact Finset.sum_congr rfl fun i _ => by ring
  exact ⟨hv, by rw [UReal.s_eq h.ok.valid, ← var_eq h.ok.valid, hv]⟩

theorem apply_eq_sum (L : (Fin n → ℝ) →L[ℝ] ℝ) (v : Fin n → ℝ) : L v = ∑ i, v i * L (Pi.single i 1) := by
  conv_lhs => rw [← Finset.univ_sum_single v]
  rw [map_sum]
  refine Finset.sum_congr rfl fun i _ => ?_
  rw [← smul_eq_mul, ← L.map_smul, ← Pi.single_smul, smul_eq_mul, mul_one]

/-- the differential quotient along the errors -/
theorem law_slope {L : (Fin n → ℝ) →L[ℝ] ℝ} (hL : HasFDerivAt G L mu) (ω : Ω) :
    Tendsto (fun t : ℝ => (G (quantity mu (t • s) Z ω) - G mu) / t) (𝓝[≠] 0) (𝓝 (combo (fun i => L (Pi.single i 1) * s i) Z ω)) := by
  have h1 : HasDerivAt (fun t : ℝ => mu + t • (fun i => s i * Z i ω)) (fun i => s i * Z i ω) 0 := by
    simpa using ((hasDerivAt_id (0 : ℝ)).smul_const (fun i => s i * Z i ω)).const_add mu
  have h2 : HasDerivAt (fun t : ℝ => G (mu + t • (fun i => s i * Z i ω))) (L fun i => s i * Z i ω) 0 :=
    HasFDerivAt.comp_hasDerivAt (0 : ℝ) (by simpa using hL) h1
  have h3 := hasDerivAt_iff_tendsto_slope.1 h2
  have e : L (fun i => s i * Z i ω) = combo (fun i => L (Pi.single i 1) * s i) Z ω := by
    rw [apply_eq_sum]
    exact Finset.sum_congr rfl fun i _ => by ring
  rw [e] at h3
  refine h3.congr fun t => ?_
  simp only [slope_def_field, sub_zero, zero_smul, add_zero]
  congr 3
  funext i
  simp [quantity, mul_assoc]

/-- what shrinking uncertainties do to a result -/
theorem law_shrink (hinj : Function.Injective ids) (hpos : ∀ i, 0 < ids i) (hlt : ∀ i, ids i < maxId) {p : List Node} (hp : NodesRight p (vars mu))
    {k : ℕ} {out : ℝ → UReal ℝ} (hout : ∀ t, ∃ o, evalU p (elems ids mu (t • s)) = some o ∧ o[k]? = some (out t)) :
    ∃ a : Fin n → ℝ, (∀ t, (out t).n = fn p k mu) ∧ (out 1).s = Real.sqrt (∑ i, a i ^ 2) ∧ (∀ t, 0 < t → (out t).s = t * (out 1).s) ∧
      ∀ (Z : Fin n → Ω → ℝ) (ω : Ω), Tendsto (fun t : ℝ => (fn p k (quantity mu (t • s) Z ω) - fn p k mu) / t) (𝓝[>] 0) (𝓝 (combo a Z ω)) := by
  have hr : ∀ t, Rel ids mu (t • s) (fn p k) (out t) := by
    intro t
    obtain ⟨o, e, ho⟩ := hout t
    obtain ⟨o', e', -, hr⟩ := prog_rel hinj hpos hlt mu (t • s) p hp
    obtain rfl : o = o' := Option.some_inj.1 (e.symm.trans e')
    obtain ⟨hk, ho⟩ := List.getElem?_eq_some_iff.1 ho
    exact ho ▸ hr k hk
  obtain ⟨L, hL, -⟩ := (hr 0).grad
  have hs : ∀ t, (out t).s = |t| * Real.sqrt (∑ i, (L (Pi.single i 1) * s i) ^ 2) := by
    intro t
    rw [(Rel.s_eq hinj (hr t) hL).2, ← Real.sqrt_sq_eq_abs, ← Real.sqrt_mul (sq_nonneg t), Finset.mul_sum]
    congr 1
    exact Finset.sum_congr rfl fun i _ => by simp only [Pi.smul_apply, smul_eq_mul]; ring
  refine ⟨fun i => L (Pi.single i 1) * s i, fun t => (hr t).mean, by rw [hs]; simp, fun t ht => ?_, fun Z ω => ?_⟩
  · rw [hs, hs 1, abs_of_pos ht]; simp
  · exact (law_slope hL ω).mono_left (nhdsWithin_mono _ fun t ht => ne_of_gt ht)

theorem law_outs (hinj : Function.Injective ids) (hpos : ∀ i, 0 < ids i) (hlt : ∀ i, ids i < maxId) (s : Fin n → ℝ) {p : List Node}
    (hp : NodesRight p (vars mu)) {k : ℕ} (hk : k < n + p.length) :
    ∃ out : ℝ → UReal ℝ, ∀ t, ∃ o, evalU p (elems ids mu (t • s)) = some o ∧ o[k]? = some (out t) := by
  have h : ∀ t : ℝ, ∃ x, ∃ o, evalU p (elems ids mu (t • s)) = some o ∧ o[k]? = some x := fun t => by
    obtain ⟨o, e, hl, -⟩ := prog_rel hinj hpos hlt mu (t • s) p hp
    exact ⟨_, o, e, List.getElem?_eq_getElem (hl ▸ hk)⟩
  choose out hout using h
  exact ⟨out, hout⟩

theorem measurable_quantity (hm : ∀ i, Measurable (Z i)) : Measurable (quantity mu s Z) :=
  measurable_pi_lambda _ fun i => ((hm i).const_mul (s i)).const_add (mu i)

end helpers

section
variable (ids : Fin n → ℤ) (hinj : Function.Injective ids) (hpos : ∀ i, 0 < ids i) (hlt : ∀ i, ids i < maxId)
  (mu s : Fin n → ℝ) (p : List Node) (hp : NodesRight p (vars mu))
include hinj hpos hlt hp

/-- **C67** If the functions computed are affine, mean, variance and covariance are those of the random variables, whatever the distribution of
the errors. -/
theorem C67_affine (hZ : Errors P Z) {k l : ℕ} (hk : k < n + p.length) (hl : l < n + p.length) {a b : Fin n → ℝ} {a0 b0 : ℝ}
    (ha : ∀ v : Fin n → ℝ, fn p k v = a0 + ∑ i, a i * v i) (hb : ∀ v : Fin n → ℝ, fn p l v = b0 + ∑ i, b i * v i) :
    ∃ out x y, evalU p (elems ids mu s) = some out ∧ out[k]? = some x ∧ out[l]? = some y ∧
      ∫ ω, fn p k (quantity mu s Z ω) ∂P = x.n ∧
      Var[fun ω => fn p k (quantity mu s Z ω); P] = var x ∧
      cov[fun ω => fn p k (quantity mu s Z ω), fun ω => fn p l (quantity mu s Z ω); P] = cov x y := by
  have hPr := hZ.prob
  obtain ⟨out, e, hlen, hr⟩ := prog_rel hinj hpos hlt mu s p hp
  have aff : ∀ {G : (Fin n → ℝ) → ℝ} {c : Fin n → ℝ} {c0 : ℝ}, (∀ v, G v = c0 + ∑ i, c i * v i) →
      HasFDerivAt G (∑ i, c i • ContinuousLinearMap.proj (R := ℝ) (φ := fun _ : Fin n => ℝ) i) mu ∧
      (∀ i, (∑ i, c i • ContinuousLinearMap.proj (R := ℝ) (φ := fun _ : Fin n => ℝ) i) (Pi.single i 1) = c i) ∧
      (fun ω => G (quantity mu s Z ω)) = fun ω => G mu + combo (fun i => c i * s i) Z ω := by
    intro G c c0 h
    refine ⟨?_, fun i => ?_, ?_⟩
    · have : G = fun v => c0 + (∑ i, c i • ContinuousLinearMap.proj (R := ℝ) (φ := fun _ : Fin n => ℝ) i) v := by
        funext v
        simp [h v, ContinuousLinearMap.sum_apply]
      rw [this]
      exact (ContinuousLinearMap.hasFDerivAt _).const_add c0
    · simp [ContinuousLinearMap.sum_apply, Pi.single_apply]
    · funext ω
      rw [h, h]
      simp only [quantity, combo, mul_add, Finset.sum_add_distrib, add_assoc, mul_assoc]
  obtain ⟨ka, kc, kq⟩ := aff ha
  obtain ⟨la, lc, lq⟩ := aff hb
  have rk := hr k (hlen ▸ hk)
  have rl := hr l (hlen ▸ hl)
  refine ⟨out, _, _, e, List.getElem?_eq_getElem (hlen ▸ hk), List.getElem?_eq_getElem (hlen ▸ hl), ?_, ?_, ?_⟩
  · rw [kq, integral_add (integrable_const _) ((hZ.memLp _).integrable one_le_two), hZ.integral_combo, rk.mean]
    simp
  · rw [kq, variance_const_add (hZ.memLp _).aestronglyMeasurable, hZ.variance, (Rel.s_eq hinj rk ka).1]
    simp only [kc]
  · rw [kq, lq, covariance_const_add_left ((hZ.memLp _).integrable one_le_two), covariance_const_add_right ((hZ.memLp _).integrable one_le_two), hZ.cov, cov_of_rel hinj rk rl, ka.fderiv, la.fderiv]
    simp only [kc, lc]
    exact Finset.sum_congr rfl fun i _ => by ring

/-- **C67** For any functions: let the uncertainties law_shrink as `t * s`.  The deviations from the mean, divided by `t`, tend for every outcome to random
variables with mean 0 and the variances and covariances of the results of the library. -/
theorem C67_limit (hZ : Errors P Z) :
    ∃ (out : List (UReal ℝ)) (W : ℕ → Ω → ℝ), evalU p (elems ids mu s) = some out ∧ out.length = n + p.length ∧
      ∀ (k : ℕ) (hk : k < out.length), (∀ ω, Tendsto (fun t : ℝ => (fn p k (quantity mu (t • s) Z ω) - out[k].n) / t) (𝓝[≠] 0) (𝓝 (W k ω))) ∧
        ∫ ω, W k ω ∂P = 0 ∧ Var[W k; P] = var out[k] ∧ ∀ (l : ℕ) (hl : l < out.length), cov[W k, W l; P] = cov out[k] out[l] := by
  obtain ⟨out, e, hlen, hr⟩ := prog_rel hinj hpos hlt mu s p hp
  refine ⟨out, fun k => combo (fun i => fderiv ℝ (fn p k) mu (Pi.single i 1) * s i) Z, e, hlen, fun k hk => ?_⟩
  have rk := hr k hk
  obtain ⟨L, hL, -⟩ := rk.grad
  refine ⟨fun ω => ?_, hZ.integral_combo _, ?_, fun l hl => ?_⟩
  · simp only [rk.mean, hL.fderiv]
    exact law_slope hL ω
  · rw [hZ.variance, (Rel.s_eq hinj rk hL).1, hL.fderiv]
  · rw [hZ.cov, cov_of_rel hinj rk (hr l hl)]
    exact Finset.sum_congr rfl fun i _ => by ring

/-- **C67** Chebyshev: in the limit of small uncertainties a result lies outside `n ± c * s` with probability at most `1 / c²`, whatever the distribution
of the errors. -/
theorem C67_chebyshev (hZ : Errors P Z) {k : ℕ} (hk : k < n + p.length) (hm : Measurable (fn (n := n) p k))
    {c : ℝ} (hc : 0 < c) {ε : ℝ} (hε : 0 < ε) :
    ∃ out : ℝ → UReal ℝ, (∀ t, ∃ o, evalU p (elems ids mu (t • s)) = some o ∧ o[k]? = some (out t)) ∧ ((out 1).s ≠ 0 →
      ∀ᶠ t in 𝓝[>] 0, P.real {ω | c * (out t).s ≤ |fn p k (quantity mu (t • s) Z ω) - (out t).n|} ≤ 1 / c ^ 2 + ε) := by
  obtain ⟨out, hout⟩ := law_outs hinj hpos hlt s hp hk
  refine ⟨out, hout, fun h1 => ?_⟩
  have hPr := hZ.prob
  obtain ⟨a, hn, h1', hst, ht⟩ := law_shrink (Ω := Ω) hinj hpos hlt hp hout
  have hσ : 0 < (out 1).s := lt_of_le_of_ne (by rw [h1']; exact Real.sqrt_nonneg _) (Ne.symm h1)
  set W := combo a Z with hW
  have mW : Measurable W := measurable_combo hZ.meas a
  have mF : ∀ t : ℝ, Measurable fun ω => fn p k (quantity mu (t • s) Z ω) := fun t => hm.comp (measurable_quantity hZ.meas)
  let A : Set Ω := {ω | c * (out 1).s ≤ |W ω|}
  let B : ℝ → Set Ω := fun t => {ω | c * (out t).s ≤ |fn p k (quantity mu (t • s) Z ω) - (out t).n|}
  have mB : ∀ t, MeasurableSet (B t) := fun t => measurableSet_le measurable_const ((mF t).sub measurable_const).abs
  have hlim : Tendsto (fun t => P (B t ∪ A)) (𝓝[>] 0) (𝓝 (P A)) := by
    refine tendsto_measure_of_ae_tendsto_indicator_of_isFiniteMeasure _ (measurableSet_le measurable_const mW.abs)
      (fun t => (mB t).union (measurableSet_le measurable_const mW.abs)) (Eventually.of_forall fun ω => ?_)
    by_cases h : ω ∈ A
    · exact Eventually.of_forall fun t => ⟨fun _ => h, fun _ => Or.inr h⟩
    · have h2 : |W ω| < c * (out 1).s := not_le.1 h
      have h3 := ((ht Z ω).abs.eventually (gt_mem_nhds h2))
      filter_upwards [h3, self_mem_nhdsWithin] with t h4 h5
      have h5 : 0 < t := h5
      refine ⟨fun h6 => h6.resolve_left fun h7 => ?_, fun h6 => Or.inr h6⟩
      have h7 : c * (out t).s ≤ |fn p k (quantity mu (t • s) Z ω) - (out t).n| := h7
      rw [hst t h5, hn] at h7
      rw [abs_div, abs_of_pos h5, div_lt_iff₀ h5] at h4
      nlinarith
  have hA : P.real A ≤ 1 / c ^ 2 := by
    have h2 := meas_ge_le_variance_div_sq (hZ.memLp a) (c := c * (out 1).s) (by positivity)
    rw [hZ.integral_combo] at h2
    simp only [sub_zero] at h2
    have h3 : P.real A ≤ Var[combo a Z; P] / (c * (out 1).s) ^ 2 := by
      rw [Measure.real]
      exact ENNReal.toReal_le_of_le_ofReal (div_nonneg (variance_nonneg _ _) (sq_nonneg _)) h2
    refine h3.trans (le_of_eq ?_)
    have h4 : Var[combo a Z; P] = (out 1).s ^ 2 := by
      rw [hZ.variance, h1', Real.sq_sqrt (Finset.sum_nonneg fun i _ => sq_nonneg _)]
    rw [h4]
    field_simp
  have hlim' : Tendsto (fun t => P.real (B t ∪ A)) (𝓝[>] 0) (𝓝 (P.real A)) :=
    (ENNReal.tendsto_toReal (measure_ne_top P A)).comp hlim
  filter_upwards [hlim'.eventually (gt_mem_nhds (lt_add_of_pos_right (P.real A) hε))] with t h2
  calc P.real (B t) ≤ P.real (B t ∪ A) := measureReal_mono Set.subset_union_left
    _ ≤ P.real A + ε := h2.le
    _ ≤ 1 / c ^ 2 + ε := by gcongr

/-- **C67** Coverage: if the errors are normal, the probability that a result lies in `n ± c * s` tends to that of the interval `± c` for the standard normal
distribution. -/
theorem C67_coverage (hi : iIndepFun Z P) (hZ : ∀ i, Measurable (Z i)) (hg : ∀ i, P.map (Z i) = gaussianReal 0 1)
    {k : ℕ} (hk : k < n + p.length) (hm : Measurable (fn (n := n) p k))
    (c : ℝ) :
    ∃ out : ℝ → UReal ℝ, (∀ t, ∃ o, evalU p (elems ids mu (t • s)) = some o ∧ o[k]? = some (out t)) ∧ ((out 1).s ≠ 0 →
      Tendsto (fun t : ℝ => P {ω | |fn p k (quantity mu (t • s) Z ω) - (out t).n| ≤ c * (out t).s}) (𝓝[>] 0)
        (𝓝 (gaussianReal 0 1 (Set.Icc (-c) c)))) := by
  obtain ⟨out, hout⟩ := law_outs hinj hpos hlt s hp hk
  refine ⟨out, hout, fun h1 => ?_⟩
  have hE := errors_of_gaussian hi hZ hg
  have hPr := hE.prob
  obtain ⟨a, hn, h1', hst, ht⟩ := law_shrink (Ω := Ω) hinj hpos hlt hp hout
  have hσ : 0 < (out 1).s := lt_of_le_of_ne (by rw [h1']; exact Real.sqrt_nonneg _) (Ne.symm h1)
  have hσ2 : ∑ i, a i ^ 2 = (out 1).s ^ 2 := by rw [h1', Real.sq_sqrt (Finset.sum_nonneg fun i _ => sq_nonneg _)]
  generalize (out 1).s = σ at hσ hst hσ2
  have mW : Measurable (combo a Z) := measurable_combo hZ a
  have mF : ∀ t : ℝ, Measurable fun ω => fn p k (quantity mu (t • s) Z ω) := fun t => hm.comp (measurable_quantity hZ)
  have law : P.map (combo a Z) = (gaussianReal 0 1).map fun x => σ * x := by
    rw [map_combo hi hZ hg, gaussianReal_map_const_mul, hσ2]
    congr 1
    · simp
    · ext
      simp [Real.coe_toNNReal _ (sq_nonneg σ)]
  have hA : P {ω | |combo a Z ω| ≤ c * σ} = gaussianReal 0 1 (Set.Icc (-c) c) := by
    have : {ω | |combo a Z ω| ≤ c * σ} = combo a Z ⁻¹' {x | |x| ≤ c * σ} := rfl
    have ms : MeasurableSet {x : ℝ | |x| ≤ c * σ} := measurableSet_le (by fun_prop) measurable_const
    rw [this, ← Measure.map_apply mW ms, law, Measure.map_apply (measurable_const_mul σ) ms]
    congr 1
    ext x
    simp only [Set.mem_preimage, Set.mem_setOf_eq, abs_mul, abs_of_pos hσ, Set.mem_Icc]
    rw [mul_comm σ, mul_le_mul_iff_left₀ hσ, abs_le]
  have hnull : ∀ y, P {ω | combo a Z ω = y} = 0 := by
    intro y
    have : {ω | combo a Z ω = y} = combo a Z ⁻¹' {y} := rfl
    rw [this, ← Measure.map_apply mW (measurableSet_singleton y), map_combo hi hZ hg]
    have := nullSingletonClass_gaussianReal (μ := 0) (v := (∑ i, a i ^ 2).toNNReal) (by rw [hσ2]; simp; positivity)
    exact measure_singleton y
  rw [← hA]
  refine tendsto_measure_of_ae_tendsto_indicator_of_isFiniteMeasure _ (measurableSet_le mW.abs measurable_const)
    (fun t => measurableSet_le ((mF t).sub measurable_const).abs measurable_const) ?_
  have hne : ∀ᵐ ω ∂P, |combo a Z ω| ≠ c * σ := by
    have h2 : ∀ᵐ ω ∂P, combo a Z ω ≠ c * σ := by rw [ae_iff]; simpa using hnull (c * σ)
    have h3 : ∀ᵐ ω ∂P, combo a Z ω ≠ -(c * σ) := by rw [ae_iff]; simpa using hnull (-(c * σ))
    filter_upwards [h2, h3] with ω h4 h5 h6
    rcases abs_choice (combo a Z ω) with h7 | h7
    · exact h4 (h7 ▸ h6)
    · exact h5 (by rw [← h6, h7]; ring)
  filter_upwards [hne] with ω hω
  have key : ∀ t, 0 < t → (|fn p k (quantity mu (t • s) Z ω) - (out t).n| ≤ c * (out t).s ↔
      |(fn p k (quantity mu (t • s) Z ω) - fn p k mu) / t| ≤ c * σ) := by
    intro t h5
    rw [hst t h5, hn, abs_div, abs_of_pos h5, div_le_iff₀ h5]
    constructor <;> intro h6 <;> nlinarith
  rcases lt_or_gt_of_ne hω with h2 | h2
  · filter_upwards [(ht Z ω).abs.eventually (gt_mem_nhds h2), self_mem_nhdsWithin] with t h4 h5
    rw [key t h5]
    exact ⟨fun _ => h2.le, fun _ => h4.le⟩
  · filter_upwards [(ht Z ω).abs.eventually (lt_mem_nhds h2), self_mem_nhdsWithin] with t h4 h5
    rw [key t h5]
    exact ⟨fun h => absurd h (not_le.2 h4), fun h => absurd h (not_le.2 h2)⟩
end

/-- independent standard normal variables -/
noncomputable abbrev exP : Measure (Fin 2 → ℝ) := Measure.pi fun _ => gaussianReal 0 1

theorem exP_indep : iIndepFun (fun (i : Fin 2) (ω : Fin 2 → ℝ) => ω i) exP :=
  iIndepFun_pi (X := fun _ x => x) fun _ => measurable_id.aemeasurable

theorem exP_law (i : Fin 2) : exP.map (fun ω => ω i) = gaussianReal 0 1 :=
  (measurePreserving_eval (fun _ : Fin 2 => gaussianReal 0 1) i).map_eq

theorem exP_errors : Errors exP fun (i : Fin 2) ω => ω i :=
  errors_of_gaussian exP_indep (fun i => measurable_pi_apply i) exP_law

theorem exNodes_right : NodesRight exNodes (vars ![1, 2]) := by
  simp only [exNodes, vars, NodesRight]
  refine ⟨by simp, by simp, C14_mul _ _, by simp, C14_sin _, by simp, by simp, C14_add _ _, by simp, by simp, C14_div ?_, trivial⟩
  norm_num

theorem exNodes_meas : Measurable (fn (n := 2) exNodes 6) := by
  have : fn (n := 2) exNodes 6 = fun v => Real.sin (v 0 * v 1) / (v 0 + 3) := by
    funext v
    simp [fn, evalR, exNodes, vars]
  rw [this]
  fun_prop

/-- x y of two normal variables: the interval `n ± 2 s` -/
example : ∃ out : ℝ → UReal ℝ, (∀ t, ∃ o, evalU [.bin UReal.mul (fun s t => s * t) 0 1] (elems ![1, 2] ![1, 2] (t • ![1, 1 / 2])) = some o ∧
    o[2]? = some (out t)) ∧
    Tendsto (fun t : ℝ => exP {ω | |fn [.bin UReal.mul (fun s t => s * t) 0 1] 2 (quantity ![1, 2] (t • ![1, 1 / 2]) (fun i ω => ω i) ω) - (out t).n| ≤ 2 * (out t).s})
      (𝓝[>] 0) (𝓝 (gaussianReal 0 1 (Set.Icc (-2) 2))) := by
  have hf : fn (n := 2) [.bin UReal.mul (fun s t => s * t) 0 1] 2 = fun v => v 0 * v 1 := by
    funext v
    simp [fn, evalR, vars]
  have hr : NodesRight [.bin UReal.mul (fun s t => s * t) 0 1] (vars ![1, 2]) := by
    simp only [vars, NodesRight]
    exact ⟨by simp, by simp, C14_mul _ _, trivial⟩
  obtain ⟨out, h, c⟩ := C67_coverage ![1, 2] (by decide) (by decide) (by decide) ![1, 2] ![1, 1 / 2] [.bin UReal.mul (fun s t => s * t) 0 1] hr
    exP_indep (fun i => measurable_pi_apply i) exP_law (k := 2) (by simp) (by rw [hf]; fun_prop) 2
  refine ⟨out, h, c fun h0 => ?_⟩
  obtain ⟨o, e, ho⟩ := h 1
  obtain ⟨o', e', -, rel⟩ := prog_rel (ids := ![1, 2]) (by decide) (by decide) (by decide) ![1, 2] ((1 : ℝ) • ![1, 1 / 2]) _ hr
  obtain rfl : o = o' := Option.some_inj.1 (e.symm.trans e')
  obtain ⟨hk, ho⟩ := List.getElem?_eq_some_iff.1 ho
  have r := rel 2 hk
  rw [ho, hf] at r
  have := (Rel.s_eq (by decide) r ((hasFDerivAt_apply 0 _).mul (hasFDerivAt_apply 1 _))).2
  rw [h0, eq_comm, Real.sqrt_eq_zero'] at this
  norm_num [Fin.sum_univ_two] at this
/-- the same interval for sin(x y) / (x + 3), in the limit -/
example : ∃ out : ℝ → UReal ℝ, (∀ t, ∃ o, evalU exNodes (elems ![1, 2] ![1, 2] (t • ![1, 1 / 2])) = some o ∧ o[6]? = some (out t)) ∧ ((out 1).s ≠ 0 →
    Tendsto (fun t : ℝ => exP {ω | |fn exNodes 6 (quantity ![1, 2] (t • ![1, 1 / 2]) (fun i ω => ω i) ω) - (out t).n| ≤ 2 * (out t).s}) (𝓝[>] 0)
      (𝓝 (gaussianReal 0 1 (Set.Icc (-2) 2)))) :=
  C67_coverage ![1, 2] (by decide) (by decide) (by decide) ![1, 2] ![1, 1 / 2] exNodes exNodes_right exP_indep (fun i => measurable_pi_apply i) exP_law
    (by simp [exNodes]) exNodes_meas 2
/-- 3 x - y, exactly, any uncertainties -/
noncomputable def exLin : List Node := [.const 3, .bin UReal.mul (fun s t => s * t) 2 0, .bin UReal.sub (fun s t => s - t) 3 1]
example : ∃ out x y, evalU exLin (elems ![1, 2] ![1, 2] ![5, 7]) = some out ∧ out[4]? = some x ∧ out[1]? = some y ∧
    ∫ ω, fn exLin 4 (quantity ![1, 2] ![5, 7] (fun (i : Fin 2) ω => ω i) ω) ∂exP = x.n ∧
    Var[fun ω => fn exLin 4 (quantity ![1, 2] ![5, 7] (fun (i : Fin 2) ω => ω i) ω); exP] = var x ∧
    cov[fun ω => fn exLin 4 (quantity ![1, 2] ![5, 7] (fun (i : Fin 2) ω => ω i) ω),
      fun ω => fn exLin 1 (quantity ![1, 2] ![5, 7] (fun (i : Fin 2) ω => ω i) ω); exP] = cov x y :=
  C67_affine ![1, 2] (by decide) (by decide) (by decide) ![1, 2] ![5, 7] exLin
    (by
      simp only [vars, NodesRight, exLin]
      exact ⟨by simp, by simp, C14_mul _ _, by simp, by simp, C14_sub _ _, trivial⟩)
    exP_errors (k := 4) (l := 1) (by simp [exLin]) (by simp [exLin]) (a := ![3, -1]) (b := ![0, 1]) (a0 := 0) (b0 := 0)
    (fun v => by simp [fn, evalR, vars, exLin]; ring) (fun v => by simp [fn, evalR, vars, exLin])
example : ∃ (out : List (UReal ℝ)) (W : (Fin 2 → ℝ) → ℝ), evalU exNodes (elems ![1, 2] ![1, 2] ![1, 1 / 2]) = some out ∧ ∃ hk : 6 < out.length,
    (∀ ω, Tendsto (fun t : ℝ => (fn exNodes 6 (quantity ![1, 2] (t • ![1, 1 / 2]) (fun i ω => ω i) ω) - out[6].n) / t) (𝓝[≠] 0) (𝓝 (W ω))) ∧
    Var[W; exP] = var out[6] := by
  obtain ⟨out, W, e, hl, h⟩ := C67_limit ![1, 2] (by decide) (by decide) (by decide) ![1, 2] ![1, 1 / 2] exNodes exNodes_right exP_errors
  exact ⟨out, W 6, e, by rw [hl]; simp [exNodes], (h 6 _).1, (h 6 _).2.2.1⟩
example : ∃ out : ℝ → UReal ℝ, (∀ t, ∃ o, evalU exNodes (elems ![1, 2] ![1, 2] (t • ![1, 1 / 2])) = some o ∧ o[6]? = some (out t)) ∧ ((out 1).s ≠ 0 →
    ∀ᶠ t in 𝓝[>] 0, exP.real {ω | 10 * (out t).s ≤ |fn exNodes 6 (quantity ![1, 2] (t • ![1, 1 / 2]) (fun i ω => ω i) ω) - (out t).n|} ≤ 1 / 10 ^ 2 + 1 / 1000) :=
  C67_chebyshev ![1, 2] (by decide) (by decide) (by decide) ![1, 2] ![1, 1 / 2] exNodes exNodes_right exP_errors (by simp [exNodes]) exNodes_meas (by norm_num) (by norm_num)

end Unc.Props
