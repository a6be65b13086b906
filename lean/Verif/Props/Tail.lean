import Verif.Lemmas.Tail
import Verif.Props.Law
import Verif.Props.Law2False
import Verif.Props.Repro

/-!
# C100: how often a quantity is away from the mean reported, in units of the uncertainty reported
-/

namespace Unc.Props
open Unc Unc.Spec SMap HessGrad MeasureTheory ProbabilityTheory Mom Sums
open scoped ENNReal

section second
variable {n : ℕ} {Ω : Type*} [MeasurableSpace Ω] {P : Measure Ω} {X : Fin n → Ω → ℝ} {ids : Fin n → VId} {mu s : Fin n → ℝ} {mom : Fin n → Moments ℝ}
  {p : List Node2} {k : ℕ} {F : (Fin n → ℝ) → ℝ}

theorem errors_memLp (hX : Errors8 P X mom) (i : Fin n) : MemLp (X i) 8 P := by
  rw [← integrable_norm_rpow_iff (hX.meas i).aestronglyMeasurable (by norm_num) (by norm_num)]
  have : (fun ω => ‖X i ω‖ ^ (8 : ℝ≥0∞).toReal) = fun ω => X i ω ^ 8 := by
    funext ω
    rw [show (8 : ℝ≥0∞).toReal = ((8 : ℕ) : ℝ) by simp, Real.rpow_natCast, Real.norm_eq_abs]
    exact (show Even 8 by decide).pow_abs _
  rw [this]
  exact hX.int i 8 le_rfl

theorem quadr_memLp (hX : Errors8 P X mom) (c : ℝ) (b : Fin n → ℝ) (a : Fin n → Fin n → ℝ) : MemLp (fun ω => quadr c b a fun i => X i ω) 4 P := by
  have := hX.prob
  have hh : ENNReal.HolderTriple 8 8 4 := ⟨by
    have : (8 : ℝ≥0∞)⁻¹ = 2⁻¹ * 4⁻¹ := by
      rw [← ENNReal.mul_inv (by norm_num) (by norm_num)]; norm_num
    rw [this, ← add_mul, ENNReal.inv_two_add_inv_two, one_mul]⟩
  have h4 : ∀ i, MemLp (X i) 4 P := fun i => (errors_memLp hX i).mono_exponent (by norm_num)
  have h2 : ∀ i j, MemLp (fun ω => a i j * X i ω * X j ω) 4 P := fun i j =>
    (errors_memLp hX j).mul' ((errors_memLp hX i).const_mul (a i j))
  exact ((memLp_const c).add (memLp_finset_sum _ fun i _ => (h4 i).const_mul (b i))).add
    (memLp_finset_sum _ fun i _ => memLp_finset_sum _ fun j _ => h2 i j)

theorem int_of_memLp [IsProbabilityMeasure P] {Q : Ω → ℝ} (h : MemLp Q 4 P) (m : ℝ) :
    Integrable (fun ω => Q ω - m) P ∧ Integrable (fun ω => (Q ω - m) ^ 2) P ∧ Integrable (fun ω => (Q ω - m) ^ 4) P := by
  have h4 : MemLp (fun ω => Q ω - m) 4 P := h.sub (memLp_const m)
  have h2 : MemLp (fun ω => Q ω - m) 2 P := h4.mono_exponent (by norm_num)
  refine ⟨h4.integrable (by norm_num), h2.integrable_sq, ?_⟩
  have := MemLp.integrable_norm_pow (p := 4) (f := fun ω => Q ω - m) (by exact_mod_cast h4) (by norm_num)
  refine this.congr (Filter.Eventually.of_forall fun ω => ?_)
  show ‖Q ω - m‖ ^ 4 = _
  rw [Real.norm_eq_abs]
  exact (show Even 4 by decide).pow_abs _

theorem reports_tails [IsProbabilityMeasure P] {x : UReal2 ℝ} {Q : Ω → ℝ} (h : Reports P x Q) (hQ : MemLp Q 4 P) (h0 : x.s ≠ some 0) :
    ∃ m sd k, x.n .mean = some m ∧ x.s = some sd ∧ x.kurt = some k ∧ Tails P Q m sd ∧ Tails4 P Q m sd k := by
  obtain ⟨i1, i2, i4⟩ := int_of_memLp hQ (∫ ω, Q ω ∂P)
  have V0 : 0 ≤ central P Q 2 := integral_nonneg fun ω => sq_nonneg _
  have hV : 0 < central P Q 2 := lt_of_le_of_ne V0 fun e => h0 (by rw [h.s, ← e, Real.sqrt_zero])
  have e1 : ∫ ω, (Q ω - ∫ ω', Q ω' ∂P) ∂P = 0 := by
    rw [integral_sub h.int (integrable_const _)]; simp
  refine ⟨_, _, _, h.mean, h.s, h.kurt hV.ne', Tail.tails i1 i2 e1 rfl hV, Tail.tails4 i2 i4 rfl ?_ hV⟩
  rw [div_mul_cancel₀ _ (by positivity)]
  rfl

/-- **C100** (partial) If the function computed is a polynomial of degree at most 2, and there is only one variable or the iteration over the Hessian works at every node: whatever the
distribution of the errors with the moments given, the mean, the uncertainty and the kurtosis reported bound the probability that the quantity is more than `c` uncertainties away from the
mean, above and, for `c < 1`, below.  Missing: the other computations, for which it is false, see `C100_false`. -/
theorem C100_second_partial (hinj : Function.Injective ids) (hlt : ∀ i, ids i < maxId) (hp : NodesRight2 p (List.ofFn mu))
    (hi : n ≤ 1 ∨ NodesIter p (elems2 ids mu s mom)) (hX : Errors8 P X mom) (hk : Computes p k F) (hF : Quadratic F) :
    ∃ out, evalU2 p (elems2 ids mu s mom) = some out ∧ ((out.getD k (UReal2.const 0)).s ≠ some 0 →
      ∃ m sd kt, (out.getD k (UReal2.const 0)).n .mean = some m ∧ (out.getD k (UReal2.const 0)).s = some sd ∧ (out.getD k (UReal2.const 0)).kurt = some kt ∧
        Tails P (fun ω => F fun i => mu i + s i * X i ω) m sd ∧ Tails4 P (fun ω => F fun i => mu i + s i * X i ω) m sd kt) := by
  have := hX.prob
  obtain ⟨out, e, h, -⟩ := C70_exact_partial hinj hlt hp hi hX hk hk hF hF
  refine ⟨out, e, reports_tails h ?_⟩
  obtain ⟨c, b, a, hq⟩ := quad_quadr hF mu s
  simp only [hq]
  exact quadr_memLp hX c b a

/-- **C100** In particular for all computations with `+`, `-`, `*` and constants. -/
theorem C100_polynomial (hinj : Function.Injective ids) (hlt : ∀ i, ids i < maxId) (hp : ∀ nd ∈ p, PolyNode nd) (hr : InRange p n)
    (hX : Errors8 P X mom) (hk : Computes p k F) (hF : Quadratic F) :
    ∃ out, evalU2 p (elems2 ids mu s mom) = some out ∧ ((out.getD k (UReal2.const 0)).s ≠ some 0 →
      ∃ m sd kt, (out.getD k (UReal2.const 0)).n .mean = some m ∧ (out.getD k (UReal2.const 0)).s = some sd ∧ (out.getD k (UReal2.const 0)).kurt = some kt ∧
        Tails P (fun ω => F fun i => mu i + s i * X i ω) m sd ∧ Tails4 P (fun ω => F fun i => mu i + s i * X i ω) m sd kt) :=
  C100_second_partial hinj hlt (poly_right p hp _ (by simpa using hr)) (Or.inr (poly_iter p hp _)) hX hk hF

end second

section first
variable {n : ℕ} {Ω : Type*} [MeasurableSpace Ω] {P : Measure Ω} {Z : Fin n → Ω → ℝ}

/-- **C100** First order: if the function computed is affine, the bounds hold for all distributions of the errors, for each number of variables and whatever the steps of the computation. -/
theorem C100_affine {ids : Fin n → ℤ} (hinj : Function.Injective ids) (hpos : ∀ i, 0 < ids i) (hlt : ∀ i, ids i < maxId) {mu s : Fin n → ℝ} {p : List Node}
    (hp : NodesRight p (Spec.vars mu)) (hZ : Errors P Z) {k : ℕ} (hk : k < n + p.length) {a : Fin n → ℝ} {a0 : ℝ}
    (ha : ∀ v : Fin n → ℝ, fn p k v = a0 + ∑ i, a i * v i) :
    ∃ out x, evalU p (elems ids mu s) = some out ∧ out[k]? = some x ∧ (x.s ≠ 0 → Tails P (fun ω => fn p k (quantity mu s Z ω)) x.n x.s) := by
  have hP := hZ.indep.isProbabilityMeasure
  obtain ⟨out, x, -, e, ex, -, hm, hv, -⟩ := C67_affine ids hinj hpos hlt mu s p hp hZ hk hk ha ha
  obtain ⟨out', e', hlen, hr⟩ := prog_rel hinj hpos hlt mu s p hp
  obtain rfl : out = out' := Option.some_inj.1 (e.symm.trans e')
  obtain ⟨hk', rfl⟩ := List.getElem?_eq_some_iff.1 ex
  have ok := (hr k hk').ok.valid
  refine ⟨out, _, e, ex, fun h0 => ?_⟩
  have hs : out[k].s = Real.sqrt (UReal.var out[k]) := by rw [UReal.s_eq ok, ← UReal.var_eq ok]
  have hQ : MemLp (fun ω => fn p k (quantity mu s Z ω)) 2 P := by
    simp only [ha, quantity]
    exact (memLp_const a0).add (memLp_finset_sum _ fun i _ => ((memLp_const (mu i)).add ((hZ.sq i).const_mul (s i))).const_mul (a i))
  have hQ1 : Integrable (fun ω => fn p k (quantity mu s Z ω)) P := hQ.integrable one_le_two
  have i2 : MemLp (fun ω => fn p k (quantity mu s Z ω) - out[k].n) 2 P := hQ.sub (memLp_const _)
  have e1 : ∫ ω, (fn p k (quantity mu s Z ω) - out[k].n) ∂P = 0 := by
    rw [integral_sub hQ1 (integrable_const _), hm]; simp
  have e2 : ∫ ω, (fn p k (quantity mu s Z ω) - out[k].n) ^ 2 ∂P = UReal.var out[k] := by
    rw [← hv, variance_eq_integral hQ.aemeasurable, hm]
  rw [hs] at h0 ⊢
  exact Tail.tails (i2.integrable one_le_two) i2.integrable_sq e1 e2 (Real.sqrt_ne_zero'.1 h0)

end first

/-! ## where it fails -/

/-- the moments of a variable which is 1 or -1 with the same probability -/
def signMom : Moments ℝ := ⟨0, 1, 0, 1, 0, 1⟩

/-- **C100** False in general: for two variables which are 1 or -1, with the right moments, the square of `x + y` through `uunary2` is reported as 2 without uncertainty, while it always is
0 or 4.  So the quantity is never in the interval. -/
theorem C100_false (u : Moments ℝ) : ∃ S z, UReal2.add u (elem2 1 0 1 signMom) (elem2 2 0 1 signMom) = some S ∧
    UFun2.uunary2 u (fun t => t ^ 2) (fun t => 2 * t) (fun _ => 2) S = some z ∧ z.n .mean = some 2 ∧ z.s = some 0 ∧
    ∀ a b : ℝ, (a = 1 ∨ a = -1) → (b = 1 ∨ b = -1) → |((0 + 1 * a) + (0 + 1 * b)) ^ 2 - 2| = 2 := by
  have o1 : Ok2 (elem2 1 0 1 signMom) := ok_elem2 (by decide) 0 1 _
  have o2 : Ok2 (elem2 2 0 1 signMom) := ok_elem2 (by decide) 0 1 _
  obtain ⟨S, eS, okS⟩ := C21_binary o1 o2 (0 + 0 : ℝ) 1 1 0 0 0
  have hS : UReal2.add u (elem2 1 0 1 signMom) (elem2 2 0 1 signMom) = some S := eS u
  obtain ⟨mS, GS, vS, pS⟩ := C22_binary o1 o2 (eS u)
  have dS := (C23_add o1 o2 hS).2.2
  have mS' : S.mu = 0 := by rw [mS]; norm_num
  obtain ⟨z, ez, okz⟩ := C21_unary okS (0 : ℝ) 0 2
  obtain ⟨mz, Gz, vz, pz⟩ := C22_unary okS (ez u)
  have dz := C23_unary_behaviour okS (by norm_num) (ez u)
  have hmix := (C23_function_of_sum (i := 1) (j := 2) (by decide) (by decide) _ _ 0 0 _ _ _ (by norm_num) hS (ez u)).1
  have zS : ∀ a b, D2 S a b = 0 := fun a b => by rw [dS, D2, D2, H_elem2, H_elem2]; ring
  have gS : ∀ i : VId, i = 1 ∨ i = 2 → S.hg.G i = 1 := by
    rintro i (rfl | rfl) <;> rw [GS, G_elem2, G_elem2] <;> simp
  have v12 : S.hg.vars = {1, 2} := by rw [vS]; simp [elem2, HessGrad.vars]
  have mom12 : ∀ i : VId, i = 1 ∨ i = 2 → S.hg.momOf i = some signMom := by
    rintro i (rfl | rfl) <;> rw [pS] <;> simp [elem2, HessGrad.momOf, find?]
  have hi : ∀ i : VId, i = 1 ∨ i = 2 → z.hg.G i = 0 ∧ z.hg.H i i = 1 ∧ z.hg.momOf i = some signMom := by
    intro i hi
    refine ⟨by rw [Gz, zero_mul], ?_, by rw [pz, mom12 i hi]⟩
    have := dz.1 i
    rw [zS, gS i hi, D2] at this
    linarith
  have h2 := pair_m2 okz (vz.trans v12) hi (by rw [D2] at hmix; linarith : z.hg.H 1 2 = 0)
  have h1 : Mom.m1 z.hg = 2 := by
    rw [Mom.m1_eq okz.valid, vz.trans v12, Finset.sum_pair (by decide), ← Mom.H_self, ← Mom.H_self, (hi 1 (Or.inl rfl)).2.1, (hi 2 (Or.inr rfl)).2.1]
    norm_num
  refine ⟨S, z, hS, ?_, ?_, ?_, ?_⟩
  · rw [← ez u]
    simp [UFun2.uunary2, mS']
  · have e1 : Mom.compute z.hg 1 = some (Mom.m1 z.hg) := rfl
    have e : z.m 1 = some 2 := by simp [UReal2.m, UReal2.momArray, UReal2.updateMom, e1, h1]
    rw [UReal2.n, e, mz]
    simp
  · rw [UReal2.s, h2]
    simp [signMom, CSqrt.sqrt]
  · rintro a b (rfl | rfl) (rfl | rfl) <;> norm_num

/-! Hypotheses can be met. -/

/-- a variable with a skewed distribution: its uncertainty is not 0, and it is at most with probability 1/5 two uncertainties above the mean (this is so with probability exactly 1/5) -/
example : (Measure.infinitePi fun _ : VId => Mom.twoPoint).real {ω : VId → ℝ | 3 + 2 * 2 ≤ 3 + 2 * ω 1} ≤ 1 / 5 := by
  obtain ⟨out, e, h⟩ := C100_polynomial (ids := ![1]) (mu := ![3]) (s := ![2]) (p := []) (k := 0) (F := fun y : Fin 1 → ℝ => y 0) (by decide) (by decide) (by simp)
    (by simp [InRange]) (errors_twoPoint (ids := ![1]) (by decide)) (fun y => by simp [evalR2]) ⟨0, ![1], 0, fun y => by simp⟩
  obtain ⟨hn, h2, -⟩ := elem_m (i := 1) (by decide) 3 2 Mom.twoPointMom
  have eo : out = [elem2 1 3 2 Mom.twoPointMom] := by
    simpa [evalU2, elems2] using e.symm
  have hs : (elem2 1 3 2 Mom.twoPointMom).s = some 2 := by
    rw [UReal2.s, h2]
    show some (Real.sqrt _) = _
    rw [Real.sqrt_sq (by norm_num)]
  subst eo
  obtain ⟨m, sd, kt, em, es, -, ht, -⟩ := h (by
    show (elem2 1 3 2 Mom.twoPointMom).s ≠ some 0
    rw [hs]; simp)
  obtain rfl : 3 = m := Option.some_inj.1 (hn.symm.trans em)
  obtain rfl : 2 = sd := Option.some_inj.1 (hs.symm.trans es)
  have := ht.above 2 (by norm_num)
  norm_num at this ⊢
  exact this

/-- `x * x + x * y` for two variables with a skewed distribution -/
example := C100_polynomial (ids := ![1, 2]) (mu := ![3, 4]) (s := ![1, 2]) (by decide) (by decide) exBias_poly (by simp [exBias, InRange])
  (errors_twoPoint (ids := ![1, 2]) (by decide)) exBias_fn exBias_quad

/-- one variable, and a function which is not written as a polynomial: `pow(x, 2)` -/
example (m s : ℝ) (hm : m ≠ 0) := C100_second_partial (ids := ![4]) (mu := ![m]) (s := ![s])
  (p := [.un (fun x => UMath2.pow exN x (UReal2.const ((2 : ℤ) : ℝ))) (fun t => t ^ (2 : ℤ)) 0]) (by decide) (by decide)
  ⟨by simp, C35_pow_int _ 2 (by simpa using hm), trivial⟩ (Or.inl le_rfl) (errors_twoPoint (ids := ![4]) (by decide))
  (F := fun y : Fin 1 → ℝ => y 0 ^ (2 : ℤ)) (k := 1) (fun y => by simp [evalR2]) ⟨0, 0, ![![1]], fun y => by simp [pow_two]⟩

/-- the sum of two normal variables -/
example : ∃ out x, evalU [.bin UReal.add (fun s t => s + t) 0 1] (elems ![1, 2] ![1, 2] ![1, 1 / 2]) = some out ∧ out[2]? = some x ∧
    (x.s ≠ 0 → Tails exP (fun ω => fn [.bin UReal.add (fun s t => s + t) 0 1] 2 (quantity ![1, 2] ![1, 1 / 2] (fun i ω => ω i) ω)) x.n x.s) :=
  C100_affine (by decide) (by decide) (by decide) (by simp only [Spec.vars, NodesRight]; exact ⟨by simp, by simp, C14_add _ _, trivial⟩) exP_errors (by simp) (a := ![1, 1]) (a0 := 0)
    fun v => by simp [fn, evalR, Spec.vars, Fin.sum_univ_two]

end Unc.Props
