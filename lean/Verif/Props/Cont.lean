import Verif.Lemmas.Cont
import Verif.Props.Larger
import Verif.Props.Bias
import Verif.Props.AutoDiff
import Mathlib.Analysis.InnerProductSpace.PiL2

/-!
# C98: small changes of the data give small changes of the results
-/

namespace Unc.Props
open Unc Unc.Spec Unc.Cont UReal Filter Topology
variable {n : ℕ} {ids : Fin n → VId}

/-! ## first order -/

/-- **C98** First order: means, variances, uncertainties, covariances, and correlations of results with an uncertainty are continuous functions of the means and
uncertainties of the variables, where the functions computed are continuously differentiable and all steps pass on the right derivatives. -/
theorem C98_first (hinj : Function.Injective ids) (hpos : ∀ i, 0 < ids i) (hlt : ∀ i, ids i < maxId) {p : List Node} {d : Data n}
    (hp : ∀ᶠ mu in 𝓝 d.1, NodesRight p (vars mu)) {k l : ℕ} (hk : k < n + p.length) (hl : l < n + p.length)
    (hF : ContDiffAt ℝ 1 (fn (n := n) p k) d.1) (hG : ContDiffAt ℝ 1 (fn (n := n) p l) d.1) :
    ContAt (fun e => (result1 p ids k e).map UReal.n) d ∧ ContAt (fun e => (result1 p ids k e).map UReal.var) d ∧
    ContAt (fun e => (result1 p ids k e).map UReal.s) d ∧
    ContAt (fun e => (result1 p ids k e).bind fun x => (result1 p ids l e).map fun y => cov x y) d ∧
    ((∃ x y, result1 p ids k d = some x ∧ result1 p ids l d = some y ∧ x.s ≠ 0 ∧ y.s ≠ 0) →
      ContAt (fun e => (result1 p ids k e).bind fun x => (result1 p ids l e).map fun y => corr x y) d) := by
  set V : ℕ → ℕ → Data n → ℝ := fun k l e => ∑ i, fderiv ℝ (fn p k) e.1 (Pi.single i 1) * fderiv ℝ (fn p l) e.1 (Pi.single i 1) * e.2 i ^ 2 with hV
  have cd : ∀ {k : ℕ}, ContDiffAt ℝ 1 (fn (n := n) p k) d.1 → ∀ i : Fin n, ContinuousAt (fun e : Data n => fderiv ℝ (fn p k) e.1 (Pi.single i 1)) d := by
    intro k hF i
    have h1 : ContinuousAt (fun e : Data n => fderiv ℝ (fn p k) e.1) d :=
      ContinuousAt.comp (f := fun e : Data n => e.1) (hF.fderiv_right (m := 0) (by norm_num)).continuousAt continuousAt_fst
    exact h1.clm_apply continuousAt_const
  have cV : ∀ {k l : ℕ}, ContDiffAt ℝ 1 (fn (n := n) p k) d.1 → ContDiffAt ℝ 1 (fn (n := n) p l) d.1 → ContinuousAt (V k l) d := fun h h' =>
    tendsto_finsetSum _ fun i _ => ((cd h i).mul (cd h' i)).mul (by fun_prop : ContinuousAt (fun e : Data n => e.2 i ^ 2) d)
  have val : ∀ᶠ e in 𝓝 d, ∃ x y, result1 p ids k e = some x ∧ result1 p ids l e = some y ∧ x.n = fn p k e.1 ∧ var x = V k k e ∧
      x.s = Real.sqrt (V k k e) ∧ y.s = Real.sqrt (V l l e) ∧ cov x y = V k l e := by
    have hp' : ∀ᶠ e : Data n in 𝓝 d, NodesRight p (vars e.1) := continuousAt_fst.eventually hp
    filter_upwards [hp'] with e he
    obtain ⟨out, eo, hlen, h⟩ := first_s hinj hpos hlt e.1 e.2 he
    have gk : out[k]? = some out[k] := List.getElem?_eq_getElem (by omega)
    have gl : out[l]? = some out[l] := List.getElem?_eq_getElem (by omega)
    obtain ⟨h1, h2, h3, h4⟩ := h k _ gk
    obtain ⟨-, -, h3', -⟩ := h l _ gl
    have sq : ∀ k, ∑ i, (fderiv ℝ (fn p k) e.1 (Pi.single i 1)) ^ 2 * e.2 i ^ 2 = V k k e := fun k => Finset.sum_congr rfl fun i _ => by ring
    exact ⟨_, _, by rw [result1, eo]; exact gk, by rw [result1, eo]; exact gl, h1, by rw [h2, sq], by rw [h3, sq], by rw [h3', sq], h4 l _ gl⟩
  refine ⟨⟨fun e => fn p k e.1, ?_, ContinuousAt.comp (f := fun e : Data n => e.1) hF.continuousAt continuousAt_fst⟩, ⟨V k k, ?_, cV hF hF⟩,
    ⟨fun e => Real.sqrt (V k k e), ?_, (cV hF hF).sqrt⟩, ⟨V k l, ?_, cV hF hG⟩, ?_⟩
  · filter_upwards [val] with e ⟨x, y, ex, _, h, _⟩
    rw [ex]; simp [h]
  · filter_upwards [val] with e ⟨x, y, ex, _, _, h, _⟩
    rw [ex]; simp [h]
  · filter_upwards [val] with e ⟨x, y, ex, _, _, _, h, _⟩
    rw [ex]; simp [h]
  · filter_upwards [val] with e ⟨x, y, ex, ey, _, _, _, _, h⟩
    rw [ex, ey]; simp [h]
  · rintro ⟨x0, y0, ex0, ey0, hx0, hy0⟩
    refine ⟨fun e => V k l e / (Real.sqrt (V k k e) * Real.sqrt (V l l e)), ?_, (cV hF hG).div ((cV hF hF).sqrt.mul (cV hG hG).sqrt) ?_⟩
    · filter_upwards [val] with e ⟨x, y, ex, ey, _, _, h1, h2, h⟩
      rw [ex, ey]; simp [UReal.corr, h, h1, h2]
    · obtain ⟨x, y, ex, ey, -, -, h1, h2, -⟩ := val.self_of_nhds
      cases ex.symm.trans ex0
      cases ey.symm.trans ey0
      rw [← h1, ← h2]
      exact mul_ne_zero hx0 hy0

/-- `sin(x * y) / y` -/
noncomputable def contProg : List Node := [.bin UReal.mul (fun s t => s * t) 0 1, .un UMath.sin Real.sin 2, .bin UReal.div (fun s t => s / t) 3 1]

theorem contProg_right : ∀ᶠ mu in 𝓝 (![2, 5] : Fin 2 → ℝ), NodesRight contProg (vars mu) := by
  have h : ∀ᶠ mu in 𝓝 (![2, 5] : Fin 2 → ℝ), mu 1 ≠ 0 := (continuous_apply 1).continuousAt.eventually_ne (by simp)
  filter_upwards [h] with mu h
  simp only [contProg, Spec.vars, NodesRight]
  exact ⟨by simp, by simp, C14_mul _ _, by simp, C14_sin _, by simp, by simp, C14_div (by simpa [List.ofFn_succ] using h), trivial⟩

theorem contProg_smooth : ContDiffAt ℝ 1 (fn (n := 2) contProg 4) ![2, 5] := by
  have e : fn (n := 2) contProg 4 = fun v => Real.sin (v 0 * v 1) / v 1 := funext fun v => by simp [fn, contProg, Spec.vars, evalR, List.ofFn_succ]
  rw [e]
  have h1 : ContDiffAt ℝ 1 (fun v : Fin 2 → ℝ => Real.sin (v 0 * v 1)) ![2, 5] := by fun_prop
  exact h1.div (by fun_prop) (by simp)

/-- also where an uncertainty is 0 -/
example := C98_first (ids := ![1, 2]) (by decide) (by decide) (by decide) (d := (![2, 5], ![1, 0])) contProg_right (k := 4) (l := 4) (by simp [contProg])
  (by simp [contProg]) contProg_smooth contProg_smooth

/-- the uncertainty for three choices of the uncertainties of the variables -/
theorem sqrt_sum_near (c a b : Fin n → ℝ) : |Real.sqrt (∑ i, c i ^ 2 * a i ^ 2) - Real.sqrt (∑ i, c i ^ 2 * b i ^ 2)| ≤ Real.sqrt (∑ i, c i ^ 2 * |a i - b i| ^ 2) := by
  have e : ∀ u : Fin n → ℝ, Real.sqrt (∑ i, c i ^ 2 * u i ^ 2) = ‖WithLp.toLp 2 fun i => c i * u i‖ := fun u => by
    rw [EuclideanSpace.norm_eq]
    refine congrArg _ (Finset.sum_congr rfl fun i _ => ?_)
    rw [Real.norm_eq_abs, sq_abs, mul_pow]
  have e' : Real.sqrt (∑ i, c i ^ 2 * |a i - b i| ^ 2) = ‖WithLp.toLp 2 (fun i => c i * a i) - WithLp.toLp 2 fun i => c i * b i‖ := by
    rw [EuclideanSpace.norm_eq]
    refine congrArg _ (Finset.sum_congr rfl fun i _ => ?_)
    rw [Real.norm_eq_abs, sq_abs, sq_abs]
    simp only [PiLp.sub_apply]
    ring
  rw [e, e, e']
  exact abs_norm_sub_norm_le _ _

/-- **C98** First order: when the uncertainties of the variables are changed, the uncertainty of a result changes at most by what the changes would give if they were
uncertainties; and if they are all right within a fraction `ε`, so is the uncertainty of every result.  Any functions which pass on numbers depending on the means. -/
theorem C98_uncertainty (hinj : Function.Injective ids) (hpos : ∀ i, 0 < ids i) (hlt : ∀ i, ids i < maxId) (mu s s' : Fin n → ℝ) {p : List Node} (hp : NodesOfMean p n)
    {k : ℕ} (hk : k < n + p.length) : ∃ x x' y, result1 p ids k (mu, s) = some x ∧ result1 p ids k (mu, s') = some x' ∧
      result1 p ids k (mu, fun i => |s i - s' i|) = some y ∧ |x.s - x'.s| ≤ y.s ∧ ∀ ε : ℝ, 0 ≤ ε → (∀ i, |s i - s' i| ≤ ε * s i) → |x.s - x'.s| ≤ ε * x.s := by
  obtain ⟨q, l, e, r⟩ := nodes_right (p := p) (acc := Spec.vars mu) (by simpa [Spec.vars] using hp)
  have run : ∀ s : Fin n → ℝ, ∃ x, result1 p ids k (mu, s) = some x ∧ x.s = Real.sqrt (∑ i, (fderiv ℝ (fn q k) mu (Pi.single i 1)) ^ 2 * s i ^ 2) := by
    intro s
    obtain ⟨out, eo, hlen, h⟩ := first_s hinj hpos hlt mu s r
    have gk : out[k]? = some out[k] := List.getElem?_eq_getElem (by omega)
    exact ⟨_, by rw [result1, ← e, eo]; exact gk, (h k _ gk).2.2.1⟩
  obtain ⟨x, ex, hx⟩ := run s
  obtain ⟨x', ex', hx'⟩ := run s'
  obtain ⟨y, ey, hy⟩ := run fun i => |s i - s' i|
  have near : |x.s - x'.s| ≤ y.s := by rw [hx, hx', hy]; exact sqrt_sum_near _ _ _
  refine ⟨x, x', y, ex, ex', ey, near, fun ε hε h => near.trans ?_⟩
  rw [hy, hx]
  refine Real.sqrt_le_iff.2 ⟨by positivity, ?_⟩
  rw [mul_pow, Real.sq_sqrt (Finset.sum_nonneg fun i _ => by positivity), Finset.mul_sum]
  refine Finset.sum_le_sum fun i _ => ?_
  have := pow_le_pow_left₀ (abs_nonneg _) (h i) 2
  calc _ ≤ (fderiv ℝ (fn q k) mu (Pi.single i 1)) ^ 2 * (ε * s i) ^ 2 := mul_le_mul_of_nonneg_left this (sq_nonneg _)
    _ = _ := by ring

example := C98_uncertainty (ids := ![1, 2, 3]) (by decide) (by decide) (by decide) ![2, 3, 4] ![1, 0, 2] ![1, 1, 3] anyProg_ok (k := 5) (by simp [anyProg])

/-- with a tenth -/
example (i : Fin 3) : |(![1, 0, 2] : Fin 3 → ℝ) i - ![1.1, 0, 1.9] i| ≤ 0.1 * (![1, 0, 2] : Fin 3 → ℝ) i := by
  fin_cases i <;> norm_num [abs_of_nonneg, abs_of_neg]

/-! ## second order -/

theorem contValue_core {D : Type} [TopologicalSpace D] {d : D} {r : D → Option (UReal2 ℝ)} {a : D → ℝ} {M : ℕ → D → ℝ} (ha : ContinuousAt a d)
    (hM : ∀ k, 1 ≤ k → k ≤ 4 → ContinuousAt (M k) d)
    (val : ∀ᶠ e in 𝓝 d, ∃ x, r e = some x ∧ x.mu = a e ∧ ∀ k, 1 ≤ k → k ≤ 4 → x.m k = some (M k e)) : ContValue r d := by
  have pos : (∃ v, (r d).bind UReal2.var = some v ∧ 0 < v) → 0 < M 2 d := by
    rintro ⟨v, ev, hv⟩
    obtain ⟨x, ex, -, mx⟩ := val.self_of_nhds
    rw [ex, Option.bind_some, UReal2.var, mx 2 (by norm_num) (by norm_num)] at ev
    cases ev
    exact hv
  refine ⟨⟨a, ?_, ha⟩, fun mode => ?_, fun k h1 h4 => ⟨M k, ?_, hM k h1 h4⟩, ⟨M 2, ?_, hM 2 (by norm_num) (by norm_num)⟩, ⟨fun e => Real.sqrt (M 2 e), ?_, (hM 2 (by norm_num) (by norm_num)).sqrt⟩, fun hv => ?_, fun hv => ?_⟩
  · filter_upwards [val] with e ⟨x, ex, mx, _⟩
    rw [ex]; simp [mx]
  · refine ⟨fun e => match mode with | .est => a e + -(M 1 e) | .mean => a e + M 1 e, ?_, by cases mode <;> first | exact ha.add (hM 1 (by norm_num) (by norm_num)).neg | exact ha.add (hM 1 (by norm_num) (by norm_num))⟩
    filter_upwards [val] with e ⟨x, ex, mx, hm⟩
    rw [ex, Option.bind_some, UReal2.n, hm 1 (by norm_num) (by norm_num), mx]
    cases mode <;> rfl
  · filter_upwards [val] with e ⟨x, ex, _, hm⟩
    rw [ex, Option.bind_some, hm k h1 h4]
  · filter_upwards [val] with e ⟨x, ex, _, hm⟩
    rw [ex, Option.bind_some, UReal2.var, hm 2 (by norm_num) (by norm_num)]
  · filter_upwards [val] with e ⟨x, ex, _, hm⟩
    rw [ex, Option.bind_some, UReal2.s, hm 2 (by norm_num) (by norm_num)]
    rfl
  · have h0 := pos hv
    refine ⟨fun e => M 3 e / (Real.sqrt (M 2 e) * M 2 e), ?_, (hM 3 (by norm_num) (by norm_num)).div ((hM 2 (by norm_num) (by norm_num)).sqrt.mul (hM 2 (by norm_num) (by norm_num))) (mul_ne_zero (Real.sqrt_ne_zero'.2 h0) h0.ne')⟩
    filter_upwards [val] with e ⟨x, ex, _, hm⟩
    rw [ex, Option.bind_some, UReal2.skew, UReal2.s, hm 3 (by norm_num) (by norm_num), hm 2 (by norm_num) (by norm_num)]
    rfl
  · have h0 := pos hv
    refine ⟨fun e => M 4 e / (M 2 e * M 2 e), ?_, (hM 4 (by norm_num) (by norm_num)).div ((hM 2 (by norm_num) (by norm_num)).mul (hM 2 (by norm_num) (by norm_num))) (mul_ne_zero h0.ne' h0.ne')⟩
    filter_upwards [val] with e ⟨x, ex, _, hm⟩
    rw [ex, Option.bind_some, UReal2.kurt, hm 4 (by norm_num) (by norm_num), hm 2 (by norm_num) (by norm_num)]
    rfl

theorem contValue_of {D : Type} [TopologicalSpace D] {d : D} {r : D → Option (UReal2 ℝ)} {mom : Fin n → Moments ℝ} (hinj : Function.Injective ids) {a : D → ℝ}
    {g : D → Fin n → ℝ} {h : D → Fin n → Fin n → ℝ}
    (hr : ∀ᶠ e in 𝓝 d, ∃ x, r e = some x ∧ Mom.InTable ids mom x.hg ∧ x.mu = a e ∧ (∀ i, x.hg.G (ids i) = g e i) ∧ ∀ i j, x.hg.H (ids i) (ids j) = h e i j)
    (ha : ContinuousAt a d) (hg : ∀ i, ContinuousAt (fun e => g e i) d) (hh : ∀ i j, ContinuousAt (fun e => h e i j) d) : ContValue r d := by
  set M : ℕ → D → ℝ := fun k e => momP (fun i => Mom.mseq (mom i)) (g e) (h e) k
  have hM : ∀ k, ContinuousAt (M k) d := fun k => momP_cont _ hg hh k
  have val : ∀ᶠ e in 𝓝 d, ∃ x, r e = some x ∧ x.mu = a e ∧ ∀ k, 1 ≤ k → k ≤ 4 → x.m k = some (M k e) := by
    filter_upwards [hr] with e ⟨x, ex, tx, mx, gx, hx⟩
    refine ⟨x, ex, mx, fun k h1 h4 => ?_⟩
    rw [m_momP hinj tx h1 h4, funext gx, funext fun i => funext (hx i)]
  exact contValue_core ha (fun k _ _ => hM k) val

theorem contPair_core {D : Type} [TopologicalSpace D] {d : D} {r r' : D → Option (UReal2 ℝ)} {M M' V : D → ℝ} (hM : ContinuousAt M d) (hM' : ContinuousAt M' d)
    (hV : ContinuousAt V d)
    (val : ∀ᶠ e in 𝓝 d, ∃ x y, r e = some x ∧ r' e = some y ∧ x.m 2 = some (M e) ∧ y.m 2 = some (M' e) ∧ x.cov y = some (V e)) : ContPair r r' d := by
  refine ⟨⟨V, ?_, hV⟩, ?_⟩
  · filter_upwards [val] with e ⟨x, y, ex, ey, _, _, h⟩
    rw [ex, ey]; exact h
  · rintro ⟨v, w, ev, ew, hv, hw⟩
    refine ⟨fun e => V e / (Real.sqrt (M e) * Real.sqrt (M' e)), ?_, hV.div (hM.sqrt.mul hM'.sqrt) ?_⟩
    · filter_upwards [val] with e ⟨x, y, ex, ey, h1, h2, h⟩
      rw [ex, ey, Option.bind_some, Option.bind_some, UReal2.corr, UReal2.s, UReal2.s, h1, h2, h]
      rfl
    · obtain ⟨x, y, ex, ey, h1, h2, -⟩ := val.self_of_nhds
      rw [ex, Option.bind_some, UReal2.var, h1] at ev
      rw [ey, Option.bind_some, UReal2.var, h2] at ew
      cases ev
      cases ew
      exact mul_ne_zero (Real.sqrt_ne_zero'.2 hv) (Real.sqrt_ne_zero'.2 hw)

theorem contPair_of {D : Type} [TopologicalSpace D] {d : D} {r r' : D → Option (UReal2 ℝ)} {mom : Fin n → Moments ℝ} (hinj : Function.Injective ids)
    {g g' : D → Fin n → ℝ} {h h' : D → Fin n → Fin n → ℝ}
    (hr : ∀ᶠ e in 𝓝 d, ∃ x, r e = some x ∧ Mom.InTable ids mom x.hg ∧ (∀ i, x.hg.G (ids i) = g e i) ∧ ∀ i j, x.hg.H (ids i) (ids j) = h e i j)
    (hr' : ∀ᶠ e in 𝓝 d, ∃ x, r' e = some x ∧ Mom.InTable ids mom x.hg ∧ (∀ i, x.hg.G (ids i) = g' e i) ∧ ∀ i j, x.hg.H (ids i) (ids j) = h' e i j)
    (hg : ∀ i, ContinuousAt (fun e => g e i) d) (hh : ∀ i j, ContinuousAt (fun e => h e i j) d)
    (hg' : ∀ i, ContinuousAt (fun e => g' e i) d) (hh' : ∀ i j, ContinuousAt (fun e => h' e i j) d) : ContPair r r' d := by
  set M : D → ℝ := fun e => momP (fun i => Mom.mseq (mom i)) (g e) (h e) 2
  set M' : D → ℝ := fun e => momP (fun i => Mom.mseq (mom i)) (g' e) (h' e) 2
  set V : D → ℝ := fun e => covP mom ids (g e) (h e) (g' e) (h' e)
  have hM : ContinuousAt M d := momP_cont _ hg hh 2
  have hM' : ContinuousAt M' d := momP_cont _ hg' hh' 2
  have hV : ContinuousAt V d := covP_cont mom ids hg hh hg' hh'
  have val : ∀ᶠ e in 𝓝 d, ∃ x y, r e = some x ∧ r' e = some y ∧ x.m 2 = some (M e) ∧ y.m 2 = some (M' e) ∧ x.cov y = some (V e) := by
    filter_upwards [hr, hr'] with e ⟨x, ex, tx, gx, hx⟩ ⟨y, ey, ty, gy, hy⟩
    refine ⟨x, y, ex, ey, ?_, ?_, ?_⟩
    · rw [m_momP hinj tx (by norm_num) (by norm_num), funext gx, funext fun i => funext (hx i)]
    · rw [m_momP hinj ty (by norm_num) (by norm_num), funext gy, funext fun i => funext (hy i)]
    · rw [cov_covP hinj tx ty, funext gx, funext fun i => funext (hx i), funext gy, funext fun i => funext (hy i)]
  exact contPair_core hM hM' hV val

/-- **C98**, second order, the full statement: the results are continuous where the functions computed are twice continuously differentiable and every step passes on the right
derivatives.  It is false, see `C98_second_false`. -/
def C98_second_statement : Prop :=
  ∀ (n : ℕ) (ids : Fin n → VId) (mom : Fin n → Moments ℝ) (p : List Node2) (k : ℕ) (F : (Fin n → ℝ) → ℝ) (d : Data n), Function.Injective ids → (∀ i, ids i < maxId) →
    k < n + p.length → (∀ᶠ mu in 𝓝 d.1, NodesRight2 p (List.ofFn mu)) → Computes p k F → ContDiffAt ℝ 2 F d.1 → ContValue (result2 p ids mom k) d

variable {p : List Node2} {k l : ℕ} {F G : (Fin n → ℝ) → ℝ} {mom : Fin n → Moments ℝ} {d : Data n}

theorem result2_derivs (hinj : Function.Injective ids) (hlt : ∀ i, ids i < maxId) (hp : ∀ᶠ mu in 𝓝 d.1, NodesRight2 p (List.ofFn mu))
    (hi : n ≤ 1 ∨ ∀ᶠ e in 𝓝 d, NodesIter p (elems2 ids e.1 e.2 mom)) (hk : k < n + p.length) (hF : Computes p k F) (cF : ContDiffAt ℝ 2 F d.1) :
    ∀ᶠ e in 𝓝 d, ∃ x, result2 p ids mom k e = some x ∧ Mom.InTable ids mom x.hg ∧ x.mu = F e.1 ∧
      (∀ i, x.hg.G (ids i) = fderiv ℝ F e.1 (e.2 * Pi.single i 1)) ∧ ∀ i j, x.hg.H (ids i) (ids j) = hessP F e i j := by
  have hp' : ∀ᶠ e : Data n in 𝓝 d, NodesRight2 p (List.ofFn e.1) := continuousAt_fst.eventually hp
  have hc' : ∀ᶠ e : Data n in 𝓝 d, ContDiffAt ℝ 2 F e.1 := continuousAt_fst.eventually (cF.eventually (by simp))
  have hi' : ∀ᶠ e : Data n in 𝓝 d, n ≤ 1 ∨ NodesIter p (elems2 ids e.1 e.2 mom) := by
    rcases hi with h | h
    · exact Eventually.of_forall fun _ => Or.inl h
    · exact h.mono fun _ h => Or.inr h
  filter_upwards [hp', hc', hi'] with e he hc hie
  obtain ⟨out, eo, hlen, hx⟩ := C36_taylor_partial (mom := mom) (s := e.2) hinj hlt he hie
  have gk : out[k]? = some out[k] := List.getElem?_eq_getElem (by omega)
  have gD : out.getD k (UReal2.const 0) = out[k] := by rw [List.getD_eq_getElem?_getD, gk]; rfl
  have fx := evalU2_table hlt he eo k
  have ex := hx k
  rw [gD] at fx ex
  have ef : fn2 p e.1 e.2 k = fun z => F fun i => e.1 i + e.2 i * z i := funext fun z => hF _
  rw [ef] at ex
  exact ⟨_, by rw [result2]; exact (congrArg (fun o => o.bind fun out => out[k]?) eo).trans gk, ⟨fx.ok.valid, fx.mom⟩, (expands_derivs hc ex 0).1,
    fun i => expands_grad hc ex i, fun i j => expands_hess hc ex i j⟩

/-- **C98** (partial) Second order, if there is one variable or the iteration over the Hessian works at every step for all data nearby, as always with `+ - *`.
Missing: other computations, for which it is false. -/
theorem C98_second_partial (hinj : Function.Injective ids) (hlt : ∀ i, ids i < maxId) (hp : ∀ᶠ mu in 𝓝 d.1, NodesRight2 p (List.ofFn mu))
    (hi : n ≤ 1 ∨ ∀ᶠ e in 𝓝 d, NodesIter p (elems2 ids e.1 e.2 mom)) (hk : k < n + p.length) (hl : l < n + p.length)
    (hF : Computes p k F) (hG : Computes p l G) (cF : ContDiffAt ℝ 2 F d.1) (cG : ContDiffAt ℝ 2 G d.1) :
    ContValue (result2 p ids mom k) d ∧ ContPair (result2 p ids mom k) (result2 p ids mom l) d := by
  have h1 := result2_derivs hinj hlt hp hi hk hF cF
  have h2 := result2_derivs hinj hlt hp hi hl hG cG
  have g1 := fun i => grad_cont (cF.of_le (by norm_num)) i
  have g2 := fun i => grad_cont (cG.of_le (by norm_num)) i
  refine ⟨contValue_of hinj h1 (ContinuousAt.comp (f := fun e : Data n => e.1) cF.continuousAt continuousAt_fst) g1 (hess_cont cF),
    contPair_of (mom := mom) hinj (h1.mono ?_) (h2.mono ?_) g1 (hess_cont cF) g2 (hess_cont cG)⟩
  · rintro e ⟨x, a, b, -, c⟩; exact ⟨x, a, b, c⟩
  · rintro e ⟨x, a, b, -, c⟩; exact ⟨x, a, b, c⟩

/-- `sin(exp x)` -/
noncomputable def contProg2 : List Node2 := [.un (UMath2.exp exN) Real.exp 0, .un (UMath2.sin exN) Real.sin 1]

theorem contProg2_fn : Computes contProg2 2 fun y : Fin 1 → ℝ => Real.sin (Real.exp (y 0)) := fun y => by simp [contProg2, evalR2, List.ofFn_succ]

/-- one variable -/
example (d : Data 1) := C98_second_partial (p := contProg2) (ids := ![1]) (mom := ![exE]) (d := d) (k := 2) (l := 2) (by decide) (by decide)
  (Eventually.of_forall fun mu => ⟨by simp, C35_exp _ _, by simp, C35_sin _ _, trivial⟩) (Or.inl le_rfl) (by simp [contProg2]) (by simp [contProg2]) contProg2_fn contProg2_fn
  (by fun_prop) (by fun_prop)

theorem poly_smooth {E : Type*} [NormedAddCommGroup E] [NormedSpace ℝ E] (p : List Node2) (hp : ∀ nd ∈ p, PolyNode nd) (acc : E → List ℝ)
    (N : ℕ) (hN : ∀ y, (acc y).length = N) (h : ∀ k, ContDiff ℝ 2 fun y => (acc y).getD k 0) (k : ℕ) : ContDiff ℝ 2 fun y => (evalR2 p (acc y)).getD k 0 := by
  induction p generalizing acc N with
  | nil => exact h k
  | cons nd t ih =>
    have step : ∀ f : E → ℝ, ContDiff ℝ 2 f → ContDiff ℝ 2 fun y => (evalR2 t (acc y ++ [f y])).getD k 0 := by
      refine fun f hf => ih (fun nd h => hp nd (List.mem_cons_of_mem _ h)) (fun y => acc y ++ [f y]) (N + 1) (fun y => by simp [hN]) fun j => ?_
      rcases lt_trichotomy j N with hj | rfl | hj
      · convert h j using 2 with y
        simp only [List.getD_eq_getElem?_getD, List.getElem?_append_left (show j < (acc y).length by rw [hN]; exact hj)]
      · convert hf using 2 with y
        simp [List.getD_eq_getElem?_getD, List.getElem?_append_right, hN]
      · convert contDiff_const (c := (0 : ℝ)) using 2 with y
        rw [List.getD_eq_getElem?_getD, List.getElem?_eq_none (by simp [hN]; omega)]
        rfl
    cases hp nd (List.mem_cons_self ..) with
    | const c => exact step _ contDiff_const
    | neg u a => exact step _ (h a).neg
    | add u a b => exact step _ ((h a).add (h b))
    | sub u a b => exact step _ ((h a).sub (h b))
    | mul u a b => exact step _ ((h a).mul (h b))

/-- **C98** Second order: computations with `+ - *` and constants, everywhere. -/
theorem C98_polynomial (hinj : Function.Injective ids) (hlt : ∀ i, ids i < maxId) (hp : ∀ nd ∈ p, PolyNode nd) (hr : InRange p n) (hk : k < n + p.length)
    (hl : l < n + p.length) (mom : Fin n → Moments ℝ) (d : Data n) :
    ContValue (result2 p ids mom k) d ∧ ContPair (result2 p ids mom k) (result2 p ids mom l) d := by
  have c : ∀ k, ContDiff ℝ 2 fun y : Fin n → ℝ => (evalR2 p (List.ofFn y)).getD k 0 := by
    refine fun k => poly_smooth p hp _ n (fun y => by simp) (fun j => ?_) k
    by_cases hj : j < n
    · convert contDiff_apply ℝ ℝ (⟨j, hj⟩ : Fin n) using 2 with y
      simp [List.getD_eq_getElem?_getD, hj]
    · convert contDiff_const (c := (0 : ℝ)) using 2 with y
      simp [List.getD_eq_getElem?_getD, hj]
  exact C98_second_partial hinj hlt (Eventually.of_forall fun mu => poly_right p hp _ (by simpa using hr)) (Or.inr (Eventually.of_forall fun e => poly_iter p hp _)) hk hl
    (fun _ => rfl) (fun _ => rfl) (c k).contDiffAt (c l).contDiffAt

example (d : Data 2) := C98_polynomial (ids := ![1, 2]) (by decide) (by decide) exPoly_poly (by simp [exPoly, InRange]) (k := 3) (l := 2) (by simp [exPoly]) (by simp [exPoly])
  ![exN, exE] d

/-- **C98** Second order: with the means fixed, the results are continuous in the uncertainties for all functions which pass on numbers depending on the first order means
(`C97_library`), whether the second derivatives which are computed are right or not. -/
theorem C98_second_uncertainty (hinj : Function.Injective ids) (hlt : ∀ i, ids i < maxId) (mu : Fin n → ℝ) (mom : Fin n → Moments ℝ) (hp : NodesOfMu p n)
    (hk : k < n + p.length) (hl : l < n + p.length) (s : Fin n → ℝ) :
    ContValue (fun s => result2 p ids mom k (mu, s)) s ∧ ContPair (fun s => result2 p ids mom k (mu, s)) (fun s => result2 p ids mom l (mu, s)) s := by
  obtain ⟨o, e, len, fo⟩ := evalU2_fineMu _ p hp _ (fine_elems hlt mu (fun _ => 1) mom)
  have len' : o.length = n + p.length := by rw [len]; simp [elems2]
  have val : ∀ {k : ℕ} (hk : k < n + p.length) (s : Fin n → ℝ), ∃ x, result2 p ids mom k (mu, s) = some x ∧ Mom.InTable ids mom x.hg ∧ x.mu = (o[k]'(by omega)).mu ∧
      (∀ i, x.hg.G (ids i) = s i * (o[k]'(by omega)).hg.G (ids i)) ∧ ∀ i j, x.hg.H (ids i) (ids j) = s i * s j * (o[k]'(by omega)).hg.H (ids i) (ids j) := by
    intro k hk s
    have f := fo _ (List.getElem_mem (l := o) (by omega : k < o.length))
    have run : evalU2 p (elems2 ids mu s mom) = some (o.map (vscU (sOf ids s))) := by rw [elems2_sc hinj, evalU2_vsc _ p hp, e]; rfl
    refine ⟨vscU (sOf ids s) (o[k]'(by omega)), ?_, ⟨valid_vsc f.ok.valid, fun i m hm => f.mom i m ?_⟩, rfl, fun i => ?_, fun i j => ?_⟩
    · rw [result2]
      refine (congrArg (fun o => o.bind fun out => out[k]?) run).trans ?_
      simp only [Option.bind_some]
      rw [List.getElem?_map, List.getElem?_eq_getElem (by omega)]
      rfl
    · rwa [show (vscU (sOf ids s) (o[k]'(by omega))).hg = vscHG (sOf ids s) (o[k]'(by omega)).hg from rfl, momOf_vsc] at hm
    · rw [show (vscU (sOf ids s) (o[k]'(by omega))).hg = vscHG (sOf ids s) (o[k]'(by omega)).hg from rfl, G_vsc, sOf_ids hinj]
    · rw [show (vscU (sOf ids s) (o[k]'(by omega))).hg = vscHG (sOf ids s) (o[k]'(by omega)).hg from rfl, H_vsc, sOf_ids hinj, sOf_ids hinj]
  have cg : ∀ (c : VId → ℝ) i, ContinuousAt (fun t : Fin n → ℝ => t i * c (ids i)) s := fun c i =>
    (continuous_apply i).continuousAt.mul continuousAt_const
  have ch : ∀ (c : VId → VId → ℝ) i j, ContinuousAt (fun t : Fin n → ℝ => t i * t j * c (ids i) (ids j)) s := fun c i j =>
    ((continuous_apply i).continuousAt.mul (continuous_apply j).continuousAt).mul continuousAt_const
  refine ⟨contValue_of hinj (Eventually.of_forall (val hk)) continuousAt_const (cg (o[k]'(by omega)).hg.G) (ch (o[k]'(by omega)).hg.H),
    contPair_of (mom := mom) hinj (Eventually.of_forall fun t => ?_) (Eventually.of_forall fun t => ?_) (cg (o[k]'(by omega)).hg.G) (ch (o[k]'(by omega)).hg.H)
      (cg (o[l]'(by omega)).hg.G) (ch (o[l]'(by omega)).hg.H)⟩
  · obtain ⟨x, a, b, -, c⟩ := val hk t; exact ⟨x, a, b, c⟩
  · obtain ⟨x, a, b, -, c⟩ := val hl t; exact ⟨x, a, b, c⟩

example (s : Fin 2 → ℝ) := C98_second_uncertainty (ids := ![1, 2]) (by decide) (by decide) ![2, 5] ![exN, exE] largerProg_ok (k := 4) (l := 3) (by simp [largerProg]) (by simp [largerProg]) s

end Unc.Props
