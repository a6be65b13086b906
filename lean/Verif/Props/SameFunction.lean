import Verif.Props.AutoDiff

/-!
# First-order results depend only on the function which is computed: C48
-/

namespace Unc.Props
open Unc Unc.Spec UReal Filter Topology

/-- **C48** Two computations in which every node propagates its own derivatives, the results `k` and `l` of which are the same function
near the means of the elementary variables (however they are written): no undefined behaviour, and the results have the same mean, the
same uncertainty and the same covariance with every value. -/
theorem C48_same_function {n : ℕ} {ids : Fin n → ℤ} (hinj : Function.Injective ids) (hpos : ∀ i, 0 < ids i)
    (hlt : ∀ i, ids i < maxId) (mu s : Fin n → ℝ) {p q : List Node} (hp : NodesRight p (vars mu)) (hq : NodesRight q (vars mu))
    {k l : ℕ} (hk : k < n + p.length) (hl : l < n + q.length) (h : fn p k =ᶠ[𝓝 mu] fn q l) :
    ∃ out out' x y, evalU p (elems ids mu s) = some out ∧ evalU q (elems ids mu s) = some out' ∧ out[k]? = some x ∧ out'[l]? = some y ∧
      ObsEq x y := by
  obtain ⟨out, e, hlen, hr⟩ := prog_rel hinj hpos hlt mu s p hp
  obtain ⟨out', e', hlen', hr'⟩ := prog_rel hinj hpos hlt mu s q hq
  refine ⟨out, out', _, _, e, e', List.getElem?_eq_getElem (hlen ▸ hk), List.getElem?_eq_getElem (hlen' ▸ hl), ?_⟩
  obtain ⟨ok, m, L, hL, c1, c2⟩ := hr k (hlen ▸ hk)
  obtain ⟨ok', m', L', hL', c1', c2'⟩ := hr' l (hlen' ▸ hl)
  obtain rfl : L = L' := hL.unique (hL'.congr_of_eventuallyEq h)
  refine obsEq_of_equiv ok.valid ok'.valid (by rw [m, m', h.eq_of_nhds]) fun i => ?_
  by_cases hi : ∃ j, ids j = i
  · obtain ⟨j, rfl⟩ := hi
    rw [c1, c1']
  · push Not at hi
    rw [c2 i hi, c2' i hi]

/-- **C48** Nothing less is enough: results with the same mean and the same covariances are functions with the same value and, with respect to
the variables with non-zero uncertainty, the same derivatives. -/
theorem C48_converse {n : ℕ} {ids : Fin n → ℤ} (hinj : Function.Injective ids) (hpos : ∀ i, 0 < ids i)
    (hlt : ∀ i, ids i < maxId) (mu s : Fin n → ℝ) {p q : List Node} (hp : NodesRight p (vars mu)) (hq : NodesRight q (vars mu))
    {k l : ℕ} {out out' : List (UReal ℝ)} {x y : UReal ℝ} (he : evalU p (elems ids mu s) = some out)
    (he' : evalU q (elems ids mu s) = some out') (hx : out[k]? = some x) (hy : out'[l]? = some y) (h : ObsEq x y) :
    fn p k mu = fn q l mu ∧ ∀ i, s i ≠ 0 → fderiv ℝ (fn p k) mu (Pi.single i 1) = fderiv ℝ (fn q l) mu (Pi.single i 1) := by
  obtain ⟨out, e, hlen, hr⟩ := prog_rel hinj hpos hlt mu s p hp
  obtain ⟨out', e', hlen', hr'⟩ := prog_rel hinj hpos hlt mu s q hq
  cases he.symm.trans e
  cases he'.symm.trans e'
  obtain ⟨hk, rfl⟩ := List.getElem?_eq_some_iff.1 hx
  obtain ⟨hl, rfl⟩ := List.getElem?_eq_some_iff.1 hy
  have r := hr k hk
  have r' := hr' l hl
  refine ⟨by rw [← r.mean, ← r'.mean, h.1], fun i hi => ?_⟩
  have ri := Rel.elem hinj hpos hlt mu s i
  have hc := h.2.2.2 _ ri.ok.valid
  rw [cov_of_rel hinj r ri, cov_of_rel hinj r' ri] at hc
  have hd : ∀ j, fderiv ℝ (fun v : Fin n → ℝ => v i) mu (Pi.single j 1) = if i = j then 1 else 0 := by
    intro j
    rw [(hasFDerivAt_apply i mu).fderiv]
    simp [Pi.single_apply]
  simp only [hd, mul_ite, mul_one, mul_zero, ite_mul, zero_mul, Finset.sum_ite_eq, Finset.mem_univ, if_true] at hc
  exact mul_right_cancel₀ (pow_ne_zero 2 hi) hc

/-- `sin(x)^2 + cos(x)^2` -/
noncomputable def exPyth : List Node :=
  [.un UMath.sin Real.sin 0, .un UMath.cos Real.cos 0, .bin UReal.mul (fun s t => s * t) 1 1, .bin UReal.mul (fun s t => s * t) 2 2,
   .bin UReal.add (fun s t => s + t) 3 4]

/-- The result of `sin(x)^2 + cos(x)^2` is a constant: mean 1, uncertainty 0, covariance 0 with everything. -/
example (m s : ℝ) : ∃ out x, evalU exPyth (elems ![7] ![m] ![s]) = some out ∧ out[5]? = some x ∧ ObsEq x (UReal.const 1) := by
  obtain ⟨out, out', x, y, h1, h2, h3, h4, h5⟩ := C48_same_function (ids := ![7]) (by decide) (by decide) (by decide) ![m] ![s]
    (p := exPyth) (q := [.const 1]) (k := 5) (l := 1)
    ⟨by simp [vars], C14_sin _, by simp [vars], C14_cos _, by simp [vars], by simp [vars], C14_mul _ _, by simp [vars], by simp [vars], C14_mul _ _,
      by simp [vars], by simp [vars], C14_add _ _, trivial⟩ trivial (by simp [exPyth]) (by simp)
    (Eventually.of_forall fun v => by
      simp [fn, exPyth, vars, evalR]
      nlinarith [Real.sin_sq_add_cos_sq (v 0)])
  simp only [evalU, elems] at h2
  cases h2
  simp at h4
  exact ⟨out, x, h1, h3, h4 ▸ h5⟩

/-- `exp(log(x))` and `x`, for a positive mean: the same function near the mean only -/
example (m s : ℝ) (hm : 0 < m) : ∃ out x,
    evalU [.un UMath.log Real.log 0, .un UMath.exp Real.exp 1] (elems ![7] ![m] ![s]) = some out ∧ out[2]? = some x ∧
      ObsEq x ⟨7, s, m, []⟩ := by
  obtain ⟨out, out', x, y, h1, h2, h3, h4, h5⟩ := C48_same_function (ids := ![7]) (by decide) (by decide) (by decide) ![m] ![s]
    (p := [.un UMath.log Real.log 0, .un UMath.exp Real.exp 1]) (q := []) (k := 2) (l := 0)
    ⟨by simp [vars], C14_log (by simpa [vars] using hm), by simp [vars], C14_exp _, trivial⟩ trivial (by simp) (by simp) (by
      have : ∀ᶠ v : Fin 1 → ℝ in 𝓝 ![m], 0 < v 0 :=
        (continuous_apply 0).continuousAt.eventually (lt_mem_nhds (by simpa using hm))
      filter_upwards [this] with v hv
      simp [fn, vars, evalR, Real.exp_log hv])
  simp only [evalU, elems] at h2
  cases h2
  simp at h4
  exact ⟨out, x, h1, h3, h4 ▸ h5⟩

/-- `C48_converse` on `sin(x)^2 + cos(x)^2`, which has derivative 0 -/
example (m : ℝ) : fderiv ℝ (fn exPyth 5) ![m] (Pi.single 0 1) = fderiv ℝ (fn (n := 1) [.const 1] 1) ![m] (Pi.single 0 1) := by
  have hp : NodesRight exPyth (vars ![m]) :=
    ⟨by simp [vars], C14_sin _, by simp [vars], C14_cos _, by simp [vars], by simp [vars], C14_mul _ _, by simp [vars], by simp [vars], C14_mul _ _,
      by simp [vars], by simp [vars], C14_add _ _, trivial⟩
  obtain ⟨out, out', x, y, h1, h2, h3, h4, h5⟩ := C48_same_function (ids := ![7]) (by decide) (by decide) (by decide) ![m] ![2]
    (p := exPyth) (q := [.const 1]) (k := 5) (l := 1) hp trivial (by simp [exPyth]) (by simp)
    (Eventually.of_forall fun v => by
      simp [fn, exPyth, vars, evalR]
      nlinarith [Real.sin_sq_add_cos_sq (v 0)])
  exact (C48_converse (q := [.const 1]) (ids := ![7]) (by decide) (by decide) (by decide) ![m] ![2] hp trivial h1 h2 h3 h4 h5).2 0 (by simp)

/-- **C48** needs the nodes to propagate their derivatives: `atan2` does not (`C14_atan2_false`).  `atan2(x, 1)` and `atan(x)` are the same function and have the same mean and
uncertainty, but opposite covariances with every value. -/
theorem C48_atan2_false : (∀ t : ℝ, Complex.arg ⟨1, t⟩ = Real.arctan t) ∧ ∀ x : UReal ℝ, Ok x → x.n ≠ 0 →
    ∃ z, UMath.atan2 x (UReal.const 1) = some z ∧ z.n = (UMath.atan x).n ∧ var z = var (UMath.atan x) ∧
      ∀ w : UReal ℝ, w.Valid → cov z w = -cov (UMath.atan x) w := by
  have ha : ∀ t : ℝ, Complex.arg ⟨1, t⟩ = Real.arctan t := fun t => by
    rw [Complex.arg_of_re_nonneg (by simp), Real.arctan_eq_arcsin, Complex.norm_def]
    simp [Complex.normSq_apply, pow_two]
  refine ⟨ha, fun x hx h0 => ?_⟩
  obtain ⟨dx, dy, hd, h⟩ := C14_atan2_partial (b := 1) h0
  have hc : Ok (UReal.const (1 : ℝ)) := ⟨valid_const _, by simp [Below, deps, UReal.const]⟩
  obtain ⟨z, e, hz, hn, hcv, hv⟩ := h x (UReal.const 1) hx hc rfl rfl
  obtain ⟨d, hd', hp⟩ := C14_atan x.n
  obtain ⟨ho, hn', hcv'⟩ := hp x hx rfl
  have hdd : d = dx := by
    have h1 := (hd.comp_hasDerivAt x.n ((hasDerivAt_id x.n).prodMk (hasDerivAt_const x.n (1 : ℝ))))
    have h2 : HasDerivAt Real.arctan dx x.n := by
      have e1 : (Real.arctan) = (fun p : ℝ × ℝ => Complex.arg ⟨p.2, p.1⟩) ∘ fun t => (_root_.id t, (1 : ℝ)) := by
        funext t; simp [ha]
      rw [e1]; simpa using h1
    exact hd'.unique h2
  have hw : ∀ w : UReal ℝ, w.Valid → cov (UReal.const (1 : ℝ)) w = 0 := fun w hw => C47_cov_zero hc.valid (by simp [UReal.s, UReal.const]) w hw
  have hcov : ∀ w : UReal ℝ, w.Valid → cov z w = -cov (UMath.atan x) w := fun w h => by
    rw [hcv w h, hcv' w h, hw w h, hdd]; ring
  refine ⟨z, e, by rw [hn, hn', ha], ?_, hcov⟩
  rw [← C02_cov_self hz.valid, ← C02_cov_self ho.valid, hcov z hz.valid, C02_cov_symm ho.valid hz.valid, hcov _ ho.valid]; ring

/-- at 1, with uncertainty 1, the covariances with `x` are -1/2 and 1/2 -/
example : ∃ z, UMath.atan2 (⟨1, 1, 1, []⟩ : UReal ℝ) (UReal.const 1) = some z ∧ cov z ⟨1, 1, 1, []⟩ = -(1 / 2) ∧ cov (UMath.atan ⟨1, 1, 1, []⟩) (⟨1, 1, 1, []⟩ : UReal ℝ) = 1 / 2 := by
  have hx : Ok (⟨1, 1, 1, []⟩ : UReal ℝ) := ⟨valid_of_nonneg_id ⟨by simp, by simp, by simp, by simp⟩ (by simp), by simp [Below, deps, maxId]⟩
  obtain ⟨z, h1, -, -, h2⟩ := C48_atan2_false.2 _ hx (by simp [UReal.n])
  have : cov (UMath.atan ⟨1, 1, 1, []⟩) (⟨1, 1, 1, []⟩ : UReal ℝ) = 1 / 2 := by
    simp [UMath.atan, UReal.unary, cov, UReal.n]; norm_num
  exact ⟨z, h1, by rw [h2 _ hx.valid, this], this⟩

end Unc.Props
