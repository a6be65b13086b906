import Verif.Spec.Diff2
import Mathlib.Analysis.Calculus.MeanValue
import Mathlib.Analysis.Calculus.FDeriv.Mul
import Mathlib.Analysis.Calculus.FDeriv.Pow
import Mathlib.Analysis.Calculus.Deriv.Pow
import Mathlib.Analysis.Calculus.Deriv.Comp

/-! # Second-order expansions -/

namespace Unc
open Filter Topology Asymptotics Unc.Spec

section general
variable {E : Type*} [NormedAddCommGroup E] [NormedSpace ℝ E]

/-- a function whose gradient is `o(‖z‖)` is constant up to `o(‖z‖²)` -/
theorem littleO_of_fderiv {g : E → ℝ} {g' : E → E →L[ℝ] ℝ} (h0 : g 0 = 0) (h : ∀ᶠ z in 𝓝 0, HasFDerivAt g (g' z) z)
    (ho : g' =o[𝓝 0] fun z => ‖z‖) : g =o[𝓝 0] fun z => ‖z‖ ^ 2 := by
  rw [isLittleO_iff]
  intro c hc
  have ho' := (isLittleO_iff.1 ho) hc
  obtain ⟨r, hr, hb⟩ := Metric.eventually_nhds_iff_ball.1 (h.and ho')
  filter_upwards [Metric.ball_mem_nhds (0 : E) hr] with z hz
  have hz' : ‖z‖ < r := by simpa using hz
  have key := Convex.norm_image_sub_le_of_norm_hasFDerivWithin_le (f := g) (f' := g') (C := c * ‖z‖) (s := Metric.closedBall 0 ‖z‖)
    (x := 0) (y := z) (fun w hw => ((hb w ?_).1).hasFDerivWithinAt) (fun w hw => ?_) (convex_closedBall _ _) (by simp) (by simp)
  · simpa [h0, sq, mul_assoc] using key
  · simp at hw ⊢; linarith
  · have hw' : ‖w‖ ≤ ‖z‖ := by simpa using hw
    have := (hb w (by simp; linarith)).2
    simp only [norm_norm] at this
    exact this.trans (by gcongr)

end general

theorem Derivs1.taylor {F : ℝ → ℝ} {a d dd : ℝ} (h : Derivs1 F a d dd) :
    (fun t => F (a + t) - (F a + d * t + dd / 2 * t ^ 2)) =o[𝓝 0] fun t : ℝ => ‖t‖ ^ 2 := by
  obtain ⟨D, h1, h2, rfl⟩ := h
  have ht : Tendsto (fun t : ℝ => a + t) (𝓝 0) (𝓝 a) := by
    have : ContinuousAt (fun t : ℝ => a + t) 0 := by fun_prop
    simpa [ContinuousAt] using this
  refine littleO_of_fderiv (g' := fun t => ContinuousLinearMap.toSpanSingleton ℝ (D (a + t) - (D a + dd * t))) (by simp) ?_ ?_
  · filter_upwards [ht.eventually h1] with t h
    have h3 : HasDerivAt (fun t => F (a + t)) (D (a + t)) t := by
      have := h.comp t ((hasDerivAt_id t).const_add a)
      simpa [Function.comp_def] using this
    have h4 : HasDerivAt (fun t : ℝ => F a + D a * t + dd / 2 * t ^ 2) (D a + dd * t) t := by
      have := ((hasDerivAt_id t).const_mul (D a)).const_add (F a) |>.add (((hasDerivAt_id t).pow 2).const_mul (dd / 2))
      refine this.congr_deriv ?_
      simp; ring
    exact (h3.sub h4).hasFDerivAt
  · have h5 := hasDerivAt_iff_isLittleO_nhds_zero.1 h2
    have h6 : (fun t => D (a + t) - (D a + dd * t)) =o[𝓝 0] fun t => t := by
      refine h5.congr_left fun t => ?_
      simp [smul_eq_mul]; ring
    refine IsLittleO.of_norm_left ?_
    refine (isLittleO_norm_left.2 h6).norm_right.congr_left ?_
    intro t; simp

theorem Derivs2.taylor {F : ℝ → ℝ → ℝ} {a b dx dy dxx dyy dxy : ℝ} (h : Derivs2 F a b dx dy dxx dyy dxy) :
    (fun p : ℝ × ℝ => F (a + p.1) (b + p.2) -
      (F a b + dx * p.1 + dy * p.2 + dxx / 2 * p.1 ^ 2 + dyy / 2 * p.2 ^ 2 + dxy * p.1 * p.2)) =o[𝓝 0] fun p => ‖p‖ ^ 2 := by
  obtain ⟨Dx, Dy, h1, h2, h3, rfl, rfl⟩ := h
  have ht : Tendsto (fun p : ℝ × ℝ => (a + p.1, b + p.2)) (𝓝 0) (𝓝 (a, b)) := by
    have : ContinuousAt (fun p : ℝ × ℝ => (a + p.1, b + p.2)) 0 := by fun_prop
    simpa [ContinuousAt] using this
  refine littleO_of_fderiv (g' := fun p => lin (Dx (a + p.1, b + p.2) - (Dx (a, b) + dxx * p.1 + dxy * p.2))
    (Dy (a + p.1, b + p.2) - (Dy (a, b) + dxy * p.1 + dyy * p.2))) (by simp) ?_ ?_
  · filter_upwards [ht.eventually h1] with p h
    have h4 : HasFDerivAt (fun p : ℝ × ℝ => F (a + p.1) (b + p.2)) (lin (Dx (a + p.1, b + p.2)) (Dy (a + p.1, b + p.2))) p := by
      have hs : HasFDerivAt (fun p : ℝ × ℝ => ((a, b) : ℝ × ℝ) + p) (ContinuousLinearMap.id ℝ (ℝ × ℝ)) p :=
        (hasFDerivAt_id p).const_add (a, b)
      have := HasFDerivAt.comp (g := fun p : ℝ × ℝ => F p.1 p.2) p (f := fun p : ℝ × ℝ => ((a, b) : ℝ × ℝ) + p) h hs
      simpa [Function.comp_def] using this
    have f1 : HasFDerivAt (fun p : ℝ × ℝ => p.1) (ContinuousLinearMap.fst ℝ ℝ ℝ) p := hasFDerivAt_fst
    have f2 : HasFDerivAt (fun p : ℝ × ℝ => p.2) (ContinuousLinearMap.snd ℝ ℝ ℝ) p := hasFDerivAt_snd
    have h5 : HasFDerivAt (fun p : ℝ × ℝ => F a b + Dx (a, b) * p.1 + Dy (a, b) * p.2 + dxx / 2 * p.1 ^ 2 + dyy / 2 * p.2 ^ 2 +
        dxy * p.1 * p.2) (lin (Dx (a, b) + dxx * p.1 + dxy * p.2) (Dy (a, b) + dxy * p.1 + dyy * p.2)) p := by
      have := (((((f1.const_mul (Dx (a, b))).const_add (F a b)).add (f2.const_mul (Dy (a, b)))).add ((f1.pow 2).const_mul (dxx / 2))).add
        ((f2.pow 2).const_mul (dyy / 2))).add ((f1.const_mul dxy).mul f2)
      refine this.congr_fderiv ?_
      ext <;> simp [lin] <;> ring
    refine (h4.sub h5).congr_fderiv ?_
    ext <;> simp [lin]
  · have e2 := hasFDerivAt_iff_isLittleO_nhds_zero.1 h2
    have e3 := hasFDerivAt_iff_isLittleO_nhds_zero.1 h3
    have e2' : (fun p : ℝ × ℝ => Dx (a + p.1, b + p.2) - (Dx (a, b) + dxx * p.1 + dxy * p.2)) =o[𝓝 0] fun p => ‖p‖ := by
      refine IsLittleO.norm_right (e2.congr_left fun p => ?_)
      change Dx (a + p.1, b + p.2) - Dx (a, b) - _ = _
      simp [lin]; ring
    have e3' : (fun p : ℝ × ℝ => Dy (a + p.1, b + p.2) - (Dy (a, b) + dxy * p.1 + dyy * p.2)) =o[𝓝 0] fun p => ‖p‖ := by
      refine IsLittleO.norm_right (e3.congr_left fun p => ?_)
      change Dy (a + p.1, b + p.2) - Dy (a, b) - _ = _
      simp [lin]; ring
    have g1 : (fun p : ℝ × ℝ => (Dx (a + p.1, b + p.2) - (Dx (a, b) + dxx * p.1 + dxy * p.2)) • ContinuousLinearMap.fst ℝ ℝ ℝ)
        =o[𝓝 0] fun p => ‖p‖ := by
      have := e2'.smul_isBigO (isBigO_const_const (ContinuousLinearMap.fst ℝ ℝ ℝ) (one_ne_zero (α := ℝ)) (𝓝 0))
      simpa using this
    have g2 : (fun p : ℝ × ℝ => (Dy (a + p.1, b + p.2) - (Dy (a, b) + dxy * p.1 + dyy * p.2)) • ContinuousLinearMap.snd ℝ ℝ ℝ)
        =o[𝓝 0] fun p => ‖p‖ := by
      have := e3'.smul_isBigO (isBigO_const_const (ContinuousLinearMap.snd ℝ ℝ ℝ) (one_ne_zero (α := ℝ)) (𝓝 0))
      simpa using this
    exact g1.add g2

/-! ### composition -/

section general
variable {E : Type*} [NormedAddCommGroup E] [NormedSpace ℝ E]

/-- second-order expansion with linear part `L` and quadratic part `Q` -/
structure Jet (F : E → ℝ) (c : ℝ) (L Q : E → ℝ) : Prop where
  exp : (fun z => F z - (c + L z + Q z)) =o[𝓝 0] fun z => ‖z‖ ^ 2
  lin : L =O[𝓝 0] fun z => ‖z‖
  quad : Q =O[𝓝 0] fun z => ‖z‖ ^ 2

theorem sq_littleO : (fun z : E => ‖z‖ ^ 2) =o[𝓝 0] fun z => ‖z‖ := by
  have : (fun z : E => ‖z‖ ^ 2) =o[𝓝 0] fun z => ‖z‖ ^ 1 := isLittleO_norm_pow_norm_pow (by norm_num)
  simpa using this

theorem Jet.delta {F : E → ℝ} {c : ℝ} {L Q : E → ℝ} (h : Jet F c L Q) : (fun z => F z - c) =O[𝓝 0] fun z => ‖z‖ := by
  have h1 := h.exp.isBigO.trans sq_littleO.isBigO
  have h2 := h.quad.trans sq_littleO.isBigO
  refine ((h1.add h.lin).add h2).congr_left fun z => ?_
  ring

theorem Jet.delta2 {F : E → ℝ} {c : ℝ} {L Q : E → ℝ} (h : Jet F c L Q) : (fun z => F z - c - L z) =O[𝓝 0] fun z => ‖z‖ ^ 2 := by
  refine (h.exp.isBigO.add h.quad).congr_left fun z => ?_
  ring

theorem tendsto_of_bigO {g : E → ℝ} (h : g =O[𝓝 0] fun z => ‖z‖) : Tendsto g (𝓝 0) (𝓝 0) := by
  refine h.trans_tendsto ?_
  have : ContinuousAt (fun z : E => ‖z‖) 0 := by fun_prop
  simpa [ContinuousAt] using this

/-- products of increments: only the product of the linear parts counts -/
theorem Jet.prod {F F' : E → ℝ} {c c' : ℝ} {L Q L' Q' : E → ℝ} (h : Jet F c L Q) (h' : Jet F' c' L' Q') :
    (fun z => (F z - c) * (F' z - c') - L z * L' z) =o[𝓝 0] fun z => ‖z‖ ^ 2 := by
  have h1 : (fun z => (F z - c - L z) * (F' z - c')) =o[𝓝 0] fun z => ‖z‖ * ‖z‖ :=
    (h.delta2.trans_isLittleO sq_littleO).mul_isBigO h'.delta
  have h2 : (fun z => L z * (F' z - c' - L' z)) =o[𝓝 0] fun z => ‖z‖ * ‖z‖ :=
    h.lin.mul_isLittleO (h'.delta2.trans_isLittleO sq_littleO)
  refine ((h1.add h2).congr_left fun z => ?_).congr_right fun z => ?_ <;> ring

theorem Jet.comp1 {f : ℝ → ℝ} {F : E → ℝ} {c d dd : ℝ} {L Q : E → ℝ} (h : Jet F c L Q)
    (hf : (fun t => f (c + t) - (f c + d * t + dd / 2 * t ^ 2)) =o[𝓝 0] fun t : ℝ => ‖t‖ ^ 2) :
    Jet (fun z => f (F z)) (f c) (fun z => d * L z) (fun z => d * Q z + dd / 2 * (L z * L z)) := by
  have h1 := (hf.comp_tendsto (tendsto_of_bigO h.delta)).trans_isBigO ((h.delta.norm_left).pow 2)
  refine ⟨?_, h.lin.const_mul_left _, (h.quad.const_mul_left _).add (((h.lin.mul h.lin).congr_right fun z => ?_).const_mul_left _)⟩
  · refine ((h1.add (h.exp.const_mul_left d)).add ((h.prod h).const_mul_left (dd / 2))).congr_left fun z => ?_
    simp only [Function.comp_apply, add_sub_cancel]
    ring
  · ring

theorem Jet.comp2 {f : ℝ → ℝ → ℝ} {F F' : E → ℝ} {c c' dx dy dxx dyy dxy : ℝ} {L Q L' Q' : E → ℝ} (h : Jet F c L Q) (h' : Jet F' c' L' Q')
    (hf : (fun p : ℝ × ℝ => f (c + p.1) (c' + p.2) -
      (f c c' + dx * p.1 + dy * p.2 + dxx / 2 * p.1 ^ 2 + dyy / 2 * p.2 ^ 2 + dxy * p.1 * p.2)) =o[𝓝 0] fun p => ‖p‖ ^ 2) :
    Jet (fun z => f (F z) (F' z)) (f c c') (fun z => dx * L z + dy * L' z)
      (fun z => dx * Q z + dy * Q' z + dxx / 2 * (L z * L z) + dyy / 2 * (L' z * L' z) + dxy * (L z * L' z)) := by
  have hd : (fun z => (F z - c, F' z - c')) =O[𝓝 0] fun z => ‖z‖ := h.delta.prod_left h'.delta
  have ht : Tendsto (fun z => (F z - c, F' z - c')) (𝓝 0) (𝓝 0) :=
    (tendsto_of_bigO h.delta).prodMk_nhds (tendsto_of_bigO h'.delta)
  have h1 := (hf.comp_tendsto ht).trans_isBigO ((hd.norm_left).pow 2)
  have sqr : ∀ {A B : E → ℝ}, A =O[𝓝 0] (fun z => ‖z‖) → B =O[𝓝 0] (fun z => ‖z‖) → (fun z => A z * B z) =O[𝓝 0] fun z => ‖z‖ ^ 2 :=
    fun ha hb => (ha.mul hb).congr_right fun z => by ring
  refine ⟨?_, (h.lin.const_mul_left _).add (h'.lin.const_mul_left _), ?_⟩
  · refine (((((h1.add (h.exp.const_mul_left dx)).add (h'.exp.const_mul_left dy)).add ((h.prod h).const_mul_left (dxx / 2))).add
      ((h'.prod h').const_mul_left (dyy / 2))).add ((h.prod h').const_mul_left dxy)).congr_left fun z => ?_
    simp only [Function.comp_apply, add_sub_cancel]
    ring
  · exact ((((h.quad.const_mul_left _).add (h'.quad.const_mul_left _)).add ((sqr h.lin h.lin).const_mul_left _)).add
      ((sqr h'.lin h'.lin).const_mul_left _)).add ((sqr h.lin h'.lin).const_mul_left _)

theorem Jet.congr {F : E → ℝ} {c c' : ℝ} {L Q L' Q' : E → ℝ} (h : Jet F c L Q) (hc : c = c') (hL : ∀ z, L z = L' z)
    (hQ : ∀ z, Q z = Q' z) : Jet F c' L' Q' := by
  obtain rfl : L = L' := funext hL
  obtain rfl : Q = Q' := funext hQ
  exact hc ▸ h

end general

section fin
variable {n : ℕ}

theorem lin_bigO (g : Fin n → ℝ) : (fun z : Fin n → ℝ => ∑ i, g i * z i) =O[𝓝 0] fun z => ‖z‖ := by
  refine IsBigO.fun_sum fun i _ => (IsBigO.of_bound 1 (Eventually.of_forall fun z => ?_)).const_mul_left _
  simpa using norm_le_pi_norm z i

theorem quad_bigO (H : Fin n → Fin n → ℝ) :
    (fun z : Fin n → ℝ => ∑ i, ∑ j, H i j * z i * z j) =O[𝓝 0] fun z => ‖z‖ ^ 2 := by
  have one : ∀ i : Fin n, (fun z : Fin n → ℝ => z i) =O[𝓝 0] fun z => ‖z‖ := fun i =>
    IsBigO.of_bound 1 (Eventually.of_forall fun z => by simpa using norm_le_pi_norm z i)
  refine IsBigO.fun_sum fun i _ => IsBigO.fun_sum fun j _ => ?_
  refine ((((one i).const_mul_left (H i j)).mul (one j))).congr_right fun z => by ring

theorem Expands.jet {ids : Fin n → VId} {F : (Fin n → ℝ) → ℝ} {x : UReal2 ℝ} (h : Expands ids F x) :
    Jet F x.mu (fun z => ∑ i, x.hg.G (ids i) * z i) (fun z => ∑ i, ∑ j, x.hg.H (ids i) (ids j) * z i * z j) :=
  ⟨h, lin_bigO _, quad_bigO _⟩

theorem sum_sq (g g' : Fin n → ℝ) (z : Fin n → ℝ) :
    (∑ i, g i * z i) * (∑ i, g' i * z i) = ∑ i, ∑ j, g i * g' j * z i * z j := by
  rw [Finset.sum_mul_sum]
  exact Finset.sum_congr rfl fun i _ => Finset.sum_congr rfl fun j _ => by ring

end fin

end Unc
