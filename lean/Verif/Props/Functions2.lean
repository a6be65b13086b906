import Verif.Props.Math2
import Verif.Props.Functions
import Verif.Lemmas.Taylor2

/-! # `functions.hpp`, second-order part (C20) -/

namespace Unc.Props
open Unc Unc.Spec Filter Topology Asymptotics

variable (u : Moments ℝ)

/-- As the step `h` tends to 0, the derivatives `g h` passes to `unary` tend to the true ones. -/
def PassesLim1 (g : ℝ → UReal2 ℝ → Option (UReal2 ℝ)) (F : ℝ → ℝ) (a d dd : ℝ) : Prop :=
  ∃ e ee : ℝ → ℝ, Tendsto e (𝓝[≠] 0) (𝓝 d) ∧ Tendsto ee (𝓝[≠] 0) (𝓝 dd) ∧
    ∀ (h : ℝ) (x : UReal2 ℝ), x.mu = a → ∃ u, g h x = UReal2.unary u x (F a) (e h) (ee h)

/-- Same for `binary`. -/
def PassesLim2 (g : ℝ → UReal2 ℝ → UReal2 ℝ → Option (UReal2 ℝ)) (F : ℝ → ℝ → ℝ) (a b dx dy dxx dyy dxy : ℝ) : Prop :=
  ∃ ex ey exx eyy exy : ℝ → ℝ, Tendsto ex (𝓝[≠] 0) (𝓝 dx) ∧ Tendsto ey (𝓝[≠] 0) (𝓝 dy) ∧ Tendsto exx (𝓝[≠] 0) (𝓝 dxx) ∧
    Tendsto eyy (𝓝[≠] 0) (𝓝 dyy) ∧ Tendsto exy (𝓝[≠] 0) (𝓝 dxy) ∧
    ∀ (h : ℝ) (x y : UReal2 ℝ), x.mu = a → y.mu = b →
      ∃ u, g h x y = UReal2.binary u x y (F a b) (ex h) (ey h) (exx h) (eyy h) (exy h)

/-! ## with given derivatives -/

/-- **C20** `uunary2(f, dfdx, ddfdxdx)` passes the derivatives it is given. -/
theorem C20_uunary2 {f df ddf : ℝ → ℝ} {a : ℝ} (h : Derivs1 f a (df a) (ddf a)) : Passes1 (UFun2.uunary2 u f df ddf) f a :=
  ⟨_, _, h, fun x _ hx => ⟨u, by rw [UFun2.uunary2, hx]⟩⟩

/-- **C20** `ubinary2(f, dfdx, dfdy, ddfdxdx, ddfdydy, ddfdxdy)`. -/
theorem C20_ubinary2 {f dx dy dxx dyy dxy : ℝ → ℝ → ℝ} {a b : ℝ}
    (h : Derivs2 f a b (dx a b) (dy a b) (dxx a b) (dyy a b) (dxy a b)) : Passes2 (UFun2.ubinary2 u f dx dy dxx dyy dxy) f a b :=
  ⟨_, _, _, _, _, h, fun x y _ _ hx hy => ⟨u, by rw [UFun2.ubinary2, hx, hy]⟩⟩

/-! ## exact for polynomials -/

theorem quad_derivs (p q c a : ℝ) : Derivs1 (fun t => p * t ^ 2 + q * t + c) a (2 * p * a + q) (2 * p) :=
  ⟨fun t => 2 * p * t + q, Eventually.of_forall fun t => by
    have := (((hasDerivAt_pow 2 t).const_mul p).add ((hasDerivAt_id t).const_mul q)).add_const c
    exact this.congr_deriv (by norm_num; ring),
    by simpa using ((hasDerivAt_id a).const_mul (2 * p)).add_const q, rfl⟩

theorem quad_derivs2 (p q r b c k s t : ℝ) : Derivs2 (fun s t => p * s ^ 2 + q * t ^ 2 + r * s * t + b * s + c * t + k) s t
    (2 * p * s + r * t + b) (2 * q * t + r * s + c) (2 * p) (2 * q) r := by
  refine ⟨fun z => 2 * p * z.1 + r * z.2 + b, fun z => 2 * q * z.2 + r * z.1 + c, Eventually.of_forall fun z => ?_, ?_, ?_, rfl, rfl⟩
  · have := ((((((hf1 z).pow 2).const_mul p).add (((hf2 z).pow 2).const_mul q)).add (((hf1 z).const_mul r).mul (hf2 z))).add
      ((hf1 z).const_mul b)).add (((hf2 z).const_mul c)) |>.add_const k
    refine this.congr_fderiv ?_
    ext <;> simp [lin] <;> ring
  · have := (((hf1 (s, t)).const_mul (2 * p)).add ((hf2 (s, t)).const_mul r)).add_const b
    exact this.congr_fderiv (by ext <;> simp [lin])
  · have := (((hf2 (s, t)).const_mul (2 * q)).add ((hf1 (s, t)).const_mul r)).add_const c
    exact this.congr_fderiv (by ext <;> simp [lin])

/-- **C20** `uunary2(f, step)`: both central differences are exact for quadratic functions, for any non-zero step. -/
theorem C20_uunary2_num_quadratic (p q c a : ℝ) {h : ℝ} (hh : h ≠ 0) :
    Passes1 (UFun2.uunary2Num u (fun t => p * t ^ 2 + q * t + c) h) (fun t => p * t ^ 2 + q * t + c) a := by
  refine ⟨_, _, quad_derivs p q c a, fun x _ hx => ⟨u, ?_⟩⟩
  simp only [UFun2.uunary2Num, hx, Mom.lit, Nat.cast_ofNat]
  congr 1 <;> field_simp <;> ring

/-- **C20** `uunary2(f, step)`: the second derivative is exact for cubic functions too; the first is off by `r * step ^ 2`. -/
theorem C20_uunary2_num_cubic (r p q c : ℝ) {h : ℝ} (hh : h ≠ 0) (x : UReal2 ℝ) :
    UFun2.uunary2Num u (fun t => r * t ^ 3 + p * t ^ 2 + q * t + c) h x =
      UReal2.unary u x (r * x.mu ^ 3 + p * x.mu ^ 2 + q * x.mu + c) ((3 * r * x.mu ^ 2 + 2 * p * x.mu + q) + r * h ^ 2)
        (6 * r * x.mu + 2 * p) := by
  simp only [UFun2.uunary2Num, Mom.lit, Nat.cast_ofNat]
  congr 1 <;> field_simp <;> ring

/-- **C20** `uunary2(f, dfdx, step)`: the forward difference is exact for quadratic functions with their derivative. -/
theorem C20_uunary2_fwd_quadratic (p q c a : ℝ) {h : ℝ} (hh : h ≠ 0) :
    Passes1 (UFun2.uunary2Fwd u (fun t => p * t ^ 2 + q * t + c) (fun t => 2 * p * t + q) h) (fun t => p * t ^ 2 + q * t + c) a := by
  refine ⟨_, _, quad_derivs p q c a, fun x _ hx => ⟨u, ?_⟩⟩
  simp only [UFun2.uunary2Fwd, hx]
  congr 1
  field_simp; ring

/-- **C20** `ubinary2(f, step)`: all central differences are exact for quadratic functions of two arguments. -/
theorem C20_ubinary2_num_quadratic (p q r b c k s t : ℝ) {h : ℝ} (hh : h ≠ 0) :
    Passes2 (UFun2.ubinary2Num u (fun s t => p * s ^ 2 + q * t ^ 2 + r * s * t + b * s + c * t + k) h)
      (fun s t => p * s ^ 2 + q * t ^ 2 + r * s * t + b * s + c * t + k) s t := by
  refine ⟨_, _, _, _, _, quad_derivs2 p q r b c k s t, fun x y _ _ hx hy => ⟨u, ?_⟩⟩
  simp only [UFun2.ubinary2Num, hx, hy, Mom.lit, Nat.cast_ofNat]
  congr 1 <;> field_simp <;> ring

/-- **C20** `ubinary2(f, dfdx, dfdy, step)`: same with forward differences of the derivatives. -/
theorem C20_ubinary2_fwd_quadratic (p q r b c k s t : ℝ) {h : ℝ} (hh : h ≠ 0) :
    Passes2 (UFun2.ubinary2Fwd u (fun s t => p * s ^ 2 + q * t ^ 2 + r * s * t + b * s + c * t + k)
      (fun s t => 2 * p * s + r * t + b) (fun s t => 2 * q * t + r * s + c) h)
      (fun s t => p * s ^ 2 + q * t ^ 2 + r * s * t + b * s + c * t + k) s t := by
  refine ⟨_, _, _, _, _, quad_derivs2 p q r b c k s t, fun x y _ _ hx hy => ⟨u, ?_⟩⟩
  simp only [UFun2.ubinary2Fwd, hx, hy]
  congr 1 <;> field_simp <;> ring

/-! ## converging -/

/-- if `R` is a combination of values with expansion `c * h ^ 2 + o(h ^ 2)` -/
theorem tendsto_of_littleO {φ : ℝ → ℝ} {c : ℝ} (h : (fun t => φ t - c * t ^ 2) =o[𝓝 0] fun t : ℝ => t ^ 2) :
    Tendsto (fun t => φ t / (t * t)) (𝓝[≠] 0) (𝓝 c) := by
  have h1 := (h.mono (nhdsWithin_le_nhds (s := {0}ᶜ))).tendsto_div_nhds_zero
  have h2 := h1.add_const c
  rw [zero_add] at h2
  refine h2.congr' ?_
  filter_upwards [self_mem_nhdsWithin] with t ht
  have ht : t ≠ 0 := ht
  field_simp
  ring

theorem central_tendsto {F : ℝ → ℝ} {a d : ℝ} (h : HasDerivAt F d a) :
    Tendsto (fun t => (F (a + t) - F (a - t)) / (2 * t)) (𝓝[≠] 0) (𝓝 d) := by
  have h1 := slope_tendsto h
  have hneg : Tendsto (fun t : ℝ => -t) (𝓝[≠] 0) (𝓝[≠] 0) := by
    refine tendsto_nhdsWithin_iff.2 ⟨?_, ?_⟩
    · simpa using (continuous_neg (G := ℝ)).continuousAt.tendsto (x := 0) |>.mono_left nhdsWithin_le_nhds
    · filter_upwards [self_mem_nhdsWithin] with t ht using by simpa using ht
  have h2 := (h1.add (h1.comp hneg)).div_const 2
  rw [show (d + d) / 2 = d by ring] at h2
  refine h2.congr' ?_
  filter_upwards [self_mem_nhdsWithin] with t ht
  have ht : t ≠ 0 := ht
  simp only [Function.comp, ← sub_eq_add_neg]
  field_simp
  ring

theorem second_tendsto {F : ℝ → ℝ} {a d dd : ℝ} (h : Derivs1 F a d dd) :
    Tendsto (fun t => (F (a + t) + F (a - t) - 2 * F a) / (t * t)) (𝓝[≠] 0) (𝓝 dd) := by
  have h1 := (Derivs1.taylor h).congr_right (g₂ := fun t : ℝ => t ^ 2) fun t => by simp
  have hneg : Tendsto (fun t : ℝ => -t) (𝓝 0) (𝓝 0) := by simpa using (continuous_neg (G := ℝ)).continuousAt.tendsto (x := 0)
  have h2 := (h1.comp_tendsto hneg).congr_right (g₂ := fun t : ℝ => t ^ 2) fun t => by simp
  refine tendsto_of_littleO ((h1.add h2).congr_left fun t => ?_)
  simp only [Function.comp, ← sub_eq_add_neg]
  ring

/-- **C20** `uunary2(f, step)`, `f` twice differentiable at the mean: both differences converge to the derivatives. -/
theorem C20_uunary2_num_tendsto {F : ℝ → ℝ} {a d dd : ℝ} (h : Derivs1 F a d dd) : PassesLim1 (fun h => UFun2.uunary2Num u F h) F a d dd := by
  have hd : HasDerivAt F d a := by
    obtain ⟨D, h1, -, rfl⟩ := h
    exact h1.self_of_nhds
  refine ⟨_, _, central_tendsto hd, second_tendsto h, fun h x hx => ⟨u, ?_⟩⟩
  simp only [UFun2.uunary2Num, hx, Mom.lit, Nat.cast_ofNat]

/-- **C20** `uunary2(f, dfdx, step)`: given the true derivative, the forward difference converges to the second one. -/
theorem C20_uunary2_fwd_tendsto {F D : ℝ → ℝ} {a dd : ℝ} (h : HasDerivAt D dd a) :
    PassesLim1 (fun h => UFun2.uunary2Fwd u F D h) F a (D a) dd := by
  refine ⟨_, _, tendsto_const_nhds, slope_tendsto h, fun h x hx => ⟨u, ?_⟩⟩
  simp only [UFun2.uunary2Fwd, hx]

theorem line_derivs_x {F : ℝ → ℝ → ℝ} {a b dx dy dxx dyy dxy : ℝ} (h : Derivs2 F a b dx dy dxx dyy dxy) :
    Derivs1 (fun s => F s b) a dx dxx := by
  obtain ⟨Dx, Dy, h1, h2, h3, rfl, rfl⟩ := h
  have hl : ∀ s, HasDerivAt (fun s : ℝ => (s, b)) ((1 : ℝ), (0 : ℝ)) s := fun s => (hasDerivAt_id s).prodMk (hasDerivAt_const s b)
  refine ⟨fun s => Dx (s, b), ?_, ?_, rfl⟩
  · have ht : Tendsto (fun s : ℝ => (s, b)) (𝓝 a) (𝓝 (a, b)) := (hl a).continuousAt.tendsto
    filter_upwards [ht.eventually h1] with s hs
    exact (hs.comp_hasDerivAt s (hl s)).congr_deriv (g' := Dx (s, b)) (by simp [lin])
  · exact (h2.comp_hasDerivAt a (hl a)).congr_deriv (by simp [lin])

theorem line_derivs_y {F : ℝ → ℝ → ℝ} {a b dx dy dxx dyy dxy : ℝ} (h : Derivs2 F a b dx dy dxx dyy dxy) :
    Derivs1 (fun t => F a t) b dy dyy := by
  obtain ⟨Dx, Dy, h1, h2, h3, rfl, rfl⟩ := h
  have hl : ∀ s, HasDerivAt (fun s : ℝ => (a, s)) ((0 : ℝ), (1 : ℝ)) s := fun s => (hasDerivAt_const s a).prodMk (hasDerivAt_id s)
  refine ⟨fun s => Dy (a, s), ?_, ?_, rfl⟩
  · have ht : Tendsto (fun s : ℝ => (a, s)) (𝓝 b) (𝓝 (a, b)) := (hl b).continuousAt.tendsto
    filter_upwards [ht.eventually h1] with s hs
    exact (hs.comp_hasDerivAt s (hl s)).congr_deriv (g' := Dy (a, s)) (by simp [lin])
  · exact (h3.comp_hasDerivAt b (hl b)).congr_deriv (by simp [lin])

theorem Derivs1.hasDeriv {F : ℝ → ℝ} {a d dd : ℝ} (h : Derivs1 F a d dd) : HasDerivAt F d a := by
  obtain ⟨D, h1, -, rfl⟩ := h
  exact h1.self_of_nhds

theorem mixed_tendsto {F : ℝ → ℝ → ℝ} {a b dx dy dxx dyy dxy : ℝ} (h : Derivs2 F a b dx dy dxx dyy dxy) :
    Tendsto (fun t => (F (a + t) (b + t) + F (a - t) (b - t) - (F (a + t) b + F (a - t) b) - (F a (b + t) + F a (b - t)) + 2 * F a b) /
      (2 * (t * t))) (𝓝[≠] 0) (𝓝 dxy) := by
  have h0 := Derivs2.taylor h
  have key : ∀ α β : ℝ, (fun t : ℝ => F (a + α * t) (b + β * t) - (F a b + dx * (α * t) + dy * (β * t) + dxx / 2 * (α * t) ^ 2 +
      dyy / 2 * (β * t) ^ 2 + dxy * (α * t) * (β * t))) =o[𝓝 0] fun t : ℝ => t ^ 2 := by
    intro α β
    have ht : Tendsto (fun t : ℝ => (α * t, β * t)) (𝓝 0) (𝓝 0) := by
      have : ContinuousAt (fun t : ℝ => (α * t, β * t)) 0 := by fun_prop
      simpa [ContinuousAt, ← Prod.mk_zero_zero] using this
    refine (h0.comp_tendsto ht).trans_isBigO ?_
    refine IsBigO.of_bound ((max |α| |β|) ^ 2) (Eventually.of_forall fun t => ?_)
    simp only [Function.comp, Prod.norm_mk, norm_pow, norm_norm, norm_mul, Real.norm_eq_abs]
    rw [← max_mul_of_nonneg _ _ (abs_nonneg t), abs_of_nonneg (by positivity), mul_pow]
  have h2 := ((((((key 1 1).add (key (-1) (-1))).sub (key 1 0)).sub (key (-1) 0)).sub (key 0 1)).sub (key 0 (-1))).const_mul_left (1 / 2)
  refine (tendsto_of_littleO (φ := fun t => (1 / 2) * (F (a + t) (b + t) + F (a - t) (b - t) - (F (a + t) b + F (a - t) b) -
    (F a (b + t) + F a (b - t)) + 2 * F a b)) (c := dxy) (h2.congr_left fun t => ?_)).congr' ?_
  · simp only [one_mul, neg_one_mul, ← sub_eq_add_neg, zero_mul, add_zero]
    ring
  · filter_upwards [self_mem_nhdsWithin] with t ht
    have ht : t ≠ 0 := ht
    field_simp

/-- **C20** `ubinary2(f, step)`, `f` twice differentiable at the means: all the differences converge to the derivatives. -/
theorem C20_ubinary2_num_tendsto {F : ℝ → ℝ → ℝ} {a b dx dy dxx dyy dxy : ℝ} (h : Derivs2 F a b dx dy dxx dyy dxy) :
    PassesLim2 (fun h => UFun2.ubinary2Num u F h) F a b dx dy dxx dyy dxy := by
  refine ⟨_, _, _, _, _, central_tendsto (Derivs1.hasDeriv (line_derivs_x h)), central_tendsto (Derivs1.hasDeriv (line_derivs_y h)),
    second_tendsto (line_derivs_x h), second_tendsto (line_derivs_y h), mixed_tendsto h, fun h x y hx hy => ⟨u, ?_⟩⟩
  simp only [UFun2.ubinary2Num, hx, hy, Mom.lit, Nat.cast_ofNat]

/-- **C20** `ubinary2(f, dfdx, dfdy, step)`: given the true first derivatives, the forward differences converge.  The mixed one uses
`dfdx`, so the derivative of `dfdx` along `y` is what is needed. -/
theorem C20_ubinary2_fwd_tendsto {F Dx Dy : ℝ → ℝ → ℝ} {a b dxx dyy dxy : ℝ} (h1 : HasDerivAt (fun s => Dx s b) dxx a)
    (h2 : HasDerivAt (fun t => Dy a t) dyy b) (h3 : HasDerivAt (fun t => Dx a t) dxy b) :
    PassesLim2 (fun h => UFun2.ubinary2Fwd u F Dx Dy h) F a b (Dx a b) (Dy a b) dxx dyy dxy := by
  refine ⟨_, _, _, _, _, tendsto_const_nhds, tendsto_const_nhds, slope_tendsto h1, slope_tendsto h2, slope_tendsto h3,
    fun h x y hx hy => ⟨u, ?_⟩⟩
  simp only [UFun2.ubinary2Fwd, hx, hy]

/-- **C20** so, for an argument depending on one variable, the stored gradient and Hessian of the result converge to those of the
second-order chain rule. -/
theorem C20_uunary2_num_result {F : ℝ → ℝ} {d dd : ℝ} {x : UReal2 ℝ} (hx : Ok2 x) (h1 : x.hg.size ≤ 1) (h : Derivs1 F x.mu d dd) :
    ∃ z : ℝ → UReal2 ℝ, (∀ h, UFun2.uunary2Num u F h x = some (z h) ∧ (z h).mu = F x.mu) ∧
      (∀ i, Tendsto (fun h => (z h).hg.G i) (𝓝[≠] 0) (𝓝 (d * x.hg.G i))) ∧
      ∀ i j, Tendsto (fun h => D2 (z h) i j) (𝓝[≠] 0) (𝓝 (d * D2 x i j + dd * x.hg.G i * x.hg.G j)) := by
  obtain ⟨e, ee, t1, t2, hg⟩ := C20_uunary2_num_tendsto u h
  have key : ∀ h, ∃ z, UFun2.uunary2Num u F h x = some z ∧ z.mu = F x.mu ∧ (∀ i, z.hg.G i = e h * x.hg.G i) ∧
      ∀ i j, D2 z i j = e h * D2 x i j + ee h * x.hg.G i * x.hg.G j := by
    intro h
    obtain ⟨u', hu⟩ := hg h x rfl
    obtain ⟨z, hz, -⟩ := C21_unary hx (F x.mu) (e h) (ee h)
    obtain ⟨m, g, -⟩ := C22_unary hx (hz u')
    exact ⟨z, hu.trans (hz u'), m, g, fun i j => by
      have := C23_unary_partial hx (Or.inr (Or.inl h1)) (hz u') i j
      rw [this]; ring⟩
  choose z k1 k2 k3 k4 using key
  refine ⟨z, fun h => ⟨k1 h, k2 h⟩, fun i => ?_, fun i j => ?_⟩
  · simp only [k3]
    exact t1.mul_const _
  · simp only [k4]
    exact (t1.mul_const _).add ((t2.mul_const _).mul_const _)

/-! Examples. -/

example : Passes1 (UFun2.uunary2 exN Real.exp Real.exp Real.exp) Real.exp 2 :=
  C20_uunary2 exN ⟨Real.exp, Eventually.of_forall fun t => Real.hasDerivAt_exp t, Real.hasDerivAt_exp 2, rfl⟩

example : Passes2 (UFun2.ubinary2 exN (fun s t => s * t) (fun _ t => t) (fun s _ => s) (fun _ _ => 0) (fun _ _ => 0) fun _ _ => 1)
    (fun s t => s * t) 2 3 := by
  refine C20_ubinary2 exN ?_
  have := quad_derivs2 0 0 1 0 0 0 2 3
  simpa using this

/-- step 7, x² + 1 at 3 -/
example : ∃ z, UFun2.uunary2Num exN (fun t => 1 * t ^ 2 + 0 * t + 1) 7 (elem2 1 3 2 exN) = some z ∧ z.mu = 10 ∧ z.hg.G 1 = 12 := by
  obtain ⟨d, dd, hd, h⟩ := C20_uunary2_num_quadratic exN 1 0 1 3 (h := 7) (by norm_num)
  have ok : Ok2 (elem2 1 3 2 exN) := ⟨⟨by simp [elem2, SMap.Sorted], by simp [elem2], by simp [elem2]⟩, by
    intro k hk; simp [elem2] at hk; subst hk; decide⟩
  obtain ⟨u, hu⟩ := h _ ok rfl
  obtain ⟨z, hz, -⟩ := C21_unary ok (1 * 3 ^ 2 + 0 * 3 + 1) d dd
  obtain ⟨m, g, -⟩ := C22_unary ok (hz u)
  have h6 : HasDerivAt (fun t : ℝ => 1 * t ^ 2 + 0 * t + 1) (2 * 1 * 3 + 0) 3 := Derivs1.hasDeriv (quad_derivs 1 0 1 3)
  have hd6 : d = 6 := by rw [(Derivs1.hasDeriv hd).unique h6]; norm_num
  refine ⟨z, hu.trans (hz u), by rw [m]; norm_num, ?_⟩
  rw [g, hd6]
  norm_num [elem2, HessGrad.G, SMap.find?]

example : UFun2.uunary2Num exN (fun t => 1 * t ^ 3 + 0 * t ^ 2 + 0 * t + 0) 2 ex2a = UReal2.unary exN ex2a 27 (27 + 4) 18 := by
  rw [C20_uunary2_num_cubic exN 1 0 0 0 two_ne_zero]
  norm_num [ex2a]

example : Passes1 (UFun2.uunary2Fwd exN (fun t => 3 * t ^ 2 + 5 * t + 1) (fun t => 2 * 3 * t + 5) 2) (fun t => 3 * t ^ 2 + 5 * t + 1) 4 :=
  C20_uunary2_fwd_quadratic exN 3 5 1 4 two_ne_zero

example : Passes2 (UFun2.ubinary2Num exN (fun s t => 1 * s ^ 2 + 2 * t ^ 2 + 3 * s * t + 4 * s + 5 * t + 6) 7)
    (fun s t => 1 * s ^ 2 + 2 * t ^ 2 + 3 * s * t + 4 * s + 5 * t + 6) 8 9 :=
  C20_ubinary2_num_quadratic exN 1 2 3 4 5 6 8 9 (by norm_num)

example : Passes2 (UFun2.ubinary2Fwd exN (fun s t => 1 * s ^ 2 + 2 * t ^ 2 + 3 * s * t + 4 * s + 5 * t + 6) (fun s t => 2 * 1 * s + 3 * t + 4)
    (fun s t => 2 * 2 * t + 3 * s + 5) 7) (fun s t => 1 * s ^ 2 + 2 * t ^ 2 + 3 * s * t + 4 * s + 5 * t + 6) 8 9 :=
  C20_ubinary2_fwd_quadratic exN 1 2 3 4 5 6 8 9 (by norm_num)

theorem exp_derivs (a : ℝ) : Derivs1 Real.exp a (Real.exp a) (Real.exp a) :=
  ⟨Real.exp, Eventually.of_forall fun t => Real.hasDerivAt_exp t, Real.hasDerivAt_exp a, rfl⟩

example : PassesLim1 (fun h => UFun2.uunary2Num exN Real.exp h) Real.exp 2 (Real.exp 2) (Real.exp 2) :=
  C20_uunary2_num_tendsto exN (exp_derivs 2)

example : PassesLim1 (fun h => UFun2.uunary2Fwd exN Real.sin Real.cos h) Real.sin 2 (Real.cos 2) (-Real.sin 2) :=
  C20_uunary2_fwd_tendsto exN (Real.hasDerivAt_cos 2)

example : PassesLim2 (fun h => UFun2.ubinary2Num exN (fun s t => 1 * s ^ 2 + 2 * t ^ 2 + 3 * s * t + 4 * s + 5 * t + 6) h)
    (fun s t => 1 * s ^ 2 + 2 * t ^ 2 + 3 * s * t + 4 * s + 5 * t + 6) 1 1 (2 * 1 * 1 + 3 * 1 + 4) (2 * 2 * 1 + 3 * 1 + 5) (2 * 1) (2 * 2) 3 :=
  C20_ubinary2_num_tendsto exN (quad_derivs2 1 2 3 4 5 6 1 1)

/-- the sine of a product -/
example : PassesLim2 (fun h => UFun2.ubinary2Fwd exN (fun s t => Real.sin s * t) (fun s t => Real.cos s * t) (fun s _ => Real.sin s) h)
    (fun s t => Real.sin s * t) 1 2 (Real.cos 1 * 2) (Real.sin 1) (-Real.sin 1 * 2) 0 (Real.cos 1) :=
  C20_ubinary2_fwd_tendsto exN ((Real.hasDerivAt_cos 1).mul_const 2) (hasDerivAt_const _ _)
    (by simpa using (hasDerivAt_id (2 : ℝ)).const_mul (Real.cos 1))

example : ∃ z : ℝ → UReal2 ℝ, (∀ h, UFun2.uunary2Num exN Real.exp h (elem2 1 0 2 exN) = some (z h) ∧ (z h).mu = 1) ∧
    Tendsto (fun h => D2 (z h) 1 1) (𝓝[≠] 0) (𝓝 4) := by
  have ok : Ok2 (elem2 1 0 2 exN) := ⟨⟨by simp [elem2, SMap.Sorted], by simp [elem2], by simp [elem2]⟩, by
    intro k hk; simp [elem2] at hk; subst hk; decide⟩
  obtain ⟨z, h1, -, h2⟩ := C20_uunary2_num_result exN ok (by simp [elem2, HessGrad.size]) (exp_derivs _)
  refine ⟨z, fun h => ⟨(h1 h).1, by rw [(h1 h).2]; simp [elem2]⟩, ?_⟩
  have := h2 1 1
  have e : Real.exp (elem2 1 0 2 exN).mu * D2 (elem2 1 0 2 exN) 1 1 + Real.exp (elem2 1 0 2 exN).mu * (elem2 1 0 2 exN).hg.G 1 *
      (elem2 1 0 2 exN).hg.G 1 = 4 := by norm_num [elem2, D2, HessGrad.H, HessGrad.G, SMap.find?]
  rwa [e] at this

end Unc.Props
