import Verif.Lemmas.Law2
import Verif.Props.Bias

/-!
# C70: what the results of the second order class mean for random variables

The measured quantities are random variables `mu i + s i * X i`, the standardised errors `X i` being independent with the moments given to the
constructor.  Computations are those of C36.
-/

namespace Unc.Props
open Unc Unc.Spec SMap HessGrad Filter Topology Asymptotics MeasureTheory ProbabilityTheory
variable {Ω : Type*} [MeasurableSpace Ω] {P : Measure Ω} {n : ℕ} {X : Fin n → Ω → ℝ}

/-! ## quadratic functions -/

/-- a polynomial of degree at most 2 -/
def quadr (c : ℝ) (b : Fin n → ℝ) (a : Fin n → Fin n → ℝ) (z : Fin n → ℝ) : ℝ := c + ∑ i, b i * z i + ∑ i, ∑ j, a i j * z i * z j

theorem quadr_smul (c : ℝ) (b : Fin n → ℝ) (a : Fin n → Fin n → ℝ) (z : Fin n → ℝ) (t : ℝ) :
    quadr c b a (t • z) = c + (∑ i, b i * z i) * t + (∑ i, ∑ j, a i j * z i * z j) * t ^ 2 := by
  unfold quadr
  simp only [Pi.smul_apply, smul_eq_mul, Finset.sum_mul]
  refine congrArg₂ _ (congrArg₂ _ rfl (Finset.sum_congr rfl fun i _ => by ring)) ?_
  exact Finset.sum_congr rfl fun i _ => Finset.sum_congr rfl fun j _ => by ring

theorem quadr_scale (c : ℝ) (b : Fin n → ℝ) (a : Fin n → Fin n → ℝ) (z : Fin n → ℝ) (t : ℝ) :
    quadr c b a (t • z) = quadr c (fun i => t * b i) (fun i j => t ^ 2 * a i j) z := by
  unfold quadr
  simp only [Pi.smul_apply, smul_eq_mul]
  refine congrArg₂ _ (congrArg₂ _ rfl (Finset.sum_congr rfl fun i _ => by ring)) ?_
  exact Finset.sum_congr rfl fun i _ => Finset.sum_congr rfl fun j _ => by ring

/-- two of them with the same expansion are the same function -/
theorem quadr_unique {c c' : ℝ} {b b' : Fin n → ℝ} {a a' : Fin n → Fin n → ℝ}
    (h : (fun z => quadr c b a z - quadr c' b' a' z) =o[𝓝 0] fun z : Fin n → ℝ => ‖z‖ ^ 2) (z : Fin n → ℝ) : quadr c b a z = quadr c' b' a' z := by
  have ht : Tendsto (fun t : ℝ => t • z) (𝓝 0) (𝓝 0) := by
    have : Continuous fun t : ℝ => t • z := by fun_prop
    simpa using this.tendsto 0
  have h1 := h.comp_tendsto ht
  have h2 : ((fun z : Fin n → ℝ => ‖z‖ ^ 2) ∘ fun t : ℝ => t • z) =O[𝓝 0] fun t : ℝ => t ^ 2 := by
    refine IsBigO.of_bound (‖z‖ ^ 2) (Eventually.of_forall fun t => ?_)
    simp only [Function.comp_apply, norm_smul, norm_pow, norm_mul, norm_norm]
    rw [mul_pow, mul_comm]
  obtain ⟨e0, e1, e2⟩ := coeffs_zero (a := c - c') (b := ∑ i, b i * z i - ∑ i, b' i * z i)
    (c := ∑ i, ∑ j, a i j * z i * z j - ∑ i, ∑ j, a' i j * z i * z j) ((h1.trans_isBigO h2).congr_left fun t => by
      simp only [Function.comp_apply, quadr_smul]; ring)
  unfold quadr
  linarith

/-- what a value stands for, as a function of the standardised variables -/
def expn (ids : Fin n → VId) (x : UReal2 ℝ) : (Fin n → ℝ) → ℝ := quadr x.mu (fun i => x.hg.G (ids i)) fun i j => x.hg.H (ids i) (ids j)

theorem quad_quadr {F : (Fin n → ℝ) → ℝ} (hF : Quadratic F) (mu s : Fin n → ℝ) : ∃ c b a, ∀ z, F (fun i => mu i + s i * z i) = quadr c b a z := by
  obtain ⟨c, b, a, hF⟩ := hF
  refine ⟨F mu, fun i => (b i + ∑ j, (a i j + a j i) * mu j) * s i, fun i j => a i j * s i * s j, fun z => ?_⟩
  rw [quad_shift hF mu fun i => s i * z i, quadr]
  refine congrArg₂ _ (congrArg₂ _ rfl (Finset.sum_congr rfl fun i _ => by ring)) ?_
  exact Finset.sum_congr rfl fun i _ => Finset.sum_congr rfl fun j _ => by ring

/-! ## the errors as random variables with an index for each id -/

open Classical in
/-- the error of the variable with the id `v` -/
noncomputable def byId (ids : Fin n → VId) (X : Fin n → Ω → ℝ) (v : VId) (ω : Ω) : ℝ := if h : ∃ i, ids i = v then X h.choose ω else 0

theorem byId_ids {ids : Fin n → VId} (hinj : Function.Injective ids) (X : Fin n → Ω → ℝ) (i : Fin n) : byId ids X (ids i) = X i := by
  have h : ∃ j, ids j = ids i := ⟨i, rfl⟩
  funext ω
  rw [byId, dif_pos h, hinj h.choose_spec]

variable {ids : Fin n → VId} {mom : Fin n → Moments ℝ}

theorem errors_std (hinj : Function.Injective ids) (h : Errors8 P X mom) : StdIndep P (byId ids X) (Finset.univ.image ids) := by
  have hb : ∀ v ∈ Finset.univ.image ids, ∃ i, ids i = v := fun v hv => by simpa using hv
  refine ⟨fun v hv => ?_, ?_, fun v hv => ?_, fun v hv => ?_, fun v hv => ?_⟩
  · obtain ⟨i, rfl⟩ := hb v hv; rw [byId_ids hinj]; exact h.meas i
  · choose g hg using fun v : (Finset.univ.image ids : Finset VId) => hb v v.2
    have hgi : Function.Injective g := fun v w e => Subtype.ext (by rw [← hg v, ← hg w, e])
    have := h.indep.precomp hgi
    have e : (fun v : (Finset.univ.image ids : Finset VId) => byId ids X v) = fun v => X (g v) := by
      funext v
      rw [← byId_ids hinj X (g v), hg v]
    rw [e]; exact this
  · obtain ⟨i, rfl⟩ := hb v hv; rw [byId_ids hinj]; exact h.int i
  · obtain ⟨i, rfl⟩ := hb v hv; rw [byId_ids hinj]; exact h.mean i
  · obtain ⟨i, rfl⟩ := hb v hv; rw [byId_ids hinj]; exact h.var i

section value
variable {x y : UReal2 ℝ} (hx : FineP (fun i m => ∃ j, ids j = i ∧ m = mom j) x) (hy : FineP (fun i m => ∃ j, ids j = i ∧ m = mom j) y)

include hx in
theorem table_sub : x.hg.vars ⊆ Finset.univ.image ids := by
  intro i hi
  by_contra hn
  exact table_out hx (fun ⟨j, hj⟩ => hn (Finset.mem_image.2 ⟨j, Finset.mem_univ _, hj⟩)) hi

include hx in
theorem table_rv (hinj : Function.Injective ids) (ω : Ω) : x.mu + x.hg.rv (byId ids X) ω = expn ids x fun i => X i ω := by
  have hs := table_sub hx
  have e1 : ∑ i ∈ x.hg.vars, x.hg.G i * byId ids X i ω = ∑ i, x.hg.G (ids i) * X i ω := by
    rw [Finset.sum_subset hs fun i _ hi => by rw [Mom.G_out hi, zero_mul], Finset.sum_image fun i _ j _ h => hinj h]
    exact Finset.sum_congr rfl fun i _ => by rw [byId_ids hinj]
  have e2 : ∑ i ∈ x.hg.vars, ∑ j ∈ x.hg.vars, x.hg.H i j * byId ids X i ω * byId ids X j ω
      = ∑ i, ∑ j, x.hg.H (ids i) (ids j) * X i ω * X j ω := by
    rw [Finset.sum_subset hs fun i _ hi => Finset.sum_eq_zero fun j _ => by rw [Mom.H_out hx.ok.valid hi, zero_mul, zero_mul],
      Finset.sum_image fun i _ j _ h => hinj h]
    refine Finset.sum_congr rfl fun i _ => ?_
    rw [Finset.sum_subset hs fun j _ hj => by rw [H_comm, Mom.H_out hx.ok.valid hj, zero_mul, zero_mul], Finset.sum_image fun i _ j _ h => hinj h]
    exact Finset.sum_congr rfl fun j _ => by rw [byId_ids hinj, byId_ids hinj]
  rw [HessGrad.rv, e1, e2, expn, quadr, add_assoc]

include hx in
theorem table_has (hinj : Function.Injective ids) (h : Errors8 P X mom) : HasMoments P (byId ids X) x.hg := by
  intro i m hm
  obtain ⟨j, rfl, rfl⟩ := hx.mom i m hm
  rw [byId_ids hinj]
  exact ⟨h.m3 j, h.m4 j, h.m5 j, h.m6 j, h.m7 j, h.m8 j⟩

/-- The moments of a value are those of the random variable it stands for. -/
theorem value_moments (hinj : Function.Injective ids) (h : Errors8 P X mom)
    (hx : FineP (fun i m => ∃ j, ids j = i ∧ m = mom j) x) :
    Reports P x fun ω => expn ids x fun i => X i ω := by
  have := h.prob
  have hS := Mom.StdIndep.mono (errors_std hinj h) (table_sub hx)
  have hH := table_has hx hinj h
  have e : (fun ω => expn ids x fun i => X i ω) = fun ω => x.mu + x.hg.rv (byId ids X) ω := funext fun ω => (table_rv hx hinj ω).symm
  obtain ⟨hi, -⟩ := C24_m1 hx.ok.valid hS hH
  have hc : ∀ r, central P (fun ω => x.mu + x.hg.rv (byId ids X) ω) r = ∫ ω, (x.hg.rv (byId ids X) ω - ∫ ω', x.hg.rv (byId ids X) ω' ∂P) ^ r ∂P :=
    fun r => by simp only [central, Law2.centre_const hi]
  rw [e]
  refine ⟨(integrable_const _).add hi, C24_n_mean hx.ok.valid hS hH, ?_, ?_, fun r h2 h4 => ?_, fun h0 => ?_, fun h0 => ?_⟩
  · rw [hc]; exact C25_var hx.ok.valid hS hH
  · rw [hc]; exact C25_s hx.ok.valid hS hH
  · rw [hc]
    interval_cases r
    · exact C25_var hx.ok.valid hS hH
    · exact C26_m3 hx.ok.valid hS hH
    · exact C27_m4 hx.ok.valid hS hH
  · rw [hc] at h0
    rw [hc, hc]; exact C26_skew hx.ok.valid hS hH h0
  · rw [hc] at h0
    rw [hc, hc]; exact C27_kurt hx.ok.valid hS hH h0

theorem value_cov (hinj : Function.Injective ids) (h : Errors8 P X mom)
    (hx : FineP (fun i m => ∃ j, ids j = i ∧ m = mom j) x) (hy : FineP (fun i m => ∃ j, ids j = i ∧ m = mom j) y) :
    x.cov y = some (covar P (fun ω => expn ids x fun i => X i ω) fun ω => expn ids y fun i => X i ω) := by
  have := h.prob
  have hSx := Mom.StdIndep.mono (errors_std hinj h) (table_sub hx)
  have hSy := Mom.StdIndep.mono (errors_std hinj h) (table_sub hy)
  have hHx := table_has hx hinj h
  have hHy := table_has hy hinj h
  have ex : (fun ω => expn ids x fun i => X i ω) = fun ω => x.mu + x.hg.rv (byId ids X) ω := funext fun ω => (table_rv hx hinj ω).symm
  have ey : (fun ω => expn ids y fun i => X i ω) = fun ω => y.mu + y.hg.rv (byId ids X) ω := funext fun ω => (table_rv hy hinj ω).symm
  have hix := (C24_m1 hx.ok.valid hSx hHx).1
  have hiy := (C24_m1 hy.ok.valid hSy hHy).1
  rw [ex, ey]
  simp only [covar, Law2.centre_const hix, Law2.centre_const hiy]
  exact C28_cov hx.ok.valid hy.ok.valid (Mom.StdIndep.mono (errors_std hinj h) (Finset.union_subset (table_sub hx) (table_sub hy))) hHx hHy

end value

/-! ## C70: exact for quadratic functions -/

variable {p : List Node2} {mu s : Fin n → ℝ} {k l : ℕ} {F G : (Fin n → ℝ) → ℝ}

/-- **C70** The full statement: if the functions computed are polynomials of degree at most 2, mean, variance, standard deviation, third and fourth moment,
skewness, kurtosis and covariances are those of the random variables.  It is false, see `C70_false`. -/
def C70_statement : Prop :=
  ∀ (n : ℕ) (ids : Fin n → VId) (mu s : Fin n → ℝ) (mom : Fin n → Moments ℝ) (p : List Node2) (k l : ℕ) (F G : (Fin n → ℝ) → ℝ)
    (Ω : Type) (_ : MeasurableSpace Ω) (P : Measure Ω) (X : Fin n → Ω → ℝ),
    Function.Injective ids → (∀ i, ids i < maxId) → NodesRight2 p (List.ofFn mu) → Errors8 P X mom →
    Computes p k F → Computes p l G → Quadratic F → Quadratic G →
    ∃ out, evalU2 p (elems2 ids mu s mom) = some out ∧
      Reports P (out.getD k (UReal2.const 0)) (fun ω => F fun i => mu i + s i * X i ω) ∧
      Reports P (out.getD l (UReal2.const 0)) (fun ω => G fun i => mu i + s i * X i ω) ∧
      (out.getD k (UReal2.const 0)).cov (out.getD l (UReal2.const 0))
        = some (covar P (fun ω => F fun i => mu i + s i * X i ω) fun ω => G fun i => mu i + s i * X i ω)

/-- a quadratic function is equal to its expansion -/
theorem quad_expn {x : UReal2 ℝ} (hc : Computes p k F) (hF : Quadratic F) (h : Expands ids (fn2 p mu s k) x) (z : Fin n → ℝ) :
    F (fun i => mu i + s i * z i) = expn ids x z := by
  obtain ⟨c, b, a, e⟩ := quad_quadr hF mu s
  rw [e]
  refine quadr_unique (h.congr_left fun z => ?_) z
  rw [← e, fn2, hc]
  rfl

/-- **C70** (partial) True if there is only one variable, or the iteration over the Hessian works at every node.  Missing: the other computations, for which
it is false in general. -/
theorem C70_exact_partial (hinj : Function.Injective ids) (hlt : ∀ i, ids i < maxId) (hp : NodesRight2 p (List.ofFn mu))
    (hi : n ≤ 1 ∨ NodesIter p (elems2 ids mu s mom)) (hX : Errors8 P X mom)
    (hk : Computes p k F) (hl : Computes p l G) (hF : Quadratic F) (hG : Quadratic G) :
    ∃ out, evalU2 p (elems2 ids mu s mom) = some out ∧
      Reports P (out.getD k (UReal2.const 0)) (fun ω => F fun i => mu i + s i * X i ω) ∧
      Reports P (out.getD l (UReal2.const 0)) (fun ω => G fun i => mu i + s i * X i ω) ∧
      (out.getD k (UReal2.const 0)).cov (out.getD l (UReal2.const 0))
        = some (covar P (fun ω => F fun i => mu i + s i * X i ω) fun ω => G fun i => mu i + s i * X i ω) := by
  obtain ⟨out, e, -, ex⟩ := C36_taylor_partial hinj hlt hp hi
  have hx := evalU2_table hlt hp e k
  have hy := evalU2_table hlt hp e l
  have e1 : (fun ω => F fun i => mu i + s i * X i ω) = fun ω => expn ids (out.getD k (UReal2.const 0)) fun i => X i ω :=
    funext fun ω => quad_expn hk hF (ex k) fun i => X i ω
  have e2 : (fun ω => G fun i => mu i + s i * X i ω) = fun ω => expn ids (out.getD l (UReal2.const 0)) fun i => X i ω :=
    funext fun ω => quad_expn hl hG (ex l) fun i => X i ω
  refine ⟨out, e, ?_⟩
  rw [e1, e2]
  exact ⟨value_moments hinj hX hx, value_moments hinj hX hy, value_cov hinj hX hx hy⟩

/-- **C70** In particular for all computations with `+`, `-`, `*` and constants, whatever the intermediate results. -/
theorem C70_polynomial (hinj : Function.Injective ids) (hlt : ∀ i, ids i < maxId) (hp : ∀ nd ∈ p, PolyNode nd) (hr : InRange p n)
    (hX : Errors8 P X mom) (hk : Computes p k F) (hl : Computes p l G) (hF : Quadratic F) (hG : Quadratic G) :
    ∃ out, evalU2 p (elems2 ids mu s mom) = some out ∧
      Reports P (out.getD k (UReal2.const 0)) (fun ω => F fun i => mu i + s i * X i ω) ∧
      Reports P (out.getD l (UReal2.const 0)) (fun ω => G fun i => mu i + s i * X i ω) ∧
      (out.getD k (UReal2.const 0)).cov (out.getD l (UReal2.const 0))
        = some (covar P (fun ω => F fun i => mu i + s i * X i ω) fun ω => G fun i => mu i + s i * X i ω) :=
  C70_exact_partial hinj hlt (poly_right p hp _ (by simpa using hr)) (Or.inr (poly_iter p hp _)) hX hk hl hF hG

/-! Example: two variables with a skewed distribution, `x * x + x * y` and `x * y`. -/

theorem errors_twoPoint (hinj : Function.Injective ids) :
    Errors8 (Measure.infinitePi fun _ : VId => Mom.twoPoint) (fun i (ω : VId → ℝ) => ω (ids i)) fun _ => Mom.twoPointMom := by
  have h := Mom.twoPoint_indep (Finset.univ.image ids)
  have hm : ∀ i, ids i ∈ Finset.univ.image ids := fun i => Finset.mem_image_of_mem _ (Finset.mem_univ _)
  have h1 : ∫ x : ℝ, x ∂Mom.twoPoint = 0 := by
    have := Mom.twoPoint_mom 1
    norm_num at this
    exact this
  have hk := (Mom.stdIndep_pi (fun _ => Mom.twoPoint) (fun _ k _ => Mom.twoPoint_int k) (fun _ => h1)
    (fun _ => by rw [Mom.twoPoint_mom]; norm_num) ∅).2
  have hi := h.indep.precomp (g := fun i => (⟨ids i, hm i⟩ : (Finset.univ.image ids : Finset VId)))
    fun i j e => hinj (Subtype.ext_iff.1 e)
  refine ⟨inferInstance, hi, fun i => h.meas _ (hm i), fun i => h.int _ (hm i), fun i => h.mean _ (hm i), fun i => h.var _ (hm i), ?_, ?_, ?_, ?_, ?_, ?_⟩ <;>
  · intro i
    rw [hk, Mom.twoPoint_mom, Mom.twoPointMom]
    norm_num

theorem exBias_poly : ∀ nd ∈ exBias, PolyNode nd := by
  intro nd h
  simp only [exBias, List.mem_cons, List.not_mem_nil, or_false] at h
  rcases h with rfl | rfl | rfl
  · exact .mul _ _ _
  · exact .mul _ _ _
  · exact .add _ _ _

example := C70_polynomial (ids := ![1, 2]) (mu := ![3, 4]) (s := ![1, 2]) (by decide) (by decide) exBias_poly (by simp [exBias, InRange])
  (errors_twoPoint (ids := ![1, 2]) (by decide)) exBias_fn
  (G := fun y : Fin 2 → ℝ => y 0 * y 1) (l := 3) (fun y => by simp [exBias, evalR2, List.ofFn_succ]) exBias_quad
  ⟨0, 0, ![![0, 1], ![0, 0]], fun y => by simp [Fin.sum_univ_two]⟩

/-- one variable, and a function which is not written as a polynomial: `pow(x, 2)` -/
example (m s : ℝ) (hm : m ≠ 0) := C70_exact_partial (ids := ![4]) (mu := ![m]) (s := ![s])
  (p := [.un (fun x => UMath2.pow exN x (UReal2.const ((2 : ℤ) : ℝ))) (fun t => t ^ (2 : ℤ)) 0]) (by decide) (by decide)
  ⟨by simp, C35_pow_int _ 2 (by simpa using hm), trivial⟩ (Or.inl le_rfl) (errors_twoPoint (ids := ![4]) (by decide))
  (F := fun y : Fin 1 → ℝ => y 0 ^ (2 : ℤ)) (k := 1) (fun y => by simp [evalR2]) (G := fun y : Fin 1 → ℝ => y 0) (l := 0)
  (fun y => by simp [evalR2]) ⟨0, 0, ![![1]], fun y => by simp [pow_two]⟩ ⟨0, ![1], 0, fun y => by simp⟩

/-! ## C70: in the limit of small errors -/

theorem fn2_smul (p : List Node2) (mu s : Fin n → ℝ) (k : ℕ) (t : ℝ) (z : Fin n → ℝ) : fn2 p mu (t • s) k z = fn2 p mu s k (t • z) := by
  unfold fn2
  simp only [Pi.smul_apply, smul_eq_mul]
  congr 3
  funext i
  ring

/-- the expansion scales with the errors -/
theorem expn_scale {x xt : UReal2 ℝ} {t : ℝ} (h : Expands ids (fn2 p mu s k) x) (ht : Expands ids (fn2 p mu (t • s) k) xt) (z : Fin n → ℝ) :
    expn ids xt z = expn ids x (t • z) := by
  have hz : Tendsto (fun z : Fin n → ℝ => t • z) (𝓝 0) (𝓝 0) := by
    have : Continuous fun z : Fin n → ℝ => t • z := by fun_prop
    simpa using this.tendsto 0
  have h1 := h.comp_tendsto hz
  have h2 : ((fun z : Fin n → ℝ => ‖z‖ ^ 2) ∘ fun z => t • z) =O[𝓝 0] fun z : Fin n → ℝ => ‖z‖ ^ 2 := by
    refine IsBigO.of_bound (|t| ^ 2) (Eventually.of_forall fun z => ?_)
    simp [norm_smul, mul_pow]
  rw [expn, expn, quadr_scale]
  refine quadr_unique (((h1.trans_isBigO h2).sub ht).congr_left fun z => ?_) z
  simp only [Function.comp_apply, fn2_smul]
  rw [← quadr_scale]
  simp only [quadr]
  ring

section near
variable {x : UReal2 ℝ} {B : ℝ}

theorem quadr_sub (c : ℝ) (b : Fin n → ℝ) (a : Fin n → Fin n → ℝ) (z : Fin n → ℝ) (t : ℝ) : quadr c b a (t • z) - c
    = (∑ i, b i * z i) * t + (∑ i, ∑ j, a i j * z i * z j) * t ^ 2 := by
  rw [quadr_smul]; ring

/-- for small errors the function is near its expansion -/
theorem near_quadr {c : ℝ} {b : Fin n → ℝ} {a : Fin n → Fin n → ℝ} (hB : ∀ i, ∀ᵐ ω ∂P, |X i ω| ≤ B) (hk : Computes p k F)
    (h : (fun z => fn2 p mu s k z - quadr c b a z) =o[𝓝 0] fun z => ‖z‖ ^ 2) :
    Law2.Near P 1 (fun t ω => F (fun i => mu i + (t • s) i * X i ω) - c) (fun t ω => quadr c b a (t • fun i => X i ω) - c) := by
  have hC0 : 0 < |B| + 1 := by positivity
  have hb : ∀ᵐ ω ∂P, ∀ i, |X i ω| ≤ |B| + 1 := by
    rw [ae_all_iff]
    intro i
    filter_upwards [hB i] with ω hω
    exact hω.trans ((le_abs_self B).trans (by linarith))
  have hn : ∀ᵐ ω ∂P, ‖fun i => X i ω‖ ≤ |B| + 1 := by
    filter_upwards [hb] with ω hω
    exact (pi_norm_le_iff_of_nonneg hC0.le).2 fun i => hω i
  generalize |B| + 1 = C at hC0 hb hn
  refine ⟨fun ε hε => ?_, ?_⟩
  · have h1 := isLittleO_iff.1 h (show 0 < ε / C ^ 2 by positivity)
    obtain ⟨δ, hδ, hball⟩ := Metric.eventually_nhds_iff.1 h1
    have hsm : ∀ᶠ t : ℝ in 𝓝 0, |t| < δ / C := by
      filter_upwards [Metric.ball_mem_nhds (0 : ℝ) (show 0 < δ / C by positivity)] with t ht
      simpa using ht
    filter_upwards [hsm] with t ht
    filter_upwards [hn] with ω hω
    have hlt : ‖t • fun i => X i ω‖ < δ := by
      rw [norm_smul, Real.norm_eq_abs]
      calc |t| * ‖fun i => X i ω‖ ≤ |t| * C := by gcongr
        _ < δ / C * C := by gcongr
        _ = δ := by field_simp
    have h2 := hball (y := t • fun i => X i ω) (by simpa using hlt)
    have e : F (fun i => mu i + (t • s) i * X i ω) = fn2 p mu s k (t • fun i => X i ω) := by
      rw [← fn2_smul, fn2, hk]
    rw [sub_sub_sub_cancel_right, e]
    refine (le_trans (le_of_eq rfl) h2).trans ?_
    rw [norm_pow, norm_norm, norm_smul, Real.norm_eq_abs, mul_pow]
    calc ε / C ^ 2 * (|t| ^ 2 * ‖fun i => X i ω‖ ^ 2) ≤ ε / C ^ 2 * (|t| ^ 2 * C ^ 2) := by gcongr
      _ = ε * |t| ^ (1 + 1) := by field_simp
  · refine ⟨∑ i, |b i| * C + ∑ i, ∑ j, |a i j| * C * C + 1, by positivity, ?_⟩
    filter_upwards [Law2.small_one] with t ht
    filter_upwards [hb] with ω hω
    rw [quadr_sub]
    have a1 : |∑ i, b i * X i ω| ≤ ∑ i, |b i| * C := by
      refine (Finset.abs_sum_le_sum_abs _ _).trans (Finset.sum_le_sum fun i _ => ?_)
      rw [abs_mul]; gcongr; exact hω i
    have a2 : |∑ i, ∑ j, a i j * X i ω * X j ω| ≤ ∑ i, ∑ j, |a i j| * C * C := by
      refine (Finset.abs_sum_le_sum_abs _ _).trans (Finset.sum_le_sum fun i _ => ?_)
      refine (Finset.abs_sum_le_sum_abs _ _).trans (Finset.sum_le_sum fun j _ => ?_)
      rw [abs_mul, abs_mul]; gcongr
      · exact hω i
      · exact hω j
    have t2 : |t ^ 2| ≤ |t| := by rw [abs_pow]; nlinarith [abs_nonneg t]
    calc _ ≤ |(∑ i, b i * X i ω) * t| + |(∑ i, ∑ j, a i j * X i ω * X j ω) * t ^ 2| := abs_add_le _ _
      _ ≤ (∑ i, |b i| * C) * |t| + (∑ i, ∑ j, |a i j| * C * C) * |t| := by
        rw [abs_mul, abs_mul]
        gcongr
      _ ≤ _ := by rw [pow_one]; nlinarith [abs_nonneg t]

theorem near_expn (hB : ∀ i, ∀ᵐ ω ∂P, |X i ω| ≤ B) (hk : Computes p k F) (h : Expands ids (fn2 p mu s k) x) :
    Law2.Near P 1 (fun t ω => F (fun i => mu i + (t • s) i * X i ω) - x.mu) (fun t ω => expn ids x (t • fun i => X i ω) - x.mu) :=
  near_quadr hB hk h

theorem meas_F {c : ℝ} (hX : ∀ i, AEMeasurable (X i) P) (mF : Measurable F) (t : ℝ) :
    AEStronglyMeasurable (fun ω => F (fun i => mu i + (t • s) i * X i ω) - c) P := by
  refine AEMeasurable.aestronglyMeasurable ?_
  refine (mF.comp_aemeasurable (aemeasurable_pi_lambda _ fun i => ?_)).sub_const _
  exact ((hX i).const_mul _).const_add _

theorem meas_quadr (c : ℝ) (b : Fin n → ℝ) (a : Fin n → Fin n → ℝ) (hX : ∀ i, AEMeasurable (X i) P) (t : ℝ) :
    AEStronglyMeasurable (fun ω => quadr c b a (t • fun i => X i ω)) P := by
  refine AEMeasurable.aestronglyMeasurable ?_
  unfold quadr
  simp only [Pi.smul_apply, smul_eq_mul]
  refine (AEMeasurable.const_add ?_ _).add ?_
  · exact Finset.aemeasurable_fun_sum _ fun i _ => ((hX i).const_mul _).const_mul _
  · exact Finset.aemeasurable_fun_sum _ fun i _ => Finset.aemeasurable_fun_sum _ fun j _ =>
      (((hX i).const_mul _).const_mul _).mul ((hX j).const_mul _)

theorem meas_expn (hX : ∀ i, AEMeasurable (X i) P) (t : ℝ) : AEStronglyMeasurable (fun ω => expn ids x (t • fun i => X i ω) - x.mu) P :=
  (meas_quadr _ _ _ hX t).sub aestronglyMeasurable_const

end near

/-- **C70** The full statement for any functions: let the errors be bounded, and the uncertainties shrink as `t * s`.  The mean reported by the library differs
from the mean of the random variable by less than the order `t ^ 2`, the `r`-th central moment by less than the order `t ^ (r + 1)`, the covariance by less
than the order `t ^ 3`: one order better than with the first order class.  It is false, see `C70_limit_false`. -/
def C70_limit_statement : Prop :=
  ∀ (n : ℕ) (ids : Fin n → VId) (mu s : Fin n → ℝ) (mom : Fin n → Moments ℝ) (p : List Node2) (k l : ℕ) (F G : (Fin n → ℝ) → ℝ)
    (Ω : Type) (_ : MeasurableSpace Ω) (P : Measure Ω) (X : Fin n → Ω → ℝ) (B : ℝ),
    Function.Injective ids → (∀ i, ids i < maxId) → NodesRight2 p (List.ofFn mu) → Errors8 P X mom → (∀ i, ∀ᵐ ω ∂P, |X i ω| ≤ B) →
    Computes p k F → Computes p l G → Measurable F → Measurable G →
    ∃ x y : ℝ → UReal2 ℝ,
      (∀ t, ∃ out, evalU2 p (elems2 ids mu (t • s) mom) = some out ∧ out.getD k (UReal2.const 0) = x t ∧ out.getD l (UReal2.const 0) = y t) ∧
      (∃ N : ℝ → ℝ, (∀ t, (x t).n .mean = some (N t)) ∧
        (fun t => N t - ∫ ω, F (fun i => mu i + (t • s) i * X i ω) ∂P) =o[𝓝 0] fun t : ℝ => t ^ 2) ∧
      (∀ r, 2 ≤ r → r ≤ 4 → ∃ M : ℝ → ℝ, (∀ t, (x t).m r = some (M t)) ∧
        (fun t => M t - central P (fun ω => F fun i => mu i + (t • s) i * X i ω) r) =o[𝓝 0] fun t : ℝ => t ^ (r + 1)) ∧
      ∃ C : ℝ → ℝ, (∀ t, (x t).cov (y t) = some (C t)) ∧
        (fun t => C t - covar P (fun ω => F fun i => mu i + (t • s) i * X i ω) fun ω => G fun i => mu i + (t • s) i * X i ω) =o[𝓝 0] fun t : ℝ => t ^ 3

/-- **C70** (partial) True if there is only one variable, or the iteration over the Hessian works at every node.  Missing: the other computations, for which
it is false in general; errors which are not bounded. -/
theorem C70_limit_partial (hinj : Function.Injective ids) (hlt : ∀ i, ids i < maxId) (hp : NodesRight2 p (List.ofFn mu))
    (hi : n ≤ 1 ∨ ∀ t : ℝ, NodesIter p (elems2 ids mu (t • s) mom)) (hX : Errors8 P X mom) {B : ℝ} (hB : ∀ i, ∀ᵐ ω ∂P, |X i ω| ≤ B)
    (hk : Computes p k F) (hl : Computes p l G) (mF : Measurable F) (mG : Measurable G) :
    ∃ x y : ℝ → UReal2 ℝ,
      (∀ t, ∃ out, evalU2 p (elems2 ids mu (t • s) mom) = some out ∧ out.getD k (UReal2.const 0) = x t ∧ out.getD l (UReal2.const 0) = y t) ∧
      (∀ᶠ t : ℝ in 𝓝 0, Integrable (fun ω => F fun i => mu i + (t • s) i * X i ω) P) ∧
      (∃ N : ℝ → ℝ, (∀ t, (x t).n .mean = some (N t)) ∧
        (fun t => N t - ∫ ω, F (fun i => mu i + (t • s) i * X i ω) ∂P) =o[𝓝 0] fun t : ℝ => t ^ 2) ∧
      (∀ r, 2 ≤ r → r ≤ 4 → ∃ M : ℝ → ℝ, (∀ t, (x t).m r = some (M t)) ∧
        (fun t => M t - central P (fun ω => F fun i => mu i + (t • s) i * X i ω) r) =o[𝓝 0] fun t : ℝ => t ^ (r + 1)) ∧
      ∃ C : ℝ → ℝ, (∀ t, (x t).cov (y t) = some (C t)) ∧
        (fun t => C t - covar P (fun ω => F fun i => mu i + (t • s) i * X i ω) fun ω => G fun i => mu i + (t • s) i * X i ω) =o[𝓝 0] fun t : ℝ => t ^ 3 := by
  have := hX.prob
  have ho : ∀ t : ℝ, ∃ out, evalU2 p (elems2 ids mu (t • s) mom) = some out ∧ out.length = n + p.length ∧
      ∀ k, Expands ids (fn2 p mu (t • s) k) (out.getD k (UReal2.const 0)) :=
    fun t => C36_taylor_partial hinj hlt hp (hi.imp_right fun h => h t)
  choose out e _ ex using ho
  have e1 : ∀ k, Expands ids (fn2 p mu s k) ((out 1).getD k (UReal2.const 0)) := fun k => by simpa using ex 1 k
  have tab : ∀ t k, FineP (fun i m => ∃ j, ids j = i ∧ m = mom j) ((out t).getD k (UReal2.const 0)) := fun t k => evalU2_table hlt hp (e t) k
  have sc : ∀ t k (ω : Ω), expn ids ((out t).getD k (UReal2.const 0)) (fun i => X i ω) = expn ids ((out 1).getD k (UReal2.const 0)) (t • fun i => X i ω) :=
    fun t k ω => expn_scale (e1 k) (ex t k) _
  have rep := fun t k => value_moments hinj hX (tab t k)
  have nF := near_expn hB hk (e1 k)
  have nG := near_expn hB hl (e1 l)
  have mf := fun t => meas_F (mu := mu) (s := s) (c := ((out 1).getD k (UReal2.const 0)).mu) hX.meas mF t
  have mg := fun t => meas_F (mu := mu) (s := s) (c := ((out 1).getD l (UReal2.const 0)).mu) hX.meas mG t
  have me := fun t k => meas_expn (ids := ids) (x := (out 1).getD k (UReal2.const 0)) hX.meas t
  have cF := nF.centre mf fun t => me t k
  have cG := nG.centre mg fun t => me t l
  have iF := nF.integrable mf fun t => me t k
  have iG := nG.integrable mg fun t => me t l
  have un : ∀ {q : Ω → ℝ} {c : ℝ}, Integrable (fun ω => q ω - c) P → Integrable q P := fun {q c} h => by
    exact (h.add (integrable_const c)).congr (ae_of_all _ fun ω => by simp)
  have ce : ∀ {q : Ω → ℝ} {c : ℝ}, Integrable q P → ∀ ω, q ω - c - ∫ ω', (q ω' - c) ∂P = q ω - ∫ ω', q ω' ∂P := fun {q c} h ω => by
    have := Law2.centre_const h (-c) ω
    simpa [sub_eq_add_neg, add_comm, add_left_comm, add_assoc] using this
  refine ⟨fun t => (out t).getD k (UReal2.const 0), fun t => (out t).getD l (UReal2.const 0), fun t => ⟨out t, e t, rfl, rfl⟩,
    iF.mono fun t h => un h.1, ?_, ?_, ?_⟩
  · refine ⟨_, fun t => (rep t k).mean, ?_⟩
    refine (nF.integral mf fun t => me t k).congr' ?_ (Eventually.of_forall fun t => rfl)
    filter_upwards [iF] with t h
    simp only [sc]
    rw [integral_sub (un h.1) (integrable_const _), integral_sub (un h.2) (integrable_const _)]
    ring
  · intro r h2 h4
    refine ⟨_, fun t => (rep t k).m r h2 h4, ?_⟩
    refine ((cF.pow r (by omega)).integral (fun t => ?_) fun t => ?_).congr' ?_ (Eventually.of_forall fun t => rfl)
    · exact ((mf t).sub aestronglyMeasurable_const).pow r
    · exact ((me t k).sub aestronglyMeasurable_const).pow r
    filter_upwards [iF] with t h
    simp only [central, sc, ce (un h.1), ce (un h.2)]
  · refine ⟨_, fun t => value_cov hinj hX (tab t k) (tab t l), ?_⟩
    refine ((cF.mul cG).integral (fun t => ?_) fun t => ?_).congr' ?_ (Eventually.of_forall fun t => rfl)
    · exact ((mf t).sub aestronglyMeasurable_const).mul ((mg t).sub aestronglyMeasurable_const)
    · exact ((me t k).sub aestronglyMeasurable_const).mul ((me t l).sub aestronglyMeasurable_const)
    filter_upwards [iF, iG] with t h h'
    simp only [covar, sc, ce (un h.1), ce (un h.2), ce (un h'.1), ce (un h'.2)]

end Unc.Props
