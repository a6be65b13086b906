import Verif.Spec.Bias
import Verif.Props.SameFunction2

/-!
# The two propagation modes: C55

For a computation whose function is a polynomial of degree 2, `n()` with `Prop::mean` is the mean of the function, and `n()` with
`Prop::est`, computed at the measured values, is an unbiased estimate of the function at the true values.
-/

namespace Unc.Props
open Unc Unc.Spec SMap HessGrad Filter Topology Asymptotics MeasureTheory

section
variable {n : ℕ} {c : ℝ} {b : Fin n → ℝ} {a : Fin n → Fin n → ℝ} {F : (Fin n → ℝ) → ℝ}

theorem quad_shift (hF : ∀ y, F y = c + ∑ i, b i * y i + ∑ i, ∑ j, a i j * y i * y j) (m w : Fin n → ℝ) :
    F (fun i => m i + w i) = F m + ∑ i, (b i + ∑ j, (a i j + a j i) * m j) * w i + ∑ i, ∑ j, a i j * w i * w j := by
  rw [hF, hF]
  have e1 : ∑ i, b i * (m i + w i) = ∑ i, b i * m i + ∑ i, b i * w i := by
    rw [← Finset.sum_add_distrib]; exact Finset.sum_congr rfl fun i _ => by ring
  have e2 : ∑ i, ∑ j, a i j * (m i + w i) * (m j + w j) = ∑ i, ∑ j, a i j * m i * m j + ∑ i, ∑ j, a i j * w i * w j
      + (∑ i, ∑ j, a i j * w i * m j + ∑ i, ∑ j, a i j * m i * w j) := by
    simp only [← Finset.sum_add_distrib]
    exact Finset.sum_congr rfl fun i _ => Finset.sum_congr rfl fun j _ => by ring
  have e3 : ∑ i, ∑ j, a i j * m i * w j = ∑ i, ∑ j, a j i * m j * w i := Finset.sum_comm
  have e4 : ∑ i, (b i + ∑ j, (a i j + a j i) * m j) * w i
      = ∑ i, b i * w i + (∑ i, ∑ j, a i j * w i * m j + ∑ i, ∑ j, a j i * m j * w i) := by
    simp only [← Finset.sum_add_distrib]
    refine Finset.sum_congr rfl fun i _ => ?_
    rw [add_mul, Finset.sum_mul]
    refine congrArg₂ _ rfl (Finset.sum_congr rfl fun j _ => ?_)
    ring
  rw [e1, e2, e3, e4]; ring

theorem quad_axis (hF : ∀ y, F y = c + ∑ i, b i * y i + ∑ i, ∑ j, a i j * y i * y j) (m s : Fin n → ℝ) (k : Fin n) :
    ∃ d, ∀ t : ℝ, F (fun i => m i + s i * (Pi.single k t : Fin n → ℝ) i) = F m + d * t + a k k * s k ^ 2 * t ^ 2 := by
  refine ⟨(b k + ∑ j, (a k j + a j k) * m j) * s k, fun t => ?_⟩
  rw [quad_shift hF m fun i => s i * (Pi.single k t : Fin n → ℝ) i]
  have h0 : ∀ i, i ≠ k → s i * (Pi.single k t : Fin n → ℝ) i = 0 := fun i hi => by rw [Pi.single_eq_of_ne hi, mul_zero]
  have e : ∑ i, ∑ j, a i j * (s i * (Pi.single k t : Fin n → ℝ) i) * (s j * (Pi.single k t : Fin n → ℝ) j)
      = a k k * (s k * t) * (s k * t) := by
    rw [Finset.sum_eq_single k (fun i _ hi => Finset.sum_eq_zero fun j _ => by rw [h0 i hi]; ring) (by simp),
      Finset.sum_eq_single k (fun j _ hj => by rw [h0 j hj, mul_zero]) (by simp), Pi.single_eq_same]
  rw [e, Finset.sum_eq_single k (fun i _ hi => by rw [h0 i hi, mul_zero]) (by simp), Pi.single_eq_same]
  ring

theorem quad_integral (hF : ∀ y, F y = c + ∑ i, b i * y i + ∑ i, ∑ j, a i j * y i * y j) {Ω : Type*} [MeasurableSpace Ω]
    {P : Measure Ω} {X : Fin n → Ω → ℝ} (hX : StdUncorr P X) (m s : Fin n → ℝ) :
    Integrable (fun ω => F fun i => m i + s i * X i ω) P ∧
      ∫ ω, F (fun i => m i + s i * X i ω) ∂P = F m + ∑ i, a i i * s i ^ 2 := by
  have := hX.prob
  have e : (fun ω => F fun i => m i + s i * X i ω) = fun ω => F m + ∑ i, ((b i + ∑ j, (a i j + a j i) * m j) * s i) * X i ω
      + ∑ i, ∑ j, (a i j * s i * s j) * (X i ω * X j ω) := by
    funext ω
    rw [quad_shift hF m fun i => s i * X i ω]
    refine congrArg₂ _ (congrArg₂ _ rfl (Finset.sum_congr rfl fun i _ => by ring)) ?_
    exact Finset.sum_congr rfl fun i _ => Finset.sum_congr rfl fun j _ => by ring
  have i1 : ∀ i, Integrable (fun ω => ((b i + ∑ j, (a i j + a j i) * m j) * s i) * X i ω) P := fun i => (hX.int1 i).const_mul _
  have i2 : ∀ i j, Integrable (fun ω => (a i j * s i * s j) * (X i ω * X j ω)) P := fun i j => (hX.int2 i j).const_mul _
  have j1 : Integrable (fun ω => ∑ i, ((b i + ∑ j, (a i j + a j i) * m j) * s i) * X i ω) P := integrable_finset_sum _ fun i _ => i1 i
  have j2 : Integrable (fun ω => ∑ i, ∑ j, (a i j * s i * s j) * (X i ω * X j ω)) P :=
    integrable_finset_sum _ fun i _ => integrable_finset_sum _ fun j _ => i2 i j
  have j0 : Integrable (fun ω => F m + ∑ i, ((b i + ∑ j, (a i j + a j i) * m j) * s i) * X i ω) P := (integrable_const _).add j1
  rw [e]
  refine ⟨j0.add j2, ?_⟩
  rw [integral_add j0 j2, integral_add (integrable_const _) j1, integral_finset_sum _ fun i _ => i1 i,
    integral_finset_sum _ fun i _ => integrable_finset_sum _ fun j _ => i2 i j]
  simp only [integral_const_mul, hX.mean, mul_zero, Finset.sum_const_zero, add_zero]
  refine congrArg₂ _ (by simp) (Finset.sum_congr rfl fun i _ => ?_)
  rw [integral_finset_sum _ fun j _ => i2 i j]
  simp only [integral_const_mul, hX.cov]
  simp
  ring

variable {ids : Fin n → VId} {p : List Node2} {mu s : Fin n → ℝ} {mom : Fin n → Moments ℝ} {k : ℕ}

/-- The first order mean and the correction. -/
theorem quad_value (hinj : Function.Injective ids) (hlt : ∀ i, ids i < maxId) (hp : NodesRight2 p (List.ofFn mu))
    (hc : Computes p k F) (hF : ∀ y, F y = c + ∑ i, b i * y i + ∑ i, ∑ j, a i j * y i * y j) :
    ∃ out, evalU2 p (elems2 ids mu s mom) = some out ∧ (out.getD k (UReal2.const 0)).mu = F mu ∧
      (out.getD k (UReal2.const 0)).m 1 = some (∑ i, a i i * s i ^ 2) := by
  obtain ⟨out, e, -, ex⟩ := C36_axis (mom := mom) (s := s) hinj hlt hp
  have f := evalU2_table hlt hp e k
  have hfn : ∀ z : Fin n → ℝ, fn2 p mu s k z = F fun i => mu i + s i * z i := fun z => hc _
  have hax : ∀ i, (out.getD k (UReal2.const 0)).mu = F mu ∧
      (out.getD k (UReal2.const 0)).hg.H (ids i) (ids i) = a i i * s i ^ 2 := by
    intro i
    obtain ⟨d, hd⟩ := quad_axis hF mu s i
    have h := ex k i
    simp only [hfn, hd] at h
    obtain ⟨h1, -, h3⟩ := coeffs_zero (a := F mu - (out.getD k (UReal2.const 0)).mu)
      (b := d - (out.getD k (UReal2.const 0)).hg.G (ids i))
      (c := a i i * s i ^ 2 - (out.getD k (UReal2.const 0)).hg.H (ids i) (ids i)) (h.congr_left fun t => by ring)
    exact ⟨(sub_eq_zero.1 h1).symm, (sub_eq_zero.1 h3).symm⟩
  refine ⟨out, e, ?_, ?_⟩
  · rcases Nat.eq_zero_or_pos n with h0 | h0
    · obtain ⟨o, eo, -, xo⟩ := C36_taylor_partial (mom := mom) (s := s) hinj hlt hp (Or.inl (by omega))
      cases e.symm.trans eo
      have := (isLittleO_iff.1 (xo k) one_pos).self_of_nhds
      simp only [norm_zero, ne_eq, OfNat.ofNat_ne_zero, not_false_eq_true, zero_pow, mul_zero, norm_le_zero_iff, hfn, Pi.zero_apply,
        Finset.sum_const_zero, add_zero] at this
      exact (sub_eq_zero.1 this).symm
    · exact (hax ⟨0, h0⟩).1
  · have hsub : (out.getD k (UReal2.const 0)).hg.vars ⊆ Finset.univ.image ids := by
      intro i hi
      by_contra hn
      exact table_out f (fun ⟨j, hj⟩ => hn (Finset.mem_image.2 ⟨j, Finset.mem_univ _, hj⟩)) hi
    rw [Mom.m_one' f.ok.valid, Mom.m1_sum f.ok.valid hsub, Finset.sum_image fun i _ j _ h => hinj h]
    exact congrArg some (Finset.sum_congr rfl fun i _ => (hax i).2)

end

variable {n : ℕ} {ids : Fin n → VId} {p : List Node2} {mu s : Fin n → ℝ} {mom : Fin n → Moments ℝ} {k : ℕ} {F : (Fin n → ℝ) → ℝ}
  {Ω : Type*} [MeasurableSpace Ω] {P : Measure Ω} {X : Fin n → Ω → ℝ}

/-- **C55** If the function computed is a polynomial of degree at most 2, then `n()` with `Prop::mean` is its mean, for uncorrelated
variables with means `mu` and standard deviations `s`; with `Prop::est` the same correction is subtracted. -/
theorem C55_mean (hinj : Function.Injective ids) (hlt : ∀ i, ids i < maxId) (hp : NodesRight2 p (List.ofFn mu))
    (hc : Computes p k F) (hF : Quadratic F) (hX : StdUncorr P X) :
    ∃ out, evalU2 p (elems2 ids mu s mom) = some out ∧ Integrable (fun ω => F fun i => mu i + s i * X i ω) P ∧
      (out.getD k (UReal2.const 0)).n .mean = some (∫ ω, F (fun i => mu i + s i * X i ω) ∂P) ∧
      (out.getD k (UReal2.const 0)).n .est = some (F mu - (∫ ω, F (fun i => mu i + s i * X i ω) ∂P - F mu)) := by
  obtain ⟨c, b, a, hF⟩ := hF
  obtain ⟨out, e, hm, h1⟩ := quad_value (mom := mom) (s := s) hinj hlt hp hc hF
  obtain ⟨hi, hI⟩ := quad_integral hF hX mu s
  refine ⟨out, e, hi, ?_, ?_⟩
  · rw [UReal2.n, h1, hI, hm]; rfl
  · rw [UReal2.n, h1, hI, hm, add_sub_cancel_left, sub_eq_add_neg]; rfl

/-- **C55** `Prop::est` is unbiased: let the variables be measured with uncorrelated errors of mean 0 and standard deviation `s`, and
let `est m` be the result of `n()` when the measured values are `m`.  If the function computed is a polynomial of degree at most 2, the
mean of `est` is the function of the true values `mu`. -/
theorem C55_unbiased (hinj : Function.Injective ids) (hlt : ∀ i, ids i < maxId) (hp : ∀ m : Fin n → ℝ, NodesRight2 p (List.ofFn m))
    (hc : Computes p k F) (hF : Quadratic F) (hX : StdUncorr P X) (mu : Fin n → ℝ) :
    ∃ est : (Fin n → ℝ) → ℝ,
      (∀ m, ∃ out, evalU2 p (elems2 ids m s mom) = some out ∧ (out.getD k (UReal2.const 0)).n .est = some (est m)) ∧
      Integrable (fun ω => est fun i => mu i + s i * X i ω) P ∧
      ∫ ω, est (fun i => mu i + s i * X i ω) ∂P = F mu := by
  obtain ⟨c, b, a, hF⟩ := hF
  refine ⟨fun m => F m - ∑ i, a i i * s i ^ 2, fun m => ?_, ?_⟩
  · obtain ⟨out, e, hm, h1⟩ := quad_value (mom := mom) (s := s) hinj hlt (hp m) hc hF
    refine ⟨out, e, ?_⟩
    dsimp only
    rw [UReal2.n, h1, hm, sub_eq_add_neg]; rfl
  · have := hX.prob
    obtain ⟨hi, hI⟩ := quad_integral hF hX mu s
    refine ⟨hi.sub (integrable_const _), ?_⟩
    rw [integral_sub hi (integrable_const _), hI]
    simp

/-- The independent standardized variables of the specification of the moments are an instance. -/
theorem uncorr_of_indep {Y : VId → Ω → ℝ} (hinj : Function.Injective ids) (h : StdIndep P Y (Finset.univ.image ids)) :
    StdUncorr P fun i => Y (ids i) := by
  have hm : ∀ i, ids i ∈ Finset.univ.image ids := fun i => Finset.mem_image_of_mem _ (Finset.mem_univ _)
  have h1 : ∀ i, Integrable (Y (ids i)) P := fun i => by simpa using h.int _ (hm i) 1 (by norm_num)
  have hi : ∀ i j, i ≠ j → ProbabilityTheory.IndepFun (Y (ids i)) (Y (ids j)) P := fun i j hij =>
    h.indep.indepFun (i := ⟨_, hm i⟩) (j := ⟨_, hm j⟩) fun he => hij (hinj (Subtype.ext_iff.1 he))
  refine ⟨h.indep.isProbabilityMeasure, h1, fun i j => ?_, fun i => h.mean _ (hm i), fun i j => ?_⟩
  · rcases eq_or_ne i j with rfl | hij
    · simpa [pow_two] using h.int _ (hm i) 2 (by norm_num)
    · exact (hi i j hij).integrable_mul (h1 i) (h1 j)
  · rcases eq_or_ne i j with rfl | hij
    · simpa [pow_two] using h.var _ (hm i)
    · rw [if_neg hij]
      have := (hi i j hij).integral_mul_eq_mul_integral (h1 i).aestronglyMeasurable (h1 j).aestronglyMeasurable
      simpa [h.mean _ (hm i)] using this

/-! Example: `x * x + x * y`. -/

noncomputable def exBias : List Node2 :=
  [.bin (UReal2.mul exN) (fun s t => s * t) 0 0, .bin (UReal2.mul exN) (fun s t => s * t) 0 1, .bin (UReal2.add exN) (fun s t => s + t) 2 3]

theorem exBias_right (m : Fin 2 → ℝ) : NodesRight2 exBias (List.ofFn m) := by
  refine poly_right _ ?_ _ (by simp [exBias, InRange])
  intro nd h
  simp only [exBias, List.mem_cons, List.not_mem_nil, or_false] at h
  rcases h with rfl | rfl | rfl
  · exact .mul _ _ _
  · exact .mul _ _ _
  · exact .add _ _ _

theorem exBias_fn : Computes exBias 4 fun y : Fin 2 → ℝ => y 0 * y 0 + y 0 * y 1 := fun y => by
  simp [exBias, evalR2, List.ofFn_succ]

theorem exBias_quad : Quadratic fun y : Fin 2 → ℝ => y 0 * y 0 + y 0 * y 1 :=
  ⟨0, 0, ![![1, 1], ![0, 0]], fun y => by simp [Fin.sum_univ_two]⟩

example : ∃ out, evalU2 exBias (elems2 ![1, 2] ![3, 4] ![1, 2] fun _ => exN) = some out ∧
    (out.getD 4 (UReal2.const 0)).n .mean = some 22 ∧ (out.getD 4 (UReal2.const 0)).n .est = some 20 := by
  have hX := uncorr_of_indep (ids := ![1, 2]) (by decide) (Mom.twoPoint_indep _)
  obtain ⟨out, e, -, h1, h2⟩ := C55_mean (mu := ![3, 4]) (s := ![1, 2]) (mom := fun _ => exN) (ids := ![1, 2]) (by decide) (by decide)
    (exBias_right _) exBias_fn exBias_quad hX
  obtain ⟨-, hI⟩ := quad_integral (c := 0) (b := 0) (a := ![![1, 1], ![0, 0]]) (F := fun y : Fin 2 → ℝ => y 0 * y 0 + y 0 * y 1)
    (fun y => by simp [Fin.sum_univ_two]) hX ![3, 4] ![1, 2]
  rw [hI] at h1 h2
  refine ⟨out, e, h1.trans ?_, h2.trans ?_⟩ <;> simp [Fin.sum_univ_two] <;> norm_num

example := C55_unbiased (s := ![1, 2]) (mom := fun _ => exN) (ids := ![1, 2]) (by decide) (by decide) exBias_right exBias_fn exBias_quad
  (uncorr_of_indep (ids := ![1, 2]) (by decide) (Mom.twoPoint_indep _)) ![3, 4]

/-! ## degree 3 -/

/-- `x * x * x` -/
noncomputable def exCube : List Node2 :=
  [.bin (UReal2.mul exN) (fun s t => s * t) 0 0, .bin (UReal2.mul exN) (fun s t => s * t) 1 0]

theorem exCube_right (m : Fin 1 → ℝ) : NodesRight2 exCube (List.ofFn m) := by
  refine poly_right _ ?_ _ (by simp [exCube, InRange])
  intro nd h
  simp only [exCube, List.mem_cons, List.not_mem_nil, or_false] at h
  rcases h with rfl | rfl <;> exact .mul _ _ _

theorem exCube_fn : Computes exCube 2 fun y : Fin 1 → ℝ => y 0 ^ 3 := fun y => by
  simp [exCube, evalR2, List.ofFn_succ]; ring

theorem exCube_value (m s : ℝ) : ∃ out, evalU2 exCube (elems2 ![1] ![m] ![s] fun _ => exN) = some out ∧
    (out.getD 2 (UReal2.const 0)).n .est = some (m ^ 3 - 3 * m * s ^ 2) ∧
    (out.getD 2 (UReal2.const 0)).n .mean = some (m ^ 3 + 3 * m * s ^ 2) := by
  obtain ⟨out, e, -, ex⟩ := C36_axis (mom := fun _ => exN) (s := ![s]) (ids := ![1]) (mu := ![m]) (by decide) (by decide) (exCube_right _)
  have f := evalU2_table (by decide) (exCube_right ![m]) e 2
  have h := ex 2 0
  have hfn : ∀ t : ℝ, fn2 exCube ![m] ![s] 2 (Pi.single 0 t) = (m + s * t) ^ 3 := fun t => by
    have := exCube_fn fun i => (![m] : Fin 1 → ℝ) i + (![s] : Fin 1 → ℝ) i * (Pi.single 0 t : Fin 1 → ℝ) i
    rw [fn2, this]; simp
  simp only [hfn] at h
  have hcube : (fun t : ℝ => s ^ 3 * t ^ 3) =o[𝓝 0] fun t : ℝ => t ^ 2 :=
    (isLittleO_pow_pow (by norm_num)).const_mul_left _
  obtain ⟨h1, -, h3⟩ := coeffs_zero (a := m ^ 3 - (out.getD 2 (UReal2.const 0)).mu)
    (b := 3 * m ^ 2 * s - (out.getD 2 (UReal2.const 0)).hg.G 1)
    (c := 3 * m * s ^ 2 - (out.getD 2 (UReal2.const 0)).hg.H 1 1)
    ((h.sub hcube).congr_left fun t => by simp only [Matrix.cons_val_fin_one]; ring)
  have hsub : (out.getD 2 (UReal2.const 0)).hg.vars ⊆ {1} := by
    intro i hi
    by_contra hn
    exact table_out f (fun ⟨j, hj⟩ => hn (by simp at hj; simp [hj])) hi
  have hm : (out.getD 2 (UReal2.const 0)).m 1 = some (3 * m * s ^ 2) := by
    rw [Mom.m_one' f.ok.valid, Mom.m1_sum f.ok.valid hsub, Finset.sum_singleton, ← sub_eq_zero.1 h3]
  refine ⟨out, e, ?_, ?_⟩
  · rw [UReal2.n, hm, ← sub_eq_zero.1 h1, sub_eq_add_neg]; rfl
  · rw [UReal2.n, hm, ← sub_eq_zero.1 h1]; rfl

/-- **C55** Degree 2 is the limit: for `x * x * x` with a skewed error, `Prop::mean` is not the mean and `Prop::est` is not unbiased. -/
theorem C55_cubic : ∃ out, evalU2 exCube (elems2 ![1] ![0] ![1] fun _ => exN) = some out ∧
    (out.getD 2 (UReal2.const 0)).n .mean ≠ some (∫ x : ℝ, (0 + 1 * x) ^ 3 ∂Mom.twoPoint) ∧
    ∃ est : ℝ → ℝ,
      (∀ m, ∃ out, evalU2 exCube (elems2 ![1] ![m] ![1] fun _ => exN) = some out ∧ (out.getD 2 (UReal2.const 0)).n .est = some (est m)) ∧
      ∫ x : ℝ, est (0 + 1 * x) ∂Mom.twoPoint ≠ 0 ^ 3 := by
  obtain ⟨out, e, -, hm⟩ := exCube_value 0 1
  have h3 : ∫ x : ℝ, x ^ 3 ∂Mom.twoPoint = 3 / 2 := by rw [Mom.twoPoint_mom]; norm_num
  have h1 : ∫ x : ℝ, x ∂Mom.twoPoint = 0 := by
    have := Mom.twoPoint_mom 1
    norm_num at this
    exact this
  refine ⟨out, e, ?_, fun m => m ^ 3 - 3 * m * 1 ^ 2, fun m => ?_, ?_⟩
  · rw [hm]
    simp only [zero_add, one_mul, h3]
    norm_num
  · obtain ⟨out, e, he, -⟩ := exCube_value m 1
    exact ⟨out, e, he⟩
  · have i3 : Integrable (fun x : ℝ => x ^ 3) Mom.twoPoint := Mom.twoPoint_int 3
    have i1 : Integrable (fun x : ℝ => 3 * x) Mom.twoPoint := by
      have := (Mom.twoPoint_int 1).const_mul 3
      simpa using this
    simp only [zero_add, one_mul, one_pow, mul_one]
    rw [integral_sub i3 i1, integral_const_mul, h3, h1]
    norm_num

end Unc.Props
