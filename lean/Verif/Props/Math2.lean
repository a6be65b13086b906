import Verif.Model.Math2
import Verif.Spec.Diff2
import Verif.Lemmas.Calc
import Verif.Props.Math
import Verif.Props.SecondOrder

/-!
# First and second derivatives passed by the functions of `math.hpp` on `UReal2` (C35)

`Passes1 g F a`, `Passes2 g F a b`: see `Verif/Spec/Diff2.lean`.  `C35_result1` and `C35_result2` say what this means for the
result.
-/

namespace Unc.Props
open Unc Unc.Spec Filter Topology Mom

/-- What passing the true derivatives means for the result, whatever the argument: value, gradient, variables, moments and
second derivatives in each variable follow the chain rule; the mixed second derivatives too if the iteration over the Hessian
works (`IterOk`, `C46_full_iff`). -/
theorem C35_result1 {g : UReal2 ℝ → Option (UReal2 ℝ)} {F : ℝ → ℝ} {a : ℝ} (h : Passes1 g F a) :
    ∃ d dd, Derivs1 F a d dd ∧ ∀ x, Ok2 x → x.mu = a → ∃ z, g x = some z ∧ Ok2 z ∧ z.mu = F a ∧
      (∀ i, z.hg.G i = d * x.hg.G i) ∧ z.hg.vars = x.hg.vars ∧ (∀ i, z.hg.momOf i = x.hg.momOf i) ∧
      (∀ i, D2 z i i = dd * x.hg.G i ^ 2 + d * D2 x i i) ∧ (IterOk x dd → Chain1 x z d dd) := by
  obtain ⟨d, dd, hd, hg⟩ := h
  refine ⟨d, dd, hd, fun x hx hm => ?_⟩
  obtain ⟨u, e⟩ := hg x hx hm
  obtain ⟨z, ez, oz⟩ := C21_unary hx (F a) d dd
  have hz := ez u
  obtain ⟨h1, h2, h3, h4⟩ := C22_unary hx hz
  refine ⟨z, by rw [e, hz], oz, h1, h2, h3, h4, fun i => ?_, fun hi => C23_unary_partial hx hi hz⟩
  by_cases h0 : dd = 0
  · rw [C23_unary_partial hx (Or.inl h0) hz i i, h0]; ring
  · exact (C23_unary_behaviour hx h0 hz).1 i

theorem C35_result2 {g : UReal2 ℝ → UReal2 ℝ → Option (UReal2 ℝ)} {F : ℝ → ℝ → ℝ} {a b : ℝ} (h : Passes2 g F a b) :
    ∃ dx dy dxx dyy dxy, Derivs2 F a b dx dy dxx dyy dxy ∧ ∀ x y, Ok2 x → Ok2 y → x.mu = a → y.mu = b →
      ∃ z, g x y = some z ∧ Ok2 z ∧ z.mu = F a b ∧
      (∀ i, z.hg.G i = dx * x.hg.G i + dy * y.hg.G i) ∧ z.hg.vars = x.hg.vars ∪ y.hg.vars ∧
      (∀ i, z.hg.momOf i = (x.hg.momOf i).or (y.hg.momOf i)) ∧
      (∀ i, D2 z i i = dxx * x.hg.G i ^ 2 + dyy * y.hg.G i ^ 2 + 2 * dxy * x.hg.G i * y.hg.G i + dx * D2 x i i + dy * D2 y i i) ∧
      (IterOk x dxx → IterOk y dyy → Chain2 x y z dx dy dxx dyy dxy) := by
  obtain ⟨dx, dy, dxx, dyy, dxy, hd, hg⟩ := h
  refine ⟨dx, dy, dxx, dyy, dxy, hd, fun x y hx hy hm hn => ?_⟩
  obtain ⟨u, e⟩ := hg x y hx hy hm hn
  obtain ⟨z, ez, oz⟩ := C21_binary hx hy (F a b) dx dy dxx dyy dxy
  have hz := ez u
  obtain ⟨h1, h2, h3, h4⟩ := C22_binary hx hy hz
  refine ⟨z, by rw [e, hz], oz, h1, h2, h3, h4, fun i => ?_, fun hi hj => C23_binary_partial hx hy hi hj hz⟩
  unfold D2
  rw [binary_H_of hx hy (fun r hr => (eqb_iff r 0).1 hr) (fun h => absurd rfl h) (fun h => absurd rfl h) hz]
  simp only [Mom.lit, Nat.cast_ofNat]
  ring

/-- Any arithmetic: a function of two arguments with a constant second argument is the function of the first argument.  The
derivatives with respect to the second argument do not enter, not even as `0 * NaN`. -/
theorem C35_const_right {R : Type*} [Zero R] [One R] [Neg R] [Add R] [Sub R] [Mul R] [Div R] [NatCast R] [CCmp R]
    (u : Moments R) {x : UReal2 R} (hx : Ok2 x) (c f fx fy fxx fyy fxy : R) :
    UReal2.binary u x (UReal2.const c) f fx fy fxx fyy fxy = UReal2.unary u x f fx fxx := by
  have hc : (UReal2.const c : UReal2 R).hg.Valid := ⟨List.Pairwise.nil, List.Pairwise.nil, by simp [UReal2.const, HessGrad.empty]⟩
  unfold UReal2.binary UReal2.unary
  simp only [hessEntries_eq _ hx.valid, hessEntries_eq _ hc, Option.bind_some]
  set sk := CCmp.eqb (fxx / Mom.lit 2) (0 : R)
  have hb : ∀ e ∈ hessSpec sk x.hg.dOf x.hg.diagmap x.hg.trimap, (toLex (e.id1, e.id2) : IdPair) < toLex (maxId, maxId) := by
    intro e he
    obtain ⟨-, h1, -⟩ := (entries_facts hx.valid sk).1 e he
    exact Prod.Lex.toLex_lt_toLex.2 (Or.inl (hx.below _ h1))
  have hloop : ∀ (l : List (Ent R)) (res : HessGrad R), (∀ e ∈ l, (toLex (e.id1, e.id2) : IdPair) < toLex (maxId, maxId)) →
      UReal2.binaryLoop u fx fy (fxx / Mom.lit 2) (fyy / Mom.lit 2) res l [] = l.foldlM (UReal2.unaryStep u fx (fxx / Mom.lit 2)) res := by
    intro l
    induction l with
    | nil => intro res _; simp [UReal2.binaryLoop]
    | cons e t ih =>
      intro res h
      rw [UReal2.binaryLoop, if_pos (h e (List.mem_cons_self ..)), List.foldlM_cons]
      have : UReal2.binaryX u fx (fxx / Mom.lit 2) res e = UReal2.unaryStep u fx (fxx / Mom.lit 2) res e := rfl
      rw [this]
      show _ = (UReal2.unaryStep u fx (fxx / Mom.lit 2) res e).bind _
      congr 1
      funext r
      exact ih r fun e he => h e (List.mem_cons_of_mem _ he)
  have hs : hessSpec (CCmp.eqb (fyy / Mom.lit 2) (0 : R)) (UReal2.const c : UReal2 R).hg.dOf (UReal2.const c : UReal2 R).hg.diagmap
      (UReal2.const c : UReal2 R).hg.trimap = [] := by
    simp [UReal2.const, HessGrad.empty, hessSpec]
  rw [hs, hloop _ _ hb]
  have hm : ∀ hg : HessGrad R, UReal2.mixedLoop u (fxy / Mom.lit 2) hg x.hg.diagmap (UReal2.const c : UReal2 R).hg.diagmap = some hg := by
    intro hg
    unfold UReal2.mixedLoop
    simp only [UReal2.const, HessGrad.empty, List.foldlM_nil]
    induction x.hg.diagmap with
    | nil => rfl
    | cons _ t ih => simpa using ih
  simp only [hm]
  cases List.foldlM (UReal2.unaryStep u fx (fxx / Mom.lit 2)) HessGrad.empty (hessSpec sk x.hg.dOf x.hg.diagmap x.hg.trimap) <;> simp

example : UReal2.binary exN ex2a (UReal2.const 2) 5 6 7 8 9 10 = UReal2.unary exN ex2a 5 6 8 := C35_const_right exN ok_ex2a _ _ _ _ _ _ _

section
variable (u : Moments ℝ)

theorem passes1_of {F D DD : ℝ → ℝ} {a : ℝ} {g : UReal2 ℝ → Option (UReal2 ℝ)} {u : Moments ℝ}
    (hg : ∀ x : UReal2 ℝ, x.mu = a → g x = UReal2.unary u x (F a) (D a) (DD a))
    (h1 : ∀ᶠ t in 𝓝 a, HasDerivAt F (D t) t) (h2 : HasDerivAt D (DD a) a) : Passes1 g F a :=
  ⟨D a, DD a, ⟨D, h1, h2, rfl⟩, fun x _ hx => ⟨u, hg x hx⟩⟩

theorem passes2_of {F : ℝ → ℝ → ℝ} {Dx Dy : ℝ × ℝ → ℝ} {dxx dyy dxy a b : ℝ} {g : UReal2 ℝ → UReal2 ℝ → Option (UReal2 ℝ)} {u : Moments ℝ}
    (hg : ∀ x y : UReal2 ℝ, x.mu = a → y.mu = b → g x y = UReal2.binary u x y (F a b) (Dx (a, b)) (Dy (a, b)) dxx dyy dxy)
    (h1 : ∀ᶠ p in 𝓝 (a, b), HasFDerivAt (fun p : ℝ × ℝ => F p.1 p.2) (lin (Dx p) (Dy p)) p)
    (h2 : HasFDerivAt Dx (lin dxx dxy) (a, b)) (h3 : HasFDerivAt Dy (lin dxy dyy) (a, b)) : Passes2 g F a b :=
  ⟨_, _, _, _, _, ⟨Dx, Dy, h1, h2, h3, rfl, rfl⟩, fun x y _ _ hx hy => ⟨u, hg x y hx hy⟩⟩

/-! ## operators -/

theorem C35_neg (a : ℝ) : Passes1 (UReal2.neg u) (fun t => -t) a :=
  passes1_of (D := fun _ => -1) (DD := fun _ => 0) (fun x hx => by rw [UReal2.neg, hx])
    (Eventually.of_forall fun t => hasDerivAt_neg t) (hasDerivAt_const a _)

example := C35_neg exN (-3)

/-- the coordinates as functions on the plane -/
theorem hf1 (p : ℝ × ℝ) : HasFDerivAt (fun p : ℝ × ℝ => p.1) (ContinuousLinearMap.fst ℝ ℝ ℝ) p := hasFDerivAt_fst
theorem hf2 (p : ℝ × ℝ) : HasFDerivAt (fun p : ℝ × ℝ => p.2) (ContinuousLinearMap.snd ℝ ℝ ℝ) p := hasFDerivAt_snd

theorem lin_zero : lin 0 0 = 0 := by simp [lin]

theorem C35_add (a b : ℝ) : Passes2 (UReal2.add u) (fun s t => s + t) a b :=
  passes2_of (F := fun s t => s + t) (Dx := fun _ => 1) (Dy := fun _ => 1) (fun x y hx hy => by rw [UReal2.add, hx, hy])
    (Eventually.of_forall fun p => ((hf1 p).add (hf2 p)).congr_fderiv (by ext <;> simp [lin]))
    (lin_zero ▸ hasFDerivAt_const _ _) (lin_zero ▸ hasFDerivAt_const _ _)

theorem C35_sub (a b : ℝ) : Passes2 (UReal2.sub u) (fun s t => s - t) a b :=
  passes2_of (F := fun s t => s - t) (Dx := fun _ => 1) (Dy := fun _ => -1) (fun x y hx hy => by rw [UReal2.sub, hx, hy])
    (Eventually.of_forall fun p => ((hf1 p).sub (hf2 p)).congr_fderiv (by ext <;> simp [lin]))
    (lin_zero ▸ hasFDerivAt_const _ _) (lin_zero ▸ hasFDerivAt_const _ _)

example := C35_sub exN 3 (-2)

theorem C35_mul (a b : ℝ) : Passes2 (UReal2.mul u) (fun s t => s * t) a b :=
  passes2_of (u := u) (F := fun s t => s * t) (Dx := fun p => p.2) (Dy := fun p => p.1) (dxx := 0) (dyy := 0) (dxy := 1) (fun x y hx hy => by simp only [UReal2.mul, hx, hy])
    (Eventually.of_forall fun p => ((hf1 p).mul (hf2 p)).congr_fderiv (by ext <;> simp [lin]))
    ((hf2 _).congr_fderiv (by ext <;> simp [lin])) ((hf1 _).congr_fderiv (by ext <;> simp [lin]))

theorem hinv {p : ℝ × ℝ} (h : p.2 ≠ 0) : HasFDerivAt (fun p : ℝ × ℝ => 1 / p.2) (lin 0 (-1 / p.2 ^ 2)) p := by
  have h1 : HasFDerivAt (fun p : ℝ × ℝ => p.2⁻¹) (-(p.2 ^ 2)⁻¹ • ContinuousLinearMap.snd ℝ ℝ ℝ) p :=
    (hasDerivAt_inv h).comp_hasFDerivAt p (hf2 p)
  simp only [one_div]
  exact h1.congr_fderiv (by ext <;> simp [lin, neg_div])

theorem C35_div {a b : ℝ} (hb : b ≠ 0) : Passes2 (UReal2.div u) (fun s t => s / t) a b := by
  refine passes2_of (u := u) (F := fun s t => s / t) (Dx := fun p => 1 / p.2) (Dy := fun p => -p.1 * (1 / p.2 * (1 / p.2)))
    (dxx := 0) (dyy := Mom.lit 2 * a * (1 / b * (1 / b)) * (1 / b)) (dxy := -(1 / b * (1 / b)))
    (fun x y hx hy => by simp only [UReal2.div, hx, hy]) ?_ ?_ ?_
  · filter_upwards [(continuous_snd (X := ℝ) (Y := ℝ)).continuousAt.eventually_ne (x := (a, b)) hb] with p hp
    have := (hf1 p).mul (hinv hp)
    have e : (fun p : ℝ × ℝ => p.1 / p.2) = fun p => p.1 * (1 / p.2) := by funext p; rw [mul_one_div]
    rw [e]
    exact this.congr_fderiv (by ext <;> simp [lin]; ring)
  · exact (hinv (p := (a, b)) hb).congr_fderiv (by ext <;> simp [lin]; field_simp)
  · have := (hf1 (a, b)).neg.mul ((hinv (p := (a, b)) hb).mul (hinv (p := (a, b)) hb))
    refine this.congr_fderiv ?_
    ext <;> simp [lin, Mom.lit]
    ring

example : Passes2 (UReal2.div exN) (fun s t => s / t) 3 (-2) := C35_div exN (by norm_num)

/-! ## functions of one argument -/

theorem C35_abs {a : ℝ} (h : a ≠ 0) : Passes1 (UMath2.abs u) (fun t => |t|) a := by
  refine passes1_of (u := u) (D := fun t => if CCmp.leb 0 t then 1 else -1) (DD := fun _ => 0)
    (fun x hx => by rw [UMath2.abs, hx]; rfl) ?_ ?_
  · filter_upwards [isOpen_ne.mem_nhds h] with t ht
    rcases lt_or_gt_of_ne ht with ht | ht
    · simpa [not_le.2 ht] using hasDerivAt_abs_neg ht
    · simpa [ht.le] using hasDerivAt_abs_pos ht
  · rcases lt_or_gt_of_ne h with h | h
    · refine (hasDerivAt_const a (-1 : ℝ)).congr_of_eventuallyEq ?_
      filter_upwards [Iio_mem_nhds h] with t ht
      simp [not_le.2 (Set.mem_Iio.1 ht)]
    · refine (hasDerivAt_const a (1 : ℝ)).congr_of_eventuallyEq ?_
      filter_upwards [Ioi_mem_nhds h] with t ht
      simp [(Set.mem_Ioi.1 ht).le]

example : Passes1 (UMath2.abs exN) (fun t => |t|) (-3) := C35_abs exN (by norm_num)

theorem C35_exp (a : ℝ) : Passes1 (UMath2.exp u) Real.exp a :=
  passes1_of (u := u) (D := Real.exp) (DD := Real.exp) (fun x hx => by rw [UMath2.exp, hx]; rfl)
    (Eventually.of_forall Real.hasDerivAt_exp) (Real.hasDerivAt_exp a)

example : ∃ z, UMath2.exp exN ex2a = some z ∧ z.mu = Real.exp 3 := by
  obtain ⟨d, dd, -, h⟩ := C35_result1 (C35_exp exN 3)
  obtain ⟨z, e, -, m, -⟩ := h ex2a ok_ex2a rfl
  exact ⟨z, e, m⟩

theorem C35_exp2 (a : ℝ) : Passes1 (UMath2.exp2 u) (fun t => (2 : ℝ) ^ t) a := by
  have h : ∀ t, HasDerivAt (fun t : ℝ => (2 : ℝ) ^ t) (Real.log 2 * (2 : ℝ) ^ t) t := fun t => by
    have := Real.hasStrictDerivAt_const_rpow (a := 2) two_pos t
    rw [mul_comm]; exact this.hasDerivAt
  refine passes1_of (u := u) (D := fun t => Real.log 2 * (2 : ℝ) ^ t) (DD := fun t => Real.log 2 * Real.log 2 * (2 : ℝ) ^ t)
    (fun x hx => ?_) (Eventually.of_forall h) ?_
  · simp [UMath2.exp2, hx, CMath.exp2, CMath.log, Mom.lit]
  · exact ((h a).const_mul (Real.log 2)).congr_deriv (by ring)

example := C35_exp2 exN (-3 / 2)

theorem C35_expm1 (a : ℝ) : Passes1 (UMath2.expm1 u) (fun t => Real.exp t - 1) a :=
  passes1_of (u := u) (D := Real.exp) (DD := Real.exp) (fun x hx => by rw [UMath2.expm1, hx]; rfl)
    (Eventually.of_forall fun t => (Real.hasDerivAt_exp t).sub_const 1) (Real.hasDerivAt_exp a)

example := C35_expm1 exN (1 / 4)

theorem deriv_one_div {a : ℝ} (h : a ≠ 0) : HasDerivAt (fun t : ℝ => 1 / t) (-1 / (a * a)) a := by
  have := hasDerivAt_inv h
  simp only [one_div]
  exact this.congr_deriv (by rw [neg_div, one_div, sq])

theorem C35_log {a : ℝ} (h : 0 < a) : Passes1 (UMath2.log u) Real.log a := by
  refine passes1_of (u := u) (D := fun t => 1 / t) (DD := fun t => -1 / (t * t)) (fun x hx => by rw [UMath2.log, hx]; rfl) ?_
    (deriv_one_div h.ne')
  filter_upwards [Ioi_mem_nhds h] with t ht
  simpa using Real.hasDerivAt_log (Set.mem_Ioi.1 ht).ne'

example : Passes1 (UMath2.log exN) Real.log 2 := C35_log exN two_pos

theorem logb_derivs {a : ℝ} (b : ℝ) (h : 0 < a) : (∀ᶠ t in 𝓝 a, HasDerivAt (Real.logb b) (1 / Real.log b / t) t) ∧
    HasDerivAt (fun t => 1 / Real.log b / t) (-(1 / Real.log b) / (a * a)) a := by
  constructor
  · filter_upwards [Ioi_mem_nhds h] with t ht
    refine ((Real.hasDerivAt_log (Set.mem_Ioi.1 ht).ne').div_const (Real.log b)).congr_deriv ?_
    rw [div_div, mul_comm, ← div_div, one_div]
  · have := (deriv_one_div h.ne').const_mul (1 / Real.log b)
    simp only [mul_one_div] at this
    exact this.congr_deriv (by ring)

theorem C35_log10 {a : ℝ} (h : 0 < a) : Passes1 (UMath2.log10 u) (Real.logb 10) a :=
  passes1_of (u := u) (D := fun t => 1 / Real.log 10 / t) (DD := fun t => -(1 / Real.log 10) / (t * t))
    (fun x hx => by simp [UMath2.log10, hx, CMath.log10, CMath.log, Mom.lit]) (logb_derivs 10 h).1 (logb_derivs 10 h).2

example : Passes1 (UMath2.log10 exN) (Real.logb 10) 2 := C35_log10 exN two_pos

theorem C35_log2 {a : ℝ} (h : 0 < a) : Passes1 (UMath2.log2 u) (Real.logb 2) a :=
  passes1_of (u := u) (D := fun t => 1 / Real.log 2 / t) (DD := fun t => -(1 / Real.log 2) / (t * t))
    (fun x hx => by simp [UMath2.log2, hx, CMath.log2, CMath.log, Mom.lit]) (logb_derivs 2 h).1 (logb_derivs 2 h).2

example : Passes1 (UMath2.log2 exN) (Real.logb 2) 3 := C35_log2 exN (by norm_num)

theorem C35_log1p {a : ℝ} (h : -1 < a) : Passes1 (UMath2.log1p u) (fun t => Real.log (1 + t)) a := by
  refine passes1_of (u := u) (D := fun t => 1 / (1 + t)) (DD := fun t => -(1 / (1 + t)) * (1 / (1 + t)))
    (fun x hx => by simp only [UMath2.log1p, hx, CMath.log1p]) ?_ ?_
  · filter_upwards [Ioi_mem_nhds h] with t ht
    exact ((hasDerivAt_id t).const_add 1).log (by simp; linarith [Set.mem_Ioi.1 ht])
  · have h0 : (1 + a) ≠ 0 := by linarith
    have := (deriv_one_div h0).comp a ((hasDerivAt_id a).const_add 1)
    exact this.congr_deriv (by field_simp)

example : Passes1 (UMath2.log1p exN) (fun t => Real.log (1 + t)) (-1 / 2) := C35_log1p exN (by norm_num)

theorem C35_sqrt {a : ℝ} (h : 0 < a) : Passes1 (UMath2.sqrt u) Real.sqrt a := by
  refine passes1_of (u := u) (D := fun t => 1 / (2 * Real.sqrt t)) (DD := fun t => -1 / (4 * t * Real.sqrt t))
    (fun x hx => by simp [UMath2.sqrt, hx, CSqrt.sqrt, Mom.lit]) ?_ ?_
  · filter_upwards [Ioi_mem_nhds h] with t ht
    exact Real.hasDerivAt_sqrt (Set.mem_Ioi.1 ht).ne'
  · have h0 : 2 * Real.sqrt a ≠ 0 := by positivity
    have := (deriv_one_div h0).comp a ((Real.hasDerivAt_sqrt h.ne').const_mul 2)
    refine this.congr_deriv ?_
    have hs := Real.mul_self_sqrt h.le
    have : Real.sqrt a ≠ 0 := by positivity
    field_simp
    nlinarith

example : Passes1 (UMath2.sqrt exN) Real.sqrt 2 := C35_sqrt exN two_pos

/-- the derivative of the cube root, at points of any sign -/
theorem cbrt_deriv {t : ℝ} (h : t ≠ 0) : HasDerivAt cbrtR (1 / (cbrtR t * cbrtR t) / 3) t := by
  rcases lt_or_gt_of_ne h with h | h
  · refine (cbrt_neg' h).congr_deriv ?_
    have h' : 0 < -t := by linarith
    have e : cbrtR t * cbrtR t = (-t) ^ (2 / 3 : ℝ) := by
      simp only [cbrtR, not_le.2 h, if_false, neg_mul_neg]
      rw [← Real.rpow_add h']; norm_num
    rw [e, neg_div, Real.rpow_neg h'.le, one_div]
  · refine (cbrt_pos h).congr_deriv ?_
    have e : cbrtR t * cbrtR t = t ^ (2 / 3 : ℝ) := by
      simp only [cbrtR, h.le, if_true]
      rw [← Real.rpow_add h]; norm_num
    rw [e, neg_div, Real.rpow_neg h.le, one_div]

/-- unlike `cbrt` of `UReal` (`C14_cbrt_nan`), right for negative arguments too -/
theorem C35_cbrt {a : ℝ} (h : a ≠ 0) : Passes1 (UMath2.cbrt u) cbrtR a ∧ ∀ t, cbrtR t ^ 3 = t := by
  refine ⟨?_, cbrt_cube⟩
  refine passes1_of (u := u) (D := fun t => 1 / (cbrtR t * cbrtR t) / 3) (DD := fun t => -2 / (9 * t) * (1 / (cbrtR t * cbrtR t)))
    (fun x hx => by simp [UMath2.cbrt, hx, CMath.cbrt, Mom.lit]) ?_ ?_
  · filter_upwards [isOpen_ne.mem_nhds h] with t ht
    exact cbrt_deriv ht
  · have hc : cbrtR a ≠ 0 := fun h0 => h (by rw [← cbrt_cube a, h0]; norm_num)
    have h3 := cbrt_cube a
    have := ((deriv_one_div (mul_ne_zero hc hc)).comp a ((cbrt_deriv h).fun_mul (cbrt_deriv h))).div_const 3
    refine this.congr_deriv ?_
    have e : -2 / (9 * a) = -2 / (9 * cbrtR a ^ 3) := by rw [h3]
    rw [e]
    field_simp
    norm_num

example : Passes1 (UMath2.cbrt exN) cbrtR (-8) := (C35_cbrt exN (by norm_num)).1

theorem C35_sin (a : ℝ) : Passes1 (UMath2.sin u) Real.sin a :=
  passes1_of (u := u) (D := Real.cos) (DD := fun t => -Real.sin t) (fun x hx => by simp only [UMath2.sin, hx]; rfl)
    (Eventually.of_forall Real.hasDerivAt_sin) (Real.hasDerivAt_cos a)

example := C35_sin exN 2

theorem C35_cos (a : ℝ) : Passes1 (UMath2.cos u) Real.cos a :=
  passes1_of (u := u) (D := fun t => -Real.sin t) (DD := fun t => -Real.cos t) (fun x hx => by simp only [UMath2.cos, hx]; rfl)
    (Eventually.of_forall Real.hasDerivAt_cos) (Real.hasDerivAt_sin a).neg

example := C35_cos exN 2

theorem hasDerivAt_tan' {a : ℝ} (h : Real.cos a ≠ 0) : HasDerivAt Real.tan (1 + Real.tan a * Real.tan a) a := by
  convert Real.hasDerivAt_tan h using 1
  rw [Real.tan_eq_sin_div_cos]
  field_simp
  rw [add_comm]; exact Real.sin_sq_add_cos_sq a

theorem C35_tan {a : ℝ} (h : Real.cos a ≠ 0) : Passes1 (UMath2.tan u) Real.tan a := by
  refine passes1_of (u := u) (D := fun t => 1 + Real.tan t * Real.tan t) (DD := fun t => 2 * Real.tan t * (1 + Real.tan t * Real.tan t))
    (fun x hx => by simp [UMath2.tan, hx, CMath.tan, Mom.lit]) ?_ ?_
  · filter_upwards [Real.continuous_cos.continuousAt.eventually_ne h] with t ht
    exact hasDerivAt_tan' ht
  · exact (((hasDerivAt_tan' h).mul (hasDerivAt_tan' h)).const_add 1).congr_deriv (by ring)

example : Passes1 (UMath2.tan exN) Real.tan 1 := C35_tan exN Real.cos_one_pos.ne'

/-- derivative of `sqrt (1 / q)` -/
theorem sqrt_one_div {q : ℝ → ℝ} {q' a : ℝ} (hq : HasDerivAt q q' a) (h : 0 < q a) :
    HasDerivAt (fun t => Real.sqrt (1 / q t)) (-q' / 2 * (1 / q a) * Real.sqrt (1 / q a)) a := by
  have h1 := ((deriv_one_div h.ne').comp a hq).sqrt (by simp [h.ne'])
  refine h1.congr_deriv ?_
  have hs : Real.sqrt (1 / q a) * Real.sqrt (1 / q a) = 1 / q a := Real.mul_self_sqrt (by positivity)
  have hp : 0 < Real.sqrt (1 / q a) := Real.sqrt_pos.2 (by positivity)
  simp only [Function.comp_apply]
  generalize Real.sqrt (1 / q a) = r at hs hp
  have hr : q a * (r * r) = 1 := by rw [hs]; field_simp
  rw [div_eq_iff (by positivity)]
  have e1 : -1 / (q a * q a) = -(1 / q a) * (1 / q a) := by field_simp
  rw [e1]
  have e2 : (1 / q a) = r * r := hs.symm
  rw [e2]
  ring

theorem one_sub_pos {a : ℝ} (h1 : -1 < a) (h2 : a < 1) : 0 < 1 - a * a := by nlinarith

theorem C35_asin {a : ℝ} (h1 : -1 < a) (h2 : a < 1) : Passes1 (UMath2.asin u) Real.arcsin a := by
  refine passes1_of (u := u) (D := fun t => Real.sqrt (1 / (1 - t * t))) (DD := fun t => t * Real.sqrt (1 / (1 - t * t)) * (1 / (1 - t * t)))
    (fun x hx => by simp only [UMath2.asin, hx]; rfl) ?_ ?_
  · filter_upwards [Ioo_mem_nhds h1 h2] with t ht
    refine (Real.hasDerivAt_arcsin ht.1.ne' ht.2.ne).congr_deriv ?_
    rw [one_div, one_div, Real.sqrt_inv, sq]
  · have := sqrt_one_div (q := fun t => 1 - t * t) (((hasDerivAt_id a).mul (hasDerivAt_id a)).const_sub 1) (one_sub_pos h1 h2)
    exact this.congr_deriv (by simp; ring)

example : Passes1 (UMath2.asin exN) Real.arcsin (1 / 2) := C35_asin exN (by norm_num) (by norm_num)

theorem C35_acos {a : ℝ} (h1 : -1 < a) (h2 : a < 1) : Passes1 (UMath2.acos u) Real.arccos a := by
  refine passes1_of (u := u) (D := fun t => -Real.sqrt (1 / (1 - t * t)))
    (DD := fun t => -t * Real.sqrt (1 / (1 - t * t)) * (1 / (1 - t * t))) (fun x hx => by simp only [UMath2.acos, hx]; rfl) ?_ ?_
  · filter_upwards [Ioo_mem_nhds h1 h2] with t ht
    refine (Real.hasDerivAt_arccos ht.1.ne' ht.2.ne).congr_deriv ?_
    rw [one_div, one_div, Real.sqrt_inv, sq]
  · have := (sqrt_one_div (q := fun t => 1 - t * t) (((hasDerivAt_id a).mul (hasDerivAt_id a)).const_sub 1) (one_sub_pos h1 h2)).neg
    exact this.congr_deriv (by simp; ring)

example : Passes1 (UMath2.acos exN) Real.arccos (-1 / 2) := C35_acos exN (by norm_num) (by norm_num)

theorem one_add_pos (a : ℝ) : 0 < 1 + a * a := by nlinarith [mul_self_nonneg a]

theorem C35_atan (a : ℝ) : Passes1 (UMath2.atan u) Real.arctan a := by
  refine passes1_of (u := u) (D := fun t => 1 / (1 + t * t)) (DD := fun t => -2 * t * (1 / (1 + t * t)) * (1 / (1 + t * t)))
    (fun x hx => by simp [UMath2.atan, hx, CMath.atan, Mom.lit]) (Eventually.of_forall fun t => ?_) ?_
  · simpa [sq] using Real.hasDerivAt_arctan t
  · have := (deriv_one_div (one_add_pos a).ne').comp a (((hasDerivAt_id a).fun_mul (hasDerivAt_id a)).const_add 1)
    refine this.congr_deriv ?_
    have := (one_add_pos a).ne'
    simp
    field_simp
    ring

example := C35_atan exN (-3)

theorem C35_sinh (a : ℝ) : Passes1 (UMath2.sinh u) Real.sinh a :=
  passes1_of (u := u) (D := Real.cosh) (DD := Real.sinh) (fun x hx => by simp only [UMath2.sinh, hx]; rfl)
    (Eventually.of_forall Real.hasDerivAt_sinh) (Real.hasDerivAt_cosh a)

example := C35_sinh exN 2

theorem C35_cosh (a : ℝ) : Passes1 (UMath2.cosh u) Real.cosh a :=
  passes1_of (u := u) (D := Real.sinh) (DD := Real.cosh) (fun x hx => by simp only [UMath2.cosh, hx]; rfl)
    (Eventually.of_forall Real.hasDerivAt_cosh) (Real.hasDerivAt_sinh a)

example := C35_cosh exN 2

theorem C35_tanh (a : ℝ) : Passes1 (UMath2.tanh u) Real.tanh a := by
  refine passes1_of (u := u) (D := fun t => 1 - Real.tanh t * Real.tanh t) (DD := fun t => -2 * Real.tanh t * (1 - Real.tanh t * Real.tanh t))
    (fun x hx => by simp [UMath2.tanh, hx, CMath.tanh, Mom.lit]) (Eventually.of_forall hasDerivAt_tanh') ?_
  exact (((hasDerivAt_tanh' a).mul (hasDerivAt_tanh' a)).const_sub 1).congr_deriv (by ring)

example := C35_tanh exN 2

theorem C35_asinh (a : ℝ) : Passes1 (UMath2.asinh u) Real.arsinh a := by
  refine passes1_of (u := u) (D := fun t => Real.sqrt (1 / (1 + t * t))) (DD := fun t => -t * (1 / (1 + t * t)) * Real.sqrt (1 / (1 + t * t)))
    (fun x hx => by simp only [UMath2.asinh, hx]; rfl) (Eventually.of_forall fun t => ?_) ?_
  · refine (Real.hasDerivAt_arsinh t).congr_deriv ?_
    rw [one_div, Real.sqrt_inv, sq]
  · have := sqrt_one_div (q := fun t => 1 + t * t) (((hasDerivAt_id a).mul (hasDerivAt_id a)).const_add 1) (one_add_pos a)
    exact this.congr_deriv (by simp only [_root_.id]; ring)

example := C35_asinh exN (-2)

theorem C35_acosh {a : ℝ} (h : 1 < a) : Passes1 (UMath2.acosh u) Real.arcosh a := by
  refine passes1_of (u := u) (D := fun t => Real.sqrt (1 / (t * t - 1))) (DD := fun t => -t * (1 / (t * t - 1)) * Real.sqrt (1 / (t * t - 1)))
    (fun x hx => by simp only [UMath2.acosh, hx]; rfl) ?_ ?_
  · filter_upwards [Ioi_mem_nhds h] with t ht
    refine (Real.hasDerivAt_arcosh ht).congr_deriv ?_
    rw [one_div, Real.sqrt_inv, sq]
  · have := sqrt_one_div (q := fun t => t * t - 1) (((hasDerivAt_id a).mul (hasDerivAt_id a)).sub_const 1) (by nlinarith)
    exact this.congr_deriv (by simp only [_root_.id]; ring)

example : Passes1 (UMath2.acosh exN) Real.arcosh 2 := C35_acosh exN (by norm_num)

theorem C35_atanh {a : ℝ} (h1 : -1 < a) (h2 : a < 1) : Passes1 (UMath2.atanh u) Real.artanh a := by
  refine passes1_of (u := u) (D := fun t => 1 / (1 - t * t)) (DD := fun t => 2 * t * (1 / (1 - t * t)) * (1 / (1 - t * t)))
    (fun x hx => by simp [UMath2.atanh, hx, CMath.atanh, Mom.lit]) ?_ ?_
  · filter_upwards [Ioo_mem_nhds h1 h2] with t ht
    exact hasDerivAt_artanh' ht.1 ht.2
  · have := (deriv_one_div (one_sub_pos h1 h2).ne').comp a (((hasDerivAt_id a).fun_mul (hasDerivAt_id a)).const_sub 1)
    refine this.congr_deriv ?_
    have := (one_sub_pos h1 h2).ne'
    simp
    field_simp
    ring

example : Passes1 (UMath2.atanh exN) Real.artanh (1 / 3) := C35_atanh exN (by norm_num) (by norm_num)

theorem gauss_deriv (a c : ℝ) : HasDerivAt (fun t => c * Real.exp (-t * t)) (-2 * a * (c * Real.exp (-a * a))) a := by
  have := (((hasDerivAt_id a).neg.fun_mul (hasDerivAt_id a)).exp).const_mul c
  exact this.congr_deriv (by simp; ring)

/-- the error function, as the integral `2/√π ∫_0^x exp(-t²) dt` -/
theorem C35_erf (a : ℝ) : Passes1 (UMath2.erf u) (fun x => 2 / Real.sqrt Real.pi * ∫ t in (0 : ℝ)..x, Real.exp (-t ^ 2)) a := by
  refine passes1_of (u := u) (F := erfR) (D := fun t => 2 / Real.sqrt Real.pi * Real.exp (-t * t))
    (DD := fun t => -2 * t * (2 / Real.sqrt Real.pi * Real.exp (-t * t)))
    (fun x hx => by simp [UMath2.erf, hx, CMath.erf, CMath.exp, Mom.lit, erfCoeff_eq]) (Eventually.of_forall fun t => ?_) (gauss_deriv a _)
  refine (erf_deriv t).congr_deriv ?_
  rw [sq, neg_mul]

example := C35_erf exN (1 / 3)

theorem C35_erfc (a : ℝ) : Passes1 (UMath2.erfc u) (fun x => 1 - 2 / Real.sqrt Real.pi * ∫ t in (0 : ℝ)..x, Real.exp (-t ^ 2)) a := by
  refine passes1_of (u := u) (F := fun x => 1 - erfR x) (D := fun t => -(2 / Real.sqrt Real.pi * Real.exp (-t * t)))
    (DD := fun t => 2 * t * (2 / Real.sqrt Real.pi * Real.exp (-t * t)))
    (fun x hx => by simp [UMath2.erfc, hx, CMath.erfc, CMath.exp, Mom.lit, erfCoeff_eq]) (Eventually.of_forall fun t => ?_)
    ((gauss_deriv a _).neg.congr_deriv (by ring))
  refine ((erf_deriv t).const_sub 1).congr_deriv ?_
  rw [sq, neg_mul]

example := C35_erfc exN (1 / 3)

/-! ## functions of two arguments -/

/-- a function which is locally affine -/
theorem passes2_affine {F : ℝ → ℝ → ℝ} {a b c d : ℝ} {g : UReal2 ℝ → UReal2 ℝ → Option (UReal2 ℝ)} {u : Moments ℝ}
    (hg : ∀ x y : UReal2 ℝ, x.mu = a → y.mu = b → g x y = UReal2.binary u x y (F a b) c d 0 0 0)
    (h : ∀ᶠ p in 𝓝 (a, b), F p.1 p.2 = c * p.1 + d * p.2) : Passes2 g F a b := by
  refine passes2_of (Dx := fun _ => c) (Dy := fun _ => d) hg ?_ (lin_zero ▸ hasFDerivAt_const _ _) (lin_zero ▸ hasFDerivAt_const _ _)
  filter_upwards [eventually_eventually_nhds.2 h] with p hp
  have : HasFDerivAt (fun p : ℝ × ℝ => c * p.1 + d * p.2) (lin c d) p := ((hf1 p).const_mul c).add ((hf2 p).const_mul d)
  exact this.congr_of_eventuallyEq hp

/-- `x - trunc(x/y) y`, differentiable unless `x/y` is a non-zero integer -/
theorem C35_fmod {a b : ℝ} (hb : b ≠ 0) (h : |a / b| < 1 ∨ ∀ n : ℤ, a / b ≠ n) :
    Passes2 (UMath2.fmod u) (fun s t => s - (if 0 ≤ s / t then (⌊s / t⌋ : ℝ) else ⌈s / t⌉) * t) a b := by
  refine passes2_affine (u := u) (F := fun s t => s - truncR (s / t) * t) (c := 1) (d := -truncR (a / b))
    (fun x y hx hy => by simp only [UMath2.fmod, hx, hy]; rfl) ?_
  have hc : ContinuousAt (fun p : ℝ × ℝ => p.1 / p.2) (a, b) := continuousAt_fst.div continuousAt_snd hb
  filter_upwards [hc.eventually (trunc_eventually h)] with p hp
  rw [hp]; ring

example : Passes2 (UMath2.fmod exN) (fun s t => s - truncR (s / t) * t) 7 3 := C35_fmod exN (by norm_num) (Or.inr fun n h => by
  have h2 : (7 : ℝ) = 3 * n := by linarith
  have h3 : (7 : ℤ) = 3 * n := by exact_mod_cast h2
  omega)

/-- `x - n y` with `n` the integer nearest to `x/y`, differentiable unless `x/y` is a half-integer -/
theorem C35_remainder {a b : ℝ} (hb : b ≠ 0) (h : ∀ n : ℤ, a / b + 1 / 2 ≠ n) :
    Passes2 (UMath2.remainder u) (fun s t => s - roundEvenR (s / t) * t) a b ∧ roundEvenR (a / b) = ⌊a / b + 1 / 2⌋ := by
  refine ⟨passes2_affine (u := u) (F := fun s t => s - roundEvenR (s / t) * t) (c := 1) (d := -roundAwayR (a / b))
    (fun x y hx hy => by simp only [UMath2.remainder, hx, hy]; rfl) ?_, (round_eq h).1⟩
  have hc : ContinuousAt (fun p : ℝ × ℝ => p.1 / p.2) (a, b) := continuousAt_fst.div continuousAt_snd hb
  filter_upwards [hc.eventually (round_eventually h)] with p hp
  rw [hp]; ring

example : Passes2 (UMath2.remainder exN) (fun s t => s - roundEvenR (s / t) * t) 7 3 :=
  (C35_remainder exN (a := 7) (b := 3) (by norm_num) fun n h => by
    have h2 : (17 : ℝ) = 6 * n := by linarith
    have h3 : (17 : ℤ) = 6 * n := by exact_mod_cast h2
    omega).1

theorem C35_fmax {a b : ℝ} (h : a ≠ b) : Passes2 (UMath2.fmax u) max a b := by
  rcases lt_or_gt_of_ne h with h | h
  · refine passes2_affine (u := u) (c := 0) (d := 1)
      (fun x y hx hy => by simp [UMath2.fmax, hx, hy, CMath.fmax, max_eq_right h.le, h.ne']) ?_
    filter_upwards [(continuousAt_fst (p := (a, b))).eventually_lt continuousAt_snd h] with p hp
    rw [max_eq_right hp.le]; ring
  · refine passes2_affine (u := u) (c := 1) (d := 0)
      (fun x y hx hy => by simp [UMath2.fmax, hx, hy, CMath.fmax, max_eq_left h.le]) ?_
    filter_upwards [(continuousAt_snd (p := (a, b))).eventually_lt continuousAt_fst h] with p hp
    rw [max_eq_left hp.le]; ring

example : Passes2 (UMath2.fmax exN) max 1 2 := C35_fmax exN (by norm_num)

theorem C35_fmin {a b : ℝ} (h : a ≠ b) : Passes2 (UMath2.fmin u) min a b := by
  rcases lt_or_gt_of_ne h with h | h
  · refine passes2_affine (u := u) (c := 1) (d := 0)
      (fun x y hx hy => by simp [UMath2.fmin, hx, hy, CMath.fmin, min_eq_left h.le]) ?_
    filter_upwards [(continuousAt_fst (p := (a, b))).eventually_lt continuousAt_snd h] with p hp
    rw [min_eq_left hp.le]; ring
  · refine passes2_affine (u := u) (c := 0) (d := 1)
      (fun x y hx hy => by simp [UMath2.fmin, hx, hy, CMath.fmin, min_eq_right h.le, h.ne]) ?_
    filter_upwards [(continuousAt_snd (p := (a, b))).eventually_lt continuousAt_fst h] with p hp
    rw [min_eq_right hp.le]; ring

example : Passes2 (UMath2.fmin exN) min 2 1 := C35_fmin exN (by norm_num)

theorem hpow {p : ℝ × ℝ} (h : 0 < p.1) :
    HasFDerivAt (fun p : ℝ × ℝ => p.1 ^ p.2) (lin (p.1 ^ p.2 * (1 / p.1) * p.2) (p.1 ^ p.2 * Real.log p.1)) p := by
  refine (Real.hasStrictFDerivAt_rpow_of_pos p h).hasFDerivAt.congr_fderiv ?_
  simp only [Real.rpow_sub_one h.ne', lin]
  congr 2
  ring

theorem hinv1 {p : ℝ × ℝ} (h : p.1 ≠ 0) : HasFDerivAt (fun p : ℝ × ℝ => 1 / p.1) (lin (-1 / p.1 ^ 2) 0) p := by
  have h1 : HasFDerivAt (fun p : ℝ × ℝ => p.1⁻¹) (-(p.1 ^ 2)⁻¹ • ContinuousLinearMap.fst ℝ ℝ ℝ) p :=
    (hasDerivAt_inv h).comp_hasFDerivAt p (hf1 p)
  simp only [one_div]
  exact h1.congr_fderiv (by ext <;> simp [lin, neg_div])

theorem hlog1 {p : ℝ × ℝ} (h : p.1 ≠ 0) : HasFDerivAt (fun p : ℝ × ℝ => Real.log p.1) (lin (1 / p.1) 0) p := by
  have h1 : HasFDerivAt (fun p : ℝ × ℝ => Real.log p.1) (p.1⁻¹ • ContinuousLinearMap.fst ℝ ℝ ℝ) p :=
    (Real.hasDerivAt_log h).comp_hasFDerivAt p (hf1 p)
  exact h1.congr_fderiv (by ext <;> simp [lin])

theorem C35_pow {a b : ℝ} (h : 0 < a) : Passes2 (UMath2.pow u) (fun s t => s ^ t) a b := by
  refine passes2_of (u := u) (F := fun s t => s ^ t) (Dx := fun p => p.1 ^ p.2 * (1 / p.1) * p.2) (Dy := fun p => p.1 ^ p.2 * Real.log p.1)
    (dxx := a ^ b * (1 / a) * b * (1 / a) * (b - 1)) (dyy := a ^ b * Real.log a * Real.log a)
    (dxy := a ^ b * (1 / a) + a ^ b * (1 / a) * b * Real.log a)
    (fun x y hx hy => by simp only [UMath2.pow, hx, hy, CMath.pow, CMath.log]) ?_ ?_ ?_
  · filter_upwards [(continuousAt_fst (p := (a, b))).eventually (lt_mem_nhds h)] with p hp
    exact hpow hp
  · refine (((hpow (p := (a, b)) h).mul (hinv1 (p := (a, b)) h.ne')).mul (hf2 (a, b))).congr_fderiv ?_
    have := h.ne'
    ext
    · simp [lin]; field_simp; ring
    · simp [lin]; ring
  · refine ((hpow (p := (a, b)) h).mul (hlog1 (p := (a, b)) h.ne')).congr_fderiv ?_
    ext <;> simp [lin] <;> ring

example : Passes2 (UMath2.pow exN) (fun s t => s ^ t) 2 (-3 / 2) := C35_pow exN two_pos

/-- `pow` with a constant integer exponent: also for negative bases, where the logarithm in the code is NaN (`C35_const_right`:
any value of it gives the same result). -/
theorem C35_pow_int {a : ℝ} (k : ℤ) (h : a ≠ 0) : Passes1 (fun x => UMath2.pow u x (UReal2.const (k : ℝ))) (fun t => t ^ k) a := by
  refine ⟨a ^ (k : ℝ) * (1 / a) * k, a ^ (k : ℝ) * (1 / a) * k * (1 / a) * (k - 1), ⟨fun t => k * t ^ (k - 1), ?_, ?_, ?_⟩, fun x hx hm => ⟨u, ?_⟩⟩
  · filter_upwards [eventually_ne_nhds h] with t ht
    exact hasDerivAt_zpow k t (Or.inl ht)
  · refine ((hasDerivAt_zpow (k - 1) a (Or.inl h)).const_mul (k : ℝ)).congr_deriv ?_
    rw [Real.rpow_intCast, zpow_sub_one₀ h, zpow_sub_one₀ h]
    push_cast
    ring
  · show (k : ℝ) * a ^ (k - 1) = _
    rw [Real.rpow_intCast, zpow_sub_one₀ h]; ring
  · simp only [UMath2.pow]
    rw [C35_const_right u hx, hm]
    have hk : (UReal2.const (k : ℝ)).mu = k := rfl
    rw [hk]
    simp only [CMath.pow, Real.rpow_intCast]

example : Passes1 (fun x => UMath2.pow exN x (UReal2.const (3 : ℤ))) (fun t => t ^ (3 : ℤ)) (-2) := C35_pow_int exN 3 (by norm_num)

theorem C35_hypot {a b : ℝ} (h : a ≠ 0 ∨ b ≠ 0) : Passes2 (UMath2.hypot u) (fun s t => Real.sqrt (s ^ 2 + t ^ 2)) a b := by
  have hop : ∀ p : ℝ × ℝ, (p.1 ≠ 0 ∨ p.2 ≠ 0) → p.1 ^ 2 + p.2 ^ 2 ≠ 0 := by
    intro p h
    rcases h with h | h
    · have := sq_nonneg p.2; have : 0 < p.1 ^ 2 := by positivity
      linarith
    · have := sq_nonneg p.1; have : 0 < p.2 ^ 2 := by positivity
      linarith
  have hd : ∀ p : ℝ × ℝ, (p.1 ≠ 0 ∨ p.2 ≠ 0) → HasFDerivAt (fun p : ℝ × ℝ => Real.sqrt (p.1 ^ 2 + p.2 ^ 2))
      (lin (p.1 * (1 / Real.sqrt (p.1 ^ 2 + p.2 ^ 2))) (p.2 * (1 / Real.sqrt (p.1 ^ 2 + p.2 ^ 2)))) p := by
    intro p h
    have hp := hop p h
    have h2 := (((hf1 p).pow 2).add ((hf2 p).pow 2)).sqrt hp
    refine h2.congr_fderiv ?_
    have : Real.sqrt (p.1 ^ 2 + p.2 ^ 2) ≠ 0 := by
      rw [Real.sqrt_ne_zero']; positivity
    ext <;> simp [lin] <;> field_simp
  have hs : Real.sqrt (a ^ 2 + b ^ 2) ≠ 0 := by
    have := hop (a, b) h
    rw [Real.sqrt_ne_zero']; positivity
  have hi : HasFDerivAt (fun p : ℝ × ℝ => 1 / Real.sqrt (p.1 ^ 2 + p.2 ^ 2))
      ((-1 / (Real.sqrt (a ^ 2 + b ^ 2) * Real.sqrt (a ^ 2 + b ^ 2))) • lin (a * (1 / Real.sqrt (a ^ 2 + b ^ 2))) (b * (1 / Real.sqrt (a ^ 2 + b ^ 2)))) (a, b) :=
    (deriv_one_div hs).comp_hasFDerivAt (a, b) (hd (a, b) h)
  have hq : (1 / Real.sqrt (a ^ 2 + b ^ 2)) * (1 / Real.sqrt (a ^ 2 + b ^ 2)) * (a ^ 2 + b ^ 2) = 1 := by
    have hm := Real.mul_self_sqrt (show 0 ≤ a ^ 2 + b ^ 2 by positivity)
    nth_rw 3 [← hm]
    field_simp
  refine passes2_of (u := u) (F := fun s t => Real.sqrt (s ^ 2 + t ^ 2)) (Dx := fun p => p.1 * (1 / Real.sqrt (p.1 ^ 2 + p.2 ^ 2)))
    (Dy := fun p => p.2 * (1 / Real.sqrt (p.1 ^ 2 + p.2 ^ 2)))
    (dxx := 1 / Real.sqrt (a ^ 2 + b ^ 2) * (1 - a * (1 / Real.sqrt (a ^ 2 + b ^ 2)) * (a * (1 / Real.sqrt (a ^ 2 + b ^ 2)))))
    (dyy := 1 / Real.sqrt (a ^ 2 + b ^ 2) * (1 - b * (1 / Real.sqrt (a ^ 2 + b ^ 2)) * (b * (1 / Real.sqrt (a ^ 2 + b ^ 2)))))
    (dxy := -(a * (1 / Real.sqrt (a ^ 2 + b ^ 2))) * (b * (1 / Real.sqrt (a ^ 2 + b ^ 2))) * (1 / Real.sqrt (a ^ 2 + b ^ 2)))
    (fun x y hx hy => by simp only [UMath2.hypot, hx, hy, CMath.hypot]) ?_ ?_ ?_
  · have : ∀ᶠ p : ℝ × ℝ in 𝓝 (a, b), p.1 ≠ 0 ∨ p.2 ≠ 0 := by
      rcases h with h | h
      · filter_upwards [(continuousAt_fst (p := (a, b))).eventually_ne h] with p hp using Or.inl hp
      · filter_upwards [(continuousAt_snd (p := (a, b))).eventually_ne h] with p hp using Or.inr hp
    filter_upwards [this] with p hp
    exact hd p hp
  · refine ((hf1 (a, b)).mul hi).congr_fderiv ?_
    generalize Real.sqrt (a ^ 2 + b ^ 2) = r at *
    ext <;> simp [lin] <;> field_simp <;> ring
  · refine ((hf2 (a, b)).mul hi).congr_fderiv ?_
    generalize Real.sqrt (a ^ 2 + b ^ 2) = r at *
    ext <;> simp [lin] <;> field_simp <;> ring

example : Passes2 (UMath2.hypot exN) (fun s t => Real.sqrt (s ^ 2 + t ^ 2)) 3 (-4) := C35_hypot exN (Or.inl (by norm_num))

/-- unlike `atan2` of `UReal` (`C14_atan2_false`), right; the first argument is the ordinate -/
theorem C35_atan2 {a b : ℝ} (h : 0 < b ∨ a ≠ 0) : Passes2 (UMath2.atan2 u) (fun s t => Complex.arg ⟨t, s⟩) a b := by
  have hne : ∀ p : ℝ × ℝ, (0 < p.2 ∨ p.1 ≠ 0) → p.1 * p.1 + p.2 * p.2 ≠ 0 := by
    intro p h
    rcases h with h | h
    · have := mul_self_nonneg p.1; have : 0 < p.2 * p.2 := by positivity
      linarith
    · have := mul_self_nonneg p.2; have : 0 < p.1 * p.1 := by rw [← sq]; positivity
      linarith
  have h0 := hne (a, b) h
  simp only at h0
  have hi : HasFDerivAt (fun p : ℝ × ℝ => 1 / (p.1 * p.1 + p.2 * p.2))
      ((-1 / ((a * a + b * b) * (a * a + b * b))) • lin (2 * a) (2 * b)) (a, b) := by
    have h1 : HasFDerivAt (fun p : ℝ × ℝ => p.1 * p.1 + p.2 * p.2) (lin (2 * a) (2 * b)) (a, b) :=
      (((hf1 (a, b)).mul (hf1 (a, b))).add ((hf2 (a, b)).mul (hf2 (a, b)))).congr_fderiv (by ext <;> simp [lin] <;> ring)
    exact (deriv_one_div h0).comp_hasFDerivAt (a, b) h1
  refine passes2_of (u := u) (F := fun s t => Complex.arg ⟨t, s⟩) (Dx := fun p => p.2 * (1 / (p.1 * p.1 + p.2 * p.2)))
    (Dy := fun p => -(p.1 * (1 / (p.1 * p.1 + p.2 * p.2))))
    (dxx := -(lit 2 * (a * (1 / (a * a + b * b))) * (b * (1 / (a * a + b * b)))))
    (dyy := lit 2 * (a * (1 / (a * a + b * b))) * (b * (1 / (a * a + b * b))))
    (dxy := (a * a - b * b) * (1 / (a * a + b * b)) * (1 / (a * a + b * b)))
    (fun x y hx hy => by simp only [UMath2.atan2, hx, hy, CMath.atan2]) ?_ ?_ ?_
  · have : ∀ᶠ p : ℝ × ℝ in 𝓝 (a, b), 0 < p.2 ∨ p.1 ≠ 0 := by
      rcases h with h | h
      · filter_upwards [(continuousAt_snd (p := (a, b))).eventually (lt_mem_nhds h)] with p hp using Or.inl hp
      · filter_upwards [(continuousAt_fst (p := (a, b))).eventually_ne h] with p hp using Or.inr hp
    filter_upwards [this] with p hp
    refine (hasFDerivAt_arg (y := p.1) (x := p.2) hp).congr_fderiv ?_
    have := hne p hp
    ext <;> simp [lin, sq] <;> ring
  · refine ((hf2 (a, b)).mul hi).congr_fderiv ?_
    ext <;> simp [lin, Mom.lit] <;> field_simp <;> ring
  · refine ((hf1 (a, b)).mul hi).neg.congr_fderiv ?_
    ext <;> simp [lin, Mom.lit] <;> field_simp <;> ring

example : Passes2 (UMath2.atan2 exN) (fun s t => Complex.arg ⟨t, s⟩) (-1) (-1) := C35_atan2 exN (Or.inr (by norm_num))

end
end Unc.Props
