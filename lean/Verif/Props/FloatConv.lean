import Verif.Spec.FloatProg
import Verif.Props.FloatExact
import Verif.Props.AutoDiff
import Verif.Props.Math
import Mathlib.Analysis.SpecificLimits.Basic
import Mathlib.Data.List.GetD

/-!
# C63: the floating point results approach the exact linear propagation when the precision increases
-/

namespace Unc.Props
open Unc.Spec UReal FP Filter Topology

section conv
variable {f : ℕ → Fmt}

/-- the numbers approach `a` -/
def Conv (x : ∀ k, FP (f k)) (a : ℝ) : Prop := Tendsto (fun k => (x k).val) atTop (𝓝 a)

theorem conv_rd (hf : Finer f) {x : ℕ → ℝ} {a : ℝ} (h : Tendsto x atTop (𝓝 a)) : Tendsto (fun k => (f k).rd (x k)) atTop (𝓝 a) := by
  obtain ⟨u, hu, hl⟩ := hf.acc
  have h0 : Tendsto (fun k => (f k).rd (x k) - x k) atTop (𝓝 0) := by
    refine squeeze_zero_norm (fun k => ?_) (a := fun k => u k * |x k|) ?_
    · exact (hu k).err (x k)
    · have := hl.mul h.abs
      rwa [zero_mul] at this
  have := h0.add h
  simpa using this

theorem conv_round (hf : Finer f) (a : ℝ) : Conv (fun k => FP.round (f k) a) a := conv_rd hf tendsto_const_nhds
theorem conv_one : Conv (fun k => (1 : FP (f k))) 1 := tendsto_const_nhds
theorem conv_zero : Conv (fun k => (0 : FP (f k))) 0 := tendsto_const_nhds
theorem Conv.neg {x : ∀ k, FP (f k)} {a : ℝ} (h : Conv x a) : Conv (fun k => -x k) (-a) := Tendsto.neg h
theorem Conv.add (hf : Finer f) {x y : ∀ k, FP (f k)} {a b : ℝ} (h : Conv x a) (h' : Conv y b) : Conv (fun k => x k + y k) (a + b) :=
  conv_rd hf (Tendsto.add h h')
theorem Conv.sub (hf : Finer f) {x y : ∀ k, FP (f k)} {a b : ℝ} (h : Conv x a) (h' : Conv y b) : Conv (fun k => x k - y k) (a - b) :=
  conv_rd hf (Tendsto.sub h h')
theorem Conv.mul (hf : Finer f) {x y : ∀ k, FP (f k)} {a b : ℝ} (h : Conv x a) (h' : Conv y b) : Conv (fun k => x k * y k) (a * b) :=
  conv_rd hf (Tendsto.mul h h')
theorem Conv.div (hf : Finer f) {x y : ∀ k, FP (f k)} {a b : ℝ} (h : Conv x a) (h' : Conv y b) (hb : b ≠ 0) : Conv (fun k => x k / y k) (a / b) :=
  conv_rd hf (Tendsto.div h h' hb)

/-- the objects approach `X` -/
structure ConvU (x : ∀ k, UReal (FP (f k))) (X : UReal ℝ) : Prop where
  wf : ∀ k, (x k).WF
  below : ∀ k, (x k).Below maxId
  deps : ∀ k, (x k).deps = X.deps
  fresh : ∀ k, 0 ≤ (x k).id ∨ (x k).sdev.val < 0
  mu : Conv (fun k => (x k).mu) X.mu
  coef : ∀ i, Conv (fun k => (x k).coef i) (X.coef i)

theorem convU_const {c : ∀ k, FP (f k)} {C : ℝ} (h : Conv c C) : ConvU (fun k => UReal.const (c k)) (UReal.const C) where
  wf k := wf_const _
  below k := fun i hi => by simp [UReal.deps, UReal.const] at hi
  deps k := by simp [UReal.deps, UReal.const]
  fresh k := Or.inl le_rfl
  mu := h
  coef i := by simpa [UReal.coef, UReal.const] using conv_zero

theorem convU_elem {i : ℤ} (hi : 0 < i) (hi' : i < maxId) {m s : ∀ k, FP (f k)} {M S : ℝ} (hm : Conv m M) (hs : Conv s S) :
    ConvU (fun k => ⟨i, s k, m k, []⟩) ⟨i, S, M, []⟩ where
  wf k := ⟨fun h => absurd h hi.ne', fun _ => rfl, by simp, by simp⟩
  below k := fun j hj => by simp [UReal.deps, hi] at hj; rw [hj]; exact hi'
  deps k := by simp [UReal.deps]
  fresh k := Or.inl hi.le
  mu := hm
  coef j := by
    simp only [UReal.coef, hi, if_true]
    by_cases h : j = i
    · simpa [h] using hs
    · simpa [h] using conv_zero

theorem fp_coef_unary {F : Fmt} (x : UReal (FP F)) (mu dx : FP F) (i : ℤ) : (unary x mu dx).coef i = x.coef i * dx := by
  unfold unary
  rcases lt_trichotomy x.id 0 with h | h | h
  · have e : SMap.get (x.sigma.mapVal (fun v => v * dx)) i = SMap.get x.sigma i * dx := SMap.get_mapVal (fp_zero_mul _)
    simp only [UReal.coef, not_lt.2 h.le, h, if_false, if_true, e]
  · simp [UReal.coef, h, fp_zero_mul]
  · simp only [UReal.coef, h, if_true]
    split_ifs
    · rfl
    · exact (fp_zero_mul _).symm

theorem mu_unary {R : Type*} [Zero R] [One R] [Neg R] [Mul R] (x : UReal R) (mu dx : R) : (unary x mu dx).mu = mu := by
  unfold unary; split_ifs <;> rfl

theorem ConvU.unary (hf : Finer f) {x : ∀ k, UReal (FP (f k))} {X : UReal ℝ} (h : ConvU x X) {m d : ∀ k, FP (f k)} {M D : ℝ} (hm : Conv m M) (hd : Conv d D) :
    ConvU (fun k => UReal.unary (x k) (m k) (d k)) (UReal.unary X M D) where
  wf k := wf_unary (h.wf k) _ _
  below k := fun i hi => h.below k i (by rwa [deps_unary] at hi)
  deps k := by rw [deps_unary, deps_unary, h.deps k]
  fresh k := by
    rcases lt_trichotomy (x k).id 0 with h0 | h0 | h0
    · right
      rw [UReal.unary, if_neg (by omega), if_pos h0]
      simp
    · left; rw [UReal.unary, if_neg (by omega), if_neg (by omega)]; exact h0.ge
    · left; rw [UReal.unary, if_pos h0]; exact h0.le
  mu := by simpa only [mu_unary] using hm
  coef i := by
    simp only [fp_coef_unary, coef_unary]
    rw [mul_comm]
    exact (h.coef i).mul hf hd

theorem ConvU.binary (hf : Finer f) {x y : ∀ k, UReal (FP (f k))} {X Y : UReal ℝ} (h : ConvU x X) (h' : ConvU y Y) (hX : Ok X) (hY : Ok Y) {m d e : ∀ k, FP (f k)}
    {M D E : ℝ} (hm : Conv m M) (hd : Conv d D) (he : Conv e E) :
    ∃ z Z, (∀ k, UReal.binary (x k) (y k) (m k) (d k) (e k) = some (z k)) ∧ UReal.binary X Y M D E = some Z ∧ ConvU z Z := by
  choose z hz wz dz mz iz sz cz using fun k => binary_coef (h.wf k) (h'.wf k) (h.below k) (h'.below k) (m k) (d k) (e k)
  obtain ⟨Z, eZ, wZ, lZ, -, -⟩ := binary_toLin hX.valid.wf hY.valid.wf hX.below hY.below M D E
  refine ⟨z, Z, hz, eZ, ⟨wz, fun k i hi => ?_, fun k => ?_, fun k => Or.inr (by rw [sz k]; simp), ?_, fun i => ?_⟩⟩
  · rw [dz k] at hi
    rcases Finset.mem_union.1 hi with h0 | h0
    · exact h.below k i h0
    · exact h'.below k i h0
  · rw [dz k, h.deps k, h'.deps k]
    exact (congrArg LinForm.deps lZ).symm
  · have : Z.mu = M := congrArg LinForm.mean lZ
    rw [this]
    simpa only [mz] using hm
  · have : Z.coef i = D * X.coef i + E * Y.coef i := congrFun (congrArg LinForm.coef lZ) i
    rw [this]
    simp only [cz]
    exact (hd.mul hf (h.coef i)).add hf (he.mul hf (h'.coef i))

/-! ### the results -/

theorem ConvU.cov (hf : Finer f) {x y : ∀ k, UReal (FP (f k))} {X Y : UReal ℝ} (h : ConvU x X) (h' : ConvU y Y) (hX : X.WF) (hY : Y.WF) :
    Conv (fun k => UReal.cov (x k) (y k)) (UReal.cov X Y) := by
  obtain ⟨u, hu, hl⟩ := hf.acc
  have e1 : Tendsto (fun k => (exactL (x k)).cov (exactL (y k))) atTop (𝓝 (UReal.cov X Y)) := by
    rw [cov_eq hX hY]
    simp only [LinForm.cov, exactL, h.deps, h'.deps]
    exact tendsto_finset_sum _ (fun i _ => Tendsto.mul (h.coef i) (h'.coef i))
  have e2 : Tendsto (fun k => absCov (exactL (x k)) (exactL (y k))) atTop (𝓝 (∑ i ∈ X.deps ∪ Y.deps, |X.coef i * Y.coef i|)) := by
    simp only [absCov, exactL, h.deps, h'.deps]
    exact tendsto_finset_sum _ (fun i _ => (Tendsto.mul (h.coef i) (h'.coef i)).abs)
  have e3 : Tendsto (fun k => (1 + u k) ^ (X.deps ∩ Y.deps).card - 1) atTop (𝓝 0) := by
    have := ((tendsto_const_nhds (x := (1 : ℝ))).add hl).pow (X.deps ∩ Y.deps).card
    simpa using this.sub_const 1
  have e4 : Tendsto (fun k => (UReal.cov (x k) (y k)).val - (exactL (x k)).cov (exactL (y k))) atTop (𝓝 0) := by
    refine squeeze_zero_norm (fun k => ?_) (a := fun k => ((1 + u k) ^ (X.deps ∩ Y.deps).card - 1) * absCov (exactL (x k)) (exactL (y k))) ?_
    · have := C61_cov (hu k) (h.wf k) (h'.wf k)
      rwa [h.deps k, h'.deps k] at this
    · have := e3.mul e2
      rwa [zero_mul] at this
  have := e4.add e1
  simpa [Conv] using this

theorem tendsto_exact_var {x : ∀ k, UReal (FP (f k))} {X : UReal ℝ} (h : ConvU x X) :
    Tendsto (fun k => (exactL (x k)).var) atTop (𝓝 X.toLin.var) := by
  simp only [LinForm.var, exactL, toLin, h.deps]
  exact tendsto_finset_sum _ (fun i _ => Tendsto.mul (h.coef i) (h.coef i))

theorem tendsto_factor {u : ℕ → ℝ} (hl : Tendsto u atTop (𝓝 0)) (n : ℕ) {V : ℕ → ℝ} {v : ℝ} (hV : Tendsto V atTop (𝓝 v)) :
    Tendsto (fun k => (1 - u k) ^ n * V k) atTop (𝓝 v) ∧ Tendsto (fun k => (1 + u k) ^ n * V k) atTop (𝓝 v) := by
  have a := (((tendsto_const_nhds (x := (1 : ℝ))).sub hl).pow n).mul hV
  have b := (((tendsto_const_nhds (x := (1 : ℝ))).add hl).pow n).mul hV
  simp only [sub_zero, add_zero, one_pow, one_mul] at a b
  exact ⟨a, b⟩

theorem ConvU.var (hf : Finer f) {x : ∀ k, UReal (FP (f k))} {X : UReal ℝ} (h : ConvU x X) : Conv (fun k => UReal.var (x k)) X.toLin.var := by
  obtain ⟨u, hu, hl⟩ := hf.acc
  obtain ⟨a, b⟩ := tendsto_factor hl X.deps.card (tendsto_exact_var h)
  refine tendsto_of_tendsto_of_tendsto_of_le_of_le a b (fun k => ?_) (fun k => ?_)
  · have := (C61_var (hu k) (h.wf k) (h.fresh k)).1
    rwa [h.deps k] at this
  · have := (C61_var (hu k) (h.wf k) (h.fresh k)).2
    rwa [h.deps k] at this

theorem ConvU.s (hf : Finer f) {x : ∀ k, UReal (FP (f k))} {X : UReal ℝ} (h : ConvU x X) : Conv (fun k => UReal.s (x k)) (Real.sqrt X.toLin.var) := by
  obtain ⟨u, hu, hl⟩ := hf.acc
  obtain ⟨a, b⟩ := tendsto_factor hl (X.deps.card + 2) (tendsto_exact_var h)
  have c : Tendsto (fun k => (UReal.s (x k)).val ^ 2) atTop (𝓝 X.toLin.var) := by
    refine tendsto_of_tendsto_of_tendsto_of_le_of_le a b (fun k => ?_) (fun k => ?_)
    · have := (C61_s (hu k) (h.wf k) (h.fresh k)).1
      rwa [h.deps k] at this
    · have := (C61_s (hu k) (h.wf k) (h.fresh k)).2
      rwa [h.deps k] at this
  refine Tendsto.congr (fun k => ?_) c.sqrt
  exact Real.sqrt_sq (C61_nonneg (x k)).2.2.1

/-! ### whole computations -/

/-- the two partial derivatives -/
noncomputable def partials (F : ℝ → ℝ → ℝ) (a b : ℝ) : ℝ × ℝ :=
  (fderiv ℝ (fun p : ℝ × ℝ => F p.1 p.2) (a, b) (1, 0), fderiv ℝ (fun p : ℝ × ℝ => F p.1 p.2) (a, b) (0, 1))

theorem partials_eq {F : ℝ → ℝ → ℝ} {a b Dx Dy : ℝ}
    (h : HasFDerivAt (fun p : ℝ × ℝ => F p.1 p.2) (Dx • ContinuousLinearMap.fst ℝ ℝ ℝ + Dy • ContinuousLinearMap.snd ℝ ℝ ℝ) (a, b)) :
    partials F a b = (Dx, Dy) := by
  rw [partials, h.fderiv]; simp

/-- the step on real numbers -/
noncomputable def toNode : FNode → Node
  | .const c => .const c
  | .neg a => .un UReal.neg (fun t => -t) a
  | .add a b => .bin UReal.add (fun s t => s + t) a b
  | .sub a b => .bin UReal.sub (fun s t => s - t) a b
  | .mul a b => .bin UReal.mul (fun s t => s * t) a b
  | .div a b => .bin UReal.div (fun s t => s / t) a b
  | .call1 _ F a => .un (fun x => UReal.unary x (F x.n) (deriv F x.n)) F a
  | .call2 _ F a b => .bin (fun x y => UReal.binary x y (F x.n y.n) (partials F x.n y.n).1 (partials F x.n y.n).2) F a b

theorem evalE_eq (p : List FNode) (acc : List ℝ) : evalE p acc = evalR (p.map toNode) acc := by
  induction p generalizing acc with
  | nil => rfl
  | cons nd t ih => cases nd <;> simp only [evalE, List.map_cons, toNode, evalR, FNode.real, ih]

theorem nodesRight_of (p : List FNode) (acc : List ℝ) (h : Regular p acc) : NodesRight (p.map toNode) acc := by
  induction p generalizing acc with
  | nil => trivial
  | cons nd t ih =>
    obtain ⟨h1, h2⟩ := h
    have ih := ih _ h2
    cases nd with
    | const c => exact ih
    | neg a => exact ⟨h1, C14_neg _, ih⟩
    | add a b => exact ⟨h1.1, h1.2, C14_add _ _, ih⟩
    | sub a b => exact ⟨h1.1, h1.2, C14_sub _ _, ih⟩
    | mul a b => exact ⟨h1.1, h1.2, C14_mul _ _, ih⟩
    | div a b => exact ⟨h1.1, h1.2.1, C14_div h1.2.2, ih⟩
    | call1 g F a =>
      obtain ⟨ha, D, m, d, hD, -⟩ := h1
      exact ⟨ha, propagates1_of (D := deriv F) _ (fun _ => rfl) (hD.deriv.symm ▸ hD), ih⟩
    | call2 g F a b =>
      obtain ⟨ha, hb, Dx, Dy, m, dx, dy, hD, -⟩ := h1
      refine ⟨ha, hb, propagates2_of (Dx := fun s t => (partials F s t).1) (Dy := fun s t => (partials F s t).2) _ (fun _ _ => rfl) ?_, ih⟩
      rw [partials_eq hD]; exact hD

/-- the lists of results approach each other -/
def ConvL (x : ∀ k, List (UReal (FP (f k)))) (X : List (UReal ℝ)) : Prop :=
  (∀ k, (x k).length = X.length) ∧ ∀ j, ConvU (fun k => (x k).getD j (UReal.const 0)) (X.getD j (UReal.const 0))

theorem ConvL.snoc {x : ∀ k, List (UReal (FP (f k)))} {X : List (UReal ℝ)} (h : ConvL x X) {z : ∀ k, UReal (FP (f k))} {Z : UReal ℝ} (hz : ConvU z Z) :
    ConvL (fun k => x k ++ [z k]) (X ++ [Z]) := by
  refine ⟨fun k => by simp [h.1 k], fun j => ?_⟩
  rcases lt_trichotomy j X.length with hj | hj | hj
  · have e : ∀ k, (x k ++ [z k]).getD j (UReal.const 0) = (x k).getD j (UReal.const 0) := fun k => by
      rw [List.getD_append _ _ _ _ (by rw [h.1 k]; exact hj)]
    rw [List.getD_append _ _ _ _ hj]
    simp only [e]
    exact h.2 j
  · have e : ∀ k, (x k ++ [z k]).getD j (UReal.const 0) = z k := fun k => by
      rw [List.getD_append_right _ _ _ _ (by rw [h.1 k, hj]), h.1 k, hj]; simp
    have e' : (X ++ [Z]).getD j (UReal.const 0) = Z := by
      rw [List.getD_append_right _ _ _ _ hj.ge, hj]; simp
    simp only [e, e']
    exact hz
  · have e : ∀ k, (x k ++ [z k]).getD j (UReal.const 0) = UReal.const 0 := fun k => List.getD_eq_default _ _ (by simp [h.1 k]; omega)
    have e' : (X ++ [Z]).getD j (UReal.const 0) = UReal.const 0 := List.getD_eq_default _ _ (by simp; omega)
    simp only [e, e']
    exact convU_const conv_zero

theorem evalF_conv (hf : Finer f) (p : List FNode) (x : ∀ k, List (UReal (FP (f k)))) (X : List (UReal ℝ)) (h : ConvL x X)
    (hok : ∀ j, Ok (X.getD j (UReal.const 0))) (hp : Regular p (X.map (fun u => u.n))) :
    ∃ out Out, (∀ k, evalF (f k) p (x k) = some (out k)) ∧ evalU (p.map toNode) X = some Out ∧ ConvL out Out := by
  induction p generalizing x X with
  | nil => exact ⟨x, X, fun _ => rfl, rfl, h⟩
  | cons nd t ih =>
    obtain ⟨h1, h2⟩ := hp
    have harg : ∀ a, (X.map (fun u => u.n)).getD a 0 = (X.getD a (UReal.const 0)).mu := fun a => by
      rw [List.getD_eq_getElem?_getD, List.getD_eq_getElem?_getD, List.getElem?_map]
      cases X[a]? <;> rfl
    -- one step
    have step : ∃ z Z, (∀ k t, evalF (f k) (nd :: t) (x k) = evalF (f k) t (x k ++ [z k])) ∧
        (∀ t, evalU (toNode nd :: t) X = evalU t (X ++ [Z])) ∧ ConvU z Z ∧ Ok Z ∧ Z.n = nd.real (fun a => (X.map (fun u => u.n)).getD a 0) := by
      have bin : ∀ (a b : ℕ) (g : UReal ℝ → UReal ℝ → Option (UReal ℝ)) (F : ℝ → ℝ → ℝ) (m d e : ∀ k, FP (f k)) (M D E : ℝ),
          Conv m M → Conv d D → Conv e E → toNode nd = .bin g F a b →
          g (X.getD a (UReal.const 0)) (X.getD b (UReal.const 0)) = UReal.binary (X.getD a (UReal.const 0)) (X.getD b (UReal.const 0)) M D E →
          (∀ k t, evalF (f k) (nd :: t) (x k) = (UReal.binary ((x k).getD a (UReal.const 0)) ((x k).getD b (UReal.const 0)) (m k) (d k) (e k)).bind
            (fun z => evalF (f k) t (x k ++ [z]))) → M = nd.real (fun a => (X.map (fun u => u.n)).getD a 0) →
          ∃ z Z, (∀ k t, evalF (f k) (nd :: t) (x k) = evalF (f k) t (x k ++ [z k])) ∧
            (∀ t, evalU (toNode nd :: t) X = evalU t (X ++ [Z])) ∧ ConvU z Z ∧ Ok Z ∧ Z.n = nd.real (fun a => (X.map (fun u => u.n)).getD a 0) := by
        intro a b g F m d e M D E hm hd he hn hg hev hM
        obtain ⟨z, Z, hz, hZ, hc⟩ := ConvU.binary hf (h.2 a) (h.2 b) (hok a) (hok b) hm hd he
        obtain ⟨Z', hZ', okZ, mZ, -⟩ := binary_ok (hok a) (hok b) M D E
        rw [hZ] at hZ'
        cases hZ'
        refine ⟨z, Z, fun k t => by rw [hev k t, hz k]; rfl, fun t => ?_, hc, okZ, mZ.trans hM⟩
        rw [hn, evalU, hg, hZ]
      cases nd with
      | const c =>
        exact ⟨_, _, fun k t => rfl, fun t => rfl, convU_const (conv_round hf c), ⟨valid_const _, by simp [Below, UReal.deps, UReal.const]⟩, rfl⟩
      | neg a =>
        refine ⟨_, _, fun k t => rfl, fun t => rfl, (h.2 a).unary hf (h.2 a).mu.neg conv_one.neg, (neg_ok (hok a)).1, ?_⟩
        exact (neg_ok (hok a)).2.1.trans (congrArg _ (harg a).symm)
      | add a b =>
        exact bin a b _ _ _ _ _ _ _ _ ((h.2 a).mu.add hf (h.2 b).mu) conv_one conv_one rfl rfl (fun k t => rfl) (by simp only [FNode.real, harg])
      | sub a b =>
        exact bin a b _ _ _ _ _ _ _ _ ((h.2 a).mu.sub hf (h.2 b).mu) conv_one conv_one.neg rfl rfl (fun k t => rfl) (by simp only [FNode.real, harg])
      | mul a b =>
        exact bin a b _ _ _ _ _ _ _ _ ((h.2 a).mu.mul hf (h.2 b).mu) (h.2 b).mu (h.2 a).mu rfl rfl (fun k t => rfl) (by simp only [FNode.real, harg])
      | div a b =>
        obtain ⟨-, -, hb⟩ := h1
        simp only [harg] at hb
        have hi := conv_one.div hf (h.2 b).mu hb
        have hm := (h.2 a).mu.mul hf hi
        exact bin a b _ _ _ _ _ _ _ _ hm hi (hm.neg.mul hf hi) rfl rfl (fun k t => rfl) (by simp only [FNode.real, harg]; ring)
      | call1 g F a =>
        obtain ⟨-, D, m, d, hD, hg, hI⟩ := h1
        simp only [harg] at hD hI
        obtain ⟨c1, c2⟩ := hI f _ hf (h.2 a).mu
        rw [← hD.deriv] at c2
        refine ⟨fun k => g (f k) ((x k).getD a (UReal.const 0)), _, fun k t => rfl, fun t => rfl, ?_, ⟨valid_unary (hok a).valid _ _, ?_⟩, ?_⟩
        · simp only [hg]; exact (h.2 a).unary hf c1 c2
        · intro i hi; exact (hok a).below i (by rwa [deps_unary] at hi)
        · simp only [FNode.real, harg]; exact mu_unary _ _ _
      | call2 g F a b =>
        obtain ⟨-, -, Dx, Dy, m, dx, dy, hD, hg, hI⟩ := h1
        simp only [harg] at hD hI
        obtain ⟨c1, c2, c3⟩ := hI f _ _ hf (h.2 a).mu (h.2 b).mu
        have hq := partials_eq hD
        rw [show Dx = (partials F (X.getD a (UReal.const 0)).mu (X.getD b (UReal.const 0)).mu).1 by rw [hq]] at c2
        rw [show Dy = (partials F (X.getD a (UReal.const 0)).mu (X.getD b (UReal.const 0)).mu).2 by rw [hq]] at c3
        exact bin a b _ _ _ _ _ _ _ _ c1 c2 c3 rfl rfl (fun k t => congrArg (fun o => Option.bind o _) (hg (f k) _ _)) (by simp only [FNode.real, harg])
    obtain ⟨z, Z, s1, s2, hc, okZ, mZ⟩ := step
    have hok' : ∀ j, Ok ((X ++ [Z]).getD j (UReal.const 0)) := by
      intro j
      by_cases hj : j < X.length
      · rw [List.getD_append _ _ _ _ hj]; exact hok j
      · by_cases hj' : j = X.length
        · rw [List.getD_append_right _ _ _ _ (by omega), hj']; simpa using okZ
        · rw [List.getD_eq_default _ _ (by simp; omega)]
          exact ⟨valid_const _, by simp [Below, UReal.deps, UReal.const]⟩
    obtain ⟨out, Out, o1, o2, o3⟩ := ih _ _ (h.snoc hc) hok' (by rw [List.map_append, List.map_singleton, mZ]; exact h2)
    exact ⟨out, Out, fun k => by rw [s1 k t]; exact o1 k, by rw [List.map_cons, s2]; exact o2, o3⟩

end conv

/-- **C63**: take a computation from elementary variables with the operators of the class and functions, regular at the means.  Run it in finer and finer formats, the
means and the standard deviations of the variables being rounded to the format.  There is no undefined behaviour, and means, variances, uncertainties,
covariances and correlations of the results approach those of exact linear propagation of the real function computed. -/
theorem C63_converges {n : ℕ} {f : ℕ → Fmt} (hf : Finer f) {ids : Fin n → ℤ} (hinj : Function.Injective ids) (hpos : ∀ i, 0 < ids i)
    (hlt : ∀ i, ids i < maxId) (mu s : Fin n → ℝ) (p : List FNode) (hp : Regular p (List.ofFn mu)) :
    ∃ out : ∀ k, List (UReal (FP (f k))), (∀ k, evalF (f k) p (elemsF (f k) ids mu s) = some (out k) ∧ (out k).length = n + p.length) ∧
      ∀ j < n + p.length, DifferentiableAt ℝ (fnF p j) mu ∧
        Tendsto (fun k => ((out k).getD j (UReal.const 0)).n.val) atTop (𝓝 (fnF p j mu)) ∧
        Tendsto (fun k => ((out k).getD j (UReal.const 0)).var.val) atTop (𝓝 (∑ i, (fderiv ℝ (fnF p j) mu (Pi.single i 1)) ^ 2 * s i ^ 2)) ∧
        Tendsto (fun k => ((out k).getD j (UReal.const 0)).s.val) atTop (𝓝 (Real.sqrt (∑ i, (fderiv ℝ (fnF p j) mu (Pi.single i 1)) ^ 2 * s i ^ 2))) ∧
        ∀ l < n + p.length,
          Tendsto (fun k => (UReal.cov ((out k).getD j (UReal.const 0)) ((out k).getD l (UReal.const 0))).val) atTop
            (𝓝 (∑ i, fderiv ℝ (fnF p j) mu (Pi.single i 1) * fderiv ℝ (fnF p l) mu (Pi.single i 1) * s i ^ 2)) ∧
          (∑ i, (fderiv ℝ (fnF p j) mu (Pi.single i 1)) ^ 2 * s i ^ 2 ≠ 0 → ∑ i, (fderiv ℝ (fnF p l) mu (Pi.single i 1)) ^ 2 * s i ^ 2 ≠ 0 →
            Tendsto (fun k => (UReal.corr ((out k).getD j (UReal.const 0)) ((out k).getD l (UReal.const 0))).val) atTop
              (𝓝 ((∑ i, fderiv ℝ (fnF p j) mu (Pi.single i 1) * fderiv ℝ (fnF p l) mu (Pi.single i 1) * s i ^ 2) /
                (Real.sqrt (∑ i, (fderiv ℝ (fnF p j) mu (Pi.single i 1)) ^ 2 * s i ^ 2) *
                  Real.sqrt (∑ i, (fderiv ℝ (fnF p l) mu (Pi.single i 1)) ^ 2 * s i ^ 2))))) := by
  have hnr : NodesRight (p.map toNode) (vars mu) := nodesRight_of p _ hp
  obtain ⟨Out, eO, lO, rO⟩ := C13_linear_propagation ids hinj hpos hlt mu s _ hnr
  obtain ⟨Out1, eO1, -, rO1⟩ := prog_rel hinj hpos hlt mu s _ hnr
  rw [eO] at eO1
  cases eO1
  have hfn : ∀ j, fnF p j = fn (p.map toNode) j (n := n) := fun j => by
    funext v; rw [fnF, fn, evalE_eq]; rfl
  have hgetF : ∀ (F : Fmt) j, (elemsF F ids mu s).getD j (UReal.const 0) =
      if h : j < n then ⟨ids ⟨j, h⟩, FP.round F (s ⟨j, h⟩), FP.round F (mu ⟨j, h⟩), []⟩ else UReal.const 0 := by
    intro F j
    unfold elemsF
    by_cases h : j < n
    · rw [dif_pos h, List.getD_eq_getElem _ _ (by simpa using h)]; simp
    · rw [dif_neg h, List.getD_eq_default _ _ (by simpa using h)]
  have hgetR : ∀ j, (elems ids mu s).getD j (UReal.const 0) =
      if h : j < n then ⟨ids ⟨j, h⟩, s ⟨j, h⟩, mu ⟨j, h⟩, []⟩ else UReal.const 0 := by
    intro j
    unfold elems
    by_cases h : j < n
    · rw [dif_pos h, List.getD_eq_getElem _ _ (by simpa using h)]; simp
    · rw [dif_neg h, List.getD_eq_default _ _ (by simpa using h)]
  have hL : ConvL (fun k => elemsF (f k) ids mu s) (elems ids mu s) := by
    refine ⟨fun k => by simp [elemsF, elems], fun j => ?_⟩
    simp only [hgetF, hgetR]
    by_cases h : j < n
    · simp only [dif_pos h]
      exact convU_elem (hpos _) (hlt _) (conv_round hf _) (conv_round hf _)
    · simp only [dif_neg h]
      exact convU_const conv_zero
  have hok : ∀ j, Ok ((elems ids mu s).getD j (UReal.const 0)) := by
    intro j
    rw [hgetR]
    by_cases h : j < n
    · rw [dif_pos h]
      exact (Rel.elem hinj hpos hlt mu s ⟨j, h⟩).ok
    · rw [dif_neg h]
      exact ⟨valid_const _, by simp [Below, UReal.deps, UReal.const]⟩
  obtain ⟨out, Out2, o1, o2, o3⟩ := evalF_conv hf p _ _ hL hok (by
    have : (elems ids mu s).map (fun u => u.n) = List.ofFn mu := by
      simp [elems, List.map_ofFn, Function.comp_def, UReal.n]
    rw [this]; exact hp)
  rw [eO] at o2
  cases o2
  rw [List.length_map] at lO
  refine ⟨out, fun k => ⟨o1 k, (o3.1 k).trans lO⟩, fun j hj => ?_⟩
  have hget : ∀ j (hj : j < n + p.length), Out.getD j (UReal.const 0) = Out[j]'(by omega) := fun j hj => List.getD_eq_getElem _ _ _
  obtain ⟨q1, q2, q3, q4⟩ := rO j (by omega)
  have c := o3.2 j
  have r := rO1 j (by omega)
  rw [hget j hj] at c
  have hv : ∀ l (hl : l < n + p.length), (Out[l]'(by omega)).toLin.var = ∑ i, (fderiv ℝ (fnF p l) mu (Pi.single i 1)) ^ 2 * s i ^ 2 := fun l hl => by
    rw [← var_eq (rO1 l (by omega)).ok.valid, (rO l (by omega)).2.2.1, hfn]
  refine ⟨by rw [hfn]; exact q1, ?_, ?_, ?_, fun l hl => ?_⟩
  · rw [hfn, ← q2]; exact c.mu
  · rw [← hv j hj]; exact c.var hf
  · rw [← hv j hj]; exact c.s hf
  · have c' := o3.2 l
    have r' := rO1 l (by omega)
    rw [hget l hl] at c'
    have hc : Conv (fun k => UReal.cov ((out k).getD j (UReal.const 0)) ((out k).getD l (UReal.const 0)))
        (∑ i, fderiv ℝ (fnF p j) mu (Pi.single i 1) * fderiv ℝ (fnF p l) mu (Pi.single i 1) * s i ^ 2) := by
      rw [hfn, hfn, ← q4 l (by omega)]
      exact ConvU.cov hf c c' r.ok.valid.wf r'.ok.valid.wf
    refine ⟨hc, fun h0 h0' => ?_⟩
    have a := c.s hf
    have b := c'.s hf
    rw [hv j hj] at a
    rw [hv l hl] at b
    refine hc.div hf (a.mul hf b) (mul_ne_zero ?_ ?_)
    · rw [Real.sqrt_ne_zero (Finset.sum_nonneg fun _ _ => by positivity)]; exact h0
    · rw [Real.sqrt_ne_zero (Finset.sum_nonneg fun _ _ => by positivity)]; exact h0'

/-! ## the hypotheses are met -/

/-- more and more binary digits -/
theorem finer_bits : Finer (fun k => bits (k + 1) (by omega)) :=
  ⟨fun k => (1 / 2) ^ (k + 1), fun k => acc_bits _ _, by
    have := tendsto_pow_atTop_nhds_zero_of_lt_one (r := (1 / 2 : ℝ)) (by norm_num) (by norm_num)
    exact this.comp (tendsto_add_atTop_nat 1)⟩

/-- a square root as in math.hpp: the derivative is computed from the rounded value -/
theorem fine_sqrt {a : ℝ} (ha : 0 < a) :
    Fine1 (fun f x => UReal.unary x (CSqrt.sqrt x.n) (1 / (CSqrt.sqrt x.n + CSqrt.sqrt x.n))) Real.sqrt a := by
  refine ⟨1 / (2 * Real.sqrt a), fun f x => CSqrt.sqrt x, fun f x => 1 / (CSqrt.sqrt x + CSqrt.sqrt x), Real.hasDerivAt_sqrt ha.ne', fun _ _ => rfl, fun f x hf hx => ?_⟩
  have h : Conv (fun k => CSqrt.sqrt (x k)) (Real.sqrt a) := conv_rd hf hx.sqrt
  have h0 : Real.sqrt a + Real.sqrt a ≠ 0 := by have := Real.sqrt_pos.2 ha; positivity
  rw [two_mul]
  exact ⟨h, Conv.div hf conv_one (h.add hf h) h0⟩

/-- `sqrt(x * y) / x - x` -/
noncomputable def exProgF : List FNode :=
  [.mul 0 1, .call1 (fun f x => UReal.unary x (CSqrt.sqrt x.n) (1 / (CSqrt.sqrt x.n + CSqrt.sqrt x.n))) Real.sqrt 2, .div 3 0, .sub 4 0]

theorem exProgF_regular : Regular exProgF (List.ofFn ![2, 3]) := by
  have hf := fine_sqrt (show (0 : ℝ) < 6 by norm_num)
  simp only [exProgF, Regular, FNode.real]
  norm_num
  norm_num at hf
  exact hf

example : ∃ out : ∀ k, List (UReal (FP (bits (k + 1) (by omega)))), (∀ k, evalF _ exProgF (elemsF _ ![1, 2] ![2, 3] ![1 / 3, 1 / 7]) = some (out k)) ∧
    Tendsto (fun k => ((out k).getD 5 (UReal.const 0)).n.val) atTop (𝓝 (Real.sqrt 6 / 2 - 2)) := by
  obtain ⟨out, h1, h2⟩ := C63_converges finer_bits (ids := ![1, 2]) (by intro i j h; fin_cases i <;> fin_cases j <;> simp_all) (by intro i; fin_cases i <;> simp)
    (by intro i; fin_cases i <;> simp [maxId]) ![2, 3] ![1 / 3, 1 / 7] exProgF exProgF_regular
  refine ⟨out, fun k => (h1 k).1, ?_⟩
  have := (h2 5 (by simp [exProgF])).2.1
  have e : fnF exProgF 5 ![2, 3] = Real.sqrt 6 / 2 - 2 := by
    simp [fnF, exProgF, evalE, FNode.real]
    rw [← Real.sqrt_mul (by norm_num)]; norm_num
  rwa [e] at this

end Unc.Props
