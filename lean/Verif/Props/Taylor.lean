import Verif.Lemmas.Taylor2
import Verif.Props.Math2
import Mathlib.Algebra.BigOperators.Fin

/-! # Second-order Taylor expansions computed by expressions in `UReal2` (C36) -/

namespace Unc.Props
open Unc Unc.Spec Filter Topology Asymptotics

/-! ## the derivatives are unique -/

theorem Derivs1.unique {F : ℝ → ℝ} {a d dd d' dd' : ℝ} (h : Derivs1 F a d dd) (h' : Derivs1 F a d' dd') : d = d' ∧ dd = dd' := by
  obtain ⟨D, h1, h2, rfl⟩ := h
  obtain ⟨D', h1', h2', rfl⟩ := h'
  have he : D =ᶠ[𝓝 a] D' := by
    filter_upwards [h1, h1'] with t ht ht'
    exact ht.unique ht'
  exact ⟨he.eq_of_nhds, h2.unique (h2'.congr_of_eventuallyEq he)⟩

theorem lin_inj {p q p' q' : ℝ} (h : lin p q = lin p' q') : p = p' ∧ q = q' := by
  have h1 := congrArg (fun L : ℝ × ℝ →L[ℝ] ℝ => L (1, 0)) h
  have h2 := congrArg (fun L : ℝ × ℝ →L[ℝ] ℝ => L (0, 1)) h
  simp [lin] at h1 h2
  exact ⟨h1, h2⟩

theorem Derivs2.unique {F : ℝ → ℝ → ℝ} {a b dx dy dxx dyy dxy dx' dy' dxx' dyy' dxy' : ℝ} (h : Derivs2 F a b dx dy dxx dyy dxy)
    (h' : Derivs2 F a b dx' dy' dxx' dyy' dxy') : dx = dx' ∧ dy = dy' ∧ dxx = dxx' ∧ dyy = dyy' ∧ dxy = dxy' := by
  obtain ⟨Dx, Dy, h1, h2, h3, rfl, rfl⟩ := h
  obtain ⟨Dx', Dy', h1', h2', h3', rfl, rfl⟩ := h'
  have he : ∀ᶠ p in 𝓝 (a, b), Dx p = Dx' p ∧ Dy p = Dy' p := by
    filter_upwards [h1, h1'] with t ht ht'
    exact lin_inj (ht.unique ht')
  have ex : Dx =ᶠ[𝓝 (a, b)] Dx' := he.mono fun _ h => h.1
  have ey : Dy =ᶠ[𝓝 (a, b)] Dy' := he.mono fun _ h => h.2
  obtain ⟨k1, k2⟩ := lin_inj (h2.unique (h2'.congr_of_eventuallyEq ex))
  obtain ⟨-, k3⟩ := lin_inj (h3.unique (h3'.congr_of_eventuallyEq ey))
  exact ⟨ex.eq_of_nhds, ey.eq_of_nhds, k1, k3, k2⟩

/-! ## the invariant -/

section
variable {n : ℕ}

/-- The iteration over the Hessian works at every node of the computation (see `C46_full_iff`). -/
def NodesIter : List Node2 → List (UReal2 ℝ) → Prop
  | [], _ => True
  | .const c :: t, acc => NodesIter t (acc ++ [UReal2.const c])
  | .un g F a :: t, acc =>
    (∀ d dd, Derivs1 F (acc.getD a (UReal2.const 0)).mu d dd → IterOk (acc.getD a (UReal2.const 0)) dd) ∧
      ∀ z, g (acc.getD a (UReal2.const 0)) = some z → NodesIter t (acc ++ [z])
  | .bin g F a b :: t, acc =>
    (∀ dx dy dxx dyy dxy,
      Derivs2 F (acc.getD a (UReal2.const 0)).mu (acc.getD b (UReal2.const 0)).mu dx dy dxx dyy dxy →
        IterOk (acc.getD a (UReal2.const 0)) dxx ∧ IterOk (acc.getD b (UReal2.const 0)) dyy) ∧
      ∀ z, g (acc.getD a (UReal2.const 0)) (acc.getD b (UReal2.const 0)) = some z → NodesIter t (acc ++ [z])

/-- the computation on functions -/
def evalG2 : List Node2 → List ((Fin n → ℝ) → ℝ) → List ((Fin n → ℝ) → ℝ)
  | [], acc => acc
  | .const c :: t, acc => evalG2 t (acc ++ [fun _ : Fin n → ℝ => c])
  | .un _ F a :: t, acc => evalG2 t (acc ++ [fun v => F (acc.getD a (fun _ => 0) v)])
  | .bin _ F a b :: t, acc => evalG2 t (acc ++ [fun v => F (acc.getD a (fun _ => 0) v) (acc.getD b (fun _ => 0) v)])

theorem getD_map2 (acc : List ((Fin n → ℝ) → ℝ)) (v : Fin n → ℝ) (a : ℕ) :
    (acc.map (fun f => f v)).getD a 0 = acc.getD a (fun _ => 0) v := by
  rw [List.getD_eq_getElem?_getD, List.getElem?_map, List.getD_eq_getElem?_getD]
  cases acc[a]? <;> rfl

theorem evalR2_map (p : List Node2) (acc : List ((Fin n → ℝ) → ℝ)) (v : Fin n → ℝ) :
    evalR2 p (acc.map (fun f => f v)) = (evalG2 p acc).map (fun f => f v) := by
  induction p generalizing acc with
  | nil => rfl
  | cons nd t ih =>
    cases nd with
    | const c => simp only [evalR2, evalG2, ← ih]; simp
    | un g F a => simp only [evalR2, evalG2, ← ih, getD_map2]; simp
    | bin g F a b => simp only [evalR2, evalG2, ← ih, getD_map2]; simp

/-- the invariant relating a real function and a value -/
structure Rel2 (ids : Fin n → VId) (F : (Fin n → ℝ) → ℝ) (x : UReal2 ℝ) : Prop where
  ok : Ok2 x
  exp : Expands ids F x

theorem Rel2.mean {ids : Fin n → VId} {F : (Fin n → ℝ) → ℝ} {x : UReal2 ℝ} (h : Rel2 ids F x) : x.mu = F 0 := by
  have := (isLittleO_iff.1 h.exp one_pos).self_of_nhds
  simp at this
  linarith [sub_eq_zero.1 this]

theorem ok_const (c : ℝ) : Ok2 (UReal2.const c) :=
  ⟨⟨by simp [UReal2.const, HessGrad.empty], by simp [UReal2.const, HessGrad.empty],
    by simp [UReal2.const, HessGrad.empty]⟩, by intro k hk; simp [UReal2.const, HessGrad.empty] at hk⟩

theorem Rel2.const (ids : Fin n → VId) (c : ℝ) : Rel2 ids (fun _ => c) (UReal2.const c) := by
  refine ⟨ok_const c, ?_⟩
  unfold Expands
  have e : (fun z : Fin n → ℝ => c - ((UReal2.const c).mu + ∑ i, (UReal2.const c).hg.G (ids i) * z i +
      ∑ i, ∑ j, (UReal2.const c).hg.H (ids i) (ids j) * z i * z j)) = fun _ => 0 := by
    funext z
    simp [UReal2.const, HessGrad.empty, HessGrad.G, HessGrad.H, SMap.find?, SMap.get]
  rw [e]
  exact isLittleO_zero _ _

theorem G_elem2 (i j : VId) (mu s : ℝ) (m : Moments ℝ) : (elem2 i mu s m).hg.G j = if i = j then s else 0 := by
  simp only [elem2, HessGrad.G, SMap.find?]
  by_cases h : i = j <;> simp [h]

theorem H_elem2 (i j k : VId) (mu s : ℝ) (m : Moments ℝ) : (elem2 i mu s m).hg.H j k = 0 := by
  unfold HessGrad.H elem2
  split_ifs with h
  · simp only [SMap.find?]
    by_cases h' : i = j <;> simp [h']
  · simp [SMap.get, SMap.find?]

theorem ok_elem2 {i : VId} (hi : i < maxId) (mu s : ℝ) (m : Moments ℝ) : Ok2 (elem2 i mu s m) :=
  ⟨⟨by simp [elem2, SMap.Sorted], by simp [elem2], by simp [elem2]⟩, by
    intro k hk; simp [elem2] at hk; subst hk; exact hi⟩

theorem Rel2.elem {ids : Fin n → VId} {i : VId} (hlt : i < maxId) (mu s : ℝ) (m : Moments ℝ) :
    Rel2 ids (fun z => mu + s * ∑ k, if i = ids k then z k else 0) (elem2 i mu s m) := by
  refine ⟨ok_elem2 hlt _ _ _, ?_⟩
  unfold Expands
  have e : (fun z : Fin n → ℝ => (mu + s * ∑ k, if i = ids k then z k else 0) - ((elem2 i mu s m).mu + ∑ k, (elem2 i mu s m).hg.G (ids k) * z k +
      ∑ k, ∑ j, (elem2 i mu s m).hg.H (ids k) (ids j) * z k * z j)) = fun _ => 0 := by
    funext z
    have hmu : (elem2 i mu s m).mu = mu := rfl
    simp only [G_elem2, H_elem2, zero_mul, Finset.sum_const_zero, add_zero, hmu, Finset.mul_sum]
    rw [sub_eq_zero]
    refine congrArg (mu + ·) (Finset.sum_congr rfl fun k _ => ?_)
    split_ifs <;> ring
  rw [e]
  exact isLittleO_zero _ _

theorem Rel2.un {ids : Fin n → VId} {F : (Fin n → ℝ) → ℝ} {x : UReal2 ℝ} (h : Rel2 ids F x) {f : ℝ → ℝ} {d dd : ℝ}
    (hf : Derivs1 f x.mu d dd) {z : UReal2 ℝ} (hz : Ok2 z) (hm : z.mu = f x.mu) (hG : ∀ i, z.hg.G i = d * x.hg.G i)
    (hD : ∀ i j, D2 z (ids i) (ids j) = dd * x.hg.G (ids i) * x.hg.G (ids j) + d * D2 x (ids i) (ids j)) :
    Rel2 ids (fun v => f (F v)) z := by
  refine ⟨hz, ?_⟩
  have hj := (Expands.jet h.exp).comp1 (Derivs1.taylor hf)
  refine (hj.congr (c' := z.mu) (L' := fun v => ∑ i, z.hg.G (ids i) * v i)
    (Q' := fun v => ∑ i, ∑ j, z.hg.H (ids i) (ids j) * v i * v j) hm.symm (fun v => ?_) (fun v => ?_)).exp
  · rw [Finset.mul_sum]
    exact Finset.sum_congr rfl fun i _ => by rw [hG]; ring
  · rw [sum_sq, Finset.mul_sum, Finset.mul_sum, ← Finset.sum_add_distrib]
    refine Finset.sum_congr rfl fun i _ => ?_
    rw [Finset.mul_sum, Finset.mul_sum, ← Finset.sum_add_distrib]
    refine Finset.sum_congr rfl fun j _ => ?_
    have := hD i j
    unfold D2 at this
    have e : z.hg.H (ids i) (ids j) = dd / 2 * x.hg.G (ids i) * x.hg.G (ids j) + d * x.hg.H (ids i) (ids j) := by linarith
    rw [e]; ring

theorem Rel2.bin {ids : Fin n → VId} {F F' : (Fin n → ℝ) → ℝ} {x y : UReal2 ℝ} (h : Rel2 ids F x) (h' : Rel2 ids F' y)
    {f : ℝ → ℝ → ℝ} {dx dy dxx dyy dxy : ℝ} (hf : Derivs2 f x.mu y.mu dx dy dxx dyy dxy) {z : UReal2 ℝ} (hz : Ok2 z)
    (hm : z.mu = f x.mu y.mu) (hG : ∀ i, z.hg.G i = dx * x.hg.G i + dy * y.hg.G i)
    (hD : ∀ i j, D2 z (ids i) (ids j) = dxx * x.hg.G (ids i) * x.hg.G (ids j) + dyy * y.hg.G (ids i) * y.hg.G (ids j) +
      dxy * (x.hg.G (ids i) * y.hg.G (ids j) + x.hg.G (ids j) * y.hg.G (ids i)) + dx * D2 x (ids i) (ids j) + dy * D2 y (ids i) (ids j)) :
    Rel2 ids (fun v => f (F v) (F' v)) z := by
  refine ⟨hz, ?_⟩
  have hj := (Expands.jet h.exp).comp2 (Expands.jet h'.exp) (Derivs2.taylor hf)
  refine (hj.congr (c' := z.mu) (L' := fun v => ∑ i, z.hg.G (ids i) * v i)
    (Q' := fun v => ∑ i, ∑ j, z.hg.H (ids i) (ids j) * v i * v j) hm.symm (fun v => ?_) (fun v => ?_)).exp
  · rw [Finset.mul_sum, Finset.mul_sum, ← Finset.sum_add_distrib]
    exact Finset.sum_congr rfl fun i _ => by rw [hG]; ring
  · have hsym : (∑ i, x.hg.G (ids i) * v i) * (∑ i, y.hg.G (ids i) * v i) =
        ∑ i, ∑ j, 1 / 2 * (x.hg.G (ids i) * y.hg.G (ids j) + x.hg.G (ids j) * y.hg.G (ids i)) * v i * v j := by
      have h1 := sum_sq (fun i => x.hg.G (ids i)) (fun i => y.hg.G (ids i)) v
      have h2 := sum_sq (fun i => y.hg.G (ids i)) (fun i => x.hg.G (ids i)) v
      have : (∑ i, x.hg.G (ids i) * v i) * (∑ i, y.hg.G (ids i) * v i) =
          1 / 2 * ((∑ i, x.hg.G (ids i) * v i) * (∑ i, y.hg.G (ids i) * v i)) + 1 / 2 * ((∑ i, y.hg.G (ids i) * v i) * (∑ i, x.hg.G (ids i) * v i)) := by
        ring
      rw [this, h1, h2, Finset.mul_sum, Finset.mul_sum, ← Finset.sum_add_distrib]
      refine Finset.sum_congr rfl fun i _ => ?_
      rw [Finset.mul_sum, Finset.mul_sum, ← Finset.sum_add_distrib]
      exact Finset.sum_congr rfl fun j _ => by ring
    rw [sum_sq, sum_sq, hsym]
    simp only [Finset.mul_sum, ← Finset.sum_add_distrib]
    refine Finset.sum_congr rfl fun i _ => Finset.sum_congr rfl fun j _ => ?_
    have := hD i j
    unfold D2 at this
    have e : z.hg.H (ids i) (ids j) = dxx / 2 * x.hg.G (ids i) * x.hg.G (ids j) + dyy / 2 * y.hg.G (ids i) * y.hg.G (ids j) +
      dxy / 2 * (x.hg.G (ids i) * y.hg.G (ids j) + x.hg.G (ids j) * y.hg.G (ids i)) + dx * x.hg.H (ids i) (ids j) + dy * y.hg.H (ids i) (ids j) := by
      linarith
    rw [e]; ring

theorem evalU2_rel (ids : Fin n → VId) (p : List Node2) (accG : List ((Fin n → ℝ) → ℝ)) (accU : List (UReal2 ℝ))
    (h : List.Forall₂ (Rel2 ids) accG accU) (hp : NodesRight2 p (accG.map (fun f => f 0))) (hi : n ≤ 1 ∨ NodesIter p accU) :
    ∃ out, evalU2 p accU = some out ∧ List.Forall₂ (Rel2 ids) (evalG2 p accG) out ∧ out.length = accU.length + p.length := by
  induction p generalizing accG accU with
  | nil => exact ⟨accU, rfl, h, by simp⟩
  | cons nd t ih =>
    have hget : ∀ a, Rel2 ids (accG.getD a fun _ => 0) (accU.getD a (UReal2.const 0)) := by
      intro a
      rw [List.getD_eq_getElem?_getD, List.getD_eq_getElem?_getD]
      by_cases ha : a < accG.length
      · have ha' : a < accU.length := h.length_eq ▸ ha
        rw [List.getElem?_eq_getElem ha, List.getElem?_eq_getElem ha']
        exact h.get ha ha'
      · rw [List.getElem?_eq_none (not_lt.1 ha), List.getElem?_eq_none (h.length_eq ▸ not_lt.1 ha)]
        exact Rel2.const ids 0
    have happ : ∀ {G u}, Rel2 ids G u → List.Forall₂ (Rel2 ids) (accG ++ [G]) (accU ++ [u]) := fun hr =>
      List.rel_append (R := Rel2 ids) h (List.Forall₂.cons hr .nil)
    have heq : n ≤ 1 → ∀ i j : Fin n, i = j := fun h i j => Fin.ext (by omega)
    cases nd with
    | const c =>
      obtain ⟨out, e, hr, hl⟩ := ih _ _ (happ (Rel2.const ids c)) (by simpa [NodesRight2] using hp) (by simpa [NodesIter] using hi)
      exact ⟨out, e, hr, by simp at hl ⊢; omega⟩
    | un g F a =>
      obtain ⟨-, hpass, ht⟩ := hp
      rw [getD_map2] at hpass ht
      have hx := hget a
      obtain ⟨d, dd, hd, hg⟩ := C35_result1 hpass
      rw [← hx.mean] at hd hg
      obtain ⟨z, ez, okz, mz, Gz, -, -, diag, ch⟩ := hg _ hx.ok rfl
      have hr : Rel2 ids (fun v => F (accG.getD a (fun _ => 0) v)) z := by
        refine hx.un hd okz mz Gz fun i j => ?_
        rcases hi with hi | hi
        · obtain rfl := heq hi i j
          rw [diag]; ring
        · exact ch (hi.1 _ _ hd) _ _
      obtain ⟨out, e, hr, hl⟩ := ih _ _ (happ hr) (by simpa using ht) (hi.imp_right fun hi => hi.2 z ez)
      exact ⟨out, by simp only [evalU2, ez]; exact e, hr, by simp at hl ⊢; omega⟩
    | bin g F a b =>
      obtain ⟨-, -, hpass, ht⟩ := hp
      rw [getD_map2, getD_map2] at hpass ht
      have hx := hget a
      have hy := hget b
      obtain ⟨dx, dy, dxx, dyy, dxy, hd, hg⟩ := C35_result2 hpass
      rw [← hx.mean, ← hy.mean] at hd hg
      obtain ⟨z, ez, okz, mz, Gz, -, -, diag, ch⟩ := hg _ _ hx.ok hy.ok rfl rfl
      have hr : Rel2 ids (fun v => F (accG.getD a (fun _ => 0) v) (accG.getD b (fun _ => 0) v)) z := by
        refine hx.bin hy hd okz mz Gz fun i j => ?_
        rcases hi with hi | hi
        · obtain rfl := heq hi i j
          rw [diag]; ring
        · obtain ⟨k1, k2⟩ := hi.1 _ _ _ _ _ hd
          exact ch k1 k2 _ _
      obtain ⟨out, e, hr, hl⟩ := ih _ _ (happ hr) (by simpa using ht) (hi.imp_right fun hi => hi.2 z ez)
      exact ⟨out, by simp only [evalU2, ez]; exact e, hr, by simp at hl ⊢; omega⟩

/-! ## the theorems -/

variable {ids : Fin n → VId} {mu s : Fin n → ℝ} {mom : Fin n → Moments ℝ} {p : List Node2}

/-- the elementary variables -/
def elems2 (ids : Fin n → VId) (mu s : Fin n → ℝ) (mom : Fin n → Moments ℝ) : List (UReal2 ℝ) :=
  List.ofFn fun i => elem2 (ids i) (mu i) (s i) (mom i)

theorem fn2_eq (p : List Node2) (mu s : Fin n → ℝ) (k : ℕ) {m : ℕ} (e : (Fin m → ℝ) → Fin n → ℝ) (z : Fin m → ℝ) :
    fn2 p mu s k (e z) = (evalG2 p (List.ofFn fun i z => mu i + s i * e z i)).getD k (fun _ => 0) z := by
  unfold fn2
  have : (List.ofFn fun i => mu i + s i * e z i) =
      (List.ofFn fun i (z : Fin m → ℝ) => mu i + s i * e z i).map (fun f => f z) := by
    rw [List.map_ofFn]; rfl
  rw [this, evalR2_map, getD_map2]

theorem rel_get {m : ℕ} {ids : Fin m → VId} {l : List ((Fin m → ℝ) → ℝ)} {out : List (UReal2 ℝ)}
    (h : List.Forall₂ (Rel2 ids) l out) (k : ℕ) : Rel2 ids (l.getD k fun _ => 0) (out.getD k (UReal2.const 0)) := by
  rw [List.getD_eq_getElem?_getD, List.getD_eq_getElem?_getD]
  by_cases ha : k < l.length
  · have ha' : k < out.length := h.length_eq ▸ ha
    rw [List.getElem?_eq_getElem ha, List.getElem?_eq_getElem ha']
    exact h.get ha ha'
  · rw [List.getElem?_eq_none (not_lt.1 ha), List.getElem?_eq_none (h.length_eq ▸ not_lt.1 ha)]
    exact Rel2.const ids 0

theorem rel_elems {m : ℕ} {ids' : Fin m → VId} (hlt : ∀ i, ids i < maxId) (mu s : Fin n → ℝ) (mom : Fin n → Moments ℝ)
    (e : (Fin m → ℝ) → Fin n → ℝ) (he : ∀ z i, e z i = ∑ k, if ids i = ids' k then z k else 0) :
    List.Forall₂ (Rel2 ids') (List.ofFn fun i z => mu i + s i * e z i) (elems2 ids mu s mom) := by
  rw [elems2, List.forall₂_iff_get]
  refine ⟨by simp, fun i h1 h2 => ?_⟩
  simp only [List.get_ofFn]
  have := Rel2.elem (ids := ids') (i := ids ⟨i, by simpa using h1⟩) (hlt _) (mu ⟨i, by simpa using h1⟩) (s ⟨i, by simpa using h1⟩)
    (mom ⟨i, by simpa using h1⟩)
  simpa [he] using this

/-- **C36** The full statement: every intermediate result of a computation in which every node passes its true derivatives
carries the second-order Taylor expansion of the function of the elementary variables it stands for.  It is false, see
`C36_false`. -/
def C36_statement : Prop :=
  ∀ (n : ℕ) (ids : Fin n → VId) (mu s : Fin n → ℝ) (mom : Fin n → Moments ℝ) (p : List Node2),
    Function.Injective ids → (∀ i, ids i < maxId) → NodesRight2 p (List.ofFn mu) →
    ∃ out, evalU2 p (elems2 ids mu s mom) = some out ∧ out.length = n + p.length ∧
      ∀ k, Expands ids (fn2 p mu s k) (out.getD k (UReal2.const 0))

/-- **C36** (partial) The Taylor expansion is right if there is only one variable, or the iteration over the Hessian works at every node.  Missing: the other
computations, for which it is false in general. -/
theorem C36_taylor_partial (hinj : Function.Injective ids) (hlt : ∀ i, ids i < maxId) (hp : NodesRight2 p (List.ofFn mu))
    (hi : n ≤ 1 ∨ NodesIter p (elems2 ids mu s mom)) :
    ∃ out, evalU2 p (elems2 ids mu s mom) = some out ∧ out.length = n + p.length ∧
      ∀ k, Expands ids (fn2 p mu s k) (out.getD k (UReal2.const 0)) := by
  have he : ∀ (z : Fin n → ℝ) i, (_root_.id z : Fin n → ℝ) i = ∑ k, if ids i = ids k then z k else 0 := by
    intro z i
    rw [Finset.sum_eq_single i] <;> simp
    intro b hb h; exact absurd (hinj h).symm hb
  obtain ⟨out, e, hr, hl⟩ := evalU2_rel ids p _ _ (rel_elems (ids' := ids) hlt mu s mom (fun z => _root_.id z) he)
    (by simpa [List.map_ofFn, Function.comp_def] using hp) hi
  refine ⟨out, e, by simpa [elems2] using hl, fun k => ?_⟩
  have h1 := (rel_get hr k).exp
  have h2 : fn2 p mu s k = (evalG2 p (List.ofFn fun i z => mu i + s i * _root_.id z i)).getD k (fun _ => 0) := by
    funext z; exact fn2_eq p mu s k (fun z => _root_.id z) z
  rwa [← h2] at h1

/-- **C36** For all computations: along each variable, with the others at their means, the expansion is right to second order.
-/
theorem C36_axis (hinj : Function.Injective ids) (hlt : ∀ i, ids i < maxId) (hp : NodesRight2 p (List.ofFn mu)) :
    ∃ out, evalU2 p (elems2 ids mu s mom) = some out ∧ out.length = n + p.length ∧
      ∀ k i, let x := out.getD k (UReal2.const 0)
        (fun t => fn2 p mu s k (Pi.single i t) - (x.mu + x.hg.G (ids i) * t + x.hg.H (ids i) (ids i) * t ^ 2)) =o[𝓝 0] fun t : ℝ => t ^ 2 := by
  have key : ∀ i0 : Fin n, ∃ out, evalU2 p (elems2 ids mu s mom) = some out ∧ out.length = n + p.length ∧
      ∀ k, let x := out.getD k (UReal2.const 0)
        (fun t => fn2 p mu s k (Pi.single i0 t) - (x.mu + x.hg.G (ids i0) * t + x.hg.H (ids i0) (ids i0) * t ^ 2)) =o[𝓝 0] fun t : ℝ => t ^ 2 := by
    intro i0
    have he : ∀ (z : Fin 1 → ℝ) i, (Pi.single i0 (z 0) : Fin n → ℝ) i = ∑ k : Fin 1, if ids i = (fun _ => ids i0) k then z k else 0 := by
      intro z i
      by_cases h : i = i0
      · subst h; simp
      · rw [Pi.single_eq_of_ne h]
        have : ids i ≠ ids i0 := fun h' => h (hinj h')
        simp [this]
    obtain ⟨out, e, hr, hl⟩ := evalU2_rel (fun _ : Fin 1 => ids i0) p _ _
      (rel_elems hlt mu s mom (fun z => (Pi.single i0 (z 0) : Fin n → ℝ)) he)
      (by simpa [List.map_ofFn, Function.comp_def] using hp) (Or.inl le_rfl)
    refine ⟨out, e, by simpa [elems2] using hl, fun k => ?_⟩
    have h1 : (fun z : Fin 1 → ℝ => _) =o[𝓝 0] _ := (rel_get hr k).exp
    have ht : Tendsto (fun t : ℝ => (fun _ : Fin 1 => t)) (𝓝 0) (𝓝 0) := by
      have : Continuous (fun t : ℝ => (fun _ : Fin 1 => t)) := by fun_prop
      exact this.tendsto 0
    have h2 := h1.comp_tendsto ht
    refine (h2.congr_left fun t => ?_).congr_right fun t => ?_
    · simp only [Function.comp_apply]
      rw [← fn2_eq p mu s k (fun z : Fin 1 → ℝ => (Pi.single i0 (z 0) : Fin n → ℝ))]
      simp
      ring
    · simp
  by_cases hn : Nonempty (Fin n)
  · obtain ⟨i0⟩ := hn
    obtain ⟨out, e, hl, -⟩ := key i0
    refine ⟨out, e, hl, fun k i => ?_⟩
    obtain ⟨out', e', -, h'⟩ := key i
    rw [e] at e'
    cases e'
    exact h' k
  · have hem : ∀ i : Fin n, False := fun i => hn ⟨i⟩
    obtain ⟨out, e, hr, hl⟩ := evalU2_rel ids p _ _ (rel_elems (ids' := ids) hlt mu s mom (fun z => _root_.id z) (fun z i => (hem i).elim))
      (by simpa [List.map_ofFn, Function.comp_def] using hp) (Or.inl (by
        by_contra h
        exact hn ⟨⟨0, by omega⟩⟩))
    exact ⟨out, e, by simpa [elems2] using hl, fun k i => (hem i).elim⟩

/-- the operators without division -/
inductive PolyNode : Node2 → Prop where
  | const (c : ℝ) : PolyNode (.const c)
  | neg (u : Moments ℝ) (a : ℕ) : PolyNode (.un (UReal2.neg u) (fun t => -t) a)
  | add (u : Moments ℝ) (a b : ℕ) : PolyNode (.bin (UReal2.add u) (fun s t => s + t) a b)
  | sub (u : Moments ℝ) (a b : ℕ) : PolyNode (.bin (UReal2.sub u) (fun s t => s - t) a b)
  | mul (u : Moments ℝ) (a b : ℕ) : PolyNode (.bin (UReal2.mul u) (fun s t => s * t) a b)

/-- the arguments of every node are positions of earlier results, `m` of which exist at the start -/
def InRange : List Node2 → ℕ → Prop
  | [], _ => True
  | .const _ :: t, m => InRange t (m + 1)
  | .un _ _ a :: t, m => a < m ∧ InRange t (m + 1)
  | .bin _ _ a b :: t, m => a < m ∧ b < m ∧ InRange t (m + 1)

theorem poly_right (p : List Node2) (hp : ∀ nd ∈ p, PolyNode nd) (acc : List ℝ) (hr : InRange p acc.length) : NodesRight2 p acc := by
  induction p generalizing acc with
  | nil => trivial
  | cons nd t ih =>
    have ht : ∀ nd ∈ t, PolyNode nd := fun nd h => hp nd (List.mem_cons_of_mem _ h)
    cases hp nd (List.mem_cons_self ..) with
    | const c => exact ih ht _ (by simpa [InRange] using hr)
    | neg u a => exact ⟨hr.1, C35_neg u _, ih ht _ (by simpa using hr.2)⟩
    | add u a b => exact ⟨hr.1, hr.2.1, C35_add u _ _, ih ht _ (by simpa using hr.2.2)⟩
    | sub u a b => exact ⟨hr.1, hr.2.1, C35_sub u _ _, ih ht _ (by simpa using hr.2.2)⟩
    | mul u a b => exact ⟨hr.1, hr.2.1, C35_mul u _ _, ih ht _ (by simpa using hr.2.2)⟩

theorem derivs_affine (a b c d e : ℝ) : Derivs2 (fun s t => c * s + d * t + e * (s * t)) a b (c + e * b) (d + e * a) 0 0 e := by
  refine ⟨fun p => c + e * p.2, fun p => d + e * p.1, Eventually.of_forall fun p => ?_, ?_, ?_, rfl, rfl⟩
  · refine (((hf1 p).const_mul c).add ((hf2 p).const_mul d) |>.add (((hf1 p).mul (hf2 p)).const_mul e)).congr_fderiv ?_
    ext <;> simp [lin]
  · exact (((hf2 (a, b)).const_mul e).const_add c).congr_fderiv (by ext <;> simp [lin])
  · exact (((hf1 (a, b)).const_mul e).const_add d).congr_fderiv (by ext <;> simp [lin])

theorem poly_iter (p : List Node2) (hp : ∀ nd ∈ p, PolyNode nd) (acc : List (UReal2 ℝ)) : NodesIter p acc := by
  induction p generalizing acc with
  | nil => trivial
  | cons nd t ih =>
    have ht : ∀ nd ∈ t, PolyNode nd := fun nd h => hp nd (List.mem_cons_of_mem _ h)
    have two : ∀ {F : ℝ → ℝ → ℝ} (c d e : ℝ), (∀ s t, F s t = c * s + d * t + e * (s * t)) → ∀ (x y : UReal2 ℝ) dx dy dxx dyy dxy,
        Derivs2 F x.mu y.mu dx dy dxx dyy dxy → IterOk x dxx ∧ IterOk y dyy := by
      intro F c d e hF x y dx dy dxx dyy dxy h
      have : F = fun s t => c * s + d * t + e * (s * t) := by funext s t; exact hF s t
      rw [this] at h
      obtain ⟨-, -, h1, h2, -⟩ := Derivs2.unique h (derivs_affine x.mu y.mu c d e)
      exact ⟨Or.inl h1, Or.inl h2⟩
    cases hp nd (List.mem_cons_self ..) with
    | const c => exact ih ht _
    | neg u a =>
      refine ⟨fun d dd h => Or.inl ?_, fun z _ => ih ht _⟩
      exact (Derivs1.unique h ⟨fun _ => -1, Eventually.of_forall fun t => hasDerivAt_neg t, hasDerivAt_const _ _, rfl⟩).2
    | add u a b => exact ⟨two 1 1 0 (fun s t => by ring) _ _, fun z _ => ih ht _⟩
    | sub u a b => exact ⟨two 1 (-1) 0 (fun s t => by ring) _ _, fun z _ => ih ht _⟩
    | mul u a b => exact ⟨two 0 0 1 (fun s t => by ring) _ _, fun z _ => ih ht _⟩

/-- **C36** Computations with `+`, `-`, `*` and constants carry the right second-order expansion, for all variables, any sharing
of intermediate results and any uninitialised memory. -/
theorem C36_polynomial (hinj : Function.Injective ids) (hlt : ∀ i, ids i < maxId) (hp : ∀ nd ∈ p, PolyNode nd) (hr : InRange p n) :
    ∃ out, evalU2 p (elems2 ids mu s mom) = some out ∧ out.length = n + p.length ∧
      ∀ k, Expands ids (fn2 p mu s k) (out.getD k (UReal2.const 0)) :=
  C36_taylor_partial hinj hlt (poly_right p hp _ (by simpa using hr)) (Or.inr (poly_iter p hp _))

/-- `x * y + x` -/
noncomputable def exPoly : List Node2 := [.bin (UReal2.mul exN) (fun s t => s * t) 0 1, .bin (UReal2.add exN) (fun s t => s + t) 2 0]

theorem exPoly_poly : ∀ nd ∈ exPoly, PolyNode nd := by
  intro nd h
  simp only [exPoly, List.mem_cons, List.not_mem_nil, or_false] at h
  rcases h with rfl | rfl
  · exact .mul _ _ _
  · exact .add _ _ _

example : ∃ out, evalU2 exPoly (elems2 ![1, 2] ![3, 4] ![1, 2] fun _ => exN) = some out ∧ out.length = 4 ∧
    ∀ k, Expands ![1, 2] (fn2 exPoly ![3, 4] ![1, 2] k) (out.getD k (UReal2.const 0)) :=
  C36_polynomial (by decide) (by decide) exPoly_poly (by simp [exPoly, InRange])

/-- `exp(x) * y`: not a polynomial, and the iteration works -/
noncomputable def exTrans : List Node2 := [.un (UMath2.exp exN) Real.exp 0, .bin (UReal2.mul exN) (fun s t => s * t) 2 1]

example : ∃ out, evalU2 exTrans (elems2 ![1, 2] ![3, 4] ![1, 2] fun _ => exN) = some out ∧ out.length = 4 ∧
    ∀ k, Expands ![1, 2] (fn2 exTrans ![3, 4] ![1, 2] k) (out.getD k (UReal2.const 0)) := by
  refine C36_taylor_partial (by decide) (by decide) ⟨by simp, C35_exp _ _, by simp, by simp, C35_mul _ _ _, trivial⟩ ?_
  refine Or.inr ⟨fun d dd _ => Or.inr (Or.inl (by simp [elems2, elem2, HessGrad.size])), fun z _ => ⟨fun _ _ _ _ _ h => ?_, fun _ _ => trivial⟩⟩
  have e : (fun s t : ℝ => s * t) = fun s t => 0 * s + 0 * t + 1 * (s * t) := by funext s t; ring
  rw [e] at h
  obtain ⟨-, -, h1, h2, -⟩ := Derivs2.unique h (derivs_affine _ _ 0 0 1)
  exact ⟨Or.inl h1, Or.inl h2⟩

/-- along the axes also for `exp(x + y)` -/
example : ∃ out, evalU2 [.bin (UReal2.add exN) (fun s t => s + t) 0 1, .un (UMath2.exp exN) Real.exp 2] (elems2 ![1, 2] ![3, 4] ![1, 2] fun _ => exN) = some out ∧
    out.length = 4 := by
  obtain ⟨out, e, l, -⟩ := C36_axis (mu := ![3, 4]) (s := ![1, 2]) (mom := fun _ => exN) (ids := ![1, 2])
    (p := [.bin (UReal2.add exN) (fun s t => s + t) 0 1, .un (UMath2.exp exN) Real.exp 2]) (by decide) (by decide)
    ⟨by simp, by simp, C35_add _ _ _, by simp, C35_exp _ _, trivial⟩
  exact ⟨out, e, l⟩

end

/-! ## the full statement is false -/

/-- `exp(x + y)` -/
noncomputable def exExpSum : List Node2 := [.bin (UReal2.add exN) (fun s t => s + t) 0 1, .un (UMath2.exp exN) Real.exp 2]

/-- **C36** is false: `exp(x + y)`, with `x` and `y` elementary, does not have the mixed term. -/
theorem C36_false : ¬ C36_statement := by
  intro h
  obtain ⟨out, e, -, hk⟩ := h 2 ![1, 2] 0 1 (fun _ => exN) exExpSum (by decide) (by decide) (by
    refine ⟨by simp, by simp, C35_add _ _ _, by simp, C35_exp _ _, trivial⟩)
  have hexp := hk 3
  obtain ⟨S, eS, okS⟩ := C21_binary (ok_elem2 (i := 1) (by decide) 0 1 exN) (ok_elem2 (i := 2) (by decide) 0 1 exN) (0 + 0 : ℝ) 1 1 0 0 0
  have hS : UReal2.add exN (elem2 1 0 1 exN) (elem2 2 0 1 exN) = some S := eS exN
  obtain ⟨mS, GS, dS⟩ := C23_add (ok_elem2 (i := 1) (by decide) 0 1 exN) (ok_elem2 (i := 2) (by decide) 0 1 exN) hS
  have mS' : S.mu = 0 := by rw [mS]; simp [elem2]
  obtain ⟨d, dd, hd, hg⟩ := C35_result1 (C35_exp exN 0)
  obtain ⟨rfl, rfl⟩ := Derivs1.unique hd ⟨Real.exp, Eventually.of_forall Real.hasDerivAt_exp, Real.hasDerivAt_exp 0, rfl⟩
  obtain ⟨z, ez, -, mz, Gz, -, -, diag, -⟩ := hg S okS mS'
  have hmix : D2 z 1 2 = 0 := by
    have ez' : UReal2.unary exN S (Real.exp S.mu) (Real.exp S.mu) (Real.exp S.mu) = some z := ez
    rw [mS', Real.exp_zero] at ez'
    exact (C23_function_of_sum (i := 1) (j := 2) (by decide) (by decide) _ _ 0 0 1 1 1 one_ne_zero hS ez').1
  have hout : out.getD 3 (UReal2.const 0) = z := by
    have : evalU2 exExpSum (elems2 ![1, 2] 0 1 fun _ => exN) = some [elem2 1 0 1 exN, elem2 2 0 1 exN, S, z] := by
      simp [exExpSum, evalU2, elems2, hS, ez]
    rw [this] at e
    cases e
    rfl
  rw [hout] at hexp
  have hF : ∀ w : Fin 2 → ℝ, fn2 exExpSum 0 1 3 w = Real.exp (w 0 + w 1) := by
    intro w
    simp [fn2, exExpSum, evalR2]
  have g1 : z.hg.G 1 = 1 := by rw [Gz, GS, G_elem2, G_elem2]; simp
  have g2 : z.hg.G 2 = 1 := by rw [Gz, GS, G_elem2, G_elem2]; simp
  have hD : ∀ i j, D2 S i j = 0 := by intro i j; rw [dS]; simp [D2, H_elem2]
  have d1 : z.hg.H 1 1 = 1 / 2 := by
    have := diag 1
    rw [GS, G_elem2, G_elem2, hD] at this
    simp [D2] at this; linarith
  have d2 : z.hg.H 2 2 = 1 / 2 := by
    have := diag 2
    rw [GS, G_elem2, G_elem2, hD] at this
    simp [D2] at this; linarith
  have d12 : z.hg.H 1 2 = 0 := by simpa [D2] using hmix
  have d21 : z.hg.H 2 1 = 0 := by rw [H_comm]; exact d12
  unfold Expands at hexp
  have ht : Tendsto (fun t : ℝ => (fun _ : Fin 2 => t)) (𝓝 0) (𝓝 0) := by
    have : Continuous (fun t : ℝ => (fun _ : Fin 2 => t)) := by fun_prop
    exact this.tendsto 0
  have h1 : (fun t : ℝ => Real.exp (2 * t) - (1 + 2 * t + t ^ 2)) =o[𝓝 0] fun t : ℝ => t ^ 2 := by
    refine ((hexp.comp_tendsto ht).congr_left fun t => ?_).congr_right fun t => ?_
    · simp [hF, Fin.sum_univ_two, g1, g2, d1, d2, d12, d21, mz]
      ring_nf
    · simp
  have h2 : (fun t : ℝ => Real.exp (2 * t) - (1 + 2 * t + 2 * t ^ 2)) =o[𝓝 0] fun t : ℝ => t ^ 2 := by
    have hd : Derivs1 (fun t => Real.exp (2 * t)) 0 2 4 := by
      have k : ∀ t : ℝ, HasDerivAt (fun t => Real.exp (2 * t)) (2 * Real.exp (2 * t)) t := fun t => by
        simpa [mul_comm] using ((hasDerivAt_id t).const_mul 2).exp
      refine ⟨fun t => 2 * Real.exp (2 * t), Eventually.of_forall k, ((k 0).const_mul 2).congr_deriv (by norm_num), by norm_num⟩
    refine ((Derivs1.taylor hd).congr_left fun t => ?_).congr_right fun t => by simp
    simp only [zero_add, mul_zero, Real.exp_zero]
    ring
  have h3 : (fun t : ℝ => t ^ 2) =o[𝓝 0] fun t : ℝ => t ^ 2 := (h1.sub h2).congr_left fun t => by ring
  have h4 := (isLittleO_iff.1 h3) (show (0 : ℝ) < 1 / 2 by norm_num)
  obtain ⟨r, hr, hb⟩ := Metric.eventually_nhds_iff.1 h4
  have := hb (y := r / 2) (by simp [abs_of_pos hr]; linarith)
  have hpos : 0 < ‖(r / 2) ^ 2‖ := norm_pos_iff.2 (by positivity)
  linarith

end Unc.Props
