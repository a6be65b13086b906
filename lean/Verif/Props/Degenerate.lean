import Verif.Spec.Degenerate
import Verif.Props.Order

/-!
# Variables with zero uncertainty: C57

A variable created with zero uncertainty still gets an identifier and is stored in the maps of every value computed from it.  It should behave as the plain
number.
-/

namespace Unc.Props
open Unc Unc.Spec SMap HessGrad Filter Topology Asymptotics

/-! ## first order -/

theorem rel_consts1 {n : ℕ} {ids : Fin n → ℤ} (hinj : Function.Injective ids) (hpos : ∀ i, 0 < ids i) (hlt : ∀ i, ids i < maxId)
    (mu s : Fin n → ℝ) (i : Fin n) :
    Rel ids mu s (fun v => v i) (if s i = 0 then UReal.const (mu i) else ⟨ids i, s i, mu i, []⟩) := by
  by_cases h : s i = 0
  · rw [if_pos h]
    obtain ⟨ok, -, -⟩ := Rel.const ids mu s (mu i)
    refine ⟨ok, rfl, ContinuousLinearMap.proj i, hasFDerivAt_apply i mu, fun q => ?_, fun j _ => by simp [UReal.coef, UReal.const]⟩
    rw [ContinuousLinearMap.proj_apply]
    by_cases hq : q = i
    · subst hq; simp [h, UReal.coef, UReal.const]
    · rw [Pi.single_eq_of_ne (Ne.symm hq), zero_mul]; simp [UReal.coef, UReal.const]
  · rw [if_neg h]
    exact Rel.elem hinj hpos hlt mu s i

/-- Every result of a computation in which the variables without uncertainty are plain numbers. -/
theorem prog_rel_consts {n : ℕ} {ids : Fin n → ℤ} (hinj : Function.Injective ids) (hpos : ∀ i, 0 < ids i)
    (hlt : ∀ i, ids i < maxId) (mu s : Fin n → ℝ) (p : List Node) (hp : NodesRight p (Spec.vars mu)) :
    ∃ out, evalU p (consts ids mu s) = some out ∧ out.length = n + p.length ∧
      ∀ (k : ℕ) (hk : k < out.length), Rel ids mu s (fn p k) out[k] := by
  let acc : List ((Fin n → ℝ) → ℝ) := List.ofFn fun i => fun v => v i
  have hacc : ∀ v, acc.map (fun f => f v) = Spec.vars v := fun v => by simp [acc, Spec.vars, Function.comp_def]
  have h0 : List.Forall₂ (Rel ids mu s) acc (consts ids mu s) := by
    rw [List.forall₂_iff_get]
    refine ⟨by simp [acc, consts], fun k hk hk' => ?_⟩
    have hkn : k < n := by simpa [acc] using hk
    have := rel_consts1 hinj hpos hlt mu s ⟨k, hkn⟩
    simp only [acc, consts, List.get_eq_getElem, List.getElem_ofFn]
    exact this
  obtain ⟨out, e, hr, hl⟩ := evalU_rel ids mu s p acc _ h0 (by rw [hacc]; exact hp)
  have hlen : (evalG p acc).length = out.length := hr.length_eq
  refine ⟨out, e, by rw [hl]; simp [consts], fun k hk => ?_⟩
  have hk' : k < (evalG p acc).length := hlen ▸ hk
  have := hr.get hk' hk
  convert! this using 1
  funext v
  rw [fn, ← hacc, evalR_map, getD_map, List.getD_eq_getElem?_getD, List.getElem?_eq_getElem hk']
  rfl

/-- **C57** First order: in every computation, the variables with zero uncertainty can be replaced by plain numbers without changing the means,
uncertainties, covariances and correlations of the results. -/
theorem C57_first {n : ℕ} {ids : Fin n → ℤ} (hinj : Function.Injective ids) (hpos : ∀ i, 0 < ids i) (hlt : ∀ i, ids i < maxId)
    (mu s : Fin n → ℝ) {p : List Node} (hp : NodesRight p (Spec.vars mu)) :
    ∃ out out', evalU p (elems ids mu s) = some out ∧ evalU p (consts ids mu s) = some out' ∧ out.length = n + p.length ∧
      out'.length = n + p.length ∧
      ∀ (k : ℕ) (x x' : UReal ℝ), out[k]? = some x → out'[k]? = some x' → x.n = x'.n ∧ x.s = x'.s ∧ UReal.var x = UReal.var x' ∧
        ∀ (l : ℕ) (y y' : UReal ℝ), out[l]? = some y → out'[l]? = some y' → UReal.cov x y = UReal.cov x' y' ∧ UReal.corr x y = UReal.corr x' y' := by
  obtain ⟨out, e, hlen, hr⟩ := prog_rel hinj hpos hlt mu s p hp
  obtain ⟨out', e', hlen', hr'⟩ := prog_rel_consts hinj hpos hlt mu s p hp
  refine ⟨out, out', e, e', hlen, hlen', ?_⟩
  have key : ∀ (k : ℕ) x x', out[k]? = some x → out'[k]? = some x' → Rel ids mu s (fn p k) x ∧ Rel ids mu s (fn p k) x' := by
    intro k x x' h h'
    obtain ⟨hk, rfl⟩ := List.getElem?_eq_some_iff.1 h
    obtain ⟨hk', rfl⟩ := List.getElem?_eq_some_iff.1 h'
    exact ⟨hr k hk, hr' k hk'⟩
  have hcov : ∀ (k : ℕ) x x', out[k]? = some x → out'[k]? = some x' → ∀ (l : ℕ) y y', out[l]? = some y → out'[l]? = some y' →
      UReal.cov x y = UReal.cov x' y' := by
    intro k x x' h h' l y y' hl hl'
    rw [cov_of_rel hinj (key k x x' h h').1 (key l y y' hl hl').1, cov_of_rel hinj (key k x x' h h').2 (key l y y' hl hl').2]
  have hvar : ∀ (k : ℕ) x x', out[k]? = some x → out'[k]? = some x' → UReal.var x = UReal.var x' ∧ x.s = x'.s := by
    intro k x x' h h'
    obtain ⟨r, r'⟩ := key k x x' h h'
    have hv : UReal.var x = UReal.var x' := by
      rw [← C02_cov_self r.ok.valid, ← C02_cov_self r'.ok.valid, hcov k x x' h h' k x x' h h']
    refine ⟨hv, ?_⟩
    have h1 := C02_s_sq r.ok.valid
    have h2 := C02_s_sq r'.ok.valid
    nlinarith [h1.1, h2.1, h1.2, h2.2, mul_self_inj_of_nonneg h1.1 h2.1]
  intro k x x' h h'
  obtain ⟨r, r'⟩ := key k x x' h h'
  refine ⟨by rw [r.mean, r'.mean], (hvar k x x' h h').2, (hvar k x x' h h').1, fun l y y' hl hl' => ?_⟩
  have hc := hcov k x x' h h' l y y' hl hl'
  exact ⟨hc, by rw [UReal.corr, UReal.corr, hc, (hvar k x x' h h').2, (hvar l y y' hl hl').2]⟩

/-! ## second order -/

section
variable {n : ℕ} {ids : Fin n → VId} {mu s : Fin n → ℝ} {mom : Fin n → Moments ℝ} {p : List Node2}

theorem rel_consts2 {m : ℕ} {ids' : Fin m → VId} (hlt : ∀ i, ids i < maxId) (mu s : Fin n → ℝ) (mom : Fin n → Moments ℝ)
    (e : (Fin m → ℝ) → Fin n → ℝ) (he : ∀ z i, e z i = ∑ k, if ids i = ids' k then z k else 0) :
    List.Forall₂ (Rel2 ids') (List.ofFn fun i z => mu i + s i * e z i) (consts2 ids mu s mom) := by
  rw [consts2, List.forall₂_iff_get]
  refine ⟨by simp, fun i h1 h2 => ?_⟩
  simp only [List.get_ofFn]
  by_cases h : s ⟨i, by simpa using h1⟩ = 0
  · have := Rel2.const ids' (mu ⟨i, by simpa using h1⟩)
    simpa [h] using this
  · have := Rel2.elem (ids := ids') (i := ids ⟨i, by simpa using h1⟩) (hlt _) (mu ⟨i, by simpa using h1⟩) (s ⟨i, by simpa using h1⟩)
      (mom ⟨i, by simpa using h1⟩)
    simpa [he, h] using this

/-- the values computed with the constants carry the right expansion -/
theorem taylor_consts (hinj : Function.Injective ids) (hlt : ∀ i, ids i < maxId) (hp : NodesRight2 p (List.ofFn mu))
    (hi : n ≤ 1 ∨ NodesIter p (consts2 ids mu s mom)) :
    ∃ out, evalU2 p (consts2 ids mu s mom) = some out ∧ out.length = n + p.length ∧
      ∀ k, Expands ids (fn2 p mu s k) (out.getD k (UReal2.const 0)) := by
  have he : ∀ (z : Fin n → ℝ) i, (_root_.id z : Fin n → ℝ) i = ∑ k, if ids i = ids k then z k else 0 := by
    intro z i
    rw [Finset.sum_eq_single i] <;> simp
    intro b hb h; exact absurd (hinj h).symm hb
  obtain ⟨out, e, hr, hl⟩ := evalU2_rel ids p _ _ (rel_consts2 (ids' := ids) hlt mu s mom (fun z => _root_.id z) he)
    (by simpa [List.map_ofFn, Function.comp_def] using hp) hi
  refine ⟨out, e, by simpa [consts2] using hl, fun k => ?_⟩
  have h1 := (rel_get hr k).exp
  have h2 : fn2 p mu s k = (evalG2 p (List.ofFn fun i z => mu i + s i * _root_.id z i)).getD k (fun _ => 0) := by
    funext z; exact fn2_eq p mu s k (fun z => _root_.id z) z
  rwa [← h2] at h1

/-- the same along one variable, for every computation -/
theorem axis_consts (hinj : Function.Injective ids) (hlt : ∀ i, ids i < maxId) (hp : NodesRight2 p (List.ofFn mu))
    {out : List (UReal2 ℝ)} (ho : evalU2 p (consts2 ids mu s mom) = some out) (k : ℕ) (i0 : Fin n) :
    let x := out.getD k (UReal2.const 0)
    (fun t => fn2 p mu s k (Pi.single i0 t) - (x.mu + x.hg.G (ids i0) * t + x.hg.H (ids i0) (ids i0) * t ^ 2)) =o[𝓝 0] fun t : ℝ => t ^ 2 := by
  have he : ∀ (z : Fin 1 → ℝ) i, (Pi.single i0 (z 0) : Fin n → ℝ) i = ∑ k : Fin 1, if ids i = (fun _ => ids i0) k then z k else 0 := by
    intro z i
    by_cases h : i = i0
    · subst h; simp
    · rw [Pi.single_eq_of_ne h]
      have : ids i ≠ ids i0 := fun h' => h (hinj h')
      simp [this]
  obtain ⟨o, e, hr, hl⟩ := evalU2_rel (fun _ : Fin 1 => ids i0) p _ _
    (rel_consts2 hlt mu s mom (fun z => (Pi.single i0 (z 0) : Fin n → ℝ)) he)
    (by simpa [List.map_ofFn, Function.comp_def] using hp) (Or.inl le_rfl)
  cases e.symm.trans ho
  have h1 : (fun z : Fin 1 → ℝ => _) =o[𝓝 0] _ := (rel_get hr k).exp
  have ht : Tendsto (fun t : ℝ => (fun _ : Fin 1 => t)) (𝓝 0) (𝓝 0) := by
    have : Continuous (fun t : ℝ => (fun _ : Fin 1 => t)) := by fun_prop
    exact this.tendsto 0
  have h2 := h1.comp_tendsto ht
  refine (h2.congr_left fun t => ?_).congr_right fun t => ?_
  · have := fn2_eq p mu s k (fun z : Fin 1 → ℝ => (Pi.single i0 (z 0) : Fin n → ℝ)) (fun _ => t)
    simp only [Function.comp_apply, Fin.sum_univ_one, this]
    ring
  · simp only [Function.comp_apply]
    rw [pi_norm_const, Real.norm_eq_abs, sq_abs]

/-- the values computed with the constants store the same moments -/
theorem table_consts (hlt : ∀ i, ids i < maxId) (hp : NodesRight2 p (List.ofFn mu)) {out : List (UReal2 ℝ)}
    (ho : evalU2 p (consts2 ids mu s mom) = some out) (k : ℕ) :
    FineP (fun i m => ∃ j, ids j = i ∧ m = mom j) (out.getD k (UReal2.const 0)) := by
  have h := evalU2_fine (fun i m => ∃ j, ids j = i ∧ m = mom j) p (consts2 ids mu s mom) (by
    intro x hx
    simp only [consts2, List.mem_ofFn] at hx
    obtain ⟨j, rfl⟩ := hx
    by_cases hs : s j = 0
    · rw [if_pos hs]; exact FineP.const _ _
    · rw [if_neg hs]
      refine ⟨ok_elem2 (hlt j) _ _ _, fun i m h => ⟨j, ?_⟩⟩
      simp only [momOf, elem2, find?] at h
      split_ifs at h with hi
      · simp at h; exact ⟨hi, h.symm⟩
      · simp at h) (by
    have e : (consts2 ids mu s mom).map UReal2.mu = List.ofFn mu := by
      rw [consts2, List.map_ofFn]
      refine congrArg List.ofFn (funext fun i => ?_)
      simp only [Function.comp_apply]
      split_ifs <;> rfl
    rw [e]; exact hp) ho
  rw [List.getD_eq_getElem?_getD]
  by_cases hk : k < out.length
  · rw [List.getElem?_eq_getElem hk]; exact h _ (List.getElem_mem _)
  · rw [List.getElem?_eq_none (not_lt.1 hk)]; exact FineP.const _ 0

/-- **C57** The full statement: in every computation in which every node passes its true derivatives, the variables with zero uncertainty can be replaced
by plain numbers, and the results can not be told apart.  It is false, see `C57_false`. -/
def C57_statement : Prop :=
  ∀ (n : ℕ) (ids : Fin n → VId) (mu s : Fin n → ℝ) (mom : Fin n → Moments ℝ) (p : List Node2),
    Function.Injective ids → (∀ i, ids i < maxId) → NodesRight2 p (List.ofFn mu) →
    ∃ out out', evalU2 p (elems2 ids mu s mom) = some out ∧ evalU2 p (consts2 ids mu s mom) = some out' ∧
      ∀ k, SameObs2 (out.getD k (UReal2.const 0)) (out'.getD k (UReal2.const 0)) ∧
        ∀ l, (out.getD k (UReal2.const 0)).cov (out.getD l (UReal2.const 0)) = (out'.getD k (UReal2.const 0)).cov (out'.getD l (UReal2.const 0))

/-- **C57** (partial) True if there is only one variable, or the iteration over the Hessian works at every node of both computations (in particular
for `+`, `-`, `*`).  Missing: the other computations, for which it is false in general; `C57_mean` is what remains. -/
theorem C57_partial (hinj : Function.Injective ids) (hlt : ∀ i, ids i < maxId) (hp : NodesRight2 p (List.ofFn mu))
    (hi : n ≤ 1 ∨ (NodesIter p (elems2 ids mu s mom) ∧ NodesIter p (consts2 ids mu s mom))) :
    ∃ out out', evalU2 p (elems2 ids mu s mom) = some out ∧ evalU2 p (consts2 ids mu s mom) = some out' ∧
      ∀ k, SameObs2 (out.getD k (UReal2.const 0)) (out'.getD k (UReal2.const 0)) ∧
        ∀ l, (out.getD k (UReal2.const 0)).cov (out.getD l (UReal2.const 0)) = (out'.getD k (UReal2.const 0)).cov (out'.getD l (UReal2.const 0)) := by
  obtain ⟨out, e, -, ex⟩ := C36_taylor_partial hinj hlt hp (hi.imp_right And.left)
  obtain ⟨out', e', -, ex'⟩ := taylor_consts hinj hlt hp (hi.imp_right And.right)
  have f := evalU2_table hlt hp e
  have f' := table_consts hlt hp e'
  have same : ∀ k, SameObs2 (out.getD k (UReal2.const 0)) (out'.getD k (UReal2.const 0)) := by
    intro k
    have f := f k
    have f' := f' k
    obtain ⟨hm, hG, hH⟩ := expands_unique (EventuallyEq.refl _ _) (ex k) (ex' k)
    refine sameObs2_of f.ok.valid f'.ok.valid (table_agree hinj f f') hm (fun i => ?_) fun i j => ?_
    · by_cases hi : ∃ a, ids a = i
      · obtain ⟨a, rfl⟩ := hi; exact hG a
      · rw [Mom.G_out (table_out f hi), Mom.G_out (table_out f' hi)]
    · by_cases hi : ∃ a, ids a = i
      · by_cases hj : ∃ a, ids a = j
        · obtain ⟨a, rfl⟩ := hi; obtain ⟨b, rfl⟩ := hj; exact hH a b
        · rw [H_comm _ i j, H_comm _ i j, Mom.H_out f.ok.valid (table_out f hj), Mom.H_out f'.ok.valid (table_out f' hj)]
      · rw [Mom.H_out f.ok.valid (table_out f hi), Mom.H_out f'.ok.valid (table_out f' hi)]
  refine ⟨out, out', e, e', fun k => ⟨same k, fun l => ?_⟩⟩
  rw [((same k).cov _ (f l).ok.valid (table_agree hinj (f k) (f l)) (table_agree hinj (f' k) (f l))).1,
    ((same l).cov _ (f' k).ok.valid (table_agree hinj (f l) (f' k)) (table_agree hinj (f' l) (f' k))).2]

/-- **C57** Computations with `+`, `-`, `*` and constants. -/
theorem C57_polynomial (hinj : Function.Injective ids) (hlt : ∀ i, ids i < maxId) (hp : ∀ nd ∈ p, PolyNode nd) (hr : InRange p n) :
    ∃ out out', evalU2 p (elems2 ids mu s mom) = some out ∧ evalU2 p (consts2 ids mu s mom) = some out' ∧
      ∀ k, SameObs2 (out.getD k (UReal2.const 0)) (out'.getD k (UReal2.const 0)) ∧
        ∀ l, (out.getD k (UReal2.const 0)).cov (out.getD l (UReal2.const 0)) = (out'.getD k (UReal2.const 0)).cov (out'.getD l (UReal2.const 0)) :=
  C57_partial hinj hlt (poly_right p hp _ (by simpa using hr)) (Or.inr ⟨poly_iter p hp _, poly_iter p hp _⟩)

/-- **C57** What does not change, for every computation: the first order mean, the mean with the second order correction in both propagation modes, the first
derivatives, and the second derivatives which are not mixed. -/
theorem C57_mean (hinj : Function.Injective ids) (hlt : ∀ i, ids i < maxId) (hp : NodesRight2 p (List.ofFn mu)) :
    ∃ out out', evalU2 p (elems2 ids mu s mom) = some out ∧ evalU2 p (consts2 ids mu s mom) = some out' ∧
      ∀ k, let x := out.getD k (UReal2.const 0)
        let y := out'.getD k (UReal2.const 0)
        x.mu = y.mu ∧ x.m 1 = y.m 1 ∧ (∀ a, x.n a = y.n a) ∧ (∀ u z, UReal2.grad u x z = UReal2.grad u y z) ∧
          ∀ u z, UReal2.hess u x z z = UReal2.hess u y z z := by
  obtain ⟨out, e, -, ex⟩ := C36_axis (mom := mom) (s := s) hinj hlt hp
  obtain ⟨out', e'⟩ : ∃ out', evalU2 p (consts2 ids mu s mom) = some out' := by
    rcases Nat.eq_zero_or_pos n with h0 | h0
    · obtain ⟨o, eo, -⟩ := taylor_consts (mom := mom) (s := s) hinj hlt hp (Or.inl (by omega))
      exact ⟨o, eo⟩
    · obtain ⟨o, eo, -⟩ := evalU2_rel (fun _ : Fin 1 => ids ⟨0, h0⟩) p _ _
        (rel_consts2 hlt mu s mom (fun (z : Fin 1 → ℝ) i => ∑ k : Fin 1, if ids i = (fun _ => ids ⟨0, h0⟩) k then z k else 0) (fun _ _ => rfl))
        (by simpa [List.map_ofFn, Function.comp_def] using hp) (Or.inl le_rfl)
      exact ⟨o, eo⟩
  refine ⟨out, out', e, e', fun k => ?_⟩
  have ex' := axis_consts hinj hlt hp e'
  have f := evalU2_table hlt hp e k
  have f' := table_consts hlt hp e' k
  have hax := fun i => axis_unique (EventuallyEq.refl _ _) (ex k i) (ex' k i)
  have hmu : (out.getD k (UReal2.const 0)).mu = (out'.getD k (UReal2.const 0)).mu := by
    rcases Nat.eq_zero_or_pos n with h0 | h0
    · obtain ⟨o, eo, -, xo⟩ := C36_taylor_partial (mom := mom) (s := s) hinj hlt hp (Or.inl (by omega))
      obtain ⟨o', eo', -, xo'⟩ := taylor_consts (mom := mom) (s := s) hinj hlt hp (Or.inl (by omega))
      cases e.symm.trans eo
      cases e'.symm.trans eo'
      exact (expands_unique (EventuallyEq.refl _ _) (xo k) (xo' k)).1
    · exact (hax ⟨0, h0⟩).1
  have hG : ∀ i, (out.getD k (UReal2.const 0)).hg.G i = (out'.getD k (UReal2.const 0)).hg.G i := by
    intro i
    by_cases hi : ∃ a, ids a = i
    · obtain ⟨a, rfl⟩ := hi; exact (hax a).2.1
    · rw [Mom.G_out (table_out f hi), Mom.G_out (table_out f' hi)]
  have hH : ∀ i, (out.getD k (UReal2.const 0)).hg.H i i = (out'.getD k (UReal2.const 0)).hg.H i i := by
    intro i
    by_cases hi : ∃ a, ids a = i
    · obtain ⟨a, rfl⟩ := hi; exact (hax a).2.2
    · rw [Mom.H_out f.ok.valid (table_out f hi), Mom.H_out f'.ok.valid (table_out f' hi)]
  generalize out.getD k (UReal2.const 0) = x at *
  generalize out'.getD k (UReal2.const 0) = y at *
  have hm : x.m 1 = y.m 1 := by
    rw [Mom.m_one' f.ok.valid, Mom.m_one' f'.ok.valid, Mom.m1_sum f.ok.valid (Finset.subset_union_left (s₂ := y.hg.vars)),
      Mom.m1_sum f'.ok.valid (Finset.subset_union_right (s₁ := x.hg.vars))]
    simp only [hH]
  refine ⟨hmu, hm, fun a => by rw [UReal2.n, UReal2.n, hm, hmu], fun u z => ?_, fun u z => ?_⟩
  · unfold UReal2.grad; simp only [diagGet_grad, hG]
  · unfold UReal2.hess
    rcases z.hg.diagmap with _ | ⟨⟨i, d⟩, _ | ⟨_, _⟩⟩
    · rfl
    · simp only [diagGet_grad, hhessGet_eq, hG, hH, ne_eq, not_true_eq_false, if_false]
    · rfl

end

/-! ## the full statement is false -/

/-- `exp(x * y + 0)` at 0 with standard normal variables: the mixed second derivative and the variance are right -/
theorem exOrder_const {i j : VId} (hij : i < j) (hi : i < maxId) (hj : j < maxId) :
    ∃ P W z, evalU2 exOrder [elem2 i 0 1 exN, elem2 j 0 1 exN, UReal2.const 0] =
        some [elem2 i 0 1 exN, elem2 j 0 1 exN, UReal2.const 0, P, W, z] ∧ D2 z i j = 1 ∧ z.var = some 1 := by
  have oi : Ok2 (elem2 i 0 1 exN) := ok_elem2 hi 0 1 exN
  have oj : Ok2 (elem2 j 0 1 exN) := ok_elem2 hj 0 1 exN
  have ok : Ok2 (UReal2.const (0 : ℝ)) := ok_const 0
  have gc : ∀ a, (UReal2.const (0 : ℝ)).hg.G a = 0 := fun a => by simp [UReal2.const, HessGrad.empty, HessGrad.G, find?]
  have dc : ∀ a b, D2 (UReal2.const (0 : ℝ)) a b = 0 := fun a b => by
    simp [D2, UReal2.const, HessGrad.empty, HessGrad.H, find?, SMap.get]
  obtain ⟨P, eP, oP⟩ := C21_binary oi oj (0 * 0 : ℝ) 0 0 0 0 1
  have hP : UReal2.mul exN (elem2 i 0 1 exN) (elem2 j 0 1 exN) = some P := eP exN
  obtain ⟨mP, GP, DP⟩ := C23_mul oi oj hP
  have vP : P.hg.vars = {i} ∪ {j} := by
    rw [(C22_binary oi oj hP).2.2.1]; simp [elem2, HessGrad.vars]
  obtain ⟨W, eW, oW⟩ := C21_binary oP ok (P.mu + (UReal2.const (0 : ℝ)).mu) 1 1 0 0 0
  have hW : UReal2.add exN P (UReal2.const 0) = some W := eW exN
  obtain ⟨mW, GW, DW⟩ := C23_add oP ok hW
  have vW : W.hg.vars = {i} ∪ {j} := by
    rw [(C22_binary oP ok hW).2.2.1, vP]; simp [UReal2.const, HessGrad.empty, HessGrad.vars]
  have mW0 : W.mu = 0 := by rw [mW, mP]; simp [elem2, UReal2.const]
  have gW : ∀ a, W.hg.G a = 0 := fun a => by rw [GW, GP, gc]; simp [elem2]
  have dW : ∀ a b, D2 W a b = (if i = a ∧ j = b then 1 else 0) + (if i = b ∧ j = a then 1 else 0) := by
    intro a b
    rw [DW, DP, dc, G_elem2, G_elem2, G_elem2, G_elem2]
    simp only [D2, H_elem2, ite_and]
    split_ifs <;> simp [elem2]
  have htri : W.hg.trimap ≠ [] := by
    intro h
    have := dW i j
    rw [D2, H_lt _ hij, h] at this
    simp [hij.ne, find?] at this
  have hsize : W.hg.size = 2 := by
    have h1 : (keys W.hg.diagmap).length = 2 := by
      have hc : W.hg.vars.card = 2 := by
        rw [vW, Finset.singleton_union, Finset.card_insert_of_notMem (by simpa using hij.ne), Finset.card_singleton]
      rwa [HessGrad.vars, List.toFinset_card_of_nodup (oW.valid.dsorted.imp fun h => ne_of_lt h)] at hc
    simpa [HessGrad.size, keys] using h1
  obtain ⟨d, dd, hd, hg⟩ := C35_result1 (C35_exp exN 0)
  obtain ⟨rfl, rfl⟩ := Derivs1.unique hd ⟨Real.exp, Eventually.of_forall Real.hasDerivAt_exp, Real.hasDerivAt_exp 0, rfl⟩
  obtain ⟨z, hz, oz, -, Gz, vz, mz, -, ch⟩ := hg W oW mW0
  have hD : ∀ a b, D2 z a b = D2 W a b := by
    intro a b
    have := ch (Or.inr (Or.inr ⟨hsize, htri⟩)) a b
    rw [this, gW, gW]; simp
  refine ⟨P, W, z, by simp [exOrder, evalU2, hP, hW, hz], by rw [hD, dW]; simp [hij.ne], ?_⟩
  have hm : ∀ a m, z.hg.momOf a = some m → (0 : ℝ) = m.v3 ∧ (3 : ℝ) = m.v4 := by
    intro a m h
    rw [mz, (C22_binary oP ok hW).2.2.2, (C22_binary oi oj hP).2.2.2] at h
    have : m = exN := by
      simp only [momOf, elem2, find?, UReal2.const, HessGrad.empty] at h
      split_ifs at h <;> simp at h <;> exact h.symm
    subst this
    simp [exN]
  have hH : ∀ a b, 2 * z.hg.H a b = (if i = a ∧ j = b then 1 else 0) + (if i = b ∧ j = a then 1 else 0) := by
    intro a b
    rw [← dW a b, ← hD a b, D2]
  have hd' : ∀ a, z.hg.H a a = 0 := by
    intro a
    have := hH a a
    have h1 : ¬ (i = a ∧ j = a) := fun h => hij.ne (h.1.trans h.2.symm)
    rw [if_neg h1] at this
    linarith
  rw [C25_closed oz.valid (fun _ => 0) (fun _ => 3) hm, vz, vW]
  have hij' : i ∉ ({j} : Finset VId) := by simpa using hij.ne
  rw [Finset.singleton_union]
  simp only [Finset.sum_insert hij', Finset.sum_singleton, Gz, gW, hd', lt_irrefl, if_false, if_true, hij, hij.not_gt]
  rw [show 2 * z.hg.H i j = 1 by rw [hH]; simp [hij.ne]]
  norm_num

/-- **C57** The uncertainty of `exp(x * y + z)` at 0, with two standard normal variables `x`, `y`, is 1 if `z` is the number 0, and it is computed as 0 if `z` is a variable
with value 0 and no uncertainty which was created after `x` and before `y`. -/
theorem C57_uncertainty : ∃ out out', evalU2 exOrder (elems2 ![1, 3, 2] 0 ![1, 1, 0] fun _ => exN) = some out ∧
    evalU2 exOrder (consts2 ![1, 3, 2] 0 ![1, 1, 0] fun _ => exN) = some out' ∧
    (out.getD 5 (UReal2.const 0)).s = some 0 ∧ (out'.getD 5 (UReal2.const 0)).s = some 1 := by
  obtain ⟨P, W, z, ez, -, hz⟩ := exOrder_gen 0 (i := 1) (j := 3) (k := 2) (by decide) (by decide) (by decide) (by decide) (by decide) (by decide)
  obtain ⟨P', W', z', ez', -, hz'⟩ := exOrder_const (i := 1) (j := 3) (by decide) (by decide) (by decide)
  refine ⟨_, _, by simpa [elems2] using ez, by simpa [consts2] using ez', ?_, ?_⟩
  · simp only [UReal2.var] at hz
    norm_num at hz
    simp [UReal2.s, hz, CSqrt.sqrt]
  · simp only [UReal2.var] at hz'
    simp [UReal2.s, hz', CSqrt.sqrt]

/-- **C57** is false: see `C57_uncertainty`. -/
theorem C57_false : ¬ C57_statement := by
  intro h
  obtain ⟨out, out', e, e', hs⟩ := h 3 ![1, 3, 2] 0 ![1, 1, 0] (fun _ => exN) exOrder (by decide) (by decide)
    ⟨by simp, by simp, C35_mul _ _ _, by simp, by simp, C35_add _ _ _, by simp, C35_exp _ _, trivial⟩
  obtain ⟨o, o', eo, eo', h1, h2⟩ := C57_uncertainty
  cases e.symm.trans eo
  cases e'.symm.trans eo'
  have := (hs 5).1.s
  rw [h1, h2] at this
  simp at this

/-! ## examples -/

/-- `x * y + x` with `y = 4 ± 0` -/
example : ∃ out out', evalU2 exPoly (elems2 ![1, 2] ![3, 4] ![1, 0] fun _ => exN) = some out ∧
    evalU2 exPoly [elem2 1 3 1 exN, UReal2.const 4] = some out' ∧
    (out.getD 3 (UReal2.const 0)).s = (out'.getD 3 (UReal2.const 0)).s := by
  obtain ⟨out, out', e, e', h⟩ := C57_polynomial (ids := ![1, 2]) (mu := ![3, 4]) (s := ![1, 0]) (mom := fun _ => exN)
    (by decide) (by decide) exPoly_poly (by simp [exPoly, InRange])
  exact ⟨out, out', e, by simpa [consts2] using e', (h 3).1.s⟩

/-- The mean of `exp(x * y + z)` is the same with `z = 0` and with `z = 0 ± 0`. -/
example : ∃ out out', evalU2 exOrder (elems2 ![1, 3, 2] 0 ![1, 1, 0] fun _ => exN) = some out ∧
    evalU2 exOrder [elem2 1 0 1 exN, elem2 3 0 1 exN, UReal2.const 0] = some out' ∧
    (out.getD 5 (UReal2.const 0)).n .mean = (out'.getD 5 (UReal2.const 0)).n .mean := by
  obtain ⟨out, out', e, e', h⟩ := C57_mean (ids := ![1, 3, 2]) (mu := 0) (s := ![1, 1, 0]) (mom := fun _ => exN) (p := exOrder)
    (by decide) (by decide)
    ⟨by simp, by simp, C35_mul _ _ _, by simp, by simp, C35_add _ _ _, by simp, C35_exp _ _, trivial⟩
  exact ⟨out, out', e, by simpa [consts2] using e', (h 5).2.2.1 .mean⟩

/-- `exp(x)` of a variable without uncertainty -/
example : ∃ out out', evalU2 [.un (UMath2.exp exN) Real.exp 0] (elems2 ![1] ![3] ![0] fun _ => exN) = some out ∧
    evalU2 [.un (UMath2.exp exN) Real.exp 0] [UReal2.const 3] = some out' ∧
    (out.getD 1 (UReal2.const 0)).s = (out'.getD 1 (UReal2.const 0)).s := by
  obtain ⟨out, out', e, e', h⟩ := C57_partial (ids := ![1]) (mu := ![3]) (s := ![0]) (mom := fun _ => exN)
    (p := [.un (UMath2.exp exN) Real.exp 0]) (by decide) (by decide) ⟨by simp, C35_exp _ _, trivial⟩ (Or.inl le_rfl)
  exact ⟨out, out', e, by simpa [consts2] using e', (h 1).1.s⟩

/-- First order: `sin(x y) / (x + 3)` with `y = 4 ± 0` and `y = 4` -/
example : ∃ out out', evalU exNodes (elems ![1, 2] ![3, 4] ![1, 0]) = some out ∧
    evalU exNodes [⟨1, 1, 3, []⟩, UReal.const 4] = some out' ∧
    ∀ x x' : UReal ℝ, out[6]? = some x → out'[6]? = some x' → x.s = x'.s := by
  obtain ⟨out, out', e, e', -, -, h⟩ := C57_first (ids := ![1, 2]) (by decide) (by decide) (by decide) ![3, 4] ![1, 0] (p := exNodes) (by
      simp only [exNodes, Spec.vars, NodesRight]
      exact ⟨by simp, by simp, C14_mul _ _, by simp, C14_sin _, by simp, by simp, C14_add _ _, by simp, by simp, C14_div (by norm_num), trivial⟩)
  exact ⟨out, out', e, by simpa [consts] using e', fun x x' h1 h2 => (h 6 x x' h1 h2).2.1⟩

end Unc.Props
