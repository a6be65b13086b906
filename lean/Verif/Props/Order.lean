import Verif.Lemmas.Rename
import Verif.Lemmas.Dead
import Verif.Props.SameFunction2
import Verif.Props.SameFunction
import Verif.Spec.Order

/-!
# The order in which the variables are created: C58

Every variable gets a new identifier from a global counter, and the values store their derivatives in maps ordered by identifier, so the order in which
the variables are created (or variables created in between) decides how the operations go over the maps.  The numbers they compute should not
depend on it.
-/

namespace Unc.Props
open Unc Unc.Spec SMap HessGrad Filter Topology Asymptotics

/-! ## first order -/

/-- **C58** First order: for any two assignments of identifiers to the elementary variables, the same computation gives results with the same means,
uncertainties, covariances and correlations. -/
theorem C58_first {n : ℕ} {ids ids' : Fin n → ℤ} (hinj : Function.Injective ids) (hpos : ∀ i, 0 < ids i) (hlt : ∀ i, ids i < maxId)
    (hinj' : Function.Injective ids') (hpos' : ∀ i, 0 < ids' i) (hlt' : ∀ i, ids' i < maxId) (mu s : Fin n → ℝ) {p : List Node}
    (hp : NodesRight p (vars mu)) :
    ∃ out out', evalU p (elems ids mu s) = some out ∧ evalU p (elems ids' mu s) = some out' ∧ out.length = n + p.length ∧
      out'.length = n + p.length ∧
      ∀ (k : ℕ) (x x' : UReal ℝ), out[k]? = some x → out'[k]? = some x' → x.n = x'.n ∧ x.s = x'.s ∧ UReal.var x = UReal.var x' ∧
        ∀ (l : ℕ) (y y' : UReal ℝ), out[l]? = some y → out'[l]? = some y' → UReal.cov x y = UReal.cov x' y' ∧ UReal.corr x y = UReal.corr x' y' := by
  obtain ⟨out, e, hlen, hr⟩ := prog_rel hinj hpos hlt mu s p hp
  obtain ⟨out', e', hlen', hr'⟩ := prog_rel hinj' hpos' hlt' mu s p hp
  refine ⟨out, out', e, e', hlen, hlen', ?_⟩
  have key : ∀ (k : ℕ) x x', out[k]? = some x → out'[k]? = some x' → Rel ids mu s (fn p k) x ∧ Rel ids' mu s (fn p k) x' := by
    intro k x x' h h'
    obtain ⟨hk, rfl⟩ := List.getElem?_eq_some_iff.1 h
    obtain ⟨hk', rfl⟩ := List.getElem?_eq_some_iff.1 h'
    exact ⟨hr k hk, hr' k hk'⟩
  have hcov : ∀ (k : ℕ) x x', out[k]? = some x → out'[k]? = some x' → ∀ (l : ℕ) y y', out[l]? = some y → out'[l]? = some y' →
      UReal.cov x y = UReal.cov x' y' := by
    intro k x x' h h' l y y' hl hl'
    rw [cov_of_rel hinj (key k x x' h h').1 (key l y y' hl hl').1, cov_of_rel hinj' (key k x x' h h').2 (key l y y' hl hl').2]
  have hvar : ∀ (k : ℕ) x x', out[k]? = some x → out'[k]? = some x' → UReal.var x = UReal.var x' ∧ x.s = x'.s := by
    intro k x x' h h'
    obtain ⟨r, r'⟩ := key k x x' h h'
    have hv : UReal.var x = UReal.var x' := by
      rw [← C02_cov_self r.ok.valid, ← C02_cov_self r'.ok.valid, hcov k x x' h h' k x x' h h']
    refine ⟨hv, ?_⟩
    have h1 := C02_s_sq r.ok.valid
    have h2 := C02_s_sq r'.ok.valid
    nlinarith [h1.1, h2.1, h1.2, h2.2, mul_self_inj_of_nonneg h1.1 h2.1]
  intro k x x' h h'
  obtain ⟨r, r'⟩ := key k x x' h h'
  refine ⟨by rw [r.mean, r'.mean], (hvar k x x' h h').2, (hvar k x x' h h').1, fun l y y' hl hl' => ?_⟩
  have hc := hcov k x x' h h' l y y' hl hl'
  exact ⟨hc, by rw [UReal.corr, UReal.corr, hc, (hvar k x x' h h').2, (hvar l y y' hl hl').2]⟩

/-! ## second order -/

/-- **C58** Second order, the full statement: the same with moments and derivatives.  It is false, see `C58_false`. -/
def C58_statement : Prop :=
  ∀ (n : ℕ) (ids ids' : Fin n → VId) (mu s : Fin n → ℝ) (mom : Fin n → Moments ℝ) (p : List Node2),
    Function.Injective ids → Function.Injective ids' → (∀ i, ids i < maxId) → (∀ i, ids' i < maxId) → NodesRight2 p (List.ofFn mu) →
    ∃ out out', evalU2 p (elems2 ids mu s mom) = some out ∧ evalU2 p (elems2 ids' mu s mom) = some out' ∧
      ∀ k, SameUpToIds ids ids' mu s mom (out.getD k (UReal2.const 0)) (out'.getD k (UReal2.const 0)) ∧
        ∀ l, (out.getD k (UReal2.const 0)).cov (out.getD l (UReal2.const 0)) = (out'.getD k (UReal2.const 0)).cov (out'.getD l (UReal2.const 0))

section
variable {n : ℕ} {ids ids' : Fin n → VId} {mu s : Fin n → ℝ} {mom : Fin n → Moments ℝ} {p : List Node2}

/-- Two expansions of the same function with different names of the variables. -/
theorem expands_rename {F : (Fin n → ℝ) → ℝ} {x y : UReal2 ℝ} (h : Expands ids F x) (h' : Expands ids' F y) :
    x.mu = y.mu ∧ (∀ i, x.hg.G (ids i) = y.hg.G (ids' i)) ∧ ∀ i j, x.hg.H (ids i) (ids j) = y.hg.H (ids' i) (ids' j) := by
  have hd : (fun z : Fin n → ℝ => (x.mu - y.mu) + (∑ i, x.hg.G (ids i) * z i - ∑ i, y.hg.G (ids' i) * z i) +
      (∑ i, ∑ j, x.hg.H (ids i) (ids j) * z i * z j - ∑ i, ∑ j, y.hg.H (ids' i) (ids' j) * z i * z j)) =o[𝓝 0] fun z => ‖z‖ ^ 2 := by
    refine (IsLittleO.sub h' h).congr_left fun z => ?_
    ring
  have hline : ∀ v : Fin n → ℝ, x.mu - y.mu = 0 ∧ ∑ i, x.hg.G (ids i) * v i - ∑ i, y.hg.G (ids' i) * v i = 0 ∧
      ∑ i, ∑ j, x.hg.H (ids i) (ids j) * v i * v j - ∑ i, ∑ j, y.hg.H (ids' i) (ids' j) * v i * v j = 0 := by
    intro v
    have ht : Tendsto (fun t : ℝ => t • v) (𝓝 0) (𝓝 0) := by
      have : Continuous fun t : ℝ => t • v := by fun_prop
      simpa using this.tendsto 0
    refine coeffs_zero ?_
    have h1 := (hd.comp_tendsto ht)
    have h2 : ((fun z : Fin n → ℝ => ‖z‖ ^ 2) ∘ fun t : ℝ => t • v) =O[𝓝 0] fun t : ℝ => t ^ 2 := by
      refine IsBigO.of_bound (‖v‖ ^ 2) (Eventually.of_forall fun t => ?_)
      simp only [Function.comp_apply, norm_smul, norm_pow, norm_mul, norm_norm]
      rw [mul_pow, mul_comm]
    refine (h1.trans_isBigO h2).congr_left fun t => ?_
    simp only [Function.comp_apply, Pi.smul_apply, smul_eq_mul]
    have e1 : ∀ g : Fin n → ℝ, ∑ i, g i * (t * v i) = (∑ i, g i * v i) * t := by
      intro g; rw [Finset.sum_mul]; exact Finset.sum_congr rfl fun i _ => by ring
    have e2 : ∀ g : Fin n → Fin n → ℝ, ∑ i, ∑ j, g i j * (t * v i) * (t * v j) = (∑ i, ∑ j, g i j * v i * v j) * t ^ 2 := by
      intro g
      rw [Finset.sum_mul]
      refine Finset.sum_congr rfl fun i _ => ?_
      rw [Finset.sum_mul]
      exact Finset.sum_congr rfl fun j _ => by ring
    rw [e1, e1, e2 fun i j => x.hg.H (ids i) (ids j), e2 fun i j => y.hg.H (ids' i) (ids' j)]
    ring
  have hHd : ∀ i, x.hg.H (ids i) (ids i) = y.hg.H (ids' i) (ids' i) := by
    intro i
    have := (hline (Pi.single i 1)).2.2
    simpa [Pi.single_apply, sub_eq_zero] using this
  have hpair : ∀ (g : Fin n → Fin n → ℝ) i j, i ≠ j → ∑ k, ∑ l, g k l * (Pi.single i 1 + Pi.single j 1 : Fin n → ℝ) k *
      (Pi.single i 1 + Pi.single j 1 : Fin n → ℝ) l = g i i + g i j + g j i + g j j := by
    intro g i j _
    simp only [Pi.add_apply, mul_add, add_mul, Finset.sum_add_distrib, Pi.single_apply, mul_ite, mul_one, mul_zero, ite_mul, zero_mul,
      Finset.sum_ite_eq', Finset.mem_univ, if_true]
    ring
  refine ⟨sub_eq_zero.1 (hline 0).1, fun i => ?_, fun i j => ?_⟩
  · have := (hline (Pi.single i 1)).2.1
    simpa [Pi.single_apply, sub_eq_zero] using this
  · by_cases hij : i = j
    · rw [hij]; exact hHd j
    · have := (hline (Pi.single i 1 + Pi.single j 1)).2.2
      rw [hpair (fun i j => x.hg.H (ids i) (ids j)) i j hij, hpair (fun i j => y.hg.H (ids' i) (ids' j)) i j hij,
        H_comm x.hg (ids j) (ids i), H_comm y.hg (ids' j) (ids' i), hHd i, hHd j] at this
      linarith

theorem axis_rename {F : ℝ → ℝ} {x y : UReal2 ℝ} {i i' : VId}
    (h : (fun t => F t - (x.mu + x.hg.G i * t + x.hg.H i i * t ^ 2)) =o[𝓝 0] fun t : ℝ => t ^ 2)
    (h' : (fun t => F t - (y.mu + y.hg.G i' * t + y.hg.H i' i' * t ^ 2)) =o[𝓝 0] fun t : ℝ => t ^ 2) :
    x.mu = y.mu ∧ x.hg.G i = y.hg.G i' ∧ x.hg.H i i = y.hg.H i' i' := by
  have h1 : (fun t : ℝ => (x.mu - y.mu) + (x.hg.G i - y.hg.G i') * t + (x.hg.H i i - y.hg.H i' i') * t ^ 2) =o[𝓝 0] fun t : ℝ => t ^ 2 :=
    (h'.sub h).congr_left fun t => by ring
  obtain ⟨h1, h2, h3⟩ := coeffs_zero h1
  exact ⟨sub_eq_zero.1 h1, sub_eq_zero.1 h2, sub_eq_zero.1 h3⟩

theorem inTable (hlt : ∀ i, ids i < maxId) (hp : NodesRight2 p (List.ofFn mu)) {out : List (UReal2 ℝ)}
    (ho : evalU2 p (elems2 ids mu s mom) = some out) (k : ℕ) : Mom.InTable ids mom (out.getD k (UReal2.const 0)).hg :=
  let h := evalU2_table hlt hp ho k
  ⟨h.ok.valid, h.mom⟩

theorem sameUpToIds_of (hinj : Function.Injective ids) (hinj' : Function.Injective ids') {x y : UReal2 ℝ} (hx : Mom.InTable ids mom x.hg)
    (hy : Mom.InTable ids' mom y.hg) (hm : x.mu = y.mu) (hG : ∀ i, x.hg.G (ids i) = y.hg.G (ids' i))
    (hH : ∀ i j, x.hg.H (ids i) (ids j) = y.hg.H (ids' i) (ids' j)) : SameUpToIds ids ids' mu s mom x y := by
  have hk := Mom.m_rename hinj hinj' hx hy hG hH
  refine ⟨hm, fun p => ?_, hk, ?_, ?_, ?_, fun u i => ?_, fun u i j => ?_⟩
  · unfold UReal2.n; rw [hk, hm]
  · unfold UReal2.s; rw [hk]
  · unfold UReal2.skew UReal2.s; rw [hk, hk]
  · unfold UReal2.kurt; rw [hk, hk]
  · unfold UReal2.grad
    simp only [elem2, diagGet_grad, hG]
  · unfold UReal2.hess
    simp only [elem2, diagGet_grad, hhessGet_eq, hG, hH, hinj.eq_iff, hinj'.eq_iff, ne_eq]

/-- **C58** (partial) True if there is only one variable, or the iteration over the Hessian works at every node with both assignments of identifiers (in
particular for all computations with `+`, `-`, `*`, and for functions of values which depend on one variable).  Missing: the
other computations, for which it is false in general; `C58_mean` is what remains. -/
theorem C58_partial (hinj : Function.Injective ids) (hinj' : Function.Injective ids') (hlt : ∀ i, ids i < maxId) (hlt' : ∀ i, ids' i < maxId)
    (hp : NodesRight2 p (List.ofFn mu)) (hi : n ≤ 1 ∨ NodesIter p (elems2 ids mu s mom) ∧ NodesIter p (elems2 ids' mu s mom)) :
    ∃ out out', evalU2 p (elems2 ids mu s mom) = some out ∧ evalU2 p (elems2 ids' mu s mom) = some out' ∧
      ∀ k, SameUpToIds ids ids' mu s mom (out.getD k (UReal2.const 0)) (out'.getD k (UReal2.const 0)) ∧
        ∀ l, (out.getD k (UReal2.const 0)).cov (out.getD l (UReal2.const 0)) = (out'.getD k (UReal2.const 0)).cov (out'.getD l (UReal2.const 0)) := by
  obtain ⟨out, e, -, ex⟩ := C36_taylor_partial hinj hlt hp (hi.imp_right And.left)
  obtain ⟨out', e', -, ex'⟩ := C36_taylor_partial hinj' hlt' hp (hi.imp_right And.right)
  have f := inTable hlt hp e
  have f' := inTable hlt' hp e'
  refine ⟨out, out', e, e', fun k => ⟨?_, fun l => ?_⟩⟩
  · obtain ⟨hm, hG, hH⟩ := expands_rename (ex k) (ex' k)
    exact sameUpToIds_of hinj hinj' (f k) (f' k) hm hG hH
  · obtain ⟨-, hG, hH⟩ := expands_rename (ex k) (ex' k)
    obtain ⟨-, hG', hH'⟩ := expands_rename (ex l) (ex' l)
    exact Mom.cov_rename hinj hinj' (f k) (f' k) (f l) (f' l) hG hH hG' hH'

/-- **C58** Computations with `+`, `-`, `*` and constants. -/
theorem C58_polynomial (hinj : Function.Injective ids) (hinj' : Function.Injective ids') (hlt : ∀ i, ids i < maxId) (hlt' : ∀ i, ids' i < maxId)
    (hp : ∀ nd ∈ p, PolyNode nd) (hr : InRange p n) :
    ∃ out out', evalU2 p (elems2 ids mu s mom) = some out ∧ evalU2 p (elems2 ids' mu s mom) = some out' ∧
      ∀ k, SameUpToIds ids ids' mu s mom (out.getD k (UReal2.const 0)) (out'.getD k (UReal2.const 0)) ∧
        ∀ l, (out.getD k (UReal2.const 0)).cov (out.getD l (UReal2.const 0)) = (out'.getD k (UReal2.const 0)).cov (out'.getD l (UReal2.const 0)) :=
  C58_partial hinj hinj' hlt hlt' (poly_right p hp _ (by simpa using hr)) (Or.inr ⟨poly_iter p hp _, poly_iter p hp _⟩)

/-- **C58** What does not depend on the identifiers, for every computation: the first order mean, the mean with the second order correction in both
propagation modes, the first derivatives, and the second derivatives which are not mixed. -/
theorem C58_mean (hinj : Function.Injective ids) (hinj' : Function.Injective ids') (hlt : ∀ i, ids i < maxId) (hlt' : ∀ i, ids' i < maxId)
    (hp : NodesRight2 p (List.ofFn mu)) :
    ∃ out out', evalU2 p (elems2 ids mu s mom) = some out ∧ evalU2 p (elems2 ids' mu s mom) = some out' ∧
      ∀ k, let x := out.getD k (UReal2.const 0)
        let y := out'.getD k (UReal2.const 0)
        x.mu = y.mu ∧ x.m 1 = y.m 1 ∧ (∀ a, x.n a = y.n a) ∧
        (∀ u i, UReal2.grad u x (elem2 (ids i) (mu i) (s i) (mom i)) = UReal2.grad u y (elem2 (ids' i) (mu i) (s i) (mom i))) ∧
        ∀ u i, UReal2.hess u x (elem2 (ids i) (mu i) (s i) (mom i)) (elem2 (ids i) (mu i) (s i) (mom i)) =
          UReal2.hess u y (elem2 (ids' i) (mu i) (s i) (mom i)) (elem2 (ids' i) (mu i) (s i) (mom i)) := by
  obtain ⟨out, e, -, ex⟩ := C36_axis (mom := mom) (s := s) hinj hlt hp
  obtain ⟨out', e', -, ex'⟩ := C36_axis (mom := mom) (s := s) hinj' hlt' hp
  refine ⟨out, out', e, e', fun k => ?_⟩
  have f := inTable hlt hp e k
  have f' := inTable hlt' hp e' k
  have hax := fun i => axis_rename (ex k i) (ex' k i)
  have hmu : (out.getD k (UReal2.const 0)).mu = (out'.getD k (UReal2.const 0)).mu := by
    rcases Nat.eq_zero_or_pos n with h0 | h0
    · obtain ⟨o, eo, -, xo⟩ := C36_taylor_partial (mom := mom) (s := s) hinj hlt hp (Or.inl (by omega))
      obtain ⟨o', eo', -, xo'⟩ := C36_taylor_partial (mom := mom) (s := s) hinj' hlt' hp (Or.inl (by omega))
      cases e.symm.trans eo
      cases e'.symm.trans eo'
      exact (expands_rename (xo k) (xo' k)).1
    · exact (hax ⟨0, h0⟩).1
  generalize out.getD k (UReal2.const 0) = x at *
  generalize out'.getD k (UReal2.const 0) = y at *
  have hm : x.m 1 = y.m 1 := by
    have s1 : x.hg.vars ⊆ Finset.univ.image ids := fun i hi => by simpa using f.vars i hi
    have s2 : y.hg.vars ⊆ Finset.univ.image ids' := fun i hi => by simpa using f'.vars i hi
    rw [Mom.m_one' f.valid, Mom.m_one' f'.valid, Mom.m1_sum f.valid s1, Mom.m1_sum f'.valid s2,
      Finset.sum_image fun _ _ _ _ h => hinj h, Finset.sum_image fun _ _ _ _ h => hinj' h]
    simp only [fun i => (hax i).2.2]
  refine ⟨hmu, hm, fun a => by rw [UReal2.n, UReal2.n, hm, hmu], fun u i => ?_, fun u i => ?_⟩
  · unfold UReal2.grad
    simp only [elem2, diagGet_grad, (hax i).2.1]
  · unfold UReal2.hess
    simp only [elem2, diagGet_grad, hhessGet_eq, (hax i).2.1, (hax i).2.2, ne_eq, not_true_eq_false, if_false]

end

/-! ## the full statement is false -/

theorem nextIn_eq {V : Type*} {dm : SMap VId V} (hs : Sorted dm) {a b : VId} (hab : a < b) (hb : b ∈ keys dm)
    (hmin : ∀ c ∈ keys dm, a < c → b ≤ c) : nextIn dm a = some b := by
  unfold nextIn
  have hmem : b ∈ (keys dm).filter fun i => decide (a < i) := List.mem_filter.2 ⟨hb, by simpa using hab⟩
  have hpw : ((keys dm).filter fun i => decide (a < i)).Pairwise (· < ·) := List.Pairwise.filter _ hs
  cases hl : (keys dm).filter fun i => decide (a < i) with
  | nil => rw [hl] at hmem; simp at hmem
  | cons c t =>
    have hc : c ∈ (keys dm).filter fun i => decide (a < i) := by rw [hl]; simp
    obtain ⟨h1, h2⟩ := List.mem_filter.1 hc
    have hbc := hmin c h1 (by simpa using h2)
    rw [hl] at hmem hpw
    rcases List.mem_cons.1 hmem with rfl | h
    · rfl
    · exact absurd ((List.pairwise_cons.1 hpw).1 b h) (not_lt.2 hbc)

/-- A sum stores a mixed derivative only if one of the terms depends on both variables. -/
theorem add_trimap {x y z : UReal2 ℝ} (hx : Ok2 x) (hy : Ok2 y) {u : Moments ℝ} (hz : UReal2.add u x y = some z) {q : IdPair}
    (hq : q ∈ keys z.hg.trimap) :
    ((ofLex q).1 ∈ x.hg.vars ∧ (ofLex q).2 ∈ x.hg.vars) ∨ ((ofLex q).1 ∈ y.hg.vars ∧ (ofLex q).2 ∈ y.hg.vars) := by
  unfold UReal2.add UReal2.binary at hz
  simp only [hessEntries_eq _ hx.valid, hessEntries_eq _ hy.valid, Option.bind_some] at hz
  obtain ⟨w, e1, v, dd, t⟩ := binaryLoop_cells u hx.valid hy.valid hx.below hy.below
    (CCmp.eqb ((0 : ℝ) / Mom.lit 2) 0) (CCmp.eqb ((0 : ℝ) / Mom.lit 2) 0) 1 1 (0 / Mom.lit 2) (0 / Mom.lit 2)
  rw [e1] at hz
  have hz0 : CCmp.eqb ((0 : ℝ) / Mom.lit 2) 0 = true := by rw [eqb_iff, zero_div]
  rw [hz0] at t hz
  simp only [Option.bind_some, Bool.not_true, Bool.false_eq_true, if_false, Option.map_some, Option.some.injEq] at hz
  subst hz
  obtain ⟨h1, -, -⟩ := v.triOf q hq
  have h4 := t _ _ h1
  have h5 : (find? w.trimap q).isSome := find?_isSome.2 hq
  rw [show (toLex ((ofLex q).1, (ofLex q).2) : IdPair) = q from rfl] at h4
  by_contra hne
  push Not at hne
  have k1 : entsAt true x.hg (ofLex q).1 (ofLex q).2 = [] := by
    by_contra hc
    obtain ⟨ha, hb⟩ := entsAt_vars hx.valid hc
    exact hne.1 (by simpa [HessGrad.vars] using ha) (by simpa [HessGrad.vars] using hb)
  have k2 : entsAt true y.hg (ofLex q).1 (ofLex q).2 = [] := by
    by_contra hc
    obtain ⟨ha, hb⟩ := entsAt_vars hy.valid hc
    exact hne.2 (by simpa [HessGrad.vars] using ha) (by simpa [HessGrad.vars] using hb)
  rw [k1, k2] at h4
  rw [h4] at h5
  simp [hProc] at h5

/-- `exp(x * y + z)` -/
noncomputable def exOrder : List Node2 :=
  [.bin (UReal2.mul exN) (fun s t => s * t) 0 1, .bin (UReal2.add exN) (fun s t => s + t) 3 2, .un (UMath2.exp exN) Real.exp 4]

/-- `exp(x * y + z)` at 0, with unit standard deviations of `x` and `y` and standard deviation `t` of `z`, when the identifiers of `x`, `y` and `z`
are `i < j` and `k`: the mixed second derivative of the result is stored if `k` is not between `i` and `j`. -/
theorem exOrder_gen (t : ℝ) {i j k : VId} (hij : i < j) (hki : k ≠ i) (hkj : k ≠ j) (hi : i < maxId) (hj : j < maxId) (hk : k < maxId) :
    ∃ P W z, evalU2 exOrder [elem2 i 0 1 exN, elem2 j 0 1 exN, elem2 k 0 t exN] =
        some [elem2 i 0 1 exN, elem2 j 0 1 exN, elem2 k 0 t exN, P, W, z] ∧
      D2 z i j = (if i < k ∧ k < j then 0 else 1) ∧ z.var = some (t ^ 2 + t ^ 4 / 2 + if i < k ∧ k < j then 0 else 1) := by
  have oi : Ok2 (elem2 i 0 1 exN) := ok_elem2 hi 0 1 exN
  have oj : Ok2 (elem2 j 0 1 exN) := ok_elem2 hj 0 1 exN
  have ok : Ok2 (elem2 k 0 t exN) := ok_elem2 hk 0 t exN
  obtain ⟨P, eP, oP⟩ := C21_binary oi oj (0 * 0 : ℝ) 0 0 0 0 1
  have hP : UReal2.mul exN (elem2 i 0 1 exN) (elem2 j 0 1 exN) = some P := eP exN
  obtain ⟨mP, GP, DP⟩ := C23_mul oi oj hP
  have vP : P.hg.vars = {i} ∪ {j} := by
    rw [(C22_binary oi oj hP).2.2.1]; simp [elem2, HessGrad.vars]
  obtain ⟨W, eW, oW⟩ := C21_binary oP ok (P.mu + (elem2 k 0 t exN).mu) 1 1 0 0 0
  have hW : UReal2.add exN P (elem2 k 0 t exN) = some W := eW exN
  obtain ⟨mW, GW, DW⟩ := C23_add oP ok hW
  have vW : W.hg.vars = {i} ∪ {j} ∪ {k} := by
    rw [(C22_binary oP ok hW).2.2.1, vP]; simp [elem2, HessGrad.vars]
  have mW0 : W.mu = 0 := by rw [mW, mP]; simp [elem2]
  have gP : ∀ a, P.hg.G a = 0 := fun a => by rw [GP]; simp [elem2]
  have gWi : W.hg.G i = 0 := by rw [GW, gP, G_elem2]; simp [hki]
  have hmem : ∀ c, c ∈ keys W.hg.diagmap ↔ c = i ∨ c = j ∨ c = k := by
    intro c
    have : c ∈ W.hg.vars ↔ c ∈ ({i} ∪ {j} ∪ {k} : Finset VId) := by rw [vW]
    simpa [HessGrad.vars, or_assoc] using this
  have dW : D2 W i j = 1 := by
    rw [DW, DP, G_elem2, G_elem2, G_elem2, G_elem2]
    simp [D2, H_elem2, hij.ne, hij.ne']
  obtain ⟨z, ez, oz⟩ := C21_unary oW (Real.exp W.mu) (Real.exp W.mu) (Real.exp W.mu)
  have hz : UMath2.exp exN W = some z := ez exN
  have hmix : D2 z i j = if i < k ∧ k < j then 0 else 1 := ?mix
  · refine ⟨P, W, z, by simp [exOrder, evalU2, hP, hW, hz], hmix, ?_⟩
    have vz : z.hg.vars = {i} ∪ {j} ∪ {k} := by rw [(C22_unary oW (ez exN)).2.2.1, vW]
    have Gz : ∀ a, z.hg.G a = if k = a then t else 0 := by
      intro a
      rw [(C22_unary oW (ez exN)).2.1, GW, gP, G_elem2, mW0]; simp
    have hWz : ∀ a b, ¬ (a = i ∧ b = j) → ¬ (a = j ∧ b = i) → W.hg.H a b = 0 := by
      intro a b h1 h2
      have := DW a b
      rw [DP, G_elem2, G_elem2, G_elem2, G_elem2] at this
      simp only [D2, H_elem2] at this
      have e : (if i = a then (1 : ℝ) else 0) * (if j = b then 1 else 0) = 0 := by
        rcases ne_or_eq i a with h | h
        · simp [h]
        · have : j ≠ b := fun h' => h1 ⟨h.symm, h'.symm⟩
          simp [this]
      have e' : (if i = b then (1 : ℝ) else 0) * (if j = a then 1 else 0) = 0 := by
        rcases ne_or_eq i b with h | h
        · simp [h]
        · have : j ≠ a := fun h' => h2 ⟨h'.symm, h.symm⟩
          simp [this]
      rw [e, e'] at this
      linarith
    have hoff : ∀ a b, a ≠ b → ¬ (a = i ∧ b = j) → ¬ (a = j ∧ b = i) → z.hg.H a b = 0 := by
      intro a b hab h1 h2
      refine unary_H_zero oW.valid (ez exN) ?_ (hWz a b h1 h2)
      rw [GW, gP, G_elem2, GW, gP, G_elem2]
      rcases ne_or_eq k a with h | h
      · simp [h]
      · have : k ≠ b := fun h' => hab (h.symm.trans h')
        simp [this]
    have hdiag : ∀ a, z.hg.H a a = if k = a then t ^ 2 / 2 else 0 := by
      intro a
      have := (C23_unary_behaviour oW (Real.exp_pos _).ne' (ez exN)).1 a
      rw [GW, gP, G_elem2, mW0, Real.exp_zero] at this
      simp only [D2, hWz a a (by rintro ⟨rfl, h⟩; exact hij.ne h) (by rintro ⟨rfl, h⟩; exact hij.ne' h)] at this
      split_ifs at this ⊢ <;> linarith
    have hm : ∀ a m, z.hg.momOf a = some m → (0 : ℝ) = m.v3 ∧ (3 : ℝ) = m.v4 := by
      intro a m h
      rw [(C22_unary oW (ez exN)).2.2.2, (C22_binary oP ok hW).2.2.2, (C22_binary oi oj hP).2.2.2] at h
      have : m = exN := by
        simp only [momOf, elem2, find?] at h
        split_ifs at h <;> simp at h <;> exact h.symm
      subst this
      simp [exN]
    rw [C25_closed oz.valid (fun _ => 0) (fun _ => 3) hm, vz]
    have hij' : i ∉ ({j} : Finset VId) := by simpa using hij.ne
    have hk' : k ∉ ({i} ∪ {j} : Finset VId) := by simp [hki, hkj]
    rw [Finset.union_comm ({i} ∪ {j}) {k}, Finset.singleton_union, Finset.singleton_union]
    have hk'' : k ∉ insert i ({j} : Finset VId) := by simp [hki, hkj]
    simp only [Finset.sum_insert hk'', Finset.sum_insert hij', Finset.sum_singleton, Gz, hdiag, lt_irrefl, if_false, if_true, hki, hkj, hij, hij.not_gt]
    have a1 : z.hg.H k i = 0 := hoff k i hki (by simp [hki]) (by simp [hkj])
    have a2 : z.hg.H k j = 0 := hoff k j hkj (by simp [hki]) (by simp [hkj])
    have a3 : z.hg.H i k = 0 := hoff i k hki.symm (by simp [hkj]) (by simp [hki])
    have a4 : z.hg.H j k = 0 := hoff j k hkj.symm (by simp [hkj]) (by simp [hki])
    rw [a1, a2, a3, a4]
    rw [show 2 * z.hg.H i j = _ from hmix]
    congr 1
    split_ifs <;> ring
  rw [(C23_unary_behaviour oW (Real.exp_pos _).ne' (ez exN)).2 i j hij]
  by_cases hb : i < k ∧ k < j
  · rw [if_pos hb, if_neg]
    rw [nextIn_eq oW.valid.dsorted hb.1 ((hmem k).2 (by simp)) ?_]
    · simp [hkj]
    · intro c hc hic
      rcases (hmem c).1 hc with rfl | rfl | rfl
      · exact absurd hic (lt_irrefl _)
      · exact hb.2.le
      · exact le_rfl
  · rw [if_neg hb, if_pos]
    · have hrow : ∀ q ∈ W.hg.trimap.filter (fun p => decide ((ofLex p.1).1 = i)), q.1 = toLex (i, j) := by
        intro q hq
        obtain ⟨h1, h2⟩ := List.mem_filter.1 hq
        have h2' : (ofLex q.1).1 = i := of_decide_eq_true h2
        have hkey : q.1 ∈ keys W.hg.trimap := List.mem_map_of_mem (f := Prod.fst) h1
        have hlt := (oW.valid.triOf q.1 hkey).1
        rcases add_trimap oP ok hW hkey with ⟨-, h3⟩ | ⟨h3, -⟩
        · rw [vP] at h3
          have h4 : (ofLex q.1).2 = i ∨ (ofLex q.1).2 = j := by simpa using h3
          rcases h4 with h4 | h4
          · rw [h2', h4] at hlt; exact absurd hlt (lt_irrefl _)
          · rw [← h2', ← h4]; rfl
        · rw [h2'] at h3
          simp [elem2, HessGrad.vars] at h3
          exact absurd h3.symm hki
      have hne : W.hg.trimap.filter (fun p => decide ((ofLex p.1).1 = i)) ≠ [] := by
        intro he
        have : D2 W i j = 0 := by
          unfold D2
          rw [H_lt _ hij]
          cases hf : find? W.hg.trimap (toLex (i, j)) with
          | none => simp
          | some v =>
            have := find?_some_mem hf
            have h2 : (toLex (i, j), v) ∈ W.hg.trimap.filter (fun p => decide ((ofLex p.1).1 = i)) := List.mem_filter.2 ⟨this, by simp⟩
            rw [he] at h2; simp at h2
        rw [dW] at this; exact one_ne_zero this
      rw [List.getLast?_eq_getLast_of_ne_nil hne]
      simp only
      rw [if_pos (hrow _ (List.getLast_mem hne)), gWi, dW, mW0]
      simp
    · refine nextIn_eq oW.valid.dsorted hij ((hmem j).2 (by simp)) fun c hc hic => ?_
      rcases (hmem c).1 hc with rfl | rfl | rfl
      · exact absurd hic (lt_irrefl _)
      · exact le_rfl
      · exact not_lt.1 fun h => hb ⟨hic, h⟩

theorem exOrder_eval {i j k : VId} (hij : i < j) (hki : k ≠ i) (hkj : k ≠ j) (hi : i < maxId) (hj : j < maxId) (hk : k < maxId) :
    ∃ P W z, evalU2 exOrder [elem2 i 0 1 exN, elem2 j 0 1 exN, elem2 k 0 1 exN] =
        some [elem2 i 0 1 exN, elem2 j 0 1 exN, elem2 k 0 1 exN, P, W, z] ∧
      D2 z i j = (if i < k ∧ k < j then 0 else 1) ∧ z.var = some (3 / 2 + if i < k ∧ k < j then 0 else 1) := by
  obtain ⟨P, W, z, e, h, hv⟩ := exOrder_gen 1 hij hki hkj hi hj hk
  exact ⟨P, W, z, e, h, by rw [hv]; norm_num⟩

/-- **C58** The uncertainty of `exp(x * y + z)` at 0, with three independent standard normal variables, is √(5/2) if the variables are created in
the order `x`, `y`, `z`, and √(3/2) if they are created in the order `x`, `z`, `y`. -/
theorem C58_uncertainty : ∃ out out', evalU2 exOrder (elems2 ![1, 2, 3] 0 1 fun _ => exN) = some out ∧
    evalU2 exOrder (elems2 ![1, 3, 2] 0 1 fun _ => exN) = some out' ∧
    (out.getD 5 (UReal2.const 0)).s = some (Real.sqrt (5 / 2)) ∧ (out'.getD 5 (UReal2.const 0)).s = some (Real.sqrt (3 / 2)) := by
  obtain ⟨P, W, z, ez, -, hz⟩ := exOrder_eval (i := 1) (j := 2) (k := 3) (by decide) (by decide) (by decide) (by decide) (by decide) (by decide)
  obtain ⟨P', W', z', ez', -, hz'⟩ := exOrder_eval (i := 1) (j := 3) (k := 2) (by decide) (by decide) (by decide) (by decide) (by decide) (by decide)
  refine ⟨_, _, by simpa [elems2] using ez, by simpa [elems2] using ez', ?_, ?_⟩
  · simp only [UReal2.var] at hz
    norm_num at hz
    simp [UReal2.s, hz, CSqrt.sqrt]
  · simp only [UReal2.var] at hz'
    norm_num at hz'
    simp [UReal2.s, hz', CSqrt.sqrt]

/-- **C58** is false: `exp(x * y + z)` has another mixed second derivative (and another uncertainty, see `C58_uncertainty`) if the variables are created in the
order `x`, `z`, `y` than if they are created in the order `x`, `y`, `z`. -/
theorem C58_false : ¬ C58_statement := by
  intro h
  obtain ⟨out, out', e, e', hs⟩ := h 3 ![1, 2, 3] ![1, 3, 2] 0 1 (fun _ => exN) exOrder (by decide) (by decide) (by decide) (by decide)
    ⟨by simp, by simp, C35_mul _ _ _, by simp, by simp, C35_add _ _ _, by simp, C35_exp _ _, trivial⟩
  obtain ⟨P, W, z, ez, hz, -⟩ := exOrder_eval (i := 1) (j := 2) (k := 3) (by decide) (by decide) (by decide) (by decide) (by decide) (by decide)
  obtain ⟨P', W', z', ez', hz', -⟩ := exOrder_eval (i := 1) (j := 3) (k := 2) (by decide) (by decide) (by decide) (by decide) (by decide) (by decide)
  have h1 : elems2 ![1, 2, 3] 0 1 (fun _ => exN) = [elem2 1 0 1 exN, elem2 2 0 1 exN, elem2 3 0 1 exN] := by simp [elems2]
  have h2 : elems2 ![1, 3, 2] 0 1 (fun _ => exN) = [elem2 1 0 1 exN, elem2 3 0 1 exN, elem2 2 0 1 exN] := by simp [elems2]
  rw [h1, ez] at e
  rw [h2, ez'] at e'
  cases e
  cases e'
  have hh := (hs 5).1.hess exN 0 1
  simp only [List.getD_eq_getElem?_getD, List.getElem?_cons_succ, List.getElem?_cons_zero, Option.getD_some] at hh
  simp [UReal2.hess, elem2, hhessGet_eq] at hh
  norm_num at hz hz'
  unfold D2 at hz hz'
  rw [show z.hg.H 1 2 = 1 / 2 by linarith, show z'.hg.H 1 3 = 0 by linarith] at hh
  norm_num [Mom.lit] at hh

/-! ## examples -/

/-- `x * y + x` when `x` is created before or after `y`, with another variable in between -/
example : ∃ out out', evalU2 exPoly (elems2 ![1, 2] ![3, 4] ![1, 2] fun _ => exN) = some out ∧
    evalU2 exPoly (elems2 ![7, 5] ![3, 4] ![1, 2] fun _ => exN) = some out' ∧
    (out.getD 3 (UReal2.const 0)).s = (out'.getD 3 (UReal2.const 0)).s := by
  obtain ⟨out, out', e, e', h⟩ := C58_polynomial (ids := ![1, 2]) (ids' := ![7, 5]) (mu := ![3, 4]) (s := ![1, 2]) (mom := fun _ => exN)
    (by decide) (by decide) (by decide) (by decide) exPoly_poly (by simp [exPoly, InRange])
  exact ⟨out, out', e, e', (h 3).1.s⟩

/-- `exp(x) * y` -/
example : ∃ out out', evalU2 exTrans (elems2 ![1, 2] ![3, 4] ![1, 2] fun _ => exN) = some out ∧
    evalU2 exTrans (elems2 ![2, 1] ![3, 4] ![1, 2] fun _ => exN) = some out' ∧
    (out.getD 3 (UReal2.const 0)).cov (out.getD 2 (UReal2.const 0)) = (out'.getD 3 (UReal2.const 0)).cov (out'.getD 2 (UReal2.const 0)) := by
  have hit : ∀ ids : Fin 2 → VId, NodesIter exTrans (elems2 ids ![3, 4] ![1, 2] fun _ => exN) := by
    intro ids
    refine ⟨fun d dd _ => Or.inr (Or.inl (by simp [elems2, elem2, HessGrad.size])), fun z _ => ⟨fun _ _ _ _ _ h => ?_, fun _ _ => trivial⟩⟩
    have e : (fun s t : ℝ => s * t) = fun s t => 0 * s + 0 * t + 1 * (s * t) := by funext s t; ring
    rw [e] at h
    obtain ⟨-, -, h1, h2, -⟩ := Derivs2.unique h (derivs_affine _ _ 0 0 1)
    exact ⟨Or.inl h1, Or.inl h2⟩
  obtain ⟨out, out', e, e', h⟩ := C58_partial (ids := ![1, 2]) (ids' := ![2, 1]) (mu := ![3, 4]) (s := ![1, 2]) (mom := fun _ => exN)
    (p := exTrans) (by decide) (by decide) (by decide) (by decide) ⟨by simp, C35_exp _ _, by simp, by simp, C35_mul _ _ _, trivial⟩
    (Or.inr ⟨hit _, hit _⟩)
  exact ⟨out, out', e, e', (h 3).2 2⟩

/-- The mean of `exp(x * y + z)` does not depend on the order. -/
example : ∃ out out', evalU2 exOrder (elems2 ![1, 2, 3] 0 1 fun _ => exN) = some out ∧
    evalU2 exOrder (elems2 ![1, 3, 2] 0 1 fun _ => exN) = some out' ∧
    (out.getD 5 (UReal2.const 0)).n .mean = (out'.getD 5 (UReal2.const 0)).n .mean := by
  obtain ⟨out, out', e, e', h⟩ := C58_mean (ids := ![1, 2, 3]) (ids' := ![1, 3, 2]) (mu := 0) (s := 1) (mom := fun _ => exN) (p := exOrder)
    (by decide) (by decide) (by decide) (by decide)
    ⟨by simp, by simp, C35_mul _ _ _, by simp, by simp, C35_add _ _ _, by simp, C35_exp _ _, trivial⟩
  exact ⟨out, out', e, e', (h 5).2.2.1 .mean⟩

/-- First order: `sin(x y) / (x + 3)` with the variables created in the two orders -/
example : ∃ out out', evalU exNodes (elems ![1, 2] ![3, 4] ![1, 2]) = some out ∧ evalU exNodes (elems ![9, 4] ![3, 4] ![1, 2]) = some out' ∧
    ∀ x x' : UReal ℝ, out[6]? = some x → out'[6]? = some x' → x.s = x'.s := by
  obtain ⟨out, out', e, e', -, -, h⟩ := C58_first (ids := ![1, 2]) (ids' := ![9, 4]) (by decide) (by decide) (by decide) (by decide) (by decide)
    (by decide) ![3, 4] ![1, 2] (p := exNodes) (by
      simp only [exNodes, Spec.vars, NodesRight]
      exact ⟨by simp, by simp, C14_mul _ _, by simp, C14_sin _, by simp, by simp, C14_add _ _, by simp, by simp, C14_div (by norm_num), trivial⟩)
  exact ⟨out, out', e, e', fun x x' h1 h2 => (h 6 x x' h1 h2).2.1⟩

end Unc.Props
