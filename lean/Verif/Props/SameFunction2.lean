import Verif.Props.Algebra2
import Verif.Props.Taylor

/-!
# Second-order results and the function which is computed: C49
-/

namespace Unc.Props
open Unc Unc.Spec SMap HessGrad Filter Topology Asymptotics

/-! ## two expansions of the same function have the same coefficients -/

theorem sq_not_little {c : ℝ} (h : (fun t : ℝ => c * t ^ 2) =o[𝓝 0] fun t : ℝ => t ^ 2) : c = 0 := by
  by_contra hc
  have h4 := (isLittleO_iff.1 h) (show (0 : ℝ) < |c| / 2 by positivity)
  obtain ⟨r, hr, hb⟩ := Metric.eventually_nhds_iff.1 h4
  have := hb (y := r / 2) (by simp [abs_of_pos hr]; linarith)
  have hpos : 0 < ‖(r / 2) ^ 2‖ := norm_pos_iff.2 (by positivity)
  rw [norm_mul, Real.norm_eq_abs c] at this
  have : 0 < |c| := abs_pos.2 hc
  nlinarith

theorem coeffs_zero {a b c : ℝ} (h : (fun t : ℝ => a + b * t + c * t ^ 2) =o[𝓝 0] fun t : ℝ => t ^ 2) : a = 0 ∧ b = 0 ∧ c = 0 := by
  have ha : a = 0 := by
    have := (isLittleO_iff.1 h one_pos).self_of_nhds
    simpa using this
  subst ha
  have hn : Tendsto (fun t : ℝ => -t) (𝓝 0) (𝓝 0) := by simpa using (continuous_neg (G := ℝ)).tendsto 0
  have h' : (fun t : ℝ => 0 + b * -t + c * (-t) ^ 2) =o[𝓝 0] fun t : ℝ => t ^ 2 :=
    (h.comp_tendsto hn).congr_right fun t => by simp
  have hc : c = 0 := by
    have := sq_not_little (c := 2 * c) ((h.add h').congr_left fun t => by ring)
    linarith
  subst hc
  refine ⟨rfl, ?_, rfl⟩
  have h1 : (fun t : ℝ => b * t) =o[𝓝 0] fun t : ℝ => t ^ 2 := h.congr_left fun t => by ring
  have h2 : (fun t : ℝ => t ^ 2) =O[𝓝 0] fun t : ℝ => t := by
    refine IsBigO.of_bound 1 ?_
    have : ∀ᶠ t : ℝ in 𝓝 0, |t| < 1 := by
      have := Metric.ball_mem_nhds (0 : ℝ) one_pos
      filter_upwards [this] with t ht
      simpa using ht
    filter_upwards [this] with t ht
    rw [norm_pow, Real.norm_eq_abs, one_mul]
    nlinarith [abs_nonneg t]
  have h3 := h1.trans_isBigO h2
  by_contra hb
  have h5 : (fun t : ℝ => t) =o[𝓝 0] fun t : ℝ => t := (isLittleO_const_mul_left_iff hb).1 h3
  have h4 := (isLittleO_iff.1 h5) (show (0 : ℝ) < 1 / 2 by norm_num)
  obtain ⟨r, hr, hbb⟩ := Metric.eventually_nhds_iff.1 h4
  have := hbb (y := r / 2) (by simp [abs_of_pos hr]; linarith)
  have hpos : 0 < ‖r / 2‖ := norm_pos_iff.2 (by positivity)
  linarith

/-- Along one variable. -/
theorem axis_unique {F F' : ℝ → ℝ} (hF : F =ᶠ[𝓝 0] F') {x y : UReal2 ℝ} {i : VId}
    (h : (fun t => F t - (x.mu + x.hg.G i * t + x.hg.H i i * t ^ 2)) =o[𝓝 0] fun t : ℝ => t ^ 2)
    (h' : (fun t => F' t - (y.mu + y.hg.G i * t + y.hg.H i i * t ^ 2)) =o[𝓝 0] fun t : ℝ => t ^ 2) :
    x.mu = y.mu ∧ x.hg.G i = y.hg.G i ∧ x.hg.H i i = y.hg.H i i := by
  have h1 : (fun t : ℝ => (x.mu - y.mu) + (x.hg.G i - y.hg.G i) * t + (x.hg.H i i - y.hg.H i i) * t ^ 2) =o[𝓝 0] fun t : ℝ => t ^ 2 := by
    refine (h'.sub h).congr' ?_ (Eventually.of_forall fun _ => rfl)
    filter_upwards [hF] with t ht
    rw [ht]; ring
  obtain ⟨h1, h2, h3⟩ := coeffs_zero h1
  exact ⟨sub_eq_zero.1 h1, sub_eq_zero.1 h2, sub_eq_zero.1 h3⟩

/-- With several variables. -/
theorem expands_unique {n : ℕ} {ids : Fin n → VId} {F F' : (Fin n → ℝ) → ℝ} (hF : F =ᶠ[𝓝 0] F') {x y : UReal2 ℝ}
    (h : Expands ids F x) (h' : Expands ids F' y) :
    x.mu = y.mu ∧ (∀ i, x.hg.G (ids i) = y.hg.G (ids i)) ∧ ∀ i j, x.hg.H (ids i) (ids j) = y.hg.H (ids i) (ids j) := by
  have hd : (fun z : Fin n → ℝ => (x.mu - y.mu) + (∑ i, x.hg.G (ids i) * z i - ∑ i, y.hg.G (ids i) * z i) +
      (∑ i, ∑ j, x.hg.H (ids i) (ids j) * z i * z j - ∑ i, ∑ j, y.hg.H (ids i) (ids j) * z i * z j)) =o[𝓝 0] fun z => ‖z‖ ^ 2 := by
    refine (IsLittleO.sub h' h).congr' ?_ (Eventually.of_forall fun _ => rfl)
    filter_upwards [hF] with z hz
    rw [hz]; ring
  have hline : ∀ v : Fin n → ℝ, x.mu - y.mu = 0 ∧ ∑ i, x.hg.G (ids i) * v i - ∑ i, y.hg.G (ids i) * v i = 0 ∧
      ∑ i, ∑ j, x.hg.H (ids i) (ids j) * v i * v j - ∑ i, ∑ j, y.hg.H (ids i) (ids j) * v i * v j = 0 := by
    intro v
    have ht : Tendsto (fun t : ℝ => t • v) (𝓝 0) (𝓝 0) := by
      have : Continuous fun t : ℝ => t • v := by fun_prop
      simpa using this.tendsto 0
    refine coeffs_zero ?_
    have h1 := (hd.comp_tendsto ht)
    have h2 : ((fun z : Fin n → ℝ => ‖z‖ ^ 2) ∘ fun t : ℝ => t • v) =O[𝓝 0] fun t : ℝ => t ^ 2 := by
      refine IsBigO.of_bound (‖v‖ ^ 2) (Eventually.of_forall fun t => ?_)
      simp only [Function.comp_apply, norm_smul, norm_pow, norm_mul, norm_norm]
      rw [mul_pow, mul_comm]
    refine (h1.trans_isBigO h2).congr_left fun t => ?_
    simp only [Function.comp_apply, Pi.smul_apply, smul_eq_mul]
    have e1 : ∀ g : Fin n → ℝ, ∑ i, g i * (t * v i) = (∑ i, g i * v i) * t := by
      intro g; rw [Finset.sum_mul]; exact Finset.sum_congr rfl fun i _ => by ring
    have e2 : ∀ g : Fin n → Fin n → ℝ, ∑ i, ∑ j, g i j * (t * v i) * (t * v j) = (∑ i, ∑ j, g i j * v i * v j) * t ^ 2 := by
      intro g
      rw [Finset.sum_mul]
      refine Finset.sum_congr rfl fun i _ => ?_
      rw [Finset.sum_mul]
      exact Finset.sum_congr rfl fun j _ => by ring
    rw [e1, e1, e2 fun i j => x.hg.H (ids i) (ids j), e2 fun i j => y.hg.H (ids i) (ids j)]
    ring
  have hm : x.mu = y.mu := sub_eq_zero.1 (hline 0).1
  have hG : ∀ i, x.hg.G (ids i) = y.hg.G (ids i) := by
    intro i
    have := (hline (Pi.single i 1)).2.1
    simpa [Pi.single_apply, sub_eq_zero] using this
  have hpair : ∀ (g : VId → VId → ℝ) i j, i ≠ j → ∑ k, ∑ l, g (ids k) (ids l) * (Pi.single i 1 + Pi.single j 1 : Fin n → ℝ) k *
      (Pi.single i 1 + Pi.single j 1 : Fin n → ℝ) l = g (ids i) (ids i) + g (ids i) (ids j) + g (ids j) (ids i) + g (ids j) (ids j) := by
    intro g i j _
    simp only [Pi.add_apply, mul_add, add_mul, Finset.sum_add_distrib, Pi.single_apply, mul_ite, mul_one, mul_zero, ite_mul, zero_mul,
      Finset.sum_ite_eq', Finset.mem_univ, if_true]
    ring
  have hHd : ∀ i, x.hg.H (ids i) (ids i) = y.hg.H (ids i) (ids i) := by
    intro i
    have := (hline (Pi.single i 1)).2.2
    simpa [Pi.single_apply, sub_eq_zero] using this
  refine ⟨hm, hG, fun i j => ?_⟩
  by_cases hij : i = j
  · rw [hij]; exact hHd j
  · have := (hline (Pi.single i 1 + Pi.single j 1)).2.2
    rw [hpair x.hg.H i j hij, hpair y.hg.H i j hij, H_comm x.hg (ids j) (ids i), H_comm y.hg (ids j) (ids i), hHd i, hHd j] at this
    linarith

/-! ## the variables and moments of the results -/

/-- usable, and all the stored variables and moments satisfy a condition -/
structure FineP (P : VId → Moments ℝ → Prop) (x : UReal2 ℝ) : Prop where
  ok : Ok2 x
  mom : ∀ i m, x.hg.momOf i = some m → P i m

theorem FineP.const (P : VId → Moments ℝ → Prop) (c : ℝ) : FineP P (UReal2.const c) :=
  ⟨ok_const c, fun i m h => by simp [UReal2.const, HessGrad.empty, momOf, find?] at h⟩

theorem FineP.unary {P : VId → Moments ℝ → Prop} {x z : UReal2 ℝ} (hx : FineP P x) {u : Moments ℝ} {f fx fxx : ℝ}
    (hz : UReal2.unary u x f fx fxx = some z) : FineP P z := by
  obtain ⟨z', e, ok⟩ := C21_unary hx.ok f fx fxx
  obtain rfl : z' = z := Option.some_inj.1 ((e u).symm.trans hz)
  exact ⟨ok, fun i m h => hx.mom i m ((C22_unary hx.ok hz).2.2.2 i ▸ h)⟩

theorem FineP.binary {P : VId → Moments ℝ → Prop} {x y z : UReal2 ℝ} (hx : FineP P x) (hy : FineP P y) {u : Moments ℝ}
    {f fx fy fxx fyy fxy : ℝ} (hz : UReal2.binary u x y f fx fy fxx fyy fxy = some z) : FineP P z := by
  obtain ⟨z', e, ok⟩ := C21_binary hx.ok hy.ok f fx fy fxx fyy fxy
  obtain rfl : z' = z := Option.some_inj.1 ((e u).symm.trans hz)
  refine ⟨ok, fun i m h => ?_⟩
  rw [(C22_binary hx.ok hy.ok hz).2.2.2 i] at h
  cases hxm : x.hg.momOf i with
  | some a =>
    rw [hxm] at h
    simp only [Option.some_or, Option.some.injEq] at h
    exact h ▸ hx.mom i a hxm
  | none =>
    rw [hxm] at h
    exact hy.mom i m (by simpa using h)

/-- Every result of a computation. -/
theorem evalU2_fine (P : VId → Moments ℝ → Prop) (p : List Node2) (acc : List (UReal2 ℝ)) (hacc : ∀ x ∈ acc, FineP P x)
    (hp : NodesRight2 p (acc.map UReal2.mu)) {out : List (UReal2 ℝ)} (ho : evalU2 p acc = some out) : ∀ x ∈ out, FineP P x := by
  induction p generalizing acc with
  | nil => cases ho; exact hacc
  | cons nd t ih =>
    have hget : ∀ a, FineP P (acc.getD a (UReal2.const 0)) ∧ (acc.getD a (UReal2.const 0)).mu = (acc.map UReal2.mu).getD a 0 := by
      intro a
      rw [List.getD_eq_getElem?_getD, List.getD_eq_getElem?_getD, List.getElem?_map]
      by_cases ha : a < acc.length
      · rw [List.getElem?_eq_getElem ha]; exact ⟨hacc _ (List.getElem_mem _), rfl⟩
      · rw [List.getElem?_eq_none (not_lt.1 ha)]; exact ⟨FineP.const P 0, rfl⟩
    have happ : ∀ {z}, FineP P z → ∀ x ∈ acc ++ [z], FineP P x := by
      intro z hz x hx
      rcases List.mem_append.1 hx with h | h
      · exact hacc x h
      · simp only [List.mem_singleton] at h; exact h ▸ hz
    cases nd with
    | const c => exact ih _ (happ (FineP.const P c)) (by simpa [NodesRight2, UReal2.const] using hp) ho
    | un g F a =>
      obtain ⟨-, ⟨d, dd, -, hg⟩, ht⟩ := hp
      obtain ⟨fa, ma⟩ := hget a
      obtain ⟨u, hu⟩ := hg _ fa.ok ma
      simp only [evalU2] at ho
      cases hz : g (acc.getD a (UReal2.const 0)) with
      | none => rw [hz] at ho; simp at ho
      | some z =>
        rw [hz] at ho
        rw [hz] at hu
        have fz := fa.unary hu.symm
        exact ih _ (happ fz) (by rw [List.map_append, List.map_singleton, (C22_unary fa.ok hu.symm).1]; exact ht) ho
    | bin g F a b =>
      obtain ⟨-, -, ⟨dx, dy, dxx, dyy, dxy, -, hg⟩, ht⟩ := hp
      obtain ⟨fa, ma⟩ := hget a
      obtain ⟨fb, mb⟩ := hget b
      obtain ⟨u, hu⟩ := hg _ _ fa.ok fb.ok ma mb
      simp only [evalU2] at ho
      cases hz : g (acc.getD a (UReal2.const 0)) (acc.getD b (UReal2.const 0)) with
      | none => rw [hz] at ho; simp at ho
      | some z =>
        rw [hz] at ho
        rw [hz] at hu
        have fz := fa.binary fb hu.symm
        exact ih _ (happ fz) (by rw [List.map_append, List.map_singleton, (C22_binary fa.ok fb.ok hu.symm).1]; exact ht) ho

/-- The results depend only on the elementary variables, and store their moments. -/
theorem evalU2_table {n : ℕ} {ids : Fin n → VId} {mu s : Fin n → ℝ} {mom : Fin n → Moments ℝ} {p : List Node2} (hlt : ∀ i, ids i < maxId)
    (hp : NodesRight2 p (List.ofFn mu)) {out : List (UReal2 ℝ)} (ho : evalU2 p (elems2 ids mu s mom) = some out) (k : ℕ) :
    FineP (fun i m => ∃ j, ids j = i ∧ m = mom j) (out.getD k (UReal2.const 0)) := by
  have h := evalU2_fine (fun i m => ∃ j, ids j = i ∧ m = mom j) p (elems2 ids mu s mom) (by
    intro x hx
    simp only [elems2, List.mem_ofFn] at hx
    obtain ⟨j, rfl⟩ := hx
    refine ⟨ok_elem2 (hlt j) _ _ _, fun i m h => ⟨j, ?_⟩⟩
    simp only [momOf, elem2, find?] at h
    split_ifs at h with hi
    · simp at h; exact ⟨hi, h.symm⟩
    · simp at h) (by simpa [elems2, List.map_ofFn, Function.comp_def, elem2] using hp) ho
  rw [List.getD_eq_getElem?_getD]
  by_cases hk : k < out.length
  · rw [List.getElem?_eq_getElem hk]; exact h _ (List.getElem_mem _)
  · rw [List.getElem?_eq_none (not_lt.1 hk)]; exact FineP.const _ 0

theorem table_agree {n : ℕ} {ids : Fin n → VId} (hinj : Function.Injective ids) {mom : Fin n → Moments ℝ} {x y : UReal2 ℝ}
    (hx : FineP (fun i m => ∃ j, ids j = i ∧ m = mom j) x) (hy : FineP (fun i m => ∃ j, ids j = i ∧ m = mom j) y) :
    AgreeMoments x.hg y.hg := by
  intro i a b ha hb
  obtain ⟨j, rfl, rfl⟩ := hx.mom i a ha
  obtain ⟨k, hk, rfl⟩ := hy.mom _ b hb
  rw [hinj hk]

theorem table_out {n : ℕ} {ids : Fin n → VId} {mom : Fin n → Moments ℝ} {x : UReal2 ℝ}
    (hx : FineP (fun i m => ∃ j, ids j = i ∧ m = mom j) x) {i : VId} (hi : ¬ ∃ j, ids j = i) : i ∉ x.hg.vars := by
  intro h
  obtain ⟨j, hj, -⟩ := hx.mom i _ (Mom.momOf_dOf h)
  exact hi ⟨j, hj⟩

/-! ## C49 -/

/-- **C49** The full statement: two computations in which every node passes its true derivatives, and which give the same function near the means of the
elementary variables, have results which can not be told apart.  It is false, see `C49_false`. -/
def C49_statement : Prop :=
  ∀ (n : ℕ) (ids : Fin n → VId) (mu s : Fin n → ℝ) (mom : Fin n → Moments ℝ) (p q : List Node2) (k l : ℕ),
    Function.Injective ids → (∀ i, ids i < maxId) → NodesRight2 p (List.ofFn mu) → NodesRight2 q (List.ofFn mu) →
    fn2 p mu s k =ᶠ[𝓝 0] fn2 q mu s l →
    ∃ out out', evalU2 p (elems2 ids mu s mom) = some out ∧ evalU2 q (elems2 ids mu s mom) = some out' ∧
      SameObs2 (out.getD k (UReal2.const 0)) (out'.getD l (UReal2.const 0))

section
variable {n : ℕ} {ids : Fin n → VId} {mu s : Fin n → ℝ} {mom : Fin n → Moments ℝ} {p q : List Node2} {k l : ℕ}

/-- **C49** (partial) True if there is only one variable, or the iteration over the Hessian works at every node (in particular for all computations with
`+`, `-`, `*`, and for functions of values which depend on one variable).  Missing: the other computations, for which it is false in
general; `C49_mean` is what remains. -/
theorem C49_partial (hinj : Function.Injective ids) (hlt : ∀ i, ids i < maxId) (hp : NodesRight2 p (List.ofFn mu))
    (hq : NodesRight2 q (List.ofFn mu)) (hip : n ≤ 1 ∨ NodesIter p (elems2 ids mu s mom)) (hiq : n ≤ 1 ∨ NodesIter q (elems2 ids mu s mom))
    (h : fn2 p mu s k =ᶠ[𝓝 0] fn2 q mu s l) :
    ∃ out out', evalU2 p (elems2 ids mu s mom) = some out ∧ evalU2 q (elems2 ids mu s mom) = some out' ∧
      SameObs2 (out.getD k (UReal2.const 0)) (out'.getD l (UReal2.const 0)) := by
  obtain ⟨out, e, -, ex⟩ := C36_taylor_partial hinj hlt hp hip
  obtain ⟨out', e', -, ex'⟩ := C36_taylor_partial hinj hlt hq hiq
  have f := evalU2_table hlt hp e k
  have f' := evalU2_table hlt hq e' l
  obtain ⟨hm, hG, hH⟩ := expands_unique h (ex k) (ex' l)
  refine ⟨out, out', e, e', sameObs2_of f.ok.valid f'.ok.valid (table_agree hinj f f') hm (fun i => ?_) fun i j => ?_⟩
  · by_cases hi : ∃ a, ids a = i
    · obtain ⟨a, rfl⟩ := hi; exact hG a
    · rw [Mom.G_out (table_out f hi), Mom.G_out (table_out f' hi)]
  · by_cases hi : ∃ a, ids a = i
    · by_cases hj : ∃ a, ids a = j
      · obtain ⟨a, rfl⟩ := hi; obtain ⟨b, rfl⟩ := hj; exact hH a b
      · rw [H_comm _ i j, H_comm _ i j, Mom.H_out f.ok.valid (table_out f hj), Mom.H_out f'.ok.valid (table_out f' hj)]
    · rw [Mom.H_out f.ok.valid (table_out f hi), Mom.H_out f'.ok.valid (table_out f' hi)]

/-- **C49** What does not depend on how the function is written, for every computation: the first order mean, the mean with the second order
correction in both propagation modes, the first derivatives, and the second derivatives which are not mixed. -/
theorem C49_mean (hinj : Function.Injective ids) (hlt : ∀ i, ids i < maxId) (hp : NodesRight2 p (List.ofFn mu))
    (hq : NodesRight2 q (List.ofFn mu)) (h : fn2 p mu s k =ᶠ[𝓝 0] fn2 q mu s l) :
    ∃ out out', evalU2 p (elems2 ids mu s mom) = some out ∧ evalU2 q (elems2 ids mu s mom) = some out' ∧
      (let x := out.getD k (UReal2.const 0)
       let y := out'.getD l (UReal2.const 0)
       x.mu = y.mu ∧ x.m 1 = y.m 1 ∧ (∀ a, x.n a = y.n a) ∧ (∀ u z, UReal2.grad u x z = UReal2.grad u y z) ∧
        ∀ u z, UReal2.hess u x z z = UReal2.hess u y z z) := by
  obtain ⟨out, e, -, ex⟩ := C36_axis (mom := mom) (s := s) hinj hlt hp
  obtain ⟨out', e', -, ex'⟩ := C36_axis (mom := mom) (s := s) hinj hlt hq
  refine ⟨out, out', e, e', ?_⟩
  have f := evalU2_table hlt hp e k
  have f' := evalU2_table hlt hq e' l
  have hax : ∀ i, fn2 p mu s k (Pi.single i 0) = fn2 q mu s l (Pi.single i 0) ∧
      (fun t => fn2 p mu s k (Pi.single i t)) =ᶠ[𝓝 0] fun t => fn2 q mu s l (Pi.single i t) := by
    intro i
    have ht : Tendsto (fun t : ℝ => (Pi.single i t : Fin n → ℝ)) (𝓝 0) (𝓝 0) := by
      have : Continuous fun t : ℝ => (Pi.single i t : Fin n → ℝ) :=
        continuous_single (A := fun _ : Fin n => ℝ) i
      simpa using this.tendsto 0
    exact ⟨by rw [Pi.single_zero, h.eq_of_nhds], ht.eventually h⟩
  have hmu : (out.getD k (UReal2.const 0)).mu = (out'.getD l (UReal2.const 0)).mu := by
    rcases Nat.eq_zero_or_pos n with h0 | h0
    · obtain ⟨o, eo, -, xo⟩ := C36_taylor_partial (mom := mom) (s := s) hinj hlt hp (Or.inl (by omega))
      obtain ⟨o', eo', -, xo'⟩ := C36_taylor_partial (mom := mom) (s := s) hinj hlt hq (Or.inl (by omega))
      cases e.symm.trans eo
      cases e'.symm.trans eo'
      exact (expands_unique h (xo k) (xo' l)).1
    · exact (axis_unique (hax ⟨0, h0⟩).2 (ex k _) (ex' l _)).1
  have hG : ∀ i, (out.getD k (UReal2.const 0)).hg.G i = (out'.getD l (UReal2.const 0)).hg.G i := by
    intro i
    by_cases hi : ∃ a, ids a = i
    · obtain ⟨a, rfl⟩ := hi; exact (axis_unique (hax a).2 (ex k a) (ex' l a)).2.1
    · rw [Mom.G_out (table_out f hi), Mom.G_out (table_out f' hi)]
  have hH : ∀ i, (out.getD k (UReal2.const 0)).hg.H i i = (out'.getD l (UReal2.const 0)).hg.H i i := by
    intro i
    by_cases hi : ∃ a, ids a = i
    · obtain ⟨a, rfl⟩ := hi; exact (axis_unique (hax a).2 (ex k a) (ex' l a)).2.2
    · rw [Mom.H_out f.ok.valid (table_out f hi), Mom.H_out f'.ok.valid (table_out f' hi)]
  generalize out.getD k (UReal2.const 0) = x at *
  generalize out'.getD l (UReal2.const 0) = y at *
  have hm : x.m 1 = y.m 1 := by
    rw [Mom.m_one' f.ok.valid, Mom.m_one' f'.ok.valid, Mom.m1_sum f.ok.valid (Finset.subset_union_left (s₂ := y.hg.vars)),
      Mom.m1_sum f'.ok.valid (Finset.subset_union_right (s₁ := x.hg.vars))]
    simp only [hH]
  refine ⟨hmu, hm, fun a => by rw [UReal2.n, UReal2.n, hm, hmu], fun u z => ?_, fun u z => ?_⟩
  · unfold UReal2.grad; simp only [diagGet_grad, hG]
  · unfold UReal2.hess
    rcases z.hg.diagmap with _ | ⟨⟨i, d⟩, _ | ⟨_, _⟩⟩
    · rfl
    · simp only [diagGet_grad, hhessGet_eq, hG, hH, ne_eq, not_true_eq_false, if_false]
    · rfl

end

/-- **C49** is false: `exp(x + y)` and `exp(x) * exp(y)` are the same function, but their second derivatives (and their uncertainties) are different. -/
theorem C49_false : ¬ C49_statement := by
  intro h
  have o1 : Ok2 (elem2 1 0 1 exN) := ok_elem2 (by decide) 0 1 exN
  have o2 : Ok2 (elem2 2 0 1 exN) := ok_elem2 (by decide) 0 1 exN
  obtain ⟨out, out', e, e', hs⟩ := h 2 ![1, 2] 0 1 (fun _ => exN) exExpSum
    [.un (UMath2.exp exN) Real.exp 0, .un (UMath2.exp exN) Real.exp 1, .bin (UReal2.mul exN) (fun s t => s * t) 2 3] 3 4 (by decide) (by decide)
    ⟨by simp, by simp, C35_add _ _ _, by simp, C35_exp _ _, trivial⟩
    ⟨by simp, C35_exp _ _, by simp, C35_exp _ _, by simp, by simp, C35_mul _ _ _, trivial⟩
    (Eventually.of_forall fun z => by simp [fn2, exExpSum, evalR2, Real.exp_add])
  -- `exp(x + y)`
  obtain ⟨S, eS, okS⟩ := C21_binary o1 o2 (0 + 0 : ℝ) 1 1 0 0 0
  have hS : UReal2.add exN (elem2 1 0 1 exN) (elem2 2 0 1 exN) = some S := eS exN
  obtain ⟨z, ez, okz⟩ := C21_unary okS (Real.exp S.mu) (Real.exp S.mu) (Real.exp S.mu)
  have hz : UMath2.exp exN S = some z := ez exN
  have hmix : D2 z 1 2 = 0 :=
    (C23_function_of_sum (i := 1) (j := 2) (by decide) (by decide) _ _ 0 0 _ _ _ (Real.exp_pos _).ne' hS (ez exN)).1
  have hout : evalU2 exExpSum (elems2 ![1, 2] 0 1 fun _ => exN) = some [elem2 1 0 1 exN, elem2 2 0 1 exN, S, z] := by
    simp [exExpSum, evalU2, elems2, hS, hz]
  -- `exp(x) * exp(y)`
  obtain ⟨d, dd, hd, hg⟩ := C35_result1 (C35_exp exN 0)
  obtain ⟨rfl, rfl⟩ := Derivs1.unique hd ⟨Real.exp, Eventually.of_forall Real.hasDerivAt_exp, Real.hasDerivAt_exp 0, rfl⟩
  obtain ⟨a, ea, oka, ma, Ga, va, -⟩ := hg _ o1 rfl
  obtain ⟨b, eb, okb, mb, Gb, vb, -⟩ := hg _ o2 rfl
  obtain ⟨w, ew, okw⟩ := C21_binary oka okb (a.mu * b.mu) b.mu a.mu 0 0 1
  have hw : UReal2.mul exN a b = some w := ew exN
  have hout' : evalU2 [.un (UMath2.exp exN) Real.exp 0, .un (UMath2.exp exN) Real.exp 1, .bin (UReal2.mul exN) (fun s t => s * t) 2 3]
      (elems2 ![1, 2] 0 1 fun _ => exN) = some [elem2 1 0 1 exN, elem2 2 0 1 exN, a, b, w] := by
    simp [evalU2, elems2, ea, eb, hw]
  have hmix' : D2 w 1 2 = 1 := by
    have va' : (2 : VId) ∉ a.hg.vars := by rw [va]; simp [elem2, HessGrad.vars]
    have vb' : (1 : VId) ∉ b.hg.vars := by rw [vb]; simp [elem2, HessGrad.vars]
    have h1 : D2 a 1 2 = 0 := by rw [D2, H_comm, Mom.H_out oka.valid va', mul_zero]
    have h2 : D2 b 1 2 = 0 := by rw [D2, Mom.H_out okb.valid vb', mul_zero]
    rw [(C23_mul oka okb hw).2.2 1 2, h1, h2, Ga, Ga, Gb, Gb, G_elem2, G_elem2, G_elem2, G_elem2]
    simp
  rw [hout] at e
  rw [hout'] at e'
  cases e
  cases e'
  have hh := hs.hess exN (elem2 1 0 1 exN) (elem2 2 0 1 exN)
  simp only [List.getD_eq_getElem?_getD, List.getElem?_cons_succ, List.getElem?_cons_zero, Option.getD_some] at hh
  simp [UReal2.hess, elem2, hhessGet_eq] at hh
  unfold D2 at hmix hmix'
  rw [show z.hg.H 1 2 = 0 by linarith, show w.hg.H 1 2 = 1 / 2 by linarith] at hh
  norm_num [Mom.lit] at hh

/-- `exp(2 log(x))` and `x * x` -/
example (m s : ℝ) (hm : 0 < m) (mom : Moments ℝ) : ∃ out out',
    evalU2 [.un (UMath2.log exN) Real.log 0, .bin (UReal2.add exN) (fun s t => s + t) 1 1, .un (UMath2.exp exN) Real.exp 2]
      (elems2 ![4] ![m] ![s] ![mom]) = some out ∧
    evalU2 [.bin (UReal2.mul exN) (fun s t => s * t) 0 0] (elems2 ![4] ![m] ![s] ![mom]) = some out' ∧
    SameObs2 (out.getD 3 (UReal2.const 0)) (out'.getD 1 (UReal2.const 0)) := by
  refine C49_partial (by decide) (by decide)
    ⟨by simp, C35_log _ (by simpa using hm), by simp, by simp, C35_add _ _ _, by simp, C35_exp _ _, trivial⟩
    ⟨by simp, by simp, C35_mul _ _ _, trivial⟩ (Or.inl le_rfl) (Or.inl le_rfl) ?_
  have ht : Tendsto (fun z : Fin 1 → ℝ => m + s * z 0) (𝓝 0) (𝓝 m) := by
    have : Continuous fun z : Fin 1 → ℝ => m + s * z 0 := by fun_prop
    simpa using this.tendsto 0
  filter_upwards [ht.eventually (lt_mem_nhds hm)] with z hz
  simp [fn2, evalR2, Real.exp_add, Real.exp_log hz]

/-- The means of `exp(x + y)` and `exp(x) * exp(y)` are the same. -/
example : ∃ out out', evalU2 exExpSum (elems2 ![1, 2] ![3, 4] ![1, 2] fun _ => exN) = some out ∧
    evalU2 [.un (UMath2.exp exN) Real.exp 0, .un (UMath2.exp exN) Real.exp 1, .bin (UReal2.mul exN) (fun s t => s * t) 2 3]
      (elems2 ![1, 2] ![3, 4] ![1, 2] fun _ => exN) = some out' ∧
    (out.getD 3 (UReal2.const 0)).n .mean = (out'.getD 4 (UReal2.const 0)).n .mean := by
  obtain ⟨out, out', e, e', -, -, h, -⟩ := C49_mean (ids := ![1, 2]) (mu := ![3, 4]) (s := ![1, 2]) (mom := fun _ => exN) (k := 3) (l := 4)
    (p := exExpSum)
    (q := [.un (UMath2.exp exN) Real.exp 0, .un (UMath2.exp exN) Real.exp 1, .bin (UReal2.mul exN) (fun s t => s * t) 2 3]) (by decide) (by decide)
    ⟨by simp, by simp, C35_add _ _ _, by simp, C35_exp _ _, trivial⟩
    ⟨by simp, C35_exp _ _, by simp, C35_exp _ _, by simp, by simp, C35_mul _ _ _, trivial⟩
    (Eventually.of_forall fun z => by simp [fn2, exExpSum, evalR2, Real.exp_add])
  exact ⟨out, out', e, e', h .mean⟩

end Unc.Props
