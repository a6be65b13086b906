import Verif.Spec.Both
import Verif.Props.AutoDiff
import Verif.Props.Taylor

/-! # The first-order and the second-order type agree to first order (C37) -/

namespace Unc.Props
open Unc Unc.Spec UReal

/-- **C37** One call: a function that propagates its derivative on `UReal` and one that passes it on `UReal2`, for the same real
function, give values that agree, on arguments that agree. -/
theorem C37_call1 {g1 : UReal ℝ → UReal ℝ} {g2 : UReal2 ℝ → Option (UReal2 ℝ)} {F : ℝ → ℝ} {a : ℝ} (h1 : Propagates1 g1 F a)
    (h2 : Passes1 g2 F a) {x : UReal ℝ} {y : UReal2 ℝ} (hx : Ok x) (hy : Ok2 y) (ha : x.n = a) (hxy : Agree x y) :
    Ok (g1 x) ∧ ∃ z, g2 y = some z ∧ Ok2 z ∧ Agree (g1 x) z := by
  obtain ⟨d, hd, hg1⟩ := h1
  obtain ⟨d', dd, hd', hg2⟩ := C35_result1 h2
  obtain ⟨D, hD, -, rfl⟩ := hd'
  have hdd : d = D a := hd.unique hD.self_of_nhds
  obtain ⟨ok1, n1, c1⟩ := hg1 x hx ha
  obtain ⟨z, e, ok2, m2, G2, -⟩ := hg2 y hy (hxy.1 ▸ ha)
  refine ⟨ok1, z, e, ok2, by rw [n1, m2], fun j => ?_⟩
  rw [coef_of_cov1 hx.valid ok1.valid c1, G2, hdd, hxy.2]

example : ∃ z, UMath2.exp exN (elem2 1 5 3 exN) = some z ∧ Agree (UMath.exp ⟨1, 3, 5, []⟩) z := by
  obtain ⟨-, z, e, -, h⟩ := C37_call1 (C14_exp 5) (C35_exp exN 5) (x := ⟨1, 3, 5, []⟩) (y := elem2 1 5 3 exN)
    ⟨valid_of_nonneg_id ⟨by simp, by simp, by simp, by simp⟩ (by simp), by simp [UReal.Below, UReal.deps, maxId]⟩ (ok_elem2 (by decide) _ _ _) rfl
    ⟨rfl, fun j => by
      rcases eq_or_ne j 1 with rfl | h
      · simp [UReal.coef, elem2, HessGrad.G, SMap.find?]
      · simp [UReal.coef, elem2, HessGrad.G, SMap.find?, h, h.symm]⟩
  exact ⟨z, e, h⟩

theorem C37_call2 {g1 : UReal ℝ → UReal ℝ → Option (UReal ℝ)} {g2 : UReal2 ℝ → UReal2 ℝ → Option (UReal2 ℝ)} {F : ℝ → ℝ → ℝ} {a b : ℝ}
    (h1 : Propagates2 g1 F a b) (h2 : Passes2 g2 F a b) {x x' : UReal ℝ} {y y' : UReal2 ℝ} (hx : Ok x) (hx' : Ok x') (hy : Ok2 y)
    (hy' : Ok2 y') (ha : x.n = a) (hb : x'.n = b) (hxy : Agree x y) (hxy' : Agree x' y') :
    ∃ w z, g1 x x' = some w ∧ g2 y y' = some z ∧ Ok w ∧ Ok2 z ∧ Agree w z := by
  obtain ⟨dx, dy, hd, hg1⟩ := h1
  obtain ⟨dx', dy', dxx, dyy, dxy, hd', hg2⟩ := C35_result2 h2
  obtain ⟨Dx, Dy, hD, -, -, rfl, rfl⟩ := hd'
  obtain ⟨e1, e2⟩ := lin_inj (hd.unique hD.self_of_nhds)
  obtain ⟨w, ew, ok1, n1, c1⟩ := hg1 x x' hx hx' ha hb
  obtain ⟨z, ez, ok2, m2, G2, -⟩ := hg2 y y' hy hy' (hxy.1 ▸ ha) (hxy'.1 ▸ hb)
  refine ⟨w, z, ew, ez, ok1, ok2, by rw [n1, m2], fun j => ?_⟩
  rw [coef_of_cov2 hx.valid hx'.valid ok1.valid c1, G2, e1, e2, hxy.2, hxy'.2]

example : ∃ w z, UReal.mul ⟨1, 3, 5, []⟩ ⟨1, 3, 5, []⟩ = some w ∧ UReal2.mul exN (elem2 1 5 3 exN) (elem2 1 5 3 exN) = some z ∧ Agree w z := by
  have ok : Ok (⟨1, 3, 5, []⟩ : UReal ℝ) :=
    ⟨valid_of_nonneg_id ⟨by simp, by simp, by simp, by simp⟩ (by simp), by simp [UReal.Below, UReal.deps, maxId]⟩
  have ag : Agree ⟨1, 3, 5, []⟩ (elem2 1 5 3 exN) := ⟨rfl, fun j => by
    rcases eq_or_ne j 1 with rfl | h
    · simp [UReal.coef, elem2, HessGrad.G, SMap.find?]
    · simp [UReal.coef, elem2, HessGrad.G, SMap.find?, h, h.symm]⟩
  obtain ⟨w, z, e1, e2, -, -, h⟩ := C37_call2 (C14_mul 5 5) (C35_mul exN 5 5) ok ok (ok_elem2 (by decide) _ _ _) (ok_elem2 (by decide) _ _ _) rfl rfl ag ag
  exact ⟨w, z, e1, e2, h⟩

/-- both invariants and agreement -/
structure Both (x : UReal ℝ) (y : UReal2 ℝ) : Prop where
  ok1 : Ok x
  ok2 : Ok2 y
  agree : Agree x y

theorem both_const (c : ℝ) : Both (UReal.const c) (UReal2.const c) :=
  ⟨⟨valid_const _, by simp [Below, deps, UReal.const]⟩, ok_const c, rfl, fun j => by
    simp [coef, UReal.const, UReal2.const, HessGrad.G, HessGrad.empty, SMap.find?]⟩

theorem both_elem {i : VId} (hpos : 0 < i) (hlt : i < maxId) (mu s : ℝ) (m : Moments ℝ) : Both ⟨i, s, mu, []⟩ (elem2 i mu s m) := by
  refine ⟨⟨valid_of_nonneg_id ⟨fun h => absurd h hpos.ne', fun _ => rfl, by simp, by simp⟩ hpos.le, ?_⟩, ok_elem2 hlt mu s m, rfl, fun j => ?_⟩
  · intro j hj
    simp only [deps, hpos, if_true, Finset.mem_singleton] at hj
    rw [hj]; exact hlt
  · rw [G_elem2]
    simp only [coef, hpos, if_true]
    simp [eq_comm]

theorem both_get {l1 : List (UReal ℝ)} {l2 : List (UReal2 ℝ)} (h : List.Forall₂ Both l1 l2) (a : ℕ) :
    Both (l1.getD a (UReal.const 0)) (l2.getD a (UReal2.const 0)) := by
  rw [List.getD_eq_getElem?_getD, List.getD_eq_getElem?_getD]
  by_cases ha : a < l1.length
  · have ha' : a < l2.length := h.length_eq ▸ ha
    rw [List.getElem?_eq_getElem ha, List.getElem?_eq_getElem ha']
    exact h.get ha ha'
  · rw [List.getElem?_eq_none (not_lt.1 ha), List.getElem?_eq_none (h.length_eq ▸ not_lt.1 ha)]
    exact both_const 0

theorem both_eval (p : List Node12) (l1 : List (UReal ℝ)) (l2 : List (UReal2 ℝ)) (vals : List ℝ) (h : List.Forall₂ Both l1 l2)
    (hv : ∀ a, (l1.getD a (UReal.const 0)).n = vals.getD a 0) (hlen : l1.length = vals.length)
    (h1 : NodesRight (p.map Node12.fst) vals) (h2 : NodesRight2 (p.map Node12.snd) vals) :
    ∃ o1 o2, evalU (p.map Node12.fst) l1 = some o1 ∧ evalU2 (p.map Node12.snd) l2 = some o2 ∧ List.Forall₂ Both o1 o2 := by
  induction p generalizing l1 l2 vals with
  | nil => exact ⟨l1, l2, rfl, rfl, h⟩
  | cons nd t ih =>
    have happ : ∀ {x y}, Both x y → List.Forall₂ Both (l1 ++ [x]) (l2 ++ [y]) := fun hr =>
      List.rel_append (R := Both) h (List.Forall₂.cons hr .nil)
    have hval : ∀ {x : UReal ℝ} {v : ℝ}, x.n = v → ∀ a, ((l1 ++ [x]).getD a (UReal.const 0)).n = (vals ++ [v]).getD a 0 := by
      intro x v hx a
      have hva := hv a
      simp only [List.getD_eq_getElem?_getD] at hva ⊢
      rcases lt_trichotomy a l1.length with ha | ha | ha
      · rw [List.getElem?_append_left ha, List.getElem?_append_left (hlen ▸ ha)]; exact hva
      · rw [List.getElem?_append_right ha.ge, List.getElem?_append_right (hlen ▸ ha.ge), ← hlen, ha]
        simpa using hx
      · rw [List.getElem?_eq_none (by simp; omega), List.getElem?_eq_none (by simp; omega)]
        rfl
    cases nd with
    | const c =>
      exact ih _ _ _ (happ (both_const c)) (hval rfl) (by simp [hlen]) h1 h2
    | un g1 g2 F a =>
      obtain ⟨-, hp1, ht1⟩ := h1
      obtain ⟨-, hp2, ht2⟩ := h2
      have hb := both_get h a
      have hm := hv a
      obtain ⟨ok1, z, e, ok2, ag⟩ := C37_call1 hp1 hp2 hb.ok1 hb.ok2 hm hb.agree
      have hn : (g1 (l1.getD a (UReal.const 0))).n = F (vals.getD a 0) := by
        obtain ⟨d, -, hg⟩ := hp1
        exact (hg _ hb.ok1 hm).2.1
      obtain ⟨o1, o2, e1, e2, hf⟩ := ih _ _ _ (happ ⟨ok1, ok2, ag⟩) (hval hn) (by simp [hlen]) ht1 ht2
      refine ⟨o1, o2, e1, ?_, hf⟩
      simp only [List.map_cons, Node12.snd, evalU2, e]
      exact e2
    | bin g1 g2 F a b =>
      obtain ⟨-, -, hp1, ht1⟩ := h1
      obtain ⟨-, -, hp2, ht2⟩ := h2
      have hb := both_get h a
      have hb' := both_get h b
      obtain ⟨w, z, ew, ez, ok1, ok2, ag⟩ := C37_call2 hp1 hp2 hb.ok1 hb'.ok1 hb.ok2 hb'.ok2 (hv a) (hv b) hb.agree hb'.agree
      have hn : w.n = F (vals.getD a 0) (vals.getD b 0) := by
        obtain ⟨dx, dy, -, hg⟩ := hp1
        obtain ⟨w', ew', -, hw, -⟩ := hg _ _ hb.ok1 hb'.ok1 (hv a) (hv b)
        rw [ew] at ew'; cases ew'; exact hw
      obtain ⟨o1, o2, e1, e2, hf⟩ := ih _ _ _ (happ ⟨ok1, ok2, ag⟩) (hval hn) (by simp [hlen]) ht1 ht2
      refine ⟨o1, o2, ?_, ?_, hf⟩
      · simp only [List.map_cons, Node12.fst, evalU, ew]; exact e1
      · simp only [List.map_cons, Node12.snd, evalU2, ez]; exact e2

/-- **C37** The full statement: the same computation with the functions of the library called on `UReal` and on `UReal2`, at
points where the real functions are twice differentiable, gives values that agree.  Here for `atan2`; it is false. -/
def C37_statement_atan2 : Prop :=
  ∀ (x x' : UReal ℝ) (y y' : UReal2 ℝ), Ok x → Ok x' → Ok2 y → Ok2 y' → Agree x y → Agree x' y' → (0 < x'.n ∨ x.n ≠ 0) →
    ∀ u w z, UMath.atan2 x x' = some w → UMath2.atan2 u y y' = some z → Agree w z

/-- **C37** (partial) The same computation with `UReal` and `UReal2`, from the same variables, has no undefined behaviour and gives
values that agree, for nodes that are right on both sides: by C14 and C35 all functions and operators of the library except
`atan2`, where the two types disagree (`C37_atan2_false`), and `cbrt` of negative values (`C14_cbrt_nan`). -/
theorem C37_first_order_partial {n : ℕ} {ids : Fin n → VId} (hpos : ∀ i, 0 < ids i) (hlt : ∀ i, ids i < maxId) (mu s : Fin n → ℝ)
    (mom : Fin n → Moments ℝ) (p : List Node12) (h1 : NodesRight (p.map Node12.fst) (List.ofFn mu))
    (h2 : NodesRight2 (p.map Node12.snd) (List.ofFn mu)) :
    ∃ o1 o2, evalU (p.map Node12.fst) (elems ids mu s) = some o1 ∧ evalU2 (p.map Node12.snd) (elems2 ids mu s mom) = some o2 ∧
      o1.length = o2.length ∧ ∀ k, Agree (o1.getD k (UReal.const 0)) (o2.getD k (UReal2.const 0)) := by
  have h0 : List.Forall₂ Both (elems ids mu s) (elems2 ids mu s mom) := by
    rw [elems, elems2, List.forall₂_iff_get]
    refine ⟨by simp, fun i hi hi' => ?_⟩
    simp only [List.get_ofFn]
    exact both_elem (hpos _) (hlt _) _ _ _
  have hm : ∀ a, ((elems ids mu s).getD a (UReal.const 0)).n = (List.ofFn mu).getD a 0 := by
    intro a
    unfold elems
    simp only [List.getD_eq_getElem?_getD]
    by_cases ha : a < n
    · rw [List.getElem?_eq_getElem (by simpa using ha), List.getElem?_eq_getElem (by simpa using ha)]
      simp [UReal.n]
    · rw [List.getElem?_eq_none (by simpa using ha), List.getElem?_eq_none (by simpa using ha)]
      rfl
  obtain ⟨o1, o2, e1, e2, hf⟩ := both_eval p _ _ (List.ofFn mu) h0 hm (by simp [elems]) h1 h2
  exact ⟨o1, o2, e1, e2, hf.length_eq, fun k => (both_get hf k).agree⟩

/-- `x y + exp(x)` with both types -/
example : ∃ o1 o2, evalU [.bin UReal.mul (fun s t => s * t) 0 1, .un UMath.exp Real.exp 0, .bin UReal.add (fun s t => s + t) 2 3] (elems ![1, 2] ![3, 4] ![1, 2]) = some o1 ∧
    evalU2 [.bin (UReal2.mul exN) (fun s t => s * t) 0 1, .un (UMath2.exp exN) Real.exp 0, .bin (UReal2.add exN) (fun s t => s + t) 2 3]
      (elems2 ![1, 2] ![3, 4] ![1, 2] fun _ => exN) = some o2 ∧
    Agree (o1.getD 4 (UReal.const 0)) (o2.getD 4 (UReal2.const 0)) := by
  obtain ⟨o1, o2, e1, e2, -, h⟩ := C37_first_order_partial (ids := ![1, 2]) (by decide) (by decide) ![3, 4] ![1, 2] (fun _ => exN)
    [.bin UReal.mul (UReal2.mul exN) (fun s t => s * t) 0 1, .un UMath.exp (UMath2.exp exN) Real.exp 0,
      .bin UReal.add (UReal2.add exN) (fun s t => s + t) 2 3]
    ⟨by simp, by simp, C14_mul _ _, by simp, C14_exp _, by simp, by simp, C14_add _ _, trivial⟩
    ⟨by simp, by simp, C35_mul _ _ _, by simp, C35_exp _ _, by simp, by simp, C35_add _ _ _, trivial⟩
  exact ⟨o1, o2, e1, e2, h 4⟩

/-- **C37** `atan2` of the two types: opposite derivatives, for all arguments with first mean not 0. -/
theorem C37_atan2_opposite {x x' : UReal ℝ} {y y' : UReal2 ℝ} (hx : Ok x) (hx' : Ok x') (hy : Ok2 y) (hy' : Ok2 y') (h : Agree x y)
    (h' : Agree x' y') (ha : x.n ≠ 0) (u : Moments ℝ) :
    ∃ w z, UMath.atan2 x x' = some w ∧ UMath2.atan2 u y y' = some z ∧ w.n = z.mu ∧ ∀ j, w.coef j = - z.hg.G j := by
  obtain ⟨dx, dy, hd, hg⟩ := C14_atan2_partial (a := x.n) (b := x'.n) ha
  obtain ⟨dx', dy', dxx, dyy, dxy, hd', hg2⟩ := C35_result2 (C35_atan2 u (a := x.n) (b := x'.n) (Or.inr ha))
  obtain ⟨Dx, Dy, hD, -, -, rfl, rfl⟩ := hd'
  obtain ⟨e1, e2⟩ := lin_inj (hd.unique hD.self_of_nhds)
  obtain ⟨w, ew, okw, nw, cw, -⟩ := hg x x' hx hx' rfl rfl
  obtain ⟨z, ez, -, mz, Gz, -⟩ := hg2 y y' hy hy' h.1.symm h'.1.symm
  refine ⟨w, z, ew, ez, by rw [nw, mz], fun j => ?_⟩
  rw [coef_of_cov2 (d := -dx) (e := -dy) hx.valid hx'.valid okw.valid (fun v hv => by rw [cw v hv]; ring), Gz, h.2, h'.2, e1, e2]
  ring

example : ∃ w z, UMath.atan2 ⟨1, 3, 5, []⟩ ⟨2, 4, -2, []⟩ = some w ∧ UMath2.atan2 exN (elem2 1 5 3 exN) (elem2 2 (-2) 4 exN) = some z ∧ w.n = z.mu ∧
    ∀ j, w.coef j = - z.hg.G j :=
  C37_atan2_opposite ⟨valid_of_nonneg_id ⟨by simp, by simp, by simp, by simp⟩ (by simp), by simp [UReal.Below, UReal.deps, maxId]⟩
    ⟨valid_of_nonneg_id ⟨by simp, by simp, by simp, by simp⟩ (by simp), by simp [UReal.Below, UReal.deps, maxId]⟩
    (ok_elem2 (by decide) _ _ _) (ok_elem2 (by decide) _ _ _)
    ⟨rfl, fun j => by
      rcases eq_or_ne j 1 with rfl | h
      · simp [UReal.coef, elem2, HessGrad.G, SMap.find?]
      · simp [UReal.coef, elem2, HessGrad.G, SMap.find?, h, h.symm]⟩
    ⟨rfl, fun j => by
      rcases eq_or_ne j 2 with rfl | h
      · simp [UReal.coef, elem2, HessGrad.G, SMap.find?]
      · simp [UReal.coef, elem2, HessGrad.G, SMap.find?, h, h.symm]⟩ (by simp [UReal.n]) exN

/-- **C37** is false for `atan2`: at (1, 1), with an uncertainty on the first argument, the coefficients are -1/2 and 1/2. -/
theorem C37_atan2_false : ¬ C37_statement_atan2 := by
  intro hs
  have hb := both_elem (i := 1) (by decide) (by decide) 1 1 exN
  have hc := both_const 1
  obtain ⟨w, z, ew, ez, -, hj⟩ := C37_atan2_opposite hb.ok1 hc.ok1 hb.ok2 hc.ok2 hb.agree hc.agree (by simp [UReal.n]) exN
  have hag := hs _ _ _ _ hb.ok1 hc.ok1 hb.ok2 hc.ok2 hb.agree hc.agree (Or.inl (by simp [UReal.n, UReal.const])) exN w z ew ez
  have h1 := hag.2 1
  rw [hj 1] at h1
  obtain ⟨-, hG, -⟩ := C22_binary hb.ok2 hc.ok2 ez
  have h2 := hG 1
  rw [G_elem2] at h2
  simp [elem2, UReal2.const, HessGrad.G, HessGrad.empty, SMap.find?] at h2
  rw [show z.hg.G 1 = _ from h2] at h1
  norm_num at h1

end Unc.Props
