import Verif.Spec.Expr
import Verif.Props.Math
import Mathlib.Analysis.Calculus.FDeriv.Pi

/-! # First-order propagation through whole computations (C13) -/

namespace Unc.Props
open Unc Unc.Spec UReal

section helpers
variable {n : ℕ}

/-- unit uncertain number used to read a coefficient through `cov` -/
noncomputable def probe (j : ℤ) : UReal ℝ := ⟨j, 1, 0, []⟩

theorem valid_probe {j : ℤ} (h : 0 < j) : (probe j).Valid :=
  valid_of_nonneg_id ⟨fun h' => absurd h' h.ne', by simp [probe], by simp [probe], by simp [probe]⟩ h.le

theorem cov_probe {z : UReal ℝ} (hz : z.Valid) {j : ℤ} (h : 0 < j) : cov z (probe j) = z.coef j := by
  rw [cov_eq hz.wf (valid_probe h).wf, LinForm.cov_eq_sum' (supported _) {j} (by simp [toLin, deps, probe, h])]
  simp [toLin, coef, probe, h]

theorem coef_nonpos {z : UReal ℝ} (hz : z.Valid) {j : ℤ} (h : ¬ 0 < j) : z.coef j = 0 :=
  coef_of_not_mem fun hm => h (deps_pos hz.wf j hm)

theorem coef_of_cov1 {x z : UReal ℝ} (hx : x.Valid) (hz : z.Valid) {d : ℝ} (h : ∀ w : UReal ℝ, w.Valid → cov z w = d * cov x w) (j : ℤ) :
    z.coef j = d * x.coef j := by
  by_cases hj : 0 < j
  · have := h _ (valid_probe hj)
    rwa [cov_probe hz hj, cov_probe hx hj] at this
  · rw [coef_nonpos hz hj, coef_nonpos hx hj, mul_zero]

theorem coef_of_cov2 {x y z : UReal ℝ} (hx : x.Valid) (hy : y.Valid) (hz : z.Valid) {d e : ℝ}
    (h : ∀ w : UReal ℝ, w.Valid → cov z w = d * cov x w + e * cov y w) (j : ℤ) :
    z.coef j = d * x.coef j + e * y.coef j := by
  by_cases hj : 0 < j
  · have := h _ (valid_probe hj)
    rwa [cov_probe hz hj, cov_probe hx hj, cov_probe hy hj] at this
  · rw [coef_nonpos hz hj, coef_nonpos hx hj, coef_nonpos hy hj]; ring

/-- the computation on functions -/
def evalG : List Node → List ((Fin n → ℝ) → ℝ) → List ((Fin n → ℝ) → ℝ)
  | [], acc => acc
  | .const c :: t, acc => evalG t (acc ++ [fun _ : Fin n → ℝ => c])
  | .un _ F a :: t, acc => evalG t (acc ++ [fun v => F (acc.getD a (fun _ => 0) v)])
  | .bin _ F a b :: t, acc => evalG t (acc ++ [fun v => F (acc.getD a (fun _ => 0) v) (acc.getD b (fun _ => 0) v)])

theorem getD_map (acc : List ((Fin n → ℝ) → ℝ)) (v : Fin n → ℝ) (a : ℕ) :
    (acc.map (fun f => f v)).getD a 0 = acc.getD a (fun _ => 0) v := by
  rw [List.getD_eq_getElem?_getD, List.getElem?_map, List.getD_eq_getElem?_getD]
  cases acc[a]? <;> rfl

theorem evalR_map (p : List Node) (acc : List ((Fin n → ℝ) → ℝ)) (v : Fin n → ℝ) :
    evalR p (acc.map (fun f => f v)) = (evalG p acc).map (fun f => f v) := by
  induction p generalizing acc with
  | nil => rfl
  | cons nd t ih =>
    cases nd with
    | const c => simp only [evalR, evalG, ← ih]; simp
    | un g F a => simp only [evalR, evalG, ← ih, getD_map]; simp
    | bin g F a b => simp only [evalR, evalG, ← ih, getD_map]; simp

/-- the invariant relating a real function and an uncertain number -/
structure Rel (ids : Fin n → ℤ) (mu s : Fin n → ℝ) (G : (Fin n → ℝ) → ℝ) (u : UReal ℝ) : Prop where
  ok : Ok u
  mean : u.n = G mu
  grad : ∃ L : (Fin n → ℝ) →L[ℝ] ℝ, HasFDerivAt G L mu ∧ (∀ i, u.coef (ids i) = L (Pi.single i 1) * s i) ∧
    ∀ j, (∀ i, ids i ≠ j) → u.coef j = 0

theorem Rel.const (ids : Fin n → ℤ) (mu s : Fin n → ℝ) (c : ℝ) : Rel ids mu s (fun _ => c) (UReal.const c) :=
  ⟨⟨valid_const _, by simp [Below, deps, UReal.const]⟩, rfl, 0, hasFDerivAt_const _ _, by simp [coef, UReal.const], by simp [coef, UReal.const]⟩

theorem Rel.elem {ids : Fin n → ℤ} (hinj : Function.Injective ids) (hpos : ∀ i, 0 < ids i)
    (hlt : ∀ i, ids i < maxId) (mu s : Fin n → ℝ) (i : Fin n) : Rel ids mu s (fun v => v i) ⟨ids i, s i, mu i, []⟩ := by
  refine ⟨⟨valid_of_nonneg_id ⟨fun h => absurd h (hpos i).ne', fun _ => rfl, by simp, by simp⟩ (hpos i).le, ?_⟩, rfl,
    ContinuousLinearMap.proj i, hasFDerivAt_apply i mu, fun q => ?_, fun j hj => ?_⟩
  · intro j hj
    simp only [deps, hpos, if_true, Finset.mem_singleton] at hj
    rw [hj]; exact hlt _
  · simp only [coef, hpos, if_true, ContinuousLinearMap.proj_apply]
    by_cases hq : q = i
    · subst hq; simp
    · rw [if_neg (fun h => hq (hinj h)), Pi.single_eq_of_ne (Ne.symm hq), zero_mul]
  · simp only [coef, hpos, if_true]
    rw [if_neg (fun h => hj i h.symm)]

theorem evalU_rel (ids : Fin n → ℤ) (mu s : Fin n → ℝ) (p : List Node) (accG : List ((Fin n → ℝ) → ℝ)) (accU : List (UReal ℝ))
    (h : List.Forall₂ (Rel ids mu s) accG accU) (hp : NodesRight p (accG.map (fun f => f mu))) :
    ∃ out, evalU p accU = some out ∧ List.Forall₂ (Rel ids mu s) (evalG p accG) out ∧ out.length = accU.length + p.length := by
  induction p generalizing accG accU with
  | nil => exact ⟨accU, rfl, h, by simp⟩
  | cons nd t ih =>
    have hget : ∀ a, Rel ids mu s (accG.getD a fun _ => 0) (accU.getD a (UReal.const 0)) := by
      intro a
      rw [List.getD_eq_getElem?_getD, List.getD_eq_getElem?_getD]
      by_cases ha : a < accG.length
      · have ha' : a < accU.length := h.length_eq ▸ ha
        rw [List.getElem?_eq_getElem ha, List.getElem?_eq_getElem ha']
        exact h.get ha ha'
      · rw [List.getElem?_eq_none (not_lt.1 ha), List.getElem?_eq_none (h.length_eq ▸ not_lt.1 ha)]
        exact Rel.const ids mu s 0
    have happ : ∀ {G u}, Rel ids mu s G u → List.Forall₂ (Rel ids mu s) (accG ++ [G]) (accU ++ [u]) := fun hr =>
      List.rel_append (R := Rel ids mu s) h (List.Forall₂.cons hr .nil)
    cases nd with
    | const c =>
      obtain ⟨out, e, hr, hl⟩ := ih _ _ (happ (Rel.const ids mu s c)) (by simpa [NodesRight] using hp)
      exact ⟨out, e, hr, by simp at hl ⊢; omega⟩
    | un g F a =>
      obtain ⟨-, ⟨d, hd, hg⟩, ht⟩ := hp
      rw [getD_map] at hd hg ht
      obtain ⟨ok, mean, L, hL, c1, c2⟩ := hget a
      obtain ⟨okz, mz, cz⟩ := hg _ ok mean
      have hc := coef_of_cov1 ok.valid okz.valid cz
      have hr : Rel ids mu s (fun v => F (accG.getD a (fun _ => 0) v)) (g (accU.getD a (UReal.const 0))) := by
        refine ⟨okz, mz, d • L, hd.comp_hasFDerivAt mu hL, fun i => ?_, fun j hj => ?_⟩
        · rw [hc, c1]; simp; ring
        · rw [hc, c2 j hj, mul_zero]
      obtain ⟨out, e, hr, hl⟩ := ih _ _ (happ hr) (by simpa using ht)
      exact ⟨out, e, hr, by simp at hl ⊢; omega⟩
    | bin g F a b =>
      obtain ⟨-, -, ⟨d, d', hd, hg⟩, ht⟩ := hp
      rw [getD_map, getD_map] at hd hg ht
      obtain ⟨ok, mean, L, hL, c1, c2⟩ := hget a
      obtain ⟨ok', mean', L', hL', c1', c2'⟩ := hget b
      obtain ⟨z, ez, okz, mz, cz⟩ := hg _ _ ok ok' mean mean'
      have hc := coef_of_cov2 ok.valid ok'.valid okz.valid cz
      have hr : Rel ids mu s (fun v => F (accG.getD a (fun _ => 0) v) (accG.getD b (fun _ => 0) v)) z := by
        refine ⟨okz, mz, _, HasFDerivAt.comp (g := fun p : ℝ × ℝ => F p.1 p.2) mu hd (hL.prodMk hL'), fun i => ?_, fun j hj => ?_⟩
        · rw [hc, c1, c1']; simp; ring
        · rw [hc, c2 j hj, c2' j hj]; ring
      obtain ⟨out, e, hr, hl⟩ := ih _ _ (happ hr) (by simpa using ht)
      refine ⟨out, ?_, hr, by simp at hl ⊢; omega⟩
      simp only [evalU, ez]
      exact e

theorem cov_of_rel {ids : Fin n → ℤ} (hinj : Function.Injective ids) {mu s : Fin n → ℝ} {G G' : (Fin n → ℝ) → ℝ} {u u' : UReal ℝ}
    (h : Rel ids mu s G u) (h' : Rel ids mu s G' u') :
    cov u u' = ∑ i, fderiv ℝ G mu (Pi.single i 1) * fderiv ℝ G' mu (Pi.single i 1) * s i ^ 2 := by
  obtain ⟨ok, -, L, hL, c1, c2⟩ := h
  obtain ⟨ok', -, L', hL', c1', c2'⟩ := h'
  rw [hL.fderiv, hL'.fderiv, cov_eq ok.valid.wf ok'.valid.wf,
    LinForm.cov_eq_sum (supported u) (u.toLin.deps ∪ Finset.univ.image ids) Finset.subset_union_left]
  rw [← Finset.sum_subset (s₁ := Finset.univ.image ids) Finset.subset_union_right, Finset.sum_image (fun _ _ _ _ h => hinj h)]
  · refine Finset.sum_congr rfl fun i _ => ?_
    simp only [toLin, c1, c1']; ring
  · intro j _ hj
    have : u.coef j = 0 := c2 j fun i hi => hj (by simp [← hi])
    simp only [toLin, this, zero_mul]

/-- Every result of a computation has the value and the derivatives of the function it computes. -/
theorem prog_rel {ids : Fin n → ℤ} (hinj : Function.Injective ids) (hpos : ∀ i, 0 < ids i)
    (hlt : ∀ i, ids i < maxId) (mu s : Fin n → ℝ) (p : List Node) (hp : NodesRight p (vars mu)) :
    ∃ out, evalU p (elems ids mu s) = some out ∧ out.length = n + p.length ∧
      ∀ (k : ℕ) (hk : k < out.length), Rel ids mu s (fn p k) out[k] := by
  let acc : List ((Fin n → ℝ) → ℝ) := List.ofFn fun i => fun v => v i
  have hacc : ∀ v, acc.map (fun f => f v) = vars v := fun v => by simp [acc, vars, Function.comp_def]
  have h0 : List.Forall₂ (Rel ids mu s) acc (elems ids mu s) := by
    rw [List.forall₂_iff_get]
    refine ⟨by simp [acc, elems], fun k hk hk' => ?_⟩
    have hkn : k < n := by simpa [acc] using hk
    have := Rel.elem hinj hpos hlt mu s ⟨k, hkn⟩
    simp only [acc, elems, List.get_eq_getElem, List.getElem_ofFn]
    exact this
  obtain ⟨out, e, hr, hl⟩ := evalU_rel ids mu s p acc _ h0 (by rw [hacc]; exact hp)
  have hlen : (evalG p acc).length = out.length := hr.length_eq
  have hfn : ∀ k (hk : k < out.length), Rel ids mu s (fn p k) out[k] := by
    intro k hk
    have hk' : k < (evalG p acc).length := hlen ▸ hk
    have := hr.get hk' hk
    convert! this using 1
    funext v
    rw [fn, ← hacc, evalR_map, getD_map, List.getD_eq_getElem?_getD, List.getElem?_eq_getElem hk']
    rfl
  exact ⟨out, e, by rw [hl]; simp [elems], hfn⟩

end helpers

/-- **C13** In every computation whose nodes propagate their own derivatives, there is no undefined behaviour and each result has
the mean of the whole function `fn p k` it computes, covariance `∑ i, ∂_i F ∂_i G s_i²` with every other result, and variance
`∑ i, (∂_i F)² s_i²`, the derivatives being those of the whole function at the means of the elementary variables. -/
theorem C13_linear_propagation {n : ℕ} (ids : Fin n → ℤ) (hinj : Function.Injective ids) (hpos : ∀ i, 0 < ids i)
    (hlt : ∀ i, ids i < maxId) (mu s : Fin n → ℝ) (p : List Node) (hp : NodesRight p (vars mu)) :
    ∃ out, evalU p (elems ids mu s) = some out ∧ out.length = n + p.length ∧
      ∀ (k : ℕ) (hk : k < out.length), DifferentiableAt ℝ (fn p k) mu ∧ out[k].n = fn p k mu ∧
        var out[k] = ∑ i, (fderiv ℝ (fn p k) mu (Pi.single i 1)) ^ 2 * s i ^ 2 ∧
        ∀ (l : ℕ) (hl : l < out.length),
          cov out[k] out[l] = ∑ i, fderiv ℝ (fn p k) mu (Pi.single i 1) * fderiv ℝ (fn p l) mu (Pi.single i 1) * s i ^ 2 := by
  obtain ⟨out, e, hl, hfn⟩ := prog_rel hinj hpos hlt mu s p hp
  refine ⟨out, e, hl, fun k hk => ?_⟩
  obtain ⟨ok, hm, L, hL, -⟩ := hfn k hk
  refine ⟨hL.differentiableAt, hm, ?_, fun l hl => cov_of_rel hinj (hfn k hk) (hfn l hl)⟩
  rw [← C02_cov_self ok.valid, cov_of_rel hinj (hfn k hk) (hfn k hk)]
  exact Finset.sum_congr rfl fun i _ => by ring

/-- sin(x y) / (x + 3): the product and the variable `x` are used more than once -/
noncomputable def exNodes : List Node :=
  [.bin UReal.mul (fun s t => s * t) 0 1, .un UMath.sin Real.sin 2, .const 3, .bin UReal.add (fun s t => s + t) 0 4,
   .bin UReal.div (fun s t => s / t) 3 5]

example (x y : ℝ) (hx : x + 3 ≠ 0) : NodesRight exNodes (vars ![x, y]) ∧ fn exNodes 6 ![x, y] = Real.sin (x * y) / (x + 3) := by
  refine ⟨?_, by simp [fn, evalR, exNodes, vars]⟩
  simp only [exNodes, vars, NodesRight]
  refine ⟨by simp, by simp, C14_mul _ _, by simp, C14_sin _, by simp, by simp, C14_add _ _, by simp, by simp, C14_div ?_, trivial⟩
  simpa using hx

example (x y : ℝ) (hx : x + 3 ≠ 0) : ∃ out, evalU exNodes (elems ![4, 9] ![x, y] ![1, 2]) = some out ∧ ∃ h : 6 < out.length,
    out[6].n = fn exNodes 6 ![x, y] ∧ UReal.var out[6] = ∑ i, (fderiv ℝ (fn exNodes 6) ![x, y] (Pi.single i 1)) ^ 2 * (![1, 2] : Fin 2 → ℝ) i ^ 2 := by
  obtain ⟨out, e, hl, h⟩ := C13_linear_propagation (n := 2) ![4, 9] (by decide) (by decide) (by decide) ![x, y] ![1, 2] exNodes (by
    simp only [exNodes, vars, NodesRight]
    refine ⟨by simp, by simp, C14_mul _ _, by simp, C14_sin _, by simp, by simp, C14_add _ _, by simp, by simp, C14_div ?_, trivial⟩
    simpa using hx)
  have h6 : 6 < out.length := by rw [hl]; simp [exNodes]
  obtain ⟨-, h1, h2, -⟩ := h 6 h6
  exact ⟨out, e, h6, h1, h2⟩

end Unc.Props
