import Verif.Spec.Larger
import Verif.Lemmas.VarScale
import Verif.Props.AnyNode
import Verif.Props.SameFunction2
import Verif.Props.Moments
import Verif.Props.Algebra2

/-!
# C97: larger uncertainties of the variables
-/

namespace Unc.Props
open Unc Unc.Spec HessGrad

section first
open UReal
variable {n : ℕ} {ids : Fin n → ℤ}

theorem s_sqrt {x : UReal ℝ} (hx : x.Valid) : x.s = Real.sqrt (var x) := by
  obtain ⟨h0, h1⟩ := C02_s_sq hx
  rw [← h1, Real.sqrt_mul_self h0]

/-- the uncertainty of each result, for every choice of the uncertainties of the variables -/
theorem first_s (hinj : Function.Injective ids) (hpos : ∀ i, 0 < ids i) (hlt : ∀ i, ids i < maxId) (mu s : Fin n → ℝ) {p : List Node}
    (hp : NodesRight p (vars mu)) : ∃ out, evalU p (elems ids mu s) = some out ∧ out.length = n + p.length ∧
      ∀ (k : ℕ) x, out[k]? = some x → x.n = fn p k mu ∧ var x = ∑ i, (fderiv ℝ (fn p k) mu (Pi.single i 1)) ^ 2 * s i ^ 2 ∧
        x.s = Real.sqrt (∑ i, (fderiv ℝ (fn p k) mu (Pi.single i 1)) ^ 2 * s i ^ 2) ∧
        ∀ (l : ℕ) y, out[l]? = some y → cov x y = ∑ i, fderiv ℝ (fn p k) mu (Pi.single i 1) * fderiv ℝ (fn p l) mu (Pi.single i 1) * s i ^ 2 := by
  obtain ⟨out, e, hl, h⟩ := C13_linear_propagation ids hinj hpos hlt mu s p hp
  obtain ⟨out', e', -, hr⟩ := prog_rel hinj hpos hlt mu s p hp
  obtain rfl := Option.some_inj.1 (e.symm.trans e')
  refine ⟨out, e, hl, fun k x hx => ?_⟩
  obtain ⟨hk, rfl⟩ := List.getElem?_eq_some_iff.1 hx
  obtain ⟨-, h1, h2, h3⟩ := h k hk
  refine ⟨h1, h2, by rw [s_sqrt (hr k hk).1.valid, h2], fun l y hy => ?_⟩
  obtain ⟨hl', rfl⟩ := List.getElem?_eq_some_iff.1 hy
  exact h3 l hl'

/-- **C97** First order: with larger uncertainties of the variables no uncertainty of a result is smaller, and the means are the same; whatever the functions,
as long as they pass on numbers which depend on the means (`C58_library`). -/
theorem C97_first (hinj : Function.Injective ids) (hpos : ∀ i, 0 < ids i) (hlt : ∀ i, ids i < maxId) (mu : Fin n → ℝ) {s s' : Fin n → ℝ}
    (hs : ∀ i, 0 ≤ s i ∧ s i ≤ s' i) {p : List Node} (hp : NodesOfMean p n) :
    ∃ out out', evalU p (elems ids mu s) = some out ∧ evalU p (elems ids mu s') = some out' ∧ out.length = n + p.length ∧ out'.length = n + p.length ∧
      ∀ (k : ℕ) (x x' : UReal ℝ), out[k]? = some x → out'[k]? = some x' → x.n = x'.n ∧ x.s ≤ x'.s := by
  obtain ⟨q, l, e, r⟩ := nodes_right (p := p) (acc := Spec.vars mu) (by simpa [Spec.vars] using hp)
  rw [← e, ← e, ← l]
  obtain ⟨out, e, hl, h⟩ := first_s hinj hpos hlt mu s r
  obtain ⟨out', e', hl', h'⟩ := first_s hinj hpos hlt mu s' r
  refine ⟨out, out', e, e', hl, hl', fun k x x' hx hx' => ?_⟩
  obtain ⟨h1, -, h2, -⟩ := h k x hx
  obtain ⟨h1', -, h2', -⟩ := h' k x' hx'
  refine ⟨h1.trans h1'.symm, ?_⟩
  rw [h2, h2']
  refine Real.sqrt_le_sqrt (Finset.sum_le_sum fun i _ => mul_le_mul_of_nonneg_left ?_ (sq_nonneg _))
  exact pow_le_pow_left₀ (hs i).1 (hs i).2 2

example := C97_first (ids := ![1, 2, 3]) (by decide) (by decide) (by decide) ![2, 3, 4] (s := ![1, 0, 2]) (s' := ![1, 1, 5]) (by intro i; fin_cases i <;> norm_num) anyProg_ok

/-- **C97** The uncertainty of a result stays the same exactly if the uncertainties of all variables on which its derivative is not 0 stay the same. -/
theorem C97_same (hinj : Function.Injective ids) (hpos : ∀ i, 0 < ids i) (hlt : ∀ i, ids i < maxId) (mu : Fin n → ℝ) {s s' : Fin n → ℝ}
    (hs : ∀ i, 0 ≤ s i ∧ s i ≤ s' i) {p : List Node} (hp : NodesRight p (vars mu)) :
    ∃ out out', evalU p (elems ids mu s) = some out ∧ evalU p (elems ids mu s') = some out' ∧ out.length = n + p.length ∧ out'.length = n + p.length ∧
      ∀ (k : ℕ) (x x' : UReal ℝ), out[k]? = some x → out'[k]? = some x' →
        (x.s = x'.s ↔ ∀ i, fderiv ℝ (fn p k) mu (Pi.single i 1) = 0 ∨ s i = s' i) := by
  obtain ⟨out, e, hl, h⟩ := first_s hinj hpos hlt mu s hp
  obtain ⟨out', e', hl', h'⟩ := first_s hinj hpos hlt mu s' hp
  refine ⟨out, out', e, e', hl, hl', fun k x x' hx hx' => ?_⟩
  obtain ⟨-, -, h2, -⟩ := h k x hx
  obtain ⟨-, -, h2', -⟩ := h' k x' hx'
  set d := fun i => fderiv ℝ (fn p k) mu (Pi.single i 1) with hd
  have hle : ∀ i ∈ Finset.univ, d i ^ 2 * s i ^ 2 ≤ d i ^ 2 * s' i ^ 2 := fun i _ =>
    mul_le_mul_of_nonneg_left (pow_le_pow_left₀ (hs i).1 (hs i).2 2) (sq_nonneg _)
  have hn : ∀ s : Fin n → ℝ, 0 ≤ ∑ i, d i ^ 2 * s i ^ 2 := fun s => Finset.sum_nonneg fun i _ => mul_nonneg (sq_nonneg _) (sq_nonneg _)
  have hfd : ∀ i, fderiv ℝ (fn p k) mu (Pi.single i 1) = d i := fun _ => rfl
  simp only [hfd] at h2 h2' ⊢
  rw [h2, h2', Real.sqrt_inj (hn s) (hn s'), Finset.sum_eq_sum_iff_of_le hle]
  refine ⟨fun H i => ?_, fun H i _ => ?_⟩
  · have := H i (Finset.mem_univ i)
    by_cases h0 : d i = 0
    · exact Or.inl h0
    · right
      have := mul_left_cancel₀ (pow_ne_zero 2 h0) this
      exact (pow_left_inj₀ (hs i).1 ((hs i).1.trans (hs i).2) (by norm_num)).1 this
  · rcases H i with h0 | h0
    · rw [h0]; ring
    · rw [h0]

theorem larger_ex : NodesRight exNodes (vars ![2, 5]) := by
  simp only [exNodes, Spec.vars, NodesRight]
  refine ⟨by simp, by simp, C14_mul _ _, by simp, C14_sin _, by simp, by simp, C14_add _ _, by simp, by simp, C14_div ?_, trivial⟩
  norm_num

example := C97_same (ids := ![1, 2]) (by decide) (by decide) (by decide) ![2, 5] (s := ![1, 0]) (s' := ![1, 1]) (by intro i; fin_cases i <;> norm_num) larger_ex

/-- **C97** Uncertainties all multiplied by the same number: the uncertainties of the results are multiplied by it, covariances by its square, correlations
stay the same. -/
theorem C97_scale (hinj : Function.Injective ids) (hpos : ∀ i, 0 < ids i) (hlt : ∀ i, ids i < maxId) (mu s : Fin n → ℝ) {c : ℝ} (hc : 0 < c)
    {p : List Node} (hp : NodesOfMean p n) :
    ∃ out out', evalU p (elems ids mu s) = some out ∧ evalU p (elems ids mu fun i => c * s i) = some out' ∧ out.length = n + p.length ∧ out'.length = n + p.length ∧
      ∀ (k : ℕ) (x x' : UReal ℝ), out[k]? = some x → out'[k]? = some x' → x'.n = x.n ∧ x'.s = c * x.s ∧
        ∀ (l : ℕ) (y y' : UReal ℝ), out[l]? = some y → out'[l]? = some y' → cov x' y' = c ^ 2 * cov x y ∧ corr x' y' = corr x y := by
  obtain ⟨q, l, e, r⟩ := nodes_right (p := p) (acc := Spec.vars mu) (by simpa [Spec.vars] using hp)
  rw [← e, ← e, ← l]
  obtain ⟨out, e, hl, h⟩ := first_s hinj hpos hlt mu s r
  obtain ⟨out', e', hl', h'⟩ := first_s hinj hpos hlt mu (fun i => c * s i) r
  have hS : ∀ (k : ℕ) (x x' : UReal ℝ), out[k]? = some x → out'[k]? = some x' → x'.s = c * x.s := by
    intro k x x' hx hx'
    rw [(h k x hx).2.2.1, (h' k x' hx').2.2.1]
    have : ∑ i, (fderiv ℝ (fn q k) mu (Pi.single i 1)) ^ 2 * (c * s i) ^ 2 = c ^ 2 * ∑ i, (fderiv ℝ (fn q k) mu (Pi.single i 1)) ^ 2 * s i ^ 2 := by
      rw [Finset.mul_sum]; exact Finset.sum_congr rfl fun i _ => by ring
    rw [this, Real.sqrt_mul (sq_nonneg c), Real.sqrt_sq hc.le]
  refine ⟨out, out', e, e', hl, hl', fun k x x' hx hx' => ⟨(h' k x' hx').1.trans (h k x hx).1.symm, hS k x x' hx hx', fun l y y' hy hy' => ?_⟩⟩
  have hcov : cov x' y' = c ^ 2 * cov x y := by
    rw [(h k x hx).2.2.2 l y hy, (h' k x' hx').2.2.2 l y' hy', Finset.mul_sum]
    exact Finset.sum_congr rfl fun i _ => by ring
  refine ⟨hcov, ?_⟩
  rw [corr, corr, hcov, hS k x x' hx hx', hS l y y' hy hy']
  rw [show c * x.s * (c * y.s) = c ^ 2 * (x.s * y.s) by ring, mul_div_mul_left _ _ (pow_ne_zero 2 hc.ne')]

example := C97_scale (ids := ![1, 2, 3]) (by decide) (by decide) (by decide) ![2, 3, 4] ![1, 0, 2] (c := 3) (by norm_num) anyProg_ok

/-- **C97** The uncertainty of a result is at least the largest single contribution and at most their sum. -/
theorem C97_between (hinj : Function.Injective ids) (hpos : ∀ i, 0 < ids i) (hlt : ∀ i, ids i < maxId) (mu : Fin n → ℝ) {s : Fin n → ℝ}
    (hs : ∀ i, 0 ≤ s i) {p : List Node} (hp : NodesRight p (vars mu)) :
    ∃ out, evalU p (elems ids mu s) = some out ∧ out.length = n + p.length ∧ ∀ (k : ℕ) (x : UReal ℝ), out[k]? = some x →
      (∀ i, |fderiv ℝ (fn p k) mu (Pi.single i 1)| * s i ≤ x.s) ∧ x.s ≤ ∑ i, |fderiv ℝ (fn p k) mu (Pi.single i 1)| * s i := by
  obtain ⟨out, e, hl, h⟩ := first_s hinj hpos hlt mu s hp
  refine ⟨out, e, hl, fun k x hx => ?_⟩
  rw [(h k x hx).2.2.1]
  have hsq : ∀ i, (fderiv ℝ (fn p k) mu (Pi.single i 1)) ^ 2 * s i ^ 2 = (|fderiv ℝ (fn p k) mu (Pi.single i 1)| * s i) ^ 2 := fun i => by
    rw [mul_pow, sq_abs]
  have h0 : ∀ i, 0 ≤ |fderiv ℝ (fn p k) mu (Pi.single i 1)| * s i := fun i => mul_nonneg (abs_nonneg _) (hs i)
  simp only [hsq]
  refine ⟨fun i => Real.le_sqrt_of_sq_le (Finset.single_le_sum (f := fun i => (|fderiv ℝ (fn p k) mu (Pi.single i 1)| * s i) ^ 2)
    (fun j _ => sq_nonneg _) (Finset.mem_univ i)), ?_⟩
  refine Real.sqrt_le_iff.2 ⟨Finset.sum_nonneg fun i _ => h0 i, ?_⟩
  exact Finset.sum_sq_le_sq_sum_of_nonneg fun i _ => h0 i

example := C97_between (ids := ![1, 2]) (by decide) (by decide) (by decide) ![2, 5] (s := ![1, 3]) (by intro i; fin_cases i <;> norm_num) larger_ex

/-- **C97** The uncertainty of a sum or difference is at most the sum of the uncertainties and at least their difference, whatever the correlation. -/
theorem C97_triangle {x y : UReal ℝ} (hx : Ok x) (hy : Ok y) : ∃ z z', add x y = some z ∧ sub x y = some z' ∧
    z.s ≤ x.s + y.s ∧ z'.s ≤ x.s + y.s ∧ |x.s - y.s| ≤ z.s ∧ |x.s - y.s| ≤ z'.s := by
  obtain ⟨z, e, ok, -, hc⟩ := C01_binary_linear hx.valid hy.valid hx.below hy.below (x.mu + y.mu) 1 1
  obtain ⟨z', e', ok', -, hc'⟩ := C01_binary_linear hx.valid hy.valid hx.below hy.below (x.mu - y.mu) 1 (-1)
  refine ⟨z, z', e, e', ?_⟩
  have vz : z.s * z.s = x.s * x.s + y.s * y.s + 2 * cov x y := by
    rw [(C02_s_sq ok).2, (C02_s_sq hx.valid).2, (C02_s_sq hy.valid).2, ← C02_cov_self ok, hc z ok, C02_cov_symm hx.valid ok, C02_cov_symm hy.valid ok,
      hc x hx.valid, hc y hy.valid, C02_cov_self hx.valid, C02_cov_self hy.valid, C02_cov_symm hy.valid hx.valid]
    ring
  have vz' : z'.s * z'.s = x.s * x.s + y.s * y.s - 2 * cov x y := by
    rw [(C02_s_sq ok').2, (C02_s_sq hx.valid).2, (C02_s_sq hy.valid).2, ← C02_cov_self ok', hc' z' ok', C02_cov_symm hx.valid ok', C02_cov_symm hy.valid ok',
      hc' x hx.valid, hc' y hy.valid, C02_cov_self hx.valid, C02_cov_self hy.valid, C02_cov_symm hy.valid hx.valid]
    ring
  have x0 := (C02_s_sq hx.valid).1
  have y0 := (C02_s_sq hy.valid).1
  have z0 := (C02_s_sq ok).1
  have z0' := (C02_s_sq ok').1
  have hcs : |cov x y| ≤ x.s * y.s := by
    refine abs_le_of_sq_le_sq ?_ (mul_nonneg x0 y0)
    let S := x.deps ∪ y.deps
    have ex : var x = ∑ k ∈ S, x.coef k ^ 2 := by
      rw [← C02_cov_self hx.valid, cov_eq hx.valid.wf hx.valid.wf, LinForm.cov_eq_sum (supported x) S Finset.subset_union_left]
      exact Finset.sum_congr rfl (fun k _ => by simp only [toLin]; ring)
    have ey : var y = ∑ k ∈ S, y.coef k ^ 2 := by
      rw [← C02_cov_self hy.valid, cov_eq hy.valid.wf hy.valid.wf, LinForm.cov_eq_sum (supported y) S Finset.subset_union_right]
      exact Finset.sum_congr rfl (fun k _ => by simp only [toLin]; ring)
    have ec : cov x y = ∑ k ∈ S, x.coef k * y.coef k := by
      rw [cov_eq hx.valid.wf hy.valid.wf, LinForm.cov_eq_sum (supported x) S Finset.subset_union_left]; rfl
    rw [mul_pow, pow_two x.s, pow_two y.s, (C02_s_sq hx.valid).2, (C02_s_sq hy.valid).2, ex, ey, ec]
    exact Finset.sum_mul_sq_le_sq_mul_sq S _ _
  obtain ⟨c1, c2⟩ := abs_le.1 hcs
  refine ⟨?_, ?_, ?_, ?_⟩
  · nlinarith
  · nlinarith
  · exact abs_le_of_sq_le_sq (by nlinarith) z0
  · exact abs_le_of_sq_le_sq (by nlinarith) z0'

example := C97_triangle ok_ex1 ok_ex2

end first

/-! ## second order -/

section second
variable {n : ℕ} {ids : Fin n → VId}

/-- the uncertainty of the variable with a given identifier -/
noncomputable def sOf (ids : Fin n → VId) (s : Fin n → ℝ) (i : VId) : ℝ := open Classical in if h : ∃ j, ids j = i then s h.choose else 0

theorem sOf_ids (hinj : Function.Injective ids) (s : Fin n → ℝ) (j : Fin n) : sOf ids s (ids j) = s j := by
  have h : ∃ k, ids k = ids j := ⟨j, rfl⟩
  rw [sOf, dif_pos h, hinj h.choose_spec]

theorem elems2_sc (hinj : Function.Injective ids) (mu s : Fin n → ℝ) (mom : Fin n → Moments ℝ) :
    elems2 ids mu s mom = (elems2 ids mu (fun _ => 1) mom).map (vscU (sOf ids s)) := by
  unfold elems2
  rw [List.map_ofFn]
  congr 1
  funext i
  simp [elem2, vscU, vscHG, vscP, vscD, sOf_ids hinj]

theorem getD_vsc (t : VId → ℝ) (acc : List (UReal2 ℝ)) (a : ℕ) : (acc.map (vscU t)).getD a (UReal2.const 0) = vscU t (acc.getD a (UReal2.const 0)) := by
  rw [List.getD_eq_getElem?_getD, List.getD_eq_getElem?_getD, List.getElem?_map]
  cases acc[a]? <;> rfl

/-- computations commute with changes of the uncertainties of the variables -/
theorem evalU2_vsc (t : VId → ℝ) {m : ℕ} (p : List Node2) (hp : NodesOfMu p m) (acc : List (UReal2 ℝ)) :
    evalU2 p (acc.map (vscU t)) = (evalU2 p acc).map (List.map (vscU t)) := by
  induction p generalizing acc m with
  | nil => rfl
  | cons nd q ih =>
    cases nd with
    | const c =>
      simp only [evalU2]
      rw [← ih (m := m + 1) hp]
      simp [vscU, UReal2.const, vscHG, HessGrad.empty]
    | un g F a =>
      obtain ⟨-, ⟨u, F, D, DD, hg⟩, ht⟩ := hp
      simp only [evalU2, getD_vsc, hg]
      rw [unary_G, unary_G]
      have := unaryG_vsc (t := t) (CCmp.eqb (DD (acc.getD a (UReal2.const 0)).mu / Mom.lit 2) 0) u (acc.getD a (UReal2.const 0)) (F (acc.getD a (UReal2.const 0)).mu)
        (D (acc.getD a (UReal2.const 0)).mu) (DD (acc.getD a (UReal2.const 0)).mu / Mom.lit 2)
      rw [show (vscU t (acc.getD a (UReal2.const 0))).mu = (acc.getD a (UReal2.const 0)).mu from rfl, this]
      cases unaryG (CCmp.eqb (DD (acc.getD a (UReal2.const 0)).mu / Mom.lit 2) 0) u (acc.getD a (UReal2.const 0)) (F (acc.getD a (UReal2.const 0)).mu)
        (D (acc.getD a (UReal2.const 0)).mu) (DD (acc.getD a (UReal2.const 0)).mu / Mom.lit 2) with
      | none => rfl
      | some z =>
        simp only [Option.map_some]
        rw [← ih ht, List.map_append, List.map_singleton]
    | bin g F a b =>
      obtain ⟨-, -, ⟨u, F, Dx, Dy, Dxx, Dyy, Dxy, hg⟩, ht⟩ := hp
      simp only [evalU2, getD_vsc, hg]
      generalize acc.getD a (UReal2.const 0) = x
      generalize acc.getD b (UReal2.const 0) = y
      rw [binary_G, binary_G, show (vscU t x).mu = x.mu from rfl, show (vscU t y).mu = y.mu from rfl, binaryG_vsc]
      generalize binaryG _ _ _ u x y _ _ _ _ _ _ = o
      cases o with
      | none => rfl
      | some z =>
        simp only [Option.map_some]
        rw [← ih ht, List.map_append, List.map_singleton]

/-- the results exist, and store moments of the variables -/
theorem evalU2_fineMu (P : VId → Moments ℝ → Prop) {m : ℕ} (p : List Node2) (hp : NodesOfMu p m) (acc : List (UReal2 ℝ)) (hacc : ∀ x ∈ acc, FineP P x) :
    ∃ out, evalU2 p acc = some out ∧ out.length = acc.length + p.length ∧ ∀ x ∈ out, FineP P x := by
  induction p generalizing acc m with
  | nil => exact ⟨acc, rfl, rfl, hacc⟩
  | cons nd q ih =>
    have hget : ∀ a, FineP P (acc.getD a (UReal2.const 0)) := by
      intro a
      rw [List.getD_eq_getElem?_getD]
      by_cases ha : a < acc.length
      · rw [List.getElem?_eq_getElem ha]; exact hacc _ (List.getElem_mem _)
      · rw [List.getElem?_eq_none (not_lt.1 ha)]; exact FineP.const P 0
    have happ : ∀ {z}, FineP P z → ∀ x ∈ acc ++ [z], FineP P x := by
      intro z hz x hx
      rcases List.mem_append.1 hx with h | h
      · exact hacc x h
      · simp only [List.mem_singleton] at h; exact h ▸ hz
    cases nd with
    | const c =>
      obtain ⟨out, e, l, h⟩ := ih (m := m + 1) hp _ (happ (FineP.const P c))
      exact ⟨out, e, by simp at l ⊢; omega, h⟩
    | un g F a =>
      obtain ⟨-, ⟨u, F, D, DD, hg⟩, ht⟩ := hp
      obtain ⟨z, ez, -⟩ := C21_unary (hget a).ok (F (acc.getD a (UReal2.const 0)).mu) (D (acc.getD a (UReal2.const 0)).mu) (DD (acc.getD a (UReal2.const 0)).mu)
      obtain ⟨out, e, l, h⟩ := ih ht _ (happ ((hget a).unary (ez u)))
      refine ⟨out, ?_, by simp at l ⊢; omega, h⟩
      simp only [evalU2, hg, ez u, e]
    | bin g F a b =>
      obtain ⟨-, -, ⟨u, F, Dx, Dy, Dxx, Dyy, Dxy, hg⟩, ht⟩ := hp
      have fa := hget a
      have fb := hget b
      obtain ⟨x, hx⟩ : ∃ x, x = acc.getD a (UReal2.const 0) := ⟨_, rfl⟩
      obtain ⟨y, hy⟩ : ∃ y, y = acc.getD b (UReal2.const 0) := ⟨_, rfl⟩
      rw [← hx] at fa
      rw [← hy] at fb
      obtain ⟨z, ez, -⟩ := C21_binary fa.ok fb.ok (F x.mu y.mu) (Dx x.mu y.mu) (Dy x.mu y.mu) (Dxx x.mu y.mu) (Dyy x.mu y.mu) (Dxy x.mu y.mu)
      obtain ⟨out, e, l, h⟩ := ih ht _ (happ (fa.binary fb (ez u)))
      refine ⟨out, ?_, by simp at l ⊢; omega, h⟩
      simp only [evalU2, hg, ← hx, ← hy, ez u, e]

theorem fine_elems (hlt : ∀ i, ids i < maxId) (mu s : Fin n → ℝ) (mom : Fin n → Moments ℝ) :
    ∀ x ∈ elems2 ids mu s mom, FineP (fun i m => ∃ j, ids j = i ∧ m = mom j) x := by
  intro x hx
  simp only [elems2, List.mem_ofFn] at hx
  obtain ⟨j, rfl⟩ := hx
  refine ⟨ok_elem2 (hlt j) _ _ _, fun i m h => ⟨j, ?_⟩⟩
  simp only [momOf, elem2, SMap.find?] at h
  split_ifs at h with hi
  · simp at h; exact ⟨hi, h.symm⟩
  · simp at h

/-- the variance of a value when the uncertainties of its variables are multiplied by `t` -/
theorem var_vsc (hinj : Function.Injective ids) {mom : Fin n → Moments ℝ} {x : UReal2 ℝ} (hx : FineP (fun i m => ∃ j, ids j = i ∧ m = mom j) x) (t : VId → ℝ) :
    (vscU t x).var = some ((∑ i ∈ x.hg.vars, (t i ^ 2 * x.hg.G i ^ 2 + 2 * t i ^ 3 * (x.hg.G i * x.hg.H i i) * Mom.tabOf ids mom i 3
      + t i ^ 4 * x.hg.H i i ^ 2 * (Mom.tabOf ids mom i 4 - 1))) + ∑ i ∈ x.hg.vars, ∑ j ∈ x.hg.vars, if i < j then t i ^ 2 * t j ^ 2 * (2 * x.hg.H i j) ^ 2 else 0) := by
  have := C25_closed (x := vscU t x) (valid_vsc hx.ok.valid) (fun i => Mom.tabOf ids mom i 3) (fun i => Mom.tabOf ids mom i 4) (by
    intro i m hm
    rw [show (vscU t x).hg = vscHG t x.hg from rfl, momOf_vsc] at hm
    obtain ⟨j, rfl, rfl⟩ := hx.mom i m hm
    rw [Mom.tabOf_ids hinj]
    exact ⟨rfl, rfl⟩)
  rw [this, show (vscU t x).hg = vscHG t x.hg from rfl, vars_vsc]
  simp only [G_vsc, H_vsc]
  congr 2
  · exact Finset.sum_congr rfl fun i _ => by ring
  · refine Finset.sum_congr rfl fun i _ => Finset.sum_congr rfl fun j _ => ?_
    split_ifs <;> ring

/-- the contribution of one variable to the variance increases with its uncertainty `t` -/
theorem diag_mono {a b G H v w : ℝ} (ha : 0 ≤ a) (hab : a ≤ b) (hw : 9 / 8 * v ^ 2 ≤ w) :
    a ^ 2 * G ^ 2 + 2 * a ^ 3 * (G * H) * v + a ^ 4 * H ^ 2 * w ≤ b ^ 2 * G ^ 2 + 2 * b ^ 3 * (G * H) * v + b ^ 4 * H ^ 2 * w := by
  have h1 : a ^ 4 * H ^ 2 * (w - 9 / 8 * v ^ 2) ≤ b ^ 4 * H ^ 2 * (w - 9 / 8 * v ^ 2) :=
    mul_le_mul_of_nonneg_right (mul_le_mul_of_nonneg_right (pow_le_pow_left₀ ha hab 4) (sq_nonneg _)) (by linarith)
  set p := H * v with hp
  set A := a + b with hA
  set B := a ^ 2 + a * b + b ^ 2 with hB
  set C := 9 / 8 * (a + b) * (a ^ 2 + b ^ 2) with hC
  have hb : 0 ≤ b := ha.trans hab
  have hdisc : B ^ 2 ≤ A * C := by
    have hx : 0 ≤ a * b := mul_nonneg ha hb
    have hS : 2 * (a * b) ≤ a ^ 2 + b ^ 2 := by nlinarith [sq_nonneg (a - b)]
    have e : A * C - B ^ 2 = ((a ^ 2 + b ^ 2) ^ 2 + 2 * (a ^ 2 + b ^ 2) * (a * b) - 8 * (a * b) ^ 2) / 8 := by rw [hA, hB, hC]; ring
    have h3 : 0 ≤ (a ^ 2 + b ^ 2) ^ 2 + 2 * (a ^ 2 + b ^ 2) * (a * b) - 8 * (a * b) ^ 2 := by nlinarith [mul_nonneg hx (sub_nonneg.2 hS)]
    linarith
  have hq : 0 ≤ A * G ^ 2 + 2 * B * (G * p) + C * p ^ 2 := by
    rcases (add_nonneg ha hb).eq_or_lt with h0 | h0
    · have ha0 : a = 0 := by linarith
      have hb0 : b = 0 := by linarith
      simp [hA, hB, hC, ha0, hb0]
    · have : 0 ≤ A * (A * G ^ 2 + 2 * B * (G * p) + C * p ^ 2) := by
        have e : A * (A * G ^ 2 + 2 * B * (G * p) + C * p ^ 2) = (A * G + B * p) ^ 2 + (A * C - B ^ 2) * p ^ 2 := by ring
        rw [e]
        exact add_nonneg (sq_nonneg _) (mul_nonneg (sub_nonneg.2 hdisc) (sq_nonneg _))
      exact nonneg_of_mul_nonneg_right this h0
  have h2 := mul_nonneg (sub_nonneg.2 hab) hq
  have e : (b - a) * (A * G ^ 2 + 2 * B * (G * p) + C * p ^ 2) = (b ^ 2 * G ^ 2 + 2 * b ^ 3 * (G * H) * v + b ^ 4 * H ^ 2 * (9 / 8 * v ^ 2))
      - (a ^ 2 * G ^ 2 + 2 * a ^ 3 * (G * H) * v + a ^ 4 * H ^ 2 * (9 / 8 * v ^ 2)) := by rw [hA, hB, hC, hp]; ring
  rw [e] at h2
  nlinarith

/-- the property at second order, for variables with possible moments -/
def C97_second_statement : Prop :=
  ∀ (n : ℕ) (ids : Fin n → VId) (mu s s' : Fin n → ℝ) (mom : Fin n → Moments ℝ) (p : List Node2), Function.Injective ids → (∀ i, ids i < maxId) →
    (∀ i, 0 ≤ s i ∧ s i ≤ s' i) → (∀ i, (mom i).v3 ^ 2 + 1 ≤ (mom i).v4) → NodesOfMu p n →
    ∃ out out', evalU2 p (elems2 ids mu s mom) = some out ∧ evalU2 p (elems2 ids mu s' mom) = some out' ∧ out.length = n + p.length ∧
      out'.length = n + p.length ∧ ∀ (k : ℕ) x x', out[k]? = some x → out'[k]? = some x' → x.mu = x'.mu ∧ ∃ a a', x.s = some a ∧ x'.s = some a' ∧ a ≤ a'

/-- **C97**, second order: with larger uncertainties of the variables no uncertainty of a result is smaller, if the fourth moment of each variable is at least `1 + 9/8 v3 ^ 2`,
which holds for normal, uniform and exponential ones.  Any functions which pass on numbers depending on the first order means (`C97_library`).
Missing: other variables, for which it is false, `C97_second_sharp`. -/
theorem C97_second_partial (hinj : Function.Injective ids) (hlt : ∀ i, ids i < maxId) (mu : Fin n → ℝ) {s s' : Fin n → ℝ} (hs : ∀ i, 0 ≤ s i ∧ s i ≤ s' i)
    {mom : Fin n → Moments ℝ} (hm : ∀ i, 9 / 8 * (mom i).v3 ^ 2 + 1 ≤ (mom i).v4) {p : List Node2} (hp : NodesOfMu p n) :
    ∃ out out', evalU2 p (elems2 ids mu s mom) = some out ∧ evalU2 p (elems2 ids mu s' mom) = some out' ∧ out.length = n + p.length ∧
      out'.length = n + p.length ∧ ∀ (k : ℕ) x x', out[k]? = some x → out'[k]? = some x' → x.mu = x'.mu ∧ ∃ a a', x.s = some a ∧ x'.s = some a' ∧ a ≤ a' := by
  obtain ⟨o, e, l, fo⟩ := evalU2_fineMu _ p hp _ (fine_elems hlt mu (fun _ => 1) mom)
  refine ⟨o.map (vscU (sOf ids s)), o.map (vscU (sOf ids s')), by rw [elems2_sc hinj, evalU2_vsc _ p hp, e]; rfl, by rw [elems2_sc hinj, evalU2_vsc _ p hp, e]; rfl,
    by rw [List.length_map, l]; simp [elems2], by rw [List.length_map, l]; simp [elems2], fun k x x' hx hx' => ?_⟩
  rw [List.getElem?_map, Option.map_eq_some_iff] at hx hx'
  obtain ⟨y, hy, rfl⟩ := hx
  obtain ⟨y', hy', rfl⟩ := hx'
  obtain rfl := Option.some_inj.1 (hy.symm.trans hy')
  have fy := fo y (List.mem_of_getElem? hy)
  have hv := var_vsc hinj fy (sOf ids s)
  have hv' := var_vsc hinj fy (sOf ids s')
  rw [UReal2.var] at hv hv'
  refine ⟨rfl, _, _, by rw [UReal2.s, hv]; rfl, by rw [UReal2.s, hv']; rfl, Real.sqrt_le_sqrt ?_⟩
  have h0 : ∀ i, 0 ≤ sOf ids s i ∧ sOf ids s i ≤ sOf ids s' i := by
    intro i
    unfold sOf
    split_ifs with h
    · exact hs _
    · simp
  have hmem : ∀ i ∈ y.hg.vars, ∃ j, ids j = i := by
    intro i hi
    obtain ⟨j, h, -⟩ := fy.mom i _ (Mom.momOf_dOf hi)
    exact ⟨j, h⟩
  refine add_le_add (Finset.sum_le_sum fun i hi => ?_) (Finset.sum_le_sum fun i _ => Finset.sum_le_sum fun j _ => ?_)
  · obtain ⟨j, rfl⟩ := hmem i hi
    rw [Mom.tabOf_ids hinj]
    obtain ⟨a0, a1⟩ := h0 (ids j)
    simp only [Mom.mseq]
    exact diag_mono a0 a1 (by linarith [hm j])
  · split_ifs
    · refine mul_le_mul_of_nonneg_right (mul_le_mul (pow_le_pow_left₀ (h0 i).1 (h0 i).2 2) (pow_le_pow_left₀ (h0 j).1 (h0 j).2 2) (sq_nonneg _) (sq_nonneg _)) (sq_nonneg _)
    · exact le_rfl

/-- `exp (x * y) / x` -/
noncomputable def largerProg : List Node2 := [.bin (UReal2.mul exN) (fun a b => a * b) 0 1, .un (UMath2.exp exN) Real.exp 2, .bin (UReal2.div exN) (fun a b => a / b) 3 0]

theorem largerProg_ok : NodesOfMu largerProg 2 := by
  refine ⟨by norm_num, by norm_num, ⟨exN, fun a b => a * b, fun _ b => b, fun a _ => a, fun _ _ => 0, fun _ _ => 0, fun _ _ => 1, fun _ _ => rfl⟩, by norm_num,
    ⟨exN, fun a => CMath.exp a, fun a => CMath.exp a, fun a => CMath.exp a, fun _ => rfl⟩, by norm_num, by norm_num,
    ⟨exN, fun a b => a / b, fun _ b => 1 / b, fun a b => -a * (1 / b * (1 / b)), fun _ _ => 0, fun a b => Mom.lit 2 * a * (1 / b * (1 / b)) * (1 / b), fun _ b => -(1 / b * (1 / b)),
      fun _ _ => rfl⟩, trivial⟩

/-- a normal and an exponential variable -/
example := C97_second_partial (ids := ![1, 2]) (by decide) (by decide) ![2, 5] (s := ![1, 0]) (s' := ![1, 3]) (by intro i; fin_cases i <;> norm_num) (mom := ![exN, exE])
  (by intro i; fin_cases i <;> norm_num [exN, exE]) largerProg_ok

/-- the variance of `x * x` -/
theorem square_run (u : Moments ℝ) (mom : Moments ℝ) (mu s : ℝ) : ∃ z, UReal2.mul u (elem2 1 mu s mom) (elem2 1 mu s mom) = some z ∧
    z.var = some (4 * mu ^ 2 * s ^ 2 + 4 * mu * s ^ 3 * mom.v3 + s ^ 4 * (mom.v4 - 1)) := by
  have run : UReal2.mul u (elem2 1 mu s mom) (elem2 1 mu s mom) = some ⟨⟨[(1, ⟨mu * s + mu * s, s * s, mom⟩)], []⟩, mu * mu⟩ := by
    simp [UReal2.mul, elem2, UReal2.binary, hessEntries, HessIt.loop, HessIt.start, HessIt.notEnd, HessIt.get, HessIt.incr, fuel, UReal2.binaryLoop,
      Prod.Lex.toLex_lt_toLex, maxId, UReal2.binaryX, UReal2.binaryY, UReal2.binaryYNew, modHhess, modDiag, SMap.upsert, UReal2.mixedLoop, UReal2.mixedStep, modTri, Mom.lit, CCmp.eqb,
      newDiag, empty]
    ring
  have ok : Ok2 (elem2 1 mu s mom) := ok_elem2 (by decide) _ _ _
  obtain ⟨z, ez, okz⟩ := C21_binary ok ok (mu * mu) mu mu 0 0 1
  obtain rfl := Option.some_inj.1 (run.symm.trans (ez u))
  refine ⟨_, run, ?_⟩
  rw [C25_closed okz.valid (fun _ => mom.v3) (fun _ => mom.v4) (by
    intro i m h
    simp only [momOf, SMap.find?] at h
    split_ifs at h
    · simp at h; subst h; exact ⟨rfl, rfl⟩
    · simp at h)]
  simp [HessGrad.vars, G, H, SMap.find?, SMap.keys]
  ring

/-- the variance of `x * x` decreases somewhere -/
theorem square_decreases {v w : ℝ} (h : w < 9 / 8 * v ^ 2) : ∃ t, 1 < t ∧
    4 * (-(3 / 4 * v)) ^ 2 * t ^ 2 + 4 * (-(3 / 4 * v)) * t ^ 3 * v + t ^ 4 * w < 4 * (-(3 / 4 * v)) ^ 2 * 1 ^ 2 + 4 * (-(3 / 4 * v)) * 1 ^ 3 * v + 1 ^ 4 * w := by
  let P : ℝ → ℝ := fun e => 9 / 4 * v ^ 2 * (2 + e) - 3 * v ^ 2 * (3 + 3 * e + e ^ 2) + w * (4 + 6 * e + 4 * e ^ 2 + e ^ 3)
  have hc : Filter.Tendsto P (nhdsWithin 0 (Set.Ioi 0)) (nhds (P 0)) := (by fun_prop : Continuous P).continuousWithinAt
  have h0 : P 0 < 0 := by simp only [P]; nlinarith
  obtain ⟨e, he, hpos⟩ := ((hc.eventually_lt_const h0).and self_mem_nhdsWithin).exists
  have hpos : 0 < e := hpos
  refine ⟨1 + e, by linarith, ?_⟩
  have h2 := mul_neg_of_pos_of_neg hpos he
  simp only [P] at h2
  nlinarith

/-- **C97** The condition on the moments is needed: otherwise the uncertainty of `x * x` decreases for some mean of `x` when its uncertainty increases. -/
theorem C97_second_sharp (u : Moments ℝ) {mom : Moments ℝ} (h1 : mom.v3 ^ 2 + 1 ≤ mom.v4) (h2 : mom.v4 < 9 / 8 * mom.v3 ^ 2 + 1) :
    ∃ mu s s' z z' a a', 0 < s ∧ s < s' ∧ UReal2.mul u (elem2 1 mu s mom) (elem2 1 mu s mom) = some z ∧ UReal2.mul u (elem2 1 mu s' mom) (elem2 1 mu s' mom) = some z' ∧
      z.s = some a ∧ z'.s = some a' ∧ a' < a := by
  obtain ⟨t, ht, hlt⟩ := square_decreases (v := mom.v3) (w := mom.v4 - 1) (by linarith)
  obtain ⟨z, e, hv⟩ := square_run u mom (-(3 / 4 * mom.v3)) 1
  obtain ⟨z', e', hv'⟩ := square_run u mom (-(3 / 4 * mom.v3)) t
  rw [UReal2.var] at hv hv'
  refine ⟨_, 1, t, z, z', _, _, one_pos, ht, e, e', by rw [UReal2.s, hv]; rfl, by rw [UReal2.s, hv']; rfl, ?_⟩
  refine Real.sqrt_lt_sqrt ?_ hlt
  have : 0 ≤ t ^ 2 * ((2 * (-(3 / 4 * mom.v3)) + t * mom.v3) ^ 2 + t ^ 2 * (mom.v4 - 1 - mom.v3 ^ 2)) :=
    mul_nonneg (sq_nonneg _) (add_nonneg (sq_nonneg _) (mul_nonneg (sq_nonneg _) (by linarith)))
  nlinarith

example (u : Moments ℝ) := C97_second_sharp u (mom := Mom.twoPointMom) (by norm_num [Mom.twoPointMom]) (by norm_num [Mom.twoPointMom])

/-- **C97** `x * x` where `x` has mean -1 and two values, one 2 standard deviations above with probability 1/5, one half of a standard deviation below: the uncertainty is 5/8 if the one of `x` is 1/2, and 1/2 if the one of `x` is 1. -/
theorem C97_skew (u : Moments ℝ) : ∃ z z', UReal2.mul u (elem2 1 (-1) (1 / 2) Mom.twoPointMom) (elem2 1 (-1) (1 / 2) Mom.twoPointMom) = some z ∧
    UReal2.mul u (elem2 1 (-1) 1 Mom.twoPointMom) (elem2 1 (-1) 1 Mom.twoPointMom) = some z' ∧ z.s = some (5 / 8) ∧ z'.s = some (1 / 2) := by
  obtain ⟨z, e, hv⟩ := square_run u Mom.twoPointMom (-1) (1 / 2)
  obtain ⟨z', e', hv'⟩ := square_run u Mom.twoPointMom (-1) 1
  rw [UReal2.var] at hv hv'
  have sq : ∀ a : ℝ, 0 ≤ a → CSqrt.sqrt (a ^ 2) = a := fun a ha => Real.sqrt_sq ha
  refine ⟨z, z', e, e', ?_, ?_⟩
  · rw [UReal2.s, hv, Option.map_some, ← sq (5 / 8) (by norm_num)]; congr 2; norm_num [Mom.twoPointMom]
  · rw [UReal2.s, hv', Option.map_some, ← sq (1 / 2) (by norm_num)]; congr 2; norm_num [Mom.twoPointMom]

/-- **C97** The property is false at second order. -/
theorem C97_second_false : ¬ C97_second_statement := by
  intro H
  obtain ⟨z, z', h1, h2, h3, h4⟩ := C97_skew exN
  obtain ⟨out, out', e, e', -, -, h⟩ := H 1 ![1] ![-1] ![1 / 2] ![1] ![Mom.twoPointMom] [.bin (UReal2.mul exN) (fun a b => a * b) 0 0] (by decide) (by decide)
    (by intro i; fin_cases i; norm_num) (by intro i; fin_cases i; norm_num [Mom.twoPointMom])
    ⟨by norm_num, by norm_num, ⟨exN, fun a b => a * b, fun _ b => b, fun a _ => a, fun _ _ => 0, fun _ _ => 0, fun _ _ => 1, fun _ _ => rfl⟩, trivial⟩
  rw [show elems2 ![1] ![-1] ![1 / 2] ![Mom.twoPointMom] = [elem2 1 (-1) (1 / 2) Mom.twoPointMom] by simp [elems2]] at e
  rw [show elems2 ![1] ![-1] ![1] ![Mom.twoPointMom] = [elem2 1 (-1) 1 Mom.twoPointMom] by simp [elems2]] at e'
  have run : ∀ {x z : UReal2 ℝ}, UReal2.mul exN x x = some z → evalU2 [.bin (UReal2.mul exN) (fun a b => a * b) 0 0] [x] = some [x, z] := fun h => by simp [evalU2, h]
  rw [run h1] at e
  rw [run h2] at e'
  obtain rfl := Option.some_inj.1 e
  obtain rfl := Option.some_inj.1 e'
  obtain ⟨-, a, a', k1, k2, hle⟩ := h 1 z z' rfl rfl
  rw [h3] at k1
  rw [h4] at k2
  obtain rfl := Option.some_inj.1 k1
  obtain rfl := Option.some_inj.1 k2
  norm_num at hle

/-- **C97** Second order, uncertainties all multiplied by the same number: the first order mean stays the same and the correction of the mean is multiplied by the square of the
number. -/
theorem C97_scale_mean (hinj : Function.Injective ids) (hlt : ∀ i, ids i < maxId) (mu s : Fin n → ℝ) (c : ℝ) (mom : Fin n → Moments ℝ) {p : List Node2} (hp : NodesOfMu p n) :
    ∃ out out', evalU2 p (elems2 ids mu s mom) = some out ∧ evalU2 p (elems2 ids mu (fun i => c * s i) mom) = some out' ∧ out.length = n + p.length ∧
      out'.length = n + p.length ∧ ∀ (k : ℕ) x x', out[k]? = some x → out'[k]? = some x' → x'.mu = x.mu ∧ ∃ a, x.m 1 = some a ∧ x'.m 1 = some (c ^ 2 * a) ∧
        x.n .est = some (x.mu - a) ∧ x'.n .est = some (x.mu - c ^ 2 * a) ∧ x.n .mean = some (x.mu + a) ∧ x'.n .mean = some (x.mu + c ^ 2 * a) := by
  obtain ⟨o, e, l, fo⟩ := evalU2_fineMu _ p hp _ (fine_elems hlt mu (fun _ => 1) mom)
  refine ⟨o.map (vscU (sOf ids s)), o.map (vscU (sOf ids fun i => c * s i)), by rw [elems2_sc hinj, evalU2_vsc _ p hp, e]; rfl, by rw [elems2_sc hinj, evalU2_vsc _ p hp, e]; rfl,
    by rw [List.length_map, l]; simp [elems2], by rw [List.length_map, l]; simp [elems2], fun k x x' hx hx' => ?_⟩
  rw [List.getElem?_map, Option.map_eq_some_iff] at hx hx'
  obtain ⟨y, hy, rfl⟩ := hx
  obtain ⟨y', hy', rfl⟩ := hx'
  obtain rfl := Option.some_inj.1 (hy.symm.trans hy')
  have fy := fo y (List.mem_of_getElem? hy)
  have hm : ∀ t : VId → ℝ, (vscU t y).m 1 = some (∑ i ∈ y.hg.vars, t i ^ 2 * y.hg.H i i) := by
    intro t
    rw [Mom.m_one' (x := vscU t y) (valid_vsc fy.ok.valid), show (vscU t y).hg = vscHG t y.hg from rfl, Mom.m1_sum (valid_vsc fy.ok.valid) subset_rfl, vars_vsc]
    congr 1
    exact Finset.sum_congr rfl fun i _ => by rw [H_vsc]; ring
  have hc : ∀ i, sOf ids (fun i => c * s i) i = c * sOf ids s i := by
    intro i; unfold sOf; split_ifs <;> simp
  have hm' : (vscU (sOf ids fun i => c * s i) y).m 1 = some (c ^ 2 * ∑ i ∈ y.hg.vars, sOf ids s i ^ 2 * y.hg.H i i) := by
    rw [hm, Finset.mul_sum]
    congr 1
    exact Finset.sum_congr rfl fun i _ => by rw [hc]; ring
  refine ⟨rfl, _, hm _, hm', ?_, ?_, ?_, ?_⟩
  · rw [UReal2.n, hm]; simp [vscU, sub_eq_add_neg]
  · rw [UReal2.n, hm']; simp [vscU, sub_eq_add_neg]
  · rw [UReal2.n, hm]; simp [vscU]
  · rw [UReal2.n, hm']; simp [vscU]

example := C97_scale_mean (ids := ![1, 2]) (by decide) (by decide) ![2, 5] ![1, 3] 2 ![exN, exE] largerProg_ok

/-- **C97** The functions of the library and of the user pass on numbers which depend on the first order means of their arguments. -/
theorem C97_library (u : Moments ℝ) :
    (∀ g ∈ [UReal2.neg u, UMath2.abs u, UMath2.exp u, UMath2.exp2 u, UMath2.expm1 u, UMath2.log u, UMath2.log10 u, UMath2.log2 u, UMath2.log1p u, UMath2.sqrt u, UMath2.cbrt u, UMath2.sin u, UMath2.cos u, UMath2.tan u, UMath2.asin u, UMath2.acos u, UMath2.atan u, UMath2.sinh u, UMath2.cosh u, UMath2.tanh u, UMath2.asinh u, UMath2.acosh u, UMath2.atanh u, UMath2.erf u, UMath2.erfc u], OfMu1 g) ∧
    (∀ g ∈ [UReal2.add u, UReal2.sub u, UReal2.mul u, UReal2.div u, UMath2.fmod u, UMath2.remainder u, UMath2.fmax u, UMath2.fmin u, UMath2.pow u, UMath2.hypot u, UMath2.atan2 u], OfMu2 g) ∧
    (∀ f d dd : ℝ → ℝ, OfMu1 (UFun2.uunary2 u f d dd)) ∧ (∀ (f d : ℝ → ℝ) (h : ℝ), OfMu1 (UFun2.uunary2Fwd u f d h)) ∧ (∀ (f : ℝ → ℝ) (h : ℝ), OfMu1 (UFun2.uunary2Num u f h)) ∧
    (∀ f dx dy dxx dyy dxy : ℝ → ℝ → ℝ, OfMu2 (UFun2.ubinary2 u f dx dy dxx dyy dxy)) ∧ (∀ (f dx dy : ℝ → ℝ → ℝ) (h : ℝ), OfMu2 (UFun2.ubinary2Fwd u f dx dy h)) ∧
    ∀ (f : ℝ → ℝ → ℝ) (h : ℝ), OfMu2 (UFun2.ubinary2Num u f h) := by
  refine ⟨?_, ?_, ?_, ?_, ?_, ?_, ?_, ?_⟩
  · simp only [List.forall_mem_cons]
    refine ⟨?_, ?_, ?_, ?_, ?_, ?_, ?_, ?_, ?_, ?_, ?_, ?_, ?_, ?_, ?_, ?_, ?_, ?_, ?_, ?_, ?_, ?_, ?_, ?_, ?_, by simp⟩
    · exact ⟨u, fun (a : ℝ) => ((-a) : ℝ), fun (a : ℝ) => ((-1) : ℝ), fun (a : ℝ) => (0 : ℝ), fun _ => rfl⟩
    · exact ⟨u, fun (a : ℝ) => ((CSqrt.abs a) : ℝ), fun (a : ℝ) => ((if CCmp.leb 0 a then 1 else -1) : ℝ), fun (a : ℝ) => (0 : ℝ), fun _ => rfl⟩
    · exact ⟨u, fun (a : ℝ) => ((CMath.exp a) : ℝ), fun (a : ℝ) => ((CMath.exp a) : ℝ), fun (a : ℝ) => ((CMath.exp a) : ℝ), fun _ => rfl⟩
    · exact ⟨u, fun (a : ℝ) => (let coeff : ℝ := CMath.log (Mom.lit 2); (CMath.exp2 a) : ℝ), fun (a : ℝ) => (let coeff : ℝ := CMath.log (Mom.lit 2); (coeff * CMath.exp2 a) : ℝ), fun (a : ℝ) => (let coeff : ℝ := CMath.log (Mom.lit 2); (coeff * coeff * CMath.exp2 a) : ℝ), fun _ => rfl⟩
    · exact ⟨u, fun (a : ℝ) => ((CMath.expm1 a) : ℝ), fun (a : ℝ) => ((CMath.exp a) : ℝ), fun (a : ℝ) => ((CMath.exp a) : ℝ), fun _ => rfl⟩
    · exact ⟨u, fun (a : ℝ) => ((CMath.log a) : ℝ), fun (a : ℝ) => ((1 / a) : ℝ), fun (a : ℝ) => ((-1 / (a * a)) : ℝ), fun _ => rfl⟩
    · exact ⟨u, fun (a : ℝ) => (let coeff : ℝ := 1 / CMath.log (Mom.lit 10); (CMath.log10 a) : ℝ), fun (a : ℝ) => (let coeff : ℝ := 1 / CMath.log (Mom.lit 10); (coeff / a) : ℝ), fun (a : ℝ) => (let coeff : ℝ := 1 / CMath.log (Mom.lit 10); (-coeff / (a * a)) : ℝ), fun _ => rfl⟩
    · exact ⟨u, fun (a : ℝ) => (let coeff : ℝ := 1 / CMath.log (Mom.lit 2); (CMath.log2 a) : ℝ), fun (a : ℝ) => (let coeff : ℝ := 1 / CMath.log (Mom.lit 2); (coeff / a) : ℝ), fun (a : ℝ) => (let coeff : ℝ := 1 / CMath.log (Mom.lit 2); (-coeff / (a * a)) : ℝ), fun _ => rfl⟩
    · exact ⟨u, fun (a : ℝ) => (let ixnp1 := 1 / (1 + a); (CMath.log1p a) : ℝ), fun (a : ℝ) => (let ixnp1 := 1 / (1 + a); ixnp1 : ℝ), fun (a : ℝ) => (let ixnp1 := 1 / (1 + a); (-ixnp1 * ixnp1) : ℝ), fun _ => rfl⟩
    · exact ⟨u, fun (a : ℝ) => (let sqrtx := CSqrt.sqrt a; sqrtx : ℝ), fun (a : ℝ) => (let sqrtx := CSqrt.sqrt a; (1 / (Mom.lit 2 * sqrtx)) : ℝ), fun (a : ℝ) => (let sqrtx := CSqrt.sqrt a; (-1 / (Mom.lit 4 * a * sqrtx)) : ℝ), fun _ => rfl⟩
    · exact ⟨u, fun (a : ℝ) => (let cbrtx := CMath.cbrt a; let icbrt2 := 1 / (cbrtx * cbrtx); cbrtx : ℝ), fun (a : ℝ) => (let cbrtx := CMath.cbrt a; let icbrt2 := 1 / (cbrtx * cbrtx); (icbrt2 / Mom.lit 3) : ℝ), fun (a : ℝ) => (let cbrtx := CMath.cbrt a; let icbrt2 := 1 / (cbrtx * cbrtx); (-Mom.lit 2 / (Mom.lit 9 * a) * icbrt2) : ℝ), fun _ => rfl⟩
    · exact ⟨u, fun (a : ℝ) => (let sinx := CMath.sin a; sinx : ℝ), fun (a : ℝ) => (let sinx := CMath.sin a; (CMath.cos a) : ℝ), fun (a : ℝ) => (let sinx := CMath.sin a; (-sinx) : ℝ), fun _ => rfl⟩
    · exact ⟨u, fun (a : ℝ) => (let cosx := CMath.cos a; cosx : ℝ), fun (a : ℝ) => (let cosx := CMath.cos a; (-CMath.sin a) : ℝ), fun (a : ℝ) => (let cosx := CMath.cos a; (-cosx) : ℝ), fun _ => rfl⟩
    · exact ⟨u, fun (a : ℝ) => (let t := CMath.tan a; let tt1 := 1 + t * t; t : ℝ), fun (a : ℝ) => (let t := CMath.tan a; let tt1 := 1 + t * t; tt1 : ℝ), fun (a : ℝ) => (let t := CMath.tan a; let tt1 := 1 + t * t; (Mom.lit 2 * t * tt1) : ℝ), fun _ => rfl⟩
    · exact ⟨u, fun (a : ℝ) => (let i1xx := 1 / (1 - a * a); let isqrt1xx := CSqrt.sqrt i1xx; (CMath.asin a) : ℝ), fun (a : ℝ) => (let i1xx := 1 / (1 - a * a); let isqrt1xx := CSqrt.sqrt i1xx; isqrt1xx : ℝ), fun (a : ℝ) => (let i1xx := 1 / (1 - a * a); let isqrt1xx := CSqrt.sqrt i1xx; (a * isqrt1xx * i1xx) : ℝ), fun _ => rfl⟩
    · exact ⟨u, fun (a : ℝ) => (let i1xx := 1 / (1 - a * a); let isqrt1xx := CSqrt.sqrt i1xx; (CMath.acos a) : ℝ), fun (a : ℝ) => (let i1xx := 1 / (1 - a * a); let isqrt1xx := CSqrt.sqrt i1xx; (-isqrt1xx) : ℝ), fun (a : ℝ) => (let i1xx := 1 / (1 - a * a); let isqrt1xx := CSqrt.sqrt i1xx; (-a * isqrt1xx * i1xx) : ℝ), fun _ => rfl⟩
    · exact ⟨u, fun (a : ℝ) => (let i1xx := 1 / (1 + a * a); (CMath.atan a) : ℝ), fun (a : ℝ) => (let i1xx := 1 / (1 + a * a); i1xx : ℝ), fun (a : ℝ) => (let i1xx := 1 / (1 + a * a); (-Mom.lit 2 * a * i1xx * i1xx) : ℝ), fun _ => rfl⟩
    · exact ⟨u, fun (a : ℝ) => (let sinhx := CMath.sinh a; sinhx : ℝ), fun (a : ℝ) => (let sinhx := CMath.sinh a; (CMath.cosh a) : ℝ), fun (a : ℝ) => (let sinhx := CMath.sinh a; sinhx : ℝ), fun _ => rfl⟩
    · exact ⟨u, fun (a : ℝ) => (let coshx := CMath.cosh a; coshx : ℝ), fun (a : ℝ) => (let coshx := CMath.cosh a; (CMath.sinh a) : ℝ), fun (a : ℝ) => (let coshx := CMath.cosh a; coshx : ℝ), fun _ => rfl⟩
    · exact ⟨u, fun (a : ℝ) => (let t := CMath.tanh a; let tt1 := 1 - t * t; t : ℝ), fun (a : ℝ) => (let t := CMath.tanh a; let tt1 := 1 - t * t; tt1 : ℝ), fun (a : ℝ) => (let t := CMath.tanh a; let tt1 := 1 - t * t; (-Mom.lit 2 * t * tt1) : ℝ), fun _ => rfl⟩
    · exact ⟨u, fun (a : ℝ) => (let i1xx := 1 / (1 + a * a); let sqrti1xx := CSqrt.sqrt i1xx; (CMath.asinh a) : ℝ), fun (a : ℝ) => (let i1xx := 1 / (1 + a * a); let sqrti1xx := CSqrt.sqrt i1xx; sqrti1xx : ℝ), fun (a : ℝ) => (let i1xx := 1 / (1 + a * a); let sqrti1xx := CSqrt.sqrt i1xx; (-a * i1xx * sqrti1xx) : ℝ), fun _ => rfl⟩
    · exact ⟨u, fun (a : ℝ) => (let ixx1 := 1 / (a * a - 1); let sqrtixx1 := CSqrt.sqrt ixx1; (CMath.acosh a) : ℝ), fun (a : ℝ) => (let ixx1 := 1 / (a * a - 1); let sqrtixx1 := CSqrt.sqrt ixx1; sqrtixx1 : ℝ), fun (a : ℝ) => (let ixx1 := 1 / (a * a - 1); let sqrtixx1 := CSqrt.sqrt ixx1; (-a * ixx1 * sqrtixx1) : ℝ), fun _ => rfl⟩
    · exact ⟨u, fun (a : ℝ) => (let i1xx := 1 / (1 - a * a); (CMath.atanh a) : ℝ), fun (a : ℝ) => (let i1xx := 1 / (1 - a * a); i1xx : ℝ), fun (a : ℝ) => (let i1xx := 1 / (1 - a * a); (Mom.lit 2 * a * i1xx * i1xx) : ℝ), fun _ => rfl⟩
    · exact ⟨u, fun (a : ℝ) => (let cexx := UMath.erfCoeff * CMath.exp (-a * a); (CMath.erf a) : ℝ), fun (a : ℝ) => (let cexx := UMath.erfCoeff * CMath.exp (-a * a); cexx : ℝ), fun (a : ℝ) => (let cexx := UMath.erfCoeff * CMath.exp (-a * a); (-Mom.lit 2 * a * cexx) : ℝ), fun _ => rfl⟩
    · exact ⟨u, fun (a : ℝ) => (let cexx := UMath.erfCoeff * CMath.exp (-a * a); (CMath.erfc a) : ℝ), fun (a : ℝ) => (let cexx := UMath.erfCoeff * CMath.exp (-a * a); (-cexx) : ℝ), fun (a : ℝ) => (let cexx := UMath.erfCoeff * CMath.exp (-a * a); (Mom.lit 2 * a * cexx) : ℝ), fun _ => rfl⟩
  · simp only [List.forall_mem_cons]
    refine ⟨?_, ?_, ?_, ?_, ?_, ?_, ?_, ?_, ?_, ?_, ?_, by simp⟩
    · exact ⟨u, fun (a b : ℝ) => ((a + b) : ℝ), fun (a b : ℝ) => (1 : ℝ), fun (a b : ℝ) => (1 : ℝ), fun (a b : ℝ) => (0 : ℝ), fun (a b : ℝ) => (0 : ℝ), fun (a b : ℝ) => (0 : ℝ), fun _ _ => rfl⟩
    · exact ⟨u, fun (a b : ℝ) => ((a - b) : ℝ), fun (a b : ℝ) => (1 : ℝ), fun (a b : ℝ) => ((-1) : ℝ), fun (a b : ℝ) => (0 : ℝ), fun (a b : ℝ) => (0 : ℝ), fun (a b : ℝ) => (0 : ℝ), fun _ _ => rfl⟩
    · exact ⟨u, fun (a b : ℝ) => (let xn := a; let yn := b; (xn * yn) : ℝ), fun (a b : ℝ) => (let xn := a; let yn := b; yn : ℝ), fun (a b : ℝ) => (let xn := a; let yn := b; xn : ℝ), fun (a b : ℝ) => (let xn := a; let yn := b; 0 : ℝ), fun (a b : ℝ) => (let xn := a; let yn := b; 0 : ℝ), fun (a b : ℝ) => (let xn := a; let yn := b; 1 : ℝ), fun _ _ => rfl⟩
    · exact ⟨u, fun (a b : ℝ) => (let xn := a; let yn := b; let invy := 1 / yn; let invy2 := invy * invy; (xn / yn) : ℝ), fun (a b : ℝ) => (let xn := a; let yn := b; let invy := 1 / yn; let invy2 := invy * invy; invy : ℝ), fun (a b : ℝ) => (let xn := a; let yn := b; let invy := 1 / yn; let invy2 := invy * invy; (-xn * invy2) : ℝ), fun (a b : ℝ) => (let xn := a; let yn := b; let invy := 1 / yn; let invy2 := invy * invy; 0 : ℝ), fun (a b : ℝ) => (let xn := a; let yn := b; let invy := 1 / yn; let invy2 := invy * invy; (Mom.lit 2 * xn * invy2 * invy) : ℝ), fun (a b : ℝ) => (let xn := a; let yn := b; let invy := 1 / yn; let invy2 := invy * invy; (-invy2) : ℝ), fun _ _ => rfl⟩
    · exact ⟨u, fun (a b : ℝ) => ((CMath.fmod a b) : ℝ), fun (a b : ℝ) => (1 : ℝ), fun (a b : ℝ) => ((-CMath.trunc (a / b)) : ℝ), fun (a b : ℝ) => (0 : ℝ), fun (a b : ℝ) => (0 : ℝ), fun (a b : ℝ) => (0 : ℝ), fun _ _ => rfl⟩
    · exact ⟨u, fun (a b : ℝ) => ((CMath.remainder a b) : ℝ), fun (a b : ℝ) => (1 : ℝ), fun (a b : ℝ) => ((-CMath.round (a / b)) : ℝ), fun (a b : ℝ) => (0 : ℝ), fun (a b : ℝ) => (0 : ℝ), fun (a b : ℝ) => (0 : ℝ), fun _ _ => rfl⟩
    · exact ⟨u, fun (a b : ℝ) => (let max := CMath.fmax a b; let c := CCmp.eqb max a; max : ℝ), fun (a b : ℝ) => (let max := CMath.fmax a b; let c := CCmp.eqb max a; (if c then 1 else 0) : ℝ), fun (a b : ℝ) => (let max := CMath.fmax a b; let c := CCmp.eqb max a; (if c then 0 else 1) : ℝ), fun (a b : ℝ) => (let max := CMath.fmax a b; let c := CCmp.eqb max a; 0 : ℝ), fun (a b : ℝ) => (let max := CMath.fmax a b; let c := CCmp.eqb max a; 0 : ℝ), fun (a b : ℝ) => (let max := CMath.fmax a b; let c := CCmp.eqb max a; 0 : ℝ), fun _ _ => rfl⟩
    · exact ⟨u, fun (a b : ℝ) => (let min := CMath.fmin a b; let c := CCmp.eqb min a; min : ℝ), fun (a b : ℝ) => (let min := CMath.fmin a b; let c := CCmp.eqb min a; (if c then 1 else 0) : ℝ), fun (a b : ℝ) => (let min := CMath.fmin a b; let c := CCmp.eqb min a; (if c then 0 else 1) : ℝ), fun (a b : ℝ) => (let min := CMath.fmin a b; let c := CCmp.eqb min a; 0 : ℝ), fun (a b : ℝ) => (let min := CMath.fmin a b; let c := CCmp.eqb min a; 0 : ℝ), fun (a b : ℝ) => (let min := CMath.fmin a b; let c := CCmp.eqb min a; 0 : ℝ), fun _ _ => rfl⟩
    · exact ⟨u, fun (a b : ℝ) => (let x2y := CMath.pow a b; let logx := CMath.log a; let ix := 1 / a; let x2yix := x2y * ix; let x2yixy := x2yix * b; let x2ylogx := x2y * logx; x2y : ℝ), fun (a b : ℝ) => (let x2y := CMath.pow a b; let logx := CMath.log a; let ix := 1 / a; let x2yix := x2y * ix; let x2yixy := x2yix * b; let x2ylogx := x2y * logx; x2yixy : ℝ), fun (a b : ℝ) => (let x2y := CMath.pow a b; let logx := CMath.log a; let ix := 1 / a; let x2yix := x2y * ix; let x2yixy := x2yix * b; let x2ylogx := x2y * logx; x2ylogx : ℝ), fun (a b : ℝ) => (let x2y := CMath.pow a b; let logx := CMath.log a; let ix := 1 / a; let x2yix := x2y * ix; let x2yixy := x2yix * b; let x2ylogx := x2y * logx; (x2yixy * ix * (b - 1)) : ℝ), fun (a b : ℝ) => (let x2y := CMath.pow a b; let logx := CMath.log a; let ix := 1 / a; let x2yix := x2y * ix; let x2yixy := x2yix * b; let x2ylogx := x2y * logx; (x2ylogx * logx) : ℝ), fun (a b : ℝ) => (let x2y := CMath.pow a b; let logx := CMath.log a; let ix := 1 / a; let x2yix := x2y * ix; let x2yixy := x2yix * b; let x2ylogx := x2y * logx; (x2yix + x2yixy * logx) : ℝ), fun _ _ => rfl⟩
    · exact ⟨u, fun (a b : ℝ) => (let h := CMath.hypot a b; let ih := 1 / h; let xnih := a * ih; let ynih := b * ih; h : ℝ), fun (a b : ℝ) => (let h := CMath.hypot a b; let ih := 1 / h; let xnih := a * ih; let ynih := b * ih; xnih : ℝ), fun (a b : ℝ) => (let h := CMath.hypot a b; let ih := 1 / h; let xnih := a * ih; let ynih := b * ih; ynih : ℝ), fun (a b : ℝ) => (let h := CMath.hypot a b; let ih := 1 / h; let xnih := a * ih; let ynih := b * ih; (ih * (1 - xnih * xnih)) : ℝ), fun (a b : ℝ) => (let h := CMath.hypot a b; let ih := 1 / h; let xnih := a * ih; let ynih := b * ih; (ih * (1 - ynih * ynih)) : ℝ), fun (a b : ℝ) => (let h := CMath.hypot a b; let ih := 1 / h; let xnih := a * ih; let ynih := b * ih; (-xnih * ynih * ih) : ℝ), fun _ _ => rfl⟩
    · exact ⟨u, fun (a b : ℝ) => (let x2 := a * a; let y2 := b * b; let xxyy := x2 + y2; let ixxyy := 1 / xxyy; let xixxyy := a * ixxyy; let yixxyy := b * ixxyy; let xy2ixxyy2 := Mom.lit 2 * xixxyy * yixxyy; (CMath.atan2 a b) : ℝ), fun (a b : ℝ) => (let x2 := a * a; let y2 := b * b; let xxyy := x2 + y2; let ixxyy := 1 / xxyy; let xixxyy := a * ixxyy; let yixxyy := b * ixxyy; let xy2ixxyy2 := Mom.lit 2 * xixxyy * yixxyy; yixxyy : ℝ), fun (a b : ℝ) => (let x2 := a * a; let y2 := b * b; let xxyy := x2 + y2; let ixxyy := 1 / xxyy; let xixxyy := a * ixxyy; let yixxyy := b * ixxyy; let xy2ixxyy2 := Mom.lit 2 * xixxyy * yixxyy; (-xixxyy) : ℝ), fun (a b : ℝ) => (let x2 := a * a; let y2 := b * b; let xxyy := x2 + y2; let ixxyy := 1 / xxyy; let xixxyy := a * ixxyy; let yixxyy := b * ixxyy; let xy2ixxyy2 := Mom.lit 2 * xixxyy * yixxyy; (-xy2ixxyy2) : ℝ), fun (a b : ℝ) => (let x2 := a * a; let y2 := b * b; let xxyy := x2 + y2; let ixxyy := 1 / xxyy; let xixxyy := a * ixxyy; let yixxyy := b * ixxyy; let xy2ixxyy2 := Mom.lit 2 * xixxyy * yixxyy; xy2ixxyy2 : ℝ), fun (a b : ℝ) => (let x2 := a * a; let y2 := b * b; let xxyy := x2 + y2; let ixxyy := 1 / xxyy; let xixxyy := a * ixxyy; let yixxyy := b * ixxyy; let xy2ixxyy2 := Mom.lit 2 * xixxyy * yixxyy; ((x2 - y2) * ixxyy * ixxyy) : ℝ), fun _ _ => rfl⟩
  · exact fun f dfdx ddfdxdx => ⟨u, fun (a : ℝ) => ((f a) : ℝ), fun (a : ℝ) => ((dfdx a) : ℝ), fun (a : ℝ) => ((ddfdxdx a) : ℝ), fun _ => rfl⟩
  · exact fun f dfdx h => ⟨u, fun (a : ℝ) => (let dfdxn := dfdx a; let ddfdxdx := (dfdx (a + h) - dfdxn) / h; (f a) : ℝ), fun (a : ℝ) => (let dfdxn := dfdx a; let ddfdxdx := (dfdx (a + h) - dfdxn) / h; dfdxn : ℝ), fun (a : ℝ) => (let dfdxn := dfdx a; let ddfdxdx := (dfdx (a + h) - dfdxn) / h; ddfdxdx : ℝ), fun _ => rfl⟩
  · exact fun f h => ⟨u, fun (a : ℝ) => (let fc := f a; let fr := f (a + h); let fl := f (a - h); let dfdx := (fr - fl) / (Mom.lit 2 * h); let ddfdxdx := (fr + fl - Mom.lit 2 * fc) / (h * h); fc : ℝ), fun (a : ℝ) => (let fc := f a; let fr := f (a + h); let fl := f (a - h); let dfdx := (fr - fl) / (Mom.lit 2 * h); let ddfdxdx := (fr + fl - Mom.lit 2 * fc) / (h * h); dfdx : ℝ), fun (a : ℝ) => (let fc := f a; let fr := f (a + h); let fl := f (a - h); let dfdx := (fr - fl) / (Mom.lit 2 * h); let ddfdxdx := (fr + fl - Mom.lit 2 * fc) / (h * h); ddfdxdx : ℝ), fun _ => rfl⟩
  · exact fun f dfdx dfdy ddfdxdx ddfdydy ddfdxdy => ⟨u, fun (a b : ℝ) => ((f a b) : ℝ), fun (a b : ℝ) => ((dfdx a b) : ℝ), fun (a b : ℝ) => ((dfdy a b) : ℝ), fun (a b : ℝ) => ((ddfdxdx a b) : ℝ), fun (a b : ℝ) => ((ddfdydy a b) : ℝ), fun (a b : ℝ) => ((ddfdxdy a b) : ℝ), fun _ _ => rfl⟩
  · exact fun f dfdx dfdy h => ⟨u, fun (a b : ℝ) => (let xn := a; let yn := b; let dfdxn := dfdx xn yn; let dfdyn := dfdy xn yn; let ddfdxdx := (dfdx (xn + h) yn - dfdxn) / h; let ddfdydy := (dfdy xn (yn + h) - dfdyn) / h; let ddfdxdy := (dfdx xn (yn + h) - dfdxn) / h; (f xn yn) : ℝ), fun (a b : ℝ) => (let xn := a; let yn := b; let dfdxn := dfdx xn yn; let dfdyn := dfdy xn yn; let ddfdxdx := (dfdx (xn + h) yn - dfdxn) / h; let ddfdydy := (dfdy xn (yn + h) - dfdyn) / h; let ddfdxdy := (dfdx xn (yn + h) - dfdxn) / h; dfdxn : ℝ), fun (a b : ℝ) => (let xn := a; let yn := b; let dfdxn := dfdx xn yn; let dfdyn := dfdy xn yn; let ddfdxdx := (dfdx (xn + h) yn - dfdxn) / h; let ddfdydy := (dfdy xn (yn + h) - dfdyn) / h; let ddfdxdy := (dfdx xn (yn + h) - dfdxn) / h; dfdyn : ℝ), fun (a b : ℝ) => (let xn := a; let yn := b; let dfdxn := dfdx xn yn; let dfdyn := dfdy xn yn; let ddfdxdx := (dfdx (xn + h) yn - dfdxn) / h; let ddfdydy := (dfdy xn (yn + h) - dfdyn) / h; let ddfdxdy := (dfdx xn (yn + h) - dfdxn) / h; ddfdxdx : ℝ), fun (a b : ℝ) => (let xn := a; let yn := b; let dfdxn := dfdx xn yn; let dfdyn := dfdy xn yn; let ddfdxdx := (dfdx (xn + h) yn - dfdxn) / h; let ddfdydy := (dfdy xn (yn + h) - dfdyn) / h; let ddfdxdy := (dfdx xn (yn + h) - dfdxn) / h; ddfdydy : ℝ), fun (a b : ℝ) => (let xn := a; let yn := b; let dfdxn := dfdx xn yn; let dfdyn := dfdy xn yn; let ddfdxdx := (dfdx (xn + h) yn - dfdxn) / h; let ddfdydy := (dfdy xn (yn + h) - dfdyn) / h; let ddfdxdy := (dfdx xn (yn + h) - dfdxn) / h; ddfdxdy : ℝ), fun _ _ => rfl⟩
  · exact fun f h => ⟨u, fun (a b : ℝ) => (let xc := a; let yc := b; let fcc := f xc yc; let xr := xc + h; let xl := xc - h; let yr := yc + h; let yl := yc - h; let frc := f xr yc; let flc := f xl yc; let fcr := f xc yr; let fcl := f xc yl; let frr := f xr yr; let fll := f xl yl; let frclc := frc + flc; let fcrcl := fcr + fcl; let fcc2 := Mom.lit 2 * fcc; let step2 := Mom.lit 2 * h; let stepsq := h * h; let dfdx := (frc - flc) / step2; let dfdy := (fcr - fcl) / step2; let ddfdxdx := (frclc - fcc2) / stepsq; let ddfdydy := (fcrcl - fcc2) / stepsq; let ddfdxdy := (frr + fll - frclc - fcrcl + fcc2) / (Mom.lit 2 * stepsq); fcc : ℝ), fun (a b : ℝ) => (let xc := a; let yc := b; let fcc := f xc yc; let xr := xc + h; let xl := xc - h; let yr := yc + h; let yl := yc - h; let frc := f xr yc; let flc := f xl yc; let fcr := f xc yr; let fcl := f xc yl; let frr := f xr yr; let fll := f xl yl; let frclc := frc + flc; let fcrcl := fcr + fcl; let fcc2 := Mom.lit 2 * fcc; let step2 := Mom.lit 2 * h; let stepsq := h * h; let dfdx := (frc - flc) / step2; let dfdy := (fcr - fcl) / step2; let ddfdxdx := (frclc - fcc2) / stepsq; let ddfdydy := (fcrcl - fcc2) / stepsq; let ddfdxdy := (frr + fll - frclc - fcrcl + fcc2) / (Mom.lit 2 * stepsq); dfdx : ℝ), fun (a b : ℝ) => (let xc := a; let yc := b; let fcc := f xc yc; let xr := xc + h; let xl := xc - h; let yr := yc + h; let yl := yc - h; let frc := f xr yc; let flc := f xl yc; let fcr := f xc yr; let fcl := f xc yl; let frr := f xr yr; let fll := f xl yl; let frclc := frc + flc; let fcrcl := fcr + fcl; let fcc2 := Mom.lit 2 * fcc; let step2 := Mom.lit 2 * h; let stepsq := h * h; let dfdx := (frc - flc) / step2; let dfdy := (fcr - fcl) / step2; let ddfdxdx := (frclc - fcc2) / stepsq; let ddfdydy := (fcrcl - fcc2) / stepsq; let ddfdxdy := (frr + fll - frclc - fcrcl + fcc2) / (Mom.lit 2 * stepsq); dfdy : ℝ), fun (a b : ℝ) => (let xc := a; let yc := b; let fcc := f xc yc; let xr := xc + h; let xl := xc - h; let yr := yc + h; let yl := yc - h; let frc := f xr yc; let flc := f xl yc; let fcr := f xc yr; let fcl := f xc yl; let frr := f xr yr; let fll := f xl yl; let frclc := frc + flc; let fcrcl := fcr + fcl; let fcc2 := Mom.lit 2 * fcc; let step2 := Mom.lit 2 * h; let stepsq := h * h; let dfdx := (frc - flc) / step2; let dfdy := (fcr - fcl) / step2; let ddfdxdx := (frclc - fcc2) / stepsq; let ddfdydy := (fcrcl - fcc2) / stepsq; let ddfdxdy := (frr + fll - frclc - fcrcl + fcc2) / (Mom.lit 2 * stepsq); ddfdxdx : ℝ), fun (a b : ℝ) => (let xc := a; let yc := b; let fcc := f xc yc; let xr := xc + h; let xl := xc - h; let yr := yc + h; let yl := yc - h; let frc := f xr yc; let flc := f xl yc; let fcr := f xc yr; let fcl := f xc yl; let frr := f xr yr; let fll := f xl yl; let frclc := frc + flc; let fcrcl := fcr + fcl; let fcc2 := Mom.lit 2 * fcc; let step2 := Mom.lit 2 * h; let stepsq := h * h; let dfdx := (frc - flc) / step2; let dfdy := (fcr - fcl) / step2; let ddfdxdx := (frclc - fcc2) / stepsq; let ddfdydy := (fcrcl - fcc2) / stepsq; let ddfdxdy := (frr + fll - frclc - fcrcl + fcc2) / (Mom.lit 2 * stepsq); ddfdydy : ℝ), fun (a b : ℝ) => (let xc := a; let yc := b; let fcc := f xc yc; let xr := xc + h; let xl := xc - h; let yr := yc + h; let yl := yc - h; let frc := f xr yc; let flc := f xl yc; let fcr := f xc yr; let fcl := f xc yl; let frr := f xr yr; let fll := f xl yl; let frclc := frc + flc; let fcrcl := fcr + fcl; let fcc2 := Mom.lit 2 * fcc; let step2 := Mom.lit 2 * h; let stepsq := h * h; let dfdx := (frc - flc) / step2; let dfdy := (fcr - fcl) / step2; let ddfdxdx := (frclc - fcc2) / stepsq; let ddfdydy := (fcrcl - fcc2) / stepsq; let ddfdxdy := (frr + fll - frclc - fcrcl + fcc2) / (Mom.lit 2 * stepsq); ddfdxdy : ℝ), fun _ _ => rfl⟩

example (u : Moments ℝ) : OfMu1 (UMath2.cbrt u) ∧ OfMu2 (UMath2.atan2 u) := ⟨(C97_library u).1 _ (by simp), (C97_library u).2.1 _ (by simp)⟩

/-- **C97** Second order: the uncertainty of a sum or difference is at most the sum of the uncertainties and at least their difference. -/
theorem C97_triangle_second {tab : VId → Moments ℝ} {x y : UReal2 ℝ} (hx : Ok2 x) (hy : Ok2 y) (mx : ∀ i m, x.hg.momOf i = some m → m = tab i)
    (my : ∀ i m, y.hg.momOf i = some m → m = tab i) (hsx : SoundMoments x.hg) (hsy : SoundMoments y.hg) (u : Moments ℝ) :
    ∃ z z' a b c d, UReal2.add u x y = some z ∧ UReal2.sub u x y = some z' ∧ x.s = some a ∧ y.s = some b ∧ z.s = some c ∧ z'.s = some d ∧
      c ≤ a + b ∧ d ≤ a + b ∧ |a - b| ≤ c ∧ |a - b| ≤ d := by
  let v : ℕ → UReal2 ℝ := fun i => if i = 0 then x else y
  have hv : ∀ i, Ok2 (v i) := fun i => by simp only [v]; split_ifs <;> assumption
  have hm : ∀ k i m, (v k).hg.momOf i = some m → m = tab i := fun k => by simp only [v]; split_ifs <;> assumption
  obtain ⟨z, ez, -, vx, vy, cxy, h1, h2, h3, h4⟩ := C53_bilinear hv hm (e := .add (.var 0) (.var 1)) (a := 1) (b := 1) (c := 0) (by simp [RExpr.poly]) u
  obtain ⟨z', ez', -, vx', vy', cxy', h1', h2', h3', h4'⟩ := C53_bilinear hv hm (e := .sub (.var 0) (.var 1)) (a := 1) (b := -1) (c := 0) (by simp [RExpr.poly]; ring) u
  rw [h1] at h1'; rw [h2] at h2'; rw [h3] at h3'
  obtain rfl := Option.some_inj.1 h1'
  obtain rfl := Option.some_inj.1 h2'
  obtain rfl := Option.some_inj.1 h3'
  obtain ⟨c, wx, wy, k1, k2, k3, px, py, pc⟩ := C29_cov_sq hx.valid hy.valid (fun i p q hp hq => (mx i p hp).trans (my i q hq).symm) hsx hsy
  obtain rfl := Option.some_inj.1 (k1.symm.trans h3)
  obtain rfl := Option.some_inj.1 (k2.symm.trans h1)
  obtain rfl := Option.some_inj.1 (k3.symm.trans h2)
  rw [UReal2.var] at h1 h2 h4 h4'
  have hs : ∀ {w : UReal2 ℝ} {r : ℝ}, w.m 2 = some r → w.s = some (Real.sqrt r) := fun h => by rw [UReal2.s, h]; rfl
  refine ⟨z, z', _, _, _, _, by simpa [RExpr.eval2, v] using ez, by simpa [RExpr.eval2, v] using ez', hs h1, hs h2, hs h4, hs h4', ?_⟩
  have sx := Real.sqrt_nonneg wx
  have sy := Real.sqrt_nonneg wy
  have qx := Real.sq_sqrt px
  have qy := Real.sq_sqrt py
  have hc : |c| ≤ Real.sqrt wx * Real.sqrt wy := abs_le_of_sq_le_sq (by rw [mul_pow, qx, qy]; exact pc) (mul_nonneg sx sy)
  obtain ⟨c1, c2⟩ := abs_le.1 hc
  refine ⟨?_, ?_, ?_, ?_⟩
  · exact Real.sqrt_le_iff.2 ⟨add_nonneg sx sy, by nlinarith⟩
  · exact Real.sqrt_le_iff.2 ⟨add_nonneg sx sy, by nlinarith⟩
  · exact Real.le_sqrt_of_sq_le (by rw [sq_abs]; nlinarith)
  · exact Real.le_sqrt_of_sq_le (by rw [sq_abs]; nlinarith)

example (u : Moments ℝ) := C97_triangle_second (tab := fun _ => Mom.twoPointMom) ok_exMx ok_exMy mom_exMx mom_exMy sound_exMx sound_exMy u

end second

end Unc.Props
