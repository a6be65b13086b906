import Verif.Props.Tail

/-!
# C100: several results together
-/

namespace Unc.Props
open Unc Unc.Spec MeasureTheory UReal
variable {Ω : Type*} [MeasurableSpace Ω] {P : Measure Ω} {n r : ℕ}

theorem joint [IsProbabilityMeasure P] {Q : Fin r → Ω → ℝ} {m s c : Fin r → ℝ} (h : ∀ j, Tails P (Q j) (m j) (s j)) (hc : ∀ j, 0 < c j) :
    1 - ∑ j, 1 / c j ^ 2 ≤ P.real {ω | ∀ j, |Q j ω - m j| < c j * s j} := by
  have h1 : P.real Set.univ ≤ P.real ({ω | ∀ j, |Q j ω - m j| < c j * s j} ∪ ⋃ j, {ω | c j * s j ≤ |Q j ω - m j|}) := by
    refine measureReal_mono (fun ω _ => ?_)
    by_cases hw : ∀ j, |Q j ω - m j| < c j * s j
    · exact Or.inl hw
    · push Not at hw
      exact Or.inr (Set.mem_iUnion.2 hw)
  have h2 := measureReal_union_le (μ := P) {ω | ∀ j, |Q j ω - m j| < c j * s j} (⋃ j, {ω | c j * s j ≤ |Q j ω - m j|})
  have h3 := measureReal_iUnion_fintype_le (μ := P) fun j => {ω | c j * s j ≤ |Q j ω - m j|}
  have h4 : ∑ j, P.real {ω | c j * s j ≤ |Q j ω - m j|} ≤ ∑ j, 1 / c j ^ 2 := Finset.sum_le_sum fun j _ => (h j).two _ (hc j)
  rw [probReal_univ] at h1
  linarith

theorem evalR2_len (p : List Node2) (acc : List ℝ) : (evalR2 p acc).length = acc.length + p.length := by
  induction p generalizing acc with
  | nil => rfl
  | cons nd q ih => cases nd <;> simp only [evalR2, ih, List.length_append, List.length_cons, List.length_nil] <;> omega

/-- **C100** First order, affine functions: several results, which may depend on the same variables, are all within `c j` uncertainties of the means reported, with probability at least
`1 - ∑ 1 / c j ^ 2`. -/
theorem C100_joint_affine {Z : Fin n → Ω → ℝ} {ids : Fin n → ℤ} (hinj : Function.Injective ids) (hpos : ∀ i, 0 < ids i) (hlt : ∀ i, ids i < maxId) {mu s : Fin n → ℝ} {p : List Node}
    (hp : NodesRight p (Spec.vars mu)) (hZ : Errors P Z) {k : Fin r → ℕ} (hk : ∀ j, k j < n + p.length) {a : Fin r → Fin n → ℝ} {a0 : Fin r → ℝ}
    (ha : ∀ j, ∀ v : Fin n → ℝ, fn p (k j) v = a0 j + ∑ i, a j i * v i) {c : Fin r → ℝ} (hc : ∀ j, 0 < c j) :
    ∃ out, ∃ x : Fin r → UReal ℝ, evalU p (elems ids mu s) = some out ∧ (∀ j, out[k j]? = some (x j)) ∧
      ((∀ j, (x j).s ≠ 0) → 1 - ∑ j, 1 / c j ^ 2 ≤ P.real {ω | ∀ j, |fn p (k j) (quantity mu s Z ω) - (x j).n| < c j * (x j).s}) := by
  have hP := hZ.indep.isProbabilityMeasure
  obtain ⟨out, e, hlen, -⟩ := prog_rel hinj hpos hlt mu s p hp
  have H : ∀ j, ∃ x, out[k j]? = some x ∧ (x.s ≠ 0 → Tails P (fun ω => fn p (k j) (quantity mu s Z ω)) x.n x.s) := by
    intro j
    obtain ⟨out', x, e', ex, ht⟩ := C100_affine hinj hpos hlt (s := s) hp hZ (hk j) (ha j)
    obtain rfl : out = out' := Option.some_inj.1 (e.symm.trans e')
    exact ⟨x, ex, ht⟩
  choose x hx ht using H
  exact ⟨out, x, e, hx, fun h0 => joint (fun j => ht j (h0 j)) hc⟩

/-- **C100** Second order, computations with `+ - *` of polynomials of degree at most 2: the same for several results. -/
theorem C100_joint_polynomial {X : Fin n → Ω → ℝ} {ids : Fin n → VId} {mu s : Fin n → ℝ} {mom : Fin n → Moments ℝ} {p : List Node2} (hinj : Function.Injective ids)
    (hlt : ∀ i, ids i < maxId) (hp : ∀ nd ∈ p, PolyNode nd) (hr : InRange p n) (hX : Errors8 P X mom) {k : Fin r → ℕ} {F : Fin r → (Fin n → ℝ) → ℝ}
    (hk : ∀ j, Computes p (k j) (F j)) (hF : ∀ j, Quadratic (F j)) {c : Fin r → ℝ} (hc : ∀ j, 0 < c j) :
    ∃ out, evalU2 p (elems2 ids mu s mom) = some out ∧ ((∀ j, (out.getD (k j) (UReal2.const 0)).s ≠ some 0) →
      ∃ m sd : Fin r → ℝ, (∀ j, (out.getD (k j) (UReal2.const 0)).n .mean = some (m j) ∧ (out.getD (k j) (UReal2.const 0)).s = some (sd j)) ∧
        1 - ∑ j, 1 / c j ^ 2 ≤ P.real {ω | ∀ j, |F j (fun i => mu i + s i * X i ω) - m j| < c j * sd j}) := by
  have hP := hX.prob
  have h0 : Computes (n := n) p (n + p.length) fun _ => 0 := fun y => by
    rw [List.getD_eq_getElem?_getD, List.getElem?_eq_none (by rw [evalR2_len]; simp)]; rfl
  obtain ⟨out, e, -⟩ := C100_polynomial hinj hlt (mu := mu) (s := s) hp hr hX h0 ⟨0, 0, 0, fun y => by simp⟩
  refine ⟨out, e, fun h0 => ?_⟩
  have H : ∀ j, ∃ m sd, (out.getD (k j) (UReal2.const 0)).n .mean = some m ∧ (out.getD (k j) (UReal2.const 0)).s = some sd ∧
      Tails P (fun ω => F j fun i => mu i + s i * X i ω) m sd := by
    intro j
    obtain ⟨out', e', h⟩ := C100_polynomial hinj hlt (mu := mu) (s := s) hp hr hX (hk j) (hF j)
    obtain rfl : out = out' := Option.some_inj.1 (e.symm.trans e')
    obtain ⟨m, sd, -, h1, h2, -, h3, -⟩ := h (h0 j)
    exact ⟨m, sd, h1, h2, h3⟩
  choose m sd h1 h2 h3 using H
  exact ⟨m, sd, fun j => ⟨h1 j, h2 j⟩, joint h3 hc⟩

/-! Hypotheses can be met: `x` and `x + y` within 4 uncertainties, with probability at least 7/8. -/

example : ∃ out, ∃ x : Fin 2 → UReal ℝ, evalU [.bin UReal.add (fun s t => s + t) 0 1] (elems ![1, 2] ![1, 2] ![1, 1 / 2]) = some out ∧ (∀ j, out[(![0, 2] : Fin 2 → ℕ) j]? = some (x j)) ∧
    ((∀ j, (x j).s ≠ 0) → 7 / 8 ≤ exP.real {ω | ∀ j, |fn [.bin UReal.add (fun s t => s + t) 0 1] ((![0, 2] : Fin 2 → ℕ) j) (quantity ![1, 2] ![1, 1 / 2] (fun i ω => ω i) ω) - (x j).n| < 4 * (x j).s}) := by
  obtain ⟨out, x, e, hx, h⟩ := C100_joint_affine (k := ![0, 2]) (a := ![![1, 0], ![1, 1]]) (a0 := 0) (c := fun _ => 4) (ids := ![1, 2]) (s := ![1, 1 / 2]) (mu := ![1, 2])
    (p := [.bin UReal.add (fun s t => s + t) 0 1]) (by decide) (by decide) (by decide)
    (by simp only [Spec.vars, NodesRight]; exact ⟨by simp, by simp, C14_add _ _, trivial⟩) exP_errors (by intro j; fin_cases j <;> simp)
    (fun j v => by fin_cases j <;> simp [fn, evalR, Spec.vars, Fin.sum_univ_two]) (fun _ => by norm_num)
  refine ⟨out, x, e, hx, fun h0 => le_trans ?_ (h h0)⟩
  norm_num

example := C100_joint_polynomial (ids := ![1, 2]) (mu := ![3, 4]) (s := ![1, 2]) (by decide) (by decide) exBias_poly (by simp [exBias, InRange])
  (errors_twoPoint (ids := ![1, 2]) (by decide)) (k := ![0, 4]) (F := ![fun y => y 0, fun y => y 0 * y 0 + y 0 * y 1]) (by
    intro j; fin_cases j
    · exact fun y => by simp [evalR2, exBias, List.ofFn_succ]
    · exact exBias_fn) (by
    intro j; fin_cases j
    · exact ⟨0, ![1, 0], 0, fun y => by simp⟩
    · exact exBias_quad) (c := ![3, 4]) (by intro j; fin_cases j <;> norm_num)

end Unc.Props
