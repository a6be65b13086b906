import Verif.Lemmas.Convert2
import Verif.Props.Moments
import Verif.Props.SecondOrder

/-!
# C60: conversion of `UReal2` to another numeric type or propagation mode
-/

namespace Unc.Props
open Unc SMap HessGrad

/-- **C60** Any types, any conversion of numbers: the variables, and so the answers of `isindep()` and `indepid()`, stay the same; the
converted value can be used safely if the original can. -/
theorem C60_structure {R S : Type*} [Zero S] (u : Moments S) (c : R → S) {x : UReal2 R} (hv : x.hg.Valid) :
    (x.convert u c).hg.Valid ∧ (x.convert u c).hg.vars = x.hg.vars ∧ keys (x.convert u c).hg.trimap = keys x.hg.trimap ∧
      (x.convert u c).isindep = x.isindep ∧ (x.convert u c).indepid = x.indepid ∧ (Ok2 x → Ok2 (x.convert u c)) := by
  rw [uconvert_eq u c hv]
  have hi : (mapU c x).isindep = x.isindep := by
    rw [Bool.eq_iff_iff, UReal2.isindep, UReal2.isindep, decide_eq_true_iff, decide_eq_true_iff, HessGrad.size, HessGrad.size, mapU, mapHG, length_mapVal]
  refine ⟨valid_mapHG c hv, vars_mapHG c _, by simp [mapU, mapHG], hi, ?_, ok_mapU c⟩
  unfold UReal2.indepid
  rw [hi]
  split_ifs
  · rfl
  · simp only [mapU, mapHG]
    rcases x.hg.diagmap with _ | ⟨p, _ | ⟨q, t⟩⟩ <;> rfl

/-- **C60** Conversion of the propagation mode alone changes nothing of the stored data: only `n()` is different. -/
theorem C60_mode {R : Type*} [CommRing R] (u : Moments R) {x : UReal2 R} (hv : x.hg.Valid) :
    x.convert u id = x ∧ ∃ a b m1, x.n .est = some a ∧ (x.convert u id).n .mean = some b ∧ x.m 1 = some m1 ∧ a + b = 2 * x.mu ∧ b - a = 2 * m1 := by
  have he : x.convert u id = x := by
    rw [uconvert_eq u id hv]
    obtain ⟨⟨d, t⟩, mu⟩ := x
    simp [mapU, mapHG, mapVal, mapD, mapM]
  refine ⟨he, ?_⟩
  rw [he]
  obtain ⟨m1, h1⟩ := Option.isSome_iff_exists.1 ((C24_range hv 1).2 ⟨le_rfl, by norm_num⟩)
  exact ⟨x.mu + -m1, x.mu + m1, m1, by simp [UReal2.n, h1], by simp [UReal2.n, h1], h1, by ring, by ring⟩

/-- **C60** An exact conversion converts the moments of all orders, the mean, the variance and the covariances. -/
theorem C60_exact {R S : Type*} [CommRing R] [CommRing S] (u : Moments S) (c : R →+* S) {x y : UReal2 R} (hx : x.hg.Valid) (hy : y.hg.Valid) :
    (∀ k, (x.convert u c).m k = (x.m k).map c) ∧ (∀ p, (x.convert u c).n p = (x.n p).map c) ∧ (x.convert u c).var = x.var.map c ∧
      (x.convert u c).cov (y.convert u c) = (x.cov y).map c := by
  rw [uconvert_eq u c hx, uconvert_eq u c hy]
  refine ⟨m_mapU c hx, fun p => ?_, m_mapU c hx 2, cov_mapU c hx hy⟩
  rw [UReal2.n, UReal2.n, m_mapU c hx]
  cases x.m 1 with
  | none => rfl
  | some a => cases p <;> simp [mapU]

section
variable {R S : Type*} [Field R] [LinearOrder R] [Field S] [LinearOrder S] (c : R →+* S)

/-- **C60** and `kurt()`, the derivatives and the second derivatives. -/
theorem C60_derivatives (u : Moments R) (u' v : Moments S) {t x y : UReal2 R} (ht : t.hg.Valid) (hx : x.hg.Valid) (hy : y.hg.Valid) :
    (t.convert v c).kurt = t.kurt.map c ∧ UReal2.grad u' (t.convert v c) (x.convert v c) = (UReal2.grad u t x).map c ∧
      UReal2.hess u' (t.convert v c) (x.convert v c) (y.convert v c) = (UReal2.hess u t x y).map (Except.map c) := by
  rw [uconvert_eq v c ht, uconvert_eq v c hx, uconvert_eq v c hy]
  have hd : ∀ i, ((mapU c t).hg.diagGet u' i).grad = c (t.hg.diagGet u i).grad ∧ ((mapU c t).hg.diagGet u' i).hhess = c (t.hg.diagGet u i).hhess := by
    intro i
    simp only [HessGrad.diagGet, mapU, mapHG, find?_mapVal]
    cases find? t.hg.diagmap i <;> simp [mapD, newDiag]
  have htri : ∀ i j, (mapU c t).hg.triGet i j = (t.hg.triGet i j).map c := by
    intro i j
    simp only [HessGrad.triGet, mapU, mapHG, find?_mapVal]
    split_ifs
    · cases find? t.hg.trimap (toLex (i, j)) <;> simp
    · rfl
  have hh : ∀ i j, (mapU c t).hg.hhessGet u' i j = (t.hg.hhessGet u i j).map c := by
    intro i j
    simp only [HessGrad.hhessGet]
    split_ifs
    · exact htri _ _
    · rw [(hd i).2]; rfl
  have heqb : ∀ a b : R, CCmp.eqb (c a) (c b) = CCmp.eqb a b := fun a b => by
    rw [Bool.eq_iff_iff, eqb_iff, eqb_iff, c.injective.eq_iff]
  have e2 : (Mom.lit 2 : S) = c (Mom.lit 2) := by simp only [Mom.lit, map_natCast]
  refine ⟨?_, ?_, ?_⟩
  · rw [UReal2.kurt, UReal2.kurt, m_mapU c ht, m_mapU c ht]
    cases t.m 2 <;> cases t.m 4 <;> simp
  · unfold UReal2.grad
    simp only [(hd _).1]
    simp only [mapU, mapHG]
    rcases x.hg.diagmap with _ | ⟨p, _ | ⟨q, t⟩⟩
    · rfl
    · simp [mapVal, mapD, Except.map]
    · rfl
  · unfold UReal2.hess
    rcases hxd : x.hg.diagmap with _ | ⟨⟨i, d⟩, _ | ⟨q, tx⟩⟩
    · simp [mapU, mapHG, mapVal, hxd, Except.map]
    swap
    · simp [mapU, mapHG, mapVal, hxd, Except.map]
    rcases hyd : y.hg.diagmap with _ | ⟨⟨j, e⟩, _ | ⟨q, ty⟩⟩
    · simp [mapU, mapHG, mapVal, hxd, hyd, Except.map]
    swap
    · simp [mapU, mapHG, mapVal, hxd, hyd, Except.map]
    have hx' : (mapU c x).hg.diagmap = [(i, mapD c d)] := by simp [mapU, mapHG, mapVal, hxd]
    have hy' : (mapU c y).hg.diagmap = [(j, mapD c e)] := by simp [mapU, mapHG, mapVal, hyd]
    simp only [hx', hy', hh, (hd _).1]
    by_cases hij : i = j
    · simp only [hij, ne_eq, not_true_eq_false, if_false]
      simp only [mapD, e2, ← map_mul, heqb]
      split_ifs
      · rfl
      · cases t.hg.hhessGet u j j <;> simp [Except.map]
    · simp only [hij, ne_eq, not_false_eq_true, if_true]
      cases t.hg.hhessGet u i j <;> simp [Except.map, e2, mapD]

/-- **C60** Later operations commute with an exact conversion: converting the operands or the result is the same. -/
theorem C60_unary (u : Moments R) (u' v : Moments S) {x : UReal2 R} (hx : Ok2 x) (f fx fxx : R) :
    ∃ z, UReal2.unary u x f fx fxx = some z ∧ UReal2.unary u' (x.convert v c) (c f) (c fx) (c fxx) = some (z.convert v c) := by
  obtain ⟨z, e, hz⟩ := C21_unary hx f fx fxx
  obtain ⟨z', e', -⟩ := C21_unary (ok_mapU c hx) (c f) (c fx) (c fxx)
  have := unary_map c u x f fx fxx
  rw [e, e'] at this
  refine ⟨z, e u, ?_⟩
  rw [uconvert_eq v c hx.valid, uconvert_eq v c hz.valid, e', this]; rfl

theorem C60_binary (u : Moments R) (u' v : Moments S) {x y : UReal2 R} (hx : Ok2 x) (hy : Ok2 y) (f fx fy fxx fyy fxy : R) :
    ∃ z, UReal2.binary u x y f fx fy fxx fyy fxy = some z ∧
      UReal2.binary u' (x.convert v c) (y.convert v c) (c f) (c fx) (c fy) (c fxx) (c fyy) (c fxy) = some (z.convert v c) := by
  obtain ⟨z, e, hz⟩ := C21_binary hx hy f fx fy fxx fyy fxy
  obtain ⟨z', e', -⟩ := C21_binary (ok_mapU c hx) (ok_mapU c hy) (c f) (c fx) (c fy) (c fxx) (c fyy) (c fxy)
  have := binary_map c u x y f fx fy fxx fyy fxy
  rw [e, e'] at this
  refine ⟨z, e u, ?_⟩
  rw [uconvert_eq v c hx.valid, uconvert_eq v c hy.valid, uconvert_eq v c hz.valid, e', this]; rfl

end

/-! Hypotheses can be met: conversion from ℚ to ℝ. -/

/-- moments of a normal variable -/
def cvM : Moments ℚ := ⟨0, 3, 0, 15, 0, 105⟩
/-- a function of two variables with mixed derivative -/
def cvX : UReal2 ℚ := ⟨⟨[(2, ⟨3, 1, cvM⟩), (5, ⟨-1, 0, cvM⟩)], [(toLex (2, 5), 1 / 2)]⟩, 7⟩
/-- an elementary variable -/
def cvY : UReal2 ℚ := ⟨⟨[(5, ⟨2, 0, cvM⟩)], []⟩, 4⟩

theorem ok_cvX : Ok2 cvX := ⟨⟨by simp [cvX, Sorted], by simp [cvX, Sorted], by simp [cvX]⟩, by simp [cvX, Below, maxId]⟩
theorem ok_cvY : Ok2 cvY := ⟨⟨by simp [cvY, Sorted], by simp [cvY, Sorted], by simp [cvY]⟩, by simp [cvY, Below, maxId]⟩

example : (cvY.convert (mapM (fun q : ℚ => (q : ℝ)) cvM) (fun q : ℚ => (q : ℝ))).indepid = 5 := by
  rw [(C60_structure _ _ ok_cvY.valid).2.2.2.2.1]; rfl
example : cvX.convert cvM id = cvX := (C60_mode cvM ok_cvX.valid).1
example (u : Moments ℝ) : (cvX.convert u (algebraMap ℚ ℝ)).m 1 = some 1 ∧
    (cvX.convert u (algebraMap ℚ ℝ)).cov (cvY.convert u (algebraMap ℚ ℝ)) = some (-2) := by
  obtain ⟨h1, -, -, h2⟩ := C60_exact u (algebraMap ℚ ℝ) ok_cvX.valid ok_cvY.valid
  have e1 : cvX.m 1 = some 1 := by decide +kernel
  have e2 : cvX.cov cvY = some (-2) := by decide +kernel
  exact ⟨by rw [h1, e1]; simp, by rw [h2, e2]; simp⟩
example (u u' v) : UReal2.grad u' (cvX.convert v (algebraMap ℚ ℝ)) (cvY.convert v (algebraMap ℚ ℝ)) = (UReal2.grad u cvX cvY).map (algebraMap ℚ ℝ) :=
  (C60_derivatives (algebraMap ℚ ℝ) u u' v ok_cvX.valid ok_cvY.valid ok_cvY.valid).2.1
example (u u' v) : ∃ z, UReal2.unary u cvX 49 14 2 = some z ∧
    UReal2.unary u' (cvX.convert v (algebraMap ℚ ℝ)) (algebraMap ℚ ℝ 49) (algebraMap ℚ ℝ 14) (algebraMap ℚ ℝ 2) =
      some (z.convert v (algebraMap ℚ ℝ)) :=
  C60_unary (algebraMap ℚ ℝ) u u' v ok_cvX 49 14 2
example (u u' v) : ∃ z, UReal2.binary u cvX cvY 28 4 7 0 0 1 = some z ∧
    UReal2.binary u' (cvX.convert v (algebraMap ℚ ℝ)) (cvY.convert v (algebraMap ℚ ℝ)) (algebraMap ℚ ℝ 28) (algebraMap ℚ ℝ 4)
      (algebraMap ℚ ℝ 7) (algebraMap ℚ ℝ 0) (algebraMap ℚ ℝ 0) (algebraMap ℚ ℝ 1) = some (z.convert v (algebraMap ℚ ℝ)) :=
  C60_binary (algebraMap ℚ ℝ) u u' v ok_cvX ok_cvY 28 4 7 0 0 1

end Unc.Props
