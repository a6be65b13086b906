import Verif.Lemmas.HessGrad
import Verif.Model.UReal2
import Verif.Spec.Second
import Mathlib.Tactic.NormNum

/-!
# C14: the predicate on all the coefficients of a `UReal2` (`all`, used by `isfinite` and `isnormal`)
-/

namespace Unc.Props
open Unc Unc.HessGrad SMap

variable {R : Type*} [Zero R]

/-- **C14** `all(x, p)` looks at the mean, at the first derivatives, and at the second derivatives that are stored. -/
theorem C14_all_stored (x : UReal2 R) (hv : x.hg.Valid) (p : R → Bool) :
    x.all p ≠ none ∧ (x.all p = some true ↔ p x.mu = true ∧ (∀ i ∈ x.hg.vars, p (x.hg.G i) = true ∧ p (x.hg.H i i) = true) ∧
      ∀ i j, i < j → toLex (i, j) ∈ SMap.keys x.hg.trimap → p (x.hg.H i j) = true) := by
  have hd : (∀ it ∈ x.hg.diagmap, p it.2.grad = true ∧ p it.2.hhess = true) ↔ ∀ i ∈ x.hg.vars, p (x.hg.G i) = true ∧ p (x.hg.H i i) = true := by
    constructor
    · intro h i hi
      obtain ⟨d, hm⟩ : ∃ d, (i, d) ∈ x.hg.diagmap := by simpa [vars, SMap.keys] using hi
      have hf := SMap.find?_of_mem hv.dsorted hm
      simpa [G, H, hf] using h _ hm
    · rintro h ⟨i, d⟩ hm
      have hf := SMap.find?_of_mem hv.dsorted hm
      have := h i (by simp only [vars, SMap.keys, List.mem_toFinset, List.mem_map]; exact ⟨_, hm, rfl⟩)
      simpa [G, H, hf] using this
  have ht : (∀ it ∈ x.hg.trimap, p it.2 = true) ↔ ∀ i j, i < j → toLex (i, j) ∈ SMap.keys x.hg.trimap → p (x.hg.H i j) = true := by
    constructor
    · intro h i j hij hk
      obtain ⟨c, hm⟩ : ∃ c, (toLex (i, j), c) ∈ x.hg.trimap := by simpa [SMap.keys] using hk
      have hf := SMap.find?_of_mem hv.tsorted hm
      have e : x.hg.H i j = c := by simp [H, hij.ne, min_eq_left hij.le, max_eq_right hij.le, SMap.get, hf]
      rw [e]; exact h _ hm
    · rintro h ⟨⟨i, j⟩, c⟩ hm
      have hk : toLex (i, j) ∈ SMap.keys x.hg.trimap := by
        simp only [SMap.keys, List.mem_map]; exact ⟨_, hm, rfl⟩
      have hij := (hv.tri i j hk).1
      have hf := SMap.find?_of_mem hv.tsorted hm
      have e : x.hg.H i j = c := by
        simp only [H, hij.ne, min_eq_left hij.le, max_eq_right hij.le, SMap.get, if_false]
        exact congrArg (fun o => Option.getD o 0) hf
      have := h i j hij hk
      rwa [e] at this
  unfold UReal2.all
  cases hp : p x.mu with
  | false => simp
  | true =>
    simp only [Bool.not_true, Bool.false_eq_true, if_false, true_and]
    by_cases ha : (x.hg.diagmap.any fun it => !p it.2.grad || !p it.2.hhess) = true
    · rw [if_pos ha]
      refine ⟨by simp, ?_⟩
      simp only [Option.some.injEq, Bool.false_eq_true, false_iff, not_and]
      intro h
      rw [← hd] at h
      obtain ⟨it, hm, hb⟩ := List.any_eq_true.1 ha
      obtain ⟨h1, h2⟩ := h it hm
      simp [h1, h2] at hb
    · rw [if_neg ha, triEntries_skip _ hv]
      refine ⟨by simp, ?_⟩
      have ha' : ∀ it ∈ x.hg.diagmap, p it.2.grad = true ∧ p it.2.hhess = true := by
        intro it hm
        by_contra hc
        refine ha (List.any_eq_true.2 ⟨it, hm, ?_⟩)
        revert hc
        cases p it.2.grad <;> cases p it.2.hhess <;> simp
      rw [← hd, ← ht]
      simp only [Option.map_some, Option.some.injEq, List.all_map, List.all_eq_true, Function.comp, entOf]
      exact ⟨fun h => ⟨ha', h⟩, fun h => h.2⟩

/-- **C14** With a predicate true for 0, such as being finite: it says whether the mean and all first and second derivatives satisfy it. -/
theorem C14_all (x : UReal2 R) (hv : x.hg.Valid) {p : R → Bool} (h0 : p 0 = true) :
    x.all p = some true ↔ p x.mu = true ∧ (∀ i, p (x.hg.G i) = true) ∧ ∀ i j, p (x.hg.H i j) = true := by
  rw [(C14_all_stored x hv p).2]
  refine and_congr_right fun _ => ?_
  have hnone : ∀ i, i ∉ x.hg.vars → SMap.find? x.hg.diagmap i = none := fun i hi => by
    rw [SMap.find?_eq_none]; simpa [vars] using hi
  have hsym : ∀ i j, x.hg.H i j = x.hg.H j i := fun i j => by
    rcases eq_or_ne i j with h | h
    · rw [h]
    · simp only [H, h, h.symm, if_false, min_comm i j, max_comm i j]
  constructor
  · rintro ⟨h1, h2⟩
    have hlt : ∀ i j, i < j → p (x.hg.H i j) = true := fun i j hij => by
      by_cases hk : toLex (i, j) ∈ SMap.keys x.hg.trimap
      · exact h2 i j hij hk
      · have : SMap.find? x.hg.trimap (toLex (i, j)) = none := SMap.find?_eq_none.2 hk
        simpa [H, hij.ne, min_eq_left hij.le, max_eq_right hij.le, SMap.get, this] using h0
    refine ⟨fun i => ?_, fun i j => ?_⟩
    · by_cases hi : i ∈ x.hg.vars
      · exact (h1 i hi).1
      · simpa [G, hnone i hi] using h0
    · rcases lt_trichotomy i j with h | h | h
      · exact hlt i j h
      · subst h
        by_cases hi : i ∈ x.hg.vars
        · exact (h1 i hi).2
        · simpa [H, hnone i hi] using h0
      · rw [hsym]; exact hlt j i h
  · rintro ⟨h1, h2⟩
    exact ⟨fun i _ => ⟨h1 i, h2 i i⟩, fun i j _ _ => h2 i j⟩

/-- **C14** With a predicate false for 0, such as being normal: it is false for all values depending on a variable with zero second derivative, so for elementary
variables and all their linear combinations. -/
theorem C14_all_zero (x : UReal2 R) (hv : x.hg.Valid) {p : R → Bool} (h0 : p 0 = false) {i : VId} (hi : i ∈ x.hg.vars) (hx : x.hg.H i i = 0) :
    x.all p = some false := by
  obtain ⟨h1, h2⟩ := C14_all_stored x hv p
  cases h : x.all p with
  | none => exact absurd h h1
  | some b =>
    cases b with
    | false => rfl
    | true =>
      have := ((h2.1 h).2.1 i hi).2
      rw [hx, h0] at this
      cases this

/-! Hypotheses can be met: a function of two variables with mixed derivative, the predicates being "not 5" and "not zero". -/

/-- standardized moments of a normal variable -/
def alM : Moments ℚ := ⟨0, 3, 0, 15, 0, 105⟩
/-- a function of two variables -/
def alX (c h : ℚ) : UReal2 ℚ := ⟨⟨[(2, ⟨3, h, alM⟩), (7, ⟨-1, 0, alM⟩)], [(toLex (2, 7), c)]⟩, 7⟩

theorem valid_alX (c h : ℚ) : (alX c h).hg.Valid := ⟨by simp [alX, Sorted], by simp [alX, Sorted], by simp [alX]⟩

example : (alX 1 2).all (fun q => q != 5) = some true := by decide +kernel
example : ∀ i j, ((alX 1 2).hg.H i j != 5) = true := ((C14_all (alX 1 2) (valid_alX 1 2) (p := fun q => q != 5) (by decide)).1 (by decide +kernel)).2.2
/-- a bad mixed second derivative and a bad second derivative are seen -/
example : (alX 5 2).all (fun q => q != 5) = some false ∧ (alX 1 5).all (fun q => q != 5) = some false := by decide +kernel
example : (alX 1 2).all (fun q => q != 0) = some false :=
  C14_all_zero (alX 1 2) (valid_alX 1 2) (by decide) (i := 7) (by decide) (by decide +kernel)

example : (alX 1 2).all (fun q => q != 0) ≠ none := (C14_all_stored (alX 1 2) (valid_alX 1 2) _).1
/-- the zero second derivative of variable 7 is stored, and seen; the derivatives by variables that do not occur are not -/
example : ¬ ∀ i ∈ (alX 1 2).hg.vars, ((alX 1 2).hg.G i != 0) = true ∧ ((alX 1 2).hg.H i i != 0) = true := fun h =>
  absurd ((C14_all_stored (alX 1 2) (valid_alX 1 2) (fun q => q != 0)).2.2 ⟨by decide +kernel, h, by
    intro i j hij hk
    have : i = 2 ∧ j = 7 := by simpa [alX] using hk
    obtain ⟨rfl, rfl⟩ := this
    decide +kernel⟩) (by decide +kernel)

end Unc.Props
