import Verif.Spec.Deps
import Verif.Lemmas.World

/-! # The model computes the dependency sets of the data-flow specification (no arithmetic laws) -/

namespace Unc
open Unc.Spec

variable {R : Type*} [Zero R] [One R] [Neg R] [Add R] [Mul R] [CCmp R] [CSqrt R]

/-- Simulation relation. -/
structure DSim (w : World R) (a : DWorld) : Prop where
  count : w.lastId = a.count
  wf : ∀ r, (w.regs r).WF
  deps : ∀ r, (w.regs r).deps = a.regs r
  below : ∀ r, ∀ i ∈ a.regs r, i ≤ a.count

omit [One R] [Neg R] [Add R] [Mul R] [CCmp R] [CSqrt R] in
theorem DSim.init : DSim (World.init : World R) DWorld.init where
  count := rfl
  wf _ := UReal.wf_default
  deps _ := by simp [World.init, UReal.default', DWorld.init, UReal.deps]
  below r i hi := by simp [DWorld.init] at hi

omit [One R] [Neg R] [Add R] [Mul R] [CCmp R] [CSqrt R] in
theorem DSim.set {w : World R} {a : DWorld} (h : DSim w a) (r : Reg) {x : UReal R} {l : Finset ℤ}
    (hv : x.WF) (hl : x.deps = l) (hb : ∀ i ∈ l, i ≤ a.count) : DSim (w.set r x) (a.set r l) where
  count := h.count
  wf q := by simp only [World.set]; split_ifs; exacts [hv, h.wf q]
  deps q := by simp only [World.set, DWorld.set]; split_ifs; exacts [hl, h.deps q]
  below q := by simp only [DWorld.set]; split_ifs; exacts [hb, h.below q]

omit [One R] [Neg R] [Add R] [Mul R] [CCmp R] [CSqrt R] in
theorem DSim.set_same {w : World R} {a : DWorld} (h : DSim w a) (r : Reg) {x : UReal R}
    (hv : x.WF) (hl : x.deps = (w.regs r).deps) : DSim (w.set r x) a where
  count := h.count
  wf q := by simp only [World.set]; split_ifs; exacts [hv, h.wf q]
  deps q := by
    simp only [World.set]; split_ifs with hq
    · subst hq; rw [hl, h.deps]
    · exact h.deps q
  below := h.below

omit [Zero R] [One R] [Neg R] [Add R] [Mul R] [CCmp R] [CSqrt R] in
theorem mem_foldr_union {ι : Type*} (xs : List ι) (f : ι → Finset ℤ) (j : ℤ) :
    j ∈ (xs.map f).foldr (· ∪ ·) ∅ ↔ ∃ p ∈ xs, j ∈ f p := by
  induction xs with
  | nil => simp
  | cons p t ih => simp [ih]

/-- One call; only `ltb 0 0 = false` is assumed of the arithmetic. -/
theorem DSim.step (h00 : CCmp.ltb (0 : R) 0 = false) {w : World R} {a : DWorld} (h : DSim w a) (st : Step R)
    (hc : a.count + countNew [st] < 2147483647) :
    ∃ w' o, w.step st = some (w', o) ∧ DSim w' (a.step st) := by
  have hb : ∀ r, (w.regs r).Below maxId := by
    intro r i hi
    rw [h.deps] at hi
    have := h.below r i hi
    have : (a.count : ℤ) < maxId := by unfold maxId; omega
    omega
  have hbl : ∀ r, ∀ i ∈ (w.regs r).deps, i ≤ a.count := fun r i hi => h.below r i (h.deps r ▸ hi)
  cases st with
  | new r n s =>
    have hid : nextId w.lastId = (a.count + 1 : ℕ) := by
      rw [h.count]; exact nextId_nat (by simp [countNew] at hc; omega)
    have h' : DSim (R := R) { w with lastId := nextId w.lastId } { a with count := a.count + 1 } :=
      ⟨hid, h.wf, h.deps, fun r i hi => (h.below r i hi).trans (by push_cast; omega)⟩
    by_cases hs : CCmp.ltb s 0 = true
    · exact ⟨_, _, by simp [World.step, UReal.mk', hs]; exact ⟨rfl, rfl⟩, by simpa [DWorld.step, hs] using h'⟩
    · refine ⟨_, _, by simp [World.step, UReal.mk', hs]; exact ⟨rfl, rfl⟩, ?_⟩
      simp only [DWorld.step, hs]
      refine h'.set r ⟨fun h => ?_, fun _ => rfl, by simp, by simp⟩ ?_ (by simp)
      · simp [hid] at h; omega
      · simp only [UReal.deps, hid]; rw [if_pos (by push_cast; omega)]
  | const r n =>
    exact ⟨_, _, rfl, h.set r (UReal.wf_const n) (by simp [UReal.const, UReal.deps]) (by simp)⟩
  | copy r b => exact ⟨_, _, rfl, h.set r (h.wf b) (h.deps b) (h.below b)⟩
  | unary r b mu dx =>
    exact ⟨_, _, rfl, h.set r (UReal.wf_unary (h.wf b) mu dx) ((UReal.deps_unary _ mu dx).trans (h.deps b)) (h.below b)⟩
  | binary r b c mu dx dy =>
    obtain ⟨z, e, hz, hd, -⟩ := UReal.binary_spec (h.wf b) (h.wf c) (hb b) (hb c) mu dx dy
    refine ⟨w.set r z, .done, by simp [World.step, e], h.set r hz (by rw [hd, h.deps, h.deps]) ?_⟩
    intro i hi
    rcases Finset.mem_union.1 hi with hi | hi
    exacts [h.below b i hi, h.below c i hi]
  | nary r xs mu =>
    refine ⟨_, _, rfl, h.set r (UReal.wf_nary (fun p hp => ?_) mu) ?_ ?_⟩
    · obtain ⟨q, -, rfl⟩ := List.mem_map.1 hp; exact h.wf _
    · ext j
      rw [UReal.mem_deps_nary, mem_foldr_union]
      constructor
      · rintro ⟨p, hp, hj⟩
        obtain ⟨q, hq, rfl⟩ := List.mem_map.1 hp
        exact ⟨q, hq, h.deps q.1 ▸ hj⟩
      · rintro ⟨q, hq, hj⟩
        exact ⟨_, List.mem_map_of_mem hq, (h.deps q.1).symm ▸ hj⟩
    · intro i hi
      obtain ⟨q, -, hj⟩ := (mem_foldr_union _ _ _).1 hi
      exact h.below _ i hj
  | assign r b mu dt dx =>
    by_cases hr : b = r
    · subst hr
      refine ⟨_, _, by simp [World.step]; exact ⟨rfl, rfl⟩, ?_⟩
      refine h.set b (UReal.wf_binaryAssignSelf (h.wf b) mu dt dx (fun _ => h00)) ?_ ?_
      · rw [UReal.deps_binaryAssignSelf, h.deps, Finset.union_self]
      · intro i hi; rw [Finset.union_self] at hi; exact h.below b i hi
    · refine ⟨_, _, by simp [World.step, hr]; exact ⟨rfl, rfl⟩, ?_⟩
      refine h.set r (UReal.wf_binaryAssign (h.wf r) (h.wf b) mu dt dx) ?_ ?_
      · rw [UReal.deps_binaryAssign (h.wf r), h.deps, h.deps]
      · intro i hi
        rcases Finset.mem_union.1 hi with hi | hi
        exacts [h.below r i hi, h.below b i hi]
  | changeNom r b n => exact ⟨_, _, rfl, h.set r (UReal.wf_changeNom (h.wf b) n) (h.deps b) (h.below b)⟩
  | readS r => exact ⟨_, _, rfl, h.set_same r (UReal.wf_sCache (h.wf r)) (UReal.deps_sCache _)⟩
  | readVar r => exact ⟨_, _, rfl, h.set_same r (UReal.wf_varCache (h.wf r)) (UReal.deps_varCache _)⟩

omit [One R] [Neg R] [Add R] [Mul R] [CSqrt R] in
theorem dcount_step (a : DWorld) (st : Step R) : (a.step st).count = a.count + countNew [st] := by
  cases st <;> simp [DWorld.step, countNew, DWorld.set]
  split_ifs <;> rfl

omit [One R] [Neg R] [Add R] [Mul R] [CSqrt R] in
theorem dcount_run (p : List (Step R)) (a : DWorld) : (a.run p).count = a.count + countNew p := by
  induction p generalizing a with
  | nil => rfl
  | cons st t ih => rw [DWorld.run, ih, dcount_step, countNew_cons st t]; omega

theorem DSim.run (h00 : CCmp.ltb (0 : R) 0 = false) {w : World R} {a : DWorld} (h : DSim w a) (p : List (Step R))
    (hc : a.count + countNew p < 2147483647) :
    ∃ w' os, w.run p = some (w', os) ∧ DSim w' (a.run p) := by
  induction p generalizing w a with
  | nil => exact ⟨w, [], rfl, h⟩
  | cons st t ih =>
    rw [countNew_cons] at hc
    obtain ⟨w1, o1, e1, h1⟩ := h.step h00 st (by omega)
    obtain ⟨w2, os, e2, h2⟩ := ih h1 (by rw [dcount_step]; omega)
    exact ⟨w2, o1 :: os, by simp [World.run, e1, e2], h2⟩

theorem World.run_append (w : World R) (p q : List (Step R)) :
    w.run (p ++ q) = (w.run p).bind fun r => (r.1.run q).map fun r' => (r'.1, r.2 ++ r'.2) := by
  induction p generalizing w with
  | nil => cases h : w.run q <;> simp [World.run, h]
  | cons st t ih =>
    simp only [List.cons_append, World.run]
    cases h : w.step st with
    | none => simp
    | some r =>
      simp only [Option.bind_some, ih]
      cases h2 : r.1.run t with
      | none => simp
      | some r2 => cases h3 : r2.1.run q <;> simp [h3]

omit [One R] [Neg R] [Add R] [Mul R] [CSqrt R] in
theorem DWorld.run_append (a : DWorld) (p q : List (Step R)) : a.run (p ++ q) = (a.run p).run q := by
  induction p generalizing a with
  | nil => rfl
  | cons st t ih => simp [DWorld.run, ih]

theorem countNew_append {R : Type*} (p q : List (Step R)) : countNew (p ++ q) = countNew p + countNew q := by
  induction p with
  | nil => simp [countNew]
  | cons st t ih => rw [List.cons_append, countNew_cons, ih, countNew_cons st t]; omega

end Unc
