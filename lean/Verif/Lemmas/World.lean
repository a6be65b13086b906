import Verif.Spec.Program
import Verif.Lemmas.URealArith

/-! # Simulation between the program model and its specification -/

namespace Unc
open Unc.Spec

theorem wrap32_of_small {n : ℤ} (h0 : 0 ≤ n) (h : n < 2147483648) : wrap32 n = n := by
  unfold wrap32; omega

theorem nextId_nat {n : ℕ} (h : n < 2147483647) : nextId n = (n + 1 : ℕ) := by
  unfold nextId; rw [wrap32_of_small] <;> push_cast <;> omega

/-- Simulation relation. -/
structure Sim (w : World ℝ) (a : AWorld ℝ) : Prop where
  count : w.lastId = a.count
  valid : ∀ r, (w.regs r).Valid
  lin : ∀ r, (w.regs r).toLin = a.regs r
  below : ∀ r, ∀ i ∈ (a.regs r).deps, i ≤ a.count

theorem Sim.init : Sim World.init AWorld.init where
  count := rfl
  valid _ := UReal.valid_default
  lin _ := by
    have := UReal.toLin_const (0 : ℝ)
    exact this
  below r i hi := by simp [AWorld.init, LinForm.const] at hi

theorem Sim.set {w : World ℝ} {a : AWorld ℝ} (h : Sim w a) (r : Reg) {x : UReal ℝ} {l : LinForm ℝ}
    (hv : x.Valid) (hl : x.toLin = l) (hb : ∀ i ∈ l.deps, i ≤ a.count) : Sim (w.set r x) (a.set r l) where
  count := h.count
  valid q := by simp only [World.set]; split_ifs; exacts [hv, h.valid q]
  lin q := by simp only [World.set, AWorld.set]; split_ifs; exacts [hl, h.lin q]
  below q := by simp only [AWorld.set]; split_ifs; exacts [hb, h.below q]

theorem Sim.set_same {w : World ℝ} {a : AWorld ℝ} (h : Sim w a) (r : Reg) {x : UReal ℝ}
    (hv : x.Valid) (hl : x.toLin = (w.regs r).toLin) : Sim (w.set r x) a where
  count := h.count
  valid q := by simp only [World.set]; split_ifs; exacts [hv, h.valid q]
  lin q := by
    simp only [World.set]; split_ifs with hq
    · subst hq; rw [hl, h.lin]
    · exact h.lin q
  below := h.below

theorem toLin_nary {xs : List (UReal ℝ × ℝ)} (hx : ∀ p ∈ xs, p.1.WF) (mu : ℝ) :
    (UReal.nary xs mu).toLin = AWorld.lincomb (xs.map fun p => (p.1.toLin, p.2)) mu := by
  have hd : (UReal.nary xs mu).deps = ((xs.map (fun p => p.1.deps)).foldr (· ∪ ·) ∅) := by
    ext j
    rw [UReal.mem_deps_nary]
    clear hx
    induction xs with
    | nil => simp
    | cons p t ih =>
      simp only [List.map_cons, List.foldr_cons, Finset.mem_union, ← ih, List.mem_cons]
      constructor
      · rintro ⟨q, rfl | hq, h⟩
        · exact Or.inl h
        · exact Or.inr ⟨q, hq, h⟩
      · rintro (h | ⟨q, hq, h⟩)
        · exact ⟨p, Or.inl rfl, h⟩
        · exact ⟨q, Or.inr hq, h⟩
  simp only [UReal.toLin, AWorld.lincomb, hd, List.map_map, Function.comp_def]
  congr 1
  funext j
  exact UReal.coef_nary hx mu j

theorem Sim.reg_below {w : World ℝ} {a : AWorld ℝ} (h : Sim w a) (hc : a.count < 2147483647) (r : Reg) :
    (w.regs r).Below maxId := by
  intro i hi
  have := h.below r i (by rw [← h.lin r]; exact hi)
  simp only [maxId]; omega

/-- `new` steps allowed before the counter reaches the sentinel. -/
theorem Sim.step {w : World ℝ} {a : AWorld ℝ} (h : Sim w a) (st : Step ℝ)
    (hc : a.count + countNew [st] < 2147483647) :
    ∃ w', w.step st = some (w', (a.step st).2) ∧ Sim w' (a.step st).1 := by
  have hc0 : a.count < 2147483647 := by omega
  cases st with
  | new r n s =>
    simp only [countNew] at hc
    have hid : nextId w.lastId = (a.count + 1 : ℕ) := by rw [h.count]; exact nextId_nat hc0
    have hs : Sim { w with lastId := nextId w.lastId } { a with count := a.count + 1 } :=
      ⟨hid, h.valid, h.lin, fun r i hi => by have := h.below r i hi; push_cast; omega⟩
    by_cases hneg : s < 0
    · refine ⟨{ w with lastId := nextId w.lastId }, ?_, ?_⟩
      · simp [World.step, AWorld.step, UReal.mk', hneg]
      · simp only [AWorld.step, hneg, if_true]; exact hs
    · have hmk : UReal.mk' (nextId w.lastId) n s = .ok ⟨nextId w.lastId, s, n, []⟩ := by
        simp [UReal.mk', hneg]
      refine ⟨World.set { w with lastId := nextId w.lastId } r ⟨nextId w.lastId, s, n, []⟩, ?_, ?_⟩
      · simp only [World.step, AWorld.step, hneg, if_false, hmk]
      · simp only [AWorld.step, hneg, if_false]
        refine hs.set r (UReal.valid_mk' (by rw [hid]; positivity) hmk) ?_ ?_
        · have : (0:ℤ) < (a.count + 1 : ℕ) := by positivity
          simp only [UReal.toLin, LinForm.elem, UReal.deps, hid, this, if_true]
          congr 1
          funext i
          simp [UReal.coef, this]
        · intro i hi; simp [LinForm.elem] at hi; subst hi; simp
  | const r n =>
    exact ⟨_, rfl, h.set r (UReal.valid_const n) (UReal.toLin_const n) (by simp [LinForm.const])⟩
  | copy r b => exact ⟨_, rfl, h.set r (h.valid b) (h.lin b) (h.below b)⟩
  | unary r b mu dx =>
    exact ⟨_, rfl, h.set r (UReal.valid_unary (h.valid b) mu dx) (by rw [UReal.toLin_unary, h.lin]) (h.below b)⟩
  | binary r b c mu dx dy =>
    obtain ⟨z, e, hz, hl, hsd, -⟩ := UReal.binary_toLin (h.valid b).wf (h.valid c).wf (h.reg_below hc0 b)
      (h.reg_below hc0 c) mu dx dy
    refine ⟨w.set r z, by simp [World.step, e, AWorld.step], ?_⟩
    refine h.set r (UReal.valid_of_uncached hz hsd) (by rw [hl, h.lin, h.lin]) ?_
    intro i hi
    simp only [LinForm.comb, Finset.mem_union] at hi
    rcases hi with hi | hi
    · exact h.below b i hi
    · exact h.below c i hi
  | nary r xs mu =>
    refine ⟨_, rfl, h.set r (UReal.valid_nary ?_ mu) ?_ ?_⟩
    · intro p hp; obtain ⟨q, -, rfl⟩ := List.mem_map.1 hp; exact (h.valid q.1).wf
    · rw [toLin_nary]
      · simp [List.map_map, Function.comp_def, h.lin]
      · intro p hp; obtain ⟨q, -, rfl⟩ := List.mem_map.1 hp; exact (h.valid q.1).wf
    · intro i hi
      simp only [AWorld.lincomb, List.map_map] at hi
      induction xs with
      | nil => simp at hi
      | cons p t ih =>
        simp only [List.map_cons, List.foldr_cons, Finset.mem_union] at hi
        rcases hi with hi | hi
        · exact h.below p.1 i hi
        · exact ih (by simpa [countNew] using hc) hi
  | assign r b mu dt dx =>
    have hb : ∀ i ∈ ((a.regs r).comb (a.regs b) mu dt dx).deps, i ≤ a.count := by
      intro i hi
      simp only [LinForm.comb, Finset.mem_union] at hi
      rcases hi with hi | hi
      · exact h.below r i hi
      · exact h.below b i hi
    by_cases hbr : b = r
    · subst hbr
      refine ⟨_, by simp [World.step, AWorld.step], h.set b (UReal.valid_binaryAssignSelf (h.valid b) mu dt dx) ?_ hb⟩
      rw [UReal.toLin_binaryAssignSelf (h.valid b).wf, h.lin]
    · refine ⟨_, by simp [World.step, AWorld.step, hbr],
        h.set r (UReal.valid_binaryAssign (h.valid r).wf (h.valid b).wf mu dt dx) ?_ hb⟩
      rw [UReal.toLin_binaryAssign (h.valid r).wf (h.valid b).wf, h.lin, h.lin]
  | changeNom r b n =>
    refine ⟨_, rfl, h.set r (UReal.valid_changeNom (h.valid b) n) ?_ (h.below b)⟩
    rw [UReal.toLin_changeNom, h.lin]
  | readS r =>
    obtain ⟨h1, h2, h3⟩ := UReal.sCache_spec (h.valid r)
    refine ⟨w.set r (w.regs r).sCache.2, ?_, h.set_same r h2 h3⟩
    simp only [World.step, AWorld.step]
    rw [h1, UReal.s_eq (h.valid r), h.lin]
  | readVar r =>
    obtain ⟨h1, h2, h3⟩ := UReal.varCache_spec (h.valid r)
    refine ⟨w.set r (w.regs r).varCache.2, ?_, h.set_same r h2 h3⟩
    simp only [World.step, AWorld.step]
    rw [h1, UReal.var_eq (h.valid r), h.lin]

theorem count_step (a : AWorld ℝ) (st : Step ℝ) : (a.step st).1.count = a.count + countNew [st] := by
  cases st <;> simp [AWorld.step, countNew, AWorld.set]
  split_ifs <;> rfl

theorem countNew_cons {R : Type*} (st : Step R) (t : List (Step R)) : countNew (st :: t) = countNew [st] + countNew t := by
  cases st <;> simp [countNew, add_comm]

/-- Every program with fewer than 2^31 - 1 constructions runs without undefined behaviour and does what the
specification says. -/
theorem Sim.run {w : World ℝ} {a : AWorld ℝ} (h : Sim w a) (p : List (Step ℝ))
    (hc : a.count + countNew p < 2147483647) :
    ∃ w', w.run p = some (w', (a.run p).2) ∧ Sim w' (a.run p).1 := by
  induction p generalizing w a with
  | nil => exact ⟨w, rfl, h⟩
  | cons st t ih =>
    rw [countNew_cons] at hc
    obtain ⟨w1, e1, h1⟩ := h.step st (by omega)
    obtain ⟨w2, e2, h2⟩ := ih h1 (by rw [count_step]; omega)
    refine ⟨w2, ?_, h2⟩
    simp [World.run, e1, e2, AWorld.run]

end Unc
