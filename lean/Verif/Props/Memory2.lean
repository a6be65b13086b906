import Verif.Model.Memory2
import Verif.Props.SecondOrder
import Verif.Spec.Schedule

/-!
# C83: calls of `UReal2` which run out of memory
-/

namespace Unc.Props
open Unc Unc.Spec SMap HessGrad

section
variable {R : Type*} [Zero R] [One R] [Neg R] [Add R] [Sub R] [Mul R] [Div R] [NatCast R] [CCmp R] [CSqrt R]

omit [Sub R] in
/-- **C83** For each call there is a number of allocations with which it does what it does when memory is unlimited, and with fewer it throws `std::bad_alloc` (any arithmetic). -/
theorem C83_second_enough (solve : (ℕ → ℕ → R) → Option (List R)) (w : World2 R) (k : Junk R) (st : Step2 R) :
    (w.step solve k st = none → ∀ mem keep keep2, Memory.step2 solve ⟨k, mem, keep, keep2⟩ w st = none) ∧
    ∀ w' o, w.step solve k st = some (w', o) → ∃ N, ∀ mem keep keep2,
      (N ≤ mem → Memory.step2 solve ⟨k, mem, keep, keep2⟩ w st = some (w', some o)) ∧
      (mem < N → ∃ v, Memory.step2 solve ⟨k, mem, keep, keep2⟩ w st = some (v, none)) := by
  have build : ∀ r (z : Option (UReal2 R)),
      w.step solve k st = z.map (fun z => (w.set r z, .done)) →
      (∀ mem keep keep2, Memory.step2 solve ⟨k, mem, keep, keep2⟩ w st = z.map (Memory.fresh2 mem w r)) →
      (w.step solve k st = none → ∀ mem keep keep2, Memory.step2 solve ⟨k, mem, keep, keep2⟩ w st = none) ∧
      ∀ w' o, w.step solve k st = some (w', o) → ∃ N, ∀ mem keep keep2,
        (N ≤ mem → Memory.step2 solve ⟨k, mem, keep, keep2⟩ w st = some (w', some o)) ∧
        (mem < N → ∃ v, Memory.step2 solve ⟨k, mem, keep, keep2⟩ w st = some (v, none)) := by
    intro r z e1 e2
    cases z with
    | none => exact ⟨fun _ mem keep keep2 => by rw [e2]; rfl, fun w' o h => by rw [e1] at h; simp at h⟩
    | some z =>
      refine ⟨fun h => by rw [e1] at h; simp at h, fun w' o h => ?_⟩
      rw [e1] at h
      simp only [Option.map_some, Option.some.injEq, Prod.mk.injEq] at h
      obtain ⟨rfl, rfl⟩ := h
      refine ⟨z.hg.diagmap.length + z.hg.trimap.length, fun mem keep keep2 => ⟨fun h => ?_, fun h => ⟨w, ?_⟩⟩⟩
      · rw [e2, Option.map_some, Memory.fresh2, if_pos h]
      · rw [e2, Option.map_some, Memory.fresh2, if_neg (by omega)]
  have ctor : ∀ r (z : Option (Except Exn (UReal2 R))),
      w.step solve k st = z.map (w.finish r) →
      (∀ mem keep keep2, Memory.step2 solve ⟨k, mem, keep, keep2⟩ w st = z.map (Memory.finish2 mem w r)) →
      (w.step solve k st = none → ∀ mem keep keep2, Memory.step2 solve ⟨k, mem, keep, keep2⟩ w st = none) ∧
      ∀ w' o, w.step solve k st = some (w', o) → ∃ N, ∀ mem keep keep2,
        (N ≤ mem → Memory.step2 solve ⟨k, mem, keep, keep2⟩ w st = some (w', some o)) ∧
        (mem < N → ∃ v, Memory.step2 solve ⟨k, mem, keep, keep2⟩ w st = some (v, none)) := by
    intro r z e1 e2
    cases z with
    | none => exact ⟨fun _ mem keep keep2 => by rw [e2]; rfl, fun w' o h => by rw [e1] at h; simp at h⟩
    | some z =>
      refine ⟨fun h => by rw [e1] at h; simp at h, fun w' o h => ?_⟩
      rw [e1] at h
      cases z with
      | error x =>
        simp only [Option.map_some, World2.finish, Option.some.injEq, Prod.mk.injEq] at h
        obtain ⟨rfl, rfl⟩ := h
        exact ⟨0, fun mem keep keep2 => ⟨fun _ => by rw [e2]; rfl, fun h => absurd h (Nat.not_lt_zero _)⟩⟩
      | ok x =>
        simp only [Option.map_some, World2.finish, Option.some.injEq, Prod.mk.injEq] at h
        obtain ⟨rfl, rfl⟩ := h
        refine ⟨1, fun mem keep keep2 => ?_⟩
        cases mem with
        | zero => exact ⟨fun h => by omega, fun _ => ⟨{ w with lastId := nextId w.lastId }, by rw [e2]; rfl⟩⟩
        | succ n => exact ⟨fun _ => by rw [e2]; rfl, fun h => by omega⟩
  have free : (∀ mem keep keep2, Memory.step2 solve ⟨k, mem, keep, keep2⟩ w st = (w.step solve k st).map fun p => (p.1, some p.2)) →
      (w.step solve k st = none → ∀ mem keep keep2, Memory.step2 solve ⟨k, mem, keep, keep2⟩ w st = none) ∧
      ∀ w' o, w.step solve k st = some (w', o) → ∃ N, ∀ mem keep keep2,
        (N ≤ mem → Memory.step2 solve ⟨k, mem, keep, keep2⟩ w st = some (w', some o)) ∧
        (mem < N → ∃ v, Memory.step2 solve ⟨k, mem, keep, keep2⟩ w st = some (v, none)) := by
    intro e
    refine ⟨fun h mem keep keep2 => by rw [e, h]; rfl, fun w' o h => ⟨0, fun mem keep keep2 => ⟨fun _ => by rw [e, h]; rfl, fun h => absurd h (Nat.not_lt_zero _)⟩⟩⟩
  cases st with
  | newCentral r n m t => exact ctor r _ rfl fun _ _ _ => rfl
  | newStd r n s m t => exact ctor r _ rfl fun _ _ _ => rfl
  | const r n => exact free fun _ _ _ => rfl
  | otherNew => exact free fun _ _ _ => rfl
  | unary r a f fx fxx => exact build r _ rfl fun _ _ _ => rfl
  | binary r a b f fx fy fxx fyy fxy => exact build r _ rfl fun _ _ _ => rfl
  | copy r a =>
    refine ⟨fun h => by simp [World2.step] at h, fun w' o h => ?_⟩
    simp only [World2.step, Option.some.injEq, Prod.mk.injEq] at h
    obtain ⟨rfl, rfl⟩ := h
    by_cases har : a = r
    · exact ⟨0, fun mem keep keep2 => ⟨fun _ => by simp [Memory.step2, Memory.copy2, har], fun h => absurd h (Nat.not_lt_zero _)⟩⟩
    · refine ⟨(w.regs a).hg.diagmap.length + (w.regs a).hg.trimap.length, fun mem keep keep2 => ⟨fun h => ?_, fun h => ?_⟩⟩
      · simp [Memory.step2, Memory.copy2, h]
      · simp only [Memory.step2, Memory.copy2]
        rw [if_neg (by simp only [har, false_or]; omega)]
        split_ifs <;> exact ⟨_, rfl⟩

/-- a copy of a variable -/
example (d : Diag ℝ) (k : Junk ℝ) : ∃ N, ∀ mem keep keep2,
    (N ≤ mem → Memory.step2 (fun _ => none) ⟨k, mem, keep, keep2⟩ (⟨5, fun _ => ⟨⟨[(5, d)], []⟩, 1⟩⟩ : World2 ℝ) (.copy ⟨0, 0⟩ ⟨0, 1⟩) =
      some (World2.set ⟨5, fun _ => ⟨⟨[(5, d)], []⟩, 1⟩⟩ ⟨0, 0⟩ ⟨⟨[(5, d)], []⟩, 1⟩, some .done)) ∧
    (mem < N → ∃ v, Memory.step2 (fun _ => none) ⟨k, mem, keep, keep2⟩ (⟨5, fun _ => ⟨⟨[(5, d)], []⟩, 1⟩⟩ : World2 ℝ) (.copy ⟨0, 0⟩ ⟨0, 1⟩) = some (v, none)) :=
  (C83_second_enough _ _ k _).2 _ _ rfl

omit [Sub R] in
/-- **C83** A call on `UReal2` which throws `std::bad_alloc` keeps all variables, unless it is a copy assignment, which may change the variable assigned to but not its mean (any
arithmetic). -/
theorem C83_second_kept_partial {solve : (ℕ → ℕ → R) → Option (List R)} {e : Memory.Env R} {w w' : World2 R} {st : Step2 R}
    (h : Memory.step2 solve e w st = some (w', none)) :
    (∀ r, some r ≠ writes2 st → w'.regs r = w.regs r) ∧ (∀ r, (w'.regs r).mu = (w.regs r).mu) ∧
    (w'.regs = w.regs ∨ ∃ r a, st = .copy r a) ∧ (w'.lastId = w.lastId ∨ w'.lastId = nextId w.lastId) := by
  have same : w'.regs = w.regs → (w'.lastId = w.lastId ∨ w'.lastId = nextId w.lastId) →
      (∀ r, some r ≠ writes2 st → w'.regs r = w.regs r) ∧ (∀ r, (w'.regs r).mu = (w.regs r).mu) ∧
      (w'.regs = w.regs ∨ ∃ r a, st = .copy r a) ∧ (w'.lastId = w.lastId ∨ w'.lastId = nextId w.lastId) :=
    fun e1 e2 => ⟨fun r _ => congrFun e1 r, fun r => by rw [e1], Or.inl e1, e2⟩
  have build : ∀ r (z : Option (UReal2 R)), z.map (Memory.fresh2 e.mem w r) = some (w', none) → w' = w := by
    intro r z h
    simp only [Option.map_eq_some_iff, Memory.fresh2] at h
    obtain ⟨x, -, h⟩ := h
    split_ifs at h
    · simp at h
    · simp only [Prod.mk.injEq, and_true] at h; exact h.symm
  have ctor : ∀ r (z : Option (Except Exn (UReal2 R))), z.map (Memory.finish2 e.mem w r) = some (w', none) → w'.regs = w.regs ∧ w'.lastId = nextId w.lastId := by
    intro r z h
    simp only [Option.map_eq_some_iff] at h
    obtain ⟨x, -, h⟩ := h
    unfold Memory.finish2 at h
    split at h
    · simp at h
    · split at h
      · simp only [Prod.mk.injEq, and_true] at h
        subst h
        exact ⟨rfl, rfl⟩
      · simp at h
  cases st with
  | newCentral r n m t => exact same (ctor r _ h).1 (Or.inr (ctor r _ h).2)
  | newStd r n s m t => exact same (ctor r _ h).1 (Or.inr (ctor r _ h).2)
  | const r n => simp [Memory.step2] at h
  | otherNew => simp [Memory.step2] at h
  | unary r a f fx fxx => rw [build r _ h] at same ⊢; exact same rfl (Or.inl rfl)
  | binary r a b f fx fy fxx fyy fxy => rw [build r _ h] at same ⊢; exact same rfl (Or.inl rfl)
  | copy r a =>
    simp only [Memory.step2, Memory.copy2, Option.some.injEq] at h
    have hq : ∀ q : Reg, some q ≠ writes2 (Step2.copy r a : Step2 R) → q ≠ r := fun q hq h => hq (by rw [h]; rfl)
    split_ifs at h
    · simp at h
    · simp only [Prod.mk.injEq, and_true] at h
      subst h
      refine ⟨fun q h => if_neg (hq q h), fun q => ?_, Or.inr ⟨r, a, rfl⟩, Or.inl rfl⟩
      by_cases hqr : q = r <;> simp [World2.set, hqr]
    · simp only [Prod.mk.injEq, and_true] at h
      subst h
      refine ⟨fun q h => if_neg (hq q h), fun q => ?_, Or.inr ⟨r, a, rfl⟩, Or.inl rfl⟩
      by_cases hqr : q = r <;> simp [World2.set, hqr]

example (d : Diag ℝ) (k : Junk ℝ) : ((World2.set ⟨5, fun _ => ⟨⟨[(5, d)], []⟩, 1⟩⟩ ⟨0, 0⟩ ⟨⟨[], []⟩, 1⟩ : World2 ℝ).regs ⟨0, 0⟩).mu = 1 :=
  have h : Memory.step2 (fun _ => none) ⟨k, 0, fun _ => false, fun _ => false⟩ (⟨5, fun _ => ⟨⟨[(5, d)], []⟩, 1⟩⟩ : World2 ℝ) (.copy ⟨0, 0⟩ ⟨0, 1⟩) =
      some (World2.set ⟨5, fun _ => ⟨⟨[(5, d)], []⟩, 1⟩⟩ ⟨0, 0⟩ ⟨⟨[], []⟩, 1⟩, none) := by simp [Memory.step2, Memory.copy2]
  (C83_second_kept_partial h).2.1 ⟨0, 0⟩

/-- One call keeps the invariants, except a copy assignment to a variable with mixed second derivatives in which the first map could not be copied. -/
theorem inv2_memory {solve : (ℕ → ℕ → R) → Option (List R)} (hs : LowerOnly solve) {w : World2 R} {n : ℕ} {tab : VId → Moments R} (h : Inv2 w n tab) (st : Step2 R)
    (ht : ThresholdOk st) (hn : n + countNew2 [st] < 2147483647) (e : Memory.Env R)
    (hc : ∀ r a, st = .copy r a → a = r ∨ (w.regs a).hg.diagmap.length ≤ e.mem ∨ (w.regs r).hg.trimap = []) :
    ∃ w' o n' tab', Memory.step2 solve e w st = some (w', o) ∧ n' ≤ n + countNew2 [st] ∧ Inv2 w' n' tab' := by
  obtain ⟨w1, o1, n1, tab1, e1, g1, g2, h1⟩ := h.step hs st ht hn
  have e1 := e1 e.junk
  have filt : ∀ {K V : Type _} [LinearOrder K] (m : SMap K V) (f : K → Bool), (SMap.keys (m.filter fun p => f p.1)).Sublist (SMap.keys m) := fun m f => List.Sublist.map _ List.filter_sublist
  have build : countNew2 [st] = 0 → ∀ r (z : Option (UReal2 R)), w.step solve e.junk st = z.map (fun z => (w.set r z, .done)) →
      Memory.step2 solve e w st = z.map (Memory.fresh2 e.mem w r) →
      ∃ w' o n' tab', Memory.step2 solve e w st = some (w', o) ∧ n' ≤ n + countNew2 [st] ∧ Inv2 w' n' tab' := by
    intro h0 r z e2 e3
    rw [e1] at e2
    cases z with
    | none => simp at e2
    | some z =>
      simp only [Option.map_some, Option.some.injEq, Prod.mk.injEq] at e2
      rw [e3, Option.map_some, Memory.fresh2]
      by_cases hm : z.hg.diagmap.length + z.hg.trimap.length ≤ e.mem
      · rw [if_pos hm]
        exact ⟨_, _, n1, tab1, rfl, g2, e2.1 ▸ h1⟩
      · rw [if_neg hm]
        exact ⟨_, _, n, tab, rfl, by omega, h⟩
  have ctor : countNew2 [st] = 1 → ∀ r (z : Option (Except Exn (UReal2 R))), w.step solve e.junk st = z.map (w.finish r) →
      Memory.step2 solve e w st = z.map (Memory.finish2 e.mem w r) →
      ∃ w' o n' tab', Memory.step2 solve e w st = some (w', o) ∧ n' ≤ n + countNew2 [st] ∧ Inv2 w' n' tab' := by
    intro h0 r z e2 e3
    rw [e1] at e2
    cases z with
    | none => simp at e2
    | some z =>
      simp only [Option.map_some, Option.some.injEq] at e2
      rw [e3, Option.map_some]
      cases z with
      | error x => exact ⟨_, _, n, tab, rfl, by omega, h⟩
      | ok x =>
        simp only [World2.finish, Prod.mk.injEq] at e2
        unfold Memory.finish2
        cases e.mem with
        | zero =>
          have e : nextId w.lastId = ((n + 1 : ℕ) : ℤ) := by rw [h.count]; exact nextId_nat (by omega)
          exact ⟨_, _, n + 1, tab, rfl, by omega, e, h.valid, fun q i hi => by
            have := h.ids q i hi
            refine ⟨this.1, le_trans this.2 ?_⟩
            push_cast; omega, h.mom⟩
        | succ m => exact ⟨_, _, n1, tab1, rfl, g2, e2.1 ▸ h1⟩
  cases st with
  | newCentral r n m t => exact ctor rfl r _ rfl rfl
  | newStd r n s m t => exact ctor rfl r _ rfl rfl
  | const r n => exact ⟨w1, some o1, n1, tab1, by simp [Memory.step2, e1], g2, h1⟩
  | otherNew => exact ⟨w1, some o1, n1, tab1, by simp [Memory.step2, e1], g2, h1⟩
  | unary r a f fx fxx => exact build rfl r _ rfl rfl
  | binary r a b f fx fy fxx fyy fxy => exact build rfl r _ rfl rfl
  | copy r a =>
    simp only [World2.step, Option.some.injEq, Prod.mk.injEq] at e1
    simp only [Memory.step2, Memory.copy2]
    split_ifs with c1 c2
    · exact ⟨_, _, n1, tab1, rfl, g2, e1.1 ▸ h1⟩
    · refine ⟨_, _, n, tab, rfl, by omega, h.set r ⟨(h.valid a).dsorted, ?_, fun i j hij => ?_⟩ (h.ids a) fun i m hm => h.mom a i m hm⟩
      · exact List.Pairwise.sublist (filt _ _) (h.valid a).tsorted
      · exact (h.valid a).tri i j ((filt _ _).subset hij)
    · have ht : (w.regs r).hg.trimap = [] := ((hc r a rfl).resolve_left fun h => c1 (Or.inl h)).resolve_left c2
      refine ⟨_, _, n, tab, rfl, by omega, h.set r ⟨?_, ?_, fun i j hij => ?_⟩ (fun i hi => h.ids a i ((filt _ _).subset hi)) fun i m hm => h.mom a i m ?_⟩
      · exact List.Pairwise.sublist (filt _ _) (h.valid a).dsorted
      · simp [ht]
      · simp [ht] at hij
      · have hm' : (find? ((w.regs a).hg.diagmap.filter fun p => e.keep p.1) i).map Diag.mom = some m := hm
        rw [Option.map_eq_some_iff] at hm'
        obtain ⟨d, hd, rfl⟩ := hm'
        have := find?_of_mem (h.valid a).dsorted (List.filter_sublist.subset (find?_some_mem hd))
        simp [momOf, this]

/-- **C83** A program with `UReal2` variables that goes on after `std::bad_alloc` can have undefined behaviour or a failed assertion only after a copy assignment has failed to copy
the first of the two maps into a variable which had mixed second derivatives (any arithmetic, fewer than `2^31 - 1` constructions). -/
theorem C83_second_defined_partial {solve : (ℕ → ℕ → R) → Option (List R)} (hs : LowerOnly solve) (p : List (Step2 R × Memory.Env R))
    (ht : ∀ st ∈ p.map Prod.fst, ThresholdOk st) (hc : countNew2 (p.map Prod.fst) < 2147483647) :
    (∃ w os, Memory.run2 solve (World2.init : World2 R) p = some (w, os) ∧ os.length = p.length ∧ ∀ r, Ok2 (w.regs r)) ∨
    ∃ p1 r a e p2 w os w', p = p1 ++ (.copy r a, e) :: p2 ∧ Memory.run2 solve World2.init p1 = some (w, os) ∧ Memory.step2 solve e w (.copy r a) = some (w', none) ∧
      e.mem < (w.regs a).hg.diagmap.length ∧ (w.regs r).hg.trimap ≠ [] := by
  have main : ∀ (w : World2 R) (n : ℕ) (tab : VId → Moments R), Inv2 w n tab → n + countNew2 (p.map Prod.fst) < 2147483647 →
      (∃ w' os, Memory.run2 solve w p = some (w', os) ∧ os.length = p.length ∧ ∀ r, Ok2 (w'.regs r)) ∨
      ∃ p1 r a e p2 w1 os w', p = p1 ++ (.copy r a, e) :: p2 ∧ Memory.run2 solve w p1 = some (w1, os) ∧ Memory.step2 solve e w1 (.copy r a) = some (w', none) ∧
        e.mem < (w1.regs a).hg.diagmap.length ∧ (w1.regs r).hg.trimap ≠ [] := by
    clear hc
    induction p with
    | nil =>
      refine fun w n tab h hn => Or.inl ⟨w, [], rfl, rfl, fun r => ⟨h.valid r, fun i hi => ?_⟩⟩
      have := (h.ids r i hi).2
      have h' : (n : ℤ) < 2147483647 := by exact_mod_cast (lt_of_le_of_lt (Nat.le_add_right _ _) hn)
      exact lt_of_le_of_lt this h'
    | cons st p ih =>
      intro w n tab h hn
      obtain ⟨st, e⟩ := st
      simp only [List.map_cons] at hn ht
      rw [countNew2_cons] at hn
      by_cases hcp : ∀ r a, st = .copy r a → a = r ∨ (w.regs a).hg.diagmap.length ≤ e.mem ∨ (w.regs r).hg.trimap = []
      · obtain ⟨w1, o, n1, tab1, e1, g, h1⟩ := inv2_memory hs h st (ht st (by simp)) (by omega) e hcp
        rcases ih (fun st hst => ht st (by simp [hst])) w1 n1 tab1 h1 (by omega) with ⟨w2, os, e2, hl, ho⟩ | ⟨p1, r, a, e', p2, w2, os, w', rfl, e2, h2⟩
        · exact Or.inl ⟨w2, o :: os, by simp [Memory.run2, e1, e2], by simp [hl], ho⟩
        · exact Or.inr ⟨(st, e) :: p1, r, a, e', p2, w2, o :: os, w', rfl, by simp [Memory.run2, e1, e2], h2⟩
      · push Not at hcp
        obtain ⟨r, a, rfl, har, h1, h2⟩ := hcp
        refine Or.inr ⟨[], r, a, e, p, w, [], w.set r ⟨⟨(w.regs a).hg.diagmap.filter fun p => e.keep p.1, (w.regs r).hg.trimap⟩, (w.regs r).mu⟩, rfl, rfl, ?_, h1, h2⟩
        simp only [Memory.step2, Memory.copy2]
        rw [if_neg (by simp only [har, false_or]; omega), if_neg (by omega)]
  refine main World2.init 0 (fun _ => ⟨0, 0, 0, 0, 0, 0⟩) ?_ (by omega)
  exact ⟨rfl, fun r => ⟨by simp [World2.init, UReal2.default', empty], by simp [World2.init, UReal2.default', empty], by simp [World2.init, UReal2.default', empty]⟩,
    by simp [World2.init, UReal2.default', empty], fun r i m h => by simp [World2.init, UReal2.default', empty, momOf, find?] at h⟩

/-- the constructor runs out of memory, a constant is created and copied -/
example (e : Memory.Env ℝ) : (∃ w os, Memory.run2 (fun _ => none) (World2.init : World2 ℝ)
      [(.newStd ⟨0, 0⟩ 1 1 (fun _ => 0) (-1), { e with mem := 0 }), (.const ⟨0, 1⟩ 2, e), (.copy ⟨0, 2⟩ ⟨0, 1⟩, e)] = some (w, os) ∧ os.length = 3 ∧ ∀ r, Ok2 (w.regs r)) ∨
    ∃ p1 r a e' p2 w os w', [(.newStd ⟨0, 0⟩ 1 1 (fun _ => 0) (-1), { e with mem := 0 }), (.const ⟨0, 1⟩ 2, e), (.copy ⟨0, 2⟩ ⟨0, 1⟩, e)] = p1 ++ (.copy r a, e') :: p2 ∧
      Memory.run2 (fun _ => none) World2.init p1 = some (w, os) ∧ Memory.step2 (fun _ => none) e' w (.copy r a) = some (w', none) ∧
      e'.mem < (w.regs a).hg.diagmap.length ∧ (w.regs r).hg.trimap ≠ [] :=
  C83_second_defined_partial (fun _ _ _ => rfl) [(.newStd ⟨0, 0⟩ 1 1 (fun _ => 0) (-1), { e with mem := 0 }), (.const ⟨0, 1⟩ 2, e), (.copy ⟨0, 2⟩ ⟨0, 1⟩, e)]
    (by simp [ThresholdOk, CCmp.ltb]) (by simp [countNew2])

end

/-- what a call of the example meets: `mem` allocations; of the first map the element 3 is kept if `b` -/
def exEnv (mem : ℕ) (b : Bool) : Memory.Env ℝ := ⟨⟨⟨0, 0, 0, 0, 0, 0⟩, fun _ _ => 0⟩, mem, fun i => b && decide (i = 3), fun _ => true⟩

/-- an elementary variable of the example -/
def exVar (i : VId) (n : ℝ) : UReal2 ℝ := ⟨⟨[(i, ⟨1, 0, ⟨0, 0, 0, 0, 0, 0⟩⟩)], []⟩, n⟩

/-- `x*y` in the example -/
noncomputable def exProd : UReal2 ℝ := ⟨⟨[(1, ⟨2, 0, ⟨0, 0, 0, 0, 0, 0⟩⟩), (2, ⟨1, 0, ⟨0, 0, 0, 0, 0, 0⟩⟩)], [(toLex (1, 2), 1 / 2)]⟩, 2⟩

/-- `u+v` in the example -/
def exPlus : UReal2 ℝ := ⟨⟨[(3, ⟨1, 0, ⟨0, 0, 0, 0, 0, 0⟩⟩), (4, ⟨1, 0, ⟨0, 0, 0, 0, 0, 0⟩⟩)], []⟩, 2⟩

theorem exProd_eq (k : Moments ℝ) : (exVar 1 1).binary k (exVar 2 2) 2 2 1 0 0 1 = some exProd := by
  simp [UReal2.binary, exVar, exProd, hessEntries, HessIt.loop, HessIt.start, HessIt.notEnd, HessIt.get, HessIt.incr, fuel, UReal2.binaryLoop,
    Prod.Lex.toLex_lt_toLex, maxId, UReal2.binaryX, UReal2.binaryY, UReal2.binaryYNew, modHhess, modDiag, SMap.upsert, UReal2.mixedLoop, UReal2.mixedStep, modTri, Mom.lit, CCmp.eqb,
    newDiag, empty]

theorem exPlus_eq (k : Moments ℝ) : (exVar 3 1).binary k (exVar 4 1) 2 1 1 0 0 0 = some exPlus := by
  simp [UReal2.binary, exVar, exPlus, hessEntries, HessIt.loop, HessIt.start, HessIt.notEnd, HessIt.get, HessIt.incr, fuel, UReal2.binaryLoop,
    Prod.Lex.toLex_lt_toLex, maxId, UReal2.binaryX, UReal2.binaryY, UReal2.binaryYNew, modHhess, modDiag, SMap.upsert, UReal2.mixedLoop, UReal2.mixedStep, modTri, Mom.lit, CCmp.eqb,
    newDiag, empty]

/-- what is left of `x*y` when the first map has been cleared -/
noncomputable def exLeft : UReal2 ℝ := ⟨⟨[], exProd.hg.trimap⟩, 2⟩

theorem exMom2 (x : UReal2 ℝ) : x.var = (Mom.m2 x.hg).map fun m => m - Mom.m1 x.hg * Mom.m1 x.hg := by
  have h : UReal2.updateMom x.hg [Mom.m1 x.hg] = (Mom.m2 x.hg).map fun m => [Mom.m1 x.hg, m - Mom.m1 x.hg * Mom.m1 x.hg] := rfl
  have h1 : UReal2.updateMom x.hg [] = some [Mom.m1 x.hg] := rfl
  simp only [UReal2.var, UReal2.m, UReal2.momArray, Option.bind_some, h1, h]
  cases Mom.m2 x.hg <;> simp

theorem exProd_var : exProd.var = some 6 := by
  have h1 : exProd.hg.triEntries false = some [⟨1, 2, ⟨2, 0, ⟨0, 0, 0, 0, 0, 0⟩⟩, ⟨1, 0, ⟨0, 0, 0, 0, 0, 0⟩⟩, 1 / 2⟩] := by
    have l (a : TriIt ℝ) (ha : a.notEnd = false) : TriIt.loop 7 a = some [] := by simp [TriIt.loop, ha]
    have s : TriIt.start exProd.hg.diagmap exProd.hg.trimap false = some ⟨exProd.hg.diagmap, exProd.hg.diagmap.tail, exProd.hg.trimap, false⟩ := rfl
    rw [triEntries, s, Option.bind_some]
    change TriIt.loop (7 + 1) _ = _
    rw [TriIt.loop.eq_2]
    simp [exProd, TriIt.notEnd, TriIt.get, TriIt.incr, l]
  have h : Mom.m2 exProd.hg = some 6 := by
    rw [Mom.m2, h1]
    simp [exProd, Mom.m2A, Mom.m2B, Mom.lit]
    norm_num
  rw [exMom2, h]
  simp [exProd, Mom.m1]

theorem exLeft_m2 : Mom.m2 exLeft.hg = some 0 := by
  have h1 : exLeft.hg.triEntries false = some [] := by simp [exLeft, exProd, triEntries, TriIt.start, fuel, TriIt.loop, TriIt.notEnd]
  rw [Mom.m2, h1]
  rfl

theorem exLeft_var : exLeft.var = some 0 := by
  rw [exMom2, exLeft_m2]
  simp [exLeft, Mom.m1]

theorem exLeft_m3 : exLeft.m 3 = none := by
  have h : Mom.m3 exLeft.hg = none := by
    simp [exLeft, exProd, Mom.m3, triEntries, TriIt.start, TriIt.updateDiag, seekDiag]
  have h1 : UReal2.updateMom exLeft.hg [] = some [Mom.m1 exLeft.hg] := rfl
  have h2 (a b : ℝ) : UReal2.updateMom exLeft.hg [a, b] = none := by simp [UReal2.updateMom, Mom.compute, h]
  have h3 (a : ℝ) : UReal2.updateMom exLeft.hg [a] = some [a, 0 - a * a] := by simp [UReal2.updateMom, Mom.compute, exLeft_m2]
  simp [UReal2.m, UReal2.momArray, h1, h2, h3]

/-- **C83** The property is false at second order, and undefined behaviour follows.  The variables `x`, `y`, `u`, `v` are created and `z = x*y` and `t = u+v` are computed.  If
`z = t` fails before any element has been copied, `z` still has its mean but no variance, and computing its covariances or its third moment is undefined behaviour.  If it fails
when one element has been copied, so is `-z`. -/
theorem C83_second_false : ∃ (p : List (Step2 ℝ × Memory.Env ℝ)) (w w' w'' : World2 ℝ) (os : List (Option (Out ℝ))) (e e' : Memory.Env ℝ) (z t : Reg),
    Memory.run2 (fun _ => none) World2.init p = some (w, os) ∧ (w.regs z).var = some 6 ∧
    Memory.step2 (fun _ => none) e w (.copy z t) = some (w', none) ∧ (w'.regs z).mu = 2 ∧ (w'.regs z).var = some 0 ∧ (w'.regs z).m 3 = none ∧ (w'.regs z).cov (w'.regs z) = none ∧
    Memory.step2 (fun _ => none) e' w (.copy z t) = some (w'', none) ∧ ∀ k f, (w''.regs z).unary k f (-1) 0 = none := by
  let w4 : World2 ℝ := ((((⟨4, fun _ => UReal2.default'⟩ : World2 ℝ).set ⟨0, 0⟩ (exVar 1 1)).set ⟨0, 1⟩ (exVar 2 2)).set ⟨0, 2⟩ (exVar 3 1)).set ⟨0, 3⟩ (exVar 4 1)
  let w : World2 ℝ := (w4.set ⟨0, 4⟩ exProd).set ⟨0, 5⟩ exPlus
  have n1 : nextId 0 = 1 := by decide
  have n2 : nextId 1 = 2 := by decide
  have n3 : nextId 2 = 3 := by decide
  have n4 : nextId 3 = 4 := by decide
  have new : ∀ (w : World2 ℝ) (r : Reg) (n : ℝ) (i : VId), nextId w.lastId = i → Memory.step2 (fun _ => none) (exEnv 9 false) w (.newStd r n 1 (fun _ => 0) (-1)) =
      some (World2.set ⟨i, w.regs⟩ r (exVar i n), some .done) := by
    rintro w r n i rfl
    have h1 : ¬ (1 : ℝ) < 0 := by norm_num
    simp [Memory.step2, UReal2.mkStd, Check.ctorCheck, Memory.finish2, exEnv, UReal2.buildStd, exVar, CCmp.ltb, h1, Except.map, modDiag, empty, SMap.upsert, UReal2.momOfArray]
  refine ⟨[(.newStd ⟨0, 0⟩ 1 1 (fun _ => 0) (-1), exEnv 9 false), (.newStd ⟨0, 1⟩ 2 1 (fun _ => 0) (-1), exEnv 9 false), (.newStd ⟨0, 2⟩ 1 1 (fun _ => 0) (-1), exEnv 9 false),
      (.newStd ⟨0, 3⟩ 1 1 (fun _ => 0) (-1), exEnv 9 false), (.binary ⟨0, 4⟩ ⟨0, 0⟩ ⟨0, 1⟩ 2 2 1 0 0 1, exEnv 9 false), (.binary ⟨0, 5⟩ ⟨0, 2⟩ ⟨0, 3⟩ 2 1 1 0 0 0, exEnv 9 false)],
    w, w.set ⟨0, 4⟩ ⟨⟨[], exProd.hg.trimap⟩, 2⟩, w.set ⟨0, 4⟩ ⟨⟨[(3, ⟨1, 0, ⟨0, 0, 0, 0, 0, 0⟩⟩)], exProd.hg.trimap⟩, 2⟩, [some .done, some .done, some .done, some .done, some .done, some .done],
    exEnv 0 false, exEnv 1 true, ⟨0, 4⟩, ⟨0, 5⟩, ?_, ?_, ?_, ?_, ?_, ?_, ?_, ?_, ?_⟩
  · have s5 : Memory.step2 (fun _ => none) (exEnv 9 false) w4 (.binary ⟨0, 4⟩ ⟨0, 0⟩ ⟨0, 1⟩ 2 2 1 0 0 1) = some (w4.set ⟨0, 4⟩ exProd, some .done) := by
      simp [Memory.step2, World2.set, w4, exProd_eq, Memory.fresh2, exEnv]
      simp [exProd]
    have s6 : Memory.step2 (fun _ => none) (exEnv 9 false) (w4.set ⟨0, 4⟩ exProd) (.binary ⟨0, 5⟩ ⟨0, 2⟩ ⟨0, 3⟩ 2 1 1 0 0 0) = some (w, some .done) := by
      simp [Memory.step2, World2.set, w4, w, exPlus_eq, Memory.fresh2, exEnv]
      simp [exPlus]
    simp only [Memory.run2]
    rw [new _ _ _ 1 n1, Option.bind_some, new _ _ _ 2 n2, Option.bind_some, new _ _ _ 3 n3, Option.bind_some, new _ _ _ 4 n4, Option.bind_some]
    change Option.map _ (Option.map _ (Option.map _ (Option.map _ ((Memory.step2 (fun _ => none) (exEnv 9 false) w4 _).bind _)))) = _
    rw [s5, Option.bind_some]
    change Option.map _ (Option.map _ (Option.map _ (Option.map _ (Option.map _ ((Memory.step2 (fun _ => none) (exEnv 9 false) (w4.set ⟨0, 4⟩ exProd) _).bind _))))) = _
    rw [s6]
    rfl
  · have e : w.regs ⟨0, 4⟩ = exProd := by simp [w, World2.set]
    rw [e, exProd_var]
  · simp [Memory.step2, Memory.copy2, w, w4, World2.set, exPlus, exProd, exEnv]
  · simp [World2.set]
  · have e : (w.set ⟨0, 4⟩ (⟨⟨[], exProd.hg.trimap⟩, 2⟩ : UReal2 ℝ)).regs ⟨0, 4⟩ = exLeft := by simp [World2.set, exLeft]
    rw [e, exLeft_var]
  · have e : (w.set ⟨0, 4⟩ (⟨⟨[], exProd.hg.trimap⟩, 2⟩ : UReal2 ℝ)).regs ⟨0, 4⟩ = exLeft := by simp [World2.set, exLeft]
    rw [e, exLeft_m3]
  · simp [World2.set, UReal2.cov, Mom.c2, exProd, triEntries, TriIt.start, TriIt.updateDiag, seekDiag]
  · simp [Memory.step2, Memory.copy2, w, w4, World2.set, exPlus, exProd, exEnv]
  · intro k f
    simp [World2.set, UReal2.unary, hessEntries, HessIt.loop, HessIt.start, HessIt.notEnd, HessIt.get, HessIt.incr, fuel, exProd]

end Unc.Props
