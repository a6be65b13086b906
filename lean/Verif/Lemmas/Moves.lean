import Verif.Spec.Moves

/-! # Programs which move variables: lemmas -/

namespace Unc
open Unc.Spec
variable {R : Type*}

section
variable [Zero R] [One R] [Neg R] [Add R] [Mul R] [CCmp R] [CSqrt R]

/-- A call does the same on states which agree on what it reads. -/
theorem World.step_congr {w v w' : World R} {st : Step R} {o : Out R} (hl : v.lastId = w.lastId) (hr : ∀ q ∈ reads st, v.regs q = w.regs q)
    (h : w.step st = some (w', o)) :
    ∃ v', v.step st = some (v', o) ∧ v'.lastId = w'.lastId ∧ (∀ q, v.regs q = w.regs q → v'.regs q = w'.regs q) ∧
      ((∀ e, o ≠ .threw e) → v'.regs (writes st) = w'.regs (writes st)) := by
  have put : ∀ r x, writes st = r → w.step st = some (w.set r x, o) → v.step st = some (v.set r x, o) →
      ∃ v', v.step st = some (v', o) ∧ v'.lastId = w'.lastId ∧ (∀ q, v.regs q = w.regs q → v'.regs q = w'.regs q) ∧
        ((∀ e, o ≠ .threw e) → v'.regs (writes st) = w'.regs (writes st)) := by
    rintro r x rfl e1 e2
    rw [h] at e1
    simp only [Option.some.injEq, Prod.mk.injEq, and_true] at e1
    subst e1
    refine ⟨_, e2, hl, fun q hq => ?_, fun _ => by simp [World.set]⟩
    simp only [World.set]
    split_ifs
    · rfl
    · exact hq
  cases st with
  | new r n s =>
    simp only [World.step] at h ⊢
    rw [hl]
    cases hm : UReal.mk' (nextId w.lastId) n s with
    | ok x =>
      simp only [hm, Option.some.injEq, Prod.mk.injEq] at h ⊢
      obtain ⟨rfl, rfl⟩ := h
      refine ⟨_, ⟨rfl, rfl⟩, rfl, fun q hq => ?_, fun _ => by simp [World.set, writes]⟩
      simp only [World.set]
      split_ifs
      · rfl
      · exact hq
    | error e =>
      simp only [hm, Option.some.injEq, Prod.mk.injEq] at h ⊢
      obtain ⟨rfl, rfl⟩ := h
      exact ⟨_, ⟨rfl, rfl⟩, rfl, fun q hq => hq, fun h => absurd rfl (h e)⟩
  | const r n =>
    have ho : o = .done := by simp only [World.step, Option.some.injEq, Prod.mk.injEq] at h; exact h.2.symm
    subst ho
    exact put r _ rfl rfl rfl
  | copy r a =>
    have ho : o = .done := by simp only [World.step, Option.some.injEq, Prod.mk.injEq] at h; exact h.2.symm
    subst ho
    exact put r _ rfl rfl (by simp only [World.step, hr a (by simp [reads])])
  | unary r a mu dx =>
    have ho : o = .done := by simp only [World.step, Option.some.injEq, Prod.mk.injEq] at h; exact h.2.symm
    subst ho
    exact put r _ rfl rfl (by simp only [World.step, hr a (by simp [reads])])
  | binary r a b mu dx dy =>
    have e1 := hr a (by simp [reads])
    have e2 := hr b (by simp [reads])
    cases hz : (w.regs a).binary (w.regs b) mu dx dy with
    | none => simp [World.step, hz] at h
    | some z =>
      have ho : o = .done := by simp only [World.step, hz, Option.map_some, Option.some.injEq, Prod.mk.injEq] at h; exact h.2.symm
      subst ho
      exact put r z rfl (by simp only [World.step, hz, Option.map_some]) (by simp only [World.step, e1, e2, hz, Option.map_some])
  | nary r xs mu =>
    have ho : o = .done := by simp only [World.step, Option.some.injEq, Prod.mk.injEq] at h; exact h.2.symm
    subst ho
    refine put r _ rfl rfl ?_
    have : (xs.map fun p => (v.regs p.1, p.2)) = xs.map fun p => (w.regs p.1, p.2) :=
      List.map_congr_left fun p hp => by rw [hr p.1 (by simp only [reads]; exact List.mem_map_of_mem hp)]
    simp only [World.step, this]
  | assign r a mu dt dx =>
    have ho : o = .done := by simp only [World.step] at h; split_ifs at h <;> simp only [Option.some.injEq, Prod.mk.injEq] at h <;> exact h.2.symm
    subst ho
    have e1 := hr a (by simp [reads])
    have e2 := hr r (by simp [reads])
    by_cases har : a = r
    · exact put r ((w.regs r).binaryAssignSelf mu dt dx) rfl (by simp only [World.step, har, if_true]) (by simp only [World.step, har, if_true, e2])
    · exact put r ((w.regs r).binaryAssign (w.regs a) mu dt dx) rfl (by simp only [World.step, har, if_false]) (by simp only [World.step, har, if_false, e1, e2])
  | changeNom r a n =>
    have ho : o = .done := by simp only [World.step, Option.some.injEq, Prod.mk.injEq] at h; exact h.2.symm
    subst ho
    exact put r _ rfl rfl (by simp only [World.step, hr a (by simp [reads])])
  | readS r =>
    have e1 := hr r (by simp [reads])
    have ho : o = .num (w.regs r).sCache.1 := by simp only [World.step, Option.some.injEq, Prod.mk.injEq] at h; exact h.2.symm
    subst ho
    exact put r _ rfl rfl (by simp only [World.step, e1])
  | readVar r =>
    have e1 := hr r (by simp [reads])
    have ho : o = .num (w.regs r).varCache.1 := by simp only [World.step, Option.some.injEq, Prod.mk.injEq] at h; exact h.2.symm
    subst ho
    exact put r _ rfl rfl (by simp only [World.step, e1])

end

section
variable [Zero R] [One R] [Neg R] [Add R] [Mul R] [Div R] [NatCast R] [CCmp R] [CSqrt R]

theorem World2.step_congr {solve : (ℕ → ℕ → R) → Option (List R)} {w v w' : World2 R} {k : Junk R} {st : Step2 R} {o : Out R} (hl : v.lastId = w.lastId)
    (hr : ∀ q ∈ reads2 st, v.regs q = w.regs q) (h : w.step solve k st = some (w', o)) :
    ∃ v', v.step solve k st = some (v', o) ∧ v'.lastId = w'.lastId ∧ (∀ q, v.regs q = w.regs q → v'.regs q = w'.regs q) ∧
      ((∀ e, o ≠ .threw e) → ∀ q, writes2 st = some q → v'.regs q = w'.regs q) := by
  have put : ∀ r (z : Option (UReal2 R)), writes2 st = some r → w.step solve k st = z.map (fun z => (w.set r z, .done)) →
      v.step solve k st = z.map (fun z => (v.set r z, .done)) →
      ∃ v', v.step solve k st = some (v', o) ∧ v'.lastId = w'.lastId ∧ (∀ q, v.regs q = w.regs q → v'.regs q = w'.regs q) ∧
        ((∀ e, o ≠ .threw e) → ∀ q, writes2 st = some q → v'.regs q = w'.regs q) := by
    intro r z hw e1 e2
    rw [h] at e1
    cases z with
    | none => simp at e1
    | some x =>
      simp only [Option.map_some, Option.some.injEq, Prod.mk.injEq] at e1 e2
      obtain ⟨rfl, rfl⟩ := e1
      refine ⟨_, e2, hl, fun q hq => ?_, fun _ q hq => ?_⟩
      · simp only [World2.set]
        split_ifs
        · rfl
        · exact hq
      · rw [hw] at hq
        simp only [Option.some.injEq] at hq
        simp [World2.set, hq]
  have ctor : ∀ r (z : Option (Except Exn (UReal2 R))), writes2 st = some r → w.step solve k st = z.map (w.finish r) → v.step solve k st = z.map (v.finish r) →
      ∃ v', v.step solve k st = some (v', o) ∧ v'.lastId = w'.lastId ∧ (∀ q, v.regs q = w.regs q → v'.regs q = w'.regs q) ∧
        ((∀ e, o ≠ .threw e) → ∀ q, writes2 st = some q → v'.regs q = w'.regs q) := by
    intro r z hw e1 e2
    rw [h] at e1
    cases z with
    | none => simp at e1
    | some x =>
      cases x with
      | error e =>
        simp only [Option.map_some, World2.finish, Option.some.injEq, Prod.mk.injEq] at e1 e2
        obtain ⟨rfl, rfl⟩ := e1
        exact ⟨_, e2, hl, fun q hq => hq, fun h => absurd rfl (h e)⟩
      | ok x =>
        simp only [Option.map_some, World2.finish, Option.some.injEq, Prod.mk.injEq] at e1 e2
        obtain ⟨rfl, rfl⟩ := e1
        refine ⟨_, e2, by simp [World2.set, hl], fun q hq => ?_, fun _ q hq => ?_⟩
        · simp only [World2.set]
          split_ifs
          · rfl
          · exact hq
        · rw [hw] at hq
          simp only [Option.some.injEq] at hq
          simp [World2.set, hq]
  cases st with
  | newCentral r n m t => exact ctor r _ rfl rfl (by simp only [World2.step, hl])
  | newStd r n s m t => exact ctor r _ rfl rfl (by simp only [World2.step, hl])
  | const r n => exact put r (some (UReal2.const n)) rfl rfl rfl
  | copy r a => exact put r (some (w.regs a)) rfl rfl (by simp only [World2.step, hr a (by simp [reads2]), Option.map_some])
  | unary r a f fx fxx => exact put r _ rfl rfl (by simp only [World2.step, hr a (by simp [reads2])])
  | binary r a b f fx fy fxx fyy fxy => exact put r _ rfl rfl (by simp only [World2.step, hr a (by simp [reads2]), hr b (by simp [reads2])])
  | otherNew =>
    simp only [World2.step, Option.some.injEq, Prod.mk.injEq] at h ⊢
    obtain ⟨rfl, rfl⟩ := h
    exact ⟨_, ⟨rfl, rfl⟩, by simp [hl], fun q hq => hq, fun _ q hq => by simp [writes2] at hq⟩

end
end Unc
