import Verif.Model.Memory
import Verif.Lemmas.Deps

/-! # Calls which run out of memory: lemmas -/

namespace Unc
namespace Memory
open Unc.Spec
variable {R : Type*}

/-- The pairs `binary_assign` adds. -/
def terms (x : UReal R) : List (VId × R) := if 0 < x.id then [(x.id, x.sdev)] else if x.id < 0 then x.sigma else []

section
variable [Zero R] [Add R] [Mul R]

/-- the loop without failures -/
def total (dx : R) (l : List (VId × R)) (z : SMap VId R) : SMap VId R := l.foldl (fun z p => SMap.upsert z p.1 0 (fun v => v + dx * p.2)) z

theorem addInto_total (z : SMap VId R) (x : UReal R) (dx : R) : UReal.addInto z x dx = total dx (terms x) z := by
  unfold UReal.addInto total terms
  split_ifs <;> rfl

theorem addInto_loop (mem : ℕ) (z : SMap VId R) (x : UReal R) (dx : R) : addInto mem z x dx = addLoop dx (terms x) z mem := by
  unfold addInto terms
  split_ifs
  · simp only [addLoop]
  · rfl
  · rfl

omit [Zero R] [Add R] [Mul R] in
theorem put_some {mem mem' : ℕ} {m m' : SMap VId R} {k : VId} {d : R} {f : R → R} (h : put mem m k d f = some (m', mem')) : m' = m.upsert k d f := by
  unfold put at h
  cases hf : m.find? k with
  | some v => simp [hf] at h; exact h.1.symm
  | none =>
    cases mem with
    | zero => simp [hf] at h
    | succ n => simp [hf] at h; exact h.1.symm

omit [Zero R] [Add R] [Mul R] in
theorem put_none {mem : ℕ} {m : SMap VId R} {k : VId} {d : R} {f : R → R} (h : put mem m k d f = none) : k ∉ m.keys := by
  unfold put at h
  cases hf : m.find? k with
  | some v => simp [hf] at h
  | none => exact SMap.find?_eq_none.1 hf

theorem addLoop_some {dx : R} {l : List (VId × R)} {z z' : SMap VId R} {mem m : ℕ} (h : addLoop dx l z mem = (z', some m)) : z' = total dx l z := by
  induction l generalizing z mem with
  | nil => simp [addLoop] at h; exact h.1.symm
  | cons p t ih =>
    simp only [addLoop] at h
    cases hp : put mem z p.1 0 (fun v => v + dx * p.2) with
    | none => simp [hp] at h
    | some q =>
      obtain ⟨z1, m1⟩ := q
      rw [hp] at h
      rw [ih h, put_some hp]
      rfl

theorem addLoop_none {dx : R} {l : List (VId × R)} {z z' : SMap VId R} {mem : ℕ} (h : addLoop dx l z mem = (z', none)) :
    ∃ l1 p l2, l = l1 ++ p :: l2 ∧ z' = total dx l1 z ∧ p.1 ∉ z'.keys := by
  induction l generalizing z mem with
  | nil => simp [addLoop] at h
  | cons p t ih =>
    simp only [addLoop] at h
    cases hp : put mem z p.1 0 (fun v => v + dx * p.2) with
    | none =>
      simp only [hp, Prod.mk.injEq] at h
      exact ⟨[], p, t, rfl, h.1.symm, h.1 ▸ put_none hp⟩
    | some q =>
      obtain ⟨z1, m1⟩ := q
      rw [hp] at h
      obtain ⟨l1, q, l2, rfl, e, hq⟩ := ih h
      exact ⟨p :: l1, q, l2, rfl, by rw [e, put_some hp]; rfl, hq⟩

/-- the allocations the loop needs -/
theorem addLoop_need (dx : R) (l : List (VId × R)) (z : SMap VId R) :
    ∃ N, ∀ mem, (N ≤ mem → addLoop dx l z mem = (total dx l z, some (mem - N))) ∧ (mem < N → (addLoop dx l z mem).2 = none) := by
  induction l generalizing z with
  | nil => exact ⟨0, fun mem => ⟨fun _ => rfl, fun h => absurd h (Nat.not_lt_zero _)⟩⟩
  | cons p t ih =>
    obtain ⟨N, hN⟩ := ih (SMap.upsert z p.1 0 (fun v => v + dx * p.2))
    cases hf : z.find? p.1 with
    | some v =>
      refine ⟨N, fun mem => ?_⟩
      simp only [addLoop, put, hf]
      exact hN mem
    | none =>
      refine ⟨N + 1, fun mem => ?_⟩
      cases mem with
      | zero => simp [addLoop, put, hf]
      | succ n =>
        simp only [addLoop, put, hf]
        refine ⟨fun h => ?_, fun h => (hN n).2 (by omega)⟩
        rw [(hN n).1 (by omega), Nat.add_sub_add_right]
        rfl
end

section
variable [Zero R] [One R] [Neg R] [Add R] [Mul R] [CCmp R]

/-- the call succeeded -/
theorem binaryAssign_true {mem : ℕ} {t x z : UReal R} {mu dt dx : R} (h : binaryAssign mem t x mu dt dx = (z, true)) :
    z = t.binaryAssign x mu dt dx := by
  unfold binaryAssign at h
  split at h
  · simp at h
  · rename_i sg m e
    have hsg : sg = if 0 < t.id then t.sigma.upsert t.id 0 (fun _ => t.sdev) else t.sigma := by
      split_ifs at e ⊢
      · exact put_some e
      · simp at e; exact e.1.symm
    simp only at h
    split at h
    · simp at h
    · rename_i sg' m' e'
      rw [addInto_loop] at e'
      have h2 := addLoop_some e'
      simp only [Prod.mk.injEq, and_true] at h
      subst h
      unfold UReal.binaryAssign
      simp only [UReal.mk.injEq, true_and]
      rw [h2, addInto_total, hsg]

/-- the call failed: either nothing happened, or part of `x` was added -/
theorem binaryAssign_false {mem : ℕ} {t x z : UReal R} {mu dt dx : R} (h : binaryAssign mem t x mu dt dx = (z, false)) :
    z = t ∨ ∃ l1 p l2, terms x = l1 ++ p :: l2 ∧ z = { t.binaryAssign ⟨-1, 0, 0, l1⟩ mu dt dx with sdev := t.sdev, mu := t.mu } ∧ p.1 ∉ z.sigma.keys := by
  unfold binaryAssign at h
  split at h
  · simp at h; exact Or.inl h.symm
  · rename_i sg m e
    have hsg : sg = if 0 < t.id then t.sigma.upsert t.id 0 (fun _ => t.sdev) else t.sigma := by
      split_ifs at e ⊢
      · exact put_some e
      · simp at e; exact e.1.symm
    simp only at h
    split at h
    · rename_i sg' e'
      rw [addInto_loop] at e'
      obtain ⟨l1, p, l2, e1, e2, hp⟩ := addLoop_none e'
      simp only [Prod.mk.injEq, and_true] at h
      subst h
      refine Or.inr ⟨l1, p, l2, e1, ?_, hp⟩
      unfold UReal.binaryAssign
      simp only [UReal.mk.injEq, true_and]
      rw [e2, addInto_total, hsg]
      simp [terms]
    · simp at h

theorem binaryAssign_need (t x : UReal R) (mu dt dx : R) :
    ∃ N, ∀ mem, (N ≤ mem → binaryAssign mem t x mu dt dx = (t.binaryAssign x mu dt dx, true)) ∧ (mem < N → (binaryAssign mem t x mu dt dx).2 = false) := by
  have after : ∀ sg : SMap VId R, ∃ N, ∀ mem,
      (N ≤ mem → (match addInto mem sg x dx with
        | (sg, none) => (({ id := invalidId, sigma := sg, sdev := t.sdev, mu := t.mu } : UReal R), false)
        | (sg, some _) => ({ id := invalidId, sigma := sg, sdev := -1, mu := mu }, true)) =
        ({ id := invalidId, sigma := UReal.addInto sg x dx, sdev := -1, mu := mu }, true)) ∧
      (mem < N → (match addInto mem sg x dx with
        | (sg, none) => (({ id := invalidId, sigma := sg, sdev := t.sdev, mu := t.mu } : UReal R), false)
        | (sg, some _) => ({ id := invalidId, sigma := sg, sdev := -1, mu := mu }, true)).2 = false) := by
    intro sg
    obtain ⟨N, hN⟩ := addLoop_need dx (terms x) sg
    refine ⟨N, fun mem => ⟨fun h => ?_, fun h => ?_⟩⟩
    · rw [addInto_loop, (hN mem).1 h, addInto_total]
    · have := (hN mem).2 h
      rw [addInto_loop]
      generalize addLoop dx (terms x) sg mem = q at this ⊢
      obtain ⟨a, b⟩ := q
      simp only at this
      subst this
      rfl
  by_cases ht : 0 < t.id
  · obtain ⟨N, hN⟩ := after (if CCmp.eqb dt 1 then t.sigma.upsert t.id 0 (fun _ => t.sdev) else (t.sigma.upsert t.id 0 (fun _ => t.sdev)).mapVal (fun v => v * dt))
    cases hf : t.sigma.find? t.id with
    | some v =>
      refine ⟨N, fun mem => ?_⟩
      simp only [binaryAssign, ht, if_true, put, hf, UReal.binaryAssign]
      exact hN mem
    | none =>
      refine ⟨N + 1, fun mem => ?_⟩
      cases mem with
      | zero => simp [binaryAssign, ht, put, hf]
      | succ n =>
        simp only [binaryAssign, ht, if_true, put, hf, UReal.binaryAssign]
        exact ⟨fun h => (hN n).1 (by omega), fun h => (hN n).2 (by omega)⟩
  · obtain ⟨N, hN⟩ := after (if CCmp.eqb dt 1 then t.sigma else t.sigma.mapVal (fun v => v * dt))
    refine ⟨N, fun mem => ?_⟩
    simp only [binaryAssign, ht, if_false, UReal.binaryAssign]
    exact hN mem

end

theorem sorted_append {K V : Type*} [LinearOrder K] {l1 l2 : SMap K V} {p : K × V} (h : SMap.Sorted (l1 ++ p :: l2)) :
    SMap.Sorted l1 ∧ (∀ k ∈ SMap.keys l1, k < p.1) ∧ ∀ k ∈ SMap.keys l2, p.1 < k := by
  simp only [SMap.Sorted, SMap.keys, List.map_append, List.map_cons, List.pairwise_append, List.pairwise_cons] at h
  exact ⟨h.1, fun k hk => h.2.2 k hk _ List.mem_cons_self, h.2.1.1⟩

theorem get_prefix {K V : Type*} [LinearOrder K] [Zero V] {l1 l2 : SMap K V} {p : K × V} (h : SMap.Sorted (l1 ++ p :: l2)) (k : K) :
    SMap.get l1 k = if k < p.1 then SMap.get (l1 ++ p :: l2) k else 0 := by
  obtain ⟨-, h1, h2⟩ := sorted_append h
  clear h
  induction l1 with
  | nil =>
    split_ifs with hk
    · rw [SMap.get_of_not_mem (by simp), SMap.get_of_not_mem]
      simp only [List.nil_append, SMap.keys_cons, List.mem_cons, not_or]
      exact ⟨hk.ne, fun h => absurd (h2 k h) (not_lt.2 hk.le)⟩
    · rfl
  | cons q t ih =>
    have := ih fun k hk => h1 k (by simp [hk])
    rw [SMap.get_cons, this]
    simp only [List.cons_append, SMap.get_cons]
    by_cases hq : q.1 = k
    · rw [if_pos hq, if_pos (hq ▸ h1 q.1 (by simp)), if_pos hq]
    · simp [hq]

section
variable [Zero R]
/-- the part of `x` which was added -/
theorem part_spec {x : UReal R} (hx : x.WF) {l1 l2 : List (VId × R)} {p : VId × R} (h : terms x = l1 ++ p :: l2) :
    (⟨-1, 0, 0, l1⟩ : UReal R).WF ∧ (⟨-1, 0, 0, l1⟩ : UReal R).deps = x.deps.filter (· < p.1) ∧
    (∀ i, (⟨-1, 0, 0, l1⟩ : UReal R).coef i = if i < p.1 then x.coef i else 0) ∧ p.1 ∈ x.deps := by
  have hs : SMap.Sorted (terms x) := by
    unfold terms
    split_ifs
    · simp [SMap.Sorted]
    · exact hx.sorted
    · exact SMap.sorted_nil
  have hd : ∀ i, i ∈ x.deps ↔ i ∈ SMap.keys (terms x) := by
    intro i
    unfold UReal.deps terms
    split_ifs <;> simp
  have hc : ∀ i, x.coef i = SMap.get (terms x) i := by
    intro i
    unfold UReal.coef terms
    split_ifs with h1 h2
    · rw [SMap.get_cons, if_pos h2.symm]
    · rw [SMap.get_cons, if_neg (Ne.symm h2)]; rfl
    · rfl
    · rfl
  rw [h] at hs
  obtain ⟨s1, s2, s3⟩ := sorted_append hs
  have hk : ∀ k ∈ SMap.keys l1, k ∈ x.deps := fun k hk => by rw [hd, h]; simp only [SMap.keys, List.map_append, List.mem_append]; exact Or.inl hk
  refine ⟨⟨by simp, by simp, s1, fun k h => UReal.deps_pos hx k (hk k h)⟩, ?_, fun i => ?_, ?_⟩
  · ext i
    simp only [UReal.deps, Finset.mem_filter]
    constructor
    · intro hi
      simp at hi
      exact ⟨hk i hi, s2 i hi⟩
    · rintro ⟨hi, hlt⟩
      have := (hd i).1 hi
      rw [h] at this
      simp only [SMap.keys, List.map_append, List.map_cons, List.mem_append, List.mem_cons] at this
      rcases this with h1 | h1 | h1
      · simp only [show ¬ ((0:ℤ) < -1) by omega, show (-1:ℤ) < 0 by omega, if_true, if_false, List.mem_toFinset]; exact h1
      · omega
      · exact absurd (s3 i h1) (not_lt.2 hlt.le)
  · rw [hc, h, ← get_prefix hs]
    simp [UReal.coef]
  · rw [hd, h]
    simp [SMap.keys]
end

section
variable [Zero R] [One R] [Neg R] [Add R] [Mul R] [CCmp R] [CSqrt R]

/-- One call, failing or not, keeps the invariants. -/
theorem step_dsim (h00 : CCmp.ltb (0 : R) 0 = false) {w : World R} {n : ℕ} (h : DSim w ⟨n, fun r => (w.regs r).deps⟩) (st : Step R) (mem : ℕ) (keep : VId → Bool)
    (hc : n + countNew [st] < 2147483647) :
    ∃ w' o, step mem keep w st = some (w', o) ∧ DSim w' ⟨n + countNew [st], fun r => (w'.regs r).deps⟩ := by
  obtain ⟨w1, o1, e1, h1⟩ := h.step h00 st hc
  have good : DSim w1 ⟨n + countNew [st], fun r => (w1.regs r).deps⟩ := by
    have hcount := dcount_step (⟨n, fun r => (w.regs r).deps⟩ : DWorld) st
    refine ⟨?_, h1.wf, fun r => rfl, fun r i hi => ?_⟩
    · rw [h1.count, hcount]
    · have := h1.below r i (h1.deps r ▸ hi)
      rw [hcount] at this
      exact this
  have bad : countNew [st] = 0 → ∀ r x, x.WF → (∀ i ∈ x.deps, i ≤ (n : ℤ)) → DSim (w.set r x) ⟨n + countNew [st], fun q => ((w.set r x).regs q).deps⟩ := by
    intro h0 r x hx hd
    have := h.set r hx rfl hd
    rw [h0]
    refine ⟨this.count, this.wf, fun q => rfl, fun q i hi => ?_⟩
    have := this.below q i (this.deps q ▸ hi)
    exact this
  have stay : countNew [st] = 0 → DSim w ⟨n + countNew [st], fun q => (w.regs q).deps⟩ := fun h0 => by rw [h0]; exact h
  have build : countNew [st] = 0 → ∀ r x, w1 = w.set r x → ∃ w' o, fresh mem w r x = (w', o) ∧ DSim w' ⟨n + countNew [st], fun r => (w'.regs r).deps⟩ := by
    intro h0 r x e
    by_cases hm : x.sigma.length ≤ mem
    · exact ⟨w.set r x, some .done, by rw [fresh, if_pos hm], e ▸ good⟩
    · exact ⟨w, none, by rw [fresh, if_neg hm], stay h0⟩
  cases st with
  | new r n s => exact ⟨w1, some o1, by simp [step, e1], good⟩
  | const r n => exact ⟨w1, some o1, by simp [step, e1], good⟩
  | readS r => exact ⟨w1, some o1, by simp [step, e1], good⟩
  | readVar r => exact ⟨w1, some o1, by simp [step, e1], good⟩
  | copy r a =>
    simp only [World.step, Option.some.injEq, Prod.mk.injEq] at e1
    by_cases hm : (w.regs a).sigma.length ≤ mem ∨ a = r
    · exact ⟨w.set r (w.regs a), some .done, by rw [step, copy, if_pos hm], e1.1 ▸ good⟩
    · refine ⟨_, none, by rw [step, copy, if_neg hm], bad rfl r _ ?_ ?_⟩
      · have := h.wf a
        refine ⟨this.zero_sdev, fun h0 => ?_, ?_, fun k hk => this.pos k ?_⟩
        · simp only
          rw [this.nil h0]
          rfl
        · exact List.Pairwise.sublist (List.Sublist.map _ List.filter_sublist) this.sorted
        · exact (List.Sublist.map _ List.filter_sublist).subset hk
      · intro i hi
        refine h.below a i ?_
        revert hi
        simp only [UReal.deps]
        split_ifs
        · exact _root_.id
        · simp only [List.mem_toFinset]
          exact fun hi => (List.Sublist.map _ List.filter_sublist).subset hi
        · exact _root_.id
  | unary r a mu dx =>
    simp only [World.step, Option.some.injEq, Prod.mk.injEq] at e1
    obtain ⟨w', o, e, hd⟩ := build rfl r _ e1.1.symm
    exact ⟨w', o, by rw [step, e], hd⟩
  | binary r a b mu dx dy =>
    simp only [World.step, Option.map_eq_some_iff, Prod.mk.injEq] at e1
    obtain ⟨z, ez, e1, -⟩ := e1
    obtain ⟨w', o, e, hd⟩ := build rfl r _ e1.symm
    exact ⟨w', o, by rw [step, ez, Option.map_some, e], hd⟩
  | nary r xs mu =>
    simp only [World.step, Option.some.injEq, Prod.mk.injEq] at e1
    obtain ⟨w', o, e, hd⟩ := build rfl r _ e1.1.symm
    exact ⟨w', o, by rw [step, e], hd⟩
  | changeNom r a m =>
    simp only [World.step, Option.some.injEq, Prod.mk.injEq] at e1
    obtain ⟨w', o, e, hd⟩ := build rfl r _ e1.1.symm
    exact ⟨w', o, by rw [step, e], hd⟩
  | assign r a mu dt dx =>
    by_cases har : a = r
    · simp only [World.step, har, if_true, Option.some.injEq, Prod.mk.injEq] at e1
      exact ⟨_, some .done, by rw [step, if_pos har], e1.1 ▸ good⟩
    · simp only [World.step, har, if_false, Option.some.injEq, Prod.mk.injEq] at e1
      rcases hb : binaryAssign mem (w.regs r) (w.regs a) mu dt dx with ⟨z, b⟩
      cases b with
      | true =>
        refine ⟨w.set r z, some .done, by rw [step, if_neg har, hb], ?_⟩
        rw [binaryAssign_true hb, e1.1]
        exact good
      | false =>
        refine ⟨w.set r z, none, by rw [step, if_neg har, hb], ?_⟩
        rcases binaryAssign_false hb with rfl | ⟨l1, p, l2, e, hz, -⟩
        · exact bad rfl r _ (h.wf r) (h.below r)
        · obtain ⟨hw, hd, -, -⟩ := part_spec (h.wf a) e
          have g1 := UReal.wf_binaryAssign (h.wf r) hw mu dt dx
          have g2 := UReal.deps_binaryAssign (x := ⟨-1, 0, 0, l1⟩) (h.wf r) mu dt dx
          subst hz
          refine bad rfl r _ ⟨by simp [UReal.binaryAssign, invalidId], by simp [UReal.binaryAssign, invalidId], g1.sorted, g1.pos⟩ fun i hi => ?_
          have hi : i ∈ ((w.regs r).binaryAssign ⟨-1, 0, 0, l1⟩ mu dt dx).deps := hi
          rw [g2, hd, Finset.mem_union, Finset.mem_filter] at hi
          rcases hi with hi | hi
          exacts [h.below r i hi, h.below a i hi.1]
end
end Memory
end Unc
