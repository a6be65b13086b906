import Verif.Spec.Mixed
import Verif.Lemmas.Deps
import Verif.Props.Programs
import Verif.Props.Checked

/-!
# Programs with both classes: C56 and C59

`isindep()` and `indepid()` of `UReal2` report the constructions a value was computed from; a `UReal` and a `UReal2` never have a
common identifier.
-/

namespace Unc.Props
open Unc Unc.Spec SMap HessGrad

section
variable {R : Type*} [Zero R] [One R] [Neg R] [Add R] [Sub R] [Mul R] [Div R] [NatCast R] [CCmp R] [CSqrt R]

/-- Simulation relation. -/
structure MSim (w : MWorld R) (a : DMix) (S : Finset ℤ) : Prop where
  one : DSim (⟨w.lastId, w.first⟩ : World R) ⟨a.count, a.first⟩
  valid : ∀ r, (w.second r).hg.Valid
  vars : ∀ r, (w.second r).hg.vars = a.second r
  pos : ∀ r, ∀ i ∈ a.second r, 1 ≤ i ∧ i ≤ a.count
  le : ∀ i ∈ S, i ≤ a.count
  inS : ∀ r, a.first r ⊆ S
  notS : ∀ r, ∀ i ∈ a.second r, i ∉ S

omit [Zero R] [One R] [Neg R] [Add R] [Sub R] [Mul R] [Div R] [NatCast R] [CCmp R] [CSqrt R] in
theorem mem_vars_keys {hg : HessGrad R} {i : VId} : i ∈ hg.vars ↔ i ∈ keys hg.diagmap := by
  simp [HessGrad.vars]

omit [One R] [Neg R] [Add R] [Sub R] [Mul R] [Div R] [NatCast R] [CCmp R] [CSqrt R] in
theorem MSim.init : MSim (MWorld.init : MWorld R) DMix.init ∅ where
  one := DSim.init
  valid _ := ⟨by simp [MWorld.init, UReal2.default', HessGrad.empty], by simp [MWorld.init, UReal2.default', HessGrad.empty],
    by simp [MWorld.init, UReal2.default', HessGrad.empty]⟩
  vars _ := by simp [MWorld.init, UReal2.default', HessGrad.empty, HessGrad.vars, DMix.init]
  pos := by simp [DMix.init]
  le := by simp
  inS := by simp [DMix.init]
  notS := by simp

omit [One R] [Neg R] [Add R] [Sub R] [Mul R] [Div R] [NatCast R] [CCmp R] [CSqrt R] in
theorem MSim.set2 {w : MWorld R} {a : DMix} {S : Finset ℤ} (h : MSim w a S) (r : Reg) {z : UReal2 R} {l : Finset ℤ} (hv : z.hg.Valid)
    (hl : z.hg.vars = l) (hp : ∀ i ∈ l, 1 ≤ i ∧ i ≤ a.count) (hS : ∀ i ∈ l, i ∉ S) :
    MSim ⟨w.lastId, w.first, (World2.set ⟨w.lastId, w.second⟩ r z).regs⟩ (a.set2 r l) S where
  one := h.one
  valid q := by simp only [World2.set]; split_ifs; exacts [hv, h.valid q]
  vars q := by simp only [World2.set, DMix.set2]; split_ifs; exacts [hl, h.vars q]
  pos q := by simp only [DMix.set2]; split_ifs; exacts [hp, h.pos q]
  le := h.le
  inS := h.inS
  notS q := by simp only [DMix.set2]; split_ifs; exacts [hS, h.notS q]

omit [One R] [Neg R] [Add R] [Sub R] [Mul R] [Div R] [NatCast R] [CCmp R] [CSqrt R] in
/-- The counter goes up by one. -/
theorem MSim.tick {w : MWorld R} {a : DMix} {S : Finset ℤ} (h : MSim w a S) (hc : a.count + 1 < 2147483647) :
    nextId w.lastId = (a.count + 1 : ℕ) ∧ MSim ⟨nextId w.lastId, w.first, w.second⟩ { a with count := a.count + 1 } S := by
  have hcount : w.lastId = a.count := h.one.count
  have hid : nextId w.lastId = (a.count + 1 : ℕ) := by rw [hcount]; exact nextId_nat (by omega)
  refine ⟨hid, ⟨⟨hid, h.one.wf, h.one.deps, fun r i hi => (h.one.below r i hi).trans (by push_cast; omega)⟩, h.valid, h.vars,
    fun r i hi => ⟨(h.pos r i hi).1, (h.pos r i hi).2.trans (by push_cast; omega)⟩, fun i hi => (h.le i hi).trans (by push_cast; omega),
    h.inS, h.notS⟩⟩

omit [Sub R] in
/-- A call on `UReal` variables. -/
theorem MSim.stepOne (h00 : CCmp.ltb (0 : R) 0 = false) {solve : (ℕ → ℕ → R) → Option (List R)} {w : MWorld R} {a : DMix} {S : Finset ℤ}
    (h : MSim w a S) (st : Step R) (hc : a.count + countNew [st] < 2147483647) :
    ∃ w' o S', w.step solve (.one st) = some (w', o) ∧ MSim w' (a.step o (.one st)) S' ∧ (a.step o (.one st)).count ≤ a.count + countNew [st] := by
  obtain ⟨v, o, e, h1⟩ := h.one.step h00 st hc
  have hS : ∃ S', S ⊆ S' ∧ (∀ r, (DWorld.step ⟨a.count, a.first⟩ st).regs r ⊆ S') ∧ ∀ i ∈ S', i ∈ S ∨ i = (a.count + 1 : ℕ) ∧
      (DWorld.step ⟨a.count, a.first⟩ st).count = a.count + 1 := by
    have key : ∀ (r : Reg) (l : Finset ℤ), l ⊆ S → ∃ S', S ⊆ S' ∧ (∀ q, (DWorld.set ⟨a.count, a.first⟩ r l).regs q ⊆ S') ∧
        ∀ i ∈ S', i ∈ S ∨ i = (a.count + 1 : ℕ) ∧ (DWorld.set ⟨a.count, a.first⟩ r l).count = a.count + 1 := by
      intro r l hl
      refine ⟨S, subset_rfl, fun q => ?_, fun i hi => Or.inl hi⟩
      simp only [DWorld.set]; split_ifs; exacts [hl, h.inS q]
    cases st with
    | new r n s =>
      refine ⟨insert ((a.count + 1 : ℕ) : ℤ) S, Finset.subset_insert _ _, fun q => ?_, fun i hi => ?_⟩
      · simp only [DWorld.step]
        split_ifs
        · exact (h.inS q).trans (Finset.subset_insert _ _)
        · simp only [DWorld.set]
          split_ifs
          · simp
          · exact (h.inS q).trans (Finset.subset_insert _ _)
      · have : (DWorld.step ⟨a.count, a.first⟩ (Step.new r n s)).count = a.count + 1 := by
          rw [dcount_step]; rfl
        rcases Finset.mem_insert.1 hi with hi | hi
        · exact Or.inr ⟨hi, this⟩
        · exact Or.inl hi
    | const r n => exact key r ∅ (Finset.empty_subset _)
    | copy r b => exact key r _ (h.inS b)
    | unary r b mu dx => exact key r _ (h.inS b)
    | binary r b c mu dx dy => exact key r _ (Finset.union_subset (h.inS b) (h.inS c))
    | nary r xs mu =>
      refine key r _ fun i hi => ?_
      obtain ⟨p, -, hp⟩ := (mem_foldr_union _ _ _).1 hi
      exact h.inS _ hp
    | assign r b mu dt dx => exact key r _ (Finset.union_subset (h.inS r) (h.inS b))
    | changeNom r b n => exact key r _ (h.inS b)
    | readS r => exact ⟨S, subset_rfl, h.inS, fun i hi => Or.inl hi⟩
    | readVar r => exact ⟨S, subset_rfl, h.inS, fun i hi => Or.inl hi⟩
  obtain ⟨S', hSS, hreg, hnew⟩ := hS
  have hcount : (DWorld.step ⟨a.count, a.first⟩ st).count = a.count + countNew [st] := by rw [dcount_step]
  refine ⟨⟨v.lastId, v.regs, w.second⟩, o, S', by simp [MWorld.step, e], ⟨h1, h.valid, h.vars, fun r i hi => ?_, fun i hi => ?_, hreg,
    fun r i hi hi' => ?_⟩, hcount.le⟩
  · refine ⟨(h.pos r i hi).1, (h.pos r i hi).2.trans ?_⟩
    simp only [DMix.step, hcount]; push_cast; omega
  · simp only [DMix.step]
    rcases hnew i hi with h2 | ⟨h2, h3⟩
    · have := h.le i h2
      rw [hcount]; push_cast; omega
    · rw [h3, h2]
  · rcases hnew i hi' with h2 | ⟨h2, -⟩
    · exact h.notS r i hi h2
    · have := (h.pos r i hi).2
      rw [h2] at this; push_cast at this; omega

/-- A call on `UReal2` variables. -/
theorem MSim.stepTwo {solve : (ℕ → ℕ → R) → Option (List R)} (hs : LowerOnly solve) {w : MWorld R} {a : DMix} {S : Finset ℤ} (h : MSim w a S)
    (st : Step2 R) (k : Junk R) (ht : ThresholdOkM (.two st k)) (hc : a.count + countNew2 [st] < 2147483647) :
    ∃ w' o, w.step solve (.two st k) = some (w', o) ∧ MSim w' (a.step o (.two st k)) S ∧
      (a.step o (.two st k)).count ≤ a.count + countNew2 [st] := by
  have ok : ∀ r, Ok2 (w.second r) := fun r => ⟨h.valid r, fun i hi => by
    have := (h.pos r i (h.vars r ▸ mem_vars_keys.2 hi)).2
    have h' : (a.count : ℤ) < 2147483647 := by exact_mod_cast (lt_of_le_of_lt (Nat.le_add_right _ _) hc)
    exact lt_of_le_of_lt this h'⟩
  have fin : ∀ (r : Reg) (mu : R) (res : Except Exn (UReal2 R)), a.count + 1 < 2147483647 →
      (∀ x, res = .ok x → ∃ d, x = ⟨⟨[(nextId w.lastId, d)], []⟩, mu⟩) →
      MSim ⟨(World2.finish ⟨w.lastId, w.second⟩ r res).1.lastId, w.first, (World2.finish ⟨w.lastId, w.second⟩ r res).1.regs⟩
        (a.new2 r (World2.finish ⟨w.lastId, w.second⟩ r res).2) S ∧
      (a.new2 r (World2.finish ⟨w.lastId, w.second⟩ r res).2).count ≤ a.count + 1 := by
    intro r mu res hn' hres
    cases res with
    | error e => exact ⟨h, Nat.le_succ _⟩
    | ok x =>
      obtain ⟨d, rfl⟩ := hres x rfl
      obtain ⟨hid, h'⟩ := h.tick hn'
      refine ⟨h'.set2 r ⟨by simp [Sorted], by simp, by simp⟩ ?_ ?_ ?_, le_rfl⟩
      · simp [HessGrad.vars, hid]
      · intro i hi
        simp only [Finset.mem_singleton] at hi
        rw [hi]; push_cast; omega
      · intro i hi hi'
        simp only [Finset.mem_singleton] at hi
        have := h.le i hi'
        rw [hi] at this; push_cast at this; omega
  cases st with
  | newCentral r mu m t =>
    obtain ⟨res, e, hres⟩ := mkCentral_spec hs (nextId w.lastId) mu m ht
    obtain ⟨h1, h2⟩ := fin r mu res (by simpa [countNew2] using hc) hres
    exact ⟨_, _, by simp only [MWorld.step, World2.step, e k, Option.map_some], h1, by simpa [countNew2, DMix.step] using h2⟩
  | newStd r mu s m t =>
    obtain ⟨res, e, hres⟩ := mkStd_spec hs (nextId w.lastId) mu s m ht
    obtain ⟨h1, h2⟩ := fin r mu res (by simpa [countNew2] using hc) hres
    exact ⟨_, _, by simp only [MWorld.step, World2.step, e k, Option.map_some], h1, by simpa [countNew2, DMix.step] using h2⟩
  | const r mu =>
    exact ⟨_, _, rfl, h.set2 r ⟨by simp [UReal2.const, empty], by simp [UReal2.const, empty], by simp [UReal2.const, empty]⟩
      (by simp [UReal2.const, empty, HessGrad.vars]) (by simp) (by simp), by simp [DMix.step, DMix.set2]⟩
  | copy r b => exact ⟨_, _, rfl, h.set2 r (h.valid b) (h.vars b) (h.pos b) (h.notS b), by simp [DMix.step, DMix.set2]⟩
  | unary r b f fx fxx =>
    obtain ⟨z, e, -, v, kk, -⟩ := unary_lawfree (h.valid b) f fx fxx
    refine ⟨_, _, by simp [MWorld.step, World2.step, e k.u]; exact ⟨rfl, rfl⟩, h.set2 r v ?_ (h.pos b) (h.notS b),
      by simp [DMix.step, DMix.set2]⟩
    rw [← h.vars b]
    ext i
    rw [mem_vars_keys, mem_vars_keys, kk]
  | binary r b c f fx fy fxx fyy fxy =>
    obtain ⟨z, e, -, v, kk, -⟩ := binary_lawfree (ok b) (ok c) f fx fy fxx fyy fxy
    refine ⟨_, _, by simp [MWorld.step, World2.step, e k.u]; exact ⟨rfl, rfl⟩, h.set2 r v ?_ ?_ ?_, by simp [DMix.step, DMix.set2]⟩
    · rw [← h.vars b, ← h.vars c]
      ext i
      rw [Finset.mem_union, mem_vars_keys, mem_vars_keys, mem_vars_keys, kk]
    · intro i hi
      rcases Finset.mem_union.1 hi with hi | hi
      exacts [h.pos b i hi, h.pos c i hi]
    · intro i hi
      rcases Finset.mem_union.1 hi with hi | hi
      exacts [h.notS b i hi, h.notS c i hi]
  | otherNew =>
    obtain ⟨-, h'⟩ := h.tick (by simpa [countNew2] using hc)
    exact ⟨_, _, rfl, h', by simp [DMix.step, countNew2]⟩

theorem MSim.run (h00 : CCmp.ltb (0 : R) 0 = false) {solve : (ℕ → ℕ → R) → Option (List R)} (hs : LowerOnly solve) (p : List (MStep R))
    {w : MWorld R} {a : DMix} {S : Finset ℤ} (h : MSim w a S) (ht : ∀ st ∈ p, ThresholdOkM st) (hc : a.count + countNewM p < 2147483647) :
    ∃ w' os S', w.run solve p = some (w', os) ∧ os.length = p.length ∧ MSim w' (a.run (p.zip os)) S' := by
  induction p generalizing w a S with
  | nil => exact ⟨w, [], S, rfl, rfl, h⟩
  | cons st t ih =>
    have hstep : ∃ w' o S', w.step solve st = some (w', o) ∧ MSim w' (a.step o st) S' ∧
        (a.step o st).count + countNewM t < 2147483647 := by
      cases st with
      | one st =>
        rw [countNewM] at hc
        obtain ⟨w', o, S', e, h1, h2⟩ := h.stepOne h00 (solve := solve) st (by omega)
        exact ⟨w', o, S', e, h1, by omega⟩
      | two st k =>
        rw [countNewM] at hc
        obtain ⟨w', o, e, h1, h2⟩ := h.stepTwo hs st k (ht _ (by simp)) (by omega)
        exact ⟨w', o, S, e, h1, by omega⟩
    obtain ⟨w', o, S', e, h1, h2⟩ := hstep
    obtain ⟨w2, os, S2, e2, hl, h3⟩ := ih h1 (fun st hst => ht st (List.mem_cons_of_mem _ hst)) h2
    exact ⟨w2, o :: os, S2, by simp [MWorld.run, e, e2], by simp [hl], h3⟩

/-! ## C56 -/

/-- **C56** For any `UReal2` which satisfies the class invariant: the answers describe the set of variables. -/
theorem C56_observers {x : UReal2 R} (hv : x.hg.Valid) (hp : ∀ i ∈ x.hg.vars, 1 ≤ i) :
    x.isindep = decide (x.hg.vars.card ≤ 1) ∧ (x.indepid = 0 ↔ x.hg.vars = ∅) ∧ (0 < x.indepid ↔ x.hg.vars = {x.indepid}) ∧
      (x.indepid = -1 ↔ 2 ≤ x.hg.vars.card) := by
  have hcard : x.hg.vars.card = x.hg.diagmap.length := by
    unfold HessGrad.vars
    rw [List.toFinset_card_of_nodup (Sorted.nodup hv.dsorted)]; simp [SMap.keys]
  have hpos : ∀ i ∈ keys x.hg.diagmap, 1 ≤ i := fun i hi => hp i (mem_vars_keys.2 hi)
  refine ⟨by rw [UReal2.isindep, HessGrad.size, hcard], ?_⟩
  rcases hd : x.hg.diagmap with _ | ⟨⟨i, d⟩, _ | ⟨q, t⟩⟩
  · have hid : x.indepid = 0 := by simp [UReal2.indepid, UReal2.isindep, HessGrad.size, hd]
    rw [hid, hcard, hd]
    simp [HessGrad.vars, hd]
  · have hid : x.indepid = i := by simp [UReal2.indepid, UReal2.isindep, HessGrad.size, hd]
    have : 1 ≤ i := hpos i (by simp [hd])
    rw [hid, hcard, hd]
    simp [HessGrad.vars, hd]
    omega
  · have hid : x.indepid = -1 := by simp [UReal2.indepid, UReal2.isindep, HessGrad.size, hd, invalidId]
    rw [hid, hcard, hd]
    refine ⟨by simp [HessGrad.vars, hd], ?_, by simp⟩
    constructor
    · intro h; norm_num at h
    · intro h
      have : x.hg.vars.card = 1 := by rw [h]; simp
      rw [hcard, hd] at this; simp at this

example : exMy.isindep = decide (exMy.hg.vars.card ≤ 1) := (C56_observers valid_exMy (by
  intro i hi
  simp [exMy, HessGrad.vars, SMap.keys] at hi
  omega)).1

/-- **C56** In any program with both classes and fewer than 2^31 - 1 constructions, in any arithmetic: no undefined behaviour; `isindep()` is true iff at
most one construction went into the value (so any computation which involves only one variable gives an independent variable), and `indepid()`
tells which. -/
theorem C56_program (h00 : CCmp.ltb (0 : R) 0 = false) {solve : (ℕ → ℕ → R) → Option (List R)} (hs : LowerOnly solve) (p : List (MStep R))
    (ht : ∀ st ∈ p, ThresholdOkM st) (hc : countNewM p < 2147483647) :
    ∃ w os, (MWorld.init : MWorld R).run solve p = some (w, os) ∧ os.length = p.length ∧ ∀ r,
      let l := (DMix.init.run (p.zip os)).second r
      (w.second r).isindep = decide (l.card ≤ 1) ∧ ((w.second r).indepid = 0 ↔ l = ∅) ∧ (0 < (w.second r).indepid ↔ l = {(w.second r).indepid}) ∧
        ((w.second r).indepid = -1 ↔ 2 ≤ l.card) := by
  obtain ⟨w, os, S, e, hl, h⟩ := MSim.init.run h00 hs p ht (by simpa [DMix.init] using hc)
  refine ⟨w, os, e, hl, fun r => ?_⟩
  have := C56_observers (h.valid r) fun i hi => (h.pos r i (h.vars r ▸ hi)).1
  rw [h.vars r] at this
  exact this

/-! ## C59 -/

/-- **C59** In any program with both classes and fewer than 2^31 - 1 constructions, in any arithmetic: a `UReal` and a `UReal2` have no variable in
common, so if both are independent (with uncertainty) their identifiers are different; and the variables each value depends on are the
constructions it was computed from. -/
theorem C59_program (h00 : CCmp.ltb (0 : R) 0 = false) {solve : (ℕ → ℕ → R) → Option (List R)} (hs : LowerOnly solve) (p : List (MStep R))
    (ht : ∀ st ∈ p, ThresholdOkM st) (hc : countNewM p < 2147483647) :
    ∃ w os, (MWorld.init : MWorld R).run solve p = some (w, os) ∧
      (∀ r, (w.first r).deps = (DMix.init.run (p.zip os)).first r ∧ (w.second r).hg.vars = (DMix.init.run (p.zip os)).second r) ∧
      ∀ r q, Disjoint (w.first r).deps (w.second q).hg.vars ∧
        ∀ k, (w.first r).indepid = some k → 0 < k → (w.second q).indepid ≠ k := by
  obtain ⟨w, os, S, e, hl, h⟩ := MSim.init.run h00 hs p ht (by simpa [DMix.init] using hc)
  have hdis : ∀ r q, Disjoint (w.first r).deps (w.second q).hg.vars := by
    intro r q
    have h1 : (w.first r).deps = _ := h.one.deps r
    rw [h1, h.vars q]
    exact Finset.disjoint_left.2 fun i hi hi' => h.notS q i hi' (h.inS r hi)
  refine ⟨w, os, e, fun r => ⟨h.one.deps r, h.vars r⟩, fun r q => ⟨hdis r q, fun k hk hpos hk' => ?_⟩⟩
  have d1 := deps_of_indepid (h.one.wf r) hpos hk
  have d2 := (C56_observers (h.valid q) fun i hi => (h.pos q i (h.vars q ▸ hi)).1).2.2.1.1 (hk'.symm ▸ hpos)
  rw [hk'] at d2
  have := hdis r q
  have hd1 : (w.first r).deps = {k} := d1
  rw [hd1, d2] at this
  simp at this

end

/-! Hypotheses can be met. -/

/-- a program with both classes: two variables of each, a sum of each, the square of a `UReal2` -/
def exMixed : List (MStep ℝ) :=
  [.one (.new ⟨0, 0⟩ 2 1), .two (.newCentral ⟨0, 0⟩ 3 (fun k => k) (-1)) ⟨exE, fun _ _ => 7⟩, .one (.new ⟨0, 1⟩ 5 1),
   .two (.newCentral ⟨0, 1⟩ 4 (fun k => k) (-1)) ⟨exE, fun _ _ => 8⟩, .one (.binary ⟨0, 2⟩ ⟨0, 0⟩ ⟨0, 1⟩ 7 1 1),
   .two (.binary ⟨0, 2⟩ ⟨0, 0⟩ ⟨0, 1⟩ 7 1 1 0 0 0) ⟨exN, fun _ _ => 9⟩, .two (.unary ⟨0, 3⟩ ⟨0, 1⟩ 16 8 2) ⟨exN, fun _ _ => 0⟩]

theorem exMixed_ok : ∀ st ∈ exMixed, ThresholdOkM st := by
  intro st hst
  simp only [exMixed, List.mem_cons, List.not_mem_nil, or_false] at hst
  rcases hst with rfl | rfl | rfl | rfl | rfl | rfl | rfl <;> simp [ThresholdOkM, ThresholdOk]

theorem exSolve_lower : LowerOnly exSolve := fun M M' h => by simp only [exSolve]; rw [h 4 2 (by norm_num) (by norm_num)]

/-- the origins in the example -/
theorem exMixed_origins {w : MWorld ℝ} {os : List (Out ℝ)} (e : (MWorld.init : MWorld ℝ).run exSolve exMixed = some (w, os)) :
    let a := DMix.init.run (exMixed.zip os)
    a.first ⟨0, 2⟩ = {1, 3} ∧ a.second ⟨0, 2⟩ = {2, 4} ∧ a.second ⟨0, 3⟩ = {4} := by
  have hc : ∀ (w : World2 ℝ) (k : Junk ℝ) r n m, ∃ w', w.step exSolve k (.newCentral r n m (-1)) = some (w', .done) := by
    intro w k r n m
    have hl : CCmp.ltb (-1 : ℝ) 0 = true := by rw [ltb_iff]; norm_num
    simp [hl, World2.step, UReal2.mkCentral, Check.ctorCheck, World2.finish, Except.map]
  simp only [exMixed, MWorld.run, Option.bind_eq_some_iff, Option.map_eq_some_iff, Prod.exists, Prod.mk.injEq] at e
  obtain ⟨w1, o1, -, w2, os1, ⟨w3, o3, e3, w4, os2, ⟨w5, o5, -, w6, os3, ⟨w7, o7, e7, w8, os4, ⟨w9, o9, -, w10, os5, ⟨w11, o11, -, w12, os6,
    ⟨w13, o13, -, w14, os7, ⟨rfl, rfl⟩, -, rfl⟩, -, rfl⟩, -, rfl⟩, -, rfl⟩, -, rfl⟩, -, rfl⟩, -, rfl⟩ := e
  have h3 : o3 = .done := by
    obtain ⟨w', hw⟩ := hc ⟨w1.lastId, w1.second⟩ ⟨exE, fun _ _ => 7⟩ ⟨0, 0⟩ 3 (fun k => k)
    simp only [MWorld.step, hw, Option.map_some, Option.some.injEq, Prod.mk.injEq] at e3
    exact e3.2.symm
  have h7 : o7 = .done := by
    obtain ⟨w', hw⟩ := hc ⟨w5.lastId, w5.second⟩ ⟨exE, fun _ _ => 8⟩ ⟨0, 1⟩ 4 (fun k => k)
    simp only [MWorld.step, hw, Option.map_some, Option.some.injEq, Prod.mk.injEq] at e7
    exact e7.2.symm
  subst h3 h7
  have hl : CCmp.ltb (1 : ℝ) 0 = false := by rw [Bool.eq_false_iff, Ne, ltb_iff]; norm_num
  simp [exMixed, DMix.run, DMix.step, DMix.init, DMix.new2, DMix.set2, DWorld.step, DWorld.set, hl, Finset.union_comm]

example : ∃ w os, (MWorld.init : MWorld ℝ).run exSolve exMixed = some (w, os) ∧ (w.second ⟨0, 2⟩).isindep = false ∧
    (w.second ⟨0, 2⟩).indepid = -1 ∧ (w.second ⟨0, 3⟩).isindep = true := by
  obtain ⟨w, os, e, -, h⟩ := C56_program (by rw [Bool.eq_false_iff, Ne, ltb_iff]; norm_num) exSolve_lower exMixed exMixed_ok (by simp [exMixed, countNewM, countNew, countNew2])
  obtain ⟨-, h2, h3⟩ := exMixed_origins e
  have h2' := h ⟨0, 2⟩
  have h3' := h ⟨0, 3⟩
  simp only [h2] at h2'
  simp only [h3] at h3'
  exact ⟨w, os, e, by simpa using h2'.1, by rw [h2'.2.2.2]; simp, by simpa using h3'.1⟩

example : ∃ w os, (MWorld.init : MWorld ℝ).run exSolve exMixed = some (w, os) ∧ (w.first ⟨0, 2⟩).deps = {1, 3} ∧
    (w.second ⟨0, 2⟩).hg.vars = {2, 4} := by
  obtain ⟨w, os, e, h, -⟩ := C59_program (by rw [Bool.eq_false_iff, Ne, ltb_iff]; norm_num) exSolve_lower exMixed exMixed_ok (by simp [exMixed, countNewM, countNew, countNew2])
  obtain ⟨h1, h2, -⟩ := exMixed_origins e
  exact ⟨w, os, e, by rw [(h _).1, h1], by rw [(h _).2, h2]⟩

end Unc.Props
