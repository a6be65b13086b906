import Verif.Lemmas.Joined3
import Verif.Spec.Joined2

/-!
# Which thread created a `UReal2` variable, and the calls after the threads have finished
-/

namespace Unc
open Unc.Spec Unc.Props SMap HessGrad

theorem buildCentral_elem (n : ℝ) (m : ℕ → ℝ) : ∃ d, ∀ u id, UReal2.buildCentral u id n m = ⟨⟨[(id, d)], []⟩, n⟩ := by
  refine ⟨((UReal2.buildCentral exN 0 n m).hg.diagmap.head (by simp [UReal2.buildCentral, modDiag, empty, upsert])).2, fun u id => ?_⟩
  simp [UReal2.buildCentral, modDiag, empty, upsert, newDiag]

theorem buildStd_elem (n s : ℝ) (m : ℕ → ℝ) : ∃ d, ∀ u id, UReal2.buildStd u id n s m = ⟨⟨[(id, d)], []⟩, n⟩ := by
  refine ⟨((UReal2.buildStd exN 0 n s m).hg.diagmap.head (by simp [UReal2.buildStd, modDiag, empty, upsert])).2, fun u id => ?_⟩
  simp [UReal2.buildStd, modDiag, empty, upsert, newDiag]

/-- A constructor call, whatever the identifier and the uninitialised storage. -/
theorem mkCentral_elem {solve : (ℕ → ℕ → ℝ) → Option (List ℝ)} (hs : LowerOnly solve) (n : ℝ) (m : ℕ → ℝ) {t : ℝ} (ht : CCmp.ltb t 0 = true ∨ CCmp.leb 0 t = true) :
    (∃ x, ∀ (k : Junk ℝ) id, UReal2.mkCentral solve k.mat k.u id n m t = some (.error x)) ∨
      ∃ d, ∀ (k : Junk ℝ) id, UReal2.mkCentral solve k.mat k.u id n m t = some (.ok ⟨⟨[(id, d)], []⟩, n⟩) := by
  obtain ⟨d, hd⟩ := buildCentral_elem n m
  obtain ⟨r, h, -⟩ := mkCentral_spec hs 0 n m ht
  cases r with
  | error x =>
    refine Or.inl ⟨x, fun k id => ?_⟩
    have h1 := h k
    unfold UReal2.mkCentral at h1 ⊢
    obtain ⟨c, hc, h1⟩ := Option.map_eq_some_iff.1 h1
    rw [hc]
    cases c with
    | error y => simpa [Except.map] using h1
    | ok y => simp [Except.map] at h1
  | ok x =>
    refine Or.inr ⟨d, fun k id => ?_⟩
    have h1 := h k
    unfold UReal2.mkCentral at h1 ⊢
    obtain ⟨c, hc, h1⟩ := Option.map_eq_some_iff.1 h1
    rw [hc]
    cases c with
    | error y => simp [Except.map] at h1
    | ok y => simp [Except.map, hd]

theorem mkStd_elem {solve : (ℕ → ℕ → ℝ) → Option (List ℝ)} (hs : LowerOnly solve) (n s : ℝ) (m : ℕ → ℝ) {t : ℝ} (ht : CCmp.ltb t 0 = true ∨ CCmp.leb 0 t = true) :
    (∃ x, ∀ (k : Junk ℝ) id, UReal2.mkStd solve k.mat k.u id n s m t = some (.error x)) ∨
      ∃ d, ∀ (k : Junk ℝ) id, UReal2.mkStd solve k.mat k.u id n s m t = some (.ok ⟨⟨[(id, d)], []⟩, n⟩) := by
  by_cases hn : CCmp.ltb s 0 = true
  · exact Or.inl ⟨_, fun k id => by unfold UReal2.mkStd; rw [if_pos hn]⟩
  obtain ⟨d, hd⟩ := buildStd_elem n s m
  obtain ⟨r, h, -⟩ := mkStd_spec hs 0 n s m ht
  cases r with
  | error x =>
    refine Or.inl ⟨x, fun k id => ?_⟩
    have h1 := h k
    unfold UReal2.mkStd at h1 ⊢
    rw [if_neg hn] at h1 ⊢
    obtain ⟨c, hc, h1⟩ := Option.map_eq_some_iff.1 h1
    rw [hc]
    cases c with
    | error y => simpa [Except.map] using h1
    | ok y => simp [Except.map] at h1
  | ok x =>
    refine Or.inr ⟨d, fun k id => ?_⟩
    have h1 := h k
    unfold UReal2.mkStd at h1 ⊢
    rw [if_neg hn] at h1 ⊢
    obtain ⟨c, hc, h1⟩ := Option.map_eq_some_iff.1 h1
    rw [hc]
    cases c with
    | error y => simp [Except.map] at h1
    | ok y => simp [Except.map, hd]

/-! ## which thread created a variable -/

/-- Each variable has one set of moments, and those created after the first `N` are used only by the thread which created them. -/
structure Own2 (N : ℤ) (w : MWorld ℝ) (tab : ℤ → Moments ℝ) (o : ℤ → ℕ) : Prop where
  mom : ∀ r i m, (w.second r).hg.momOf i = some m → m = tab i ∧ i ≤ w.lastId ∧ (i ≤ N ∨ (r.thread ≠ 0 ∧ o i = r.thread))

namespace Own2
variable {N : ℤ} {w : MWorld ℝ} {tab : ℤ → Moments ℝ} {o : ℤ → ℕ}

theorem set (h : Own2 N w tab o) (r : Reg) (z : UReal2 ℝ)
    (hz : ∀ i m, z.hg.momOf i = some m → m = tab i ∧ i ≤ w.lastId ∧ (i ≤ N ∨ (r.thread ≠ 0 ∧ o i = r.thread))) :
    Own2 N ⟨w.lastId, w.first, (World2.set ⟨w.lastId, w.second⟩ r z).regs⟩ tab o := by
  refine ⟨fun q i m hm => ?_⟩
  simp only [World2.set] at hm
  split_ifs at hm with hq
  · subst hq; exact hz i m hm
  · exact h.mom q i m hm

theorem more (h : Own2 N w tab o) (f : Reg → UReal ℝ) {c : ℤ} (hc : w.lastId ≤ c) : Own2 N ⟨c, f, w.second⟩ tab o :=
  ⟨fun r i m hm => ⟨(h.mom r i m hm).1, (h.mom r i m hm).2.1.trans hc, (h.mom r i m hm).2.2⟩⟩

theorem step (h : Own2 N w tab o) {solve : (ℕ → ℕ → ℝ) → Option (List ℝ)} (hs : LowerOnly solve) {a : DMix} {S : Finset ℤ} (hm : MSim w a S)
    (st : MStep ℝ) (ht : ThresholdOkM st) (hc : a.count + countNewM [st] < 2147483647) (hr : RaceFreeM st ∨ 2147483647 ≤ N) {w' : MWorld ℝ} {out : Out ℝ}
    (e : w.step solve st = some (w', out)) : ∃ tab' o', Own2 N w' tab' o' := by
  have hcount : w.lastId = a.count := hm.one.count
  have h00 : CCmp.ltb (0 : ℝ) 0 = false := by rw [Bool.eq_false_iff, Ne, ltb_iff]; norm_num
  cases st with
  | one st =>
    obtain ⟨w1, o1, S1, e1, h1, -⟩ := hm.stepOne h00 (solve := solve) st (by simpa [countNewM] using hc)
    rw [e] at e1
    simp only [Option.some.injEq, Prod.mk.injEq] at e1
    obtain ⟨rfl, rfl⟩ := e1
    have hl : w.lastId ≤ w'.lastId := by
      have h2 : w'.lastId = _ := h1.one.count
      rw [h2, hcount]
      simp only [DMix.step, dcount_step]
      push_cast
      omega
    simp only [MWorld.step, Option.map_eq_some_iff, Prod.mk.injEq, Prod.exists] at e
    obtain ⟨v, o2, -, rfl, -⟩ := e
    exact ⟨tab, o, h.more v.regs hl⟩
  | two st k =>
    have big : 2147483647 ≤ N → ∀ q i m, (w.second q).hg.momOf i = some m → i ≤ N := by
      intro hN q i m hi
      have := (h.mom q i m hi).2.1
      have : (a.count : ℤ) < 2147483647 := by exact_mod_cast lt_of_le_of_lt (Nat.le_add_right _ _) hc
      omega
    have ok : ∀ r, Ok2 (w.second r) := fun r => ⟨hm.valid r, fun i hi => by
      have := (hm.pos r i (hm.vars r ▸ mem_vars_keys.2 hi)).2
      have h' : (a.count : ℤ) < 2147483647 := by exact_mod_cast (lt_of_le_of_lt (Nat.le_add_right _ _) hc)
      exact lt_of_le_of_lt this h'⟩
    have get : ∀ r, writes2 st = some r → ∀ q ∈ reads2 st, ∀ i m, (w.second q).hg.momOf i = some m →
        m = tab i ∧ i ≤ w.lastId ∧ (i ≤ N ∨ (r.thread ≠ 0 ∧ o i = r.thread)) := by
      intro r hw q hq i m hi
      obtain ⟨h1, h2, h3⟩ := h.mom q i m hi
      refine ⟨h1, h2, ?_⟩
      rcases hr with hr | hr
      · obtain ⟨-, h4⟩ := hr r.thread (by simp [threadOfM, hw])
        rcases h4 q hq with h5 | h5
        · rw [← h5]; exact h3
        · rcases h3 with h3 | h3
          · exact Or.inl h3
          · exact absurd h5 h3.1
      · exact Or.inl (big hr q i m hi)
    have new : ∀ r, writes2 st = some r → a.count + 1 < 2147483647 → ∀ (mu : ℝ) (d : Diag ℝ), ∃ tab' o',
        Own2 N ⟨nextId w.lastId, w.first, (World2.set ⟨nextId w.lastId, w.second⟩ r ⟨⟨[(nextId w.lastId, d)], []⟩, mu⟩).regs⟩ tab' o' := by
      intro r hw hn mu d
      have hid : nextId w.lastId = (a.count + 1 : ℕ) := by rw [hcount]; exact nextId_nat (by omega)
      refine ⟨Function.update tab (nextId w.lastId) d.mom, Function.update o (nextId w.lastId) r.thread, ?_⟩
      have h1 : Own2 N ⟨nextId w.lastId, w.first, w.second⟩ (Function.update tab (nextId w.lastId) d.mom) (Function.update o (nextId w.lastId) r.thread) := by
        refine ⟨fun q i m hi => ?_⟩
        obtain ⟨h1, h2, h3⟩ := h.mom q i m hi
        have hne : i ≠ nextId w.lastId := by rw [hid]; rw [hcount] at h2; push_cast; omega
        rw [Function.update_of_ne hne, Function.update_of_ne hne]
        exact ⟨h1, by rw [hid]; rw [hcount] at h2; push_cast; omega, h3⟩
      refine h1.set r _ fun i m hi => ?_
      simp only [HessGrad.momOf, find?] at hi
      split_ifs at hi with hii
      · subst hii
        simp only [Option.map_some, Option.some.injEq] at hi
        refine ⟨by simp [hi], le_rfl, ?_⟩
        rcases hr with hr | hr
        · exact Or.inr ⟨(hr r.thread (by simp [threadOfM, hw])).1, by simp⟩
        · left
          rw [hid]; push_cast; omega
      · simp at hi
    have fin : ∀ (r : Reg) (mu : ℝ) (res : Except Exn (UReal2 ℝ)), writes2 st = some r → a.count + 1 < 2147483647 →
        ((∃ x, res = .error x) ∨ ∃ d, res = .ok ⟨⟨[(nextId w.lastId, d)], []⟩, mu⟩) → ∃ tab' o',
        Own2 N ⟨(World2.finish ⟨w.lastId, w.second⟩ r res).1.lastId, w.first, (World2.finish ⟨w.lastId, w.second⟩ r res).1.regs⟩ tab' o' := by
      rintro r mu res hw hn (⟨x, rfl⟩ | ⟨d, rfl⟩)
      · exact ⟨tab, o, h⟩
      · exact new r hw hn mu d
    cases st with
    | newCentral r n m t =>
      rcases mkCentral_elem hs n m ht with ⟨x, hx⟩ | ⟨d, hx⟩ <;> simp only [MWorld.step, World2.step, hx, Option.map_some, Option.some.injEq, Prod.mk.injEq] at e <;> rw [← e.1]
      · exact fin r n _ rfl (by simpa [countNewM, countNew2] using hc) (Or.inl ⟨x, rfl⟩)
      · exact fin r n _ rfl (by simpa [countNewM, countNew2] using hc) (Or.inr ⟨d, rfl⟩)
    | newStd r n s m t =>
      rcases mkStd_elem hs n s m ht with ⟨x, hx⟩ | ⟨d, hx⟩ <;> simp only [MWorld.step, World2.step, hx, Option.map_some, Option.some.injEq, Prod.mk.injEq] at e <;> rw [← e.1]
      · exact fin r n _ rfl (by simpa [countNewM, countNew2] using hc) (Or.inl ⟨x, rfl⟩)
      · exact fin r n _ rfl (by simpa [countNewM, countNew2] using hc) (Or.inr ⟨d, rfl⟩)
    | const r n =>
      simp only [MWorld.step, World2.step, Option.map_some, Option.some.injEq, Prod.mk.injEq] at e
      rw [← e.1]
      exact ⟨tab, o, h.set r _ fun i m hi => by simp [UReal2.const, empty, HessGrad.momOf, find?] at hi⟩
    | copy r q =>
      simp only [MWorld.step, World2.step, Option.map_some, Option.some.injEq, Prod.mk.injEq] at e
      rw [← e.1]
      exact ⟨tab, o, h.set r _ (get r rfl q (by simp [reads2]))⟩
    | unary r q f fx fxx =>
      obtain ⟨z, hz, -⟩ := C21_unary (ok q) f fx fxx
      simp only [MWorld.step, World2.step, hz, Option.map_some, Option.some.injEq, Prod.mk.injEq] at e
      rw [← e.1]
      refine ⟨tab, o, h.set r _ fun i m hi => ?_⟩
      rw [(C22_unary (ok q) (hz exN)).2.2.2 i] at hi
      exact get r rfl q (by simp [reads2]) i m hi
    | binary r q q' f fx fy fxx fyy fxy =>
      obtain ⟨z, hz, -⟩ := C21_binary (ok q) (ok q') f fx fy fxx fyy fxy
      simp only [MWorld.step, World2.step, hz, Option.map_some, Option.some.injEq, Prod.mk.injEq] at e
      rw [← e.1]
      refine ⟨tab, o, h.set r _ fun i m hi => ?_⟩
      rw [(C22_binary (ok q) (ok q') (hz exN)).2.2.2 i, Option.or_eq_some_iff] at hi
      rcases hi with hi | ⟨-, hi⟩
      · exact get r rfl q (by simp [reads2]) i m hi
      · exact get r rfl q' (by simp [reads2]) i m hi
    | otherNew =>
      simp only [MWorld.step, World2.step, Option.map_some, Option.some.injEq, Prod.mk.injEq] at e
      rw [← e.1]
      refine ⟨tab, o, h.more w.first ?_⟩
      have hid : nextId w.lastId = (a.count + 1 : ℕ) := by rw [hcount]; exact nextId_nat (by simp [countNewM, countNew2] at hc; omega)
      rw [hid, hcount]; push_cast; omega

theorem run {solve : (ℕ → ℕ → ℝ) → Option (List ℝ)} (hs : LowerOnly solve) (p : List (MStep ℝ)) {w : MWorld ℝ} {tab : ℤ → Moments ℝ} {o : ℤ → ℕ}
    (h : Own2 N w tab o) {a : DMix} {S : Finset ℤ} (hm : MSim w a S) (ht : ∀ st ∈ p, ThresholdOkM st) (hc : a.count + countNewM p < 2147483647)
    (hr : (∀ st ∈ p, RaceFreeM st) ∨ 2147483647 ≤ N) {w' : MWorld ℝ} {os : List (Out ℝ)} (e : w.run solve p = some (w', os)) :
    ∃ tab' o', Own2 N w' tab' o' := by
  have h00 : CCmp.ltb (0 : ℝ) 0 = false := by rw [Bool.eq_false_iff, Ne, ltb_iff]; norm_num
  induction p generalizing w a S tab o os with
  | nil =>
    simp only [MWorld.run, Option.some.injEq, Prod.mk.injEq] at e
    exact ⟨tab, o, e.1 ▸ h⟩
  | cons st p ih =>
    rw [countNewM_cons] at hc
    obtain ⟨w1, o1, a1, S1, e1, m1, c1⟩ := MSim.next h00 hs hm st (ht st (by simp)) (by omega)
    obtain ⟨tab1, o1', h1⟩ := h.step hs hm st (ht st (by simp)) (by omega) (hr.imp_left fun hr => hr st (by simp)) e1
    simp only [MWorld.run, e1, Option.bind_some, Option.map_eq_some_iff, Prod.mk.injEq, Prod.exists] at e
    obtain ⟨w2, os2, e2, rfl, -⟩ := e
    exact ih h1 m1 (fun x hx => ht x (List.mem_cons_of_mem _ hx)) (by omega) (hr.imp_left fun hr x hx => hr x (List.mem_cons_of_mem _ hx)) e2

end Own2
end Unc
