import Verif.Lemmas.Joined4

/-!
# The calls after the threads have finished
-/

namespace Unc
open Unc.Spec Unc.Props SMap HessGrad

/-- a new variable -/
theorem Alike.new {n : ℕ} {ids ids' : Fin n → VId} {mom : Fin n → Moments ℝ} {i i' : VId} (hi : i < maxId) (hi' : i' < maxId)
    (hn : ∀ j, ids j ≠ i) (hn' : ∀ j, ids' j ≠ i') (d : Diag ℝ) (mu : ℝ) :
    Alike (Fin.snoc ids i : Fin (n + 1) → VId) (Fin.snoc ids' i' : Fin (n + 1) → VId) (Fin.snoc mom d.mom : Fin (n + 1) → Moments ℝ)
      ⟨⟨[(i, d)], []⟩, mu⟩ ⟨⟨[(i', d)], []⟩, mu⟩ := by
  have ok : ∀ {i : VId}, i < maxId → Ok2 (⟨⟨[(i, d)], []⟩, mu⟩ : UReal2 ℝ) := fun {i} hi =>
    ⟨⟨by simp [Sorted], by simp, by simp⟩, by intro k hk; simp at hk; subst hk; exact hi⟩
  have mm : ∀ {i k : VId} {m : Moments ℝ}, HessGrad.momOf (⟨[(i, d)], []⟩ : HessGrad ℝ) k = some m → k = i ∧ m = d.mom := by
    intro i k m hm
    simp only [HessGrad.momOf, find?] at hm
    split_ifs at hm with hk
    · simp only [Option.map_some, Option.some.injEq] at hm
      exact ⟨hk.symm, hm.symm⟩
    · simp at hm
  refine ⟨⟨ok hi, fun k m hm => ?_⟩, ⟨ok hi', fun k m hm => ?_⟩, rfl, fun j => ?_, fun j k => ?_, fun j => ?_⟩
  · obtain ⟨rfl, rfl⟩ := mm hm
    exact ⟨Fin.last n, by simp, by simp⟩
  · obtain ⟨rfl, rfl⟩ := mm hm
    exact ⟨Fin.last n, by simp, by simp⟩
  · refine Fin.lastCases ?_ (fun j => ?_) j
    · simp [HessGrad.G, find?]
    · simp [HessGrad.G, find?, (hn j).symm, (hn' j).symm]
  · refine Fin.lastCases ?_ (fun j => ?_) j
    · refine Fin.lastCases ?_ (fun k => ?_) k
      · simp [HessGrad.H, find?]
      · simp [HessGrad.H, find?, SMap.get, (hn k).symm, (hn' k).symm]
    · refine Fin.lastCases ?_ (fun k => ?_) k
      · simp [HessGrad.H, find?, SMap.get, hn j, hn' j]
      · have a : ∀ (f : Fin n → VId) (i : VId), (∀ j, f j ≠ i) → HessGrad.H (⟨[(i, d)], []⟩ : HessGrad ℝ) (f j) (f k) = 0 := by
          intro f i hf
          simp [HessGrad.H, find?, SMap.get, (hf j).symm, (hf k).symm]
        simp only [Fin.snoc_castSucc]
        rw [a ids i hn, a ids' i' hn']
  · refine Fin.lastCases ?_ (fun j => ?_) j
    · simp [HessGrad.vars]
    · simp [HessGrad.vars, hn j, hn' j]

theorem snoc_inj {n : ℕ} {ids : Fin n → VId} (h : Function.Injective ids) {i : VId} (hi : ∀ j, ids j ≠ i) :
    Function.Injective (Fin.snoc ids i : Fin (n + 1) → VId) := by
  intro a b
  refine Fin.lastCases ?_ (fun a => ?_) a <;> refine Fin.lastCases ?_ (fun b => ?_) b
  · simp
  · intro hab; simp at hab; exact absurd hab.symm (hi b)
  · intro hab; simp at hab; exact absurd hab (hi a)
  · intro hab; simp at hab; rw [h hab]

/-- Two runs which differ in the names of the variables and in the content of uninitialised storage. -/
theorem alike_run {solve : (ℕ → ℕ → ℝ) → Option (List ℝ)} (hs : LowerOnly solve) (q q' : List (MStep ℝ)) (hqq : q.map callOf = q'.map callOf) {n : ℕ}
    {ids ids' : Fin n → VId} {mom : Fin n → Moments ℝ} (hinj : Function.Injective ids) (hinj' : Function.Injective ids') {w w' : MWorld ℝ} {c c' : ℕ}
    (hl : w.lastId = c) (hl' : w'.lastId = c') (hp : ∀ j, 1 ≤ ids j ∧ ids j ≤ c) (hp' : ∀ j, 1 ≤ ids' j ∧ ids' j ≤ c')
    (h : ∀ r, Alike ids ids' mom (w.second r) (w'.second r)) (ht : ∀ st ∈ q, ThresholdOkM st) (hc : c + countNewM q < 2147483647)
    (hc' : c' + countNewM q' < 2147483647) (hcalm : CalmRun solve w q) :
    ∃ w1 os w1', w.run solve q = some (w1, os) ∧ w'.run solve q' = some (w1', os) ∧ os.length = q.length ∧ SameSecond (fun _ => True) w1 w1' := by
  induction q generalizing q' n w w' c c' with
  | nil =>
    obtain rfl : q' = [] := by simpa using hqq.symm
    exact ⟨w, [], w', rfl, rfl, rfl, sameSecond_alike hinj hinj' (fun j => (hp j).1) (fun j => (hp' j).1) h⟩
  | cons st q ih =>
    cases q' with
    | nil => simp at hqq
    | cons st' q' =>
      simp only [List.map_cons, List.cons.injEq] at hqq
      obtain ⟨hst, hqq⟩ := hqq
      obtain ⟨hcs, hcr⟩ := hcalm
      have ht' : ∀ st ∈ q, ThresholdOkM st := fun x hx => ht x (List.mem_cons_of_mem _ hx)
      rw [countNewM_cons] at hc hc'
      have hn : c < 2147483647 - 1 → nextId w.lastId = (c + 1 : ℕ) := fun h => by rw [hl]; exact nextId_nat (by omega)
      have hn' : c' < 2147483647 - 1 → nextId w'.lastId = (c' + 1 : ℕ) := fun h => by rw [hl']; exact nextId_nat (by omega)
      -- the step of both runs, to states which are alike
      have go : ∀ {n1 : ℕ} {ids1 ids1' : Fin n1 → VId} {mom1 : Fin n1 → Moments ℝ} {v v' : MWorld ℝ} {o : Out ℝ} {d d' : ℕ},
          w.step solve st = some (v, o) → w'.step solve st' = some (v', o) → Function.Injective ids1 → Function.Injective ids1' →
          v.lastId = d → v'.lastId = d' → (∀ j, 1 ≤ ids1 j ∧ ids1 j ≤ d) → (∀ j, 1 ≤ ids1' j ∧ ids1' j ≤ d') →
          (∀ r, Alike ids1 ids1' mom1 (v.second r) (v'.second r)) → d ≤ c + countNewM [st] → d' ≤ c' + countNewM [st'] →
          ∃ w1 os w1', w.run solve (st :: q) = some (w1, os) ∧ w'.run solve (st' :: q') = some (w1', os) ∧ os.length = (st :: q).length ∧
            SameSecond (fun _ => True) w1 w1' := by
        intro n1 ids1 ids1' mom1 v v' o d d' e e' i1 i1' l1 l1' p1 p1' a1 hd hd'
        obtain ⟨w1, os, w1', r1, r1', len, s⟩ := ih q' hqq i1 i1' l1 l1' p1 p1' a1 ht' (by omega) (by omega) (hcr v o e)
        exact ⟨w1, o :: os, w1', by simp [MWorld.run, e, r1], by simp [MWorld.run, e', r1'], by simp [len], s⟩
      have set : ∀ (r : Reg) {z z' : UReal2 ℝ}, Alike ids ids' mom z z' → ∀ q, Alike ids ids' mom ((World2.set ⟨w.lastId, w.second⟩ r z).regs q)
          ((World2.set ⟨w'.lastId, w'.second⟩ r z').regs q) := by
        intro r z z' hz q
        simp only [World2.set]
        split_ifs
        exacts [hz, h q]
      cases st with
      | one st => exact absurd hcs (by simp [Calm])
      | two st k =>
        cases st' with
        | one st' => simp [callOf] at hst
        | two st' k' =>
          simp only [callOf, Sum.inr.injEq] at hst
          subst hst
          have fresh : c < 2147483647 - 1 → ∀ j, ids j ≠ nextId w.lastId := fun h1 j => by
            rw [hn h1]; have := (hp j).2; push_cast; omega
          have fresh' : c' < 2147483647 - 1 → ∀ j, ids' j ≠ nextId w'.lastId := fun h1 j => by
            rw [hn' h1]; have := (hp' j).2; push_cast; omega
          have ctor : ∀ (r : Reg) (mu : ℝ) (d : Diag ℝ), c + 1 < 2147483647 → c' + 1 < 2147483647 →
              let i := nextId w.lastId
              let i' := nextId w'.lastId
              Function.Injective (Fin.snoc ids i : Fin (n + 1) → VId) ∧ Function.Injective (Fin.snoc ids' i' : Fin (n + 1) → VId) ∧
              (∀ j, 1 ≤ (Fin.snoc ids i : Fin (n + 1) → VId) j ∧ (Fin.snoc ids i : Fin (n + 1) → VId) j ≤ (c + 1 : ℕ)) ∧
              (∀ j, 1 ≤ (Fin.snoc ids' i' : Fin (n + 1) → VId) j ∧ (Fin.snoc ids' i' : Fin (n + 1) → VId) j ≤ (c' + 1 : ℕ)) ∧
              ∀ q, Alike (Fin.snoc ids i : Fin (n + 1) → VId) (Fin.snoc ids' i' : Fin (n + 1) → VId) (Fin.snoc mom d.mom : Fin (n + 1) → Moments ℝ)
                ((World2.set ⟨i, w.second⟩ r ⟨⟨[(i, d)], []⟩, mu⟩).regs q) ((World2.set ⟨i', w'.second⟩ r ⟨⟨[(i', d)], []⟩, mu⟩).regs q) := by
            intro r mu d h1 h2 i i'
            have f1 := fresh (by omega)
            have f2 := fresh' (by omega)
            have n1 : i = (c + 1 : ℕ) := hn (by omega)
            have n2 : i' = (c' + 1 : ℕ) := hn' (by omega)
            refine ⟨snoc_inj hinj f1, snoc_inj hinj' f2, fun j => ?_, fun j => ?_, fun q => ?_⟩
            · refine Fin.lastCases ?_ (fun j => ?_) j
              · simp only [Fin.snoc_last]; rw [n1]; push_cast; omega
              · simp only [Fin.snoc_castSucc]; have := hp j; push_cast; omega
            · refine Fin.lastCases ?_ (fun j => ?_) j
              · simp only [Fin.snoc_last]; rw [n2]; push_cast; omega
              · simp only [Fin.snoc_castSucc]; have := hp' j; push_cast; omega
            · simp only [World2.set]
              split_ifs
              · refine Alike.new ?_ ?_ f1 f2 d mu
                · change i < maxId; rw [n1]; unfold maxId; push_cast; omega
                · change i' < maxId; rw [n2]; unfold maxId; push_cast; omega
              · refine (h q).snoc (fun hm => ?_) (fun hm => ?_) _
                · obtain ⟨j, hj⟩ := (h q).tableX.vars _ hm
                  exact f1 j hj
                · obtain ⟨j, hj⟩ := (h q).tableY.vars _ hm
                  exact f2 j hj
          have stay : c ≤ c + countNewM [MStep.two st k] := Nat.le_add_right _ _
          have stay' : c' ≤ c' + countNewM [MStep.two st k'] := Nat.le_add_right _ _
          cases st with
          | newCentral r m mm t =>
            rcases mkCentral_elem hs m mm (ht _ List.mem_cons_self) with ⟨x, hx⟩ | ⟨d, hx⟩
            · exact go (o := .threw x) (by simp only [MWorld.step, World2.step, hx, Option.map_some, World2.finish])
                (by simp only [MWorld.step, World2.step, hx, Option.map_some, World2.finish]) hinj hinj' hl hl' hp hp' h stay stay'
            · obtain ⟨a1, a2, a3, a4, a5⟩ := ctor r m d (by simp [countNewM, countNew2] at hc; omega) (by simp [countNewM, countNew2] at hc'; omega)
              exact go (o := .done) (by simp only [MWorld.step, World2.step, hx, Option.map_some, World2.finish]; rfl)
                (by simp only [MWorld.step, World2.step, hx, Option.map_some, World2.finish]; rfl) a1 a2
                (hn (by simp [countNewM, countNew2] at hc; omega)) (hn' (by simp [countNewM, countNew2] at hc'; omega)) a3 a4 a5
                (by simp [countNewM, countNew2]) (by simp [countNewM, countNew2])
          | newStd r m s mm t =>
            rcases mkStd_elem hs m s mm (ht _ List.mem_cons_self) with ⟨x, hx⟩ | ⟨d, hx⟩
            · exact go (o := .threw x) (by simp only [MWorld.step, World2.step, hx, Option.map_some, World2.finish])
                (by simp only [MWorld.step, World2.step, hx, Option.map_some, World2.finish]) hinj hinj' hl hl' hp hp' h stay stay'
            · obtain ⟨a1, a2, a3, a4, a5⟩ := ctor r m d (by simp [countNewM, countNew2] at hc; omega) (by simp [countNewM, countNew2] at hc'; omega)
              exact go (o := .done) (by simp only [MWorld.step, World2.step, hx, Option.map_some, World2.finish]; rfl)
                (by simp only [MWorld.step, World2.step, hx, Option.map_some, World2.finish]; rfl) a1 a2
                (hn (by simp [countNewM, countNew2] at hc; omega)) (hn' (by simp [countNewM, countNew2] at hc'; omega)) a3 a4 a5
                (by simp [countNewM, countNew2]) (by simp [countNewM, countNew2])
          | const r m => exact go (o := .done) rfl rfl hinj hinj' hl hl' hp hp' (set r (Alike.const m)) stay stay'
          | copy r b => exact go (o := .done) rfl rfl hinj hinj' hl hl' hp hp' (set r (h b)) stay stay'
          | unary r b f fx fxx =>
            obtain ⟨z, z', e, e', hz⟩ := (h b).unary hinj hinj' f fx fxx hcs
            exact go (v := ⟨w.lastId, w.first, (World2.set ⟨w.lastId, w.second⟩ r z).regs⟩) (v' := ⟨w'.lastId, w'.first, (World2.set ⟨w'.lastId, w'.second⟩ r z').regs⟩)
              (o := .done) (by simp only [MWorld.step, World2.step, e, Option.map_some]; rfl)
              (by simp only [MWorld.step, World2.step, e', Option.map_some]; rfl) hinj hinj' hl hl' hp hp' (set r hz) stay stay'
          | binary r b b' f fx fy fxx fyy fxy =>
            obtain ⟨z, z', e, e', hz⟩ := (h b).binary (h b') hinj hinj' f fx fy fxx fyy fxy hcs.1 hcs.2
            exact go (v := ⟨w.lastId, w.first, (World2.set ⟨w.lastId, w.second⟩ r z).regs⟩) (v' := ⟨w'.lastId, w'.first, (World2.set ⟨w'.lastId, w'.second⟩ r z').regs⟩)
              (o := .done) (by simp only [MWorld.step, World2.step, e, Option.map_some]; rfl)
              (by simp only [MWorld.step, World2.step, e', Option.map_some]; rfl) hinj hinj' hl hl' hp hp' (set r hz) stay stay'
          | otherNew =>
            have k1 : c + 1 < 2147483647 := by simp [countNewM, countNew2] at hc; omega
            have k2 : c' + 1 < 2147483647 := by simp [countNewM, countNew2] at hc'; omega
            exact go (o := .done) rfl rfl hinj hinj' (hn (by omega)) (hn' (by omega))
              (fun j => ⟨(hp j).1, (hp j).2.trans (by push_cast; omega)⟩) (fun j => ⟨(hp' j).1, (hp' j).2.trans (by push_cast; omega)⟩) h
              (by simp [countNewM, countNew2]) (by simp [countNewM, countNew2])

end Unc
