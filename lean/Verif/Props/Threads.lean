import Verif.Lemmas.Threads
import Verif.Props.Programs

/-! # C08: identities under concurrent construction -/

namespace Unc.Props
open Unc Unc.Spec UReal

section
variable {R : Type*} [Zero R] [One R] [Neg R] [Add R] [Mul R] [CCmp R] [CSqrt R]

theorem lastId_step {w w' : World R} {o : Out R} {st : Step R} (h : w.step st = some (w', o)) :
    w'.lastId = nextId^[countNew [st]] w.lastId := by
  cases st <;> simp only [World.step, Option.some.injEq, Prod.mk.injEq, Option.map_eq_some_iff] at h <;>
    simp only [countNew, Function.iterate_zero, _root_.id, zero_add, Function.iterate_one]
  case new r n s =>
    split at h <;> simp at h <;> rw [← h.1] <;> rfl
  case binary => obtain ⟨z, -, h, -⟩ := h; rw [← h]; rfl
  case assign => split_ifs at h <;> (simp at h; rw [← h.1]; rfl)
  all_goals (rw [← h.1]; rfl)

theorem lastId_run {w w' : World R} {os : List (Out R)} {p : List (Step R)} (h : w.run p = some (w', os)) :
    w'.lastId = nextId^[countNew p] w.lastId := by
  induction p generalizing w os with
  | nil => simp [World.run] at h; rw [h.1]; rfl
  | cons st t ih =>
    simp only [World.run] at h
    cases hs : w.step st with
    | none => simp [hs] at h
    | some r =>
      rw [hs] at h
      cases ht : r.1.run t with
      | none => simp [ht] at h
      | some r' =>
        simp [ht] at h
        obtain ⟨h1, -⟩ := h
        subst h1
        rw [ih ht, lastId_step hs, countNew_cons st t, add_comm, Function.iterate_add_apply]

/-- A successful construction at the end of a program: the id is the number of constructions. -/
theorem new_at_end {p : List (Step R)} {r : Reg} {n s : R} {w : World R} {os : List (Out R)}
    (hs : CCmp.ltb s 0 = false) (h : World.init.run (p ++ [.new r n s]) = some (w, os)) :
    w.regs r = ⟨nextId^[countNew p + 1] 0, s, n, []⟩ := by
  rw [World.run_append] at h
  cases hp : (World.init : World R).run p with
  | none => simp [hp] at h
  | some v =>
    simp [hp, World.run, World.step, mk', hs] at h
    rw [← h.1]
    have := lastId_run hp
    simp only [World.set, if_true, this, Function.iterate_succ_apply']
    rfl

/-- **C08** Two constructions anywhere in any interleaving of any threads (an interleaving is a program; whatever calls come
before, between or after, possibly by other threads) get different positive ids and are uncorrelated, as long as at most
2^31 - 1 constructions happen. -/
theorem C08_distinct_ids (p1 p2 : List (Step R)) (r r' : Reg) (n n' s s' : R)
    (hs : CCmp.ltb s 0 = false) (hs' : CCmp.ltb s' 0 = false)
    (hc : countNew p1 + countNew p2 + 2 ≤ 2147483647)
    {w w' : World R} {os os' : List (Out R)}
    (h : World.init.run (p1 ++ [.new r n s]) = some (w, os))
    (h' : World.init.run ((p1 ++ [.new r n s]) ++ p2 ++ [.new r' n' s']) = some (w', os')) :
    0 < (w.regs r).id ∧ 0 < (w'.regs r').id ∧ (w.regs r).id ≠ (w'.regs r').id ∧
      cov (w.regs r) (w'.regs r') = 0 := by
  have e1 := new_at_end hs h
  have e2 := new_at_end hs' h'
  rw [iterate_nextId _ (by omega)] at e1
  rw [countNew_append, countNew_append, iterate_nextId _ (by simp [countNew]; omega)] at e2
  rw [e1, e2]
  simp only [countNew]
  have : ((countNew p1 + 1 : ℕ) : ℤ) ≠ ((countNew p1 + (0 + 1) + countNew p2 + 1 : ℕ) : ℤ) := by
    push_cast; omega
  refine ⟨by push_cast; omega, by push_cast; omega, this, ?_⟩
  unfold cov
  rw [if_pos ⟨by simp only []; push_cast; omega, by simp only []; push_cast; omega⟩, if_neg this]

/-! ### What happens beyond the bound -/

theorem iterate_nextId_wrap (k : ℕ) : nextId^[k] 0 = wrap32 k := by
  induction k with
  | zero => simp [wrap32]
  | succ k ih => rw [Function.iterate_succ_apply', ih]; simp only [nextId, wrap32]; push_cast; omega

theorem iterate_nextId_wrap_one (k : ℕ) : nextId^[k] (nextId 0) = wrap32 (k + 1) := by
  rw [← Function.iterate_succ_apply, iterate_nextId_wrap]; push_cast; rfl

theorem lastId_init_wrap {R : Type*} [Zero R] {w : World R} {k : ℕ} (h : w.lastId = nextId^[k] (World.init : World R).lastId) :
    w.lastId = wrap32 k := by
  rw [h, ← iterate_nextId_wrap]; rfl

/-- **C08, beyond the bound**: the 2^31-th variable has a negative id (any arithmetic). -/
theorem C08_wrap_negative (h0 : CCmp.ltb (0 : R) 0 = false) :
    ∃ p : List (Step R), countNew p = 2147483648 ∧ ∃ w os, World.init.run p = some (w, os) ∧
      (w.regs ⟨0, 0⟩).id = -2147483648 := by
  obtain ⟨k, hk⟩ : ∃ k : ℕ, k = 2147483648 := ⟨_, rfl⟩
  refine ⟨List.replicate k (.new ⟨0, 0⟩ 0 0), ?_, ?_⟩
  · have : ∀ k, countNew (List.replicate k (Step.new ⟨0, 0⟩ (0 : R) 0)) = k := by
      intro k; induction k with
      | zero => rfl
      | succ k ih => simp [List.replicate_succ, countNew, ih]
    rw [this, hk]
  · obtain ⟨w, os, e, h1, h2⟩ := run_replicate_new h0 ⟨0, 0⟩ k (World.init : World R)
    refine ⟨w, os, e, ?_⟩
    have hl := lastId_init_wrap h2
    rw [h1 (by omega)]
    simp [hl, wrap32, hk]

example := C08_wrap_negative (R := ℝ) ltb_zero_real

end

theorem run_replicate_new_val (r : Reg) (n s : ℝ) (hs : 0 ≤ s) (k : ℕ) (w : World ℝ) :
    ∃ w' os, w.run (List.replicate k (.new r n s)) = some (w', os) ∧
      (k ≠ 0 → w'.regs r = ⟨w'.lastId, s, n, []⟩) ∧ w'.lastId = nextId^[k] w.lastId ∧
      ∀ q, q ≠ r → w'.regs q = w.regs q := by
  have h0 : CCmp.ltb s 0 = false := by rw [← Bool.not_eq_true, ltb_iff]; exact not_lt.2 hs
  induction k generalizing w with
  | zero => exact ⟨w, [], rfl, by simp, rfl, fun _ _ => rfl⟩
  | succ k ih =>
    obtain ⟨w', os, e, h1, h2, h3⟩ := ih ({ w with lastId := nextId w.lastId }.set r ⟨nextId w.lastId, s, n, []⟩)
    refine ⟨w', .done :: os, by simp [World.run, World.step, mk', h0, List.replicate_succ, e], ?_,
      by rw [h2, Function.iterate_succ_apply]; rfl, fun q hq => by rw [h3 q hq]; simp [World.set, hq]⟩
    intro _
    rcases Nat.eq_zero_or_pos k with rfl | hk
    · simp [World.run] at e
      rw [← e.1]; simp [World.set]
    · exact h1 (by omega)

/-- **C08/C02, beyond the bound**: after 2^31 constructions the newest variable, constructed with uncertainty 1, has
`s() == 1` but `cov(x, x) == 0`. -/
theorem C08_wrap_breaks_cov :
    ∃ p : List (Step ℝ), countNew p = 2147483648 ∧ ∃ w os, World.init.run p = some (w, os) ∧
      (w.regs ⟨0, 0⟩).s = 1 ∧ cov (w.regs ⟨0, 0⟩) (w.regs ⟨0, 0⟩) = 0 := by
  obtain ⟨k, hk⟩ : ∃ k : ℕ, k = 2147483648 := ⟨_, rfl⟩
  refine ⟨List.replicate k (.new ⟨0, 0⟩ 0 1), ?_, ?_⟩
  · have : ∀ k, countNew (List.replicate k (Step.new ⟨0, 0⟩ (0 : ℝ) 1)) = k := by
      intro k; induction k with
      | zero => rfl
      | succ k ih => simp [List.replicate_succ, countNew, ih]
    rw [this, hk]
  · obtain ⟨w, os, e, h1, h2, -⟩ := run_replicate_new_val ⟨0, 0⟩ 0 1 zero_le_one k World.init
    refine ⟨w, os, e, ?_⟩
    have hl : w.lastId = -2147483648 := by
      rw [lastId_init_wrap h2]; simp [wrap32, hk]
    rw [h1 (by omega), hl]
    simp [s, cov, covLoop]

/-- **C08, beyond the bound**: after 2^32 + 1 constructions two separately constructed variables are fully correlated. -/
theorem C08_wrap_collision :
    ∃ p : List (Step ℝ), countNew p = 4294967297 ∧ ∃ w os, World.init.run p = some (w, os) ∧
      corr (w.regs ⟨0, 0⟩) (w.regs ⟨0, 1⟩) = 1 := by
  obtain ⟨k, hk⟩ : ∃ k : ℕ, k = 4294967296 := ⟨_, rfl⟩
  refine ⟨.new ⟨0, 0⟩ 0 1 :: List.replicate k (.new ⟨0, 1⟩ 0 1), ?_, ?_⟩
  · have : ∀ k, countNew (List.replicate k (Step.new ⟨0, 1⟩ (0 : ℝ) 1)) = k := by
      intro k; induction k with
      | zero => rfl
      | succ k ih => simp [List.replicate_succ, countNew, ih]
    simp only [countNew, this, hk]
  · have h1' : CCmp.ltb (1 : ℝ) 0 = false := by rw [← Bool.not_eq_true, ltb_iff]; norm_num
    have hn : nextId 0 = 1 := by simp [nextId, wrap32]
    obtain ⟨w, os, e, h1, h2, h3⟩ := run_replicate_new_val ⟨0, 1⟩ 0 1 zero_le_one k
      (({ (World.init : World ℝ) with lastId := 1 }).set ⟨0, 0⟩ ⟨1, 1, 0, []⟩)
    refine ⟨w, .done :: os, ?_, ?_⟩
    · simp only [World.run]
      have : (World.init : World ℝ).step (.new ⟨0, 0⟩ 0 1) =
          some ((({ (World.init : World ℝ) with lastId := 1 }).set ⟨0, 0⟩ ⟨1, 1, 0, []⟩), .done) := by
        simp [World.step, mk', h1', World.init, hn]
      rw [this]; simp [e]
    · have hl : w.lastId = 1 := by
        have hz : ∀ z : ℤ, z = 1 → nextId^[k] z = wrap32 (k + 1) := fun z hz => by
          have := iterate_nextId_wrap_one k
          rw [hn] at this; rw [hz, this]
        refine (h2.trans (hz _ rfl)).trans ?_
        simp [wrap32, hk]
      rw [h1 (by omega), hl, h3 ⟨0, 0⟩ (by simp)]
      simp [World.set, corr, cov, s]

/-! ### Schedules -/

/-- **C08** Schedule independence.  After a sequential phase `p0`, threads run race-free code; `p` and `p'` are two
interleavings of the same threads.  Neither has undefined behaviour, every thread sees the same return values and exceptions,
and all final observations (mean, uncertainty, variance, independence of each variable, covariance of any two, also across threads) agree. -/
theorem C08_schedule_independent (p0 p p' : List (Step ℝ))
    (hp : ∀ st ∈ p, RaceFree st) (hp' : ∀ st ∈ p', RaceFree st)
    (hpp : ∀ t, project t p = project t p')
    (hc : countNew p0 + countNew p < 2147483647) (hc' : countNew p0 + countNew p' < 2147483647) :
    ∃ w os w' os', World.init.run (p0 ++ p) = some (w, os) ∧ World.init.run (p0 ++ p') = some (w', os') ∧
      (∀ t, threadOuts t p (os.drop p0.length) = threadOuts t p' (os'.drop p0.length)) ∧
      ∀ q r, (w.regs q).n = (w'.regs q).n ∧ (w.regs q).s = (w'.regs q).s ∧ var (w.regs q) = var (w'.regs q) ∧
        (w.regs q).isindep = (w'.regs q).isindep ∧ cov (w.regs q) (w.regs r) = cov (w'.regs q) (w'.regs r) := by
  obtain ⟨w0, e0, s0⟩ := Sim.init.run p0 (by simp [AWorld.init]; omega)
  set a0 := (AWorld.init.run p0).1 with ha0
  obtain ⟨w, e, h⟩ := Sim.init.run (p0 ++ p) (by simp [AWorld.init, countNew_append]; omega)
  obtain ⟨w', e', h'⟩ := Sim.init.run (p0 ++ p') (by simp [AWorld.init, countNew_append]; omega)
  have hsup : ∀ r, (a0.regs r).Supported := fun r => by rw [← s0.lin r]; exact supported _
  rw [AWorld.run_append, ← ha0] at e h
  rw [AWorld.run_append, ← ha0] at e' h'
  have view : ∀ t, _ := fun t => (View.start t s0.below hsup).run (le_refl _) p hp
  have view' : ∀ t, _ := fun t => (View.start t s0.below hsup).run (le_refl _) p' hp'
  have own0 : Owned a0.count a0 (fun _ => 0) :=
    ⟨fun r i hi hN => absurd (s0.below r i hi) (not_le.2 hN), s0.below⟩
  obtain ⟨o, ho⟩ := own0.run p hp
  obtain ⟨o', ho'⟩ := own0.run p' hp'
  -- single-variable observations
  have hren : ∀ t, ∀ q r : Reg, (q.thread = t ∨ q.thread = 0) → (r.thread = t ∨ r.thread = 0) →
      ((a0.run p).1.regs q).mean = ((a0.run p').1.regs q).mean ∧
      ((a0.run p).1.regs q).var = ((a0.run p').1.regs q).var ∧
      ((a0.run p).1.regs q).deps.card = ((a0.run p').1.regs q).deps.card ∧
      ((a0.run p).1.regs q).cov ((a0.run p).1.regs r) = ((a0.run p').1.regs q).cov ((a0.run p').1.regs r) := by
    intro t q r hq hr
    obtain ⟨ρ, v, -⟩ := view t
    obtain ⟨ρ', v', -⟩ := view' t
    rw [← hpp] at v'
    have a1 := v.regs q hq; have a2 := v'.regs q hq
    have b1 := v.regs r hr; have b2 := v'.regs r hr
    refine ⟨a1.mean.trans a2.mean.symm, (a1.var v.inj).trans (a2.var v'.inj).symm, ?_, (a1.cov b1 v.inj).trans (a2.cov b2 v'.inj).symm⟩
    rw [a1.deps, a2.deps, Finset.card_image_of_injOn, Finset.card_image_of_injOn]
    · intro i hi j hj e; exact v'.inj i (a1.bound i hi) j (a1.bound j hj) e
    · intro i hi j hj e; exact v.inj i (a1.bound i hi) j (a1.bound j hj) e
  have hlen : (AWorld.init.run p0).2.length = p0.length := AWorld.length_run _ _
  refine ⟨w, _, w', _, e, e', ?_, ?_⟩
  · intro t
    obtain ⟨ρ, -, v⟩ := view t
    obtain ⟨ρ', -, v'⟩ := view' t
    rw [List.drop_append_of_le_length hlen.ge, List.drop_of_length_le hlen.le, List.nil_append,
      List.drop_append_of_le_length hlen.ge, List.drop_of_length_le hlen.le, List.nil_append, v, v', hpp]
  · intro q r
    obtain ⟨h1, h2, h3, -⟩ := hren q.thread q q (Or.inl rfl) (Or.inl rfl)
    refine ⟨?_, ?_, ?_, ?_, ?_⟩
    · have := h1; rw [← h.lin q, ← h'.lin q] at this; exact this
    · rw [s_eq (h.valid q), s_eq (h'.valid q), h.lin q, h'.lin q, h2]
    · rw [var_eq (h.valid q), var_eq (h'.valid q), h.lin q, h'.lin q, h2]
    · rw [(C11_observers (h.valid q).wf).1, (C11_observers (h'.valid q).wf).1]
      have e1 : (w.regs q).deps = ((a0.run p).1.regs q).deps := congrArg LinForm.deps (h.lin q)
      have e2 : (w'.regs q).deps = ((a0.run p').1.regs q).deps := congrArg LinForm.deps (h'.lin q)
      rw [e1, e2, h3]
    · rw [cov_eq (h.valid q).wf (h.valid r).wf, cov_eq (h'.valid q).wf (h'.valid r).wf, h.lin q, h'.lin q, h.lin r, h'.lin r]
      by_cases hqr : q.thread = r.thread
      · exact (hren r.thread q r (Or.inl hqr) (Or.inl rfl)).2.2.2
      · obtain ⟨ρ1, v1, -⟩ := view q.thread
        obtain ⟨ρ2, v2, -⟩ := view r.thread
        obtain ⟨ρ1', v1', -⟩ := view' q.thread
        obtain ⟨ρ2', v2', -⟩ := view' r.thread
        rw [← hpp] at v1' v2'
        show ((a0.run p).1.regs q).cov ((a0.run p).1.regs r) = ((a0.run p').1.regs q).cov ((a0.run p').1.regs r)
        rw [cross_cov ho hqr v1 v2, cross_cov ho' hqr v1' v2']

/-- two threads, each constructing a variable and combining it with a shared one; two interleavings in which the ids differ -/
example :
    let shared : Reg := ⟨0, 0⟩
    let t1 : List (Step ℝ) := [.new ⟨1, 0⟩ 1 2, .binary ⟨1, 1⟩ ⟨1, 0⟩ shared 3 1 1, .readS ⟨1, 1⟩]
    let t2 : List (Step ℝ) := [.new ⟨2, 0⟩ 5 6, .binary ⟨2, 1⟩ shared ⟨2, 0⟩ 3 2 1]
    (∀ st ∈ t1 ++ t2, RaceFree st) ∧ (∀ st ∈ t2 ++ t1, RaceFree st) ∧
    (∀ t, project t (t1 ++ t2) = project t (t2 ++ t1)) := by
  refine ⟨?_, ?_, ?_⟩
  · simp [RaceFree, threadOf, writes, reads]
  · simp [RaceFree, threadOf, writes, reads]
  · intro t
    by_cases h1 : t = 1
    · subst h1; simp [project, threadOf, writes]
    · by_cases h2 : t = 2
      · subst h2; simp [project, threadOf, writes]
      · simp [project, threadOf, writes, Ne.symm h1, Ne.symm h2]

/-- the ids of two variables constructed with another variable in between -/
example : ∃ w w' os os', World.init.run [.new ⟨1, 0⟩ (5 : ℝ) 3] = some (w, os) ∧
    World.init.run [.new ⟨1, 0⟩ (5 : ℝ) 3, .new ⟨2, 0⟩ 1 1, .binary ⟨2, 1⟩ ⟨2, 0⟩ ⟨1, 0⟩ 6 1 1, .new ⟨1, 1⟩ 2 4] = some (w', os') ∧
    (w.regs ⟨1, 0⟩).id ≠ (w'.regs ⟨1, 1⟩).id := by
  obtain ⟨w, os, e, -⟩ := C15_no_ub ltb_zero_real [.new ⟨1, 0⟩ (5 : ℝ) 3] (by simp [countNew])
  obtain ⟨w', os', e', -⟩ := C15_no_ub ltb_zero_real [.new ⟨1, 0⟩ (5 : ℝ) 3, .new ⟨2, 0⟩ 1 1, .binary ⟨2, 1⟩ ⟨2, 0⟩ ⟨1, 0⟩ 6 1 1, .new ⟨1, 1⟩ 2 4]
    (by simp [countNew])
  have h3 : CCmp.ltb (3 : ℝ) 0 = false := by rw [← Bool.not_eq_true, ltb_iff]; norm_num
  have h4 : CCmp.ltb (4 : ℝ) 0 = false := by rw [← Bool.not_eq_true, ltb_iff]; norm_num
  exact ⟨w, w', os, os', e, e', (C08_distinct_ids [] [.new ⟨2, 0⟩ 1 1, .binary ⟨2, 1⟩ ⟨2, 0⟩ ⟨1, 0⟩ 6 1 1] ⟨1, 0⟩ ⟨1, 1⟩ 5 2 3 4 h3 h4
    (by simp [countNew]) e e').2.2.1⟩

example := C08_schedule_independent [.new ⟨0, 0⟩ 1 2]
  ([.new ⟨1, 0⟩ 1 2, .binary ⟨1, 1⟩ ⟨1, 0⟩ ⟨0, 0⟩ 3 1 1] ++ [.new ⟨2, 0⟩ 5 6, .binary ⟨2, 1⟩ ⟨0, 0⟩ ⟨2, 0⟩ 3 2 1])
  ([.new ⟨2, 0⟩ 5 6, .binary ⟨2, 1⟩ ⟨0, 0⟩ ⟨2, 0⟩ 3 2 1] ++ [.new ⟨1, 0⟩ 1 2, .binary ⟨1, 1⟩ ⟨1, 0⟩ ⟨0, 0⟩ 3 1 1])
  (by simp [RaceFree, threadOf, writes, reads]) (by simp [RaceFree, threadOf, writes, reads])
  (by
    intro t
    by_cases h1 : t = 1
    · subst h1; simp [project, threadOf, writes]
    · by_cases h2 : t = 2
      · subst h2; simp [project, threadOf, writes]
      · simp [project, threadOf, writes, Ne.symm h1, Ne.symm h2])
  (by simp [countNew]) (by simp [countNew])

end Unc.Props
