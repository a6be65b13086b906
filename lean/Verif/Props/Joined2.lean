import Verif.Lemmas.Joined5

/-!
# C82: the work after the threads have finished, to second order in exact arithmetic
-/

namespace Unc.Props
open Unc Unc.Spec SMap HessGrad

/-- **C82** After a sequential phase `p0` the threads run race-free code with variables of both classes, in the schedule `p` or in the schedule `p'`.  Then
the main thread makes calls `q` on `UReal2` variables, which may combine those of all threads and create others, in exact arithmetic.  If each operand of
a call of `q` has second derivative 0 (as with `+`, `-`, `*`) or satisfies `isindep()`, nothing about the schedule or about uninitialised storage can be seen afterwards: there
is no undefined behaviour, all calls in `q` return the same and all questions about the `UReal2` variables have the same answers.  Missing: the
other functions of values with several variables, for which it is false (`C82_joined_false`), and rounding (`C82_rounding_false`). -/
theorem C82_after2_partial {solve : (ℕ → ℕ → ℝ) → Option (List ℝ)} (hs : LowerOnly solve) (p0 p p' q q' : List (MStep ℝ))
    (ht0 : ∀ st ∈ p0, ThresholdOkM st) (ht : ∀ st ∈ p, ThresholdOkM st) (ht' : ∀ st ∈ p', ThresholdOkM st) (htq : ∀ st ∈ q, ThresholdOkM st)
    (hp : ∀ st ∈ p, RaceFreeM st) (hp' : ∀ st ∈ p', RaceFreeM st) (hpp : ∀ t, projectM t p = projectM t p') (hqq : q.map callOf = q'.map callOf)
    (hq : ∀ w os, MWorld.init.run solve (p0 ++ p) = some (w, os) → CalmRun solve w q)
    (hc : countNewM p0 + countNewM p + countNewM q < 2147483647) (hc' : countNewM p0 + countNewM p' + countNewM q' < 2147483647) :
    ∃ w os w' os', MWorld.init.run solve (p0 ++ p ++ q) = some (w, os) ∧ MWorld.init.run solve (p0 ++ p' ++ q') = some (w', os') ∧
      os.length = (p0 ++ p ++ q).length ∧ os'.length = (p0 ++ p' ++ q').length ∧
      os.drop (p0 ++ p).length = os'.drop (p0 ++ p').length ∧ SameSecond (fun _ => True) w w' := by
  have h00 : CCmp.ltb (0 : ℝ) 0 = false := by rw [Bool.eq_false_iff, Ne, ltb_iff]; norm_num
  obtain ⟨w0, os0, a0, S0, e0, l0, h0, hcount⟩ := MSim.steps h00 hs p0 MSim.init ht0 (by simp [DMix.init]; omega)
  simp only [DMix.init, zero_add] at hcount
  obtain ⟨w, os, a, S, e, l, m, hca⟩ := MSim.steps h00 hs p h0 ht (by omega)
  obtain ⟨w', os', a', S', e', l', m', hca'⟩ := MSim.steps h00 hs p' h0 ht' (by omega)
  have c0 : w0.lastId = a0.count := h0.one.count
  have ca : w.lastId = a.count := m.one.count
  have ca' : w'.lastId = a'.count := m'.one.count
  -- one set of moments for each variable, and who created it
  have init : Own2 2147483647 (MWorld.init : MWorld ℝ) (fun _ => exN) fun _ => 0 :=
    ⟨fun r i mm hi => by simp [MWorld.init, UReal2.default', HessGrad.empty, HessGrad.momOf, find?] at hi⟩
  obtain ⟨tab0, o0, own0⟩ := Own2.run hs p0 init MSim.init ht0 (by simp [DMix.init]; omega) (Or.inr le_rfl) e0
  have own0' : Own2 a0.count w0 tab0 o0 := ⟨fun r i mm hi => by
    obtain ⟨h1, h2, -⟩ := own0.mom r i mm hi
    exact ⟨h1, h2, Or.inl (c0 ▸ h2)⟩⟩
  obtain ⟨tab, o, own⟩ := own0'.run hs p h0 ht (by omega) (Or.inl hp) e
  obtain ⟨tab', o', own'⟩ := own0'.run hs p' h0 ht' (by omega) (Or.inl hp') e'
  have view : ∀ t, ∃ v ρ ρ', TSim t w v ρ ∧ TSim t w' v ρ' ∧ (∀ i ≤ (a0.count : ℤ), ρ i = i) ∧ ∀ i ≤ (a0.count : ℤ), ρ' i = i := by
    intro t
    obtain ⟨w1, os1, v, ρ, e1, -, ev, h, x⟩ := TSim.run h00 hs p (TSim.start t w0) h0 h0 hp ht (by omega)
    obtain ⟨w1', os1', v', ρ', e1', -, ev', h', x'⟩ := TSim.run h00 hs p' (TSim.start t w0) h0 h0 hp' ht' (by omega)
    rw [e] at e1
    rw [e'] at e1'
    cases e1
    cases e1'
    rw [← hpp, ev] at ev'
    simp only [Option.some.injEq, Prod.mk.injEq] at ev'
    obtain ⟨rfl, -⟩ := ev'
    exact ⟨v, ρ, ρ', h, h', fun i hi => x.2 i (c0 ▸ hi), fun i hi => x'.2 i (c0 ▸ hi)⟩
  choose v ρ ρ' s s' k k' using view
  have below : ∀ {w : MWorld ℝ} {a : DMix} {S : Finset ℤ}, MSim w a S → a.count < 2147483647 → ∀ r, Ok2 (w.second r) := fun {w a S} m hc r =>
    ⟨m.valid r, fun i hi => by
      have := (m.pos r i (m.vars r ▸ mem_vars_keys.2 hi)).2
      have h' : (a.count : ℤ) < 2147483647 := by exact_mod_cast hc
      exact lt_of_le_of_lt this h'⟩
  have fw : ∀ r, w.second r = ((v r.thread).second r).shift (ρ r.thread) := fun r => (s r.thread).second r (Or.inl rfl)
  have fw' : ∀ r, w'.second r = ((v r.thread).second r).shift (ρ' r.thread) := fun r => (s' r.thread).second r (Or.inl rfl)
  have owner : ∀ r, ∀ i ∈ ((v r.thread).second r).hg.vars, (ρ r.thread i ≤ a0.count ∨ o (ρ r.thread i) = r.thread) ∧
      (ρ' r.thread i ≤ a0.count ∨ o' (ρ' r.thread i) = r.thread) := by
    intro r i hi
    have h1 := Mom.momOf_dOf hi
    refine ⟨(own.mom r (ρ r.thread i) (((v r.thread).second r).hg.dOf i).mom ?_).2.2.imp_right And.right, (own'.mom r (ρ' r.thread i) (((v r.thread).second r).hg.dOf i).mom ?_).2.2.imp_right And.right⟩
    · rw [fw]; exact (momOf_shift (s _).shift _ i).trans h1
    · rw [fw']; exact (momOf_shift (s' _).shift _ i).trans h1
  obtain ⟨n, ids, ids', mom, hinj, hinj', hb, hb', hal⟩ := table_of_shift (v := fun r => (v r.thread).second r) (w := w.second) (w' := w'.second)
    (f := fun r => ρ r.thread) (f' := fun r => ρ' r.thread) (M := a.count) (M' := a'.count) (fun r => (s r.thread).shift) (fun r => (s' r.thread).shift) fw fw'
    (below m (by omega)) (below m' (by omega)) (fun r i hi q j hj => by
      by_cases hrq : r.thread = q.thread
      · rw [hrq, (s _).shift.mono.injective.eq_iff, (s' _).shift.mono.injective.eq_iff]
      · rw [same_variable hrq (s _).shift (s _).shift (k _) (k _) (owner r i hi).1 (owner q j hj).1,
          same_variable hrq (s' _).shift (s' _).shift (k' _) (k' _) (owner r i hi).2 (owner q j hj).2])
    (fun r i hi => m.pos r i (m.vars r ▸ hi)) (fun r i hi => m'.pos r i (m'.vars r ▸ hi)) fun r i mm hi => (own.mom r i mm hi).1
  obtain ⟨w1, osq, w1', r1, r1', len, same⟩ := alike_run hs q q' hqq hinj hinj' ca ca' hb hb' hal htq (by omega) (by omega)
    (hq w (os0 ++ os) (by simp [MWorld.run_append, e0, e]))
  have hlen : q'.length = q.length := by simpa using (congrArg List.length hqq).symm
  refine ⟨w1, os0 ++ os ++ osq, w1', os0 ++ os' ++ osq, by simp [MWorld.run_append, e0, e, r1], by simp [MWorld.run_append, e0, e', r1'],
    by simp [l0, l, len], by simp [l0, l', len, hlen], ?_, same⟩
  rw [List.drop_left' (by simp [l0, l]), List.drop_left' (by simp [l0, l'])]

/-- what the main thread does in the example: `x * y + z`, where `x`, `y` were created by the first thread, `z` by the second and `v` by itself; `exp(y)`; their sum; and
another variable -/
def exCalm : List (MStep ℝ) :=
  [.two (.binary ⟨0, 1⟩ ⟨1, 0⟩ ⟨1, 1⟩ 0 0 0 0 0 1) ⟨exN, fun _ _ => 0⟩, .two (.binary ⟨0, 2⟩ ⟨0, 1⟩ ⟨2, 0⟩ 0 1 1 0 0 0) ⟨exN, fun _ _ => 0⟩,
   .two (.unary ⟨0, 3⟩ ⟨1, 1⟩ 1 1 1) ⟨exN, fun _ _ => 0⟩, .two (.binary ⟨0, 4⟩ ⟨0, 2⟩ ⟨0, 3⟩ 1 1 1 0 0 0) ⟨exN, fun _ _ => 0⟩, exNew ⟨0, 5⟩]

/-- the calls before and during the concurrent phase, with the second thread between the calls of the first one or after -/
example : ∃ w os w' os', MWorld.init.run exSolve ([exNew ⟨0, 0⟩] ++ [exNew ⟨1, 0⟩, exNew ⟨2, 0⟩, exNew ⟨1, 1⟩] ++ exCalm) = some (w, os) ∧
    MWorld.init.run exSolve ([exNew ⟨0, 0⟩] ++ [exNew ⟨1, 0⟩, exNew ⟨1, 1⟩, exNew ⟨2, 0⟩] ++ exCalm) = some (w', os') ∧
    os.drop 4 = os'.drop 4 ∧ (w.second ⟨0, 4⟩).m 4 = (w'.second ⟨0, 4⟩).m 4 := by
  have thr : ∀ r, ThresholdOkM (exNew r) := fun r => Or.inl (by rw [ltb_iff]; norm_num)
  obtain ⟨w, os, w', os', e, e', -, -, ho, h⟩ := C82_after2_partial exSolve_lower [exNew ⟨0, 0⟩] [exNew ⟨1, 0⟩, exNew ⟨2, 0⟩, exNew ⟨1, 1⟩]
    [exNew ⟨1, 0⟩, exNew ⟨1, 1⟩, exNew ⟨2, 0⟩] exCalm exCalm (by simp [thr]) (by simp [thr]) (by simp [thr])
    (by
      intro st hst
      simp only [exCalm, List.mem_cons, List.not_mem_nil, or_false] at hst
      rcases hst with rfl | rfl | rfl | rfl | rfl
      all_goals first | exact thr _ | exact trivial)
    (by simp [RaceFreeM, exNew, threadOfM, writes2, readsM, reads2]) (by simp [RaceFreeM, exNew, threadOfM, writes2, readsM, reads2])
    (by
      intro t
      by_cases h1 : t = 1
      · subst h1; simp [projectM, exNew, threadOfM, writes2]
      · by_cases h2 : t = 2
        · subst h2; simp [projectM, exNew, threadOfM, writes2]
        · simp [projectM, exNew, threadOfM, writes2, Ne.symm h1, Ne.symm h2])
    rfl
    (by
      intro w os e
      have hi : (w.second ⟨1, 1⟩).isindep = true := by
        simp only [List.cons_append, List.nil_append, MWorld.run, exNew_step, Option.bind_some, Option.map_some, Option.some.injEq, Prod.mk.injEq] at e
        rw [← e.1]
        rfl
      refine ⟨⟨Or.inl rfl, Or.inl rfl⟩, fun w1 o1 h1 => ⟨⟨Or.inl rfl, Or.inl rfl⟩, fun w2 o2 h2 => ⟨Or.inr ?_, fun w3 o3 _ =>
        ⟨⟨Or.inl rfl, Or.inl rfl⟩, fun w4 o4 _ => ⟨trivial, fun _ _ _ => trivial⟩⟩⟩⟩⟩
      have keep : ∀ {w w1 : MWorld ℝ} {r a b : Reg} {f fx fy fxx fyy fxy : ℝ} {k : Junk ℝ} {o : Out ℝ}, r ≠ ⟨1, 1⟩ →
          w.step exSolve (.two (.binary r a b f fx fy fxx fyy fxy) k) = some (w1, o) → w1.second ⟨1, 1⟩ = w.second ⟨1, 1⟩ := by
        intro w w1 r a b f fx fy fxx fyy fxy k o hr h
        simp only [MWorld.step, World2.step, Option.map_eq_some_iff, Prod.mk.injEq, Prod.exists] at h
        obtain ⟨v, o', ⟨z, -, rfl, -⟩, rfl, -⟩ := h
        simp [World2.set, hr.symm]
      rw [keep (by decide) h2, keep (by decide) h1]
      exact hi)
    (by simp [countNewM, countNew, countNew2, exCalm, exNew]) (by simp [countNewM, countNew, countNew2, exCalm, exNew])
  exact ⟨w, os, w', os', e, e', ho, h.m _ _ trivial⟩

end Unc.Props
