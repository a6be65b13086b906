import Verif.Lemmas.Schedule2
import Verif.Props.Order
import Verif.Props.FloatExact
import Verif.Props.FloatFail2
import Verif.Lemmas.Units1

/-!
# C82: threads which use both classes, in any arithmetic
-/

namespace Unc.Props
open Unc Unc.Spec Unc.SMap Unc.HessGrad

section
variable {R : Type*} [Zero R] [One R] [Neg R] [Add R] [Sub R] [Mul R] [Div R] [NatCast R] [CCmp R] [CSqrt R]

omit [Zero R] [One R] [Neg R] [Add R] [Sub R] [Mul R] [Div R] [NatCast R] [CCmp R] [CSqrt R] in
theorem TSim.start (t : ℕ) (w : MWorld R) : TSim t w w (fun i => i) where
  shift := ⟨fun _ _ h => h, fun _ _ => rfl⟩
  last := le_rfl
  le := le_rfl
  first r _ := by simp [UReal.shift, SMap.mapKey]
  second r _ := by simp [UReal2.shift, HessGrad.shift, SMap.mapKey, shiftP]

theorem MWorld.run_append (solve : (ℕ → ℕ → R) → Option (List R)) (p q : List (MStep R)) (w : MWorld R) :
    w.run solve (p ++ q) = (w.run solve p).bind fun (w', os) => (w'.run solve q).map fun (w'', os') => (w'', os ++ os') := by
  induction p generalizing w with
  | nil => cases h : w.run solve q <;> simp [MWorld.run, h]
  | cons st p ih =>
    simp only [List.cons_append, MWorld.run]
    cases h : w.step solve st with
    | none => rfl
    | some x =>
      obtain ⟨w1, o⟩ := x
      simp only [Option.bind_some, ih]
      cases h2 : w1.run solve p with
      | none => rfl
      | some x =>
        obtain ⟨w2, os⟩ := x
        simp only [Option.bind_some, Option.map_some]
        cases h3 : w2.run solve q <;> simp

/-- **C82** After a sequential phase `p0`, threads run race-free code with variables of both classes, in any arithmetic (only `0 < 0` must be false).  `p`
and `p'` are two interleavings in which thread `t` makes the same calls, whatever the other threads do and whatever uninitialised storage
contains.  Neither has undefined behaviour, thread `t` receives the same return values and exceptions, and all answers about the variables it sees are the
same. -/
theorem C82_threads_partial (h00 : CCmp.ltb (0 : R) 0 = false) {solve : (ℕ → ℕ → R) → Option (List R)} (hs : LowerOnly solve) (t : ℕ) (p0 p p' : List (MStep R))
    (ht0 : ∀ st ∈ p0, ThresholdOkM st) (ht : ∀ st ∈ p, ThresholdOkM st) (ht' : ∀ st ∈ p', ThresholdOkM st) (hp : ∀ st ∈ p, RaceFreeM st)
    (hp' : ∀ st ∈ p', RaceFreeM st) (hpp : projectM t p = projectM t p') (hc : countNewM p0 + countNewM p < 2147483647)
    (hc' : countNewM p0 + countNewM p' < 2147483647) :
    ∃ w os w' os', MWorld.init.run solve (p0 ++ p) = some (w, os) ∧ MWorld.init.run solve (p0 ++ p') = some (w', os') ∧
      os.length = (p0 ++ p).length ∧ os'.length = (p0 ++ p').length ∧
      threadOutsM t p (os.drop p0.length) = threadOutsM t p' (os'.drop p0.length) ∧
      SameFirst (fun q => q.thread = t ∨ q.thread = 0) w w' ∧ SameSecond (fun q => q.thread = t ∨ q.thread = 0) w w' ∧
      ∀ q r : Reg, (q.thread = t ∨ q.thread = 0) → (r.thread = t ∨ r.thread = 0) →
        ((w.first q).indepid = some (w.second r).indepid ↔ (w'.first q).indepid = some (w'.second r).indepid) := by
  obtain ⟨w0, os0, a0, S0, e0, l0, h0, hcount⟩ := MSim.steps h00 hs p0 MSim.init ht0 (by simp [DMix.init]; omega)
  simp only [DMix.init, zero_add] at hcount
  obtain ⟨w, os, v, ρ, e, l, ev, h, -⟩ := TSim.run h00 hs p (TSim.start t w0) h0 h0 hp ht (by omega)
  obtain ⟨w', os', v', ρ', e', l', ev', h', -⟩ := TSim.run h00 hs p' (TSim.start t w0) h0 h0 hp' ht' (by omega)
  rw [← hpp, ev] at ev'
  simp only [Option.some.injEq, Prod.mk.injEq] at ev'
  obtain ⟨rfl, ho⟩ := ev'
  refine ⟨w, os0 ++ os, w', os0 ++ os', by simp [MWorld.run_append, e0, e], by simp [MWorld.run_append, e0, e'], by simp [l0, l], by simp [l0, l'],
    by rw [← l0, List.drop_left, List.drop_left, ho], sameFirst_trans h.sameFirst h'.sameFirst, sameSecond_trans h.sameSecond h'.sameSecond,
    fun q r hq hr => ?_⟩
  have key : ∀ {w : MWorld R} {ρ : ℤ → ℤ}, TSim t w v ρ →
      ((w.first q).indepid = some (w.second r).indepid ↔ (v.first q).indepid = some (v.second r).indepid) := by
    intro w ρ h
    rw [h.first q hq, h.second r hr, UReal.indepid_shift h.shift, UReal2.indepid_shift h.shift, ← Option.map_some]
    exact (Option.map_injective h.shift.mono.injective).eq_iff
  exact (key h).trans (key h').symm

/-- **C82** If all threads make the same calls in `p` and `p'`, also the covariance and the correlation of two `UReal` variables of different threads
are the same, in any arithmetic. -/
theorem C82_across_partial (h00 : CCmp.ltb (0 : R) 0 = false) {solve : (ℕ → ℕ → R) → Option (List R)} (hs : LowerOnly solve) (p0 p p' : List (MStep R))
    (ht0 : ∀ st ∈ p0, ThresholdOkM st) (ht : ∀ st ∈ p, ThresholdOkM st) (ht' : ∀ st ∈ p', ThresholdOkM st) (hp : ∀ st ∈ p, RaceFreeM st)
    (hp' : ∀ st ∈ p', RaceFreeM st) (hpp : ∀ t, projectM t p = projectM t p') (hc : countNewM p0 + countNewM p < 2147483647)
    (hc' : countNewM p0 + countNewM p' < 2147483647) :
    ∃ w os w' os', MWorld.init.run solve (p0 ++ p) = some (w, os) ∧ MWorld.init.run solve (p0 ++ p') = some (w', os') ∧
      ∀ q r, UReal.cov (w.first q) (w.first r) = UReal.cov (w'.first q) (w'.first r) ∧
        UReal.corr (w.first q) (w.first r) = UReal.corr (w'.first q) (w'.first r) := by
  obtain ⟨w0, os0, a0, S0, e0, l0, h0, hcount⟩ := MSim.steps h00 hs p0 MSim.init ht0 (by simp [DMix.init]; omega)
  simp only [DMix.init, zero_add] at hcount
  obtain ⟨w, os, S, e, -, m⟩ := MSim.run h00 hs p h0 ht (by omega)
  obtain ⟨w', os', S', e', -, m'⟩ := MSim.run h00 hs p' h0 ht' (by omega)
  have c0 : w0.lastId = a0.count := h0.one.count
  have own0 : OwnM a0.count a0 (fun _ => 0) := ⟨fun r i hi => Or.inl (h0.one.below r i hi), fun r _ i hi => h0.one.below r i hi, h0.one.below⟩
  obtain ⟨o, ho⟩ := own0.run (p.zip os) fun q hq => hp q.1 (List.of_mem_zip hq).1
  obtain ⟨o', ho'⟩ := own0.run (p'.zip os') fun q hq => hp' q.1 (List.of_mem_zip hq).1
  have view : ∀ t, ∃ v ρ ρ', TSim t w v ρ ∧ TSim t w' v ρ' ∧ (∀ i ≤ (a0.count : ℤ), ρ i = i) ∧ ∀ i ≤ (a0.count : ℤ), ρ' i = i := by
    intro t
    obtain ⟨w1, os1, v, ρ, e1, -, ev, h, x⟩ := TSim.run h00 hs p (TSim.start t w0) h0 h0 hp ht (by omega)
    obtain ⟨w1', os1', v', ρ', e1', -, ev', h', x'⟩ := TSim.run h00 hs p' (TSim.start t w0) h0 h0 hp' ht' (by omega)
    rw [e] at e1
    rw [e'] at e1'
    cases e1
    cases e1'
    rw [← hpp, ev] at ev'
    simp only [Option.some.injEq, Prod.mk.injEq] at ev'
    obtain ⟨rfl, -⟩ := ev'
    exact ⟨v, ρ, ρ', h, h', fun i hi => x.2 i (c0 ▸ hi), fun i hi => x'.2 i (c0 ▸ hi)⟩
  refine ⟨w, os0 ++ os, w', os0 ++ os', by simp [MWorld.run_append, e0, e], by simp [MWorld.run_append, e0, e'], fun q r => ?_⟩
  obtain ⟨v₁, ρ₁, ρ₁', s1, s1', k1, k1'⟩ := view q.thread
  obtain ⟨v₂, ρ₂, ρ₂', s2, s2', k2, k2'⟩ := view r.thread
  have hcov : UReal.cov (w.first q) (w.first r) = UReal.cov (w'.first q) (w'.first r) := by
    by_cases hqr : q.thread = r.thread
    · exact (sameFirst_trans s1.sameFirst s1'.sameFirst).cov q r (Or.inl rfl) (Or.inl hqr.symm)
    · have wq : (w.first q).WF := m.one.wf q
      have wr : (w.first r).WF := m.one.wf r
      have wq' : (w'.first q).WF := m'.one.wf q
      have wr' : (w'.first r).WF := m'.one.wf r
      have dq : (w.first q).deps = (a0.run (p.zip os)).first q := m.one.deps q
      have dr : (w.first r).deps = (a0.run (p.zip os)).first r := m.one.deps r
      have dq' : (w'.first q).deps = (a0.run (p'.zip os')).first q := m'.one.deps q
      have dr' : (w'.first r).deps = (a0.run (p'.zip os')).first r := m'.one.deps r
      have f1 := s1.first q (Or.inl rfl)
      have f2 := s2.first r (Or.inl rfl)
      have f1' := s1'.first q (Or.inl rfl)
      have f2' := s2'.first r (Or.inl rfl)
      rw [f1] at wq dq ⊢
      rw [f2] at wr dr ⊢
      rw [f1'] at wq' dq' ⊢
      rw [f2'] at wr' dr' ⊢
      refine UReal.cov_shift_two s1.shift s2.shift s1'.shift s2'.shift wq wr wq' wr' fun i hi j hj => ?_
      rw [same_variable hqr s1.shift s2.shift k1 k2 (ho.own q _ (dq ▸ UReal.mem_deps_shift s1.shift hi)) (ho.own r _ (dr ▸ UReal.mem_deps_shift s2.shift hj)),
        same_variable hqr s1'.shift s2'.shift k1' k2' (ho'.own q _ (dq' ▸ UReal.mem_deps_shift s1'.shift hi))
          (ho'.own r _ (dr' ▸ UReal.mem_deps_shift s2'.shift hj))]
  refine ⟨hcov, ?_⟩
  unfold UReal.corr
  rw [hcov, (sameFirst_trans s1.sameFirst s1'.sameFirst).s q (Or.inl rfl), (sameFirst_trans s2.sameFirst s2'.sameFirst).s r (Or.inl rfl)]

end

/-! ## after the threads have finished -/

/-- a thread creates two variables and another one creates a third; all have mean 0 and are standard normal -/
def exNew (r : Reg) : MStep ℝ := .two (.newStd r 0 1 (fun k => [0, 3, 0, 15, 0, 105].getD k 0) (-1)) ⟨exN, fun _ _ => 0⟩

/-- `exp(x * y + z)` at 0, computed by the main thread afterwards -/
def exJoin : List (MStep ℝ) :=
  [.two (.binary ⟨0, 0⟩ ⟨1, 0⟩ ⟨1, 1⟩ 0 0 0 0 0 1) ⟨exN, fun _ _ => 0⟩, .two (.binary ⟨0, 1⟩ ⟨0, 0⟩ ⟨2, 0⟩ 0 1 1 0 0 0) ⟨exN, fun _ _ => 0⟩,
   .two (.unary ⟨0, 2⟩ ⟨0, 1⟩ 1 1 1) ⟨exN, fun _ _ => 0⟩]

theorem exNew_step (w : MWorld ℝ) (r : Reg) :
    w.step exSolve (exNew r) = some (⟨nextId w.lastId, w.first, fun q => if q = r then elem2 (nextId w.lastId) 0 1 exN else w.second q⟩, .done) := by
  have hl : CCmp.ltb (-1 : ℝ) 0 = true := by rw [ltb_iff]; norm_num
  have hl' : CCmp.ltb (1 : ℝ) 0 = false := by rw [Bool.eq_false_iff, Ne, ltb_iff]; norm_num
  simp [exNew, MWorld.step, World2.step, UReal2.mkStd, Check.ctorCheck, hl, hl', World2.finish, Except.map, UReal2.buildStd, HessGrad.empty, HessGrad.modDiag,
    HessGrad.newDiag, SMap.upsert, elem2, exN, UReal2.momOfArray]
  exact ⟨rfl, rfl⟩

theorem exJoin_run {i j k : VId} (hij : i < j) (hki : k ≠ i) (hkj : k ≠ j) (hi : i < maxId) (hj : j < maxId) (hk : k < maxId) (w : MWorld ℝ)
    (h1 : w.second ⟨1, 0⟩ = elem2 i 0 1 exN) (h2 : w.second ⟨1, 1⟩ = elem2 j 0 1 exN) (h3 : w.second ⟨2, 0⟩ = elem2 k 0 1 exN) :
    ∃ w', w.run exSolve exJoin = some (w', [.done, .done, .done]) ∧ (w'.second ⟨0, 2⟩).var = some (3 / 2 + if i < k ∧ k < j then 0 else 1) := by
  obtain ⟨P, W, z, e, -, hv⟩ := exOrder_eval hij hki hkj hi hj hk
  have hP : UReal2.binary exN (elem2 i 0 1 exN) (elem2 j 0 1 exN) 0 0 0 0 0 1 = some P ∧ UReal2.add exN P (elem2 k 0 1 exN) = some W ∧
      UMath2.exp exN W = some z := by
    cases h1 : UReal2.mul exN (elem2 i 0 1 exN) (elem2 j 0 1 exN) with
    | none => simp [exOrder, evalU2, h1] at e
    | some P' =>
      cases h2 : UReal2.add exN P' (elem2 k 0 1 exN) with
      | none => simp [exOrder, evalU2, h1, h2] at e
      | some W' =>
        cases h3 : UMath2.exp exN W' with
        | none => simp [exOrder, evalU2, h1, h2, h3] at e
        | some z' =>
          simp [exOrder, evalU2, h1, h2, h3] at e
          obtain ⟨rfl, rfl, rfl⟩ := e
          refine ⟨?_, h2, h3⟩
          simpa [UReal2.mul, elem2] using h1
  obtain ⟨e1, e2, e3⟩ := hP
  have m1 : P.mu = 0 := mu_binary2 e1
  have m2 : W.mu = 0 := by
    unfold UReal2.add at e2
    rw [mu_binary2 e2, m1]
    simp [elem2]
  have e2' : UReal2.binary exN P (elem2 k 0 1 exN) 0 1 1 0 0 0 = some W := by simpa [UReal2.add, m1, elem2] using e2
  have e3' : UReal2.unary exN W 1 1 1 = some z := by simpa [UMath2.exp, m2, CMath.exp] using e3
  refine ⟨⟨w.lastId, w.first, fun q => if q = ⟨0, 2⟩ then z else if q = ⟨0, 1⟩ then W else if q = ⟨0, 0⟩ then P else w.second q⟩, ?_, by simp [hv]⟩
  simp [exJoin, MWorld.run, MWorld.step, World2.step, World2.set, h1, h2, h3, e1, e2', e3']

/-- **C82**, what fails at second order, with exact arithmetic: thread 1 creates `x` and `y` and thread 2 creates `z`, all standard normal; then the main
thread computes `exp(x * y + z)`.  Its variance is 5/2 if thread 2 runs after thread 1, and 3/2 if it runs in the middle. -/
theorem C82_joined_false : ∃ p p' : List (MStep ℝ), (∀ st ∈ p, RaceFreeM st) ∧ (∀ st ∈ p', RaceFreeM st) ∧ (∀ t, projectM t p = projectM t p') ∧
    ∃ w os w' os', MWorld.init.run exSolve (p ++ exJoin) = some (w, os) ∧ MWorld.init.run exSolve (p' ++ exJoin) = some (w', os') ∧
      (w.second ⟨0, 2⟩).var = some (5 / 2) ∧ (w'.second ⟨0, 2⟩).var = some (3 / 2) := by
  refine ⟨[exNew ⟨1, 0⟩, exNew ⟨1, 1⟩, exNew ⟨2, 0⟩], [exNew ⟨1, 0⟩, exNew ⟨2, 0⟩, exNew ⟨1, 1⟩], ?_, ?_, ?_, ?_⟩
  · simp [RaceFreeM, exNew, threadOfM, writes2, readsM, reads2]
  · simp [RaceFreeM, exNew, threadOfM, writes2, readsM, reads2]
  · intro t
    by_cases h1 : t = 1
    · subst h1; simp [projectM, exNew, threadOfM, writes2]
    · by_cases h2 : t = 2
      · subst h2; simp [projectM, exNew, threadOfM, writes2]
      · simp [projectM, exNew, threadOfM, writes2, Ne.symm h1, Ne.symm h2]
  · have n1 : nextId 0 = 1 := by decide
    have n2 : nextId 1 = 2 := by decide
    have n3 : nextId 2 = 3 := by decide
    obtain ⟨w, e, h⟩ := exJoin_run (i := 1) (j := 2) (k := 3) (by decide) (by decide) (by decide) (by decide) (by decide) (by decide)
      ⟨3, fun _ => UReal.default', fun q => if q = ⟨2, 0⟩ then elem2 3 0 1 exN else if q = ⟨1, 1⟩ then elem2 2 0 1 exN else
        if q = ⟨1, 0⟩ then elem2 1 0 1 exN else UReal2.default'⟩ (by simp) (by simp) (by simp)
    obtain ⟨w', e', h'⟩ := exJoin_run (i := 1) (j := 3) (k := 2) (by decide) (by decide) (by decide) (by decide) (by decide) (by decide)
      ⟨3, fun _ => UReal.default', fun q => if q = ⟨1, 1⟩ then elem2 3 0 1 exN else if q = ⟨2, 0⟩ then elem2 2 0 1 exN else
        if q = ⟨1, 0⟩ then elem2 1 0 1 exN else UReal2.default'⟩ (by simp) (by simp) (by simp)
    refine ⟨w, [.done, .done, .done] ++ [.done, .done, .done], w', [.done, .done, .done] ++ [.done, .done, .done], ?_, ?_, ?_, ?_⟩
    · simp [MWorld.run, exNew_step, MWorld.init, n1, n2, n3, e]
    · simp [MWorld.run, exNew_step, MWorld.init, n1, n2, n3, e']
    · rw [h]; norm_num
    · rw [h']; norm_num

/-! ## rounding -/

/-- 2²⁷ -/
noncomputable def fpWide : FP binary64 := ⟨2 ^ 27, rep_double 27 (2 ^ 52) (by norm_num) (by norm_num) (by norm_num)⟩
/-- 5/4 -/
noncomputable def fpNarrow : FP binary64 := ⟨5 / 4, rep_double 0 (5 * 2 ^ 50) (by norm_num) (by norm_num) (by norm_num)⟩

theorem wide_sq : (fpWide * fpWide).val = 2 ^ 54 := by
  rw [FP.val_mul]
  change binary64.rd (2 ^ 27 * 2 ^ 27) = 2 ^ 54
  rw [bits_val _ 54 (2 ^ 52) (by norm_num) (by norm_num) (by norm_num) (by norm_num)]
  norm_num

theorem narrow_sq : (fpNarrow * fpNarrow).val = 25 / 16 := by
  rw [FP.val_mul]
  change binary64.rd (5 / 4 * (5 / 4)) = 25 / 16
  rw [bits_val _ 0 (25 * 2 ^ 48) (by norm_num) (by norm_num) (by norm_num) (by norm_num)]
  norm_num

theorem narrow_two : (fpNarrow * fpNarrow + fpNarrow * fpNarrow).val = 25 / 8 := by
  rw [FP.val_add, narrow_sq]
  change binary64.rd _ = 25 / 8
  rw [bits_val _ 1 (25 * 2 ^ 48) (by norm_num) (by norm_num) (by norm_num) (by norm_num)]
  norm_num

theorem wide_narrow : fpWide * fpWide + fpNarrow * fpNarrow = fpWide * fpWide := FP.ext (by
  rw [FP.val_add, narrow_sq, wide_sq]
  change binary64.rd _ = 2 ^ 54
  rw [bits_val _ 54 (2 ^ 52) (by norm_num) (by norm_num) (by norm_num) (by norm_num)]
  norm_num)

theorem narrow_wide : (fpNarrow * fpNarrow + fpNarrow * fpNarrow + fpWide * fpWide).val = 2 ^ 54 + 4 := by
  rw [FP.val_add, narrow_two, wide_sq]
  change binary64.rd _ = 2 ^ 54 + 4
  rw [bits_val _ 54 (2 ^ 52 + 1) (by norm_num) (by norm_num) (by norm_num) (by norm_num)]
  norm_num

/-- the main thread adds the variable of thread 1 to the sum of those of thread 2 -/
noncomputable def exSum : List (MStep (FP binary64)) :=
  [.one (.binary ⟨0, 0⟩ ⟨2, 0⟩ ⟨2, 1⟩ 0 1 1), .one (.binary ⟨0, 1⟩ ⟨0, 0⟩ ⟨1, 0⟩ 0 1 1)]

/-- **C82**, what fails already at first order, with rounding: thread 1 creates a variable with uncertainty 2²⁷ and thread 2 two with uncertainty 5/4;
then the main thread computes the sum.  Its variance is 2⁵⁴ if thread 1 runs first, and 2⁵⁴ + 4 if thread 2 runs first. -/
theorem C82_rounding_false (solve : (ℕ → ℕ → FP binary64) → Option (List (FP binary64))) :
    ∃ p p' : List (MStep (FP binary64)), (∀ st ∈ p, RaceFreeM st) ∧ (∀ st ∈ p', RaceFreeM st) ∧ (∀ t, projectM t p = projectM t p') ∧
    ∃ w os w' os', MWorld.init.run solve (p ++ exSum) = some (w, os) ∧ MWorld.init.run solve (p' ++ exSum) = some (w', os') ∧
      (UReal.var (w.first ⟨0, 1⟩)).val = 2 ^ 54 ∧ (UReal.var (w'.first ⟨0, 1⟩)).val = 2 ^ 54 + 4 := by
  refine ⟨[.one (.new ⟨1, 0⟩ 0 fpWide), .one (.new ⟨2, 0⟩ 0 fpNarrow), .one (.new ⟨2, 1⟩ 0 fpNarrow)],
    [.one (.new ⟨2, 0⟩ 0 fpNarrow), .one (.new ⟨2, 1⟩ 0 fpNarrow), .one (.new ⟨1, 0⟩ 0 fpWide)], ?_, ?_, ?_, ?_⟩
  · simp [RaceFreeM, threadOfM, threadOf, writes, readsM, reads]
  · simp [RaceFreeM, threadOfM, threadOf, writes, readsM, reads]
  · intro t
    by_cases h1 : t = 1
    · subst h1; simp [projectM, threadOfM, threadOf, writes]
    · by_cases h2 : t = 2
      · subst h2; simp [projectM, threadOfM, threadOf, writes]
      · simp [projectM, threadOfM, threadOf, writes, Ne.symm h1, Ne.symm h2]
  · have n1 : nextId 0 = 1 := by decide
    have n2 : nextId 1 = 2 := by decide
    have n3 : nextId 2 = 3 := by decide
    have hw : CCmp.ltb fpWide 0 = false := by
      rw [← Bool.not_eq_true, FP.ltb_fp, not_lt]
      change (0 : ℝ) ≤ 2 ^ 27
      norm_num
    have hn : CCmp.ltb fpNarrow 0 = false := by
      rw [← Bool.not_eq_true, FP.ltb_fp, not_lt]
      change (0 : ℝ) ≤ 5 / 4
      norm_num
    have hf : CCmp.leb (0 : FP binary64) (-1) = false := by simp [CCmp.leb, FP.val_zero, FP.val_neg, FP.val_one]
    refine ⟨_, _, _, _, by simp [exSum, MWorld.run, MWorld.step, World.step, UReal.mk', hw, hn, World.set, MWorld.init, n1, n2, n3, UReal.binary]; exact ⟨rfl, rfl⟩,
      by simp [exSum, MWorld.run, MWorld.step, World.step, UReal.mk', hw, hn, World.set, MWorld.init, n1, n2, n3, UReal.binary]; exact ⟨rfl, rfl⟩, ?_, ?_⟩
    · simp [UReal.var, UReal.s2, invalidId, SMap.upsert, fp_one_mul, fp_zero_add, hf, wide_narrow, wide_sq]
    · simp [UReal.var, UReal.s2, invalidId, SMap.upsert, fp_one_mul, fp_zero_add, hf, narrow_wide]

/-! ## examples -/

/-- two shared variables, one of each class -/
noncomputable def exShared : List (MStep (FP binary64)) :=
  [.one (.new ⟨0, 0⟩ 1 fpWide), .two (.newStd ⟨0, 1⟩ 0 1 (fun k => k) (-1)) ⟨⟨0, 0, 0, 0, 0, 0⟩, fun _ _ => 0⟩]

/-- thread `t` creates a variable of each class and combines each with the shared one; `g` is the content of uninitialised storage -/
noncomputable def exThread (t : ℕ) (s g : FP binary64) : List (MStep (FP binary64)) :=
  [.one (.new ⟨t, 0⟩ 0 s), .one (.binary ⟨t, 1⟩ ⟨t, 0⟩ ⟨0, 0⟩ 0 1 s), .two (.newStd ⟨t, 0⟩ 0 s (fun k => k) (-1)) ⟨⟨g, g, g, g, g, g⟩, fun _ _ => g⟩,
   .two (.binary ⟨t, 1⟩ ⟨t, 0⟩ ⟨0, 1⟩ 0 0 0 0 0 1) ⟨⟨g, g, g, g, g, g⟩, fun _ _ => g⟩, .one (.readS ⟨t, 1⟩)]

theorem exThread_free {t : ℕ} (h : t ≠ 0) (s g : FP binary64) : ∀ st ∈ exThread t s g, RaceFreeM st := by
  simp [exThread, RaceFreeM, threadOfM, threadOf, writes, writes2, readsM, reads, reads2, h]

theorem exThread_ok (t : ℕ) (s g : FP binary64) : ∀ st ∈ exThread t s g, ThresholdOkM st := by
  simp [exThread, ThresholdOkM, ThresholdOk]

theorem exThread_project (g g' h h' : FP binary64) (t : ℕ) :
    projectM t (exThread 1 fpNarrow g ++ exThread 2 fpWide h) = projectM t (exThread 2 fpWide h' ++ exThread 1 fpNarrow g') := by
  by_cases h1 : t = 1
  · subst h1; simp [exThread, projectM, threadOfM, threadOf, writes, writes2, callOf]
  · by_cases h2 : t = 2
    · subst h2; simp [exThread, projectM, threadOfM, threadOf, writes, writes2, callOf]
    · simp [exThread, projectM, threadOfM, threadOf, writes, writes2, Ne.symm h1, Ne.symm h2]

theorem exThread_count (t : ℕ) (s g : FP binary64) (p : List (MStep (FP binary64))) : countNewM (exThread t s g ++ p) = 2 + countNewM p := by
  simp [exThread, countNewM, countNew, countNew2]
  ring

theorem exShared_ok : ∀ st ∈ exShared, ThresholdOkM st := by simp [exShared, ThresholdOkM, ThresholdOk]

/-- double precision, two schedules, different junk -/
example (g g' h h' : FP binary64) (t : ℕ) : ∃ w os w' os',
    MWorld.init.run (fun _ => some [0]) (exShared ++ (exThread 1 fpNarrow g ++ exThread 2 fpWide h)) = some (w, os) ∧
    MWorld.init.run (fun _ => some [0]) (exShared ++ (exThread 2 fpWide h' ++ exThread 1 fpNarrow g')) = some (w', os') ∧
    SameSecond (fun q => q.thread = t ∨ q.thread = 0) w w' := by
  obtain ⟨w, os, w', os', e, e', -, -, -, -, h, -⟩ := C82_threads_partial (fp_still (f := binary64)) (solve := fun _ => some [0]) (fun _ _ _ => rfl) t exShared
    (exThread 1 fpNarrow g ++ exThread 2 fpWide h) (exThread 2 fpWide h' ++ exThread 1 fpNarrow g') exShared_ok
    (fun st hst => (List.mem_append.1 hst).elim (exThread_ok _ _ _ st) (exThread_ok _ _ _ st))
    (fun st hst => (List.mem_append.1 hst).elim (exThread_ok _ _ _ st) (exThread_ok _ _ _ st))
    (fun st hst => (List.mem_append.1 hst).elim (exThread_free (by decide) _ _ st) (exThread_free (by decide) _ _ st))
    (fun st hst => (List.mem_append.1 hst).elim (exThread_free (by decide) _ _ st) (exThread_free (by decide) _ _ st))
    (exThread_project g g' h h' t)
    (by rw [exThread_count, ← List.append_nil (exThread 2 fpWide h), exThread_count]; simp [exShared, countNewM, countNew, countNew2])
    (by rw [exThread_count, ← List.append_nil (exThread 1 fpNarrow g'), exThread_count]; simp [exShared, countNewM, countNew, countNew2])
  exact ⟨w, os, w', os', e, e', h⟩

/-- the covariance of the sums computed by the two threads -/
example (g g' h h' : FP binary64) : ∃ w os w' os',
    MWorld.init.run (fun _ => some [0]) (exShared ++ (exThread 1 fpNarrow g ++ exThread 2 fpWide h)) = some (w, os) ∧
    MWorld.init.run (fun _ => some [0]) (exShared ++ (exThread 2 fpWide h' ++ exThread 1 fpNarrow g')) = some (w', os') ∧
    UReal.cov (w.first ⟨1, 1⟩) (w.first ⟨2, 1⟩) = UReal.cov (w'.first ⟨1, 1⟩) (w'.first ⟨2, 1⟩) := by
  obtain ⟨w, os, w', os', e, e', h⟩ := C82_across_partial (fp_still (f := binary64)) (solve := fun _ => some [0]) (fun _ _ _ => rfl) exShared
    (exThread 1 fpNarrow g ++ exThread 2 fpWide h) (exThread 2 fpWide h' ++ exThread 1 fpNarrow g') exShared_ok
    (fun st hst => (List.mem_append.1 hst).elim (exThread_ok _ _ _ st) (exThread_ok _ _ _ st))
    (fun st hst => (List.mem_append.1 hst).elim (exThread_ok _ _ _ st) (exThread_ok _ _ _ st))
    (fun st hst => (List.mem_append.1 hst).elim (exThread_free (by decide) _ _ st) (exThread_free (by decide) _ _ st))
    (fun st hst => (List.mem_append.1 hst).elim (exThread_free (by decide) _ _ st) (exThread_free (by decide) _ _ st))
    (exThread_project g g' h h')
    (by rw [exThread_count, ← List.append_nil (exThread 2 fpWide h), exThread_count]; simp [exShared, countNewM, countNew, countNew2])
    (by rw [exThread_count, ← List.append_nil (exThread 1 fpNarrow g'), exThread_count]; simp [exShared, countNewM, countNew, countNew2])
  exact ⟨w, os, w', os', e, e', (h _ _).1⟩

/-- a thread sees the same as if it ran alone -/
example := C82_threads_partial (R := FP binary64) (fp_still (f := binary64)) (solve := fun _ => some [0]) (fun _ _ _ => rfl) 1 exShared
    (exThread 1 fpNarrow 0 ++ exThread 2 fpWide 0) (exThread 1 fpNarrow 1) exShared_ok
    (fun st hst => (List.mem_append.1 hst).elim (exThread_ok _ _ _ st) (exThread_ok _ _ _ st)) (exThread_ok _ _ _)
    (fun st hst => (List.mem_append.1 hst).elim (exThread_free (by decide) _ _ st) (exThread_free (by decide) _ _ st)) (exThread_free (by decide) _ _)
    (by simp [exThread, projectM, threadOfM, threadOf, writes, writes2, callOf])
    (by rw [exThread_count, ← List.append_nil (exThread 2 fpWide 0), exThread_count]; simp [exShared, countNewM, countNew, countNew2])
    (by rw [← List.append_nil (exThread 1 fpNarrow 1), exThread_count]; simp [exShared, countNewM, countNew, countNew2])

example : ∃ p p' : List (MStep ℝ), ∃ w os w' os', MWorld.init.run exSolve (p ++ exJoin) = some (w, os) ∧ MWorld.init.run exSolve (p' ++ exJoin) = some (w', os') ∧
    (w.second ⟨0, 2⟩).var ≠ (w'.second ⟨0, 2⟩).var := by
  obtain ⟨p, p', -, -, -, w, os, w', os', e, e', h, h'⟩ := C82_joined_false
  exact ⟨p, p', w, os, w', os', e, e', by rw [h, h']; norm_num⟩

example : ∃ p p' : List (MStep (FP binary64)), ∃ w os w' os', MWorld.init.run (fun _ => none) (p ++ exSum) = some (w, os) ∧
    MWorld.init.run (fun _ => none) (p' ++ exSum) = some (w', os') ∧ UReal.var (w.first ⟨0, 1⟩) ≠ UReal.var (w'.first ⟨0, 1⟩) := by
  obtain ⟨p, p', -, -, -, w, os, w', os', e, e', h, h'⟩ := C82_rounding_false fun _ => none
  refine ⟨p, p', w, os, w', os', e, e', fun hh => ?_⟩
  rw [hh, h'] at h
  norm_num at h

end Unc.Props
