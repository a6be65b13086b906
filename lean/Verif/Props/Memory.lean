import Verif.Lemmas.Memory
import Verif.Lemmas.URealArith
import Verif.Spec.Threads

/-!
# C83: calls which run out of memory
-/

namespace Unc.Props
open Unc Unc.Spec UReal

section
variable {R : Type*} [Zero R] [One R] [Neg R] [Add R] [Mul R] [CCmp R] [CSqrt R]

/-- **C83** For each call there is a number of allocations with which it does what it does when memory is unlimited, and with fewer it throws `std::bad_alloc` (any arithmetic). -/
theorem C83_enough (w : World R) (st : Step R) :
    (w.step st = none → ∀ mem keep, Memory.step mem keep w st = none) ∧
    ∀ w' o, w.step st = some (w', o) → ∃ N, ∀ mem keep,
      (N ≤ mem → Memory.step mem keep w st = some (w', some o)) ∧ (mem < N → ∃ v, Memory.step mem keep w st = some (v, none)) := by
  have build : ∀ r (x : UReal R), ∃ N, ∀ mem,
      (N ≤ mem → Memory.fresh mem w r x = (w.set r x, some .done)) ∧ (mem < N → ∃ v, Memory.fresh mem w r x = (v, none)) := by
    intro r x
    refine ⟨x.sigma.length, fun mem => ⟨fun h => ?_, fun h => ⟨w, ?_⟩⟩⟩
    · rw [Memory.fresh, if_pos h]
    · rw [Memory.fresh, if_neg (by omega)]
  have free : ∀ w' o, w.step st = some (w', o) → (∀ mem keep, Memory.step mem keep w st = (w.step st).map fun p => (p.1, some p.2)) → ∃ N, ∀ mem keep,
      (N ≤ mem → Memory.step mem keep w st = some (w', some o)) ∧ (mem < N → ∃ v, Memory.step mem keep w st = some (v, none)) := by
    intro w' o h e
    exact ⟨0, fun mem keep => ⟨fun _ => by rw [e, h]; rfl, fun h => absurd h (Nat.not_lt_zero _)⟩⟩
  have done : ∀ r (x : UReal R) w' o, some (w.set r x, Out.done) = some (w', o) → (∀ mem keep, Memory.step mem keep w st = some (Memory.fresh mem w r x)) → ∃ N, ∀ mem keep,
      (N ≤ mem → Memory.step mem keep w st = some (w', some o)) ∧ (mem < N → ∃ v, Memory.step mem keep w st = some (v, none)) := by
    intro r x w' o h e
    simp only [Option.some.injEq, Prod.mk.injEq] at h
    obtain ⟨rfl, rfl⟩ := h
    obtain ⟨N, hN⟩ := build r x
    refine ⟨N, fun mem keep => ⟨fun h => ?_, fun h => ?_⟩⟩
    · rw [e, (hN mem).1 h]
    · obtain ⟨v, hv⟩ := (hN mem).2 h
      exact ⟨v, by rw [e, hv]⟩
  cases st with
  | new r n s => exact ⟨fun h mem keep => by simp only [Memory.step, h, Option.map_none], fun w' o h => free w' o h fun _ _ => rfl⟩
  | const r n => exact ⟨fun h mem keep => by simp only [Memory.step, h, Option.map_none], fun w' o h => free w' o h fun _ _ => rfl⟩
  | readS r => exact ⟨fun h mem keep => by simp only [Memory.step, h, Option.map_none], fun w' o h => free w' o h fun _ _ => rfl⟩
  | readVar r => exact ⟨fun h mem keep => by simp only [Memory.step, h, Option.map_none], fun w' o h => free w' o h fun _ _ => rfl⟩
  | copy r a =>
    refine ⟨fun h => by simp [World.step] at h, fun w' o h => ?_⟩
    simp only [World.step, Option.some.injEq, Prod.mk.injEq] at h
    obtain ⟨rfl, rfl⟩ := h
    by_cases har : a = r
    · exact ⟨0, fun mem keep => ⟨fun _ => by simp [Memory.step, Memory.copy, har], fun h => absurd h (Nat.not_lt_zero _)⟩⟩
    · refine ⟨(w.regs a).sigma.length, fun mem keep => ⟨fun h => ?_, fun h => ⟨w.set r { w.regs a with sigma := (w.regs a).sigma.filter fun p => keep p.1 }, ?_⟩⟩⟩
      · simp [Memory.step, Memory.copy, h]
      · rw [Memory.step, Memory.copy, if_neg (by simp [har, h])]
  | unary r a mu dx => exact ⟨fun h => by simp [World.step] at h, fun w' o h => done r _ w' o h fun _ _ => rfl⟩
  | binary r a b mu dx dy =>
    cases hz : (w.regs a).binary (w.regs b) mu dx dy with
    | none => exact ⟨fun _ mem keep => by simp [Memory.step, hz], fun w' o h => by simp [World.step, hz] at h⟩
    | some z =>
      exact ⟨fun h => by simp [World.step, hz] at h, fun w' o h => done r z w' o (by simpa [World.step, hz] using h) fun _ _ => by simp [Memory.step, hz]⟩
  | nary r xs mu => exact ⟨fun h => by simp [World.step] at h, fun w' o h => done r _ w' o h fun _ _ => rfl⟩
  | changeNom r a n => exact ⟨fun h => by simp [World.step] at h, fun w' o h => done r _ w' o h fun _ _ => rfl⟩
  | assign r a mu dt dx =>
    by_cases har : a = r
    · refine ⟨fun h => by simp [World.step, har] at h, fun w' o h => ?_⟩
      simp only [World.step, har, if_true, Option.some.injEq, Prod.mk.injEq] at h
      obtain ⟨rfl, rfl⟩ := h
      exact ⟨0, fun mem keep => ⟨fun _ => by simp [Memory.step, har], fun h => absurd h (Nat.not_lt_zero _)⟩⟩
    · refine ⟨fun h => by simp [World.step, har] at h, fun w' o h => ?_⟩
      simp only [World.step, har, if_false, Option.some.injEq, Prod.mk.injEq] at h
      obtain ⟨rfl, rfl⟩ := h
      obtain ⟨N, hN⟩ := Memory.binaryAssign_need (w.regs r) (w.regs a) mu dt dx
      refine ⟨N, fun mem keep => ⟨fun h => ?_, fun h => ?_⟩⟩
      · simp only [Memory.step, har, if_false, (hN mem).1 h]
      · have := (hN mem).2 h
        simp only [Memory.step, har, if_false]
        generalize Memory.binaryAssign mem (w.regs r) (w.regs a) mu dt dx = q at this ⊢
        obtain ⟨z, b⟩ := q
        simp only at this
        subst this
        exact ⟨_, rfl⟩

/-- `t += x` with `t` a constant and `x` independent needs one allocation -/
example : ∃ N, ∀ mem keep,
    (N ≤ mem → Memory.step mem keep (⟨5, fun r => if r = ⟨0, 0⟩ then ⟨5, 1, 1, []⟩ else ⟨0, 0, 0, []⟩⟩ : World ℝ) (.assign ⟨0, 1⟩ ⟨0, 0⟩ 1 1 1) =
      some (World.set ⟨5, fun r => if r = ⟨0, 0⟩ then ⟨5, 1, 1, []⟩ else ⟨0, 0, 0, []⟩⟩ ⟨0, 1⟩ ⟨-1, -1, 1, [(5, 1)]⟩, some .done)) ∧
    (mem < N → ∃ v, Memory.step mem keep (⟨5, fun r => if r = ⟨0, 0⟩ then ⟨5, 1, 1, []⟩ else ⟨0, 0, 0, []⟩⟩ : World ℝ) (.assign ⟨0, 1⟩ ⟨0, 0⟩ 1 1 1) = some (v, none)) :=
  (C83_enough _ _).2 _ _ (by simp [World.step, UReal.binaryAssign, UReal.addInto, SMap.upsert, invalidId])

/-- **C83** A call which throws `std::bad_alloc` creates no elementary variable and changes no other variable than the one it writes to; and it changes that one only if it is a
copy assignment or a compound assignment (any arithmetic). -/
theorem C83_kept_partial {w w' : World R} {st : Step R} {mem : ℕ} {keep : VId → Bool} (h : Memory.step mem keep w st = some (w', none)) :
    w'.lastId = w.lastId ∧ (∀ r, r ≠ writes st → w'.regs r = w.regs r) ∧
    (w' = w ∨ (∃ r a, st = .copy r a) ∨ ∃ r a mu dt dx, st = .assign r a mu dt dx) := by
  have build : ∀ r (x : UReal R), Memory.fresh mem w r x = (w', none) → w' = w := by
    intro r x h
    unfold Memory.fresh at h
    split_ifs at h <;> simp at h
    exact h.symm
  have same : w' = w → w'.lastId = w.lastId ∧ (∀ r, r ≠ writes st → w'.regs r = w.regs r) ∧
      (w' = w ∨ (∃ r a, st = .copy r a) ∨ ∃ r a mu dt dx, st = .assign r a mu dt dx) := by
    rintro rfl
    exact ⟨rfl, fun _ _ => rfl, Or.inl rfl⟩
  cases st with
  | new r n s => simp [Memory.step] at h
  | const r n => simp [Memory.step] at h
  | readS r => simp [Memory.step] at h
  | readVar r => simp [Memory.step] at h
  | copy r a =>
    simp only [Memory.step, Memory.copy, Option.some.injEq] at h
    split_ifs at h
    · simp at h
    · simp only [Prod.mk.injEq, and_true] at h
      subst h
      exact ⟨rfl, fun q hq => if_neg (show q ≠ r from hq), Or.inr (Or.inl ⟨r, a, rfl⟩)⟩
  | unary r a mu dx => exact same (build _ _ (Option.some.inj h))
  | binary r a b mu dx dy =>
    simp only [Memory.step, Option.map_eq_some_iff] at h
    obtain ⟨z, -, h⟩ := h
    exact same (build _ _ h)
  | nary r xs mu => exact same (build _ _ (Option.some.inj h))
  | changeNom r a n => exact same (build _ _ (Option.some.inj h))
  | assign r a mu dt dx =>
    simp only [Memory.step] at h
    split_ifs at h
    · simp at h
    · split at h
      · simp at h
      · simp only [Option.some.injEq, Prod.mk.injEq, and_true] at h
        subst h
        exact ⟨rfl, fun q hq => if_neg (show q ≠ r from hq), Or.inr (Or.inr ⟨r, a, mu, dt, dx, rfl⟩)⟩

example : (⟨5, fun _ => ⟨-1, -1, 1, [(5, 1)]⟩⟩ : World ℝ) = ⟨5, fun _ => ⟨-1, -1, 1, [(5, 1)]⟩⟩ ∧
    ((⟨5, fun _ => ⟨-1, -1, 1, [(5, 1)]⟩⟩ : World ℝ).regs ⟨0, 1⟩) = ⟨-1, -1, 1, [(5, 1)]⟩ :=
  have h : Memory.step 0 (fun _ => true) (⟨5, fun _ => ⟨-1, -1, 1, [(5, 1)]⟩⟩ : World ℝ) (.changeNom ⟨0, 0⟩ ⟨0, 1⟩ 7) = some (⟨5, fun _ => ⟨-1, -1, 1, [(5, 1)]⟩⟩, none) := by
    simp [Memory.step, Memory.fresh, UReal.changeNom]
  ⟨(C83_kept_partial h).2.2.elim _root_.id (fun h => by simp at h), (C83_kept_partial h).2.1 ⟨0, 1⟩ (by simp [writes])⟩

end

/-- **C83** What a compound assignment leaves behind when it throws `std::bad_alloc`: either nothing has happened, or the coefficients have been multiplied by `dt`, those
of `x` have been added up to, and excluding, the first elementary variable `k` which was missing and could not be inserted, and the nominal value and the cached uncertainty
are still the old ones. -/
theorem C83_assign {t x z : UReal ℝ} (ht : t.WF) (hx : x.WF) {mem : ℕ} {mu dt dx : ℝ} (h : Memory.binaryAssign mem t x mu dt dx = (z, false)) :
    z.WF ∧ z.mu = t.mu ∧ z.sdev = t.sdev ∧
    (z = t ∨ ∃ k ∈ x.deps, k ∉ t.deps ∧ z.id = -1 ∧ z.deps = t.deps ∪ x.deps.filter (· < k) ∧
      ∀ i, z.coef i = dt * t.coef i + if i < k then dx * x.coef i else 0) := by
  rcases Memory.binaryAssign_false h with rfl | ⟨l1, p, l2, e, rfl, hp⟩
  · exact ⟨ht, rfl, rfl, Or.inl rfl⟩
  · obtain ⟨hw, hd, hc, hpx⟩ := Memory.part_spec hx e
    have h1 := wf_binaryAssign ht hw mu dt dx
    have h2 := deps_binaryAssign (x := ⟨-1, 0, 0, l1⟩) ht mu dt dx
    have h3 : ∀ i, (t.binaryAssign ⟨-1, 0, 0, l1⟩ mu dt dx).coef i = dt * t.coef i + dx * (⟨-1, 0, 0, l1⟩ : UReal ℝ).coef i := fun i =>
      congrFun (congrArg LinForm.coef (toLin_binaryAssign ht hw mu dt dx)) i
    have hk : p.1 ∉ (t.binaryAssign ⟨-1, 0, 0, l1⟩ mu dt dx).deps := by
      intro h
      have e : (t.binaryAssign ⟨-1, 0, 0, l1⟩ mu dt dx).deps = (t.binaryAssign ⟨-1, 0, 0, l1⟩ mu dt dx).sigma.keys.toFinset := rfl
      rw [e] at h
      exact hp (List.mem_toFinset.1 h)
    rw [h2] at hk
    refine ⟨⟨by simp [binaryAssign, invalidId], by simp [binaryAssign, invalidId], h1.sorted, h1.pos⟩, rfl, rfl, Or.inr
      ⟨p.1, hpx, fun hk' => hk (Finset.mem_union_left _ hk'), rfl, ?_, fun i => ?_⟩⟩
    · rw [← hd]; exact h2
    · have := h3 i
      rw [hc] at this
      refine this.trans ?_
      split_ifs <;> simp

/-- `(1 ± 1) *= (2 ± 3)`, one allocation left -/
example : (⟨-1, 1, 1, [(1, 2)]⟩ : UReal ℝ).WF ∧ ∃ k ∈ (⟨2, 3, 2, []⟩ : UReal ℝ).deps, k ∉ (⟨1, 1, 1, []⟩ : UReal ℝ).deps := by
  have h : Memory.binaryAssign 1 (⟨1, 1, 1, []⟩ : UReal ℝ) ⟨2, 3, 2, []⟩ 2 2 1 = (⟨-1, 1, 1, [(1, 2)]⟩, false) := by
    simp [Memory.binaryAssign, Memory.put, Memory.addInto, SMap.find?, SMap.upsert, SMap.mapVal, invalidId]
  obtain ⟨h1, -, -, h2⟩ := C83_assign ⟨by simp, by simp, by simp, by simp⟩ ⟨by simp, by simp, by simp, by simp⟩ h
  rcases h2 with h2 | ⟨k, hk, hk', -⟩
  · simp at h2
  · exact ⟨h1, k, hk, hk'⟩

/-- **C83** In particular `t += x` and `t -= x` with an independent variable `x` do keep the value of `t`. -/
theorem C83_add_partial {t x z : UReal ℝ} (ht : t.Valid) (hx : x.WF) (hid : 0 < x.id) {mem : ℕ} {mu dx : ℝ}
    (h : Memory.binaryAssign mem t x mu 1 dx = (z, false)) :
    z.Valid ∧ z.n = t.n ∧ z.s = t.s ∧ var z = var t ∧ ∀ y : UReal ℝ, y.Valid → cov z y = cov t y := by
  obtain ⟨hz, hm, hs, hc⟩ := C83_assign ht.wf hx h
  rcases hc with rfl | ⟨k, hk, -, hzid, hd, hc⟩
  · exact ⟨ht, rfl, rfl, rfl, fun _ _ => rfl⟩
  · have hkx : k = x.id := by simpa [UReal.deps, hid] using hk
    have hl : z.toLin = t.toLin := by
      simp only [toLin, hm, hd]
      congr 1
      · have : x.deps.filter (· < k) = ∅ := by
          rw [Finset.filter_eq_empty_iff]
          intro i hi
          have : i = x.id := by simpa [UReal.deps, hid] using hi
          omega
        rw [this, Finset.union_empty]
      · funext i
        rw [hc i, one_mul]
        split_ifs with hi
        · have : x.coef i = 0 := by
            simp only [UReal.coef, hid, if_true]
            rw [if_neg (by omega)]
          rw [this, mul_zero, add_zero]
        · rw [add_zero]
    have hv : z.Valid := by
      refine ⟨hz, fun _ h0 => ?_⟩
      rw [s2_eq hz (by omega), hl, hs]
      rw [hs] at h0
      rcases lt_trichotomy t.id 0 with ht0 | ht0 | ht0
      · rw [← s2_eq ht.wf ht0]
        exact ht.cache ht0 h0
      · rw [ht.wf.zero_sdev ht0]
        simp [LinForm.var, toLin, UReal.deps, ht0]
      · simp [LinForm.var, toLin, UReal.deps, UReal.coef, ht0, sq]
    refine ⟨hv, hm, ?_, ?_, fun y hy => ?_⟩
    · rw [s_eq hv, s_eq ht, hl]
    · rw [var_eq hv, var_eq ht, hl]
    · rw [cov_eq hz hy.wf, cov_eq ht.wf hy.wf, hl]

/-- `(1 ± 1) += (2 ± 3)`, one allocation left -/
example : (⟨-1, 1, 1, [(1, 1)]⟩ : UReal ℝ).s = (⟨1, 1, 1, []⟩ : UReal ℝ).s :=
  have h : Memory.binaryAssign 1 (⟨1, 1, 1, []⟩ : UReal ℝ) ⟨2, 3, 2, []⟩ 3 1 1 = (⟨-1, 1, 1, [(1, 1)]⟩, false) := by
    simp [Memory.binaryAssign, Memory.put, Memory.addInto, SMap.find?, SMap.upsert, invalidId]
  (C83_add_partial ⟨⟨by simp, by simp, by simp, by simp⟩, fun h => by simp at h⟩ ⟨by simp, by simp, by simp, by simp⟩ (by simp) h).2.2.1

/-- **C83** The property is false.  With `x = 1 ± 1` and `y = 2 ± 3` created before, and one allocation left, `x *= y` throws, and afterwards the uncertainty of `x` is 1 while
the covariance of `x` with itself is 4.  With `a` and `b` two such variables, `sum` a constant and `z = a + b`, after `sum += z` has thrown, `sum` still has no uncertainty
but it is correlated with `a`.  And after a copy assignment `c = z` has thrown, `c` may have the mean of `z` and no uncertainty at all. -/
theorem C83_false :
    (∃ w w' : World ℝ, World.init.run [.new ⟨0, 0⟩ 1 1, .new ⟨0, 1⟩ 2 3] = some (w, [.done, .done]) ∧
      Memory.step 1 (fun _ => false) w (.assign ⟨0, 0⟩ ⟨0, 1⟩ 2 2 1) = some (w', none) ∧
      (w'.regs ⟨0, 0⟩).n = 1 ∧ (w'.regs ⟨0, 0⟩).s = 1 ∧ var (w'.regs ⟨0, 0⟩) = 1 ∧ cov (w'.regs ⟨0, 0⟩) (w'.regs ⟨0, 0⟩) = 4) ∧
    (∃ w w' : World ℝ, World.init.run [.new ⟨0, 0⟩ 1 1, .new ⟨0, 1⟩ 2 3, .binary ⟨0, 2⟩ ⟨0, 0⟩ ⟨0, 1⟩ 3 1 1] = some (w, [.done, .done, .done]) ∧
      Memory.step 1 (fun _ => false) w (.assign ⟨0, 3⟩ ⟨0, 2⟩ 3 1 1) = some (w', none) ∧
      (w'.regs ⟨0, 3⟩).s = 0 ∧ cov (w'.regs ⟨0, 3⟩) (w'.regs ⟨0, 0⟩) = 1) ∧
    (∃ w w' : World ℝ, World.init.run [.new ⟨0, 0⟩ 1 1, .new ⟨0, 1⟩ 2 3, .binary ⟨0, 2⟩ ⟨0, 0⟩ ⟨0, 1⟩ 3 1 1] = some (w, [.done, .done, .done]) ∧
      Memory.step 1 (fun _ => false) w (.copy ⟨0, 3⟩ ⟨0, 2⟩) = some (w', none) ∧ (w.regs ⟨0, 3⟩).n = 0 ∧ (w'.regs ⟨0, 3⟩).n = 3 ∧ (w'.regs ⟨0, 3⟩).s = 0) := by
  let w1 : World ℝ := World.set ⟨2, ((⟨1, World.init.regs⟩ : World ℝ).set ⟨0, 0⟩ ⟨1, 1, 1, []⟩).regs⟩ ⟨0, 1⟩ ⟨2, 3, 2, []⟩
  let w2 : World ℝ := w1.set ⟨0, 2⟩ ⟨-1, -1, 3, [(1, 1), (2, 3)]⟩
  have h3 : ¬ (3 : ℝ) < 0 := by norm_num
  have h1 : ¬ (1 : ℝ) < 0 := by norm_num
  have i1 : wrap32 1 = 1 := by decide
  have i2 : wrap32 2 = 2 := by decide
  have e1 : World.init.run [.new ⟨0, 0⟩ 1 1, .new ⟨0, 1⟩ 2 3] = some (w1, [.done, .done]) := by
    simp [World.run, World.step, UReal.mk', World.init, nextId, h1, h3, i1, i2, w1, World.set]
  have e2 : World.init.run [.new ⟨0, 0⟩ 1 1, .new ⟨0, 1⟩ 2 3, .binary ⟨0, 2⟩ ⟨0, 0⟩ ⟨0, 1⟩ 3 1 1] = some (w2, [.done, .done, .done]) := by
    simp [World.run, World.step, UReal.mk', World.init, nextId, h1, h3, i1, i2, w1, w2, World.set, UReal.binary, UReal.default', SMap.upsert, invalidId]
  refine ⟨⟨w1, w1.set ⟨0, 0⟩ ⟨-1, 1, 1, [(1, 2)]⟩, e1, ?_, ?_, ?_, ?_, ?_⟩, ⟨w2, w2.set ⟨0, 3⟩ ⟨-1, 0, 0, [(1, 1)]⟩, e2, ?_, ?_, ?_⟩,
    ⟨w2, w2.set ⟨0, 3⟩ ⟨-1, -1, 3, []⟩, e2, ?_, ?_, ?_, ?_⟩⟩
  · simp [Memory.step, Memory.binaryAssign, Memory.put, Memory.addInto, SMap.find?, SMap.upsert, SMap.mapVal, w1, World.set, invalidId]
  · simp [World.set, UReal.n]
  · simp [World.set, UReal.s]
  · simp [World.set, UReal.var]
  · simp [World.set, UReal.cov, covLoop]
    norm_num
  · simp [Memory.step, Memory.binaryAssign, Memory.put, Memory.addInto, Memory.addLoop, SMap.find?, SMap.upsert, SMap.mapVal, w1, w2, World.set, invalidId, World.init, UReal.default']
  · simp [World.set, UReal.s]
  · simp [World.set, UReal.cov, w1, w2, SMap.find?]
  · simp [Memory.step, Memory.copy, w1, w2, World.set]
  · simp [World.set, w1, w2, World.init, UReal.default', UReal.n]
  · simp [World.set, UReal.n]
  · simp [World.set, UReal.s, UReal.s2, h1]

section
variable {R : Type*} [Zero R] [One R] [Neg R] [Add R] [Mul R] [CCmp R] [CSqrt R]

/-- **C83** What does hold whatever memory does: a program which goes on after `std::bad_alloc` never has undefined behaviour as long as it creates fewer than `2^31 - 1`
elementary variables, and in the end all variables are in a state the class allows apart from the cache (any arithmetic where `0 < 0` is false). -/
theorem C83_defined_partial (h00 : CCmp.ltb (0 : R) 0 = false) (p : List (Step R × ℕ × (VId → Bool))) (hc : countNew (p.map Prod.fst) < 2147483647) :
    ∃ w os, Memory.run (World.init : World R) p = some (w, os) ∧ os.length = p.length ∧ (w.lastId : ℤ) = countNew (p.map Prod.fst) ∧
      ∀ r, (w.regs r).WF ∧ ∀ i ∈ (w.regs r).deps, 0 < i ∧ i ≤ w.lastId := by
  have main : ∀ (w : World R) (n : ℕ), DSim w ⟨n, fun r => (w.regs r).deps⟩ → n + countNew (p.map Prod.fst) < 2147483647 →
      ∃ w' os, Memory.run w p = some (w', os) ∧ os.length = p.length ∧ DSim w' ⟨n + countNew (p.map Prod.fst), fun r => (w'.regs r).deps⟩ := by
    clear hc
    induction p with
    | nil => exact fun w n h _ => ⟨w, [], rfl, rfl, h⟩
    | cons st p ih =>
      intro w n h hc
      obtain ⟨st, mem, keep⟩ := st
      simp only [List.map_cons] at hc
      rw [countNew_cons] at hc
      obtain ⟨w1, o, e, h1⟩ := Memory.step_dsim h00 h st mem keep (by omega)
      obtain ⟨w2, os, e2, hl, h2⟩ := ih w1 (n + countNew [st]) h1 (by omega)
      refine ⟨w2, o :: os, by simp [Memory.run, e, e2], by simp [hl], ?_⟩
      simp only [List.map_cons]
      rw [countNew_cons, ← Nat.add_assoc]
      exact h2
  have start : DSim (World.init : World R) ⟨0, fun r => ((World.init : World R).regs r).deps⟩ :=
    ⟨rfl, fun r => wf_default, fun r => rfl, fun r i hi => by simp [World.init, UReal.default', UReal.deps] at hi⟩
  obtain ⟨w, os, e, hl, h⟩ := main World.init 0 start (by omega)
  refine ⟨w, os, e, hl, by rw [h.count]; simp, fun r => ⟨h.wf r, fun i hi => ⟨deps_pos (h.wf r) i hi, ?_⟩⟩⟩
  rw [h.count]
  exact h.below r i hi

end

/-- `y` and `x` are created, `x *= y` and then a copy run out of memory, and the uncertainty of the copy is read -/
example : ∃ w os, Memory.run (World.init : World ℝ)
      [(.new ⟨0, 0⟩ 1 1, 0, fun _ => true), (.new ⟨0, 1⟩ 2 3, 0, fun _ => true), (.assign ⟨0, 0⟩ ⟨0, 1⟩ 2 2 1, 1, fun _ => true),
        (.copy ⟨0, 2⟩ ⟨0, 0⟩, 0, fun _ => false), (.readS ⟨0, 2⟩, 0, fun _ => true)] = some (w, os) ∧ os.length = 5 ∧ w.lastId = 2 :=
  let ⟨w, os, h1, h2, h3, _⟩ := C83_defined_partial (R := ℝ) (by simp [CCmp.ltb])
    [(.new ⟨0, 0⟩ 1 1, 0, fun _ => true), (.new ⟨0, 1⟩ 2 3, 0, fun _ => true), (.assign ⟨0, 0⟩ ⟨0, 1⟩ 2 2 1, 1, fun _ => true),
      (.copy ⟨0, 2⟩ ⟨0, 0⟩, 0, fun _ => false), (.readS ⟨0, 2⟩, 0, fun _ => true)] (by simp [countNew])
  ⟨w, os, h1, h2, h3⟩

end Unc.Props
