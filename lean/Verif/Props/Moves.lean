import Verif.Lemmas.Moves
import Verif.Props.Mixed

/-!
# C84: variables which were moved from
-/

namespace Unc.Props
open Unc Unc.Spec SMap HessGrad

section
variable {R : Type*} [Zero R] [One R] [Neg R] [Add R] [Sub R] [Mul R] [Div R] [NatCast R] [CCmp R] [CSqrt R]

/-- The states agree on the counter and on the variables which are not gone. -/
structure SameBut (g : Gone) (v w : MWorld R) : Prop where
  count : v.lastId = w.lastId
  first : ∀ q, q ∉ g.first → v.first q = w.first q
  second : ∀ q, q ∉ g.second → v.second q = w.second q

omit [Sub R] in
theorem SameBut.step {solve : (ℕ → ℕ → R) → Option (List R)} {g : Gone} {v w w' : MWorld R} (h : SameBut g v w) {st : VStep R} {o : Out R}
    (e : w.step solve (copied st) = some (w', o)) (hr : ReadsNone g st) :
    ∃ v', Moves.step solve v st = some (v', o) ∧ SameBut (g.step st o) v' w' := by
  cases st with
  | call st =>
    cases st with
    | one st =>
      simp only [copied, MWorld.step, Option.map_eq_some_iff, Prod.mk.injEq, Prod.exists] at e
      obtain ⟨u, o', e, rfl, rfl⟩ := e
      obtain ⟨u', e', h1, h2, h3⟩ := World.step_congr (v := ⟨v.lastId, v.first⟩) h.count (fun q hq => h.first q (hr q hq)) e
      refine ⟨⟨u'.lastId, u'.regs, v.second⟩, by simp [Moves.step, MWorld.step, e'], h1, fun q hq => ?_, ?_⟩
      · by_cases ht : ∃ x, o' = .threw x
        · obtain ⟨x, rfl⟩ := ht
          exact h2 q (h.first q hq)
        · push Not at ht
          by_cases hw : q = writes st
          · rw [hw]; exact h3 ht
          · refine h2 q (h.first q fun hg => hq ?_)
            cases o' with
            | threw x => exact absurd rfl (ht x)
            | done => exact ⟨hg, hw⟩
            | num x => exact ⟨hg, hw⟩
      · cases o' <;> exact h.second
    | two st k =>
      simp only [copied, MWorld.step, Option.map_eq_some_iff, Prod.mk.injEq, Prod.exists] at e
      obtain ⟨u, o', e, rfl, rfl⟩ := e
      obtain ⟨u', e', h1, h2, h3⟩ := World2.step_congr (v := ⟨v.lastId, v.second⟩) h.count (fun q hq => h.second q (hr q hq)) e
      refine ⟨⟨u'.lastId, v.first, u'.regs⟩, by simp [Moves.step, MWorld.step, e'], h1, ?_, fun q hq => ?_⟩
      · cases o' <;> exact h.first
      · by_cases ht : ∃ x, o' = .threw x
        · obtain ⟨x, rfl⟩ := ht
          exact h2 q (h.second q hq)
        · push Not at ht
          by_cases hw : some q = writes2 st
          · exact h3 ht q hw.symm
          · refine h2 q (h.second q fun hg => hq ?_)
            cases o' with
            | threw x => exact absurd rfl (ht x)
            | done => exact ⟨hg, hw⟩
            | num x => exact ⟨hg, hw⟩
  | move1 r a left =>
    simp only [copied, MWorld.step, World.step, Option.map_some, Option.some.injEq, Prod.mk.injEq] at e
    obtain ⟨rfl, rfl⟩ := e
    refine ⟨_, rfl, h.count, fun q hq => ?_, h.second⟩
    simp only [Gone.step, Set.mem_insert_iff, Set.mem_diff, Set.mem_singleton_iff, not_or, not_and, not_not] at hq
    simp only [Moves.move1, World.set, if_neg hq.1]
    split_ifs with hqr
    · exact h.first a hr
    · exact h.first q fun hg => hqr (hq.2 hg)
  | move2 r a left =>
    simp only [copied, MWorld.step, World2.step, Option.map_some, Option.some.injEq, Prod.mk.injEq] at e
    obtain ⟨rfl, rfl⟩ := e
    refine ⟨_, rfl, h.count, h.first, fun q hq => ?_⟩
    simp only [Gone.step, Set.mem_insert_iff, Set.mem_diff, Set.mem_singleton_iff, not_or, not_and, not_not] at hq
    simp only [Moves.move2, World2.set, if_neg hq.1]
    split_ifs with hqr
    · exact h.second a hr
    · exact h.second q fun hg => hqr (hq.2 hg)

omit [Sub R] in
/-- **C84** A program that does not read variables it has moved from, before it has assigned to them again, does the same as the program with copies in place of the moves: the
same answers, the same exceptions, the same values of all variables which are not gone in the end.  Both classes, any arithmetic, and whatever moves leave in the maps. -/
theorem C84_unread {solve : (ℕ → ℕ → R) → Option (List R)} {w w' : MWorld R} {p : List (VStep R)} {os : List (Out R)}
    (h : w.run solve (p.map copied) = some (w', os)) (hc : Careful ⟨∅, ∅⟩ (p.zip os)) :
    ∃ v, Moves.run solve w p = some (v, os) ∧ v.lastId = w'.lastId ∧
      (∀ q, q ∉ (Gone.run ⟨∅, ∅⟩ (p.zip os)).first → v.first q = w'.first q) ∧
      ∀ q, q ∉ (Gone.run ⟨∅, ∅⟩ (p.zip os)).second → v.second q = w'.second q := by
  have main : ∀ (g : Gone) (v w : MWorld R) os, SameBut g v w → w.run solve (p.map copied) = some (w', os) → Careful g (p.zip os) →
      ∃ v', Moves.run solve v p = some (v', os) ∧ SameBut (g.run (p.zip os)) v' w' := by
    clear h hc
    induction p with
    | nil =>
      intro g v w os hs h hc
      simp only [List.map_nil, MWorld.run, Option.some.injEq, Prod.mk.injEq] at h
      obtain ⟨rfl, rfl⟩ := h
      exact ⟨v, rfl, hs⟩
    | cons st t ih =>
      intro g v w os hs h hc
      simp only [List.map_cons, MWorld.run, Option.bind_eq_some_iff, Option.map_eq_some_iff, Prod.mk.injEq, Prod.exists] at h
      obtain ⟨w1, o, e1, w2, os1, e2, rfl, rfl⟩ := h
      simp only [List.zip_cons_cons, Careful] at hc
      obtain ⟨v1, f1, h1⟩ := hs.step e1 hc.1
      obtain ⟨v2, f2, h2⟩ := ih _ v1 w1 os1 h1 e2 hc.2
      exact ⟨v2, by simp [Moves.run, f1, f2], h2⟩
  obtain ⟨v, e, hv⟩ := main ⟨∅, ∅⟩ w w os ⟨rfl, fun _ _ => rfl, fun _ _ => rfl⟩ h hc
  exact ⟨v, e, hv.count, hv.first, hv.second⟩

/-- `x = 1 ± 3` is moved to `y`, a constructor throws, `x` becomes the constant 7, and the uncertainty of `y` is read; whatever the move left in `x` -/
example (left : SMap VId ℝ) : ∃ v, Moves.run (fun _ => none) (MWorld.init : MWorld ℝ)
      [.call (.one (.new ⟨0, 0⟩ 1 3)), .move1 ⟨0, 1⟩ ⟨0, 0⟩ left, .call (.one (.new ⟨0, 0⟩ 2 (-1))), .call (.one (.const ⟨0, 0⟩ 7)), .call (.one (.readS ⟨0, 1⟩))] =
    some (v, [.done, .done, .threw .invalidArgument, .done, .num 3]) ∧ v.first ⟨0, 0⟩ = UReal.const 7 := by
  have h3 : ¬ (3 : ℝ) < 0 := by norm_num
  have i1 : wrap32 1 = 1 := by decide
  have i2 : wrap32 2 = 2 := by decide
  let w : MWorld ℝ := ⟨2, fun q => if q = ⟨0, 1⟩ then ⟨1, 3, 1, []⟩ else if q = ⟨0, 0⟩ then UReal.const 7 else UReal.default', fun _ => UReal2.default'⟩
  have h : (MWorld.init : MWorld ℝ).run (fun _ => none) (List.map copied
      [.call (.one (.new ⟨0, 0⟩ 1 3)), .move1 ⟨0, 1⟩ ⟨0, 0⟩ left, .call (.one (.new ⟨0, 0⟩ 2 (-1))), .call (.one (.const ⟨0, 0⟩ 7)), .call (.one (.readS ⟨0, 1⟩))]) =
      some (w, [.done, .done, .threw .invalidArgument, .done, .num 3]) := by
    simp [copied, MWorld.run, MWorld.step, World.step, UReal.mk', MWorld.init, nextId, h3, i1, i2, World.set, UReal.sCache, CSqrt.abs, w]
    funext q
    by_cases h : q = ⟨0, 1⟩ <;> by_cases h' : q = ⟨0, 0⟩ <;> simp [h, h']
  obtain ⟨v, e, -, hv, -⟩ := C84_unread h (by simp [Careful, ReadsNone, Gone.step, reads, writes])
  exact ⟨v, e, by rw [hv ⟨0, 0⟩ (by simp [Gone.run, Gone.step, writes])]; simp [w]⟩

omit [Sub R] in
/-- **C84** `std::swap`, which moves three times, exchanges the two variables and changes nothing else (both classes, any arithmetic, whatever moves leave in the maps). -/
theorem C84_swap (solve : (ℕ → ℕ → R) → Option (List R)) (w : MWorld R) {a b t : Reg} (hab : a ≠ b) (hat : a ≠ t) (hbt : b ≠ t) (l1 l2 l3 : SMap VId R)
    (m1 m2 m3 : HessGrad R) :
    (∃ v, Moves.run solve w [.move1 t a l1, .move1 a b l2, .move1 b t l3] = some (v, [.done, .done, .done]) ∧ v.lastId = w.lastId ∧
      v.first a = w.first b ∧ v.first b = w.first a ∧ (∀ q, q ≠ a → q ≠ b → q ≠ t → v.first q = w.first q) ∧ v.second = w.second) ∧
    ∃ v, Moves.run solve w [.move2 t a m1, .move2 a b m2, .move2 b t m3] = some (v, [.done, .done, .done]) ∧ v.lastId = w.lastId ∧
      v.second a = w.second b ∧ v.second b = w.second a ∧ (∀ q, q ≠ a → q ≠ b → q ≠ t → v.second q = w.second q) ∧ v.first = w.first := by
  constructor
  · refine ⟨_, rfl, rfl, ?_, ?_, fun q ha hb ht => ?_, rfl⟩
    · simp [Moves.move1, hab, hat, Ne.symm hab, hbt]
    · simp [Moves.move1, hbt, Ne.symm hat, Ne.symm hbt]
    · simp [Moves.move1, ha, hb, ht]
  · refine ⟨_, rfl, rfl, ?_, ?_, fun q ha hb ht => ?_, rfl⟩
    · simp [Moves.move2, hab, hat, Ne.symm hab, hbt]
    · simp [Moves.move2, hbt, Ne.symm hat, Ne.symm hbt]
    · simp [Moves.move2, ha, hb, ht]

/-- two variables of an arbitrary state -/
example (w : MWorld ℝ) : ∃ v, Moves.run (fun _ => none) w [.move1 ⟨0, 2⟩ ⟨0, 0⟩ [], .move1 ⟨0, 0⟩ ⟨0, 1⟩ [], .move1 ⟨0, 1⟩ ⟨0, 2⟩ []] = some (v, [.done, .done, .done]) ∧
    v.first ⟨0, 0⟩ = w.first ⟨0, 1⟩ :=
  let ⟨v, e, _, h, _⟩ := (C84_swap (fun _ => none) w (a := ⟨0, 0⟩) (b := ⟨0, 1⟩) (t := ⟨0, 2⟩) (by simp) (by simp) (by simp) [] [] [] ⟨[], []⟩ ⟨[], []⟩ ⟨[], []⟩).1
  ⟨v, e, h⟩

omit [Sub R] in
/-- **C84** `swap(out[i], out[i])`, which `ureals` calls for the rows it does not exchange and which moves a variable to itself, changes nothing (both classes, any arithmetic,
whatever moves leave in the maps). -/
theorem C84_swap_self (solve : (ℕ → ℕ → R) → Option (List R)) (w : MWorld R) {a t : Reg} (hat : a ≠ t) (l1 l2 l3 : SMap VId R) (m1 m2 m3 : HessGrad R) :
    (∃ v, Moves.run solve w [.move1 t a l1, .move1 a a l2, .move1 a t l3] = some (v, [.done, .done, .done]) ∧ v.lastId = w.lastId ∧
      (∀ q, q ≠ t → v.first q = w.first q) ∧ v.second = w.second) ∧
    ∃ v, Moves.run solve w [.move2 t a m1, .move2 a a m2, .move2 a t m3] = some (v, [.done, .done, .done]) ∧ v.lastId = w.lastId ∧
      (∀ q, q ≠ t → v.second q = w.second q) ∧ v.first = w.first := by
  constructor
  · refine ⟨_, rfl, rfl, fun q ht => ?_, rfl⟩
    by_cases h : q = a
    · simp [Moves.move1, h, hat, Ne.symm hat]
    · simp [Moves.move1, h, ht]
  · refine ⟨_, rfl, rfl, fun q ht => ?_, rfl⟩
    by_cases h : q = a
    · simp [Moves.move2, h, hat, Ne.symm hat]
    · simp [Moves.move2, h, ht]

/-- a variable of an arbitrary state -/
example (w : MWorld ℝ) : ∃ v, Moves.run (fun _ => none) w [.move1 ⟨0, 2⟩ ⟨0, 0⟩ [], .move1 ⟨0, 0⟩ ⟨0, 0⟩ [], .move1 ⟨0, 0⟩ ⟨0, 2⟩ []] = some (v, [.done, .done, .done]) ∧
    v.first ⟨0, 0⟩ = w.first ⟨0, 0⟩ :=
  let ⟨v, e, _, h, _⟩ := (C84_swap_self (fun _ => none) w (a := ⟨0, 0⟩) (t := ⟨0, 2⟩) (by simp) [] [] [] ⟨[], []⟩ ⟨[], []⟩ ⟨[], []⟩).1
  ⟨v, e, h _ (by simp)⟩

end

/-- **C84** What a `UReal` is after it was moved from, if the map is left empty: a variable with an identifier is still the same variable; any other keeps its mean, has no
correlation with anything, and as uncertainty keeps the one computed before, if it was asked for, or else has none. -/
theorem C84_left {w : MWorld ℝ} (r a : Reg) (ha : (w.first a).WF) (hc : r ≠ a) :
    let v := Moves.move1 w r a []
    v.first r = w.first a ∧ (v.first a).n = (w.first a).n ∧ (0 ≤ (w.first a).id → v.first a = w.first a) ∧
    ((w.first a).id < 0 → (∀ y, UReal.cov (v.first a) y = 0 ∧ UReal.cov y (v.first a) = 0) ∧ (v.first a).isindep = true ∧ (v.first a).indepid = some 0 ∧
      (v.first a).s = max (w.first a).sdev 0 ∧ UReal.var (v.first a) = (max (w.first a).sdev 0) ^ 2) := by
  have e : (Moves.move1 w r a []).first a = { w.first a with sigma := [] } := by simp [Moves.move1]
  refine ⟨by simp [Moves.move1, hc], by rw [e]; rfl, fun h => ?_, fun h => ⟨fun y => ?_, ?_, ?_, ?_, ?_⟩⟩
  · rw [e, ← ha.nil h]
  · rw [e]
    have h1 : ¬ 0 < (w.first a).id := by omega
    constructor
    · simp [UReal.cov, h, h1, SMap.find?, UReal.covLoop]
    · simp only [UReal.cov, h, h1, SMap.find?, and_true, and_false, if_false]
      split_ifs
      · rfl
      · cases y.sigma <;> simp [UReal.covLoop]
      · rfl
  · rw [e]
    simp [UReal.isindep]
  · rw [e]
    have h1 : ¬ 0 ≤ (w.first a).id := by omega
    simp [UReal.indepid, h1]
  · rw [e]
    have h1 : ¬ 0 ≤ (w.first a).id := by omega
    by_cases hs : 0 ≤ (w.first a).sdev
    · simp [UReal.s, h1, hs]
    · simp [UReal.s, h1, hs, UReal.s2, le_of_lt (not_le.1 hs)]
  · rw [e]
    have h1 : ¬ 0 ≤ (w.first a).id := by omega
    by_cases hs : 0 ≤ (w.first a).sdev
    · simp [UReal.var, h1, hs, sq]
    · simp [UReal.var, h1, hs, UReal.s2, le_of_lt (not_le.1 hs)]

/-- `z = x + y`, whose uncertainty 5 was asked for, is moved from. -/
example : ((Moves.move1 (⟨2, fun _ => ⟨-1, 5, 3, [(1, 3), (2, 4)]⟩, fun _ => UReal2.default'⟩ : MWorld ℝ) ⟨0, 1⟩ ⟨0, 0⟩ []).first ⟨0, 0⟩).s = 5 := by
  have h := ((C84_left (w := (⟨2, fun _ => ⟨-1, 5, 3, [(1, 3), (2, 4)]⟩, fun _ => UReal2.default'⟩ : MWorld ℝ)) ⟨0, 1⟩ ⟨0, 0⟩
    ⟨by simp, by simp, by simp [SMap.Sorted, SMap.keys], by simp [SMap.keys]⟩ (by simp)).2.2.2 (by norm_num)).2.2.2.1
  rw [h]
  norm_num

/-- **C84** What a `UReal2` is after it was moved from, if the maps are left empty: a constant with the mean it had (any arithmetic). -/
theorem C84_left_second {R : Type*} (w : MWorld R) (r a : Reg) {left : HessGrad R} (hl : left.diagmap = [] ∧ left.trimap = []) (hc : r ≠ a) :
    let v := Moves.move2 w r a left
    v.second r = w.second a ∧ v.second a = UReal2.const (w.second a).mu := by
  refine ⟨by simp [Moves.move2, hc], ?_⟩
  obtain ⟨d, t⟩ := left
  obtain ⟨rfl, rfl⟩ := hl
  simp [Moves.move2, UReal2.const, HessGrad.empty]

example (k : ℝ) (d : Diag ℝ) : (Moves.move2 (⟨2, fun _ => UReal.default', fun _ => ⟨⟨[(1, d), (2, d)], [(toLex (1, 2), k)]⟩, 7⟩⟩ : MWorld ℝ) ⟨0, 1⟩ ⟨0, 0⟩ ⟨[], []⟩).second ⟨0, 0⟩ =
    UReal2.const 7 :=
  (C84_left_second _ ⟨0, 1⟩ ⟨0, 0⟩ ⟨rfl, rfl⟩ (by simp)).2

/-- `x = 1 ± 3` and `y = 2 ± 4` are created, `z = x + y` is computed and its uncertainty read, and `z` is moved to `t` -/
def exMove (t : Reg) : List (VStep ℝ) :=
  [.call (.one (.new ⟨0, 0⟩ 1 3)), .call (.one (.new ⟨0, 1⟩ 2 4)), .call (.one (.binary ⟨0, 2⟩ ⟨0, 0⟩ ⟨0, 1⟩ 3 1 1)), .call (.one (.readS ⟨0, 2⟩)), .move1 t ⟨0, 2⟩ []]

theorem exMove_run (t : Reg) : ∃ w, Moves.run (fun _ => none) (MWorld.init : MWorld ℝ) (exMove t) = some (w, [.done, .done, .done, .num 5, .done]) ∧
    w.first ⟨0, 2⟩ = ⟨-1, 5, 3, []⟩ ∧ (t ≠ ⟨0, 2⟩ → w.first t = ⟨-1, 5, 3, [(1, 3), (2, 4)]⟩) := by
  have h3 : ¬ (3 : ℝ) < 0 := by norm_num
  have h4 : ¬ (4 : ℝ) < 0 := by norm_num
  have i1 : wrap32 1 = 1 := by decide
  have i2 : wrap32 2 = 2 := by decide
  have hs : Real.sqrt (3 * 3 + 4 * 4) = 5 := by
    rw [show (3 * 3 + 4 * 4 : ℝ) = 5 ^ 2 by norm_num]
    exact Real.sqrt_sq (by norm_num)
  refine ⟨Moves.move1 ⟨2, fun q => if q = ⟨0, 2⟩ then ⟨-1, 5, 3, [(1, 3), (2, 4)]⟩ else if q = ⟨0, 1⟩ then ⟨2, 4, 2, []⟩ else if q = ⟨0, 0⟩ then ⟨1, 3, 1, []⟩ else
    UReal.default', fun _ => UReal2.default'⟩ t ⟨0, 2⟩ [], ?_, ?_, fun h => ?_⟩
  · simp [exMove, Moves.run, Moves.step, MWorld.step, World.step, UReal.mk', MWorld.init, nextId, h3, h4, i1, i2, World.set, UReal.binary, UReal.default', SMap.upsert,
      invalidId, UReal.sCache, UReal.s2, hs]
    congr 2
    funext q
    by_cases h : q = ⟨0, 2⟩ <;> simp [h]
  · simp [Moves.move1]
  · simp [Moves.move1, h]

/-- **C84** The property is false: `UReal` keeps the uncertainty in a cache, which is not moved.  After `t = std::move(z)` where the uncertainty of `z = x + y` was read before,
`z` has the uncertainty 5 without depending on any variable, and its covariance with itself is 0: the class invariants do not hold.  `z = std::move(z)` does the same to `z`, and the
value is lost. -/
theorem C84_false : (∃ w os, Moves.run (fun _ => none) (MWorld.init : MWorld ℝ) (exMove ⟨0, 3⟩) = some (w, os) ∧ ¬ (w.first ⟨0, 2⟩).Valid ∧ (w.first ⟨0, 2⟩).s = 5 ∧
      UReal.cov (w.first ⟨0, 2⟩) (w.first ⟨0, 2⟩) = 0 ∧ (w.first ⟨0, 3⟩).s = 5 ∧ UReal.cov (w.first ⟨0, 3⟩) (w.first ⟨0, 3⟩) = 25) ∧
    ∃ w os, Moves.run (fun _ => none) (MWorld.init : MWorld ℝ) (exMove ⟨0, 2⟩) = some (w, os) ∧ (w.first ⟨0, 2⟩).s = 5 ∧ UReal.cov (w.first ⟨0, 2⟩) (w.first ⟨0, 2⟩) = 0 := by
  obtain ⟨w, e, h1, h2⟩ := exMove_run ⟨0, 3⟩
  obtain ⟨v, f, k1, -⟩ := exMove_run ⟨0, 2⟩
  have h2 := h2 (by simp)
  refine ⟨⟨w, _, e, fun h => ?_, ?_, ?_, ?_, ?_⟩, v, _, f, ?_, ?_⟩
  · have := h.cache
    rw [h1] at this
    have := this (by norm_num) (by norm_num)
    simp [UReal.s2] at this
  · simp [h1, UReal.s]
  · simp [h1, UReal.cov, UReal.covLoop]
  · simp [h2, UReal.s]
  · simp [h2, UReal.cov, UReal.covLoop]
    norm_num
  · simp [k1, UReal.s]
  · simp [k1, UReal.cov, UReal.covLoop]

section
variable {R : Type*} [Zero R] [One R] [Neg R] [Add R] [Sub R] [Mul R] [Div R] [NatCast R] [CCmp R] [CSqrt R]

/-- **C84** Programs which move variables, and read those they moved from, have no undefined behaviour if moves leave the maps empty (any arithmetic where `0 < 0` is false, fewer
than `2^31 - 1` constructions), and the class invariants hold apart from the cache. -/
theorem C84_defined_partial (h00 : CCmp.ltb (0 : R) 0 = false) {solve : (ℕ → ℕ → R) → Option (List R)} (hs : LowerOnly solve) (p : List (VStep R))
    (he : ∀ st ∈ p, LeavesEmpty st) (ht : ∀ st ∈ p, ThresholdOkM (copied st)) (hc : countNewM (p.map copied) < 2147483647) :
    ∃ w os, Moves.run solve (MWorld.init : MWorld R) p = some (w, os) ∧ os.length = p.length ∧ ∀ r, (w.first r).WF ∧ Ok2 (w.second r) := by
  have main : ∀ (w : MWorld R) (a : DMix) (S : Finset ℤ), MSim w a S → a.count + countNewM (p.map copied) < 2147483647 →
      ∃ w' os a' S', Moves.run solve w p = some (w', os) ∧ os.length = p.length ∧ MSim w' a' S' ∧ a'.count < 2147483647 := by
    clear hc
    induction p with
    | nil => exact fun w a S h hc => ⟨w, [], a, S, rfl, rfl, h, by simpa [countNewM] using hc⟩
    | cons st t ih =>
      intro w a S h hc
      have hstep : ∃ w' o a' S', Moves.step solve w st = some (w', o) ∧ MSim w' a' S' ∧ a'.count + countNewM (t.map copied) < 2147483647 := by
        have het := he st (by simp)
        have htt := ht st (by simp)
        cases st with
        | call st =>
          cases st with
          | one st =>
            simp only [List.map_cons, copied, countNewM] at hc
            obtain ⟨w', o, S', e, h1, h2⟩ := h.stepOne h00 (solve := solve) st (by omega)
            exact ⟨w', o, _, S', e, h1, by omega⟩
          | two st k =>
            simp only [List.map_cons, copied, countNewM] at hc
            obtain ⟨w', o, e, h1, h2⟩ := h.stepTwo hs st k htt (by omega)
            exact ⟨w', o, _, S, e, h1, by omega⟩
        | move1 r q left =>
          subst het
          simp only [List.map_cons, copied, countNewM, countNew] at hc
          have wf : ({ w.first q with sigma := [] } : UReal R).WF := by
            have := h.one.wf q
            exact ⟨this.zero_sdev, fun _ => rfl, by simp, by simp⟩
          have dp : ({ w.first q with sigma := [] } : UReal R).deps ⊆ a.first q := by
            have e : (w.first q).deps = a.first q := h.one.deps q
            rw [← e]
            intro i hi
            unfold UReal.deps at hi ⊢
            split_ifs at hi ⊢ with c1 c2
            · exact hi
            · simp at hi
            · exact hi
          refine ⟨_, _, ⟨a.count, fun p => ((Moves.move1 w r q []).first p).deps, a.second⟩, S, rfl, ⟨⟨h.one.count, fun p => ?_, fun p => rfl, fun p => ?_⟩, h.valid, h.vars, h.pos, h.le, fun p => ?_, h.notS⟩, by simpa using hc⟩
          · simp only [Moves.move1]
            split_ifs
            exacts [wf, h.one.wf q, h.one.wf p]
          · intro i hi
            simp only [Moves.move1] at hi
            split_ifs at hi
            · exact h.one.below q i (dp hi)
            · exact h.one.below q i ((h.one.deps q) ▸ hi)
            · exact h.one.below p i ((h.one.deps p) ▸ hi)
          · intro i hi
            simp only [Moves.move1] at hi
            split_ifs at hi
            · exact h.inS q (dp hi)
            · have e : (w.first q).deps = a.first q := h.one.deps q
              exact h.inS q (e ▸ hi)
            · have e : (w.first p).deps = a.first p := h.one.deps p
              exact h.inS p (e ▸ hi)
        | move2 r q left =>
          simp only [List.map_cons, copied, countNewM, countNew2] at hc
          obtain ⟨d, t⟩ := left
          obtain ⟨rfl, rfl⟩ := het
          refine ⟨_, _, ⟨a.count, a.first, fun p => ((Moves.move2 w r q ⟨[], []⟩).second p).hg.vars⟩, S, rfl, ⟨h.one, fun p => ?_, fun p => rfl, fun p => ?_, h.le, h.inS, fun p => ?_⟩, by simpa using hc⟩
          · simp only [Moves.move2]
            split_ifs
            exacts [⟨by simp, by simp, by simp⟩, h.valid q, h.valid p]
          · intro i hi
            simp only [Moves.move2] at hi
            split_ifs at hi
            · simp [HessGrad.vars] at hi
            · exact h.pos q i ((h.vars q) ▸ hi)
            · exact h.pos p i ((h.vars p) ▸ hi)
          · intro i hi
            simp only [Moves.move2] at hi
            split_ifs at hi
            · simp [HessGrad.vars] at hi
            · exact h.notS q i ((h.vars q) ▸ hi)
            · exact h.notS p i ((h.vars p) ▸ hi)
      obtain ⟨w1, o, a1, S1, e1, h1, c1⟩ := hstep
      obtain ⟨w2, os, a2, S2, e2, hl, h2, c2⟩ := ih (fun st hst => he st (by simp [hst])) (fun st hst => ht st (by simp [hst])) w1 a1 S1 h1 c1
      exact ⟨w2, o :: os, a2, S2, by simp [Moves.run, e1, e2], by simp [hl], h2, c2⟩
  obtain ⟨w, os, a, S, e, hl, h, hlt⟩ := main _ _ _ MSim.init (by simpa [DMix.init] using hc)
  refine ⟨w, os, e, hl, fun r => ⟨h.one.wf r, h.valid r, fun i hi => ?_⟩⟩
  have := (h.pos r i (h.vars r ▸ mem_vars_keys.2 hi)).2
  have h' : (a.count : ℤ) < 2147483647 := by exact_mod_cast hlt
  exact lt_of_le_of_lt this h'

end

/-- `z` is read after it was moved to itself -/
example : ∃ w os, Moves.run (fun _ => none) (MWorld.init : MWorld ℝ) (exMove ⟨0, 2⟩ ++ [.call (.one (.readS ⟨0, 2⟩))]) = some (w, os) ∧ os.length = 6 :=
  let ⟨w, os, e, h, _⟩ := C84_defined_partial (R := ℝ) (by simp [CCmp.ltb]) (solve := fun _ => none) (fun _ _ _ => rfl) (exMove ⟨0, 2⟩ ++ [.call (.one (.readS ⟨0, 2⟩))])
    (by simp [exMove, LeavesEmpty]) (by simp [exMove, copied, ThresholdOkM]) (by simp [exMove, copied, countNewM, countNew])
  ⟨w, os, e, by simpa [exMove] using h⟩

end Unc.Props
