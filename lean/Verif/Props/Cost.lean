import Verif.Model.Cost
import Verif.Props.Programs

/-!
# C65: the number of operations

`Verif/Model/Cost.lean` counts the assignments to coefficients; here the counts are given exactly in terms of the numbers of elementary variables of the operands.
-/

namespace Unc.Props
open Unc

section
variable {R : Type*} [Zero R] [One R] [Neg R] [Add R] [Mul R]

theorem merge_erase (dx dy : R) (xs ys : SMap ℤ R) (z : SMap ℤ R × ℕ) :
    (Cost.mergeLoop dx dy xs ys z).map (·.1) = UReal.mergeLoop dx dy xs ys z.1 := by
  fun_induction Cost.mergeLoop dx dy xs ys z with
  | case1 z => simp [UReal.mergeLoop]
  | case2 xid a xt z h h' => simp [UReal.mergeLoop, h']
  | case3 xid a xt z h z' h' ih => rw [ih, UReal.mergeLoop, if_pos h, if_neg h']; rfl
  | case4 xid a xt z h => simp [UReal.mergeLoop, h]
  | case5 yid b yt z h => simp [UReal.mergeLoop, h]
  | case6 yid b yt z h z' z'' ih => rw [ih, UReal.mergeLoop, if_neg h]; rfl
  | case7 xid a xt yid b yt z z1 h1 z2 z3 h2 ih =>
    rw [ih, UReal.mergeLoop, if_pos h1, if_pos h2]
    have : xid = yid := le_antisymm h2 h1
    subst this
    simp [z3, z2, z1, Cost.put]
  | case8 xid a xt yid b yt z z1 h1 z2 z3 h2 ih =>
    rw [ih, UReal.mergeLoop, if_pos h1, if_neg h2]
    have : yid ≠ xid := fun e => h2 e.ge
    simp [z3, z2, z1, Cost.put, h2, this]
  | case9 xid a xt yid b yt z z1 h1 ih =>
    rw [ih, UReal.mergeLoop, if_neg h1]
    simp [z1, Cost.put, le_of_not_ge h1]

/-- an exact count for the merge loop -/
theorem merge_count (dx dy : R) (xs ys : SMap ℤ R) (z : SMap ℤ R × ℕ) (hx : xs.Sorted) (hy : ys.Sorted) (r : SMap ℤ R × ℕ)
    (h : Cost.mergeLoop dx dy xs ys z = some r) :
    r.2 = z.2 + xs.length + ys.length + (ys.keys.filter (· ∉ xs.keys)).length := by
  fun_induction Cost.mergeLoop dx dy xs ys z with
  | case1 z => cases h; simp
  | case2 xid a xt z h1 h' => simp at h
  | case3 xid a xt z hm z' h' ih =>
    rw [ih hx.tail hy h]; simp [z', Cost.put]; omega
  | case4 xid a xt z hm => simp at h
  | case5 yid b yt z hm => simp at h
  | case6 yid b yt z hm z' z'' ih =>
    rw [ih hx hy.tail h]
    simp [z'', z', Cost.put]; omega
  | case7 xid a xt yid b yt z z1 h1 z2 z3 h2 ih =>
    rw [ih hx.tail hy.tail h]
    have e : xid = yid := le_antisymm h2 h1
    subst e
    have : ∀ k ∈ SMap.keys yt, k ≠ xid := fun k hk => ((SMap.sorted_cons.1 hy).1 k hk).ne'
    have e2 : (SMap.keys yt).filter (fun k => decide (k ∉ SMap.keys ((xid, a) :: xt))) = (SMap.keys yt).filter (fun k => decide (k ∉ SMap.keys xt)) :=
      List.filter_congr fun k hk => by simp [this k hk]
    have e3 : (SMap.keys ((xid, b) :: yt)).filter (fun k => decide (k ∉ SMap.keys ((xid, a) :: xt))) =
        (SMap.keys yt).filter (fun k => decide (k ∉ SMap.keys xt)) := by
      rw [SMap.keys_cons (p := (xid, b)), List.filter_cons_of_neg (by simp), e2]
    rw [e3]
    simp [z3, z2, z1, Cost.put]; omega
  | case8 xid a xt yid b yt z z1 h1 z2 z3 h2 ih =>
    rw [ih hx hy.tail h]
    have hlt : yid < xid := lt_of_not_ge h2
    have : yid ∉ SMap.keys ((xid, a) :: xt) := by
      rw [SMap.keys_cons, List.mem_cons, not_or]
      exact ⟨hlt.ne, fun hk => absurd ((SMap.sorted_cons.1 hx).1 yid hk) (by omega)⟩
    rw [SMap.keys_cons (p := (yid, b)), List.filter_cons_of_pos (by simpa using this)]
    simp [z3, z2, z1, Cost.put, h2, hlt.ne]; omega
  | case9 xid a xt yid b yt z z1 h1 ih =>
    rw [ih hx.tail hy h]
    have hlt : xid < yid := lt_of_not_ge h1
    have : ∀ k ∈ SMap.keys ((yid, b) :: yt), k ≠ xid := by
      intro k hk
      rw [SMap.keys_cons, List.mem_cons] at hk
      rcases hk with rfl | hk
      · exact hlt.ne'
      · exact (lt_trans hlt ((SMap.sorted_cons.1 hy).1 k hk)).ne'
    have e2 : (SMap.keys ((yid, b) :: yt)).filter (fun k => decide (k ∉ SMap.keys ((xid, a) :: xt))) =
        (SMap.keys ((yid, b) :: yt)).filter (fun k => decide (k ∉ SMap.keys xt)) := List.filter_congr fun k hk => by simp [this k hk]
    rw [e2]
    simp [z1, Cost.put, hlt.le]; omega

theorem fold_put (l : SMap ℤ R) (g : R → R → R) (z : SMap ℤ R × ℕ) :
    l.foldl (fun z p => Cost.put z p.1 0 (g p.2)) z = (l.foldl (fun z p => SMap.upsert z p.1 0 (g p.2)) z.1, z.2 + l.length) := by
  induction l generalizing z with
  | nil => simp
  | cons p t ih => rw [List.foldl_cons, ih, List.foldl_cons]; simp [Cost.put]; omega

theorem addInto_count (z : SMap ℤ R × ℕ) {x : UReal R} (hx : x.WF) (dx : R) :
    Cost.addInto z x dx = (UReal.addInto z.1 x dx, z.2 + x.deps.card) := by
  unfold Cost.addInto UReal.addInto UReal.deps
  split_ifs with h1 h2
  · simp [Cost.put]
  · rw [fold_put _ (fun b v => v + dx * b), List.toFinset_card_of_nodup hx.sorted.nodup]; simp [SMap.keys]
  · simp

/-- **C65** The instrumented functions compute the same results. -/
theorem C65_erase [CCmp R] (x y : UReal R) (mu dx dy : R) :
    (Cost.unary x mu dx).1 = x.unary mu dx ∧ (Cost.binary x y mu dx dy).map (·.1) = x.binary y mu dx dy ∧
      (Cost.binaryAssign x y mu dx dy).1 = x.binaryAssign y mu dx dy := by
  refine ⟨?_, ?_, ?_⟩
  · unfold Cost.unary UReal.unary; split_ifs <;> rfl
  · unfold Cost.binary UReal.binary
    simp only [fold_put _ (fun b _ => dx * b), fold_put _ (fun b v => v + dy * b)]
    by_cases h : x.id < 0 ∧ y.id < 0
    · have h1 : ¬ 0 < x.id := by omega
      have h2 : ¬ 0 < y.id := by omega
      have h3 : ¬ 0 ≤ y.id := by omega
      have h4 : ¬ 0 ≤ x.id := by omega
      simp only [if_pos h, h1, h2, h3, h4, ge_iff_le, and_false, if_false]
      rw [← merge_erase dx dy x.sigma y.sigma ([], 0), Option.map_map, Option.map_map]
      rfl
    · simp only [if_neg h, Option.map_some]
      congr 2
      split_ifs <;> rfl
  · unfold Cost.binaryAssign UReal.binaryAssign
    have : ∀ z : SMap ℤ R × ℕ, (Cost.addInto z y dy).1 = UReal.addInto z.1 y dy := fun z => by
      unfold Cost.addInto UReal.addInto
      split_ifs
      · rfl
      · rw [fold_put _ (fun b v => v + dy * b)]
      · rfl
    simp only [this]
    congr 2
    split_ifs <;> rfl

example : (Cost.unary (⟨-1, -1, 7, [(1, 2), (2, -4)]⟩ : UReal ℝ) 3 5).1 = ⟨-1, -1, 3, [(1, 10), (2, -20)]⟩ := by
  rw [(C65_erase _ (UReal.const 0) 3 5 0).1]
  simp [UReal.unary]; norm_num

/-- **C65** A function of one argument costs one write per variable. -/
theorem C65_unary {x : UReal R} (hx : x.WF) (mu dx : R) : (Cost.unary x mu dx).2 = x.deps.card := by
  unfold Cost.unary UReal.deps
  split_ifs
  · simp
  · rw [List.toFinset_card_of_nodup hx.sorted.nodup]; simp [SMap.keys]
  · simp

example : (Cost.unary (⟨-1, -1, 7, [(1, 2), (2, -4)]⟩ : UReal ℝ) 3 5).2 = 2 := by
  rw [C65_unary ⟨by simp, by simp, by simp [SMap.Sorted], by simp⟩]
  simp [UReal.deps]

/-- **C65** A function of two arguments costs one write per variable of each argument, and, when both are dependent, one more for each variable only in the second. -/
theorem C65_binary {x y z : UReal R} {c : ℕ} (hx : x.WF) (hy : y.WF) {mu dx dy : R} (h : Cost.binary x y mu dx dy = some (z, c)) :
    c = x.deps.card + y.deps.card + if x.id < 0 ∧ y.id < 0 then (y.deps \ x.deps).card else 0 := by
  have cs : ∀ {w : UReal R}, w.WF → w.id < 0 → w.deps.card = w.sigma.length := fun {w} hw h0 => by
    rw [UReal.deps, if_neg (by omega), if_pos h0, List.toFinset_card_of_nodup hw.sorted.nodup]; simp [SMap.keys]
  have c1 : ∀ {w : UReal R}, 0 < w.id → w.deps.card = 1 := fun {w} h0 => by rw [UReal.deps, if_pos h0]; simp
  have c0 : ∀ {w : UReal R}, w.id = 0 → w.deps.card = 0 := fun {w} h0 => by rw [UReal.deps, if_neg (by omega), if_neg (by omega)]; simp
  unfold Cost.binary at h
  simp only [fold_put _ (fun b _ => dx * b), fold_put _ (fun b v => v + dy * b)] at h
  by_cases hn : x.id < 0 ∧ y.id < 0
  · have h1 : ¬ 0 < x.id := by omega
    have h2 : ¬ 0 < y.id := by omega
    have h3 : ¬ 0 ≤ y.id := by omega
    have h4 : ¬ 0 ≤ x.id := by omega
    simp only [if_pos hn, h1, h2, h3, h4, ge_iff_le, and_false, if_false, Option.map_eq_some_iff, Prod.mk.injEq] at h
    obtain ⟨r, hr, -, hc⟩ := h
    have := merge_count dx dy _ _ _ hx.sorted hy.sorted r hr
    rw [if_pos hn, cs hx hn.1, cs hy hn.2, ← hc, this, Nat.zero_add]
    congr 1
    rw [UReal.deps, UReal.deps, if_neg h1, if_neg h2, if_pos hn.1, if_pos hn.2]
    rw [← List.toFinset_card_of_nodup (hy.sorted.nodup.filter _)]
    congr 1
    ext k; simp
  · simp only [if_neg hn, Option.map_some, Option.some.injEq, Prod.mk.injEq] at h
    rw [if_neg hn, ← h.2, Nat.add_zero]
    rcases lt_trichotomy x.id 0 with a | a | a <;> rcases lt_trichotomy y.id 0 with b | b | b
    · exact absurd ⟨a, b⟩ hn
    · simp [a, b, not_lt.2 a.le, cs hx a, c0 b]
    · simp [a, b, not_lt.2 a.le, b.le, cs hx a, c1 b, Cost.put]
    · simp [a, b, not_lt.2 b.le, cs hy b, c0 a]
    · simp [a, b, c0]
    · simp [a, b, c0, c1, Cost.put]
    · simp [a, b, a.le, not_lt.2 b.le, cs hy b, c1 a, Cost.put]
    · simp [a, b, c0, c1, Cost.put]
    · simp [a, b, c1, Cost.put]

/-- **C65** `nary` costs one write per variable of each argument. -/
theorem C65_nary (xs : List (UReal R × R)) (hx : ∀ p ∈ xs, p.1.WF) (mu : R) :
    (Cost.nary xs mu).1 = UReal.nary xs mu ∧ (Cost.nary xs mu).2 = (xs.map fun p => p.1.deps.card).sum := by
  have : ∀ (xs : List (UReal R × R)), (∀ p ∈ xs, p.1.WF) → ∀ z : SMap ℤ R × ℕ, xs.foldl (fun z p => Cost.addInto z p.1 p.2) z =
      (xs.foldl (fun z p => UReal.addInto z p.1 p.2) z.1, z.2 + (xs.map fun p => p.1.deps.card).sum) := by
    intro xs
    induction xs with
    | nil => intro _ z; simp
    | cons p t ih =>
      intro h z
      rw [List.foldl_cons, addInto_count z (h p (by simp)), ih (fun q hq => h q (by simp [hq]))]
      simp [Nat.add_assoc]
  simp only [Cost.nary, UReal.nary, this xs hx]
  simp

example : (Cost.nary [((⟨-1, -1, 7, [(1, 2), (2, -4)]⟩ : UReal ℝ), 2), (⟨1, 3, 5, []⟩, 5)] 3).2 = 3 := by
  rw [(C65_nary _ (by
    intro p hp
    simp at hp
    rcases hp with rfl | rfl
    · exact ⟨by simp, by simp, by simp [SMap.Sorted], by simp⟩
    · exact ⟨by simp, by simp, by simp, by simp⟩) 3).2]
  simp [UReal.deps]

variable [CCmp R]

/-- **C65** `binary_assign` costs one write per variable of the other operand, one if the left operand is elementary, and one per variable of the left operand
only if the derivative with respect to it is not 1. -/
theorem C65_assign {t x : UReal R} (ht : t.WF) (hx : x.WF) (mu dt dx : R) :
    (Cost.binaryAssign t x mu dt dx).2 = (if 0 < t.id then 1 else 0) + (if CCmp.eqb dt 1 then 0 else t.deps.card) + x.deps.card := by
  unfold Cost.binaryAssign
  simp only [addInto_count _ hx]
  congr 1
  rcases lt_trichotomy t.id 0 with a | a | a
  · have : t.deps.card = t.sigma.length := by
      rw [UReal.deps, if_neg (by omega), if_pos a, List.toFinset_card_of_nodup ht.sorted.nodup]; simp [SMap.keys]
    simp only [not_lt.2 a.le, if_false, this]; split_ifs <;> simp
  · have : t.deps.card = 0 := by rw [UReal.deps, if_neg (by omega), if_neg (by omega)]; simp
    simp only [a, lt_irrefl, if_false, this, ht.nil a.ge]; split_ifs <;> simp
  · have : t.deps.card = 1 := by rw [UReal.deps, if_pos a]; simp
    simp only [a, if_true, this, ht.nil a.le]; split_ifs <;> simp [Cost.put, SMap.upsert]

/-- **C65** Adding `n` values in a loop with `+=` costs at most one write per variable of each of them, plus one, whatever their number: with elementary summands the cost
is linear in their number. -/
theorem C65_accumulate (h11 : CCmp.eqb (1 : R) 1 = true) {t : UReal R} (ht : t.WF) (us : List (UReal R)) (hu : ∀ u ∈ us, u.WF) :
    (Cost.accLoop t us).1 = us.foldl (fun t u => t.binaryAssign u (t.mu + u.mu) 1 1) t ∧
      (Cost.accLoop t us).2 = (if 0 < t.id ∧ us ≠ [] then 1 else 0) + (us.map fun u => u.deps.card).sum := by
  induction us generalizing t with
  | nil => simp [Cost.accLoop]
  | cons u us ih =>
    have hu' := hu u (by simp)
    have e := (C65_erase t u (t.mu + u.mu) 1 1).2.2
    have hc := C65_assign ht hu' (t.mu + u.mu) 1 1
    have hw := UReal.wf_binaryAssign ht hu' (t.mu + u.mu) 1 1
    rw [← e] at hw
    have hid : (Cost.binaryAssign t u (t.mu + u.mu) 1 1).1.id = -1 := by rw [e]; rfl
    obtain ⟨i1, i2⟩ := ih hw (fun v hv => hu v (by simp [hv]))
    refine ⟨?_, ?_⟩
    · rw [List.foldl_cons, ← e]; exact i1
    · show (Cost.binaryAssign t u (t.mu + u.mu) 1 1).2 + (Cost.accLoop (Cost.binaryAssign t u (t.mu + u.mu) 1 1).1 us).2 = _
      rw [i2, hc, hid, h11]
      simp; omega

omit [CCmp R] in
/-- one step of the quadratic loop -/
theorem sum_step {t u : UReal R} (ht : t.WF) (hu : 0 < u.id) (hu0 : u.WF) (hid : t.id ≤ 0) :
    ∃ z, Cost.binary t u (t.mu + u.mu) 1 1 = some (z, t.deps.card + 1) ∧ z.WF ∧ z.deps = insert u.id t.deps ∧ z.id = -1 ∧ t.binary u (t.mu + u.mu) 1 1 = some z := by
  have hud : u.deps = {u.id} := by rw [UReal.deps, if_pos hu]
  obtain ⟨z, hz⟩ : ∃ z, UReal.binary t u (t.mu + u.mu) 1 1 = some z := by
    unfold UReal.binary
    simp only [show ¬ (t.id < 0 ∧ u.id < 0) by omega, if_false]
    exact ⟨_, rfl⟩
  letI : CCmp R := ⟨fun _ _ => false, fun _ _ => false, fun _ _ => false⟩
  have he := (C65_erase t u (t.mu + u.mu) 1 1).2.1
  rw [hz, Option.map_eq_some_iff] at he
  obtain ⟨⟨z', c⟩, h1, h2⟩ := he
  simp only at h2
  subst h2
  have hc := C65_binary ht hu0 h1
  rw [hud, if_neg (by omega)] at hc
  simp only [Finset.card_singleton, Nat.add_zero] at hc
  rw [hc] at h1
  refine ⟨z', h1, ?_⟩
  have hs : z'.sigma = if t.id < 0 then SMap.upsert (t.sigma.foldl (fun z p => SMap.upsert z p.1 0 (fun _ => 1 * p.2)) []) u.id 0 (fun v => v + 1 * u.sdev)
      else SMap.upsert [] u.id 0 (fun v => v + 1 * u.sdev) := by
    unfold UReal.binary at hz
    simp only [show ¬ (t.id < 0 ∧ u.id < 0) by omega, if_false, Option.map_some, Option.some.injEq] at hz
    rw [← hz]
    simp only [hu, hu.le, not_lt.2 hid, ge_iff_le, and_true, if_true, if_false]
    split_ifs <;> rfl
  have hz' : z'.id = -1 := by
    unfold UReal.binary at hz
    simp only [show ¬ (t.id < 0 ∧ u.id < 0) by omega, if_false, Option.map_some, Option.some.injEq] at hz
    rw [← hz]; rfl
  have hsort : z'.sigma.Sorted := by
    rw [hs]; split_ifs
    · exact SMap.sorted_upsert (SMap.sorted_foldl_upsert _ (fun b _ => 1 * b) _ SMap.sorted_nil)
    · exact SMap.sorted_upsert SMap.sorted_nil
  have hk : ∀ k, k ∈ z'.sigma.keys ↔ k = u.id ∨ k ∈ t.deps := fun k => by
    rw [hs]; split_ifs with h
    · rw [SMap.mem_keys_upsert, SMap.mem_keys_foldl_upsert _ (fun b _ => 1 * b), UReal.deps, if_neg (by omega), if_pos h]; simp
    · rw [SMap.mem_keys_upsert, UReal.deps, if_neg (by omega), if_neg h]; simp
  refine ⟨⟨by omega, by omega, hsort, fun k hk' => ?_⟩, ?_, hz', hz⟩
  · rcases (hk k).1 hk' with rfl | h
    · exact hu
    · exact UReal.deps_pos ht k h
  · ext k
    rw [UReal.deps, if_neg (by omega), if_pos (by omega)]
    simp [hk]

omit [CCmp R] in
/-- **C65** The loop `x = x + u` over `n` different elementary variables costs n(n+1)/2 writes (starting from a value with `m` variables, `n` times `m` more). -/
theorem C65_quadratic {t : UReal R} (ht : t.WF) (hid : t.id ≤ 0) (us : List (UReal R)) (hu : ∀ u ∈ us, u.WF ∧ 0 < u.id ∧ u.id ∉ t.deps)
    (hd : (us.map (·.id)).Nodup) :
    ∃ z c, Cost.sumLoop t us = some (z, c) ∧ us.foldlM (fun t u => t.binary u (t.mu + u.mu) 1 1) t = some z ∧
      z.deps = t.deps ∪ (us.map (·.id)).toFinset ∧ 2 * c = 2 * us.length * t.deps.card + us.length * (us.length + 1) := by
  induction us generalizing t with
  | nil => exact ⟨t, 0, rfl, rfl, by simp, by simp⟩
  | cons u us ih =>
    obtain ⟨hu1, hu2, hu3⟩ := hu u (by simp)
    obtain ⟨z, h1, h2, h3, h4, h5⟩ := sum_step ht hu2 hu1 hid
    rw [List.map_cons, List.nodup_cons] at hd
    obtain ⟨w, c, e1, e2, e3, e4⟩ := ih h2 (by omega) (fun v hv => by
      obtain ⟨a, b, c⟩ := hu v (by simp [hv])
      refine ⟨a, b, ?_⟩
      rw [h3, Finset.mem_insert, not_or]
      exact ⟨fun e => hd.1 (e ▸ List.mem_map_of_mem hv), c⟩) hd.2
    refine ⟨w, t.deps.card + 1 + c, ?_, ?_, ?_, ?_⟩
    · simp [Cost.sumLoop, h1, e1]
    · rw [List.foldlM_cons, h5]; exact e2
    · rw [e3, h3]; ext k; simp
    · have : z.deps.card = t.deps.card + 1 := by rw [h3, Finset.card_insert_of_notMem hu3]
      rw [this] at e4
      rw [Nat.mul_add, e4, List.length_cons]; ring

end

/-! ## examples -/

/-- an elementary variable with identifier `i` and mean and uncertainty 1 -/
noncomputable def exElem (i : ℕ) : UReal ℝ := ⟨i + 1, 1, 1, []⟩

theorem exElem_wf (i : ℕ) : (exElem i).WF := ⟨by simp [exElem]; omega, fun _ => rfl, SMap.sorted_nil, by simp [exElem]⟩

/-- the loops of the documentation: 1000 elementary variables, 500500 writes or 1000 -/
example : ∃ z c, Cost.sumLoop (UReal.const (0 : ℝ)) ((List.range 1000).map exElem) = some (z, c) ∧ c = 500500 ∧
    (Cost.accLoop (UReal.const (0 : ℝ)) ((List.range 1000).map exElem)).2 = 1000 := by
  have h0 : (UReal.const (0 : ℝ)).WF := ⟨fun _ => rfl, fun _ => rfl, SMap.sorted_nil, by simp [UReal.const]⟩
  have d0 : (UReal.const (0 : ℝ)).deps = ∅ := by simp [UReal.deps, UReal.const]
  obtain ⟨z, c, h1, -, -, h2⟩ := C65_quadratic h0 (le_refl _) ((List.range 1000).map exElem)
    (fun u hu => by
      obtain ⟨i, -, rfl⟩ := List.mem_map.1 hu
      refine ⟨exElem_wf i, by simp only [exElem]; omega, by simp [d0]⟩)
    (by rw [List.map_map]; exact (List.nodup_range).map fun a b e => by simpa [exElem] using e)
  refine ⟨z, c, h1, by rw [d0, List.length_map, List.length_range, Finset.card_empty] at h2; omega, ?_⟩
  have := (C65_accumulate (by rw [eqb_iff]) h0 ((List.range 1000).map exElem) (fun u hu => by
      obtain ⟨i, -, rfl⟩ := List.mem_map.1 hu; exact exElem_wf i)).2
  rw [this, List.map_map]
  have e : (fun u : UReal ℝ => u.deps.card) ∘ exElem = fun _ => 1 := by
    funext i; simp only [Function.comp, UReal.deps]; rw [if_pos (by simp only [exElem]; omega)]; simp
  rw [e, if_neg (by simp [UReal.const]), List.map_const', List.sum_replicate, List.length_range]
  norm_num

/-- two dependent values with one common variable: 2 + 2 + 1 writes for three coefficients -/
example : ∃ z, Cost.binary (⟨-1, -1, 0, [(1, 1), (2, 1)]⟩ : UReal ℝ) ⟨-1, -1, 0, [(2, 1), (3, 1)]⟩ 0 1 1 = some (z, 5) := by
  simp [Cost.binary, Cost.mergeLoop, Cost.put, maxId]

/-- `t += x` for a `t` of two variables costs one write, `t *= x` three -/
example : (Cost.binaryAssign (⟨-1, -1, 0, [(1, 1), (2, 1)]⟩ : UReal ℝ) ⟨3, 1, 2, []⟩ 0 1 1).2 = 1 ∧
    (Cost.binaryAssign (⟨-1, -1, 0, [(1, 1), (2, 1)]⟩ : UReal ℝ) ⟨3, 1, 2, []⟩ 0 2 1).2 = 3 := by
  have h2 : CCmp.eqb (2 : ℝ) 1 = false := by rw [← Bool.not_eq_true, eqb_iff]; norm_num
  have h1 : CCmp.eqb (1 : ℝ) 1 = true := by rw [eqb_iff]
  simp [Cost.binaryAssign, Cost.addInto, Cost.put, h1, h2]

/-- `x + y` for values of two variables with one in common -/
example (z : UReal ℝ) (c : ℕ) (h : Cost.binary (⟨-1, -1, 0, [(1, 1), (2, 1)]⟩ : UReal ℝ) ⟨-1, -1, 0, [(2, 1), (3, 1)]⟩ 0 1 1 = some (z, c)) : c = 5 := by
  rw [C65_binary ⟨by simp, by simp, by simp [SMap.Sorted], by simp⟩ ⟨by simp, by simp, by simp [SMap.Sorted], by simp⟩ h]
  simp [UReal.deps]
  decide

example : (Cost.binaryAssign (⟨-1, -1, 0, [(1, 1), (2, 1)]⟩ : UReal ℝ) ⟨3, 1, 2, []⟩ 0 2 1).2 = 3 := by
  have h2 : CCmp.eqb (2 : ℝ) 1 = false := by rw [← Bool.not_eq_true, eqb_iff]; norm_num
  rw [C65_assign ⟨by simp, by simp, by simp [SMap.Sorted], by simp⟩ ⟨by simp, by simp, by simp, by simp⟩]
  simp [UReal.deps, h2]

end Unc.Props
