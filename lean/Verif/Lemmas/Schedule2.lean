import Verif.Lemmas.Schedule
import Verif.Lemmas.Float

/-!
# Variables of different threads
-/

namespace Unc
open Unc.Spec Unc.Props SMap

/-! ## which thread created a variable -/

/-- The variables created after the first `N` are used only by the thread which created them. -/
structure OwnM (N : ℤ) (a : DMix) (o : ℤ → ℕ) : Prop where
  own : ∀ r, ∀ i ∈ a.first r, i ≤ N ∨ o i = r.thread
  zero : ∀ r : Reg, r.thread = 0 → ∀ i ∈ a.first r, i ≤ N
  below : ∀ r, ∀ i ∈ a.first r, i ≤ a.count

section
variable {R : Type*} [Zero R] [CCmp R]

theorem OwnM.set {N : ℤ} {a : DMix} {o : ℤ → ℕ} (h : OwnM N a o) (r : Reg) (h0 : r.thread ≠ 0) (c : ℕ) (g : Reg → Finset ℤ) (hc : a.count ≤ c) (l : Finset ℤ)
    (hl : ∀ i ∈ l, (i ≤ N ∨ o i = r.thread) ∧ i ≤ a.count) : OwnM N ⟨c, fun q => if q = r then l else a.first q, g⟩ o := by
  have hc' : (a.count : ℤ) ≤ c := by exact_mod_cast hc
  refine ⟨fun q i hi => ?_, fun q hq i hi => ?_, fun q i hi => ?_⟩
  · simp only at hi
    split_ifs at hi with hqr
    · subst hqr; exact (hl i hi).1
    · exact h.own q i hi
  · simp only at hi
    split_ifs at hi with hqr
    · exact absurd (hqr ▸ hq) h0
    · exact h.zero q hq i hi
  · simp only at hi ⊢
    split_ifs at hi with hqr
    · exact (hl i hi).2.trans hc'
    · exact (h.below q i hi).trans hc'

theorem OwnM.more {N : ℤ} {a : DMix} {o : ℤ → ℕ} (h : OwnM N a o) (c : ℕ) (g : Reg → Finset ℤ) (hc : a.count ≤ c) : OwnM N ⟨c, a.first, g⟩ o :=
  ⟨h.own, h.zero, fun q i hi => (h.below q i hi).trans (by exact_mod_cast hc)⟩

theorem OwnM.step {N : ℤ} {a : DMix} {o : ℤ → ℕ} (h : OwnM N a o) (st : MStep R) (out : Out R) (hr : RaceFreeM st) : ∃ o', OwnM N (a.step out st) o' := by
  cases st with
  | one st =>
    obtain ⟨h0, hrd⟩ := hr (threadOf st) rfl
    have get : ∀ q ∈ reads st, ∀ i ∈ a.first q, (i ≤ N ∨ o i = threadOf st) ∧ i ≤ a.count := by
      intro q hq i hi
      refine ⟨?_, h.below q i hi⟩
      rcases hrd q hq with h1 | h1
      · rw [← h1]; exact h.own q i hi
      · exact Or.inl (h.zero q h1 i hi)
    cases st with
    | new r n s =>
      have fresh : ∀ q, ∀ i ∈ a.first q, i ≠ ((a.count + 1 : ℕ) : ℤ) := by
        intro q i hi he
        have := h.below q i hi
        rw [he] at this
        push_cast at this
        omega
      have h' : OwnM N ⟨a.count + 1, a.first, a.second⟩ (Function.update o ((a.count + 1 : ℕ) : ℤ) r.thread) := by
        refine ⟨fun q i hi => ?_, h.zero, (h.more (a.count + 1) a.second (by omega)).below⟩
        rw [Function.update_of_ne (fresh q i hi)]
        exact h.own q i hi
      refine ⟨Function.update o ((a.count + 1 : ℕ) : ℤ) r.thread, ?_⟩
      simp only [DMix.step, DWorld.step]
      split_ifs
      · exact h'
      · refine h'.set r h0 _ _ le_rfl _ fun i hi => ?_
        simp only [Finset.mem_singleton] at hi
        subst hi
        exact ⟨Or.inr (by simp), le_rfl⟩
    | const r n => exact ⟨o, h.set r h0 _ _ le_rfl _ (by simp)⟩
    | copy r b => exact ⟨o, h.set r h0 _ _ le_rfl _ (get b (by simp [reads]))⟩
    | unary r b mu dx => exact ⟨o, h.set r h0 _ _ le_rfl _ (get b (by simp [reads]))⟩
    | binary r b c mu dx dy =>
      refine ⟨o, h.set r h0 _ _ le_rfl _ fun i hi => ?_⟩
      rcases Finset.mem_union.1 hi with hi | hi
      exacts [get b (by simp [reads]) i hi, get c (by simp [reads]) i hi]
    | nary r xs mu =>
      refine ⟨o, h.set r h0 _ _ le_rfl _ fun i hi => ?_⟩
      obtain ⟨p, hp, hpi⟩ := (mem_foldr_union _ _ _).1 hi
      exact get p.1 (by simp only [reads]; exact List.mem_map_of_mem hp) i hpi
    | assign r b mu dt dx =>
      refine ⟨o, h.set r h0 _ _ le_rfl _ fun i hi => ?_⟩
      rcases Finset.mem_union.1 hi with hi | hi
      exacts [get r (by simp [reads]) i hi, get b (by simp [reads]) i hi]
    | changeNom r b n => exact ⟨o, h.set r h0 _ _ le_rfl _ (get b (by simp [reads]))⟩
    | readS r => exact ⟨o, h⟩
    | readVar r => exact ⟨o, h⟩
  | two st k =>
    have new : ∀ r, OwnM N (a.new2 r out) o := by
      intro r
      cases out with
      | threw e => exact h
      | _ => exact h.more _ _ (by simp)
    cases st with
    | newCentral r n m t => exact ⟨o, new r⟩
    | newStd r n s m t => exact ⟨o, new r⟩
    | otherNew => exact ⟨o, h.more _ _ (by simp)⟩
    | _ => exact ⟨o, h.more _ _ le_rfl⟩

theorem OwnM.run {N : ℤ} (p : List (MStep R × Out R)) {a : DMix} {o : ℤ → ℕ} (h : OwnM N a o) (hr : ∀ q ∈ p, RaceFreeM q.1) : ∃ o', OwnM N (a.run p) o' := by
  induction p generalizing a o with
  | nil => exact ⟨o, h⟩
  | cons q p ih =>
    obtain ⟨o1, h1⟩ := h.step q.1 q.2 (hr q (by simp))
    exact ih h1 fun x hx => hr x (List.mem_cons_of_mem _ hx)

end

/-! ## covariances after different renamings -/

section
variable {R : Type*}

theorem find_mapKey_two (f g : ℤ → ℤ) (ys : SMap ℤ R) (a b : ℤ)
    (h : ∀ k ∈ keys ys, f k = a ↔ g k = b) : SMap.find? (mapKey f ys) a = SMap.find? (mapKey g ys) b := by
  induction ys with
  | nil => rfl
  | cons q t ih =>
    obtain ⟨k0, v⟩ := q
    have h1 := h k0 (by simp)
    have h2 := ih fun k hk => h k (by simp [hk])
    rw [mapKey_cons, mapKey_cons, SMap.find?, SMap.find?]
    by_cases e : f k0 = a
    · rw [if_pos e, if_pos (h1.1 e)]
    · rw [if_neg e, if_neg fun e' => e (h1.2 e'), h2]

theorem UReal.repr_shift {ρ : ℤ → ℤ} (h : Shift ρ) (x : UReal R) : (x.shift ρ).repr' = mapKey ρ x.repr' := by
  unfold UReal.repr'
  simp only [UReal.shift, h.pos, h.neg]
  split_ifs <;> simp

theorem UReal.mem_deps_shift {ρ : ℤ → ℤ} (h : Shift ρ) {x : UReal R} {i : ℤ} (hi : i ∈ x.deps) : ρ i ∈ (x.shift ρ).deps := by
  rw [← UReal.repr_keys, List.mem_toFinset] at hi ⊢
  obtain ⟨q, hq, rfl⟩ := List.mem_map.1 hi
  rw [UReal.repr_shift h]
  exact List.mem_map.2 ⟨(ρ q.1, q.2), List.mem_map.2 ⟨q, hq, rfl⟩, rfl⟩

/-- Which variables of two threads are the same. -/
theorem same_variable {N : ℤ} {t₁ t₂ : ℕ} (ht : t₁ ≠ t₂) {ρ₁ ρ₂ : ℤ → ℤ} (h1 : Shift ρ₁) (h2 : Shift ρ₂) (k1 : ∀ i ≤ N, ρ₁ i = i) (k2 : ∀ i ≤ N, ρ₂ i = i)
    {o : ℤ → ℕ} {i j : ℤ} (o1 : ρ₁ i ≤ N ∨ o (ρ₁ i) = t₁) (o2 : ρ₂ j ≤ N ∨ o (ρ₂ j) = t₂) : ρ₁ i = ρ₂ j ↔ i = j ∧ i ≤ N := by
  have d1 : ρ₁ i ≤ N ↔ i ≤ N := by
    conv_lhs => rw [← k1 N le_rfl]
    exact h1.mono.le_iff_le
  have d2 : ρ₂ j ≤ N ↔ j ≤ N := by
    conv_lhs => rw [← k2 N le_rfl]
    exact h2.mono.le_iff_le
  constructor
  · intro e
    have hN : ρ₁ i ≤ N := by
      rcases o1 with h | h
      · exact h
      · rcases o2 with h' | h'
        · exact e ▸ h'
        · rw [e] at h
          exact absurd (h.symm.trans h') ht
    have hi := d1.1 hN
    have hj := d2.1 (e ▸ hN)
    rw [k1 i hi, k2 j hj] at e
    exact ⟨e, hi⟩
  · rintro ⟨rfl, hi⟩
    rw [k1 i hi, k2 i hi]

/-- The covariance depends only on which variables are the same. -/
theorem UReal.cov_shift_two [Zero R] [Add R] [Mul R] {ρ₁ ρ₂ ρ₁' ρ₂' : ℤ → ℤ} (h1 : Shift ρ₁) (h2 : Shift ρ₂) (h1' : Shift ρ₁') (h2' : Shift ρ₂')
    {x y : UReal R} (hx : (x.shift ρ₁).WF) (hy : (y.shift ρ₂).WF) (hx' : (x.shift ρ₁').WF) (hy' : (y.shift ρ₂').WF)
    (hd : ∀ i ∈ x.deps, ∀ j ∈ y.deps, ρ₁ i = ρ₂ j ↔ ρ₁' i = ρ₂' j) : cov (x.shift ρ₁) (y.shift ρ₂) = cov (x.shift ρ₁') (y.shift ρ₂') := by
  rw [UReal.cov_dot hx hy, UReal.cov_dot hx' hy', UReal.repr_shift h1, UReal.repr_shift h2, UReal.repr_shift h1', UReal.repr_shift h2']
  congr 1
  simp only [UReal.pairs, SMap.mapKey, List.filterMap_map]
  refine List.filterMap_congr fun q hq => ?_
  simp only [Function.comp]
  have a1 : q.1 ∈ x.deps := by
    rw [← UReal.repr_keys, List.mem_toFinset]
    exact List.mem_map_of_mem (f := Prod.fst) hq
  have key := find_mapKey_two ρ₂ ρ₂' y.repr' (ρ₁ q.1) (ρ₁' q.1) fun k hk => by
    have a2 : k ∈ y.deps := by rw [← UReal.repr_keys]; simpa using hk
    rw [eq_comm, hd q.1 a1 k a2, eq_comm]
  simp only [SMap.mapKey] at key
  rw [key]

end
end Unc
