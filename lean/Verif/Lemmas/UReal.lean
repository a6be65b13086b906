import Verif.Model.UReal
import Verif.Lemmas.Map
import Verif.Spec.Linear
import Mathlib.Tactic.Ring
import Mathlib.Tactic.LinearCombination
import Mathlib.Algebra.Order.Ring.Abs

/-!
# Abstraction of the `UReal` model to linear forms, class invariants
-/

set_option linter.unusedSectionVars false
set_option linter.unusedSimpArgs false

namespace Unc.UReal
open Unc.Spec
variable {R S : Type*}

/-- The elementary variables a value depends on. -/
def deps (x : UReal R) : Finset ℤ :=
  if 0 < x.id then {x.id} else if x.id < 0 then x.sigma.keys.toFinset else ∅

/-- The coefficient with respect to an elementary variable. -/
def coef [Zero R] (x : UReal R) (i : ℤ) : R :=
  if 0 < x.id then (if i = x.id then x.sdev else 0)
  else if x.id < 0 then x.sigma.get i else 0

/-- Abstraction function. -/
def toLin [Zero R] (x : UReal R) : LinForm R := ⟨x.mu, x.deps, x.coef⟩

/-- Class invariants of ureal.hpp:296-300 that do not involve arithmetic, plus positivity of ids. -/
structure WF [Zero R] (x : UReal R) : Prop where
  zero_sdev : x.id = 0 → x.sdev = 0
  nil : 0 ≤ x.id → x.sigma = []
  sorted : x.sigma.Sorted
  pos : ∀ k ∈ x.sigma.keys, 0 < k

/-- The invariant of the cache (ureal.hpp:300). -/
def CacheOK [Zero R] [Add R] [Mul R] [LE R] (x : UReal R) : Prop :=
  x.id < 0 → 0 ≤ x.sdev → x.sdev * x.sdev = x.s2

/-- All class invariants (ureal.hpp:296-300). -/
structure Valid [Zero R] [Add R] [Mul R] [LE R] (x : UReal R) : Prop where
  wf : x.WF
  cache : x.CacheOK

/-- Every id the value depends on is below `N`. -/
def Below (N : ℤ) (x : UReal R) : Prop := ∀ i ∈ x.deps, i < N

section structural
variable [Zero R]

theorem deps_pos {x : UReal R} (hx : x.WF) : ∀ i ∈ x.deps, 0 < i := by
  intro i hi
  unfold deps at hi
  split_ifs at hi with h1 h2
  · simp at hi; omega
  · exact hx.pos i (by simpa using hi)
  · simp at hi

theorem coef_of_not_mem {x : UReal R} {i : ℤ} (h : i ∉ x.deps) : x.coef i = 0 := by
  unfold deps at h; unfold coef
  split_ifs at h ⊢ with h1 h2 h3
  · simp [h2] at h
  · rfl
  · exact SMap.get_of_not_mem (by simpa using h)
  · rfl

theorem supported (x : UReal R) : x.toLin.Supported := fun _ hi => coef_of_not_mem hi

theorem wf_const (n : R) : (const n).WF := ⟨fun _ => rfl, fun _ => rfl, by simp [const], by simp [const]⟩
theorem wf_default : (default' : UReal R).WF :=
  ⟨fun _ => rfl, fun _ => rfl, by simp [default'], by simp [default']⟩

theorem wf_mk' [CCmp R] {k : ℤ} {n s : R} {x : UReal R} (hk : k ≠ 0) (h : mk' k n s = .ok x) : x.WF := by
  unfold mk' at h
  split_ifs at h
  cases h
  exact ⟨fun h => absurd h hk, fun _ => rfl, by simp, by simp⟩

theorem wf_changeNom {x : UReal R} (hx : x.WF) (n : R) : (x.changeNom n).WF :=
  ⟨hx.zero_sdev, hx.nil, hx.sorted, hx.pos⟩

theorem deps_unary [One R] [Neg R] [Mul R] (x : UReal R) (mu dx : R) : (unary x mu dx).deps = x.deps := by
  unfold unary
  by_cases h1 : 0 < x.id
  · simp [deps, h1]
  · by_cases h2 : x.id < 0
    · simp [deps, h1, h2]
    · simp [deps, h1, h2]

theorem wf_unary [One R] [Neg R] [Mul R] {x : UReal R} (hx : x.WF) (mu dx : R) : (unary x mu dx).WF := by
  unfold unary
  split_ifs with h1 h2
  · exact ⟨fun h => by simp at h; omega, fun _ => rfl, by simp, by simp⟩
  · exact ⟨fun h => by simp at h; omega, fun h => by simp at h; omega, by simpa using hx.sorted,
      by simpa using hx.pos⟩
  · exact ⟨fun _ => rfl, fun _ => rfl, by simp, by simp⟩

section add
variable [Add R] [Mul R]

theorem sorted_addInto {z : SMap ℤ R} (hz : z.Sorted) (x : UReal R) (dx : R) :
    SMap.Sorted (addInto z x dx) := by
  unfold addInto
  split_ifs
  · exact SMap.sorted_upsert hz
  · exact SMap.sorted_foldl_upsert x.sigma (fun b v => v + dx * b) z hz
  · exact hz

theorem mem_keys_addInto {z : SMap ℤ R} (x : UReal R) (dx : R) (j : ℤ) :
    j ∈ SMap.keys (addInto z x dx) ↔ j ∈ z.keys ∨ j ∈ x.deps := by
  unfold addInto deps
  split_ifs
  · rw [SMap.mem_keys_upsert]; simp; tauto
  · rw [SMap.mem_keys_foldl_upsert x.sigma (fun b v => v + dx * b) z]; simp
  · simp

/-- What the merge loop computes. -/
theorem mergeLoop_spec (dx dy : R) (xs ys z : SMap ℤ R) (hx : xs.Sorted) (hy : ys.Sorted) (hz : z.Sorted)
    (mx : ∀ k ∈ xs.keys, k < maxId) (my : ∀ k ∈ ys.keys, k < maxId) :
    ∃ r, mergeLoop dx dy xs ys z = some r ∧ SMap.Sorted r ∧
      (∀ j, j ∈ SMap.keys r ↔ j ∈ z.keys ∨ j ∈ xs.keys ∨ j ∈ ys.keys) ∧
      ∀ j, SMap.get r j =
        match xs.find? j, ys.find? j with
        | some a, some b => dx * a + dy * b
        | some a, none => dx * a
        | none, some b => 0 + dy * b
        | none, none => z.get j := by
  fun_induction mergeLoop dx dy xs ys z with
  | case1 z => exact ⟨z, rfl, hz, by simp, by simp [SMap.find?]⟩
  | case2 xid a xt z h h' => exact absurd (mx xid (by simp)) (by omega)
  | case3 xid a xt z h z' h' ih =>
    obtain ⟨r, e, hr, hk, hg⟩ := ih hx.tail hy (SMap.sorted_upsert hz)
      (fun k hk => mx k (by simp [hk])) my
    refine ⟨r, e, hr, ?_, ?_⟩
    · intro j; rw [hk, SMap.mem_keys_upsert]; simp; tauto
    · intro j
      rw [hg j]
      simp only [SMap.find?, z', SMap.get_upsert hz]
      by_cases hj : xid = j
      · subst hj
        have : SMap.find? xt xid = none :=
          SMap.find?_eq_none.2 (fun h => ((SMap.sorted_cons.1 hx).1 xid h).false)
        simp [this]
      · simp [hj, Ne.symm hj]
  | case4 xid a xt z h => exact absurd (mx xid (by simp)) (by omega)
  | case5 yid b yt z h => exact absurd (my yid (by simp)) (by omega)
  | case6 yid b yt z h z1 z2 ih =>
    obtain ⟨r, e, hr, hk, hg⟩ := ih hx hy.tail (SMap.sorted_upsert (SMap.sorted_upsert hz)) mx
      (fun k hk => my k (by simp [hk]))
    refine ⟨r, e, hr, ?_, ?_⟩
    · intro j; rw [hk, SMap.mem_keys_upsert, SMap.mem_keys_upsert]; simp; tauto
    · intro j
      rw [hg j]
      simp only [SMap.find?, z1, z2, SMap.get_upsert hz, SMap.get_upsert (SMap.sorted_upsert hz)]
      by_cases hj : yid = j
      · subst hj
        have : SMap.find? yt yid = none :=
          SMap.find?_eq_none.2 (fun h => ((SMap.sorted_cons.1 hy).1 yid h).false)
        simp [this]
      · simp [hj, Ne.symm hj]
  | case7 xid a xt yid b yt z z1 h1 z2 z3 h2 ih =>
    have he : xid = yid := le_antisymm h2 h1
    subst he
    have hz2 : z2 = SMap.upsert z xid 0 (fun _ => dx * a) := by simp [z2, z1]
    have hs2 : SMap.Sorted z2 := by rw [hz2]; exact SMap.sorted_upsert hz
    have hs3 : SMap.Sorted z3 := SMap.sorted_upsert hs2
    obtain ⟨r, e, hr, hk, hg⟩ := ih hx.tail hy.tail hs3
      (fun k hk => mx k (by simp [hk])) (fun k hk => my k (by simp [hk]))
    refine ⟨r, e, hr, ?_, ?_⟩
    · intro j; rw [hk]; simp only [z3, SMap.mem_keys_upsert, hz2]; simp; tauto
    · intro j
      rw [hg j]
      simp only [SMap.find?, z3, SMap.get_upsert hs2]
      rw [hz2]
      simp only [SMap.get_upsert hz]
      by_cases hj : xid = j
      · subst hj
        have h1 : SMap.find? yt xid = none :=
          SMap.find?_eq_none.2 (fun h => ((SMap.sorted_cons.1 hy).1 xid h).false)
        have h2 : SMap.find? xt xid = none :=
          SMap.find?_eq_none.2 (fun h => ((SMap.sorted_cons.1 hx).1 xid h).false)
        simp [h1, h2]
      · simp [hj, Ne.symm hj]
  | case8 xid a xt yid b yt z z1 h1 z2 z3 h2 ih =>
    have hne : yid ≠ xid := by omega
    have hz2 : z2 = SMap.upsert z yid 0 (fun _ => 0) := by simp [z2, z1, h2, hne]
    have hs2 : SMap.Sorted z2 := by rw [hz2]; exact SMap.sorted_upsert hz
    have hs3 : SMap.Sorted z3 := SMap.sorted_upsert hs2
    obtain ⟨r, e, hr, hk, hg⟩ := ih hx hy.tail hs3 mx (fun k hk => my k (by simp [hk]))
    refine ⟨r, e, hr, ?_, ?_⟩
    · intro j; rw [hk]; simp only [z3, SMap.mem_keys_upsert, hz2]; simp; tauto
    · intro j
      rw [hg j]
      simp only [z3, SMap.get_upsert hs2]
      rw [hz2]
      simp only [SMap.get_upsert hz]
      by_cases hj : yid = j
      · subst hj
        have h1 : SMap.find? yt yid = none :=
          SMap.find?_eq_none.2 (fun h => ((SMap.sorted_cons.1 hy).1 yid h).false)
        have h2 : SMap.find? ((xid, a) :: xt) yid = none :=
          SMap.find?_eq_none.2 (fun h => by
            rcases List.mem_cons.1 h with h | h
            · exact hne h
            · have := (SMap.sorted_cons.1 hx).1 yid h; simp at this; omega)
        simp only [h1, h2]; simp [SMap.find?]
      · simp only [SMap.find?_eq_none, SMap.find?, hj, Ne.symm hj, if_false]
  | case9 xid a xt yid b yt z z1 h1 ih =>
    have hlt : xid < yid := by omega
    have hz1 : z1 = SMap.upsert z xid 0 (fun _ => dx * a) := by simp [z1, hlt.le]
    have hs1 : SMap.Sorted z1 := by rw [hz1]; exact SMap.sorted_upsert hz
    obtain ⟨r, e, hr, hk, hg⟩ := ih hx.tail hy hs1 (fun k hk => mx k (by simp [hk])) my
    refine ⟨r, e, hr, ?_, ?_⟩
    · intro j; rw [hk]; simp only [SMap.mem_keys_upsert, hz1]; simp; tauto
    · intro j
      rw [hg j]
      rw [hz1]
      simp only [SMap.get_upsert hz]
      by_cases hj : xid = j
      · subst hj
        have h1 : SMap.find? xt xid = none :=
          SMap.find?_eq_none.2 (fun h => ((SMap.sorted_cons.1 hx).1 xid h).false)
        have h2 : SMap.find? ((yid, b) :: yt) xid = none :=
          SMap.find?_eq_none.2 (fun h => by
            rcases List.mem_cons.1 h with h | h
            · exact hlt.ne h
            · have := (SMap.sorted_cons.1 hy).1 xid h; simp at this; omega)
        simp only [h1, h2]; simp [SMap.find?]
      · simp only [SMap.find?, hj, Ne.symm hj, if_false]

variable [One R] [Neg R]

/-- The coefficient stored for an elementary variable, if any. -/
def lookup (x : UReal R) (i : ℤ) : Option R :=
  if 0 < x.id then (if i = x.id then some x.sdev else none)
  else if x.id < 0 then x.sigma.find? i else none

omit [Zero R] [Add R] [Mul R] [One R] [Neg R] in
theorem mem_deps_iff {x : UReal R} {i : ℤ} : i ∈ x.deps ↔ (x.lookup i).isSome := by
  unfold deps lookup
  split_ifs <;> simp_all [SMap.find?_isSome]

omit [Add R] [Mul R] [One R] [Neg R] in
theorem coef_eq_lookup {x : UReal R} {i : ℤ} : x.coef i = (x.lookup i).getD 0 := by
  unfold coef lookup
  split_ifs <;> simp [SMap.get]

omit [One R] [Neg R] in
theorem get_addInto {z : SMap ℤ R} (hz : z.Sorted) {x : UReal R} (hx : x.WF) (dx : R) (j : ℤ) :
    SMap.get (addInto z x dx) j =
      match x.lookup j with
      | some a => z.get j + dx * a
      | none => z.get j := by
  unfold addInto lookup
  split_ifs with h1 h2 h3 h4
  · subst h2; simp [SMap.get_upsert hz]
  · simp [SMap.get_upsert hz, h2]
  · rw [SMap.get_foldl_upsert x.sigma (fun b v => v + dx * b) z hz hx.sorted j]
    cases x.sigma.find? j <;> rfl
  · rfl

/-- Full description of `binary` below the sentinel (no arithmetic laws). -/
theorem binary_spec {x y : UReal R} (hx : x.WF) (hy : y.WF) (bx : x.Below maxId) (by' : y.Below maxId)
    (mu dx dy : R) :
    ∃ z, binary x y mu dx dy = some z ∧ z.WF ∧ z.deps = x.deps ∪ y.deps ∧ z.mu = mu ∧ z.id = -1 ∧ z.sdev = -1 ∧
      ∀ j, z.coef j = match x.lookup j, y.lookup j with
        | some a, some b => dx * a + dy * b
        | some a, none => dx * a
        | none, some b => 0 + dy * b
        | none, none => 0 := by
  by_cases hxy : x.id < 0 ∧ y.id < 0
  · obtain ⟨h1, h2⟩ := hxy
    have mx : ∀ k ∈ x.sigma.keys, k < maxId := fun k hk => bx k (by simp [deps, h1, not_lt.2 h1.le, hk])
    have my : ∀ k ∈ y.sigma.keys, k < maxId := fun k hk => by' k (by simp [deps, h2, not_lt.2 h2.le, hk])
    obtain ⟨r, e, hr, hk, hg⟩ := mergeLoop_spec dx dy x.sigma y.sigma [] hx.sorted hy.sorted (by simp) mx my
    refine ⟨{ id := invalidId, mu := mu, sigma := r, sdev := -1 }, ?_, ⟨?_, ?_, hr, ?_⟩, ?_, rfl, rfl, rfl, ?_⟩
    · simp [binary, h1, h2, not_lt.2 h1.le, not_lt.2 h2.le, not_le.2 h1, not_le.2 h2, e]
    · intro h; simp [invalidId] at h
    · intro h; simp [invalidId] at h
    · intro k hk'
      rcases (hk k).1 hk' with h | h | h
      · simp at h
      · exact hx.pos k h
      · exact hy.pos k h
    · ext j; simp [deps, invalidId, h1, h2, not_lt.2 h1.le, not_lt.2 h2.le, hk j]
    · intro j
      simp only [coef, lookup, invalidId, h1, h2, not_lt.2 h1.le, not_lt.2 h2.le, if_false, if_true]
      simp [hg j]
  · -- no merge: the two steps are an overwrite with `x` and an addition of `y`
    let z1 : SMap ℤ R := if 0 < x.id then SMap.upsert [] x.id 0 (fun _ => dx * x.sdev)
      else if x.id < 0 ∧ y.id ≥ 0 then
        x.sigma.foldl (fun z p => SMap.upsert z p.1 0 (fun _ => dx * p.2)) []
      else []
    have hz1 : z1.Sorted := by
      simp only [z1]; split_ifs
      · exact SMap.sorted_upsert SMap.sorted_nil
      · exact SMap.sorted_foldl_upsert x.sigma (fun b _ => dx * b) [] SMap.sorted_nil
      · exact SMap.sorted_nil
    have hk1 : ∀ j, j ∈ z1.keys ↔ j ∈ x.deps := by
      intro j
      simp only [z1, deps]
      split_ifs with h1 h2 h3 h4
      · rw [SMap.mem_keys_upsert]; simp
      · rw [SMap.mem_keys_foldl_upsert x.sigma (fun b _ => dx * b) []]; simp
      · omega
      · omega
      · simp
    have hg1 : ∀ j, z1.get j = match x.lookup j with
        | some a => dx * a
        | none => 0 := by
      intro j
      simp only [z1, lookup]
      split_ifs with h1 h2 h3 h4
      · subst h2; simp [SMap.get_upsert]
      · simp [SMap.get_upsert, h2]
      · rw [SMap.get_foldl_upsert x.sigma (fun b _ => dx * b) [] SMap.sorted_nil hx.sorted j]
        cases x.sigma.find? j <;> rfl
      · omega
      · omega
      · rfl
    have e : binary x y mu dx dy = some { id := invalidId, mu := mu, sigma := addInto z1 y dy, sdev := -1 } := by
      unfold binary addInto
      simp only [hxy, if_false, Option.map_some]
      have : (y.id < 0 ∧ x.id ≥ 0) ↔ y.id < 0 := by omega
      simp only [this]; rfl
    refine ⟨_, e, ⟨?_, ?_, sorted_addInto hz1 y dy, ?_⟩, ?_, rfl, rfl, rfl, ?_⟩
    · intro h; simp [invalidId] at h
    · intro h; simp [invalidId] at h
    · intro k hk
      rcases (mem_keys_addInto y dy k).1 hk with h | h
      · exact deps_pos hx k ((hk1 k).1 h)
      · exact deps_pos hy k h
    · ext j
      simp [deps, invalidId]
      rw [mem_keys_addInto, hk1]; rfl
    · intro j
      have : ∀ j, (UReal.mk invalidId (-1) mu (addInto z1 y dy)).coef j = SMap.get (addInto z1 y dy) j := by
        intro j; simp [coef, invalidId]
      rw [this, get_addInto hz1 hy, hg1]
      cases x.lookup j <;> cases y.lookup j <;> rfl

theorem sorted_naryFold (xs : List (UReal R × R)) (z : SMap ℤ R) (hz : z.Sorted) :
    SMap.Sorted (xs.foldl (fun z p => addInto z p.1 p.2) z) := by
  induction xs generalizing z with
  | nil => simpa
  | cons p t ih => exact ih _ (sorted_addInto hz _ _)

theorem mem_keys_naryFold (xs : List (UReal R × R)) (z : SMap ℤ R) (j : ℤ) :
    j ∈ SMap.keys (xs.foldl (fun z p => addInto z p.1 p.2) z) ↔ j ∈ z.keys ∨ ∃ p ∈ xs, j ∈ p.1.deps := by
  induction xs generalizing z with
  | nil => simp
  | cons p t ih => simp only [List.foldl_cons, ih, mem_keys_addInto]; simp; tauto

theorem wf_nary {xs : List (UReal R × R)} (hx : ∀ p ∈ xs, p.1.WF) (mu : R) : (nary xs mu).WF := by
  refine ⟨by simp [nary, invalidId], by simp [nary, invalidId], sorted_naryFold xs [] SMap.sorted_nil, ?_⟩
  intro k hk
  rcases (mem_keys_naryFold xs [] k).1 hk with h | ⟨p, hp, h⟩
  · simp at h
  · exact deps_pos (hx p hp) k h

theorem mem_deps_nary {xs : List (UReal R × R)} {mu : R} {j : ℤ} :
    j ∈ (nary xs mu).deps ↔ ∃ p ∈ xs, j ∈ p.1.deps := by
  have : j ∈ (nary xs mu).deps ↔ j ∈ SMap.keys (nary xs mu).sigma := by simp [deps, nary, invalidId]
  rw [this]
  have h := mem_keys_naryFold xs [] j
  simpa [nary] using h

variable [CCmp R]

theorem wf_binaryAssignSelf {t : UReal R} (ht : t.WF) (mu dt dx : R) (h0 : t.id = 0 → CCmp.ltb (0 : R) 0 = false) :
    (binaryAssignSelf t mu dt dx).WF := by
  refine ⟨?_, ?_, ?_, ?_⟩
  · intro h
    have h' : t.id = 0 := h
    simp [binaryAssignSelf, ht.zero_sdev h', h0 h', h']
  · intro h
    simp [binaryAssignSelf, ht.nil h]
  · simpa [binaryAssignSelf] using ht.sorted
  · simpa [binaryAssignSelf] using ht.pos

theorem deps_binaryAssignSelf (t : UReal R) (mu dt dx : R) : (binaryAssignSelf t mu dt dx).deps = t.deps := by
  simp [deps, binaryAssignSelf]

/-- The map of `this` after the "spill and scale" part of `binary_assign`. -/
def spill (t : UReal R) (dt : R) : SMap ℤ R :=
  let sg := if 0 < t.id then t.sigma.upsert t.id 0 (fun _ => t.sdev) else t.sigma
  if CCmp.eqb dt 1 then sg else sg.mapVal (fun v => v * dt)

omit [Neg R] [Add R] in
theorem sorted_spill {t : UReal R} (ht : t.WF) (dt : R) : (spill t dt).Sorted := by
  unfold spill
  have : SMap.Sorted (if 0 < t.id then t.sigma.upsert t.id 0 (fun _ => t.sdev) else t.sigma) := by
    split_ifs
    · exact SMap.sorted_upsert ht.sorted
    · exact ht.sorted
  generalize (if 0 < t.id then t.sigma.upsert t.id 0 (fun _ => t.sdev) else t.sigma) = sg at this ⊢
  dsimp only
  split_ifs
  · exact this
  · simpa using this

omit [Neg R] [Add R] in
theorem mem_keys_spill {t : UReal R} (ht : t.WF) (dt : R) (j : ℤ) : j ∈ (spill t dt).keys ↔ j ∈ t.deps := by
  unfold spill
  have h : ∀ j, j ∈ SMap.keys (if 0 < t.id then t.sigma.upsert t.id 0 (fun _ => t.sdev) else t.sigma) ↔ j ∈ t.deps := by
    intro j
    unfold deps
    split_ifs with h1 h2
    · rw [SMap.mem_keys_upsert, ht.nil h1.le]; simp
    · simp
    · rw [ht.nil (by omega)]; simp
  have h := h j
  generalize (if 0 < t.id then t.sigma.upsert t.id 0 (fun _ => t.sdev) else t.sigma) = sg at h ⊢
  dsimp only
  split_ifs
  · exact h
  · simpa using h

theorem wf_binaryAssign {t x : UReal R} (ht : t.WF) (hx : x.WF) (mu dt dx : R) :
    (binaryAssign t x mu dt dx).WF := by
  refine ⟨by simp [binaryAssign, invalidId], by simp [binaryAssign, invalidId],
    sorted_addInto (sorted_spill ht dt) x dx, ?_⟩
  intro k hk
  rcases (mem_keys_addInto x dx k).1 hk with h | h
  · exact deps_pos ht k ((mem_keys_spill ht dt k).1 h)
  · exact deps_pos hx k h

theorem deps_binaryAssign {t x : UReal R} (ht : t.WF) (mu dt dx : R) :
    (binaryAssign t x mu dt dx).deps = t.deps ∪ x.deps := by
  ext j
  have : j ∈ (binaryAssign t x mu dt dx).deps ↔ j ∈ SMap.keys (addInto (spill t dt) x dx) := by
    simp [deps, binaryAssign, invalidId, spill]
  rw [this, mem_keys_addInto, mem_keys_spill ht]; simp

variable [CSqrt R]
theorem wf_sCache {x : UReal R} (hx : x.WF) : x.sCache.2.WF := by
  unfold sCache
  by_cases h1 : x.id ≥ 0
  · simpa [h1] using hx
  · by_cases h2 : CCmp.ltb x.sdev 0 = true
    · simp only [h1, h2, if_true, if_false]
      exact ⟨fun h => by simp at h; omega, fun h => absurd h h1, hx.sorted, hx.pos⟩
    · simpa [h1, h2] using hx
theorem wf_varCache {x : UReal R} (hx : x.WF) : x.varCache.2.WF := by
  unfold varCache
  by_cases h1 : x.id ≥ 0
  · simpa [h1] using hx
  · by_cases h2 : CCmp.ltb x.sdev 0 = true
    · simp only [h1, h2, if_true, if_false]
      exact ⟨fun h => by simp at h; omega, fun h => absurd h h1, hx.sorted, hx.pos⟩
    · simpa [h1, h2] using hx
theorem deps_sCache (x : UReal R) : x.sCache.2.deps = x.deps := by
  unfold sCache
  by_cases h1 : x.id ≥ 0
  · simp [h1]
  · by_cases h2 : CCmp.ltb x.sdev 0 = true <;> simp [h1, h2, deps]
theorem deps_varCache (x : UReal R) : x.varCache.2.deps = x.deps := by
  unfold varCache
  by_cases h1 : x.id ≥ 0
  · simp [h1]
  · by_cases h2 : CCmp.ltb x.sdev 0 = true <;> simp [h1, h2, deps]

end add
end structural
end Unc.UReal
