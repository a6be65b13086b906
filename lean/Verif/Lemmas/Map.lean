import Verif.Model.Map
import Mathlib.Algebra.BigOperators.Group.Finset.Basic
import Mathlib.Tactic.Linarith

/-! # Helper lemmas about the sorted association lists of `Verif/Model/Map.lean` -/

namespace Unc.SMap
variable {K V W : Type*}

@[simp] theorem keys_nil : keys ([] : SMap K V) = [] := rfl
@[simp] theorem keys_cons (p : K × V) (t : SMap K V) : keys (p :: t) = p.1 :: keys t := rfl
@[simp] theorem length_keys (m : SMap K V) : m.keys.length = m.length := by simp [keys]

@[simp] theorem keys_mapVal (f : V → W) (m : SMap K V) : (m.mapVal f).keys = m.keys := by
  simp [keys, mapVal, Function.comp_def]

@[simp] theorem mapVal_nil (f : V → W) : mapVal f ([] : SMap K V) = [] := rfl
@[simp] theorem mapVal_cons (f : V → W) (p : K × V) (t : SMap K V) :
    mapVal f (p :: t) = (p.1, f p.2) :: mapVal f t := rfl

section
variable [LinearOrder K]

@[simp] theorem sorted_nil : Sorted ([] : SMap K V) := List.Pairwise.nil

theorem sorted_cons {p : K × V} {t : SMap K V} :
    Sorted (p :: t) ↔ (∀ j ∈ keys t, p.1 < j) ∧ Sorted t := by
  simp [Sorted]

theorem Sorted.tail {p : K × V} {t : SMap K V} (h : Sorted (p :: t)) : Sorted t :=
  (sorted_cons.1 h).2

theorem Sorted.nodup {m : SMap K V} (h : Sorted m) : m.keys.Nodup :=
  List.Pairwise.imp (fun h => ne_of_lt h) h

@[simp] theorem sorted_mapVal {f : V → W} {m : SMap K V} : Sorted (m.mapVal f) ↔ Sorted m := by
  simp [Sorted]

theorem mem_keys_upsert {m : SMap K V} {k j : K} {d : V} {f : V → V} :
    j ∈ keys (upsert m k d f) ↔ j = k ∨ j ∈ keys m := by
  induction m with
  | nil => simp [upsert]
  | cons p t ih =>
    obtain ⟨k', v⟩ := p
    unfold upsert
    split_ifs with h1 h2
    · simp
    · subst h2; simp
    · simp [ih]; tauto

theorem sorted_upsert {m : SMap K V} {k : K} {d : V} {f : V → V} (h : Sorted m) :
    Sorted (upsert m k d f) := by
  induction m with
  | nil => simp [upsert, Sorted]
  | cons p t ih =>
    obtain ⟨k', v⟩ := p
    have h' := sorted_cons.1 h
    unfold upsert
    split_ifs with h1 h2
    · refine sorted_cons.2 ⟨?_, h⟩
      intro j hj
      rcases List.mem_cons.1 hj with rfl | hj
      · exact h1
      · exact lt_trans h1 (h'.1 j hj)
    · exact sorted_cons.2 h'
    · refine sorted_cons.2 ⟨?_, ih h'.2⟩
      intro j hj
      rcases mem_keys_upsert.1 hj with rfl | hj
      · exact lt_of_le_of_ne (not_lt.1 h1) h2
      · exact h'.1 j hj

theorem find?_eq_none {m : SMap K V} {k : K} : find? m k = none ↔ k ∉ keys m := by
  induction m with
  | nil => simp [find?]
  | cons p t ih =>
    obtain ⟨k', v⟩ := p
    unfold find?
    split_ifs with h
    · simp [h]
    · simp [ih, Ne.symm h]

theorem find?_isSome {m : SMap K V} {k : K} : (find? m k).isSome ↔ k ∈ keys m := by
  rw [← not_iff_not, ← find?_eq_none]; simp

theorem find?_some_mem {m : SMap K V} {k : K} {v : V} (h : find? m k = some v) : (k, v) ∈ m := by
  induction m with
  | nil => simp [find?] at h
  | cons p t ih =>
    obtain ⟨k', v'⟩ := p
    unfold find? at h
    split_ifs at h with h1
    · simp_all
    · exact List.mem_cons_of_mem _ (ih h)

theorem find?_of_mem {m : SMap K V} (hs : Sorted m) {k : K} {v : V} (h : (k, v) ∈ m) :
    find? m k = some v := by
  induction m with
  | nil => simp at h
  | cons p t ih =>
    obtain ⟨k', v'⟩ := p
    have h' := sorted_cons.1 hs
    rcases List.mem_cons.1 h with h | h
    · cases h; simp [find?]
    · have : k' < k := h'.1 k (List.mem_map_of_mem (f := Prod.fst) h)
      simp [find?, this.ne, ih h'.2 h]

theorem find?_upsert_ne {m : SMap K V} {k j : K} {d : V} {f : V → V} (hj : j ≠ k) :
    find? (upsert m k d f) j = find? m j := by
  induction m with
  | nil => simp [upsert, find?, Ne.symm hj]
  | cons p t ih =>
    obtain ⟨k', v⟩ := p
    unfold upsert
    split_ifs with h1 h2
    · simp [find?, Ne.symm hj]
    · subst h2; simp [find?, Ne.symm hj]
    · simp [find?, ih]

theorem find?_upsert_self {m : SMap K V} {k : K} {d : V} {f : V → V} (hs : Sorted m) :
    find? (upsert m k d f) k = some (f ((find? m k).getD d)) := by
  induction m with
  | nil => simp [upsert, find?]
  | cons p t ih =>
    obtain ⟨k', v⟩ := p
    have h' := sorted_cons.1 hs
    unfold upsert
    split_ifs with h1 h2
    · have hk : k ∉ keys ((k', v) :: t) := by
        intro hk
        rcases List.mem_cons.1 hk with h | h
        · exact h1.ne h
        · exact (lt_trans h1 (h'.1 k h)).false
      simp [find?, h1.ne']
      rw [show find? t k = none from find?_eq_none.2 (fun h => hk (List.mem_cons_of_mem _ h))]
      simp
    · subst h2; simp [find?]
    · simp [find?, h2, ih h'.2]

theorem find?_mapVal {m : SMap K V} {f : V → W} {k : K} :
    find? (m.mapVal f) k = (find? m k).map f := by
  induction m with
  | nil => simp [find?]
  | cons p t ih =>
    obtain ⟨k', v⟩ := p
    simp only [mapVal_cons, find?]
    split_ifs with h
    · simp
    · exact ih

/-- Value at a key, with default 0 (specification-side view of a map of numbers). -/
def get [Zero V] (m : SMap K V) (k : K) : V := (find? m k).getD 0

@[simp] theorem get_nil [Zero V] (k : K) : get ([] : SMap K V) k = 0 := rfl

theorem get_cons [Zero V] (p : K × V) (t : SMap K V) (k : K) :
    get (p :: t) k = if p.1 = k then p.2 else get t k := by
  obtain ⟨k', v⟩ := p
  simp only [get, find?]
  split_ifs <;> rfl

theorem get_of_not_mem [Zero V] {m : SMap K V} {k : K} (h : k ∉ keys m) : get m k = 0 := by
  simp [get, find?_eq_none.2 h]

theorem get_upsert [Zero V] {m : SMap K V} {k j : K} {f : V → V} (hs : Sorted m) :
    get (upsert m k 0 f) j = if j = k then f (get m k) else get m j := by
  split_ifs with h
  · subst h; simp [get, find?_upsert_self hs]
  · simp [get, find?_upsert_ne h]

theorem get_mapVal [Zero V] [Zero W] {m : SMap K V} {f : V → W} {k : K} (hf : f 0 = 0) :
    get (m.mapVal f) k = f (get m k) := by
  simp only [get, find?_mapVal]
  cases find? m k <;> simp [hf]

section fold
variable [Zero V]

theorem sorted_foldl_upsert {β : Type*} (l : List (K × β)) (g : β → V → V) (z : SMap K V) (hz : Sorted z) :
    Sorted (l.foldl (fun z p => upsert z p.1 0 (g p.2)) z) := by
  induction l generalizing z with
  | nil => simpa
  | cons p t ih => exact ih _ (sorted_upsert hz)

theorem mem_keys_foldl_upsert {β : Type*} (l : List (K × β)) (g : β → V → V) (z : SMap K V) {j : K} :
    j ∈ keys (l.foldl (fun z p => upsert z p.1 0 (g p.2)) z) ↔ j ∈ keys z ∨ j ∈ keys l := by
  induction l generalizing z with
  | nil => simp
  | cons p t ih =>
    simp only [List.foldl_cons, ih, mem_keys_upsert, keys_cons, List.mem_cons]; tauto

theorem get_foldl_upsert {β : Type*} (l : SMap K β) (g : β → V → V) (z : SMap K V) (hz : Sorted z)
    (hl : l.Sorted) (j : K) :
    get (l.foldl (fun z p => upsert z p.1 0 (g p.2)) z) j =
      match find? l j with
      | some b => g b (get z j)
      | none => get z j := by
  induction l generalizing z with
  | nil => simp [find?]
  | cons p t ih =>
    obtain ⟨k, b⟩ := p
    have h' := sorted_cons.1 hl
    simp only [List.foldl_cons]
    rw [ih _ (sorted_upsert hz) h'.2, get_upsert hz]
    simp only [find?]
    by_cases hk : k = j
    · subst hk
      have : find? t k = none := find?_eq_none.2 (fun h => (h'.1 k h).false)
      simp [this]
    · simp [hk, Ne.symm hk]

end fold

/-- Folding `upsert` of all entries of a sorted map into the empty map copies it. -/
theorem foldl_upsert_copy [Zero W] (c : V → W) (m : SMap K V) (hm : Sorted m) :
    m.foldl (fun z p => upsert z p.1 0 (fun _ => c p.2)) ([] : SMap K W) = m.mapVal c := by
  -- generalise: starting from z with all keys below those of m gives z ++ copy
  have append : ∀ (z : SMap K W) (k : K) (f : W → W), (∀ j ∈ keys z, j < k) →
      upsert z k 0 f = z ++ [(k, f 0)] := by
    intro z k f
    induction z with
    | nil => intro _; rfl
    | cons p t ih =>
      intro h
      obtain ⟨k', v⟩ := p
      have hk : k' < k := h k' (by simp)
      unfold upsert
      rw [if_neg (not_lt.2 hk.le), if_neg hk.ne, ih (fun j hj => h j (by simp [hj]))]
      rfl
  have gen : ∀ (z : SMap K W), (∀ j ∈ keys z, ∀ i ∈ keys m, j < i) →
      m.foldl (fun z p => upsert z p.1 0 (fun _ => c p.2)) z = z ++ m.mapVal c := by
    induction m with
    | nil => intro z _; simp
    | cons p t ih =>
      intro z h
      have h' := sorted_cons.1 hm
      simp only [List.foldl_cons, mapVal_cons]
      rw [append z p.1 _ (fun j hj => h j hj p.1 (by simp)), ih h'.2]
      · simp
      · intro j hj i hi
        simp only [keys, List.map_append, List.mem_append, List.map_cons, List.map_nil, List.mem_singleton] at hj
        rcases hj with hj | hj
        · exact h j hj i (by simp [hi])
        · subst hj; exact h'.1 i hi
  simpa using gen [] (by simp)

end

section sum
variable [LinearOrder K] {M : Type*} [AddCommMonoid M]

omit [LinearOrder K] in
theorem foldl_add_eq (m : SMap K V) (f : K × V → M) (a : M) :
    m.foldl (fun acc p => acc + f p) a = a + (m.map f).sum := by
  induction m generalizing a with
  | nil => simp
  | cons p t ih => simp [ih, add_assoc]

theorem sum_map_eq [Zero V] (m : SMap K V) (hm : Sorted m) (f : K → V → M) :
    (m.map (fun p => f p.1 p.2)).sum = ∑ i ∈ m.keys.toFinset, f i (get m i) := by
  induction m with
  | nil => simp
  | cons p t ih =>
    obtain ⟨k, v⟩ := p
    have h' := sorted_cons.1 hm
    have hk : k ∉ (keys t).toFinset := by
      simp only [List.mem_toFinset]; exact fun h => (h'.1 k h).false
    simp only [List.map_cons, List.sum_cons, keys_cons, List.toFinset_cons]
    rw [Finset.sum_insert hk, ih h'.2]
    congr 1
    · simp [get_cons]
    · refine Finset.sum_congr rfl (fun i hi => ?_)
      have : k ≠ i := fun h => hk (h ▸ hi)
      simp [get_cons, this]

end sum
end Unc.SMap
