import Verif.Lemmas.HessGrad
import Mathlib.Data.List.TakeWhile

/-! # Helper lemmas about `unary` and `binary` of `Verif/Model/UReal2.lean` -/

namespace Unc
open SMap
variable {R : Type*}

/-- The id of an entry as key. -/
def Ent.key (e : Ent R) : IdPair := toLex (e.id1, e.id2)

theorem key_eq_iff {a b c d : VId} : (toLex (a, b) : IdPair) = toLex (c, d) ↔ a = c ∧ b = d := by
  rw [toLex_inj, Prod.mk.injEq]

namespace HessGrad

/-- The content at the pair `p` of a `HessGrad`: the `Diag` for a diagonal pair, the off-diagonal element
(as a `Diag` with gradient 0 and moments `u`) otherwise. -/
def cell [Zero R] (u : Moments R) (hg : HessGrad R) (a b : VId) : Option (Diag R) :=
  if a = b then find? hg.diagmap a else (find? hg.trimap (toLex (a, b))).map fun h => ⟨0, h, u⟩

/-- Both maps are sorted, off-diagonal keys are ordered pairs. -/
def Srt (hg : HessGrad R) : Prop :=
  Sorted hg.diagmap ∧ Sorted hg.trimap ∧ ∀ k ∈ keys hg.trimap, (ofLex k).1 < (ofLex k).2

theorem Valid.srt {hg : HessGrad R} (h : hg.Valid) : hg.Srt :=
  ⟨h.dsorted, h.tsorted, fun k hk => (h.tri (ofLex k).1 (ofLex k).2 hk).1⟩

theorem modHhess_spec [Zero R] (u : Moments R) (hg : HessGrad R) (hs : hg.Srt) {i j : VId} (hij : i ≤ j)
    (f : R → R) :
    ∃ hg', hg.modHhess u i j f = some hg' ∧ hg'.Srt ∧
      (∀ a b, (a, b) ≠ (i, j) → hg'.cell u a b = hg.cell u a b) ∧
      hg'.cell u i j = some { (hg.cell u i j).getD (newDiag u) with
        hhess := f ((hg.cell u i j).getD (newDiag u)).hhess } := by
  obtain ⟨h1, h2, h3⟩ := hs
  unfold modHhess
  by_cases h : i = j
  · subst h
    refine ⟨hg.modDiag u i fun d => { d with hhess := f d.hhess }, by simp, ⟨sorted_upsert h1, h2, h3⟩, ?_, ?_⟩
    · intro a b hab
      unfold cell modDiag
      simp only
      split_ifs with hab'
      · subst hab'
        have : a ≠ i := fun h => hab (by simp [h])
        exact find?_upsert_ne this
      · rfl
    · simp [cell, modDiag, find?_upsert_self h1]
  · have hlt : i < j := lt_of_le_of_ne hij h
    refine ⟨{ hg with trimap := upsert hg.trimap (toLex (i, j)) 0 f }, by simp [h, modTri, hlt],
      ⟨h1, sorted_upsert h2, fun k hk => by
        rcases mem_keys_upsert.1 hk with rfl | hk
        · exact hlt
        · exact h3 k hk⟩, ?_, ?_⟩
    · intro a b hab
      unfold cell
      simp only
      split_ifs with hab'
      · rfl
      · have : (toLex (a, b) : IdPair) ≠ toLex (i, j) := by
          rw [Ne, key_eq_iff]; intro h; exact hab (by simp [h.1, h.2])
        rw [find?_upsert_ne this]
    · simp only [cell, h, if_false, find?_upsert_self h2]
      cases find? hg.trimap (toLex (i, j)) <;> simp [newDiag]

theorem modDiag_spec [Zero R] (u : Moments R) (hg : HessGrad R) (hs : hg.Srt) (i : VId)
    (f : Diag R → Diag R) :
    (hg.modDiag u i f).Srt ∧
      (∀ a b, (a, b) ≠ (i, i) → (hg.modDiag u i f).cell u a b = hg.cell u a b) ∧
      (hg.modDiag u i f).cell u i i = some (f ((hg.cell u i i).getD (newDiag u))) := by
  obtain ⟨h1, h2, h3⟩ := hs
  refine ⟨⟨sorted_upsert h1, h2, h3⟩, ?_, ?_⟩
  · intro a b hab
    unfold cell modDiag
    simp only
    split_ifs with hab'
    · subst hab'
      have : a ≠ i := fun h => hab (by simp [h])
      exact find?_upsert_ne this
    · rfl
  · simp [cell, modDiag, find?_upsert_self h1]

@[simp] theorem cell_empty [Zero R] (u : Moments R) (a b : VId) :
    (empty : HessGrad R).cell u a b = none := by
  simp [cell, empty, find?]

theorem srt_empty : (empty : HessGrad R).Srt := ⟨by simp [empty], by simp [empty], by simp [empty]⟩

theorem G_eq_cell [Zero R] (u : Moments R) (hg : HessGrad R) (i : VId) :
    hg.G i = ((hg.cell u i i).map Diag.grad).getD 0 := by
  unfold G cell
  cases find? hg.diagmap i <;> simp

theorem momOf_eq_cell [Zero R] (u : Moments R) (hg : HessGrad R) (i : VId) :
    hg.momOf i = (hg.cell u i i).map Diag.mom := by
  simp [momOf, cell]

theorem H_eq_cell [Zero R] (u : Moments R) (hg : HessGrad R) (i j : VId) :
    hg.H i j = ((hg.cell u (min i j) (max i j)).map Diag.hhess).getD 0 := by
  unfold H cell
  by_cases h : i = j
  · subst h
    simp only [if_true, min_self, max_self]
    cases find? hg.diagmap i <;> simp
  · have : min i j ≠ max i j := by
      intro h'; exact h (by simpa using h')
    simp only [h, this, if_false, SMap.get]
    cases find? hg.trimap (toLex (min i j, max i j)) <;> simp

theorem mem_vars_iff_cell [Zero R] (u : Moments R) (hg : HessGrad R) (i : VId) :
    i ∈ SMap.keys hg.diagmap ↔ (hg.cell u i i).isSome := by
  simp [cell, find?_isSome]

theorem mem_tri_iff_cell [Zero R] (u : Moments R) (hg : HessGrad R) {i j : VId} (h : i ≠ j) :
    (toLex (i, j) : IdPair) ∈ SMap.keys hg.trimap ↔ (hg.cell u i j).isSome := by
  simp [cell, h, find?_isSome]

end HessGrad

open HessGrad

/-! ## Entries of a valid value -/

/-- Off-diagonal elements refer to ordered pairs of variables of `dm`. -/
def TriOf (dm : SMap VId (Diag R)) (tri : SMap IdPair R) : Prop :=
  ∀ k ∈ keys tri, (ofLex k).1 < (ofLex k).2 ∧ (ofLex k).1 ∈ keys dm ∧ (ofLex k).2 ∈ keys dm

theorem HessGrad.Valid.triOf {hg : HessGrad R} (h : hg.Valid) : TriOf hg.diagmap hg.trimap :=
  fun k hk => h.tri (ofLex k).1 (ofLex k).2 hk

theorem row_take {i : VId} {d : Diag R} {t : SMap VId (Diag R)} {tri : SMap IdPair R}
    (htri : TriOf ((i, d) :: t) tri) {q : IdPair × R}
    (hq : q ∈ tri.takeWhile fun p => decide ((ofLex p.1).1 = i)) :
    q ∈ tri ∧ (ofLex q.1).1 = i ∧ i < (ofLex q.1).2 ∧ (ofLex q.1).2 ∈ keys t := by
  have hqi : (ofLex q.1).1 = i := by simpa using List.mem_takeWhile_imp hq
  have hqm : q ∈ tri := (List.takeWhile_sublist _).subset hq
  have hqt : q.1 ∈ keys tri := List.mem_map_of_mem (f := Prod.fst) hqm
  obtain ⟨h1, h2, h3⟩ := htri _ hqt
  refine ⟨hqm, hqi, hqi ▸ h1, ?_⟩
  rcases List.mem_cons.1 h3 with h | h
  · exact absurd h (by rw [← hqi]; exact h1.ne')
  · exact h

theorem row_drop {i : VId} {d : Diag R} {t : SMap VId (Diag R)} {tri : SMap IdPair R}
    (hs : Sorted ((i, d) :: t)) (htri : TriOf ((i, d) :: t) tri) (hst : Sorted tri) :
    TriOf t (tri.dropWhile fun p => decide ((ofLex p.1).1 = i)) ∧
      Sorted (tri.dropWhile fun p => decide ((ofLex p.1).1 = i)) ∧
      (∀ k ∈ keys (tri.dropWhile fun p => decide ((ofLex p.1).1 = i)), i < (ofLex k).1) := by
  have hs' := sorted_cons.1 hs
  have hstd : Sorted (tri.dropWhile fun p => decide ((ofLex p.1).1 = i)) :=
    List.Pairwise.sublist ((List.dropWhile_sublist _).map _) hst
  have hgt : ∀ k ∈ keys (tri.dropWhile fun p => decide ((ofLex p.1).1 = i)), i < (ofLex k).1 := by
    have hge : ∀ k' ∈ keys tri, i ≤ (ofLex k').1 := by
      intro k' hk'
      rcases List.mem_cons.1 (htri k' hk').2.1 with h | h
      · exact h.ge
      · exact (hs'.1 _ h).le
    have gen : ∀ (l : SMap IdPair R), Sorted l → (∀ k' ∈ keys l, i ≤ (ofLex k').1) →
        ∀ k ∈ keys (l.dropWhile fun p => decide ((ofLex p.1).1 = i)), i < (ofLex k).1 := by
      intro l
      induction l with
      | nil => intro _ _ k hk; simp at hk
      | cons q l ihl =>
        intro hsl hgel k hk
        have hsl' := sorted_cons.1 hsl
        by_cases hqi : (ofLex q.1).1 = i
        · simp only [List.dropWhile_cons, hqi, decide_true, if_true] at hk
          exact ihl hsl'.2 (fun k' hk' => hgel k' (by simp [hk'])) k hk
        · simp only [List.dropWhile_cons, hqi, decide_false, Bool.false_eq_true, if_false] at hk
          have hq : i < (ofLex q.1).1 := lt_of_le_of_ne (hgel q.1 (by simp)) (Ne.symm hqi)
          rcases List.mem_cons.1 hk with h | h
          · rw [h]; exact hq
          · exact lt_of_lt_of_le hq (lex_fst_le (hsl'.1 _ h))
    exact gen tri hst hge
  refine ⟨fun k hk => ?_, hstd, hgt⟩
  have hsub : keys (tri.dropWhile fun p => decide ((ofLex p.1).1 = i)) ⊆ keys tri :=
    ((List.dropWhile_sublist _).map _).subset
  obtain ⟨h1, h2, h3⟩ := htri k (hsub hk)
  refine ⟨h1, ?_, ?_⟩
  · rcases List.mem_cons.1 h2 with h | h
    · exact absurd h (hgt k hk).ne'
    · exact h
  · rcases List.mem_cons.1 h3 with h | h
    · exact absurd h ((hgt k hk).trans h1).ne'
    · exact h

theorem find_drop {i : VId} {d : Diag R} {t : SMap VId (Diag R)} {tri : SMap IdPair R}
    (_hs : Sorted ((i, d) :: t)) {k : IdPair} (hk : (ofLex k).1 ≠ i) :
    find? (tri.dropWhile fun p => decide ((ofLex p.1).1 = i)) k = find? tri k := by
  induction tri with
  | nil => simp
  | cons q l ih =>
    by_cases hqi : (ofLex q.1).1 = i
    · simp only [List.dropWhile_cons, hqi, decide_true, if_true, ih]
      have : q.1 ≠ k := fun h => hk (h ▸ hqi)
      obtain ⟨q1, q2⟩ := q
      simp only at this
      simp [find?, this]
    · simp [List.dropWhile_cons, hqi]

/-- Shape of the entries of row `i`. -/
theorem rowEnt_ids [Zero R] {skip : Bool} {lk : VId → Diag R} {i : VId} {d : Diag R}
    {t : SMap VId (Diag R)} (hs : Sorted ((i, d) :: t)) {q : IdPair × R} (hq : (ofLex q.1).2 ∈ keys t) :
    (rowEnt skip lk i d t q).id1 = i ∧ i < (rowEnt skip lk i d t q).id2 ∧
      (rowEnt skip lk i d t q).id2 ∈ keys t ∧ (rowEnt skip lk i d t q).id2 ≤ (ofLex q.1).2 := by
  have hs' := sorted_cons.1 hs
  unfold rowEnt
  cases skip with
  | true => simp only [if_true]; exact ⟨trivial, hs'.1 _ hq, hq, le_rfl⟩
  | false =>
    cases t with
    | nil => simp at hq
    | cons r t =>
      simp only [Bool.false_eq_true, if_false]
      refine ⟨trivial, hs'.1 _ (by simp), by simp, ?_⟩
      rcases List.mem_cons.1 hq with h | h
      · exact h.ge
      · exact ((sorted_cons.1 hs'.2).1 _ h).le

theorem hessSpec_diag_filter [Zero R] (skip : Bool) (lk : VId → Diag R) (a : VId)
    (dm : SMap VId (Diag R)) : ∀ (tri : SMap IdPair R), Sorted dm → TriOf dm tri → Sorted tri →
      (hessSpec skip lk dm tri).filter (fun e => decide (e.key = toLex (a, a))) =
        (match find? dm a with
         | some d => [⟨a, a, d, d, d.hhess⟩]
         | none => []) := by
  induction dm with
  | nil => intro tri _ _ _; simp [hessSpec, find?]
  | cons p t ih =>
    intro tri hs htri hst
    obtain ⟨i, d⟩ := p
    have hs' := sorted_cons.1 hs
    have hrow : ((tri.takeWhile fun p => decide ((ofLex p.1).1 = i)).map (rowEnt skip lk i d t)).filter
        (fun e => decide (e.key = toLex (a, a))) = [] := by
      rw [List.filter_eq_nil_iff]
      intro e he
      obtain ⟨q, hq, rfl⟩ := List.mem_map.1 he
      obtain ⟨_, _, _, h4⟩ := row_take htri hq
      obtain ⟨g1, g2, _, _⟩ := rowEnt_ids (skip := skip) (lk := lk) hs h4
      simp only [Ent.key, key_eq_iff, decide_eq_true_eq]
      rintro ⟨r1, r2⟩
      rw [g1] at r1; rw [r2, r1] at g2
      exact lt_irrefl _ g2
    simp only [hessSpec, List.filter_cons, List.filter_append, hrow, List.nil_append]
    obtain ⟨h1, h2, _⟩ := row_drop hs htri hst
    rw [ih _ hs'.2 h1 h2]
    simp only [find?, Ent.key, key_eq_iff, and_self, decide_eq_true_eq]
    by_cases hia : i = a
    · subst hia
      have : find? t i = none := find?_eq_none.2 (fun h => (hs'.1 i h).false)
      simp [this]
    · simp [hia]

theorem hessSpec_mem [Zero R] (skip : Bool) (lk : VId → Diag R) (dm : SMap VId (Diag R)) :
    ∀ (tri : SMap IdPair R), Sorted dm → TriOf dm tri → Sorted tri →
      (∀ i ∈ keys dm, find? dm i = some (lk i)) →
      ∀ e ∈ hessSpec skip lk dm tri, e.id1 ≤ e.id2 ∧ e.id1 ∈ keys dm ∧ e.id2 ∈ keys dm ∧
        e.d1 = lk e.id1 ∧ e.d2 = lk e.id2 := by
  induction dm with
  | nil => intro tri _ _ _ _ e he; simp [hessSpec] at he
  | cons p t ih =>
    intro tri hs htri hst hlk e he
    obtain ⟨i, d⟩ := p
    have hs' := sorted_cons.1 hs
    have hd : d = lk i := by
      have := hlk i (by simp); simpa [find?] using this
    have hlk' : ∀ j ∈ keys t, find? t j = some (lk j) := by
      intro j hj
      have := hlk j (by simp [hj])
      simpa [find?, (hs'.1 j hj).ne] using this
    simp only [hessSpec, List.mem_cons, List.mem_append, List.mem_map] at he
    rcases he with rfl | ⟨q, hq, rfl⟩ | he
    · exact ⟨le_rfl, by simp, by simp, hd, hd⟩
    · obtain ⟨_, _, _, h4⟩ := row_take htri hq
      obtain ⟨g1, g2, g3, _⟩ := rowEnt_ids (skip := skip) (lk := lk) hs h4
      refine ⟨g1.trans_le g2.le, by rw [g1]; simp, by simp [g3], ?_, ?_⟩
      · rw [g1, ← hd]; unfold rowEnt
        cases skip with
        | true => simp
        | false => cases t <;> simp
      · have := hlk' _ g3
        revert this
        unfold rowEnt
        cases skip with
        | true => simp
        | false =>
          cases t with
          | nil => simp at h4
          | cons r t => simp [find?]
    · obtain ⟨h1, h2, _⟩ := row_drop hs htri hst
      obtain ⟨a, b, c, e1, e2⟩ := ih _ hs'.2 h1 h2 hlk' e he
      exact ⟨a, by simp [b], by simp [c], e1, e2⟩

theorem hessSpec_sorted [Zero R] (skip : Bool) (lk : VId → Diag R) (dm : SMap VId (Diag R)) :
    ∀ (tri : SMap IdPair R), Sorted dm → TriOf dm tri → Sorted tri →
      (∀ i ∈ keys dm, find? dm i = some (lk i)) →
      (hessSpec skip lk dm tri).Pairwise (fun e e' => e.key ≤ e'.key) ∧
      (skip = true → (hessSpec skip lk dm tri).Pairwise (fun e e' => e.key < e'.key)) := by
  induction dm with
  | nil => intro tri _ _ _ _; simp [hessSpec]
  | cons p t ih =>
    intro tri hs htri hst hlk
    obtain ⟨i, d⟩ := p
    have hs' := sorted_cons.1 hs
    have hlk' : ∀ j ∈ keys t, find? t j = some (lk j) := by
      intro j hj
      have := hlk j (by simp [hj])
      simpa [find?, (hs'.1 j hj).ne] using this
    obtain ⟨h1, h2, h3⟩ := row_drop hs htri hst
    obtain ⟨p1, p2⟩ := ih _ hs'.2 h1 h2 hlk'
    have hmem := hessSpec_mem skip lk t _ hs'.2 h1 h2 hlk'
    have later : ∀ e ∈ hessSpec skip lk t (tri.dropWhile fun p => decide ((ofLex p.1).1 = i)),
        i < e.id1 := fun e he => hs'.1 _ (hmem e he).2.1
    have rowfst : ∀ e ∈ (tri.takeWhile fun p => decide ((ofLex p.1).1 = i)).map (rowEnt skip lk i d t),
        e.id1 = i ∧ i < e.id2 := by
      intro e he
      obtain ⟨q, hq, rfl⟩ := List.mem_map.1 he
      obtain ⟨_, _, _, h4⟩ := row_take htri hq
      obtain ⟨g1, g2, _, _⟩ := rowEnt_ids (skip := skip) (lk := lk) hs h4
      exact ⟨g1, g2⟩
    have headlt : ∀ e ∈ (tri.takeWhile fun p => decide ((ofLex p.1).1 = i)).map (rowEnt skip lk i d t) ++
        hessSpec skip lk t (tri.dropWhile fun p => decide ((ofLex p.1).1 = i)),
        (toLex (i, i) : IdPair) < e.key := by
      intro e he
      rcases List.mem_append.1 he with h | h
      · obtain ⟨a, b⟩ := rowfst e h
        exact Prod.Lex.lt_iff.2 (Or.inr ⟨a.symm, b⟩)
      · exact Prod.Lex.lt_iff.2 (Or.inl (later e h))
    have cross : ∀ e ∈ (tri.takeWhile fun p => decide ((ofLex p.1).1 = i)).map (rowEnt skip lk i d t),
        ∀ e' ∈ hessSpec skip lk t (tri.dropWhile fun p => decide ((ofLex p.1).1 = i)), e.key < e'.key := by
      intro e he e' he'
      refine Prod.Lex.lt_iff.2 (Or.inl ?_)
      show e.id1 < e'.id1
      rw [(rowfst e he).1]; exact later e' he'
    have hsub : ((tri.takeWhile fun p => decide ((ofLex p.1).1 = i)).Pairwise
        fun q q' => q.1 < q'.1) := by
      have : tri.Pairwise fun q q' => q.1 < q'.1 := List.pairwise_map.1 hst
      exact this.sublist (List.takeWhile_sublist _)
    have rowskip : skip = true →
        ((tri.takeWhile fun p => decide ((ofLex p.1).1 = i)).map (rowEnt skip lk i d t)).Pairwise
          (fun e e' => e.key < e'.key) := by
      rintro rfl
      rw [List.pairwise_map]
      refine List.Pairwise.imp_of_mem ?_ hsub
      intro q q' hq hq' hlt
      have e1 : (rowEnt true lk i d t q).key = q.1 := by
        have := (row_take htri hq).2.1
        simp only [rowEnt, if_true, Ent.key, ← this]
        rfl
      have e2 : (rowEnt true lk i d t q').key = q'.1 := by
        have := (row_take htri hq').2.1
        simp only [rowEnt, if_true, Ent.key, ← this]
        rfl
      rw [e1, e2]; exact hlt
    have rowle : ((tri.takeWhile fun p => decide ((ofLex p.1).1 = i)).map (rowEnt skip lk i d t)).Pairwise
          (fun e e' => e.key ≤ e'.key) := by
      cases skip with
      | true => exact (rowskip rfl).imp (fun h => h.le)
      | false =>
        rw [List.pairwise_map]
        refine List.Pairwise.imp_of_mem ?_ hsub
        intro q q' hq hq' _
        have h4 := (row_take htri hq).2.2.2
        cases t with
        | nil => simp at h4
        | cons r t => simp [rowEnt, Ent.key]
    simp only [hessSpec, List.pairwise_cons, List.pairwise_append]
    exact ⟨⟨fun e he => (headlt e he).le, rowle, p1, fun e he e' he' => (cross e he e' he').le⟩,
      fun hsk => ⟨fun e he => headlt e he, rowskip hsk, p2 hsk, cross⟩⟩

/-- With missing elements skipped, an off-diagonal pair is shown iff it is stored. -/
theorem hessSpec_off_filter [Zero R] (lk : VId → Diag R) {a b : VId} (hab : a < b)
    (dm : SMap VId (Diag R)) : ∀ (tri : SMap IdPair R), Sorted dm → TriOf dm tri → Sorted tri →
      (∀ i ∈ keys dm, find? dm i = some (lk i)) →
      (hessSpec true lk dm tri).filter (fun e => decide (e.key = toLex (a, b))) =
        (match find? tri (toLex (a, b)) with
         | some h => [⟨a, b, lk a, lk b, h⟩]
         | none => []) := by
  induction dm with
  | nil =>
    intro tri _ htri _ _
    have : find? tri (toLex (a, b)) = none := by
      refine find?_eq_none.2 (fun h => ?_)
      have := (htri _ h).2.1
      simp at this
    simp [hessSpec, this]
  | cons p t ih =>
    intro tri hs htri hst hlk
    obtain ⟨i, d⟩ := p
    have hs' := sorted_cons.1 hs
    have hd : d = lk i := by
      have := hlk i (by simp); simpa [find?] using this
    have hlk' : ∀ j ∈ keys t, find? t j = some (lk j) := by
      intro j hj
      have := hlk j (by simp [hj])
      simpa [find?, (hs'.1 j hj).ne] using this
    obtain ⟨h1, h2, h3⟩ := row_drop hs htri hst
    have hhead : ¬ (i = a ∧ i = b) := fun h => hab.ne (h.1.symm.trans h.2)
    simp only [hessSpec, List.filter_cons, List.filter_append, Ent.key, key_eq_iff, hhead,
      decide_false, Bool.false_eq_true, if_false]
    by_cases hia : i = a
    · subst hia
      -- the later rows show nothing
      have hlater : (hessSpec true lk t (tri.dropWhile fun p => decide ((ofLex p.1).1 = i))).filter
          (fun e => decide (e.id1 = i ∧ e.id2 = b)) = [] := by
        rw [List.filter_eq_nil_iff]
        intro e he
        have := hs'.1 _ (hessSpec_mem true lk t _ hs'.2 h1 h2 hlk' e he).2.1
        simp only [decide_eq_true_eq, not_and]
        intro h; exact absurd h this.ne'
      rw [hlater, List.append_nil]
      -- the row
      have gen : ∀ (l : SMap IdPair R), Sorted l → (∀ k ∈ keys l, i ≤ (ofLex k).1) →
          ((l.takeWhile fun p => decide ((ofLex p.1).1 = i)).map (rowEnt true lk i d t)).filter
            (fun e => decide (e.id1 = i ∧ e.id2 = b)) =
          (match find? l (toLex (i, b)) with
            | some h => [⟨i, b, lk i, lk b, h⟩]
            | none => []) := by
        intro l
        induction l with
        | nil => intro _ _; simp [find?]
        | cons q l ihl =>
          intro hsl hgel
          obtain ⟨k, h⟩ := q
          have hsl' := sorted_cons.1 hsl
          have hle := hgel k (by simp)
          by_cases hki : (ofLex k).1 = i
          · simp only [List.takeWhile_cons, hki, decide_true, if_true, List.map_cons, List.filter_cons]
            rw [ihl hsl'.2 (fun k' hk' => hgel k' (by simp [hk']))]
            by_cases hkb : (ofLex k).2 = b
            · have hk : k = toLex (i, b) := by rw [← hki, ← hkb]; rfl
              have : find? l (toLex (i, b)) = none :=
                find?_eq_none.2 (fun hm => by have := hsl'.1 _ hm; rw [hk] at this; exact this.false)
              simp [rowEnt, hkb, find?, hk, this, hd]
            · have hk : k ≠ toLex (i, b) := fun h => hkb (by rw [h]; rfl)
              simp [rowEnt, hkb, find?, hk]
          · have hlt : i < (ofLex k).1 := lt_of_le_of_ne hle (Ne.symm hki)
            have hk : k ≠ toLex (i, b) := fun h => hki (by rw [h]; rfl)
            have : find? l (toLex (i, b)) = none :=
              find?_eq_none.2 (fun hm => by
                have h1 := lex_fst_le (hsl'.1 _ hm)
                exact absurd (lt_of_lt_of_le hlt h1) (lt_irrefl _))
            simp [List.takeWhile_cons, hki, find?, hk, this]
      exact gen tri hst (fun k hk => by
        rcases List.mem_cons.1 (htri k hk).2.1 with h | h
        · exact h.ge
        · exact (hs'.1 _ h).le)
    · have hrow : ((tri.takeWhile fun p => decide ((ofLex p.1).1 = i)).map (rowEnt true lk i d t)).filter
          (fun e => decide (e.id1 = a ∧ e.id2 = b)) = [] := by
        rw [List.filter_eq_nil_iff]
        intro e he
        obtain ⟨q, hq, rfl⟩ := List.mem_map.1 he
        simp [rowEnt, hia]
      rw [hrow, List.nil_append]
      have := ih _ hs'.2 h1 h2 hlk'
      simp only [Ent.key, key_eq_iff] at this
      rw [this, find_drop hs (k := toLex (a, b)) (Ne.symm hia)]

end Unc
