import Verif.Spec.Second

/-! # Helper lemmas about the iterators of `Verif/Model/HessGrad.lean` -/

namespace Unc
open SMap
variable {R : Type*}

/-- `seekDiag` finds a key of a sorted map; nothing from that key on is lost. -/
theorem seekDiag_spec {k : VId} {l : SMap VId (Diag R)} (hs : Sorted l) (hk : k ∈ keys l) :
    ∃ d t, seekDiag k l = some ((k, d) :: t) ∧ Sorted ((k, d) :: t) ∧ find? l k = some d ∧
      ((k, d) :: t).length ≤ l.length ∧
      (∀ j, k ≤ j → find? ((k, d) :: t) j = find? l j) := by
  induction l with
  | nil => simp at hk
  | cons p t ih =>
    obtain ⟨i, d⟩ := p
    have h' := sorted_cons.1 hs
    unfold seekDiag
    rcases List.mem_cons.1 hk with h | h
    · simp only at h
      subst h
      refine ⟨d, t, by simp, hs, by simp [find?], le_refl _, fun _ _ => rfl⟩
    · have hik : i < k := h'.1 k h
      rw [if_pos hik]
      obtain ⟨d', t', h1, h2, h3, h4, h5⟩ := ih h'.2 h
      refine ⟨d', t', h1, h2, ?_, ?_, ?_⟩
      · simp [find?, hik.ne, h3]
      · simp only [List.length_cons] at h4 ⊢; omega
      · intro j hj
        have : i ≠ j := (lt_of_lt_of_le hik hj).ne
        rw [h5 j hj]; simp [find?, this]

theorem mem_keys_of_find? {K V : Type*} [LinearOrder K] {l : SMap K V} {k : K} {v : V}
    (h : find? l k = some v) : k ∈ keys l := find?_isSome.1 (by simp [h])

theorem mem_keys_congr {K V : Type*} [LinearOrder K] {l l' : SMap K V} {k : K}
    (h : find? l k = find? l' k) : k ∈ keys l ↔ k ∈ keys l' := by
  rw [← find?_isSome, ← find?_isSome, h]

/-- The entry a correct iterator shows at an off-diagonal element. -/
def entOf (lk : VId → Diag R) (p : IdPair × R) : Ent R :=
  ⟨(ofLex p.1).1, (ofLex p.1).2, lk (ofLex p.1).1, lk (ofLex p.1).2, p.2⟩

theorem lex_fst_le {a b : IdPair} (h : a < b) : (ofLex a).1 ≤ (ofLex b).1 := by
  rcases Prod.Lex.lt_iff.1 h with h | h
  · exact h.le
  · exact h.1.le

theorem tri_skip_loop (lk : VId → Diag R) [Zero R] (t : SMap IdPair R) (hst : Sorted t) :
    ∀ (dm dM : SMap VId (Diag R)) (fuel : ℕ), Sorted dm →
      (∀ i ∈ keys dm, find? dm i = some (lk i)) →
      (∀ k ∈ keys t, (ofLex k).1 < (ofLex k).2 ∧ (ofLex k).1 ∈ keys dm ∧ (ofLex k).2 ∈ keys dm) →
      t.length < fuel →
      (TriIt.updateDiag ⟨dm, dM, t, true⟩).bind (TriIt.loop fuel) = some (t.map (entOf lk)) := by
  induction t with
  | nil =>
    intro dm dM fuel hs hlk ht hf
    obtain ⟨f, rfl⟩ : ∃ f, fuel = f + 1 := ⟨fuel - 1, by omega⟩
    simp [TriIt.updateDiag, TriIt.loop, TriIt.notEnd]
  | cons p t ih =>
    intro dm dM fuel hs hlk ht hf
    obtain ⟨k, h⟩ := p
    obtain ⟨f, rfl⟩ : ∃ f, fuel = f + 1 := ⟨fuel - 1, by omega⟩
    have hst' := sorted_cons.1 hst
    obtain ⟨hk12, hk1, hk2⟩ := ht k (by simp)
    obtain ⟨d, t1, h1, h2, h3, h4, h5⟩ := seekDiag_spec hs hk1
    have hk2' : (ofLex k).2 ∈ keys (((ofLex k).1, d) :: t1) :=
      (mem_keys_congr (h5 _ hk12.le)).2 hk2
    obtain ⟨e, t2, g1, g2, g3, g4, g5⟩ := seekDiag_spec h2 hk2'
    have hd : d = lk (ofLex k).1 := by
      have := hlk _ hk1; rw [h3] at this; exact Option.some.inj this
    have he : e = lk (ofLex k).2 := by
      have := hlk _ hk2; rw [← h5 _ hk12.le, g3] at this; exact Option.some.inj this
    simp only [TriIt.updateDiag, h1, Option.bind_some, g1, Option.map_some]
    rw [TriIt.loop]
    simp only [TriIt.notEnd, List.isEmpty_cons, Bool.not_false, Bool.and_self, if_true, TriIt.get,
      Option.bind_some, TriIt.incr]
    have hrec := ih hst'.2 (((ofLex k).1, d) :: t1) (((ofLex k).2, e) :: t2) f h2 ?_ ?_
      (by simp at hf; omega)
    · cases hu : (TriIt.updateDiag ⟨((ofLex k).1, d) :: t1, ((ofLex k).2, e) :: t2, t, true⟩ :
        Option (TriIt R)) with
      | none => rw [hu] at hrec; simp at hrec
      | some it' =>
        rw [hu] at hrec
        simp only [Option.bind_some] at hrec ⊢
        simp [hrec, entOf, hd, he]
    · intro i hi
      have hki : (ofLex k).1 ≤ i := by
        rcases List.mem_cons.1 hi with h | h
        · exact h.ge
        · exact ((sorted_cons.1 h2).1 i h).le
      rw [h5 i hki]
      exact hlk i ((mem_keys_congr (h5 i hki)).1 hi)
    · intro k' hk'
      obtain ⟨a, b, c⟩ := ht k' (by simp [hk'])
      have hle : (ofLex k).1 ≤ (ofLex k').1 := lex_fst_le (hst'.1 k' hk')
      exact ⟨a, (mem_keys_congr (h5 _ hle)).2 b, (mem_keys_congr (h5 _ (hle.trans a.le))).2 c⟩

/-- Pairs of a list, rows first. -/
def pairsFrom {α : Type*} : List α → List (α × α)
  | [] => []
  | a :: t => t.map (fun b => (a, b)) ++ pairsFrom t

theorem length_pairsFrom {α : Type*} (l : List α) : (pairsFrom l).length ≤ l.length * l.length := by
  induction l with
  | nil => simp [pairsFrom]
  | cons a t ih =>
    simp only [pairsFrom, List.length_append, List.length_map, List.length_cons]
    nlinarith

/-- The entry a correct iterator over all pairs shows. -/
def entPair [Zero R] (tri : SMap IdPair R) (p : (VId × Diag R) × (VId × Diag R)) : Ent R :=
  ⟨p.1.1, p.2.1, p.1.2, p.2.2, SMap.get tri (toLex (p.1.1, p.2.1))⟩

theorem dropWhile_lt_spec {K V : Type*} [LinearOrder K] {t : SMap K V} (hs : Sorted t) (k : K) :
    Sorted (t.dropWhile fun p => decide (p.1 < k)) ∧
    (∀ j ∈ keys (t.dropWhile fun p => decide (p.1 < k)), k ≤ j) ∧
    (∀ j, k ≤ j → find? (t.dropWhile fun p => decide (p.1 < k)) j = find? t j) := by
  induction t with
  | nil => simp
  | cons p t ih =>
    obtain ⟨i, v⟩ := p
    have h' := sorted_cons.1 hs
    by_cases hik : i < k
    · simp only [List.dropWhile_cons, hik, decide_true, if_true]
      obtain ⟨a, b, c⟩ := ih h'.2
      refine ⟨a, b, fun j hj => ?_⟩
      rw [c j hj]; simp [find?, (lt_of_lt_of_le hik hj).ne]
    · simp only [List.dropWhile_cons, hik, decide_false, Bool.false_eq_true, if_false]
      refine ⟨hs, ?_, fun _ _ => by trivial⟩
      intro j hj
      rcases List.mem_cons.1 hj with h | h
      · simp only at h; subst h; exact not_lt.1 hik
      · exact (not_lt.1 hik).trans (h'.1 j h).le

theorem TriIt.get_full [Zero R] {i j : VId} {d e : Diag R} {t dM : SMap VId (Diag R)}
    {tri tri0 : SMap IdPair R} (hs : Sorted tri) (hge : ∀ k ∈ keys tri, toLex (i, j) ≤ k)
    (hf : find? tri (toLex (i, j)) = find? tri0 (toLex (i, j))) :
    TriIt.get ⟨(i, d) :: t, (j, e) :: dM, tri, false⟩ = some (entPair tri0 ((i, d), (j, e))) := by
  simp only [TriIt.get, Bool.false_eq_true, if_false]
  cases tri with
  | nil =>
    simp only [entPair, SMap.get, ← hf]; rfl
  | cons p tr =>
    obtain ⟨k, h⟩ := p
    simp only [entPair, SMap.get, ← hf]
    by_cases hk : k = toLex (i, j)
    · simp [hk, find?]
    · have : find? tr (toLex (i, j)) = none := by
        refine find?_eq_none.2 (fun hm => ?_)
        have h1 := (sorted_cons.1 hs).1 _ hm
        have h2 := hge k (by simp)
        exact absurd (lt_of_lt_of_le h1 h2) (lt_irrefl _)
      simp [hk, find?, this]

theorem tri_full_loop [Zero R] (tri0 : SMap IdPair R) :
    ∀ (fuel : ℕ) (i : VId) (d : Diag R) (t : SMap VId (Diag R)) (j : VId) (e : Diag R)
      (dM : SMap VId (Diag R)) (tri : SMap IdPair R),
      Sorted ((i, d) :: t) → Sorted ((j, e) :: dM) → i < j →
      Sorted tri → (∀ k ∈ keys tri, toLex (i, j) ≤ k) →
      (∀ k, toLex (i, j) ≤ k → find? tri k = find? tri0 k) →
      (dM.length + 1) + (pairsFrom t).length < fuel →
      TriIt.loop fuel ⟨(i, d) :: t, (j, e) :: dM, tri, false⟩ =
        some ((((j, e) :: dM).map fun p => entPair tri0 ((i, d), p)) ++
          (pairsFrom t).map (entPair tri0)) := by
  intro fuel
  induction fuel with
  | zero => intro _ _ _ _ _ _ _ _ _ _ _ _ _ h; omega
  | succ f ih =>
    intro i d t j e dM tri hs hsM hij hst hge hfind hfuel
    rw [TriIt.loop]
    rw [TriIt.get_full hst hge (hfind _ le_rfl)]
    simp only [TriIt.notEnd, List.isEmpty_cons, Bool.not_false, Bool.and_self, if_true,
      Option.bind_some, TriIt.incr, Bool.false_eq_true, if_false]
    cases dM with
    | cons q dM =>
      obtain ⟨j', e'⟩ := q
      simp only [List.isEmpty_cons, Bool.false_eq_true, if_false, Option.bind_some]
      have hjj' : j < j' := (sorted_cons.1 hsM).1 j' (by simp)
      have hlt : (toLex (i, j) : IdPair) ≤ toLex (i, j') :=
        Prod.Lex.le_iff.2 (Or.inr ⟨rfl, hjj'.le⟩)
      obtain ⟨a, b, c⟩ := dropWhile_lt_spec hst (toLex (i, j') : IdPair)
      rw [ih i d t j' e' dM _ hs hsM.tail (hij.trans hjj') a b
        (fun k hk => (c k hk).trans (hfind k (hlt.trans hk))) (by simp at hfuel ⊢; omega)]
      simp
    | nil =>
      simp only [List.isEmpty_nil, if_true]
      match t, hs, hfuel with
      | [], _, hfuel =>
        simp only [Option.bind_some]
        obtain ⟨f', rfl⟩ : ∃ f', f = f' + 1 := ⟨f - 1, by simp at hfuel; omega⟩
        simp [TriIt.loop, TriIt.notEnd, pairsFrom]
      | [q], _, hfuel =>
        simp only [List.tail_cons, Option.bind_some]
        obtain ⟨f', rfl⟩ : ∃ f', f = f' + 1 := ⟨f - 1, by simp at hfuel; omega⟩
        simp [TriIt.loop, TriIt.notEnd, pairsFrom]
      | (i', d') :: (j', e') :: t', hs, hfuel =>
        simp only [List.tail_cons, Option.bind_some]
        have hs' := (sorted_cons.1 hs)
        have hii' : i < i' := hs'.1 i' (by simp)
        have hlt : (toLex (i, j) : IdPair) ≤ toLex (i', j') :=
          Prod.Lex.le_iff.2 (Or.inl hii')
        obtain ⟨a, b, c⟩ := dropWhile_lt_spec hst (toLex (i', j') : IdPair)
        rw [ih i' d' ((j', e') :: t') j' e' t' _ hs'.2 hs'.2.tail
          ((sorted_cons.1 hs'.2).1 j' (by simp)) a b
          (fun k hk => (c k hk).trans (hfind k (hlt.trans hk)))
          (by simp [pairsFrom] at hfuel ⊢; omega)]
        simp [pairsFrom]

theorem triEntries_full [Zero R] (hg : HessGrad R) (hv : hg.Valid) :
    hg.triEntries false = some ((pairsFrom hg.diagmap).map (entPair hg.trimap)) := by
  obtain ⟨dm, tri⟩ := hg
  have hlen := length_pairsFrom dm
  unfold HessGrad.triEntries
  match dm, hv, hlen with
  | [], hv, _ => simp [TriIt.start, HessGrad.fuel, TriIt.loop, TriIt.notEnd, pairsFrom]
  | [p], hv, _ => simp [TriIt.start, HessGrad.fuel, TriIt.loop, TriIt.notEnd, pairsFrom]
  | (i, d) :: (j, e) :: t, hv, hlen =>
    have hs := sorted_cons.1 hv.dsorted
    have hs2 := sorted_cons.1 hs.2
    simp only [TriIt.start, Bool.false_eq_true, if_false, Option.bind_some]
    rw [tri_full_loop tri _ i d ((j, e) :: t) j e t tri hv.dsorted hs.2 (hs.1 j (by simp)) hv.tsorted
      ?_ (fun _ _ => rfl) ?_]
    · simp [pairsFrom]
    · intro k hk
      obtain ⟨h1, h2, h3⟩ := hv.tri (ofLex k).1 (ofLex k).2 hk
      have hlo : i ≤ (ofLex k).1 := by
        rcases List.mem_cons.1 h2 with h | h
        · exact h.ge
        · exact (hs.1 _ h).le
      rcases hlo.lt_or_eq with hlt | heq
      · exact Prod.Lex.le_iff.2 (Or.inl hlt)
      · refine Prod.Lex.le_iff.2 (Or.inr ⟨heq, ?_⟩)
        have h3' : (ofLex k).2 ∈ keys ((j, e) :: t) := by
          rcases List.mem_cons.1 h3 with h | h
          · exact absurd h (by simp only at h ⊢; rw [heq]; exact h1.ne')
          · exact h
        rcases List.mem_cons.1 h3' with h | h
        · exact h.ge
        · exact (hs2.1 _ h).le
    · simp only [HessGrad.fuel, pairsFrom, List.length_append, List.length_map, List.length_cons] at hlen ⊢
      omega

/-- The `Diag` stored for a variable. -/
def HessGrad.dOf [Zero R] (hg : HessGrad R) (i : VId) : Diag R :=
  (find? hg.diagmap i).getD ⟨0, 0, ⟨0, 0, 0, 0, 0, 0⟩⟩

theorem HessGrad.find_dOf [Zero R] {hg : HessGrad R} {i : VId} (h : i ∈ keys hg.diagmap) :
    find? hg.diagmap i = some (hg.dOf i) := by
  have := find?_isSome.2 h
  unfold dOf
  cases hf : find? hg.diagmap i with
  | none => simp [hf] at this
  | some d => simp

theorem triEntries_skip [Zero R] (hg : HessGrad R) (hv : hg.Valid) :
    hg.triEntries true = some (hg.trimap.map (entOf hg.dOf)) := by
  unfold HessGrad.triEntries TriIt.start
  simp only [if_true]
  exact tri_skip_loop hg.dOf hg.trimap hv.tsorted _ _ _ hv.dsorted
    (fun i hi => HessGrad.find_dOf hi)
    (fun k hk => hv.tri (ofLex k).1 (ofLex k).2 hk)
    (by unfold HessGrad.fuel; omega)

/-! ## The full-hessian iterator -/

/-- What the full-hessian iterator shows for the off-diagonal element `p` in the row `(i, d)` followed by
the rows `t`. -/
def rowEnt [Zero R] (skip : Bool) (lk : VId → Diag R) (i : VId) (d : Diag R) (t : SMap VId (Diag R))
    (p : IdPair × R) : Ent R :=
  if skip then ⟨i, (ofLex p.1).2, d, lk (ofLex p.1).2, p.2⟩
  else match t with
    | [] => ⟨i, i, d, d, 0⟩
    | (j, e) :: _ => ⟨i, j, d, e, if p.1 = toLex (i, j) then p.2 else 0⟩

/-- The entries shown by the full-hessian iterator, row by row. -/
def hessSpec [Zero R] (skip : Bool) (lk : VId → Diag R) : SMap VId (Diag R) → SMap IdPair R → List (Ent R)
  | [], _ => []
  | (i, d) :: t, tri =>
    ⟨i, i, d, d, d.hhess⟩ ::
      ((tri.takeWhile fun p => decide ((ofLex p.1).1 = i)).map (rowEnt skip lk i d t) ++
        hessSpec skip lk t (tri.dropWhile fun p => decide ((ofLex p.1).1 = i)))

theorem hess_loop [Zero R] (skip : Bool) (lk : VId → Diag R) :
    ∀ (fuel : ℕ),
    (∀ (dm : SMap VId (Diag R)) (tri : SMap IdPair R), Sorted dm → Sorted tri →
      (∀ i ∈ keys dm, find? dm i = some (lk i)) →
      (∀ k ∈ keys tri, (ofLex k).1 < (ofLex k).2 ∧ (ofLex k).1 ∈ keys dm ∧ (ofLex k).2 ∈ keys dm) →
      dm.length + tri.length < fuel →
      HessIt.loop fuel ⟨dm, dm, tri, skip⟩ = some (hessSpec skip lk dm tri)) ∧
    (∀ (i : VId) (d : Diag R) (t : SMap VId (Diag R)) (j : VId) (e : Diag R) (dM : SMap VId (Diag R))
      (k : IdPair) (h : R) (tri : SMap IdPair R),
      Sorted ((i, d) :: t) → Sorted ((k, h) :: tri) → (ofLex k).1 = i →
      (∀ i' ∈ keys ((i, d) :: t), find? ((i, d) :: t) i' = some (lk i')) →
      (∀ k' ∈ keys ((k, h) :: tri), (ofLex k').1 < (ofLex k').2 ∧ (ofLex k').1 ∈ keys ((i, d) :: t) ∧
        (ofLex k').2 ∈ keys ((i, d) :: t)) →
      ((j, e) :: dM).length ≤ t.length →
      (if skip then (j = (ofLex k).2 ∧ e = lk j ∧ Sorted ((j, e) :: dM) ∧
          ∀ i', j ≤ i' → find? ((j, e) :: dM) i' = find? ((i, d) :: t) i') else (j, e) :: dM = t) →
      t.length + tri.length + 1 < fuel →
      HessIt.loop fuel ⟨(i, d) :: t, (j, e) :: dM, (k, h) :: tri, skip⟩ =
        some ((((k, h) :: tri).takeWhile fun p => decide ((ofLex p.1).1 = i)).map (rowEnt skip lk i d t) ++
        hessSpec skip lk t (((k, h) :: tri).dropWhile fun p => decide ((ofLex p.1).1 = i)))) := by
  intro fuel
  induction fuel with
  | zero => exact ⟨fun _ _ _ _ _ _ h => by omega, fun _ _ _ _ _ _ _ _ _ _ _ _ _ _ _ _ h => by omega⟩
  | succ f ih =>
    obtain ⟨ih1, ih2⟩ := ih
    -- rows below: the hypotheses for `t` once all elements of row `i` are consumed
    have next : ∀ (i : VId) (d : Diag R) (t : SMap VId (Diag R)) (tri : SMap IdPair R),
        Sorted ((i, d) :: t) → (∀ i' ∈ keys ((i, d) :: t), find? ((i, d) :: t) i' = some (lk i')) →
        (∀ k' ∈ keys tri, (ofLex k').1 < (ofLex k').2 ∧ (ofLex k').1 ∈ keys ((i, d) :: t) ∧
        (ofLex k').2 ∈ keys ((i, d) :: t)) → (∀ k' ∈ keys tri, i < (ofLex k').1) →
        (∀ i' ∈ keys t, find? t i' = some (lk i')) ∧
        (∀ k' ∈ keys tri, (ofLex k').1 < (ofLex k').2 ∧ (ofLex k').1 ∈ keys t ∧ (ofLex k').2 ∈ keys t) := by
      intro i d t tri hs hlk htri hgt
      have hs' := sorted_cons.1 hs
      refine ⟨fun i' hi' => ?_, fun k' hk' => ?_⟩
      · have := hlk i' (by simp [hi'])
        rw [← this]; simp [find?, (hs'.1 i' hi').ne]
      · obtain ⟨a, b, c⟩ := htri k' hk'
        have hg := hgt k' hk'
        refine ⟨a, ?_, ?_⟩
        · rcases List.mem_cons.1 b with h | h
          · exact absurd h hg.ne'
          · exact h
        · rcases List.mem_cons.1 c with h | h
          · exact absurd h (hg.trans a).ne'
          · exact h
    have allgt : ∀ (i : VId) (k : IdPair) (h : R) (tri : SMap IdPair R), Sorted ((k, h) :: tri) →
        i < (ofLex k).1 → ∀ k' ∈ keys ((k, h) :: tri), i < (ofLex k').1 := by
      intro i k h tri hs hi k' hk'
      rcases List.mem_cons.1 hk' with h | h
      · simp only at h; subst h; exact hi
      · exact lt_of_lt_of_le hi (lex_fst_le ((sorted_cons.1 hs).1 k' h))
    have drop_all : ∀ (i : VId) (tri : SMap IdPair R), (∀ k' ∈ keys tri, i < (ofLex k').1) →
        (tri.takeWhile fun p => decide ((ofLex p.1).1 = i)) = [] ∧
        (tri.dropWhile fun p => decide ((ofLex p.1).1 = i)) = tri := by
      intro i tri h
      cases tri with
      | nil => simp
      | cons p tr =>
        have := h p.1 (by simp)
        simp [List.takeWhile_cons, List.dropWhile_cons, this.ne']
    refine ⟨?_, ?_⟩
    · intro dm tri hs hst hlk htri hfuel
      rw [HessIt.loop]
      cases dm with
      | nil => simp [HessIt.notEnd, hessSpec]
      | cons p t =>
        obtain ⟨i, d⟩ := p
        have hs' := sorted_cons.1 hs
        simp only [HessIt.notEnd, List.isEmpty_cons, Bool.not_false, Bool.and_self, if_true,
          HessIt.get, HessIt.incr, Option.bind_some]
        cases tri with
        | nil =>
          simp only [Option.bind_some]
          rw [ih1 t [] hs'.2 (by simp) (next i d t [] hs hlk (by simp) (by simp)).1 (by simp)
            (by simp at hfuel ⊢; omega)]
          simp [hessSpec]
        | cons q tri =>
          obtain ⟨k, h⟩ := q
          obtain ⟨a, b, c⟩ := htri k (by simp)
          have hle : i ≤ (ofLex k).1 := by
            rcases List.mem_cons.1 b with h | h
            · exact h.ge
            · exact (hs'.1 _ h).le
          have hc : (ofLex k).2 ∈ keys t := by
            rcases List.mem_cons.1 c with h | h
            · exact absurd h (lt_of_le_of_lt hle a).ne'
            · exact h
          cases t with
          | nil => simp at hc
          | cons r t =>
            obtain ⟨j, e⟩ := r
            have hs2 := sorted_cons.1 hs'.2
            have hij : i < j := hs'.1 j (by simp)
            have hjk : j ≤ (ofLex k).2 := by
              rcases List.mem_cons.1 hc with h | h
              · exact h.ge
              · exact (hs2.1 _ h).le
            have hnlt : ¬ k < (toLex (i, j) : IdPair) := by
              rw [not_lt]
              rcases hle.lt_or_eq with h | h
              · exact Prod.Lex.le_iff.2 (Or.inl h)
              · exact Prod.Lex.le_iff.2 (Or.inr ⟨h, hjk⟩)
            simp only [if_neg hnlt, Option.bind_some]
            by_cases hgt : (ofLex k).1 > i
            · rw [if_pos hgt]
              obtain ⟨n1, n2⟩ := next i d _ _ hs hlk htri (allgt i k h tri hst hgt)
              obtain ⟨e1, e2⟩ := drop_all i ((k, h) :: tri) (allgt i k h tri hst hgt)
              simp only [Option.bind_some]
              rw [ih1 _ _ hs'.2 hst n1 n2 (by simp at hfuel ⊢; omega)]
              conv_rhs => rw [hessSpec, e1, e2]
              simp
            · rw [if_neg hgt]
              have hki : (ofLex k).1 = i := le_antisymm (not_lt.1 hgt) hle
              cases skip with
              | false =>
                simp only [Bool.false_eq_true, if_false, Option.bind_some]
                rw [ih2 i d ((j, e) :: t) j e t k h tri hs hst hki hlk htri le_rfl
                  (by simp) (by simp at hfuel ⊢; omega)]
                conv_rhs => rw [hessSpec]
                simp
              | true =>
                simp only [if_true]
                obtain ⟨e', t', g1, g2, g3, g4, g5⟩ := seekDiag_spec hs'.2 hc
                rw [g1]
                simp only [Option.map_some, Option.bind_some]
                have hne : i ≠ (ofLex k).2 := (lt_of_le_of_lt hle a).ne
                rw [ih2 i d ((j, e) :: t) (ofLex k).2 e' t' k h tri hs hst hki hlk htri
                  g4 ?_ (by simp at hfuel ⊢; omega)]
                · conv_rhs => rw [hessSpec]
                  simp
                · simp only [if_true]
                  refine ⟨trivial, ?_, g2, fun i' hi' => ?_⟩
                  · have := hlk _ c
                    simp only [find?, if_neg hne] at this
                    simp only [find?] at g3
                    rw [g3] at this
                    exact Option.some.inj this
                  · have : i ≠ i' := (lt_of_lt_of_le (lt_of_le_of_lt hle a) hi').ne
                    rw [g5 i' hi']
                    simp only [find?, if_neg this]
    · intro i d t j e dM k h tri hs hst hki hlk htri hlen hcur hfuel
      have hs' := sorted_cons.1 hs
      have hst' := sorted_cons.1 hst
      rw [HessIt.loop]
      have hne : ((i, d) :: t).length ≠ ((j, e) :: dM).length := by
        simp only [List.length_cons] at hlen ⊢; omega
      -- the entry shown
      have hget : HessIt.get ⟨(i, d) :: t, (j, e) :: dM, (k, h) :: tri, skip⟩ =
          some (rowEnt skip lk i d t (k, h)) := by
        unfold HessIt.get
        simp only [if_neg hne]
        cases skip with
        | true =>
          simp only [if_true] at hcur ⊢
          obtain ⟨h1, h2, _⟩ := hcur
          simp [rowEnt, h1, h2]
        | false =>
          simp only [Bool.false_eq_true, if_false] at hcur ⊢
          rw [← hcur]
          simp [rowEnt]
      rw [hget]
      simp only [HessIt.notEnd, List.isEmpty_cons, Bool.not_false, Bool.and_self, if_true,
          HessIt.incr, Option.bind_some, if_neg hne]
      have htake : (((k, h) :: tri).takeWhile fun p => decide ((ofLex p.1).1 = i)) =
          (k, h) :: tri.takeWhile fun p => decide ((ofLex p.1).1 = i) := by
        simp [List.takeWhile_cons, hki]
      have hdrop : (((k, h) :: tri).dropWhile fun p => decide ((ofLex p.1).1 = i)) =
          tri.dropWhile fun p => decide ((ofLex p.1).1 = i) := by
        simp [List.dropWhile_cons, hki]
      rw [htake, hdrop]
      cases tri with
      | nil =>
        simp only [Option.bind_some]
        rw [ih1 t [] hs'.2 (by simp) (next i d t [] hs hlk (by simp) (by simp)).1 (by simp)
          (by simp at hfuel ⊢; omega)]
        simp
      | cons q tri =>
        obtain ⟨k', h'⟩ := q
        have hkk' : k < k' := hst'.1 k' (by simp)
        obtain ⟨a, b, c⟩ := htri k' (by simp)
        have hle : i ≤ (ofLex k').1 := hki ▸ lex_fst_le hkk'
        have htri' : ∀ k'' ∈ keys ((k', h') :: tri), (ofLex k'').1 < (ofLex k'').2 ∧
            (ofLex k'').1 ∈ keys ((i, d) :: t) ∧ (ofLex k'').2 ∈ keys ((i, d) :: t) :=
          fun k'' hk'' => htri k'' (by simp at hk'' ⊢; tauto)
        have hjk : (toLex (i, j) : IdPair) ≤ k' := by
          cases skip with
          | true =>
            simp only [if_true] at hcur
            refine le_trans ?_ hkk'.le
            exact Prod.Lex.le_iff.2 (Or.inr ⟨hki.symm, hcur.1.le⟩)
          | false =>
            simp only [Bool.false_eq_true, if_false] at hcur
            rcases hle.lt_or_eq with h | h
            · exact Prod.Lex.le_iff.2 (Or.inl h)
            · refine Prod.Lex.le_iff.2 (Or.inr ⟨h, ?_⟩)
              have hc : (ofLex k').2 ∈ keys t := by
                rcases List.mem_cons.1 c with h | h
                · exact absurd h (lt_of_le_of_lt hle a).ne'
                · exact h
              rw [← hcur] at hc
              have hs2 := hcur ▸ hs'.2
              rcases List.mem_cons.1 hc with h | h
              · exact h.ge
              · exact ((sorted_cons.1 hs2).1 _ h).le
        simp only [if_neg (not_lt.2 hjk), Option.bind_some]
        by_cases hgt : (ofLex k').1 > i
        · rw [if_pos hgt]
          obtain ⟨n1, n2⟩ := next i d _ _ hs hlk htri' (allgt i k' h' tri hst'.2 hgt)
          obtain ⟨e1, e2⟩ := drop_all i ((k', h') :: tri) (allgt i k' h' tri hst'.2 hgt)
          simp only [Option.bind_some]
          rw [ih1 _ _ hs'.2 hst'.2 n1 n2 (by simp at hfuel ⊢; omega)]
          rw [e1, e2]; simp
        · rw [if_neg hgt]
          have hki' : (ofLex k').1 = i := le_antisymm (not_lt.1 hgt) hle
          cases skip with
          | false =>
            simp only [Bool.false_eq_true, if_false, Option.bind_some] at hcur ⊢
            rw [ih2 i d t j e dM k' h' tri hs hst'.2 hki' hlk htri' hlen
              (by simpa using hcur) (by simp at hfuel ⊢; omega)]
            simp
          | true =>
            simp only [if_true] at hcur ⊢
            obtain ⟨hj, he, hsM, hfind⟩ := hcur
            have hk2 : (ofLex k).2 < (ofLex k').2 := by
              rcases Prod.Lex.lt_iff.1 hkk' with h | h
              · exact absurd h (by rw [hki, hki']; exact lt_irrefl _)
              · exact h.2
            have hjk' : j ≤ (ofLex k').2 := hj ▸ hk2.le
            have hc' : (ofLex k').2 ∈ keys ((j, e) :: dM) :=
              (mem_keys_congr (hfind _ hjk')).2 c
            obtain ⟨e', t', g1, g2, g3, g4, g5⟩ := seekDiag_spec hsM hc'
            rw [g1]
            simp only [Option.map_some, Option.bind_some]
            rw [ih2 i d t (ofLex k').2 e' t' k' h' tri hs hst'.2 hki' hlk htri'
              (g4.trans hlen) ?_ (by simp at hfuel ⊢; omega)]
            · simp
            · simp only [if_true]
              refine ⟨trivial, ?_, g2, fun i' hi' => ?_⟩
              · have := hlk _ c
                rw [← hfind _ hjk', g3] at this
                exact Option.some.inj this
              · rw [g5 i' hi', hfind i' (hjk'.trans hi')]

theorem hessEntries_eq [Zero R] (hg : HessGrad R) (hv : hg.Valid) (skip : Bool) :
    hg.hessEntries skip = some (hessSpec skip hg.dOf hg.diagmap hg.trimap) := by
  unfold HessGrad.hessEntries HessIt.start
  exact (hess_loop skip hg.dOf hg.fuel).1 _ _ hv.dsorted hv.tsorted (fun i hi => HessGrad.find_dOf hi)
    (fun k hk => hv.tri (ofLex k).1 (ofLex k).2 hk) (by unfold HessGrad.fuel; omega)

end Unc
