import Verif.Spec.HessCalls
import Verif.Props.Iterators

/-!
# C75: the storage of gradients and hessians
-/

namespace Unc.Props
open Unc Unc.Spec SMap HessGrad

variable {R : Type*}

/-- the object stores what the specification says -/
structure Stores (hg : HessGrad R) (s : Store R) : Prop where
  dsorted : Sorted hg.diagmap
  tsorted : Sorted hg.trimap
  var : ∀ i, find? hg.diagmap i = s.var i
  pair : ∀ i j : VId, i < j → find? hg.trimap (toLex (i, j)) = s.pair s(i, j)
  diag : ∀ i, s.pair s(i, i) = none
  upper : ∀ k ∈ keys hg.trimap, (ofLex k).1 < (ofLex k).2

theorem Stores.empty : Stores (HessGrad.empty : HessGrad R) Store.empty :=
  ⟨by simp [HessGrad.empty, Sorted], by simp [HessGrad.empty, Sorted], fun _ => rfl, fun _ _ _ => rfl, fun _ => rfl, by simp [HessGrad.empty]⟩

theorem Stores.setVar {hg : HessGrad R} {s : Store R} (h : Stores hg s) (i : VId) (d : Diag R) (f : Diag R → Diag R) :
    Stores { hg with diagmap := upsert hg.diagmap i d f } (s.setVar i (f ((s.var i).getD d))) := by
  refine ⟨sorted_upsert h.dsorted, h.tsorted, fun k => ?_, h.pair, h.diag, h.upper⟩
  simp only [Store.setVar]
  split_ifs with hk
  · subst hk
    rw [find?_upsert_self h.dsorted, h.var]
  · rw [find?_upsert_ne hk, h.var]

theorem Stores.setPair {hg : HessGrad R} {s : Store R} (h : Stores hg s) {i j : VId} (hij : i < j) (d : R) (f : R → R) :
    Stores { hg with trimap := upsert hg.trimap (toLex (i, j)) d f } (s.setPair i j (f ((s.pair s(i, j)).getD d))) := by
  refine ⟨h.dsorted, sorted_upsert h.tsorted, h.var, fun a b hab => ?_, fun a => ?_, fun k hk => ?_⟩
  · simp only [Store.setPair]
    split_ifs with hk
    · have : a = i ∧ b = j := by
        rcases Sym2.eq_iff.1 hk with h | ⟨rfl, rfl⟩
        · exact h
        · exact absurd hab hij.asymm
      obtain ⟨rfl, rfl⟩ := this
      rw [find?_upsert_self h.tsorted, h.pair _ _ hij]
    · rw [find?_upsert_ne, h.pair _ _ hab]
      intro e
      have := congrArg ofLex e
      simp only [ofLex_toLex, Prod.mk.injEq] at this
      exact hk (by rw [this.1, this.2])
  · simp only [Store.setPair]
    rw [if_neg, h.diag]
    intro e
    rcases Sym2.eq_iff.1 e with ⟨rfl, rfl⟩ | ⟨rfl, rfl⟩ <;> exact lt_irrefl _ hij
  · rcases mem_keys_upsert.1 hk with rfl | hk
    · exact hij
    · exact h.upper k hk

theorem Stores.size {hg : HessGrad R} {s : Store R} (h : Stores hg s) : hg.size = s.size := by
  have : {i | s.var i ≠ none} = ((keys hg.diagmap).toFinset : Set VId) := by
    ext i
    simp only [Set.mem_setOf_eq, List.coe_toFinset, ← h.var]
    rw [ne_eq, find?_eq_none, not_not]
  rw [HessGrad.size, Store.size, this, Set.ncard_coe_finset, List.toFinset_card_of_nodup (Sorted.nodup h.dsorted)]
  simp [keys]

theorem Stores.minmax {hg : HessGrad R} {s : Store R} (h : Stores hg s) {i j : VId} (hij : i ≠ j) :
    min i j < max i j ∧ find? hg.trimap (toLex (min i j, max i j)) = s.pair s(i, j) := by
  rcases lt_or_gt_of_ne hij with hl | hl
  · rw [min_eq_left hl.le, max_eq_right hl.le]
    exact ⟨hl, h.pair _ _ hl⟩
  · rw [min_eq_right hl.le, max_eq_left hl.le, Sym2.eq_swap]
    exact ⟨hl, h.pair _ _ hl⟩

theorem Stores.call [Zero R] {hg : HessGrad R} {s : Store R} (h : Stores hg s) (c : Call R) :
    match hg.call c, s.call c with
    | some (hg', r), some (s', r') => Stores hg' s' ∧ r = r'
    | none, none => True
    | _, _ => False := by
  cases c with
  | size => exact ⟨h, by rw [h.size]⟩
  | diagAt i =>
    refine ⟨h, ?_⟩
    simp only [HessGrad.diagAt, h.var]
    cases s.var i <;> rfl
  | diag u i f => exact ⟨h.setVar i _ f, rfl⟩
  | diagGet u i => exact ⟨h, by simp only [HessGrad.diagGet, h.var]; rfl⟩
  | triAt i j =>
    simp only [HessGrad.call, Store.call, HessGrad.triAt]
    by_cases hij : i < j
    · simp only [hij, if_true, Option.map_some]
      refine ⟨h, ?_⟩
      rw [h.pair _ _ hij]
      cases s.pair s(i, j) <;> rfl
    · simp [hij]
  | tri i j f =>
    simp only [HessGrad.call, Store.call, HessGrad.modTri]
    by_cases hij : i < j
    · simp only [hij, if_true, Option.map_some]
      exact ⟨h.setPair hij _ f, trivial⟩
    · simp [hij]
  | triGet i j =>
    simp only [HessGrad.call, Store.call, HessGrad.triGet]
    by_cases hij : i < j
    · simp only [hij, if_true, Option.map_some]
      exact ⟨h, by rw [h.pair _ _ hij]⟩
    · simp [hij]
  | triFind i j =>
    refine ⟨h, ?_⟩
    simp only [HessGrad.triFind]
    by_cases hij : i = j
    · subst hij
      rw [min_self, max_self, h.diag, find?_eq_none.2]
      intro hm
      exact lt_irrefl _ (h.upper _ hm)
    · rw [(h.minmax hij).2]
  | hhess u i j f =>
    simp only [HessGrad.call, Store.call, HessGrad.modHhess, HessGrad.modTri]
    rcases lt_trichotomy i j with hij | hij | hij
    · simp only [hij, hij.ne, if_true, Option.map_some, ne_eq, not_false_eq_true]
      exact ⟨h.setPair hij _ f, trivial⟩
    · subst hij
      simp only [ne_eq, not_true_eq_false, if_false, lt_irrefl, if_true, Option.map_some]
      exact ⟨h.setVar i _ fun d => { d with hhess := f d.hhess }, trivial⟩
    · simp [hij.ne', hij.asymm]
  | hhessGet u i j =>
    simp only [HessGrad.call, Store.call, HessGrad.hhessGet, HessGrad.triGet]
    by_cases hij : i = j
    · subst hij
      simp only [ne_eq, not_true_eq_false, if_false, if_true, Option.map_some]
      refine ⟨h, ?_⟩
      simp only [HessGrad.diagGet, h.var]
      cases s.var i <;> rfl
    · obtain ⟨h1, h2⟩ := h.minmax hij
      simp only [ne_eq, hij, not_false_eq_true, if_true, h1, if_false, Option.map_some, h2]
      exact ⟨h, trivial⟩

theorem Stores.calls [Zero R] (l : List (Call R)) : ∀ {hg : HessGrad R} {s : Store R}, Stores hg s →
    match hg.calls l, s.calls l with
    | some (hg', r), some (s', r') => Stores hg' s' ∧ r = r'
    | none, none => True
    | _, _ => False := by
  induction l with
  | nil => intro hg s h; exact ⟨h, rfl⟩
  | cons c l ih =>
    intro hg s h
    have h1 := h.call c
    simp only [HessGrad.calls, Store.calls]
    cases e1 : hg.call c with
    | none =>
      cases e2 : s.call c with
      | none => simp
      | some q => rw [e1, e2] at h1; exact h1.elim
    | some p =>
      cases e2 : s.call c with
      | none => rw [e1, e2] at h1; exact h1.elim
      | some q =>
        rw [e1, e2] at h1
        obtain ⟨h2, h3⟩ := h1
        have h4 := ih h2
        simp only [Option.bind_some]
        cases e3 : HessGrad.calls p.1 l with
        | none =>
          cases e4 : Store.calls q.1 l with
          | none => simp
          | some _ => rw [e3, e4] at h4; exact h4.elim
        | some p' =>
          cases e4 : Store.calls q.1 l with
          | none => rw [e3, e4] at h4; exact h4.elim
          | some q' =>
            rw [e3, e4] at h4
            simp only [Option.map_some]
            exact ⟨h4.1, by rw [h3, h4.2]⟩

/-- **C75** All sequences of calls return what the specification says, and are undefined exactly where it says. -/
theorem C75_calls [Zero R] (l : List (Call R)) :
    ((HessGrad.empty : HessGrad R).calls l).map Prod.snd = ((Store.empty : Store R).calls l).map Prod.snd := by
  have := Stores.calls l (Stores.empty (R := R))
  cases e1 : (HessGrad.empty : HessGrad R).calls l with
  | none =>
    cases e2 : (Store.empty : Store R).calls l with
    | none => rfl
    | some _ => rw [e1, e2] at this; exact this.elim
  | some p =>
    cases e2 : (Store.empty : Store R).calls l with
    | none => rw [e1, e2] at this; exact this.elim
    | some q => rw [e1, e2] at this; simp [this.2]

/-! ## the iterators -/

theorem Stores.complete_iff {hg : HessGrad R} {s : Store R} (h : Stores hg s) :
    s.Complete ↔ ∀ k ∈ keys hg.trimap, (ofLex k).1 ∈ keys hg.diagmap ∧ (ofLex k).2 ∈ keys hg.diagmap := by
  have hv : ∀ i, s.var i ≠ none ↔ i ∈ keys hg.diagmap := fun i => by rw [← h.var, ne_eq, find?_eq_none, not_not]
  constructor
  · intro hc k hk
    have := hc (ofLex k).1 (ofLex k).2 (by
      rw [← h.pair _ _ (h.upper k hk), ne_eq, find?_eq_none, not_not]; exact hk)
    rwa [hv, hv] at this
  · intro hc i j hp
    rw [hv, hv]
    rcases lt_trichotomy i j with hij | hij | hij
    · rw [← h.pair _ _ hij, ne_eq, find?_eq_none, not_not] at hp
      exact hc _ hp
    · subst hij
      exact absurd (h.diag i) hp
    · rw [Sym2.eq_swap, ← h.pair _ _ hij, ne_eq, find?_eq_none, not_not] at hp
      exact (hc _ hp).symm

theorem Stores.valid {hg : HessGrad R} {s : Store R} (h : Stores hg s) (hc : s.Complete) : hg.Valid :=
  ⟨h.dsorted, h.tsorted, fun i j hk => ⟨h.upper _ hk, h.complete_iff.1 hc _ hk⟩⟩

theorem seek_mem {k : VId} {l l' : SMap VId (Diag R)} (e : seekDiag k l = some l') : l' <:+ l ∧ ∃ d t, l' = (k, d) :: t := by
  induction l with
  | nil => simp [seekDiag] at e
  | cons p t ih =>
    obtain ⟨i, d⟩ := p
    simp only [seekDiag] at e
    split_ifs at e with h1 h2
    · obtain ⟨a, b⟩ := ih e
      exact ⟨a.trans (List.suffix_cons _ _), b⟩
    · subst h2
      cases e
      exact ⟨List.suffix_refl _, _, _, rfl⟩

theorem suffix_keys {l l' : SMap VId (Diag R)} (h : l' <:+ l) {i : VId} (hi : i ∈ keys l') : i ∈ keys l := by
  obtain ⟨p, hp, e⟩ := List.mem_map.1 hi
  exact List.mem_map.2 ⟨p, h.subset hp, e⟩

theorem tri_complete [Zero R] (tri : SMap IdPair R) : ∀ (fuel : ℕ) (dm dM : SMap VId (Diag R)),
    ((TriIt.updateDiag ⟨dm, dM, tri, true⟩).bind (TriIt.loop fuel)).isSome →
    ∀ k ∈ keys tri, (ofLex k).1 ∈ keys dm ∧ (ofLex k).2 ∈ keys dm := by
  induction tri with
  | nil => simp
  | cons p t ih =>
    intro fuel dm dM h k hk
    obtain ⟨k0, x⟩ := p
    simp only [TriIt.updateDiag] at h
    cases e1 : seekDiag (ofLex k0).1 dm with
    | none => simp [e1] at h
    | some d1 =>
      obtain ⟨s1, a1, b1, c1⟩ := seek_mem e1
      cases e2 : seekDiag (ofLex k0).2 d1 with
      | none => simp [e1, e2] at h
      | some d2 =>
        obtain ⟨s2, a2, b2, c2⟩ := seek_mem e2
        rcases List.mem_cons.1 hk with rfl | hk
        · exact ⟨suffix_keys s1 (by rw [c1]; simp), suffix_keys (s2.trans s1) (by rw [c2]; simp)⟩
        · cases fuel with
          | zero => simp [e1, e2, TriIt.loop] at h
          | succ fuel =>
            subst c1 c2
            simp only [e1, e2, Option.bind_some, Option.map_some, TriIt.loop, TriIt.notEnd, TriIt.get, TriIt.incr, List.isEmpty_cons,
              Bool.not_false, Bool.and_true, if_true] at h
            have h' : ((TriIt.updateDiag ⟨((ofLex k0).1, a1) :: b1, ((ofLex k0).2, a2) :: b2, t, true⟩).bind (TriIt.loop fuel)).isSome := by
              obtain ⟨es, h⟩ := Option.isSome_iff_exists.1 h
              obtain ⟨it', h1, h2⟩ := Option.bind_eq_some_iff.1 h
              obtain ⟨es', h2, -⟩ := Option.map_eq_some_iff.1 h2
              rw [h1, Option.bind_some, h2]
              rfl
            have := ih fuel _ _ h' k hk
            exact ⟨suffix_keys s1 this.1, suffix_keys s1 this.2⟩

/-- **C75** The loop over stored pairs is defined exactly if each pair is of stored variables. -/
theorem C75_tri_defined [Zero R] {l : List (Call R)} {hg : HessGrad R} {rs : List (Ret R)} {s : Store R} {rs' : List (Ret R)}
    (h : (HessGrad.empty : HessGrad R).calls l = some (hg, rs)) (h' : (Store.empty : Store R).calls l = some (s, rs')) :
    (hg.triEntries true).isSome ↔ s.Complete := by
  have hst := Stores.calls l (Stores.empty (R := R))
  rw [h, h'] at hst
  constructor
  · intro hd
    refine hst.1.complete_iff.2 (tri_complete hg.trimap hg.fuel hg.diagmap hg.diagmap ?_)
    simpa [HessGrad.triEntries, TriIt.start] using hd
  · intro hc
    rw [triEntries_skip _ (hst.1.valid hc)]
    rfl

theorem hess_complete [Zero R] : ∀ (fuel : ℕ) (dm dM : SMap VId (Diag R)) (tri : SMap IdPair R), dM <:+ dm → dM ≠ [] →
    (dm.length ≠ dM.length → ∀ k ∈ (keys tri).head?, (ofLex k).1 ∈ keys dm ∧ (ofLex k).2 ∈ keys dm) →
    (HessIt.loop fuel ⟨dm, dM, tri, true⟩).isSome →
    ∀ k ∈ keys tri, (ofLex k).1 ∈ keys dm ∧ (ofLex k).2 ∈ keys dm := by
  intro fuel
  induction fuel with
  | zero => intro dm dM tri _ _ _ h; simp [HessIt.loop] at h
  | succ fuel ih =>
    intro dm dM tri hsuf hne hhead h
    obtain ⟨es, h⟩ := Option.isSome_iff_exists.1 h
    match dm, dM, hne, hsuf, hhead, h with
    | [], _ :: _, _, hsuf, _, _ => simp at hsuf
    | (i, d) :: dm, (j, e) :: dM, _, hsuf, hhead, h =>
      simp only [HessIt.loop, HessIt.notEnd, List.isEmpty_cons, Bool.not_false, Bool.and_true, if_true] at h
      obtain ⟨ent, -, h⟩ := Option.bind_eq_some_iff.1 h
      obtain ⟨it', h1, h2⟩ := Option.bind_eq_some_iff.1 h
      obtain ⟨es', h2, -⟩ := Option.map_eq_some_iff.1 h2
      have h2' : (HessIt.loop fuel it').isSome := by rw [h2]; rfl
      -- the part common to both cases
      have key : ∀ (D : SMap VId (Diag R)) (T : SMap IdPair R), D <:+ dm →
          (match T, D with
            | [], _ => some ({ diagmin := dm, diagmax := dm, tri := [], skip := true } : HessIt R)
            | _ :: _, [] => none
            | (k, h) :: t, (j, e) :: dM' =>
              if k < toLex (i, j) then none
              else if (ofLex k).1 > i then some { diagmin := dm, diagmax := dm, tri := (k, h) :: t, skip := true }
              else (seekDiag (ofLex k).2 ((j, e) :: dM')).map fun dM'' =>
                { diagmin := (i, d) :: dm, diagmax := dM'', tri := (k, h) :: t, skip := true }) = some it' →
          ∀ k ∈ keys T, (ofLex k).1 ∈ keys ((i, d) :: dm) ∧ (ofLex k).2 ∈ keys ((i, d) :: dm) := by
        intro D T hD hm
        match T, D, hD, hm with
        | [], _, _, _ => simp
        | _ :: _, [], _, hm => simp at hm
        | (k0, x) :: t, (j', e') :: D', hD, hm =>
          simp only at hm
          split_ifs at hm with g1 g2
          · cases hm
            have := ih dm dm ((k0, x) :: t) (List.suffix_refl _) (by rintro rfl; simp at hD) (fun h => absurd rfl h) h2'
            exact fun k hk => ⟨List.mem_cons_of_mem _ (this k hk).1, List.mem_cons_of_mem _ (this k hk).2⟩
          · obtain ⟨D'', e3, rfl⟩ := Option.map_eq_some_iff.1 hm
            obtain ⟨s3, d3, t3, rfl⟩ := seek_mem e3
            have hi : (ofLex k0).1 = i := by
              rcases Prod.Lex.le_iff.1 (not_lt.1 g1) with h | h
              · exact absurd h (by simpa using g2)
              · exact h.1.symm
            have hs : ((ofLex k0).2, d3) :: t3 <:+ dm := s3.trans hD
            exact ih ((i, d) :: dm) _ _ (hs.trans (List.suffix_cons _ _)) (by simp) (fun _ k hk => by
              simp only [keys_cons, List.head?_cons, Option.mem_def, Option.some.injEq] at hk
              subst hk
              exact ⟨by rw [hi]; simp, List.mem_cons_of_mem _ (suffix_keys hs (by simp))⟩) h2'
      simp only [HessIt.incr, if_true] at h1
      by_cases hl : ((i, d) :: dm).length = ((j, e) :: dM).length
      · have heq := hsuf.eq_of_length hl.symm
        rw [if_pos hl, Option.bind_some] at h1
        have : dM = dm := (List.cons_eq_cons.1 heq).2
        exact key dM tri (by rw [this]) h1
      · rw [if_neg hl] at h1
        have hs : (j, e) :: dM <:+ dm := by
          rcases List.suffix_cons_iff.1 hsuf with h | h
          · exact absurd (by rw [h]) hl
          · exact h
        match tri, hhead, h1 with
        | [], _, _ => simp
        | (k0, x) :: t, hhead, h1 =>
          rw [Option.bind_some] at h1
          intro k hk
          rcases List.mem_cons.1 hk with rfl | hk
          · exact hhead hl _ (by simp)
          · exact key _ t hs h1 k hk

/-- **C75** The loop over stored elements of the complete hessian is defined exactly if each pair is of stored variables, or if no variable is stored. -/
theorem C75_hess_defined [Zero R] {l : List (Call R)} {hg : HessGrad R} {rs : List (Ret R)} {s : Store R} {rs' : List (Ret R)}
    (h : (HessGrad.empty : HessGrad R).calls l = some (hg, rs)) (h' : (Store.empty : Store R).calls l = some (s, rs')) :
    (hg.hessEntries true).isSome ↔ s.Complete ∨ ∀ i, s.var i = none := by
  have hst := Stores.calls l (Stores.empty (R := R))
  rw [h, h'] at hst
  constructor
  · intro hd
    by_cases hn : hg.diagmap = []
    · exact Or.inr fun i => by rw [← hst.1.var, hn]; rfl
    · exact Or.inl (hst.1.complete_iff.2
        (hess_complete hg.fuel hg.diagmap hg.diagmap hg.trimap (List.suffix_refl _) hn (fun h => absurd rfl h) hd))
  · rintro (hc | hn)
    · rw [hessEntries_eq _ (hst.1.valid hc)]
      rfl
    · have : hg.diagmap = [] := by
        cases e : hg.diagmap with
        | nil => rfl
        | cons p t =>
          have := hst.1.var p.1
          rw [hn, e, find?_eq_none] at this
          exact absurd (by simp) this
      simp [HessGrad.hessEntries, HessIt.start, this, HessGrad.fuel, HessIt.loop, HessIt.notEnd]

/-- **C75** The comparison of an iterator with the end is what the loops need. -/
theorem C75_ne_end (a : TriIt R) (b : HessIt R) : a.ne .finish = a.notEnd ∧ b.ne .finish = b.notEnd := by
  constructor
  · rcases a with ⟨_ | _, _ | _, _, _⟩ <;> rfl
  · rcases b with ⟨_ | _, _ | _, _, _⟩ <;> rfl

/-- **C75** It does not tell positions apart: the first and the second pair of `exH`, (1, 2) and (1, 4), compare equal. -/
theorem C75_ne_false : ∃ a b : TriIt ℝ, TriIt.start exH.diagmap exH.trimap true = some a ∧ a.incr = some b ∧
    (∃ x y, a.get = some x ∧ b.get = some y ∧ (x.id1, x.id2) = (1, 2) ∧ (y.id1, y.id2) = (1, 4)) ∧ a.ne b = false := by
  refine ⟨⟨exH.diagmap, exH.diagmap.drop 1, exH.trimap, true⟩, ⟨exH.diagmap, exH.diagmap.drop 2, exH.trimap.drop 1, true⟩, ?_, ?_,
    ⟨_, _, rfl, rfl, rfl, rfl⟩, ?_⟩
  · simp [TriIt.start, TriIt.updateDiag, seekDiag, exH]
  · simp [TriIt.incr, TriIt.updateDiag, seekDiag, exH]
  · simp [TriIt.ne]

/-! ## Examples -/

/-- Write a variable, a pair of variables of which one is missing, look at them. -/
def exCalls : List (Call ℝ) :=
  [.diag exN 4 fun d => { d with grad := 2 }, .hhess exN 4 7 fun x => x + 5, .hhessGet exN 7 4, .triFind 7 4, .size, .triAt 4 9, .diagAt 7, .hhess exN 4 7 fun x => x * 2,
    .triGet 4 7]

example : ((HessGrad.empty : HessGrad ℝ).calls exCalls).map Prod.snd =
    some [.done, .done, .num 5, .ptr (some 5), .nat 1, .outOfRange, .outOfRange, .done, .num 10] := by
  rw [C75_calls]
  have h1 : s((7 : ℤ), 4) = s(4, 7) := Sym2.eq_swap
  have h2 : s((4 : ℤ), 9) ≠ s(4, 7) := by rw [ne_eq, Sym2.eq_iff]; omega
  have h3 : ∀ v, (({ var := fun i => if i = 4 then some v else none, pair := fun k => if k = s(4, 7) then some (5 : ℝ) else none } : Store ℝ)).size = 1 := by
    intro v
    rw [Store.size, Set.ncard_eq_one]
    exact ⟨4, by ext i; simp⟩
  simp [exCalls, Store.calls, Store.call, Store.setVar, Store.setPair, Store.empty, Store.orThrow, Store.missing, h1, h2, h3]
  norm_num

/-- the arguments of `tri_get` must be in order -/
example : (HessGrad.empty : HessGrad ℝ).calls [.diag exN 4 _root_.id, .triGet 7 4] = none := by
  have := C75_calls (R := ℝ) [.diag exN 4 _root_.id, .triGet 7 4]
  simpa [Store.calls, Store.call] using this

/-- **"This breaks assumptions"** (comment in hessgrad.hpp): a pair is written for a variable which does not exist. Then no loop over the second derivatives is defined; with the
variable it is. -/
example : ∃ hg hg' : HessGrad ℝ, ((HessGrad.empty : HessGrad ℝ).calls [.diag exN 4 _root_.id, .hhess exN 4 7 fun _ => 5]).map Prod.fst = some hg ∧
    hg.triEntries true = none ∧ hg.hessEntries true = none ∧
    ((HessGrad.empty : HessGrad ℝ).calls [.diag exN 4 _root_.id, .hhess exN 4 7 fun _ => 5, .diag exN 7 _root_.id]).map Prod.fst = some hg' ∧
    (hg'.triEntries true).isSome ∧ (hg'.hessEntries true).isSome := by
  have e : ∃ p, (HessGrad.empty : HessGrad ℝ).calls [.diag exN 4 _root_.id, .hhess exN 4 7 fun _ => 5] = some p := by
    simp [HessGrad.calls, HessGrad.call, HessGrad.modHhess, HessGrad.modTri]
  have e' : ∃ p, (HessGrad.empty : HessGrad ℝ).calls [.diag exN 4 _root_.id, .hhess exN 4 7 fun _ => 5, .diag exN 7 _root_.id] = some p := by
    simp [HessGrad.calls, HessGrad.call, HessGrad.modHhess, HessGrad.modTri]
  obtain ⟨⟨hg, rs⟩, e⟩ := e
  obtain ⟨⟨hg', rs'⟩, e'⟩ := e'
  obtain ⟨s, q, es⟩ : ∃ s q, (Store.empty : Store ℝ).calls [.diag exN 4 _root_.id, .hhess exN 4 7 fun _ => 5] = some (s, q) ∧ s.var 7 = none ∧
      s.pair s(4, 7) = some 5 ∧ s.var 4 ≠ none := by
    simp [Store.calls, Store.call, Store.setVar, Store.setPair, Store.empty]
  obtain ⟨s', q', es'⟩ : ∃ s q, (Store.empty : Store ℝ).calls [.diag exN 4 _root_.id, .hhess exN 4 7 fun _ => 5, .diag exN 7 _root_.id] = some (s, q) ∧ s.Complete := by
    simp only [Store.calls, Store.call, Store.setVar, Store.setPair, Store.empty, Option.bind_some, Option.map_some]
    refine ⟨_, _, rfl, fun i j h => ?_⟩
    simp only [ne_eq, ite_eq_right_iff, reduceCtorEq, not_forall, exists_prop, not_false_eq_true, and_true] at h
    rcases Sym2.eq_iff.1 h with ⟨rfl, rfl⟩ | ⟨rfl, rfl⟩ <;> simp
  have hn : ¬ s.Complete := fun hc => (hc 4 7 (by rw [es.2.2.1]; simp)).2 es.2.1
  refine ⟨hg, hg', by rw [e]; rfl, ?_, ?_, by rw [e']; rfl, (C75_tri_defined e' es'.1).2 es'.2, (C75_hess_defined e' es'.1).2 (Or.inl es'.2)⟩
  · have := mt (C75_tri_defined e es.1).1 hn
    simpa using this
  · have := mt (C75_hess_defined e es.1).1 (by rintro (h | h); exacts [hn h, es.2.2.2 (h 4)])
    simpa using this

/-- the end of the loop over the pairs of `exH`, and its begin -/
example : ∃ a : TriIt ℝ, TriIt.start exH.diagmap exH.trimap true = some a ∧ a.ne .finish = true := by
  obtain ⟨a, -, h, -, ⟨x, -, hx, -⟩, -⟩ := C75_ne_false
  refine ⟨a, h, (C75_ne_end a ⟨[], [], [], true⟩).1.trans ?_⟩
  unfold TriIt.get at hx
  unfold TriIt.notEnd
  split at hx <;> simp_all

end Unc.Props
