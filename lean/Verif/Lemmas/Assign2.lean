import Verif.Model.BinaryAssign2
import Verif.Lemmas.UReal2Ops

/-! # Iteration over a map which changes: `KeyIt` follows `HessIt` -/

namespace Unc
open SMap HessGrad
variable {R : Type*}

theorem head_filter_of_mem {K V : Type*} [LinearOrder K] {m : SMap K V} (hm : Sorted m) {p : K → Bool} {l : List K}
    (hl : l.Pairwise (· < ·)) (h : ∀ a, p a = true → (a ∈ keys m ↔ a ∈ l)) (hp : ∀ a ∈ l, p a = true) :
    (keys m).filter p = l := by
  have hs : ((keys m).filter p).Pairwise (· < ·) := List.Pairwise.filter _ hm
  refine List.Perm.eq_of_pairwise (le := (· < ·)) (fun a b _ _ h1 h2 => absurd (h1.trans h2) (lt_irrefl _)) hs hl ?_
  refine (List.perm_ext_iff_of_nodup (hs.imp fun h => ne_of_lt h) (hl.imp fun h => ne_of_lt h)).2 fun a => ?_
  simp only [List.mem_filter]
  exact ⟨fun ⟨a1, a2⟩ => (h a a2).1 a1, fun ha => ⟨(h a (hp a ha)).2 ha, hp a ha⟩⟩

theorem nextKey_eq {K V W : Type*} [LinearOrder K] {m : SMap K V} (hm : Sorted m) {i : K} {d : W} {t : SMap K W}
    (hs : Sorted ((i, d) :: t)) (h : ∀ a, i ≤ a → (a ∈ keys m ↔ a ∈ keys ((i, d) :: t))) :
    m.nextKey i = (keys t).head? := by
  have hs' := sorted_cons.1 hs
  unfold nextKey
  rw [head_filter_of_mem hm (l := keys t) hs'.2 (fun a ha => ?_) (fun a ha => by simpa using hs'.1 a ha)]
  have ha : i < a := by simpa using ha
  rw [h a ha.le]
  simp [ha.ne']

/-- The key iterator `kit` over the changed maps `hg` stands where the list iterator `lit` over the old maps does. -/
structure SimIt (hg : HessGrad R) (kit : KeyIt) (lit : HessIt R) : Prop where
  min : kit.diagmin = (keys lit.diagmin).head?
  max : kit.diagmax = (keys lit.diagmax).head?
  tri : kit.tri = (keys lit.tri).head?
  skip : kit.skip = lit.skip
  smin : Sorted lit.diagmin
  suff : lit.diagmax <:+ lit.diagmin
  stri : Sorted lit.tri
  val : ∀ k ∈ keys lit.tri, (ofLex k).1 < (ofLex k).2 ∧ (ofLex k).1 ∈ keys lit.diagmin ∧ (ofLex k).2 ∈ keys lit.diagmin
  both : lit.diagmin = [] ↔ lit.diagmax = []
  dmem : ∀ i ∈ (keys lit.diagmin).head?, ∀ a, i ≤ a → (a ∈ keys hg.diagmap ↔ a ∈ keys lit.diagmin)
  tmem : ∀ k ∈ (keys lit.tri).head?, ∀ q, k ≤ q → (q ∈ keys hg.trimap ↔ q ∈ keys lit.tri)
  pos : ∀ i ∈ (keys lit.diagmin).head?, ∀ j ∈ (keys lit.diagmax).head?, ∀ k ∈ (keys lit.tri).head?, toLex (i, j) ≤ k
  off : ∀ i ∈ (keys lit.diagmin).head?, ∀ j ∈ (keys lit.diagmax).head?, i ≠ j → ∃ k ∈ (keys lit.tri).head?,
    (ofLex k).1 = i ∧ (lit.skip = true → k = toLex (i, j))

theorem SimIt.start {hg : HessGrad R} (hv : hg.Valid) (skip : Bool) :
    SimIt hg (KeyIt.start hg skip) (HessIt.start hg.diagmap hg.trimap skip) := by
  refine ⟨rfl, rfl, rfl, rfl, hv.dsorted, List.suffix_refl _, hv.tsorted, fun k hk => hv.tri _ _ hk, Iff.rfl, fun _ _ _ _ => Iff.rfl,
    fun _ _ _ _ => Iff.rfl, ?_, fun i hi j hj hne => ?_⟩
  · intro i hi j hj k hk
    simp only [HessIt.start] at hi hj hk
    have hij : i = j := by rw [hi] at hj; exact Option.some_inj.1 hj
    subst hij
    have hk' : k ∈ keys hg.trimap := List.mem_of_head? hk
    obtain ⟨h1, h2, h3⟩ := hv.tri _ _ hk'
    have hle : i ≤ (ofLex k).1 := by
      obtain ⟨dm, tri⟩ := hg
      cases dm with
      | nil => simp at hi
      | cons p t =>
        simp only [keys_cons, List.head?_cons, Option.mem_def, Option.some.injEq] at hi
        subst hi
        rcases List.mem_cons.1 h2 with h | h
        · exact h.ge
        · exact ((sorted_cons.1 hv.dsorted).1 _ h).le
    rcases hle.lt_or_eq with h | h
    · exact Prod.Lex.le_iff.2 (Or.inl h)
    · exact Prod.Lex.le_iff.2 (Or.inr ⟨h, (show i = (ofLex k).1 from h) ▸ h1.le⟩)
  · simp only [HessIt.start] at hi hj
    rw [hi] at hj
    exact absurd (Option.some_inj.1 hj) hne

/-- Changes below the position do not matter. -/
theorem SimIt.mono {hg hg' : HessGrad R} {kit : KeyIt} {lit : HessIt R} (h : SimIt hg kit lit)
    (hd : ∀ i ∈ (keys lit.diagmin).head?, ∀ a, i ≤ a → (a ∈ keys hg'.diagmap ↔ a ∈ keys hg.diagmap))
    (ht : ∀ k ∈ (keys lit.tri).head?, ∀ q, k ≤ q → (q ∈ keys hg'.trimap ↔ q ∈ keys hg.trimap)) : SimIt hg' kit lit :=
  { h with
    dmem := fun i hi a ha => (hd i hi a ha).trans (h.dmem i hi a ha)
    tmem := fun k hk q hq => (ht k hk q hq).trans (h.tmem k hk q hq) }

theorem SimIt.incr {hg : HessGrad R} (hs : hg.Srt) {kit : KeyIt} {lit lit' : HessIt R} (h : SimIt hg kit lit)
    (hi : lit.incr = some lit') : ∃ kit', kit.incr hg = some kit' ∧ SimIt hg kit' lit' := by
  obtain ⟨kmin, kmax, ktri, kskip⟩ := kit
  obtain ⟨lmin, lmax, ltri, lskip⟩ := lit
  obtain ⟨h1, h2, h3, h4, smin, suff, stri, val, both, dmem, tmem, pos, off⟩ := h
  simp only at h1 h2 h3 h4 smin suff stri val both dmem tmem pos off
  subst h1 h2 h3 h4
  cases lmin with
  | nil => simp [HessIt.incr] at hi
  | cons p dm =>
  obtain ⟨i, d⟩ := p
  cases lmax with
  | nil => simp [HessIt.incr] at hi
  | cons p dM =>
  obtain ⟨j, e⟩ := p
  simp only [keys_cons, List.head?_cons, Option.mem_def, Option.some.injEq, forall_eq'] at *
  have hs' := sorted_cons.1 smin
  have hnext : hg.diagmap.nextKey i = (keys dm).head? := nextKey_eq hs.1 smin dmem
  -- the rest of the rows
  have row : ∀ tri : SMap IdPair R, Sorted tri → (∀ k ∈ keys tri, i < (ofLex k).1) →
      (∀ k ∈ keys tri, (ofLex k).1 < (ofLex k).2 ∧ (ofLex k).1 ∈ keys ((i, d) :: dm) ∧ (ofLex k).2 ∈ keys ((i, d) :: dm)) →
      (∀ k ∈ (keys tri).head?, ∀ q, k ≤ q → (q ∈ keys hg.trimap ↔ q ∈ keys tri)) →
      SimIt hg ⟨(keys dm).head?, (keys dm).head?, (keys tri).head?, kskip⟩ ⟨dm, dm, tri, kskip⟩ := by
    intro tri st hgt hval ht
    have hval' : ∀ k ∈ keys tri, (ofLex k).1 < (ofLex k).2 ∧ (ofLex k).1 ∈ keys dm ∧ (ofLex k).2 ∈ keys dm := by
      intro k hk
      obtain ⟨a, b, c⟩ := hval k hk
      have := hgt k hk
      refine ⟨a, ?_, ?_⟩
      · rcases List.mem_cons.1 b with h | h
        · exact absurd h this.ne'
        · exact h
      · rcases List.mem_cons.1 c with h | h
        · exact absurd h (this.trans a).ne'
        · exact h
    refine ⟨rfl, rfl, rfl, rfl, hs'.2, List.suffix_refl _, st, hval', Iff.rfl, ?_, ht, ?_, ?_⟩
    · intro i' hi' a ha
      have hi'' : i < i' := hs'.1 _ (List.mem_of_head? hi')
      rw [dmem a (hi''.le.trans ha)]
      simp [(hi''.trans_le ha).ne']
    · intro i' hi' j' hj' k hk
      simp only at hi' hj' hk
      have hij : i' = j' := by rw [hi'] at hj'; exact Option.some_inj.1 hj'
      subst hij
      obtain ⟨a, b, c⟩ := hval' k (List.mem_of_head? hk)
      have hle : i' ≤ (ofLex k).1 := by
        cases dm with
        | nil => simp at hi'
        | cons p t =>
          simp only [keys_cons, List.head?_cons, Option.some.injEq, Option.mem_def] at hi'
          subst hi'
          rcases List.mem_cons.1 b with h | h
          · exact h.ge
          · exact ((sorted_cons.1 hs'.2).1 _ h).le
      rcases hle.lt_or_eq with h | h
      · exact Prod.Lex.le_iff.2 (Or.inl h)
      · exact Prod.Lex.le_iff.2 (Or.inr ⟨h, by show i' ≤ (ofLex k).2; omega⟩)
    · intro i' hi' j' hj' hne
      simp only at hi' hj'
      rw [hi'] at hj'
      exact absurd (Option.some_inj.1 hj') hne
  -- stay in the row, at the column found
  have stay : ∀ (tri : SMap IdPair R) (k : IdPair) (hk : R) (c : SMap VId (Diag R)) (j' : VId) (e' : Diag R), tri.Sorted →
      (tri.head? = some (k, hk)) → c = (j', e') :: c.tail → c <:+ (i, d) :: dm → (ofLex k).1 = i → toLex (i, j') ≤ k →
      (kskip = true → k = toLex (i, j')) →
      (∀ k ∈ keys tri, (ofLex k).1 < (ofLex k).2 ∧ (ofLex k).1 ∈ keys ((i, d) :: dm) ∧ (ofLex k).2 ∈ keys ((i, d) :: dm)) →
      (∀ k ∈ (keys tri).head?, ∀ q, k ≤ q → (q ∈ keys hg.trimap ↔ q ∈ keys tri)) →
      SimIt hg ⟨some i, some j', some k, kskip⟩ ⟨(i, d) :: dm, c, tri, kskip⟩ := by
    intro tri k hk c j' e' st hh hc hsuf hki hle hsk hval ht
    have hkh : (keys tri).head? = some k := by
      cases tri with
      | nil => simp at hh
      | cons p t => simp only [List.head?_cons, Option.some.injEq] at hh; subst hh; rfl
    have hch : (keys c).head? = some j' := by rw [hc]; rfl
    refine ⟨rfl, hch.symm, hkh.symm, rfl, smin, hsuf, st, hval, ?_, ?_, ht, ?_, ?_⟩
    · constructor
      · intro h; simp at h
      · intro h; rw [hc] at h; simp at h
    · intro i' hi' a ha
      simp only [keys_cons, List.head?_cons, Option.mem_def, Option.some.injEq] at hi'
      subst hi'
      exact dmem a ha
    · intro i' hi' j'' hj'' k' hk'
      simp only [keys_cons, List.head?_cons, Option.mem_def, Option.some.injEq] at hi' hj'' hk'
      rw [hch, Option.some_inj] at hj''
      rw [hkh, Option.some_inj] at hk'
      subst hi' hj'' hk'
      exact hle
    · intro i' hi' j'' hj'' hne
      simp only [keys_cons, List.head?_cons, Option.mem_def, Option.some.injEq] at hi' hj''
      rw [hch, Option.some_inj] at hj''
      subst hi' hj''
      exact ⟨k, hkh, hki, hsk⟩
  -- the seek of the column
  have seek : ∀ (c : SMap VId (Diag R)) (j' : VId) (e' : Diag R), c = (j', e') :: c.tail → c <:+ (i, d) :: dm → ∀ k2 c'',
      j' ≤ k2 → seekDiag k2 c = some c'' → KeyIt.seek hg j' k2 = some k2 ∧ (∃ e2, c'' = (k2, e2) :: c''.tail) ∧ c'' <:+ (i, d) :: dm := by
    intro c j' e' hc hsuf k2 c'' hle hsk
    have key : ∀ c : SMap VId (Diag R), seekDiag k2 c = some c'' → (∃ e2, c'' = (k2, e2) :: c''.tail) ∧ c'' <:+ c := by
      intro c
      induction c with
      | nil => intro h; simp [seekDiag] at h
      | cons p t ih =>
        intro h
        simp only [seekDiag] at h
        split_ifs at h with h1 h2
        · obtain ⟨a, b⟩ := ih h
          exact ⟨a, b.trans (List.suffix_cons _ _)⟩
        · simp only [Option.some.injEq] at h
          subst h
          exact ⟨⟨p.2, by simp [← h2]⟩, List.suffix_refl _⟩
    obtain ⟨⟨e2, a⟩, b⟩ := key c hsk
    refine ⟨?_, ⟨e2, a⟩, b.trans hsuf⟩
    have hj' : i ≤ j' := by
      have : j' ∈ keys ((i, d) :: dm) := by
        have : (j', e') ∈ (i, d) :: dm := hsuf.subset (by rw [hc]; simp)
        exact List.mem_map.2 ⟨_, this, rfl⟩
      rcases List.mem_cons.1 this with h | h
      · exact h.ge
      · exact (hs'.1 _ h).le
    have hmem : k2 ∈ keys hg.diagmap := by
      have : (k2, e2) ∈ (i, d) :: dm := (b.trans hsuf).subset (by rw [a]; simp)
      have : k2 ∈ keys ((i, d) :: dm) := List.mem_map.2 ⟨_, this, rfl⟩
      exact (dmem k2 (hj'.trans hle)).2 this
    have hf : ∀ l : List VId, l.Pairwise (· < ·) → k2 ∈ l →
        (match l.filter fun i => decide (j' ≤ i ∧ k2 ≤ i) with | [] => none | i :: _ => if i = k2 then some i else none) = some k2 := by
      intro l hl hm
      induction l with
      | nil => simp at hm
      | cons a l ih =>
        rw [List.pairwise_cons] at hl
        rcases List.mem_cons.1 hm with h | h
        · subst h; simp [List.filter_cons, hle]
        · have := hl.1 _ h
          simp only [List.filter_cons, show ¬ (j' ≤ a ∧ k2 ≤ a) by omega, decide_false, Bool.false_eq_true, if_false]
          exact ih hl.2 h
    exact hf _ hs.1 hmem
  have hjmem : j ∈ keys ((i, d) :: dm) := List.mem_map.2 ⟨(j, e), suff.subset (by simp), rfl⟩
  have hij : i ≤ j := by
    rcases List.mem_cons.1 hjmem with h | h
    · exact h.ge
    · exact (hs'.1 _ h).le
  have hlen : ((i, d) :: dm).length = ((j, e) :: dM).length ↔ i = j := by
    constructor
    · intro h
      have := suff.eq_of_length h.symm
      simp only [List.cons.injEq, Prod.mk.injEq] at this
      exact this.1.1.symm
    · intro h
      subst h
      obtain ⟨l, hl⟩ := suff
      cases l with
      | nil => rw [← hl]; rfl
      | cons q l =>
        simp only [List.cons_append, List.cons.injEq] at hl
        have : i ∈ keys dm := List.mem_map.2 ⟨(i, e), by rw [← hl.2]; simp, rfl⟩
        exact absurd (hs'.1 _ this) (lt_irrefl _)
  unfold HessIt.incr at hi
  unfold KeyIt.incr
  simp only [hlen] at hi
  simp only [hnext]
  by_cases hEq : i = j
  · subst hEq
    have hdM : (i, e) :: dM = (i, d) :: dm := suff.eq_of_length (hlen.2 rfl).symm
    simp only [List.cons.injEq, Prod.mk.injEq, true_and] at hdM
    obtain ⟨rfl, rfl⟩ := hdM
    simp only [if_true, Option.bind_some] at hi ⊢
    cases ltri with
    | nil =>
      simp only [Option.some.injEq] at hi
      subst hi
      simp only [keys_nil, List.head?_nil]
      exact ⟨_, rfl, row [] (by simp) (by simp) (by simp) (by simp)⟩
    | cons q t =>
      obtain ⟨k, hk⟩ := q
      cases dM with
      | nil => simp at hi
      | cons p' dM' =>
        obtain ⟨j', e'⟩ := p'
        simp only [keys_cons, List.head?_cons, hnext] at hi ⊢
        split_ifs at hi ⊢ with c1 c2 c3
        · simp only [Option.some.injEq] at hi
          subst hi
          refine ⟨_, rfl, row ((k, hk) :: t) stri ?_ val tmem⟩
          intro q hq
          rcases List.mem_cons.1 hq with h | h
          · subst h; exact c2
          · exact lt_of_lt_of_le c2 (lex_fst_le ((sorted_cons.1 stri).1 q h))
        · simp only [Option.map_eq_some_iff] at hi
          obtain ⟨c'', hsk, rfl⟩ := hi
          have hki : (ofLex k).1 = i := by
            have := (Prod.Lex.le_iff.1 (not_lt.1 c1)); simp only [ofLex_toLex] at this; omega
          have hle : j' ≤ (ofLex k).2 := by
            have := (Prod.Lex.le_iff.1 (not_lt.1 c1)); simp only [ofLex_toLex] at this; omega
          have hsuf : ((j', e') :: dM') <:+ (i, e) :: (j', e') :: dM' := List.suffix_cons _ _
          obtain ⟨s1, ⟨e2, s2⟩, s3⟩ := seek _ j' e' rfl hsuf _ _ hle hsk
          have hk2 : k = toLex (i, (ofLex k).2) := by rw [← hki]; rfl
          refine ⟨_, by rw [s1]; rfl, stay _ k hk c'' (ofLex k).2 e2 stri rfl s2 s3 hki (le_of_eq hk2.symm) (fun _ => hk2) val tmem⟩
        · simp only [Option.some.injEq] at hi
          subst hi
          have hki : (ofLex k).1 = i := by
            have := (Prod.Lex.le_iff.1 (not_lt.1 c1)); simp only [ofLex_toLex] at this; omega
          exact ⟨_, rfl, stay _ k hk _ j' e' stri rfl rfl (List.suffix_cons _ _) hki (not_lt.1 c1) (fun h => absurd h c3) val tmem⟩
  · simp only [hEq, if_false] at hi ⊢
    cases ltri with
    | nil => simp at hi
    | cons q t =>
      obtain ⟨k0, hk0⟩ := q
      have st' := sorted_cons.1 stri
      have hn : hg.trimap.nextKey k0 = (keys t).head? := nextKey_eq hs.2.1 stri (fun a ha => tmem k0 rfl a ha)
      have tm' : ∀ k ∈ (keys t).head?, ∀ q, k ≤ q → (q ∈ keys hg.trimap ↔ q ∈ keys t) := by
        intro k hk q hq
        have := st'.1 _ (List.mem_of_head? hk)
        rw [tmem k0 rfl q (this.le.trans hq)]
        simp [(this.trans_le hq).ne']
      have val' : ∀ k ∈ keys t, (ofLex k).1 < (ofLex k).2 ∧ (ofLex k).1 ∈ keys ((i, d) :: dm) ∧ (ofLex k).2 ∈ keys ((i, d) :: dm) :=
        fun k hk => val k (List.mem_cons_of_mem _ hk)
      simp only [keys_cons, List.head?_cons, Option.map_some, Option.bind_some, hn] at hi ⊢
      cases t with
      | nil =>
        simp only [Option.some.injEq] at hi
        subst hi
        simp only [keys_nil, List.head?_nil]
        exact ⟨_, rfl, row [] (by simp) (by simp) (by simp) (by simp)⟩
      | cons q t =>
        obtain ⟨k, hk⟩ := q
        simp only [keys_cons, List.head?_cons] at hi ⊢
        split_ifs at hi ⊢ with c1 c2 c3
        · simp only [Option.some.injEq] at hi
          subst hi
          refine ⟨_, rfl, row ((k, hk) :: t) st'.2 ?_ val' tm'⟩
          intro q hq
          rcases List.mem_cons.1 hq with h | h
          · subst h; exact c2
          · exact lt_of_lt_of_le c2 (lex_fst_le ((sorted_cons.1 st'.2).1 q h))
        · simp only [Option.map_eq_some_iff] at hi
          obtain ⟨c'', hsk, rfl⟩ := hi
          have hki : (ofLex k).1 = i := by
            have := (Prod.Lex.le_iff.1 (not_lt.1 c1)); simp only [ofLex_toLex] at this; omega
          have hle : j ≤ (ofLex k).2 := by
            have := (Prod.Lex.le_iff.1 (not_lt.1 c1)); simp only [ofLex_toLex] at this; omega
          obtain ⟨s1, ⟨e2, s2⟩, s3⟩ := seek _ j e rfl suff _ _ hle hsk
          have hk2 : k = toLex (i, (ofLex k).2) := by rw [← hki]; rfl
          refine ⟨_, by rw [s1]; rfl, stay _ k hk c'' (ofLex k).2 e2 st'.2 rfl s2 s3 hki (le_of_eq hk2.symm) (fun _ => hk2) val' tm'⟩
        · simp only [Option.some.injEq] at hi
          subst hi
          have hki : (ofLex k).1 = i := by
            have := (Prod.Lex.le_iff.1 (not_lt.1 c1)); simp only [ofLex_toLex] at this; omega
          exact ⟨_, rfl, stay _ k hk _ j e st'.2 rfl rfl suff hki (not_lt.1 c1) (fun h => absurd h c3) val' tm'⟩

/-- A change of a cell not after the position does not disturb the iterator. -/
theorem SimIt.mod [Zero R] (u : Moments R) {hg hg' : HessGrad R} (hs : hg.Srt) (hs' : hg'.Srt) {kit : KeyIt} {lit : HessIt R}
    (h : SimIt hg kit lit) {a b : VId} (hle : ∀ i ∈ (keys lit.diagmin).head?, ∀ j ∈ (keys lit.diagmax).head?,
      (toLex (a, b) : IdPair) ≤ toLex (i, j))
    (ho : ∀ a' b', (a', b') ≠ (a, b) → hg'.cell u a' b' = hg.cell u a' b') (hc : (hg'.cell u a b).isSome) : SimIt hg' kit lit := by
  refine h.mono (fun i hi q hq => ?_) (fun k hk q hq => ?_)
  · rw [mem_vars_iff_cell u, mem_vars_iff_cell u]
    by_cases hab : (q, q) = (a, b)
    · simp only [Prod.mk.injEq] at hab
      obtain ⟨rfl, rfl⟩ := hab
      simp only [hc, true_iff]
      have hne : lit.diagmax ≠ [] := fun h0 => by
        have := h.both.2 h0
        rw [this] at hi
        simp at hi
      obtain ⟨p, l, hl⟩ := List.exists_cons_of_ne_nil hne
      have := Prod.Lex.le_iff.1 (hle i hi p.1 (by simp [hl]))
      simp only [ofLex_toLex] at this
      have : q = i := by omega
      subst this
      rw [← mem_vars_iff_cell u]
      exact (h.dmem q hi q le_rfl).2 (List.mem_of_head? hi)
    · rw [ho q q hab]
  · obtain ⟨q1, q2⟩ := q
    change (toLex (q1, q2) : IdPair) ∈ _ ↔ (toLex (q1, q2) : IdPair) ∈ _
    have hqq : (ofLex (toLex (q1, q2)) : VId × VId) = (q1, q2) := rfl
    by_cases h12 : q1 = q2
    · constructor
      · intro hm; exact absurd h12 (hs'.2.2 _ hm).ne
      · intro hm; exact absurd h12 (hs.2.2 _ hm).ne
    rw [mem_tri_iff_cell u _ h12, mem_tri_iff_cell u _ h12]
    by_cases hab : (q1, q2) = (a, b)
    · simp only [Prod.mk.injEq] at hab
      obtain ⟨rfl, rfl⟩ := hab
      simp only [hc, true_iff]
      have hkm : k ∈ keys lit.tri := List.mem_of_head? hk
      obtain ⟨-, hm, -⟩ := h.val k hkm
      have hne : lit.diagmin ≠ [] := fun h0 => by rw [h0] at hm; simp at hm
      have hne' : lit.diagmax ≠ [] := fun h0 => hne (h.both.2 h0)
      obtain ⟨p, l, hl⟩ := List.exists_cons_of_ne_nil hne
      obtain ⟨p', l', hl'⟩ := List.exists_cons_of_ne_nil hne'
      have h1 := hle p.1 (by simp [hl]) p'.1 (by simp [hl'])
      have h2 := h.pos p.1 (by simp [hl]) p'.1 (by simp [hl']) k hk
      have h3 : k = (toLex (q1, q2) : IdPair) := le_antisymm hq (h1.trans h2)
      rw [← mem_tri_iff_cell u _ h12, ← h3]
      exact (h.tmem k hk k le_rfl).2 hkm
    · rw [ho q1 q2 hab]

/-- Where an iterator stands: the ids, and if its third iterator points to that pair. -/
def HessIt.here (it : HessIt R) : Option ((VId × VId) × Bool) :=
  (keys it.diagmin).head?.bind fun i => (keys it.diagmax).head?.map fun j =>
    ((i, j), decide ((keys it.tri).head? = some (toLex (i, j))))

/-- All positions of an iterator. -/
def HessIt.trace : ℕ → HessIt R → Option (List ((VId × VId) × Bool))
  | 0, _ => none
  | fuel + 1, it =>
    if it.notEnd then it.here.bind fun p => it.incr.bind fun it' => (trace fuel it').map fun l => p :: l
    else some []

theorem trace_of_loop [Zero R] : ∀ (n : ℕ) (it : HessIt R) (es : List (Ent R)), it.loop n = some es →
    ∃ l, it.trace n = some l ∧ l.map Prod.fst = es.map fun e => (e.id1, e.id2)
  | 0, _, _, h => by simp [HessIt.loop] at h
  | n + 1, it, es, h => by
    unfold HessIt.loop at h
    unfold HessIt.trace
    split at h
    · rename_i hne
      simp only [Option.bind_eq_some_iff, Option.map_eq_some_iff] at h
      obtain ⟨e, he, it', hi, es', h, rfl⟩ := h
      obtain ⟨l, hl, hm⟩ := trace_of_loop n it' es' h
      have hh : ∃ b, it.here = some ((e.id1, e.id2), b) := by
        unfold HessIt.get at he
        unfold HessIt.here
        split at he
        · rename_i i d t j e' t' h1 h2
          rw [h1, h2]
          simp only [keys_cons, List.head?_cons, Option.bind_some, Option.map_some]
          have : e.id1 = i ∧ e.id2 = j := by
            revert he
            split_ifs
            · rintro ⟨⟩; exact ⟨rfl, rfl⟩
            all_goals
              split
              · first
                  | (rintro ⟨⟩; exact ⟨rfl, rfl⟩)
                  | (intro he; simp at he)
              · rintro ⟨⟩; exact ⟨rfl, rfl⟩
          rw [this.1, this.2]
          exact ⟨_, rfl⟩
        · simp at he
      obtain ⟨b, hb⟩ := hh
      rw [if_pos hne, hb]
      refine ⟨((e.id1, e.id2), b) :: l, by simp only [Option.bind_some, hi, hl, Option.map_some], by simp [hm]⟩
    · rename_i hne
      simp only [Option.some.injEq] at h
      subst h
      rw [if_neg hne]
      exact ⟨[], rfl, rfl⟩

theorem dOf_grad [Zero R] (hg : HessGrad R) (i : VId) : (hg.dOf i).grad = hg.G i := by
  unfold dOf G
  cases find? hg.diagmap i <;> rfl

/-- What the iterator shows of the maps as they are now. -/
theorem SimIt.get [Zero R] (u : Moments R) {hg : HessGrad R} {kit : KeyIt} {lit : HessIt R} (h : SimIt hg kit lit)
    {i j : VId} {b : Bool} (hh : lit.here = some ((i, j), b)) :
    ∃ e, kit.get hg = some e ∧ kit.ids = (i, j) ∧ kit.notEnd = true ∧ e.d1.grad = hg.G i ∧ e.d2.grad = hg.G j ∧
      hg.momOf i = some e.d1.mom ∧ i ∈ keys hg.diagmap ∧ j ∈ keys hg.diagmap ∧ i ≤ j ∧
      e.val = if i = j ∨ b = true then ((hg.cell u i j).map Diag.hhess).getD 0 else 0 := by
  simp only [HessIt.here, Option.bind_eq_some_iff, Option.map_eq_some_iff, Prod.mk.injEq] at hh
  obtain ⟨i', hi, j', hj, ⟨rfl, rfl⟩, hb⟩ := hh
  have hdi := h.dmem i' hi
  have hmi : i' ∈ keys hg.diagmap := (hdi i' le_rfl).2 (List.mem_of_head? hi)
  have hjm : j' ∈ keys lit.diagmin := by
    have := List.mem_of_head? hj
    obtain ⟨p, hp, rfl⟩ := List.mem_map.1 this
    exact List.mem_map.2 ⟨p, h.suff.subset hp, rfl⟩
  have hij : i' ≤ j' := by
    have hs := h.smin
    revert hi hjm hs
    generalize lit.diagmin = l
    intro hi hjm hs
    cases l with
    | nil => simp at hi
    | cons p t =>
      simp only [keys_cons, List.head?_cons, Option.some.injEq] at hi
      subst hi
      rcases List.mem_cons.1 hjm with h | h
      · exact h.ge
      · exact ((sorted_cons.1 hs).1 _ h).le
  have hmj : j' ∈ keys hg.diagmap := (hdi j' hij).2 hjm
  have hk1 : kit.diagmin = some i' := h.min.trans hi
  have hk2 : kit.diagmax = some j' := h.max.trans hj
  have hids : kit.ids = (i', j') := by simp [KeyIt.ids, hk1, hk2]
  have hne : kit.notEnd = true := by simp [KeyIt.notEnd, hk1, hk2]
  have f1 := find_dOf hmi
  have f2 := find_dOf hmj
  have hmom : hg.momOf i' = some (hg.dOf i').mom := by rw [momOf, f1]; rfl
  simp only [KeyIt.get, hk1, hk2, f1, f2, Option.bind_some]
  by_cases hEq : i' = j'
  · subst hEq
    rw [if_pos rfl]
    exact ⟨_, rfl, hids, hne, dOf_grad _ _, dOf_grad _ _, hmom, hmi, hmi, le_rfl, by simp [cell, f1]⟩
  · rw [if_neg hEq]
    obtain ⟨k, hk, hki, hsk⟩ := h.off i' hi j' hj hEq
    have hkt : kit.tri = some k := h.tri.trans hk
    have hkm : k ∈ keys hg.trimap := (h.tmem k hk k le_rfl).2 (List.mem_of_head? hk)
    obtain ⟨v, hv⟩ := Option.isSome_iff_exists.1 (find?_isSome.2 hkm)
    rw [hkt]
    simp only [hv, Option.map_some]
    have hb' : b = decide (k = toLex (i', j')) := by rw [← hb, hk]; simp
    refine ⟨_, rfl, hids, hne, dOf_grad _ _, dOf_grad _ _, hmom, hmi, hmj, hij, ?_⟩
    simp only [hEq, false_or]
    by_cases hkk : k = toLex (i', j')
    · subst hkk
      simp [hb', cell, hEq, hv]
    · have : kit.skip = false := by
        rw [h.skip]
        by_contra hc
        exact hkk (hsk (by simpa using hc))
      simp [hb', hkk, this]

section
variable [Zero R] [One R] [Neg R] [Add R] [Sub R] [Mul R] [Div R] [NatCast R] [CCmp R]

/-- The cell `(i, j)` after the block for `x`, `gi` and `gj` being the gradients stored in `x` before it. -/
def cellAX (u : Moments R) (fx hxx gi gj : R) (i j : VId) (b : Bool) (o : Option (Diag R)) : Diag R :=
  let d := o.getD (newDiag u)
  let h1 := d.hhess + hxx * gi * gj
  { grad := if i = j then d.grad + fx * d.grad else d.grad
    hhess := h1 + fx * (if i = j ∨ b = true then h1 else 0)
    mom := d.mom }

/-- Only the cell `(i, j)` changes, to `d`. -/
def Only (u : Moments R) (hg hg' : HessGrad R) (i j : VId) (d : Diag R) : Prop :=
  hg'.Srt ∧ (∀ a b, (a, b) ≠ (i, j) → hg'.cell u a b = hg.cell u a b) ∧ hg'.cell u i j = some d

theorem Only.trans {u : Moments R} {h1 h2 h3 : HessGrad R} {i j : VId} {d d' : Diag R} (h : Only u h1 h2 i j d)
    (h' : Only u h2 h3 i j d') : Only u h1 h3 i j d' :=
  ⟨h'.1, fun a b hab => (h'.2.1 a b hab).trans (h.2.1 a b hab), h'.2.2⟩

theorem only_G {u : Moments R} {hg hg' : HessGrad R} {i j : VId} {d : Diag R} (h : Only u hg hg' i j d)
    (hd : d.grad = ((hg.cell u i j).getD (newDiag u)).grad) (a : VId) : hg'.G a = hg.G a := by
  rw [G_eq_cell u, G_eq_cell u]
  by_cases hab : (a, a) = (i, j)
  · simp only [Prod.mk.injEq] at hab
    obtain ⟨rfl, rfl⟩ := hab
    rw [h.2.2]
    simp only [Option.map_some, Option.getD_some, hd]
    cases hg.cell u a a <;> simp [newDiag]
  · rw [h.2.1 a a hab]

theorem assignX_spec (u : Moments R) (fx hxx : R) {hg : HessGrad R} (hs : hg.Srt) {kit : KeyIt} {lit : HessIt R}
    (h : SimIt hg kit lit) {i j : VId} {b : Bool} (hh : lit.here = some ((i, j), b)) :
    ∃ hg', UReal2.assignX u fx hxx kit hg = some hg' ∧
      Only u hg hg' i j (cellAX u fx hxx (hg.G i) (hg.G j) i j b (hg.cell u i j)) ∧ SimIt hg' kit lit := by
  obtain ⟨-, -, hids, hne, -, -, -, hmi, hmj, hij, -⟩ := h.get u hh
  have hpos : ∀ i' ∈ (keys lit.diagmin).head?, ∀ j' ∈ (keys lit.diagmax).head?, (toLex (i, j) : IdPair) ≤ toLex (i', j') := by
    intro i' hi' j' hj'
    simp only [HessIt.here, Option.bind_eq_some_iff, Option.map_eq_some_iff, Prod.mk.injEq] at hh
    obtain ⟨i'', hi, j'', hj, ⟨rfl, rfl⟩, -⟩ := hh
    rw [hi] at hi'
    rw [hj] at hj'
    obtain ⟨⟩ := hi'
    obtain ⟨⟩ := hj'
    exact le_rfl
  have step : ∀ (h0 : HessGrad R) (f : R → R), h0.Srt → SimIt h0 kit lit → ∃ h1, h0.modHhess u i j f = some h1 ∧
      Only u h0 h1 i j { (h0.cell u i j).getD (newDiag u) with hhess := f ((h0.cell u i j).getD (newDiag u)).hhess } ∧
      SimIt h1 kit lit := by
    intro h0 f s0 m0
    obtain ⟨h1, e1, s1, o1, c1⟩ := modHhess_spec u h0 s0 hij f
    exact ⟨h1, e1, ⟨s1, o1, c1⟩, m0.mod u s0 s1 hpos o1 (by rw [c1]; rfl)⟩
  obtain ⟨hA, eA, oA, mA⟩ := step hg (fun h => h) hs h
  obtain ⟨a, ga, -, -, a1, a2, -, -, -, -, -⟩ := mA.get u hh
  have cA : hA.cell u i j = some ((hg.cell u i j).getD (newDiag u)) := oA.2.2
  obtain ⟨hB, eB, oB, mB⟩ := step hA (fun h => h + hxx * a.d1.grad * a.d2.grad) oA.1 mA
  rw [cA, Option.getD_some, a1, a2, only_G oA rfl, only_G oA rfl] at oB
  obtain ⟨b', gb, -, -, -, -, -, -, -, -, b3⟩ := mB.get u hh
  rw [oB.2.2] at b3
  simp only [Option.map_some, Option.getD_some] at b3
  obtain ⟨hC, eC, oC, mC⟩ := step hB (fun h => h + fx * b'.val) oB.1 mB
  rw [oB.2.2, Option.getD_some, b3] at oC
  simp only at oC
  have oAC := (oA.trans oB).trans oC

  unfold UReal2.assignX
  simp only [hids, eA, Option.bind_some, ga, eB, gb, eC]
  by_cases hEq : i = j
  · subst hEq
    obtain ⟨c, gc, -, -, c1, -, c2, -, -, -, -⟩ := mC.get u hh
    simp only [if_true, gc, Option.map_some]
    obtain ⟨sD, oD, cD⟩ := modDiag_spec u hC oC.1 i fun d => { d with mom := c.d1.mom, grad := d.grad + fx * c.d1.grad }
    refine ⟨_, rfl, ⟨sD, fun a b hab => (oD a b hab).trans (oAC.2.1 a b hab), ?_⟩, mC.mod u oC.1 sD hpos oD (by rw [cD]; rfl)⟩
    rw [cD, oC.2.2]
    rw [momOf_eq_cell u, oC.2.2] at c2
    simp only [Option.map_some, Option.some.injEq] at c2
    have c1' : c.d1.grad = ((hg.cell u i i).getD (newDiag u)).grad := by
      rw [c1, G_eq_cell u, oC.2.2]; rfl
    simp only [Option.getD_some, c1', ← c2]
    simp [cellAX]
  · refine ⟨hC, by simp [hEq], ⟨oAC.1, oAC.2.1, ?_⟩, mC⟩
    rw [oAC.2.2]
    simp [cellAX, hEq]

/-- Cell left by the first part of the `y` block: not set to zero. -/
def cellAYNew (u : Moments R) (e : Ent R) (o : Option (Diag R)) : Diag R :=
  let d := o.getD (newDiag u)
  { d with mom := if e.id1 = e.id2 then e.d1.mom else d.mom }

theorem at_assignYNew (u : Moments R) {e : Ent R} (he : e.id1 ≤ e.id2) :
    At u (fun hg => UReal2.assignYNew u hg e) e.id1 e.id2 (cellAYNew u e) :=
  (at_mod u he (fun h => h) fun d => { d with mom := e.d1.mom }).congr fun o => by unfold cellAYNew; split_ifs <;> rfl

theorem at_assignY (u : Moments R) (fy hyy : R) {e : Ent R} (he : e.id1 ≤ e.id2) :
    At u (fun hg => UReal2.assignY u fy hyy hg e) e.id1 e.id2 (cellY u fy hyy e) := at_binaryY u fy hyy he

/-- Induction along the loop of `binary_assign`. -/
theorem assign_run (u : Moments R) (fx fy hxx hyy : R)
    (P : HessGrad R → List ((VId × VId) × Bool) → List (Ent R) → Prop)
    (hX : ∀ hg hg' i j b px ey, P hg (((i, j), b) :: px) ey → (∀ e ∈ ey.head?, toLex (i, j) < e.key) →
      Only u hg hg' i j (cellAX u fx hxx (hg.G i) (hg.G j) i j b (hg.cell u i j)) → P hg' px ey)
    (hY : ∀ hg hg' e px ey, P hg px (e :: ey) → (∀ p ∈ px.head?, e.key < toLex p.1) →
      Only u hg hg' e.id1 e.id2 (cellY u fy hyy e (some (cellAYNew u e (hg.cell u e.id1 e.id2)))) → P hg' px ey)
    (hXY : ∀ hg hg' e b px ey, P hg (((e.id1, e.id2), b) :: px) (e :: ey) →
      Only u hg hg' e.id1 e.id2 (cellY u fy hyy e
        (some (cellAX u fx hxx (hg.G e.id1) (hg.G e.id2) e.id1 e.id2 b (hg.cell u e.id1 e.id2)))) → P hg' px ey) :
    ∀ (fuel n : ℕ) (lit : HessIt R) (kit : KeyIt) (hg : HessGrad R) (px : List ((VId × VId) × Bool)) (ey : List (Ent R)),
      lit.trace n = some px → SimIt hg kit lit → hg.Srt → (∀ e ∈ ey, e.id1 ≤ e.id2) →
      (∀ e ∈ ey, e.key < toLex (maxId, maxId)) → (∀ p ∈ px, (toLex p.1 : IdPair) < toLex (maxId, maxId)) → P hg px ey →
      px.length + ey.length < fuel →
      ∃ z, UReal2.assignLoop u fx fy hxx hyy fuel hg kit ey = some z ∧ z.Srt ∧ P z [] []
  | 0, _, _, _, _, _, _, _, _, _, _, _, _, _, h => by simp at h
  | fuel + 1, n, lit, kit, hg, px, ey, htr, hsim, hs, hle, hey, hpx, hP, hf => by
    have ih := assign_run u fx fy hxx hyy P hX hY hXY fuel
    -- the position of `x`
    have hpos : (px = [] ∧ kit.notEnd = false) ∨ ∃ i j b px' lit' n', px = ((i, j), b) :: px' ∧ kit.notEnd = true ∧ kit.ids = (i, j) ∧
        lit.here = some ((i, j), b) ∧ lit.incr = some lit' ∧ lit'.trace n' = some px' := by
      cases n with
      | zero => simp [HessIt.trace] at htr
      | succ n =>
        unfold HessIt.trace at htr
        split_ifs at htr with hne
        · simp only [Option.bind_eq_some_iff, Option.map_eq_some_iff] at htr
          obtain ⟨⟨⟨i, j⟩, b⟩, hh, lit', hi, px', ht, rfl⟩ := htr
          obtain ⟨-, -, hids, hk, -⟩ := hsim.get u hh
          exact Or.inr ⟨i, j, b, px', lit', n, rfl, hk, hids, hh, hi, ht⟩
        · simp only [Option.some.injEq] at htr
          refine Or.inl ⟨htr.symm, ?_⟩
          simp only [HessIt.notEnd, Bool.and_eq_true, Bool.not_eq_true', List.isEmpty_eq_false_iff, ne_eq, not_and, not_not] at hne
          have : lit.diagmin = [] := by
            by_contra h0
            exact h0 (hsim.both.2 (hne h0))
          simp [KeyIt.notEnd, hsim.min, this]
    rcases hpos with ⟨rfl, hk⟩ | ⟨i, j, b, px', lit', n', rfl, hk, hids, hh, hinc, ht⟩
    · have hend : lit.diagmin = [] := by
        by_contra h0
        have h1 : lit.diagmax ≠ [] := fun h => h0 (hsim.both.2 h)
        obtain ⟨p, l, hl⟩ := List.exists_cons_of_ne_nil h0
        obtain ⟨p', l', hl'⟩ := List.exists_cons_of_ne_nil h1
        simp [KeyIt.notEnd, hsim.min, hsim.max, hl, hl'] at hk
      cases ey with
      | nil =>
        refine ⟨hg, ?_, hs, hP⟩
        simp [UReal2.assignLoop, hk]
      | cons e ty =>
        obtain ⟨h1, e1, s1, o1, c1⟩ := at_assignYNew u (hle e (by simp)) hg hs
        obtain ⟨h2, e2, s2, o2, c2⟩ := at_assignY u fy hyy (hle e (by simp)) h1 s1
        have o : Only u hg h2 e.id1 e.id2 _ := ⟨s2, fun a b hab => (o2 a b hab).trans (o1 a b hab), by rw [c2, c1]⟩
        have m2 : SimIt h2 kit lit := hsim.mod u hs s2 (fun i hi => by rw [hend] at hi; simp at hi) o.2.1 (by rw [o.2.2]; rfl)
        obtain ⟨z, ez, sz, pz⟩ := ih n lit kit h2 [] ty htr m2 s2 (fun e' he' => hle e' (by simp [he']))
          (fun e' he' => hey e' (by simp [he'])) (by simp) (hY hg h2 e [] ty hP (by simp) o) (by simp at hf ⊢; omega)
        refine ⟨z, ?_, sz, pz⟩
        simp only at e1 e2
        have hlt : (toLex (e.id1, e.id2) : IdPair) < toLex (maxId, maxId) := hey e (by simp)
        simp only [UReal2.assignLoop, hk, hlt, if_true, e1, e2, Option.bind_some, ez]
    · have hlt : (toLex (i, j) : IdPair) < toLex (maxId, maxId) := hpx ((i, j), b) (by simp)
      have hpx' : ∀ p ∈ px', (toLex p.1 : IdPair) < toLex (maxId, maxId) := fun p hp => hpx p (by simp [hp])
      have hpos : ∀ i' ∈ (keys lit.diagmin).head?, ∀ j' ∈ (keys lit.diagmax).head?, i' = i ∧ j' = j := by
        intro i' hi' j' hj'
        simp only [HessIt.here, Option.bind_eq_some_iff, Option.map_eq_some_iff, Prod.mk.injEq] at hh
        obtain ⟨i'', hi, j'', hj, ⟨rfl, rfl⟩, -⟩ := hh
        rw [hi] at hi'
        rw [hj] at hj'
        obtain ⟨⟩ := hi'
        obtain ⟨⟩ := hj'
        exact ⟨rfl, rfl⟩
      -- the step of `x`
      have stepX : (∀ e ∈ ey.head?, toLex (i, j) < e.key) → ∃ z, ((UReal2.assignX u fx hxx kit hg).bind fun hg =>
          (kit.incr hg).bind fun kit => UReal2.assignLoop u fx fy hxx hyy fuel hg kit ey) = some z ∧ z.Srt ∧ P z [] [] := by
        intro hh'
        obtain ⟨h1, e1, o1, m1⟩ := assignX_spec u fx hxx hs hsim hh
        obtain ⟨kit', ek, m2⟩ := m1.incr o1.1 hinc
        obtain ⟨z, ez, sz, pz⟩ := ih n' lit' kit' h1 px' ey ht m2 o1.1 hle hey hpx' (hX hg h1 i j b px' ey hP hh' o1)
          (by simp at hf ⊢; omega)
        exact ⟨z, by simp only [e1, ek, Option.bind_some, ez], sz, pz⟩
      cases ey with
      | nil =>
        obtain ⟨z, ez, sz, pz⟩ := stepX (by simp)
        refine ⟨z, ?_, sz, pz⟩
        simp only [UReal2.assignLoop, hk, hids, hlt, if_true]
        exact ez
      | cons e ty =>
        by_cases c1 : (toLex (i, j) : IdPair) < toLex (e.id1, e.id2)
        · obtain ⟨z, ez, sz, pz⟩ := stepX (by simpa [Ent.key] using c1)
          refine ⟨z, ?_, sz, pz⟩
          simp only [UReal2.assignLoop, hk, hids, c1, if_true]
          exact ez
        by_cases c2 : (toLex (e.id1, e.id2) : IdPair) < toLex (i, j)
        · obtain ⟨h1, e1, s1, o1, c1'⟩ := at_assignYNew u (hle e (by simp)) hg hs
          obtain ⟨h2, e2, s2, o2, c2'⟩ := at_assignY u fy hyy (hle e (by simp)) h1 s1
          have o : Only u hg h2 e.id1 e.id2 _ := ⟨s2, fun a b hab => (o2 a b hab).trans (o1 a b hab), by rw [c2', c1']⟩
          have m2 : SimIt h2 kit lit := hsim.mod u hs s2 (fun i' hi' j' hj' => by
            obtain ⟨rfl, rfl⟩ := hpos i' hi' j' hj'
            exact c2.le) o.2.1 (by rw [o.2.2]; rfl)
          obtain ⟨z, ez, sz, pz⟩ := ih n lit kit h2 (((i, j), b) :: px') ty htr m2 s2 (fun e' he' => hle e' (by simp [he']))
            (fun e' he' => hey e' (by simp [he'])) hpx (hY hg h2 e _ ty hP (by simpa [Ent.key] using c2) o) (by simp at hf ⊢; omega)
          refine ⟨z, ?_, sz, pz⟩
          simp only at e1 e2
          simp only [UReal2.assignLoop, hk, hids, c1, c2, if_true, if_false, e1, e2, Option.bind_some, ez]
        · have hEq : (toLex (i, j) : IdPair) = toLex (e.id1, e.id2) := le_antisymm (not_lt.1 c2) (not_lt.1 c1)
          obtain ⟨rfl, rfl⟩ := key_eq_iff.1 hEq
          obtain ⟨h1, e1, o1, m1⟩ := assignX_spec u fx hxx hs hsim hh
          obtain ⟨h2, e2, s2, o2, c2'⟩ := at_assignY u fy hyy (hle e (by simp)) h1 o1.1
          have o := o1.trans ⟨s2, o2, c2'⟩
          rw [o1.2.2] at o
          have m2 : SimIt h2 kit lit := m1.mod u o1.1 s2 (fun i' hi' j' hj' => by
            obtain ⟨rfl, rfl⟩ := hpos i' hi' j' hj'
            exact le_rfl) o2 (by rw [c2']; rfl)
          obtain ⟨kit', ek, m3⟩ := m2.incr s2 hinc
          obtain ⟨z, ez, sz, pz⟩ := ih n' lit' kit' h2 px' ty ht m3 s2 (fun e' he' => hle e' (by simp [he']))
            (fun e' he' => hey e' (by simp [he'])) hpx' (hXY hg h2 e b px' ty hP o) (by simp at hf ⊢; omega)
          refine ⟨z, ?_, sz, pz⟩
          simp only at e2
          simp only [UReal2.assignLoop, hk, hids, c1, if_false, e1, e2, ek, Option.bind_some, ez]

end

end Unc
