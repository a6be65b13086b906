import Verif.Lemmas.Assign2

/-! # The values left by the first loop of `binary_assign` -/

namespace Unc
open SMap HessGrad
variable {R : Type*}

theorem trace_flags [Zero R] {hg : HessGrad R} (hs : hg.Srt) : ∀ (n : ℕ) (lit : HessIt R) (kit : KeyIt) (px : List ((VId × VId) × Bool)),
    lit.trace n = some px → SimIt hg kit lit → ∀ i j b, ((i, j), b) ∈ px → i ≠ j → b = false →
      lit.skip = false ∧ ∃ c, i < j ∧ j < c ∧ i ∈ keys hg.diagmap ∧ j ∈ keys hg.diagmap ∧ c ∈ keys hg.diagmap
  | 0, _, _, _, h, _ => by simp [HessIt.trace] at h
  | n + 1, lit, kit, px, h, hsim => by
    unfold HessIt.trace at h
    split_ifs at h with hne
    · simp only [Option.bind_eq_some_iff, Option.map_eq_some_iff] at h
      obtain ⟨⟨⟨i, j⟩, b⟩, hh, lit', hi, px', ht, rfl⟩ := h
      obtain ⟨kit', -, hsim'⟩ := hsim.incr hs hi
      have hskip : lit'.skip = lit.skip := by
        unfold HessIt.incr at hi
        split at hi
        · simp at hi
        · simp at hi
        · simp only [Option.bind_eq_some_iff] at hi
          obtain ⟨st, -, hi⟩ := hi
          split at hi
          · simp only [Option.some.injEq] at hi; rw [← hi]
          · simp at hi
          · split_ifs at hi
            · simp only [Option.some.injEq] at hi; rw [← hi]
            · simp only [Option.map_eq_some_iff] at hi; obtain ⟨_, _, hi⟩ := hi; rw [← hi]
            · simp only [Option.some.injEq] at hi; rw [← hi]
      intro i' j' b' hm hij hb
      rcases List.mem_cons.1 hm with h0 | h0
      · simp only [Prod.mk.injEq] at h0
        obtain ⟨⟨rfl, rfl⟩, rfl⟩ := h0
        obtain ⟨-, -, -, -, -, -, -, mi, mj, hle, -⟩ := hsim.get ⟨0, 0, 0, 0, 0, 0⟩ hh
        simp only [HessIt.here, Option.bind_eq_some_iff, Option.map_eq_some_iff, Prod.mk.injEq] at hh
        obtain ⟨a, ha, c, hc, ⟨rfl, rfl⟩, hbd⟩ := hh
        obtain ⟨k, hk, hk1, hk2⟩ := hsim.off a ha c hc hij
        have hpos := hsim.pos a ha c hc k hk
        have hkne : k ≠ toLex (a, c) := by
          intro h0
          rw [hk, h0, hb] at hbd
          simp at hbd
        obtain ⟨v1, v2, v3⟩ := hsim.val k (List.mem_of_head? hk)
        refine ⟨?_, (ofLex k).2, lt_of_le_of_ne hle hij, ?_, mi, mj, (hsim.dmem a ha _ ?_).2 v3⟩
        · by_contra h0
          exact hkne (hk2 (by simpa using h0))
        · have := Prod.Lex.lt_iff.1 (lt_of_le_of_ne hpos (Ne.symm hkne))
          simp only [ofLex_toLex] at this
          omega
        · omega
      · have := trace_flags hs n lit' kit' px' ht hsim' i' j' b' h0 hij hb
        rw [hskip] at this
        exact this
    · simp only [Option.some.injEq] at h
      subst h
      simp

theorem loop_length' [Zero R] : ∀ (n : ℕ) (it : HessIt R) (es : List (Ent R)), it.loop n = some es → es.length < n
  | 0, _, _, h => by simp [HessIt.loop] at h
  | n + 1, it, es, h => by
    unfold HessIt.loop at h
    split at h
    · simp only [Option.bind_eq_some_iff, Option.map_eq_some_iff] at h
      obtain ⟨e, -, it', -, es', h, rfl⟩ := h
      simpa using loop_length' n it' es' h
    · simp only [Option.some.injEq] at h
      subst h
      simp

/-- The pairs of ids of a list of positions. -/
abbrev idsT (l : List ((VId × VId) × Bool)) : List (VId × VId) := l.map Prod.fst
/-- The pairs of ids of a list of entries. -/
abbrev idsE (l : List (Ent R)) : List (VId × VId) := l.map fun e => (e.id1, e.id2)

section
variable [Field R] [LinearOrder R] [IsStrictOrderedRing R]

/-- What is used of the lists of positions of the two iterators. -/
structure Lists (x y : HessGrad R) (T0 : List ((VId × VId) × Bool)) (Y0 : List (Ent R)) : Prop where
  memT : ∀ p ∈ T0, p.1.1 ≤ p.1.2 ∧ p.1.1 ∈ keys x.diagmap ∧ p.1.2 ∈ keys x.diagmap
  sortT : T0.Pairwise fun p p' => (toLex p.1 : IdPair) ≤ toLex p'.1
  diagT : ∀ a, a ∈ keys x.diagmap → (a, a) ∈ idsT T0
  oneT : ∀ a, (idsT T0).count (a, a) ≤ 1
  memY : ∀ e ∈ Y0, e.id1 ≤ e.id2 ∧ e.id1 ∈ keys y.diagmap ∧ e.id2 ∈ keys y.diagmap ∧ e.d1 = y.dOf e.id1 ∧ e.d2 = y.dOf e.id2
  sortY : Y0.Pairwise fun e e' => e.key ≤ e'.key
  diagY : ∀ a, a ∈ keys y.diagmap → (a, a) ∈ idsE Y0
  oneY : ∀ a, (idsE Y0).count (a, a) ≤ 1
  valY : ∀ e ∈ Y0, e.id1 = e.id2 → e.val = y.H e.id1 e.id2

/-- The pair is visited at most once, and rightly. -/
structure GoodP (y : HessGrad R) (T0 : List ((VId × VId) × Bool)) (Y0 : List (Ent R)) (p : VId × VId) : Prop where
  oneT : (idsT T0).count p ≤ 1
  oneY : (idsE Y0).count p ≤ 1
  flag : ∀ b, (p, b) ∈ T0 → p.1 ≠ p.2 → b = true
  val : ∀ e ∈ Y0, (e.id1, e.id2) = p → e.val = y.H p.1 p.2

theorem Lists.good_diag {x y : HessGrad R} {T0 : List ((VId × VId) × Bool)} {Y0 : List (Ent R)} (h : Lists x y T0 Y0) (a : VId) :
    GoodP y T0 Y0 (a, a) :=
  ⟨h.oneT a, h.oneY a, fun _ _ h => absurd rfl h, fun e he hp => by
    simp only [Prod.mk.injEq] at hp
    rw [h.valY e he (hp.1.trans hp.2.symm), hp.1, hp.2]⟩

/-- The gradient left by the loop. -/
def newG (x y : HessGrad R) (fx fy : R) (a : VId) : R := (1 + fx) * x.G a + fy * y.G a

/-- The half second derivative left by the first loop at a pair visited rightly. -/
def newH (u : Moments R) (x y : HessGrad R) (fx fy hxx hyy : R) (T0 : List ((VId × VId) × Bool)) (Y0 : List (Ent R)) (p : VId × VId) : R :=
  let h := ((x.cell u p.1 p.2).map Diag.hhess).getD 0
  (if p ∈ idsT T0 then (1 + fx) * (h + hxx * (if p.1 < p.2 then newG x y fx fy p.1 else x.G p.1) * x.G p.2) else h) +
    (if p ∈ idsE Y0 then hyy * y.G p.1 * y.G p.2 + fy * y.H p.1 p.2 else 0)

/-- The final content of a cell. -/
structure DoneP (u : Moments R) (x y : HessGrad R) (fx fy hxx hyy : R) (T0 : List ((VId × VId) × Bool)) (Y0 : List (Ent R))
    (p : VId × VId) (o : Option (Diag R)) : Prop where
  grad : p.1 = p.2 → (o.map Diag.grad).getD 0 = newG x y fx fy p.1
  hhess : (o.map Diag.hhess).getD 0 = newH u x y fx fy hxx hyy T0 Y0 p
  some : o.isSome ↔ (x.cell u p.1 p.2).isSome ∨ p ∈ idsT T0 ∨ p ∈ idsE Y0
  mom : p.1 = p.2 → o.map Diag.mom = ((x.momOf p.1).or (y.momOf p.1))

/-- The invariant of the loop: cells still to visit are untouched, the others are final. -/
structure InvA (u : Moments R) (x y : HessGrad R) (fx fy hxx hyy : R) (T0 : List ((VId × VId) × Bool)) (Y0 : List (Ent R))
    (hg : HessGrad R) (px : List ((VId × VId) × Bool)) (ey : List (Ent R)) : Prop where
  sufX : px <:+ T0
  sufY : ey <:+ Y0
  syncX : ∀ p, GoodP y T0 Y0 p → p ∈ idsE ey → p ∈ idsT T0 → p ∈ idsT px
  syncY : ∀ p, GoodP y T0 Y0 p → p ∈ idsT px → p ∈ idsE Y0 → p ∈ idsE ey
  todo : ∀ p, GoodP y T0 Y0 p → (p ∈ idsT px ∨ p ∈ idsE ey) → hg.cell u p.1 p.2 = x.cell u p.1 p.2
  done : ∀ p, GoodP y T0 Y0 p → p ∉ idsT px → p ∉ idsE ey → DoneP u x y fx fy hxx hyy T0 Y0 p (hg.cell u p.1 p.2)
  orig : ∀ p : VId × VId, (hg.cell u p.1 p.2).isSome → (x.cell u p.1 p.2).isSome ∨ p ∈ idsT T0 ∨ p ∈ idsE Y0

theorem not_mem_tail_of_count {α : Type*} [BEq α] [LawfulBEq α] {l l0 : List α} {a : α} (hs : (a :: l).Sublist l0) (hc : l0.count a ≤ 1) :
    a ∉ l := by
  intro hm
  have h1 := hs.count_le a
  have h2 : 0 < l.count a := List.count_pos_iff.2 hm
  simp at h1
  omega

variable {u : Moments R} {x y : HessGrad R} {fx fy hxx hyy : R} {T0 : List ((VId × VId) × Bool)} {Y0 : List (Ent R)}

theorem InvA.start (hx : x.Srt) (L : Lists x y T0 Y0) : InvA u x y fx fy hxx hyy T0 Y0 x T0 Y0 := by
  refine ⟨List.suffix_refl _, List.suffix_refl _, fun _ _ _ h => h, fun _ _ _ h => h, fun _ _ _ => rfl, fun p hp h1 h2 => ?_, fun _ h => Or.inl h⟩
  obtain ⟨a, b⟩ := p
  refine ⟨fun hab => ?_, ?_, by simp [h1, h2], fun hab => ?_⟩
  · simp only at hab
    subst hab
    have hxa : a ∉ keys x.diagmap := fun h => h1 (L.diagT a h)
    have hya : a ∉ keys y.diagmap := fun h => h2 (L.diagY a h)
    have : x.G a = 0 := by simp [G, find?_eq_none.2 hxa]
    have : y.G a = 0 := by simp [G, find?_eq_none.2 hya]
    simp only [newG, *, mul_zero, add_zero]
    rw [← G_eq_cell u]
    assumption
  · simp [newH, h1, h2]
  · simp only at hab
    subst hab
    have hya : a ∉ keys y.diagmap := fun h => h2 (L.diagY a h)
    simp only [← momOf_eq_cell u]
    simp [momOf, find?_eq_none.2 hya]

/-- Gradients stored in `x` when the loop is at the pair `(i, j)`. -/
theorem InvA.grads {hg : HessGrad R} {px : List ((VId × VId) × Bool)} {ey : List (Ent R)} {i j : VId} {b : Bool} (L : Lists x y T0 Y0)
    (h : InvA u x y fx fy hxx hyy T0 Y0 hg (((i, j), b) :: px) ey) (hey : ∀ e ∈ ey, toLex (i, j) ≤ e.key) :
    hg.G j = x.G j ∧ hg.G i = if i < j then newG x y fx fy i else x.G i := by
  have hmem : ((i, j), b) ∈ T0 := h.sufX.subset (by simp)
  obtain ⟨hij, hi, hj⟩ := L.memT _ hmem
  simp only at hij hi hj
  have hsort := L.sortT.sublist h.sufX.sublist
  rw [List.pairwise_cons] at hsort
  have hjj : hg.G j = x.G j := by
    rw [G_eq_cell u, G_eq_cell u, show hg.cell u j j = x.cell u j j from h.todo (j, j) (L.good_diag j) (Or.inl ?_)]
    rcases hij.lt_or_eq with hlt | heq
    · have hm := L.diagT j hj
      obtain ⟨l, hl⟩ := h.sufX
      rw [← hl] at hm
      simp only [List.map_append, List.mem_append] at hm
      rcases hm with hm | hm
      · exfalso
        obtain ⟨q, hq, hqe⟩ := List.mem_map.1 hm
        have hst := L.sortT
        rw [← hl, List.pairwise_append] at hst
        have := hst.2.2 q hq ((i, j), b) (by simp)
        rw [hqe] at this
        have := Prod.Lex.le_iff.1 this
        simp only [ofLex_toLex] at this
        omega
      · exact hm
    · subst heq; simp
  refine ⟨hjj, ?_⟩
  split_ifs with hlt
  · have hlt' : (toLex (i, i) : IdPair) < toLex (i, j) := Prod.Lex.lt_iff.2 (Or.inr ⟨rfl, hlt⟩)
    rw [G_eq_cell u]
    refine (h.done (i, i) (L.good_diag i) ?_ ?_).grad rfl
    · intro hm
      obtain ⟨q, hq, hqe⟩ := List.mem_map.1 hm
      rcases List.mem_cons.1 hq with h0 | h0
      · subst h0
        simp only [Prod.mk.injEq] at hqe
        omega
      · have := hsort.1 q h0
        rw [hqe] at this
        exact absurd (this.trans_lt hlt') (lt_irrefl _)
    · intro hm
      obtain ⟨e, he, hee⟩ := List.mem_map.1 hm
      have := hey e he
      rw [Ent.key, hee] at this
      exact absurd (this.trans_lt hlt') (lt_irrefl _)
  · have : i = j := by omega
    subst this
    exact hjj

theorem cell_grad_off {hg : HessGrad R} {i j : VId} (hij : i ≠ j) : ((hg.cell u i j).getD (newDiag u)).grad = 0 := by
  simp only [cell, hij, if_false]
  cases find? hg.trimap (toLex (i, j)) <;> rfl

theorem getD_hhess (o : Option (Diag R)) : (o.getD (newDiag u)).hhess = (o.map Diag.hhess).getD 0 := by cases o <;> rfl
theorem getD_grad (o : Option (Diag R)) : (o.getD (newDiag u)).grad = (o.map Diag.grad).getD 0 := by cases o <;> rfl

theorem InvA.stepX {hg hg' : HessGrad R} {px : List ((VId × VId) × Bool)} {ey : List (Ent R)} {i j : VId} {b : Bool}
    (L : Lists x y T0 Y0) (h : InvA u x y fx fy hxx hyy T0 Y0 hg (((i, j), b) :: px) ey)
    (hlt : ∀ e ∈ ey.head?, toLex (i, j) < e.key)
    (ho : Only u hg hg' i j (cellAX u fx hxx (hg.G i) (hg.G j) i j b (hg.cell u i j))) :
    InvA u x y fx fy hxx hyy T0 Y0 hg' px ey := by
  have hmem : ((i, j), b) ∈ T0 := h.sufX.subset (by simp)
  obtain ⟨hij, hi, hj⟩ := L.memT _ hmem
  simp only at hij hi hj
  have hltA : ∀ e ∈ ey, toLex (i, j) < e.key := by
    cases ey with
    | nil => simp
    | cons e ty =>
      have hs := L.sortY.sublist h.sufY.sublist
      rw [List.pairwise_cons] at hs
      have h0 := hlt e (by simp)
      intro e' he'
      rcases List.mem_cons.1 he' with rfl | he'
      · exact h0
      · exact h0.trans_le (hs.1 e' he')
  have hqey : (i, j) ∉ idsE ey := by
    intro hm
    obtain ⟨e, he, hee⟩ := List.mem_map.1 hm
    have := hltA e he
    rw [Ent.key, hee] at this
    exact lt_irrefl _ this
  have hsub : (((i, j)) :: idsT px).Sublist (idsT T0) := h.sufX.sublist.map Prod.fst
  have hne : ∀ p : VId × VId, p ≠ (i, j) → (p ∈ idsT (((i, j), b) :: px) ↔ p ∈ idsT px) := by
    intro p hp; simp [hp]
  refine ⟨(List.suffix_cons _ _).trans h.sufX, h.sufY, ?_, ?_, ?_, ?_, fun p hp => ?_⟩
  · intro p gp h1 h2
    have hp : p ≠ (i, j) := fun h0 => hqey (h0 ▸ h1)
    exact (hne p hp).1 (h.syncX p gp h1 h2)
  · intro p gp h1 h2
    exact h.syncY p gp (by simp [idsT] at h1 ⊢; exact Or.inr h1) h2
  · intro p gp h1
    have hp : p ≠ (i, j) := by
      rintro rfl
      rcases h1 with h1 | h1
      · exact not_mem_tail_of_count hsub gp.oneT h1
      · exact hqey h1
    rw [ho.2.1 p.1 p.2 hp]
    exact h.todo p gp (h1.imp_left (hne p hp).2)
  · intro p gp h1 h2
    by_cases hp : p = (i, j)
    · subst hp
      obtain ⟨gj, gi⟩ := h.grads L fun e he => (hltA e he).le
      have hc : hg.cell u i j = x.cell u i j := h.todo (i, j) gp (Or.inl (by simp))
      have hnY : (i, j) ∉ idsE Y0 := fun h0 => h2 (h.syncY (i, j) gp (by simp) h0)
      have hT : (i, j) ∈ idsT T0 := List.mem_map.2 ⟨_, hmem, rfl⟩
      simp only
      rw [ho.2.2, hc, gj, gi]
      refine ⟨fun hab => ?_, ?_, by simp [hT], fun hab => ?_⟩
      · simp only at hab
        subst hab
        have hy0 : i ∉ keys y.diagmap := fun h => hnY (L.diagY i h)
        have : y.G i = 0 := by simp [G, find?_eq_none.2 hy0]
        simp only [cellAX, if_true, Option.map_some, Option.getD_some, newG, this, getD_grad, ← G_eq_cell u]
        ring
      · have hb : i = j ∨ b = true := by
          by_cases h0 : i = j
          · exact Or.inl h0
          · exact Or.inr (gp.flag b hmem h0)
        simp only [cellAX, hb, if_true, Option.map_some, Option.getD_some, newH, hT, hnY, if_false, getD_hhess]
        ring
      · simp only at hab
        subst hab
        obtain ⟨d, hd⟩ := Option.isSome_iff_exists.1 (find?_isSome.2 hi)
        simp [cellAX, cell, hd, momOf]
    · rw [ho.2.1 p.1 p.2 hp]
      exact h.done p gp (fun h0 => h1 ((hne p hp).1 h0)) h2
  · by_cases h0 : p = (i, j)
    · subst h0
      exact Or.inr (Or.inl (List.mem_map.2 ⟨_, hmem, rfl⟩))
    · rw [ho.2.1 p.1 p.2 h0] at hp
      exact h.orig p hp

theorem InvA.stepY {hg hg' : HessGrad R} {px : List ((VId × VId) × Bool)} {ey : List (Ent R)} {e : Ent R}
    (L : Lists x y T0 Y0) (h : InvA u x y fx fy hxx hyy T0 Y0 hg px (e :: ey))
    (hlt : ∀ p ∈ px.head?, e.key < toLex p.1)
    (ho : Only u hg hg' e.id1 e.id2 (cellY u fy hyy e (some (cellAYNew u e (hg.cell u e.id1 e.id2))))) :
    InvA u x y fx fy hxx hyy T0 Y0 hg' px ey := by
  have hmem : e ∈ Y0 := h.sufY.subset (by simp)
  obtain ⟨hij, hi, hj, hd1, hd2⟩ := L.memY _ hmem
  have hltA : ∀ p ∈ px, e.key < toLex p.1 := by
    cases px with
    | nil => simp
    | cons q tx =>
      have hs := L.sortT.sublist h.sufX.sublist
      rw [List.pairwise_cons] at hs
      have h0 := hlt q (by simp)
      intro e' he'
      rcases List.mem_cons.1 he' with rfl | he'
      · exact h0
      · exact h0.trans_le (hs.1 e' he')
  have hqpx : (e.id1, e.id2) ∉ idsT px := by
    intro hm
    obtain ⟨q, hq, hqe⟩ := List.mem_map.1 hm
    have := hltA q hq
    rw [Ent.key, hqe] at this
    exact lt_irrefl _ this
  have hsub : ((e.id1, e.id2) :: idsE ey).Sublist (idsE Y0) := h.sufY.sublist.map fun e : Ent R => (e.id1, e.id2)
  have hne : ∀ p : VId × VId, p ≠ (e.id1, e.id2) → (p ∈ idsE (e :: ey) ↔ p ∈ idsE ey) := by
    intro p hp; simp [hp]
  refine ⟨h.sufX, (List.suffix_cons _ _).trans h.sufY, ?_, ?_, ?_, ?_, fun p hp => ?_⟩
  · intro p gp h1 h2
    exact h.syncX p gp (by simp [idsE] at h1 ⊢; exact Or.inr h1) h2
  · intro p gp h1 h2
    have hp : p ≠ (e.id1, e.id2) := fun h0 => hqpx (h0 ▸ h1)
    exact (hne p hp).1 (h.syncY p gp h1 h2)
  · intro p gp h1
    have hp : p ≠ (e.id1, e.id2) := by
      rintro rfl
      rcases h1 with h1 | h1
      · exact hqpx h1
      · exact not_mem_tail_of_count hsub gp.oneY h1
    rw [ho.2.1 p.1 p.2 hp]
    exact h.todo p gp (h1.imp_right (hne p hp).2)
  · intro p gp h1 h2
    by_cases hp : p = (e.id1, e.id2)
    · subst hp
      have hc : hg.cell u e.id1 e.id2 = x.cell u e.id1 e.id2 := h.todo _ gp (Or.inr (by simp))
      have hnT : (e.id1, e.id2) ∉ idsT T0 := fun h0 => h1 (h.syncX _ gp (by simp) h0)
      have hY : (e.id1, e.id2) ∈ idsE Y0 := List.mem_map.2 ⟨_, hmem, rfl⟩
      simp only
      rw [ho.2.2, hc]
      refine ⟨fun hab => ?_, ?_, by simp [hY], fun hab => ?_⟩
      · simp only at hab
        have hx0 : e.id1 ∉ keys x.diagmap := fun h => hnT (by rw [← hab]; exact L.diagT _ h)
        have : x.G e.id1 = 0 := by simp [G, find?_eq_none.2 hx0]
        simp only [cellY, cellAYNew, hab, if_true, Option.map_some, Option.getD_some, newG, getD_grad, hd1, dOf_grad]
        rw [← hab, ← G_eq_cell u, this]
        ring
      · simp only [cellY, cellAYNew, Option.map_some, Option.getD_some, newH, hnT, hY, if_true, if_false, getD_hhess, hd1, hd2, dOf_grad,
          gp.val e hmem rfl]
        ring
      · simp only at hab
        have hx0 : e.id1 ∉ keys x.diagmap := fun h => hnT (by rw [← hab]; exact L.diagT _ h)
        obtain ⟨d, hd⟩ := Option.isSome_iff_exists.1 (find?_isSome.2 hi)
        simp [cellY, cellAYNew, hab, momOf]
        rw [← hab, hd1]
        simp [find?_eq_none.2 hx0, hd, dOf]
    · rw [ho.2.1 p.1 p.2 hp]
      exact h.done p gp h1 (fun h0 => h2 ((hne p hp).1 h0))
  · by_cases h0 : p = (e.id1, e.id2)
    · subst h0
      exact Or.inr (Or.inr (List.mem_map.2 ⟨_, hmem, rfl⟩))
    · rw [ho.2.1 p.1 p.2 h0] at hp
      exact h.orig p hp

theorem InvA.stepXY {hg hg' : HessGrad R} {px : List ((VId × VId) × Bool)} {ey : List (Ent R)} {e : Ent R} {b : Bool}
    (L : Lists x y T0 Y0) (h : InvA u x y fx fy hxx hyy T0 Y0 hg (((e.id1, e.id2), b) :: px) (e :: ey))
    (ho : Only u hg hg' e.id1 e.id2 (cellY u fy hyy e
      (some (cellAX u fx hxx (hg.G e.id1) (hg.G e.id2) e.id1 e.id2 b (hg.cell u e.id1 e.id2))))) :
    InvA u x y fx fy hxx hyy T0 Y0 hg' px ey := by
  have hmem : ((e.id1, e.id2), b) ∈ T0 := h.sufX.subset (by simp)
  obtain ⟨hij, hi, hj⟩ := L.memT _ hmem
  simp only at hij hi hj
  have hmem' : e ∈ Y0 := h.sufY.subset (by simp)
  obtain ⟨-, hi', hj', hd1, hd2⟩ := L.memY _ hmem'
  have hsub : ((e.id1, e.id2) :: idsT px).Sublist (idsT T0) := h.sufX.sublist.map Prod.fst
  have hsub' : ((e.id1, e.id2) :: idsE ey).Sublist (idsE Y0) := h.sufY.sublist.map fun e : Ent R => (e.id1, e.id2)
  have hne : ∀ p : VId × VId, p ≠ (e.id1, e.id2) → (p ∈ idsT (((e.id1, e.id2), b) :: px) ↔ p ∈ idsT px) := by
    intro p hp; simp [hp]
  have hne' : ∀ p : VId × VId, p ≠ (e.id1, e.id2) → (p ∈ idsE (e :: ey) ↔ p ∈ idsE ey) := by
    intro p hp; simp [hp]
  refine ⟨(List.suffix_cons _ _).trans h.sufX, (List.suffix_cons _ _).trans h.sufY, ?_, ?_, ?_, ?_, fun p hp => ?_⟩
  · intro p gp h1 h2
    have hp : p ≠ (e.id1, e.id2) := by
      rintro rfl
      exact not_mem_tail_of_count hsub' gp.oneY h1
    exact (hne p hp).1 (h.syncX p gp ((hne' p hp).2 h1) h2)
  · intro p gp h1 h2
    have hp : p ≠ (e.id1, e.id2) := by
      rintro rfl
      exact not_mem_tail_of_count hsub gp.oneT h1
    exact (hne' p hp).1 (h.syncY p gp ((hne p hp).2 h1) h2)
  · intro p gp h1
    have hp : p ≠ (e.id1, e.id2) := by
      rintro rfl
      rcases h1 with h1 | h1
      · exact not_mem_tail_of_count hsub gp.oneT h1
      · exact not_mem_tail_of_count hsub' gp.oneY h1
    rw [ho.2.1 p.1 p.2 hp]
    exact h.todo p gp (h1.imp (hne p hp).2 (hne' p hp).2)
  · intro p gp h1 h2
    by_cases hp : p = (e.id1, e.id2)
    · subst hp
      have hs := L.sortY.sublist h.sufY.sublist
      rw [List.pairwise_cons] at hs
      obtain ⟨gj, gi⟩ := h.grads L fun e' he' => by
        rcases List.mem_cons.1 he' with rfl | he'
        · exact le_rfl
        · exact hs.1 e' he'
      have hc : hg.cell u e.id1 e.id2 = x.cell u e.id1 e.id2 := h.todo _ gp (Or.inl (by simp))
      have hT : (e.id1, e.id2) ∈ idsT T0 := List.mem_map.2 ⟨_, hmem, rfl⟩
      have hY : (e.id1, e.id2) ∈ idsE Y0 := List.mem_map.2 ⟨_, hmem', rfl⟩
      simp only
      rw [ho.2.2, hc, gj, gi]
      refine ⟨fun hab => ?_, ?_, by simp [hY], fun hab => ?_⟩
      · simp only at hab
        simp only [cellY, cellAX, hab, if_true, Option.map_some, Option.getD_some, newG, getD_grad, hd1, dOf_grad]
        rw [← hab, ← G_eq_cell u]
        ring
      · have hb : e.id1 = e.id2 ∨ b = true := by
          by_cases h0 : e.id1 = e.id2
          · exact Or.inl h0
          · exact Or.inr (gp.flag b hmem h0)
        simp only [cellY, cellAX, hb, Option.map_some, Option.getD_some, newH, hT, hY, if_true, getD_hhess, hd1, hd2, dOf_grad,
          gp.val e hmem' rfl]
        ring
      · simp only at hab
        obtain ⟨d, hd⟩ := Option.isSome_iff_exists.1 (find?_isSome.2 hi)
        simp only [cellY, cellAX, Option.map_some, Option.getD_some, momOf]
        rw [← hab]
        simp [cell, hd]
    · rw [ho.2.1 p.1 p.2 hp]
      exact h.done p gp (fun h0 => h1 ((hne p hp).1 h0)) (fun h0 => h2 ((hne' p hp).1 h0))
  · by_cases h0 : p = (e.id1, e.id2)
    · subst h0
      exact Or.inr (Or.inl (List.mem_map.2 ⟨_, hmem, rfl⟩))
    · rw [ho.2.1 p.1 p.2 h0] at hp
      exact h.orig p hp

theorem count_idsE (es : List (Ent R)) (a b : VId) :
    (idsE es).count (a, b) = (es.filter fun e => decide (e.key = toLex (a, b))).length := by
  induction es with
  | nil => rfl
  | cons e t ih =>
    simp only [idsE, List.map_cons, List.count_cons, List.filter_cons, Ent.key, key_eq_iff, beq_iff_eq, Prod.mk.injEq, decide_eq_true_eq] at ih ⊢
    rw [ih]
    split_ifs <;> simp

/-- The first loop of `binary_assign`. -/
theorem assignLoop_spec (u : Moments R) (fx fy hxx hyy : R) {x y : HessGrad R} (hx : x.Valid) (hy : y.Valid) (bx : x.Below) (by' : y.Below)
    (sx sy : Bool) : ∃ X0 T0 Y0 z, x.hessEntries sx = some X0 ∧ y.hessEntries sy = some Y0 ∧ idsT T0 = idsE X0 ∧
      Lists x y T0 Y0 ∧ (∀ i j b, ((i, j), b) ∈ T0 → i ≠ j → b = false →
        sx = false ∧ ∃ c, i < j ∧ j < c ∧ i ∈ keys x.diagmap ∧ j ∈ keys x.diagmap ∧ c ∈ keys x.diagmap) ∧
      UReal2.assignLoop u fx fy hxx hyy ((x.fuel + y.fuel) * (x.fuel + y.fuel)) x (KeyIt.start x sx) Y0 = some z ∧ z.Srt ∧
      (∀ p : VId × VId, (z.cell u p.1 p.2).isSome → (x.cell u p.1 p.2).isSome ∨ p ∈ idsT T0 ∨ p ∈ idsE Y0) ∧
      ∀ p, GoodP y T0 Y0 p → DoneP u x y fx fy hxx hyy T0 Y0 p (z.cell u p.1 p.2) := by
  have ex := hessEntries_eq x hx sx
  have ey := hessEntries_eq y hy sy
  obtain ⟨fm, fs, fd⟩ := entries_facts hx sx
  obtain ⟨gm, gs, gd⟩ := entries_facts hy sy
  revert ex ey fm fs fd gm gs gd
  generalize hessSpec sx x.dOf x.diagmap x.trimap = X0
  generalize hessSpec sy y.dOf y.diagmap y.trimap = Y0
  intro ex ey fm fs fd gm gs gd
  obtain ⟨T0, hT, hids⟩ := trace_of_loop _ _ _ ex
  have hlen : T0.length = X0.length := by simpa using congrArg List.length hids
  have hlen' : X0.length < x.fuel := loop_length' _ _ _ ex
  have hlenY : Y0.length < y.fuel := loop_length' _ _ _ ey
  have memT : ∀ p ∈ T0, ∃ e ∈ X0, p.1 = (e.id1, e.id2) := by
    intro p hp
    have : p.1 ∈ idsT T0 := List.mem_map.2 ⟨p, hp, rfl⟩
    rw [show idsT T0 = idsE X0 from hids] at this
    obtain ⟨e, he, h⟩ := List.mem_map.1 this
    exact ⟨e, he, h.symm⟩
  have diag : ∀ {hg : HessGrad R} {es : List (Ent R)}, (∀ a, es.filter (fun e => decide (e.key = toLex (a, a))) =
      (match find? hg.diagmap a with | some d => [⟨a, a, d, d, d.hhess⟩] | none => [])) →
      (∀ a, a ∈ keys hg.diagmap → (a, a) ∈ idsE es) ∧ (∀ a, (idsE es).count (a, a) ≤ 1) ∧
      (∀ e ∈ es, e.id1 = e.id2 → e.val = hg.H e.id1 e.id2) := by
    intro hg es h
    refine ⟨fun a ha => ?_, fun a => ?_, fun e he h12 => ?_⟩
    · obtain ⟨d, hd⟩ := Option.isSome_iff_exists.1 (find?_isSome.2 ha)
      have := h a
      rw [hd] at this
      rw [← List.count_pos_iff, count_idsE, this]
      simp
    · rw [count_idsE, h a]
      cases find? hg.diagmap a <;> simp
    · have hm : e ∈ es.filter (fun e' => decide (e'.key = toLex (e.id1, e.id1))) :=
        List.mem_filter.2 ⟨he, by simp [Ent.key, ← h12]⟩
      rw [h e.id1] at hm
      cases hf : find? hg.diagmap e.id1 with
      | none => rw [hf] at hm; simp at hm
      | some d =>
        rw [hf] at hm
        simp only [List.mem_singleton] at hm
        rw [← h12, H, if_pos rfl, hf]
        rw [hm]
  obtain ⟨dT, oT, -⟩ := diag fd
  obtain ⟨dY, oY, vY⟩ := diag gd
  have L : Lists x y T0 Y0 := by
    refine ⟨fun p hp => ?_, ?_, fun a ha => ?_, fun a => ?_, gm, gs, dY, oY, vY⟩
    · obtain ⟨e, he, h⟩ := memT p hp
      rw [h]
      exact ⟨(fm e he).1, (fm e he).2.1, (fm e he).2.2.1⟩
    · have h1 : (idsE X0).Pairwise fun p p' => (toLex p : IdPair) ≤ toLex p' := by
        rw [List.pairwise_map]; exact fs
      rw [show idsE X0 = idsT T0 from hids.symm, List.pairwise_map] at h1
      exact h1
    · rw [show idsT T0 = idsE X0 from hids]; exact dT a ha
    · rw [show idsT T0 = idsE X0 from hids]; exact oT a
  have hmax : ∀ a b : VId, a < maxId → (toLex (a, b) : IdPair) < toLex (maxId, maxId) :=
    fun a b h => Prod.Lex.lt_iff.2 (Or.inl h)
  obtain ⟨z, ez, sz, iz⟩ := assign_run u fx fy hxx hyy (InvA u x y fx fy hxx hyy T0 Y0)
    (fun hg hg' i j b px ey h1 h2 h3 => h1.stepX L h2 h3) (fun hg hg' e px ey h1 h2 h3 => h1.stepY L h2 h3)
    (fun hg hg' e b px ey h1 h2 => h1.stepXY L h2) ((x.fuel + y.fuel) * (x.fuel + y.fuel)) _ _ (KeyIt.start x sx) x T0 Y0 hT
    (SimIt.start hx sx) hx.srt (fun e he => (gm e he).1) (fun e he => hmax _ _ (by' _ (gm e he).2.1))
    (fun p hp => hmax _ _ (bx _ (L.memT p hp).2.1)) (InvA.start hx.srt L)
    (by rw [hlen]; exact lt_of_lt_of_le (by omega) (Nat.le_mul_self _))
  exact ⟨X0, T0, Y0, z, ex, ey, hids, L, trace_flags hx.srt _ _ _ _ hT (SimIt.start hx sx), ez, sz, iz.orig, fun p gp => iz.done p gp (by simp) (by simp)⟩

/-- The half second derivative stored at an ordered pair. -/
def hAt (u : Moments R) (hg : HessGrad R) (a b : VId) : R := ((hg.cell u a b).map Diag.hhess).getD 0

theorem diagGet_grad (u : Moments R) (hg : HessGrad R) (i : VId) : (hg.diagGet u i).grad = hg.G i := by
  unfold diagGet G
  cases find? hg.diagmap i <;> rfl

/-- `z` has the gradients and moments of `hg`, and what is added to the second derivatives is `f`. -/
structure MixP (u : Moments R) (hg z : HessGrad R) (S : VId → VId → Prop) (f : VId → VId → R) : Prop where
  srt : z.Srt
  diag : ∀ a, (z.cell u a a).map (fun d => (d.grad, d.mom)) = (hg.cell u a a).map fun d => (d.grad, d.mom)
  hh : ∀ a b, hAt u z a b = hAt u hg a b + f a b
  some : ∀ a b, a ≠ b → (z.cell u a b).isSome → (hg.cell u a b).isSome ∨ S a b

theorem MixP.G {u : Moments R} {hg z : HessGrad R} {S : VId → VId → Prop} {f : VId → VId → R} (h : MixP u hg z S f) (a : VId) :
    z.G a = hg.G a := by
  rw [G_eq_cell u, G_eq_cell u]
  have := congrArg (fun o => (o.map Prod.fst).getD 0) (h.diag a)
  simpa [Option.map_map, Function.comp_def] using this

theorem MixP.keys {u : Moments R} {hg z : HessGrad R} {S : VId → VId → Prop} {f : VId → VId → R} (h : MixP u hg z S f) (a : VId) :
    a ∈ keys z.diagmap ↔ a ∈ keys hg.diagmap := by
  rw [mem_vars_iff_cell u, mem_vars_iff_cell u]
  have := congrArg Option.isSome (h.diag a)
  simpa using this

theorem MixP.trans {u : Moments R} {h1 h2 h3 : HessGrad R} {S S' S'' : VId → VId → Prop} {f f' f'' : VId → VId → R} (h : MixP u h1 h2 S f)
    (h' : MixP u h2 h3 S' f') (hS : ∀ a b, S a b ∨ S' a b → S'' a b) (hf : ∀ a b, f a b + f' a b = f'' a b) : MixP u h1 h3 S'' f'' :=
  ⟨h'.srt, fun a => (h'.diag a).trans (h.diag a), fun a b => by rw [h'.hh, h.hh, add_assoc, hf], fun a b hab hs => by
    rcases h'.some a b hab hs with h0 | h0
    · rcases h.some a b hab h0 with h0 | h0
      · exact Or.inl h0
      · exact Or.inr (hS a b (Or.inl h0))
    · exact Or.inr (hS a b (Or.inr h0))⟩

theorem assignMixedStep_spec (u : Moments R) (h : R) (y : HessGrad R) {hg : HessGrad R} (hs : hg.Srt) {i j : VId} (hij : i ≤ j)
    (hi : i ∈ keys hg.diagmap) :
    ∃ z, UReal2.assignMixedStep u h y hg i j = some z ∧ MixP u hg z (fun a b => a = i ∧ b = j)
      (fun a b => if a = i ∧ b = j then h * (hg.G a * y.G b + hg.G b * y.G a) else 0) := by
  unfold UReal2.assignMixedStep
  simp only [diagGet_grad]
  obtain ⟨z, ez, sz, oz, cz⟩ := modHhess_spec u hg hs hij fun t => t + h * (hg.G i * y.G j + hg.G j * y.G i)
  refine ⟨z, ez, sz, fun a => ?_, fun a b => ?_, fun a b hab hc => ?_⟩
  · by_cases ha : (a, a) = (i, j)
    · simp only [Prod.mk.injEq] at ha
      obtain ⟨rfl, rfl⟩ := ha
      obtain ⟨d, hd⟩ := Option.isSome_iff_exists.1 ((mem_vars_iff_cell u hg a).1 hi)
      rw [cz, hd]
      rfl
    · rw [oz a a ha]
  · unfold hAt
    by_cases ha : (a, b) = (i, j)
    · simp only [Prod.mk.injEq] at ha
      obtain ⟨rfl, rfl⟩ := ha
      rw [cz]
      simp [getD_hhess]
    · rw [oz a b ha]
      simp only [Prod.mk.injEq] at ha
      simp [ha]
  · by_cases ha : (a, b) = (i, j)
    · simp only [Prod.mk.injEq] at ha
      exact Or.inr ha
    · rw [oz a b ha] at hc
      exact Or.inl hc

theorem assignMixed_spec (u : Moments R) (h : R) (y : HessGrad R) : ∀ (l : List VId) (hg : HessGrad R), hg.Srt → l.Pairwise (· < ·) →
    (∀ i ∈ l, i ∈ keys hg.diagmap) → ∃ z, UReal2.assignMixed u h y l hg = some z ∧ MixP u hg z (fun a b => a ∈ l ∧ b ∈ l ∧ a ≤ b)
      (fun a b => if a ∈ l ∧ b ∈ l ∧ a ≤ b then h * (hg.G a * y.G b + hg.G b * y.G a) else 0) := by
  have inner : ∀ (i : VId) (l : List VId) (hg : HessGrad R), hg.Srt → l.Pairwise (· < ·) → (∀ j ∈ l, i ≤ j) → i ∈ keys hg.diagmap →
      ∃ z, l.foldlM (fun hg j => UReal2.assignMixedStep u h y hg i j) hg = some z ∧ MixP u hg z (fun a b => a = i ∧ b ∈ l)
        (fun a b => if a = i ∧ b ∈ l then h * (hg.G a * y.G b + hg.G b * y.G a) else 0) := by
    intro i l
    induction l with
    | nil => intro hg hs _ _ _; exact ⟨hg, rfl, hs, fun _ => rfl, fun _ _ => by simp, fun _ _ _ h => Or.inl h⟩
    | cons j l ih =>
      intro hg hs hl hle hi
      rw [List.pairwise_cons] at hl
      obtain ⟨z1, e1, m1⟩ := assignMixedStep_spec u h y hs (hle j (by simp)) hi
      obtain ⟨z2, e2, m2⟩ := ih z1 m1.srt hl.2 (fun j' hj' => hle j' (by simp [hj'])) ((m1.keys i).2 hi)
      refine ⟨z2, by simp [List.foldlM_cons, e1, e2], m1.trans m2 (fun a b h => ?_) (fun a b => ?_)⟩
      · rcases h with ⟨rfl, rfl⟩ | ⟨rfl, h⟩
        · simp
        · simp [h]
      · simp only [m1.G]
        by_cases ha : a = i
        · by_cases hb : b = j
          · subst hb
            have : b ∉ l := fun hm => absurd (hl.1 b hm) (lt_irrefl _)
            simp [ha, this]
          · simp [ha, hb]
        · simp [ha]
  intro l
  induction l with
  | nil => intro hg hs _ _; exact ⟨hg, rfl, hs, fun _ => rfl, fun _ _ => by simp, fun _ _ _ h => Or.inl h⟩
  | cons i t ih =>
    intro hg hs hl hm
    have hl' := List.pairwise_cons.1 hl
    obtain ⟨z1, e1, m1⟩ := inner i (i :: t) hg hs hl (fun j hj => by
      rcases List.mem_cons.1 hj with rfl | hj
      · exact le_rfl
      · exact (hl'.1 j hj).le) (hm i (by simp))
    obtain ⟨z2, e2, m2⟩ := ih z1 m1.srt hl'.2 (fun j hj => (m1.keys j).2 (hm j (by simp [hj])))
    refine ⟨z2, by simp only [UReal2.assignMixed, e1, Option.bind_some, e2], m1.trans m2 (fun a b h => ?_) (fun a b => ?_)⟩
    · rcases h with ⟨rfl, h⟩ | ⟨h1, h2, h3⟩
      · refine ⟨by simp, h, ?_⟩
        rcases List.mem_cons.1 h with rfl | h
        · exact le_rfl
        · exact (hl'.1 b h).le
      · exact ⟨by simp [h1], by simp [h2], h3⟩
    · simp only [m1.G]
      by_cases ha : a = i
      · subst ha
        have hat : a ∉ t := fun h => absurd (hl'.1 a h) (lt_irrefl _)
        by_cases hb : b ∈ a :: t
        · have : a ≤ b := by
            rcases List.mem_cons.1 hb with rfl | h
            · exact le_rfl
            · exact (hl'.1 b h).le
          simp [hat, hb, this]
        · simp [hat, hb]
      · by_cases hat : a ∈ t
        · by_cases hb : b = i
          · subst hb
            have := hl'.1 a hat
            have hbt : b ∉ t := fun h => absurd (hl'.1 b h) (lt_irrefl _)
            simp [ha, hbt, not_le.2 this]
          · simp [ha, hb]
        · simp [ha, hat]

end

end Unc
