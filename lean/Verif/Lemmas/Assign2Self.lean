import Verif.Model.BinaryAssign2Self
import Verif.Lemmas.Assign2Val

/-! # The loop of `binary_assign` with the same object as both arguments -/

namespace Unc
open SMap HessGrad
variable {R : Type*}

/-- Where the iterator stands when its remaining positions are `px`. -/
theorem trace_pos [Zero R] (u : Moments R) {hg : HessGrad R} {n : ℕ} {lit : HessIt R} {kit : KeyIt} {px : List ((VId × VId) × Bool)}
    (htr : lit.trace n = some px) (hsim : SimIt hg kit lit) :
    (px = [] ∧ kit.notEnd = false ∧ kit.ids = (maxId, maxId) ∧ lit.diagmin = []) ∨
    ∃ i j b px' lit' n', px = ((i, j), b) :: px' ∧ kit.notEnd = true ∧ kit.ids = (i, j) ∧
        lit.here = some ((i, j), b) ∧ lit.incr = some lit' ∧ lit'.trace n' = some px' := by
  cases n with
  | zero => simp [HessIt.trace] at htr
  | succ n =>
    unfold HessIt.trace at htr
    split_ifs at htr with hne
    · simp only [Option.bind_eq_some_iff, Option.map_eq_some_iff] at htr
      obtain ⟨⟨⟨i, j⟩, b⟩, hh, lit', hi, px', ht, rfl⟩ := htr
      obtain ⟨-, -, hids, hk, -⟩ := hsim.get u hh
      exact Or.inr ⟨i, j, b, px', lit', n, rfl, hk, hids, hh, hi, ht⟩
    · simp only [Option.some.injEq] at htr
      simp only [HessIt.notEnd, Bool.and_eq_true, Bool.not_eq_true', List.isEmpty_eq_false_iff, ne_eq, not_and, not_not] at hne
      have : lit.diagmin = [] := by
        by_contra h0
        exact h0 (hsim.both.2 (hne h0))
      exact Or.inl ⟨htr.symm, by simp [KeyIt.notEnd, hsim.min, this], by simp [KeyIt.ids, hsim.min, this], this⟩

theorem here_pos {lit : HessIt R} {i j : VId} {b : Bool} (hh : lit.here = some ((i, j), b)) :
    ∀ i' ∈ (keys lit.diagmin).head?, ∀ j' ∈ (keys lit.diagmax).head?, i' = i ∧ j' = j := by
  intro i' hi' j' hj'
  simp only [HessIt.here, Option.bind_eq_some_iff, Option.map_eq_some_iff, Prod.mk.injEq] at hh
  obtain ⟨i'', hi, j'', hj, ⟨rfl, rfl⟩, -⟩ := hh
  rw [hi] at hi'
  rw [hj] at hj'
  obtain ⟨⟩ := hi'
  obtain ⟨⟩ := hj'
  exact ⟨rfl, rfl⟩

section
variable [Field R] [LinearOrder R] [IsStrictOrderedRing R]

/-- The content left at a variable. -/
def selfDiag (fx fy hxx hyy : R) (d : Diag R) : Diag R :=
  { grad := (1 + fx) * (1 + fy) * d.grad
    hhess := (1 + fy) * ((1 + fx) * (d.hhess + hxx * d.grad * d.grad) + hyy * ((1 + fx) * d.grad) * ((1 + fx) * d.grad))
    mom := d.mom }

/-- What is used of the remaining positions of an iterator. -/
structure PosS (x : HessGrad R) (px : List ((VId × VId) × Bool)) : Prop where
  mem : ∀ p ∈ px, p.1.1 ≤ p.1.2 ∧ p.1.1 ∈ keys x.diagmap ∧ p.1.2 ∈ keys x.diagmap
  sort : px.Pairwise fun p p' => (toLex p.1 : IdPair) ≤ toLex p'.1
  one : ∀ a, (idsT px).count (a, a) ≤ 1
  below : ∀ p ∈ px, (toLex p.1 : IdPair) < toLex (maxId, maxId)

theorem PosS.tail {x : HessGrad R} {p : (VId × VId) × Bool} {px : List ((VId × VId) × Bool)} (h : PosS x (p :: px)) : PosS x px :=
  ⟨fun q hq => h.mem q (by simp [hq]), (List.pairwise_cons.1 h.sort).2,
    fun a => ((List.sublist_cons_self p px).map Prod.fst |>.count_le (a, a)).trans (h.one a), fun q hq => h.below q (by simp [hq])⟩

/-- the invariant of the loop -/
structure InvS (u : Moments R) (x : HessGrad R) (fx fy hxx hyy : R) (hg : HessGrad R) (px py : List ((VId × VId) × Bool)) : Prop where
  posX : PosS x px
  posY : PosS x py
  sync : ∀ a, (a, a) ∈ idsT px ↔ (a, a) ∈ idsT py
  todo : ∀ a, (a, a) ∈ idsT px → hg.cell u a a = x.cell u a a
  done : ∀ a, (a, a) ∉ idsT px → hg.cell u a a = (x.cell u a a).map (selfDiag fx fy hxx hyy)
  orig : ∀ a b, a ≠ b → (hg.cell u a b).isSome → a ∈ keys x.diagmap ∧ b ∈ keys x.diagmap

variable {u : Moments R} {x : HessGrad R} {fx fy hxx hyy : R}

theorem not_mem_of_lt {i j : VId} {py : List ((VId × VId) × Bool)} (hs : py.Pairwise fun p p' => (toLex p.1 : IdPair) ≤ toLex p'.1)
    (h : ∀ p ∈ py.head?, (toLex (i, j) : IdPair) < toLex p.1) : (i, j) ∉ idsT py := by
  intro hm
  cases py with
  | nil => simp at hm
  | cons p t =>
    have h0 := h p (by simp)
    obtain ⟨q, hq, he⟩ := List.mem_map.1 hm
    have : (toLex p.1 : IdPair) ≤ toLex q.1 := by
      rcases List.mem_cons.1 hq with rfl | hq
      · exact le_rfl
      · exact (List.pairwise_cons.1 hs).1 q hq
    rw [he] at this
    exact absurd (h0.trans_le this) (lt_irrefl _)

/-- a change of a pair of different variables -/
theorem InvS.off {hg hg' : HessGrad R} {px py px' py' : List ((VId × VId) × Bool)} (h : InvS u x fx fy hxx hyy hg px py) {i j : VId} (hij : i ≠ j)
    (hm : i ∈ keys x.diagmap ∧ j ∈ keys x.diagmap) (ho : ∀ a b, (a, b) ≠ (i, j) → hg'.cell u a b = hg.cell u a b)
    (hX : PosS x px') (hY : PosS x py') (eX : ∀ a, (a, a) ∈ idsT px' ↔ (a, a) ∈ idsT px) (eY : ∀ a, (a, a) ∈ idsT py' ↔ (a, a) ∈ idsT py) :
    InvS u x fx fy hxx hyy hg' px' py' := by
  have hd : ∀ a, hg'.cell u a a = hg.cell u a a := fun a => ho a a fun e => hij (by rw [Prod.mk.injEq] at e; exact e.1.symm.trans e.2)
  refine ⟨hX, hY, fun a => by rw [eX, eY, h.sync], fun a ha => by rw [hd]; exact h.todo a ((eX a).1 ha),
    fun a ha => by rw [hd]; exact h.done a fun h0 => ha ((eX a).2 h0), fun a b hab hc => ?_⟩
  by_cases h0 : (a, b) = (i, j)
  · rw [Prod.mk.injEq] at h0
    rw [h0.1, h0.2]; exact hm
  · rw [ho a b h0] at hc
    exact h.orig a b hab hc

theorem ids_tail {i j : VId} {b : Bool} {px : List ((VId × VId) × Bool)} (hij : i ≠ j) (a : VId) :
    (a, a) ∈ idsT px ↔ (a, a) ∈ idsT (((i, j), b) :: px) := by
  have : (a, a) ≠ (i, j) := fun e => hij (by rw [Prod.mk.injEq] at e; exact e.1.symm.trans e.2)
  simp [this]

/-- Induction along the loop of `binary_assign(x, x, …)`. -/
theorem self_run (P : HessGrad R → List ((VId × VId) × Bool) → List ((VId × VId) × Bool) → Prop)
    (hX : ∀ hg hg' i j b px py, P hg (((i, j), b) :: px) py → (∀ p ∈ py.head?, (toLex (i, j) : IdPair) < toLex p.1) →
      Only u hg hg' i j (cellAX u fx hxx (hg.G i) (hg.G j) i j b (hg.cell u i j)) → P hg' px py)
    (hY : ∀ hg hg' i j b px py, P hg px (((i, j), b) :: py) → (∀ p ∈ px.head?, (toLex (i, j) : IdPair) < toLex p.1) →
      Only u hg hg' i j (cellAX u fy hyy (hg.G i) (hg.G j) i j b (hg.cell u i j)) → P hg' px py)
    (hXY : ∀ hg h1 hg' i j b b' px py, P hg (((i, j), b) :: px) (((i, j), b') :: py) →
      Only u hg h1 i j (cellAX u fx hxx (hg.G i) (hg.G j) i j b (hg.cell u i j)) →
      Only u h1 hg' i j (cellAX u fy hyy (h1.G i) (h1.G j) i j b' (h1.cell u i j)) → P hg' px py) :
    ∀ (fuel n m : ℕ) (litx lity : HessIt R) (itx ity : KeyIt) (hg : HessGrad R) (px py : List ((VId × VId) × Bool)),
    litx.trace n = some px → lity.trace m = some py → SimIt hg itx litx → SimIt hg ity lity → hg.Srt →
    (∀ p ∈ px, (toLex p.1 : IdPair) < toLex (maxId, maxId)) → (∀ p ∈ py, (toLex p.1 : IdPair) < toLex (maxId, maxId)) → P hg px py →
    px.length + py.length < fuel →
    ∃ z, UReal2.assignSelfLoop u fx fy hxx hyy fuel hg itx ity = some z ∧ z.Srt ∧ P z [] []
  | 0, _, _, _, _, _, _, _, _, _, _, _, _, _, _, _, _, _, h => by simp at h
  | fuel + 1, n, m, litx, lity, itx, ity, hg, px, py, tx, ty, sx, sy, hs, bx, by', hI, hf => by
    have ih := self_run P hX hY hXY fuel
    rcases trace_pos u tx sx with ⟨rfl, kx, dx, ex⟩ | ⟨i, j, b, px', litx', n', rfl, kx, dx, hx1, ix, tx'⟩ <;>
      rcases trace_pos u ty sy with ⟨rfl, ky, dy, ey⟩ | ⟨i', j', b', py', lity', m', rfl, ky, dy, hy1, iy, ty'⟩
    · exact ⟨hg, by simp [UReal2.assignSelfLoop, kx, ky], hs, hI⟩
    · have hlt : (toLex (i', j') : IdPair) < toLex (maxId, maxId) := by' ((i', j'), b') (by simp)
      obtain ⟨h1, e1, o1, s1⟩ := assignX_spec u fy hyy hs sy hy1
      have s2 : SimIt h1 itx litx := sx.mod u hs o1.1 (a := i') (b := j') (fun q hq => by rw [ex] at hq; simp at hq) o1.2.1 (by rw [o1.2.2]; rfl)
      obtain ⟨ity', ek, s3⟩ := s1.incr o1.1 iy
      obtain ⟨z, ez, sz, pz⟩ := ih n m' litx lity' itx ity' h1 [] py' tx ty' s2 s3 o1.1 bx (fun p hp => by' p (by simp [hp]))
        (hY _ _ _ _ _ _ _ hI (by simp) o1) (by simp at hf ⊢; omega)
      exact ⟨z, by simp [UReal2.assignSelfLoop, ky, dx, dy, hlt.le, not_le.2 hlt, e1, ek, ez], sz, pz⟩
    · have hlt : (toLex (i, j) : IdPair) < toLex (maxId, maxId) := bx ((i, j), b) (by simp)
      obtain ⟨h1, e1, o1, s1⟩ := assignX_spec u fx hxx hs sx hx1
      have s2 : SimIt h1 ity lity := sy.mod u hs o1.1 (a := i) (b := j) (fun q hq => by rw [ey] at hq; simp at hq) o1.2.1 (by rw [o1.2.2]; rfl)
      obtain ⟨itx', ek, s3⟩ := s1.incr o1.1 ix
      obtain ⟨z, ez, sz, pz⟩ := ih n' m litx' lity itx' ity h1 px' [] tx' ty s3 s2 o1.1 (fun p hp => bx p (by simp [hp])) by'
        (hX _ _ _ _ _ _ _ hI (by simp) o1) (by simp at hf ⊢; omega)
      exact ⟨z, by simp [UReal2.assignSelfLoop, kx, dx, dy, hlt.le, not_le.2 hlt, e1, ek, ez], sz, pz⟩
    · rcases lt_trichotomy (toLex (i, j) : IdPair) (toLex (i', j')) with hlt | heq | hlt
      · obtain ⟨h1, e1, o1, s1⟩ := assignX_spec u fx hxx hs sx hx1
        have s2 : SimIt h1 ity lity := sy.mod u hs o1.1 (a := i) (b := j) (fun p hp q hq => by
          obtain ⟨rfl, rfl⟩ := here_pos hy1 p hp q hq
          exact hlt.le) o1.2.1 (by rw [o1.2.2]; rfl)
        obtain ⟨itx', ek, s3⟩ := s1.incr o1.1 ix
        obtain ⟨z, ez, sz, pz⟩ := ih n' m litx' lity itx' ity h1 px' _ tx' ty s3 s2 o1.1 (fun p hp => bx p (by simp [hp])) by'
          (hX _ _ _ _ _ _ _ hI (by simpa using hlt) o1) (by simp at hf ⊢; omega)
        exact ⟨z, by simp [UReal2.assignSelfLoop, kx, dx, dy, hlt.le, not_le.2 hlt, e1, ek, ez], sz, pz⟩
      · obtain ⟨rfl, rfl⟩ := key_eq_iff.1 heq
        obtain ⟨h1, e1, o1, s1⟩ := assignX_spec u fx hxx hs sx hx1
        have s2 : SimIt h1 ity lity := sy.mod u hs o1.1 (a := i) (b := j) (fun p hp q hq => by
          obtain ⟨rfl, rfl⟩ := here_pos hy1 p hp q hq
          exact le_rfl) o1.2.1 (by rw [o1.2.2]; rfl)
        obtain ⟨h2, e2, o2, s3⟩ := assignX_spec u fy hyy o1.1 s2 hy1
        have s4 : SimIt h2 itx litx := s1.mod u o1.1 o2.1 (a := i) (b := j) (fun p hp q hq => by
          obtain ⟨rfl, rfl⟩ := here_pos hx1 p hp q hq
          exact le_rfl) o2.2.1 (by rw [o2.2.2]; rfl)
        obtain ⟨itx', ekx, s5⟩ := s4.incr o2.1 ix
        obtain ⟨ity', eky, s6⟩ := s3.incr o2.1 iy
        obtain ⟨z, ez, sz, pz⟩ := ih n' m' litx' lity' itx' ity' h2 px' py' tx' ty' s5 s6 o2.1 (fun p hp => bx p (by simp [hp]))
          (fun p hp => by' p (by simp [hp])) (hXY _ _ _ _ _ _ _ _ _ hI o1 o2) (by simp at hf ⊢; omega)
        exact ⟨z, by simp [UReal2.assignSelfLoop, kx, dx, dy, e1, e2, ekx, eky, ez], sz, pz⟩
      · obtain ⟨h1, e1, o1, s1⟩ := assignX_spec u fy hyy hs sy hy1
        have s2 : SimIt h1 itx litx := sx.mod u hs o1.1 (a := i') (b := j') (fun p hp q hq => by
          obtain ⟨rfl, rfl⟩ := here_pos hx1 p hp q hq
          exact hlt.le) o1.2.1 (by rw [o1.2.2]; rfl)
        obtain ⟨ity', ek, s3⟩ := s1.incr o1.1 iy
        obtain ⟨z, ez, sz, pz⟩ := ih n m' litx lity' itx ity' h1 _ py' tx ty' s2 s3 o1.1 bx (fun p hp => by' p (by simp [hp]))
          (hY _ _ _ _ _ _ _ hI (by simpa using hlt) o1) (by simp at hf ⊢; omega)
        exact ⟨z, by simp [UReal2.assignSelfLoop, ky, dx, dy, hlt.le, not_le.2 hlt, e1, ek, ez], sz, pz⟩

theorem InvS.ne_X {hg : HessGrad R} {i j : VId} {b : Bool} {px py : List ((VId × VId) × Bool)} (h : InvS u x fx fy hxx hyy hg (((i, j), b) :: px) py)
    (hlt : ∀ p ∈ py.head?, (toLex (i, j) : IdPair) < toLex p.1) : i ≠ j := by
  rintro rfl
  exact not_mem_of_lt h.posY.sort hlt ((h.sync i).1 (by simp))

theorem InvS.ne_Y {hg : HessGrad R} {i j : VId} {b : Bool} {px py : List ((VId × VId) × Bool)} (h : InvS u x fx fy hxx hyy hg px (((i, j), b) :: py))
    (hlt : ∀ p ∈ px.head?, (toLex (i, j) : IdPair) < toLex p.1) : i ≠ j := by
  rintro rfl
  exact not_mem_of_lt h.posX.sort hlt ((h.sync i).2 (by simp))

theorem InvS.stepX {hg hg' : HessGrad R} {i j : VId} {b : Bool} {px py : List ((VId × VId) × Bool)} {d : Diag R}
    (h : InvS u x fx fy hxx hyy hg (((i, j), b) :: px) py) (hlt : ∀ p ∈ py.head?, (toLex (i, j) : IdPair) < toLex p.1) (o : Only u hg hg' i j d) :
    InvS u x fx fy hxx hyy hg' px py :=
  h.off (h.ne_X hlt) (h.posX.mem ((i, j), b) (by simp)).2 o.2.1 h.posX.tail h.posY (ids_tail (h.ne_X hlt)) (fun _ => Iff.rfl)

theorem InvS.stepY {hg hg' : HessGrad R} {i j : VId} {b : Bool} {px py : List ((VId × VId) × Bool)} {d : Diag R}
    (h : InvS u x fx fy hxx hyy hg px (((i, j), b) :: py)) (hlt : ∀ p ∈ px.head?, (toLex (i, j) : IdPair) < toLex p.1) (o : Only u hg hg' i j d) :
    InvS u x fx fy hxx hyy hg' px py :=
  h.off (h.ne_Y hlt) (h.posY.mem ((i, j), b) (by simp)).2 o.2.1 h.posX h.posY.tail (fun _ => Iff.rfl) (ids_tail (h.ne_Y hlt))

theorem InvS.stepXY {hg h1 h2 : HessGrad R} {i j : VId} {b b' : Bool} {px' py' : List ((VId × VId) × Bool)}
    (hI : InvS u x fx fy hxx hyy hg (((i, j), b) :: px') (((i, j), b') :: py'))
    (o1 : Only u hg h1 i j (cellAX u fx hxx (hg.G i) (hg.G j) i j b (hg.cell u i j)))
    (o2 : Only u h1 h2 i j (cellAX u fy hyy (h1.G i) (h1.G j) i j b' (h1.cell u i j))) : InvS u x fx fy hxx hyy h2 px' py' := by
  have hmx := hI.posX.mem ((i, j), b) (by simp)
  have o := o1.trans o2
  by_cases hij : i = j
  · subst hij
    have nx : (i, i) ∉ idsT px' := not_mem_tail_of_count (l := idsT px') (List.Sublist.refl _) (hI.posX.one i)
    have ny : (i, i) ∉ idsT py' := not_mem_tail_of_count (l := idsT py') (List.Sublist.refl _) (hI.posY.one i)
    have ne : ∀ {a : VId} {c : Bool} {l : List ((VId × VId) × Bool)}, a ≠ i → ((a, a) ∈ idsT (((i, i), c) :: l) ↔ (a, a) ∈ idsT l) := by
      intro a c l ha; simp [ha]
    refine ⟨hI.posX.tail, hI.posY.tail, fun a => ?_, fun a ha => ?_, fun a ha => ?_, fun a c hac hc => ?_⟩
    · by_cases ha : a = i
      · subst ha; simp only [nx, ny]
      · exact ((ne ha).symm.trans (hI.sync a)).trans (ne ha)
    · have ha' : a ≠ i := fun h => nx (h ▸ ha)
      rw [o.2.1 a a (by simp [ha'])]
      exact hI.todo a ((ne ha').2 ha)
    · by_cases ha' : a = i
      · subst ha'
        have c0 := hI.todo a (by simp)
        obtain ⟨d, hd⟩ := Option.isSome_iff_exists.1 ((mem_vars_iff_cell u x a).1 hmx.2.1)
        have g0 : hg.G a = d.grad := by rw [G_eq_cell u, c0, hd]; rfl
        have g1 : h1.G a = (1 + fx) * d.grad := by
          rw [G_eq_cell u, o1.2.2, c0, hd]
          simp [cellAX]; ring
        rw [o2.2.2, g1, o1.2.2, g0, c0, hd]
        simp only [cellAX, Option.getD_some, Option.map_some, selfDiag, true_or, if_true, Option.some.injEq, Diag.mk.injEq, and_true]
        constructor <;> ring
      · rw [o.2.1 a a (by simp [ha'])]
        exact hI.done a fun h => ha ((ne ha').1 h)
    · have h0 : (a, c) ≠ (i, i) := fun e => hac (by rw [Prod.mk.injEq] at e; exact e.1.trans e.2.symm)
      rw [o.2.1 a c h0] at hc
      exact hI.orig a c hac hc
  · exact hI.off hij hmx.2 o.2.1 hI.posX.tail hI.posY.tail (ids_tail hij) (ids_tail hij)

/-- The half mixed second derivative left by the first loop at a pair which the iterators show rightly, if at all; `T`, `T'` are their positions. -/
def selfH (u : Moments R) (x : HessGrad R) (fx fy hxx hyy : R) (T T' : List ((VId × VId) × Bool)) (p : VId × VId) : R :=
  let g := (1 + fx) * (1 + fy) * x.G p.1
  let h := if p ∈ idsT T then (1 + fx) * (hAt u x p.1 p.2 + hxx * g * x.G p.2) else hAt u x p.1 p.2
  if p ∈ idsT T' then (1 + fy) * (h + hyy * g * x.G p.2) else h

/-- The pair is shown at most once by each iterator, and rightly. -/
structure GoodS (T T' : List ((VId × VId) × Bool)) (p : VId × VId) : Prop where
  lt : p.1 < p.2
  oneX : (idsT T).count p ≤ 1
  oneY : (idsT T').count p ≤ 1
  flagX : ∀ b, (p, b) ∈ T → b = true
  flagY : ∀ b, (p, b) ∈ T' → b = true

/-- The invariant for pairs of different variables. -/
structure InvO (u : Moments R) (x : HessGrad R) (fx fy hxx hyy : R) (T T' : List ((VId × VId) × Bool)) (hg : HessGrad R)
    (px py : List ((VId × VId) × Bool)) : Prop where
  diag : InvS u x fx fy hxx hyy hg px py
  sufX : px <:+ T
  sufY : py <:+ T'
  syncX : ∀ p, GoodS T T' p → p ∈ idsT py → p ∈ idsT T → p ∈ idsT px
  syncY : ∀ p, GoodS T T' p → p ∈ idsT px → p ∈ idsT T' → p ∈ idsT py
  todo : ∀ p, GoodS T T' p → (p ∈ idsT px ∨ p ∈ idsT py) → hAt u hg p.1 p.2 = hAt u x p.1 p.2
  done : ∀ p, GoodS T T' p → p ∉ idsT px → p ∉ idsT py → hAt u hg p.1 p.2 = selfH u x fx fy hxx hyy T T' p

/-- the gradients stored when an iterator stands at `(i, j)` -/
theorem InvS.grads {hg : HessGrad R} {px py l L : List ((VId × VId) × Bool)} (h : InvS u x fx fy hxx hyy hg px py) {i j : VId} {b : Bool} (hij : i < j)
    (hL : PosS x L) (hd : ∀ a, a ∈ keys x.diagmap → (a, a) ∈ idsT L) (hs : (((i, j), b) :: l) <:+ L)
    (hm : ∀ a, (a, a) ∈ idsT px ↔ (a, a) ∈ idsT (((i, j), b) :: l)) :
    hg.G i = (1 + fx) * (1 + fy) * x.G i ∧ hg.G j = x.G j := by
  constructor
  · have hn : (i, i) ∉ idsT px := by
      rw [hm]
      refine not_mem_of_lt (hL.sort.sublist hs.sublist) fun p hp => ?_
      simp only [List.head?_cons, Option.mem_def, Option.some.injEq] at hp
      subst hp
      exact Prod.Lex.lt_iff.2 (Or.inr ⟨rfl, hij⟩)
    rw [G_eq_cell u, h.done i hn, G_eq_cell u]
    cases x.cell u i i <;> simp [selfDiag]
  · have hj : j ∈ keys x.diagmap := (hL.mem ((i, j), b) (hs.subset (by simp))).2.2
    have hn : (j, j) ∈ idsT px := by
      rw [hm]
      obtain ⟨t, ht⟩ := hs
      have h0 := hd j hj
      rw [← ht, idsT, List.map_append, List.mem_append] at h0
      refine h0.resolve_left fun h0 => ?_
      obtain ⟨q, hq, he⟩ := List.mem_map.1 h0
      have hsort := hL.sort
      rw [← ht, List.pairwise_append] at hsort
      have := hsort.2.2 q hq ((i, j), b) (by simp)
      rw [he] at this
      have := Prod.Lex.le_iff.1 this
      simp only [ofLex_toLex] at this
      omega
    rw [G_eq_cell u, h.todo j hn, G_eq_cell u]

theorem only_hAt {hg hg' : HessGrad R} {i j : VId} {d : Diag R} (o : Only u hg hg' i j d) : hAt u hg' i j = d.hhess := by
  rw [hAt, o.2.2]; rfl

theorem only_hAt_ne {hg hg' : HessGrad R} {i j : VId} {d : Diag R} (o : Only u hg hg' i j d) {p : VId × VId} (h : p ≠ (i, j)) :
    hAt u hg' p.1 p.2 = hAt u hg p.1 p.2 := by
  rw [hAt, hAt, o.2.1 p.1 p.2 h]

theorem cellAX_hhess {f h gi gj : R} {i j : VId} {b : Bool} {hg : HessGrad R} (hb : b = true) :
    (cellAX u f h gi gj i j b (hg.cell u i j)).hhess = (1 + f) * (hAt u hg i j + h * gi * gj) := by
  simp only [cellAX, hb, or_true, if_true, getD_hhess, hAt]
  ring

theorem InvO.stepX {T T' : List ((VId × VId) × Bool)} {hg hg' : HessGrad R} {i j : VId} {b : Bool} {px py : List ((VId × VId) × Bool)}
    (hT : PosS x T) (dT : ∀ a, a ∈ keys x.diagmap → (a, a) ∈ idsT T)
    (h : InvO u x fx fy hxx hyy T T' hg (((i, j), b) :: px) py) (hlt : ∀ p ∈ py.head?, (toLex (i, j) : IdPair) < toLex p.1)
    (o : Only u hg hg' i j (cellAX u fx hxx (hg.G i) (hg.G j) i j b (hg.cell u i j))) : InvO u x fx fy hxx hyy T T' hg' px py := by
  have hq : (i, j) ∉ idsT py := not_mem_of_lt h.diag.posY.sort hlt
  have hmem : ((i, j), b) ∈ T := h.sufX.subset (by simp)
  have hsub : (((i, j)) :: idsT px).Sublist (idsT T) := h.sufX.sublist.map Prod.fst
  have hne : ∀ p : VId × VId, p ≠ (i, j) → (p ∈ idsT (((i, j), b) :: px) ↔ p ∈ idsT px) := by
    intro p hp; simp [hp]
  refine ⟨h.diag.stepX hlt o, (List.suffix_cons _ _).trans h.sufX, h.sufY, fun p gp h1 h2 => ?_, fun p gp h1 h2 => ?_, fun p gp h1 => ?_, fun p gp h1 h2 => ?_⟩
  · exact (hne p fun h0 => hq (h0 ▸ h1)).1 (h.syncX p gp h1 h2)
  · exact h.syncY p gp (by simp [idsT] at h1 ⊢; exact Or.inr h1) h2
  · have hp : p ≠ (i, j) := by
      rintro rfl
      exact h1.elim (not_mem_tail_of_count hsub gp.oneX) hq
    rw [only_hAt_ne o hp]
    exact h.todo p gp (h1.imp_left (hne p hp).2)
  · by_cases hp : p = (i, j)
    · subst hp
      have hnY : (i, j) ∉ idsT T' := fun h0 => hq (h.syncY (i, j) gp (by simp) h0)
      have hT' : (i, j) ∈ idsT T := List.mem_map.2 ⟨_, hmem, rfl⟩
      obtain ⟨gi, gj⟩ := h.diag.grads gp.lt hT dT h.sufX fun _ => Iff.rfl
      simp only
      rw [only_hAt o, cellAX_hhess (gp.flagX b hmem), gi, gj, h.todo (i, j) gp (Or.inl (by simp))]
      simp [selfH, hnY, hT']
    · rw [only_hAt_ne o hp]
      exact h.done p gp (fun h0 => h1 ((hne p hp).1 h0)) h2

theorem InvO.stepY {T T' : List ((VId × VId) × Bool)} {hg hg' : HessGrad R} {i j : VId} {b : Bool} {px py : List ((VId × VId) × Bool)}
    (hT : PosS x T') (dT : ∀ a, a ∈ keys x.diagmap → (a, a) ∈ idsT T')
    (h : InvO u x fx fy hxx hyy T T' hg px (((i, j), b) :: py)) (hlt : ∀ p ∈ px.head?, (toLex (i, j) : IdPair) < toLex p.1)
    (o : Only u hg hg' i j (cellAX u fy hyy (hg.G i) (hg.G j) i j b (hg.cell u i j))) : InvO u x fx fy hxx hyy T T' hg' px py := by
  have hq : (i, j) ∉ idsT px := not_mem_of_lt h.diag.posX.sort hlt
  have hmem : ((i, j), b) ∈ T' := h.sufY.subset (by simp)
  have hsub : (((i, j)) :: idsT py).Sublist (idsT T') := h.sufY.sublist.map Prod.fst
  have hne : ∀ p : VId × VId, p ≠ (i, j) → (p ∈ idsT (((i, j), b) :: py) ↔ p ∈ idsT py) := by
    intro p hp; simp [hp]
  refine ⟨h.diag.stepY hlt o, h.sufX, (List.suffix_cons _ _).trans h.sufY, fun p gp h1 h2 => ?_, fun p gp h1 h2 => ?_, fun p gp h1 => ?_, fun p gp h1 h2 => ?_⟩
  · exact h.syncX p gp (by simp [idsT] at h1 ⊢; exact Or.inr h1) h2
  · exact (hne p fun h0 => hq (h0 ▸ h1)).1 (h.syncY p gp h1 h2)
  · have hp : p ≠ (i, j) := by
      rintro rfl
      exact h1.elim hq (not_mem_tail_of_count hsub gp.oneY)
    rw [only_hAt_ne o hp]
    exact h.todo p gp (h1.imp_right (hne p hp).2)
  · by_cases hp : p = (i, j)
    · subst hp
      have hnX : (i, j) ∉ idsT T := fun h0 => hq (h.syncX (i, j) gp (by simp) h0)
      have hT' : (i, j) ∈ idsT T' := List.mem_map.2 ⟨_, hmem, rfl⟩
      obtain ⟨gi, gj⟩ := h.diag.grads gp.lt hT dT h.sufY h.diag.sync
      simp only
      rw [only_hAt o, cellAX_hhess (gp.flagY b hmem), gi, gj, h.todo (i, j) gp (Or.inr (by simp))]
      simp [selfH, hnX, hT']
    · rw [only_hAt_ne o hp]
      exact h.done p gp h1 (fun h0 => h2 ((hne p hp).1 h0))

theorem InvO.stepXY {T T' : List ((VId × VId) × Bool)} {hg w w2 : HessGrad R} {i j : VId} {b b' : Bool} {px py : List ((VId × VId) × Bool)}
    (hT : PosS x T) (dT : ∀ a, a ∈ keys x.diagmap → (a, a) ∈ idsT T)
    (h : InvO u x fx fy hxx hyy T T' hg (((i, j), b) :: px) (((i, j), b') :: py))
    (o1 : Only u hg w i j (cellAX u fx hxx (hg.G i) (hg.G j) i j b (hg.cell u i j)))
    (o2 : Only u w w2 i j (cellAX u fy hyy (w.G i) (w.G j) i j b' (w.cell u i j))) : InvO u x fx fy hxx hyy T T' w2 px py := by
  have o := o1.trans o2
  have mX : ((i, j), b) ∈ T := h.sufX.subset (by simp)
  have mY : ((i, j), b') ∈ T' := h.sufY.subset (by simp)
  have sX : (((i, j)) :: idsT px).Sublist (idsT T) := h.sufX.sublist.map Prod.fst
  have sY : (((i, j)) :: idsT py).Sublist (idsT T') := h.sufY.sublist.map Prod.fst
  have hne : ∀ (p : VId × VId) {c : Bool} {l : List ((VId × VId) × Bool)}, p ≠ (i, j) → (p ∈ idsT (((i, j), c) :: l) ↔ p ∈ idsT l) := by
    intro p c l hp; simp [hp]
  refine ⟨h.diag.stepXY o1 o2, (List.suffix_cons _ _).trans h.sufX, (List.suffix_cons _ _).trans h.sufY, fun p gp h1 h2 => ?_, fun p gp h1 h2 => ?_,
    fun p gp h1 => ?_, fun p gp h1 h2 => ?_⟩
  · have hp : p ≠ (i, j) := by rintro rfl; exact not_mem_tail_of_count sY gp.oneY h1
    exact (hne p hp).1 (h.syncX p gp ((hne p hp).2 h1) h2)
  · have hp : p ≠ (i, j) := by rintro rfl; exact not_mem_tail_of_count sX gp.oneX h1
    exact (hne p hp).1 (h.syncY p gp ((hne p hp).2 h1) h2)
  · have hp : p ≠ (i, j) := by
      rintro rfl
      exact h1.elim (not_mem_tail_of_count sX gp.oneX) (not_mem_tail_of_count sY gp.oneY)
    rw [only_hAt_ne o hp]
    exact h.todo p gp (h1.imp (hne p hp).2 (hne p hp).2)
  · by_cases hp : p = (i, j)
    · subst hp
      have tX : (i, j) ∈ idsT T := List.mem_map.2 ⟨_, mX, rfl⟩
      have tY : (i, j) ∈ idsT T' := List.mem_map.2 ⟨_, mY, rfl⟩
      obtain ⟨gi, gj⟩ := h.diag.grads gp.lt hT dT h.sufX fun _ => Iff.rfl
      have hg1 : ∀ a, w.G a = hg.G a := only_G o1 (by simp [cellAX, (show i ≠ j from gp.lt.ne)])
      simp only
      rw [only_hAt o2, cellAX_hhess (gp.flagY b' mY), only_hAt o1, cellAX_hhess (gp.flagX b mX), hg1, hg1, gi, gj, h.todo (i, j) gp (Or.inl (by simp))]
      simp [selfH, tX, tY]
    · rw [only_hAt_ne o hp]
      exact h.done p gp (fun h0 => h1 ((hne p hp).1 h0)) (fun h0 => h2 ((hne p hp).1 h0))

end
end Unc
