import Verif.Lemmas.UReal2
import Mathlib.Tactic.Ring
import Mathlib.Algebra.Order.Ring.Defs
import Mathlib.Algebra.Order.BigOperators.Group.Finset

/-! # What `unary` and `binary` of `Verif/Model/UReal2.lean` leave in each cell -/

namespace Unc
open SMap HessGrad
variable {R : Type*}

section lawfree
variable [Zero R] [One R] [Neg R] [Add R] [Sub R] [Mul R] [Div R] [NatCast R] [CCmp R]

/-- `op` succeeds and changes exactly the cell `(i, j)`, with `f`. -/
def At (u : Moments R) (op : HessGrad R → Option (HessGrad R)) (i j : VId)
    (f : Option (Diag R) → Diag R) : Prop :=
  ∀ hg : HessGrad R, hg.Srt → ∃ hg', op hg = some hg' ∧ hg'.Srt ∧
    (∀ a b, (a, b) ≠ (i, j) → hg'.cell u a b = hg.cell u a b) ∧
    hg'.cell u i j = some (f (hg.cell u i j))

theorem At.bind {u : Moments R} {op op' : HessGrad R → Option (HessGrad R)} {i j : VId}
    {f f' : Option (Diag R) → Diag R} (h : At u op i j f) (h' : At u op' i j f') :
    At u (fun hg => (op hg).bind op') i j (fun o => f' (some (f o))) := by
  intro hg hs
  obtain ⟨h1, e1, s1, c1, d1⟩ := h hg hs
  obtain ⟨h2, e2, s2, c2, d2⟩ := h' h1 s1
  refine ⟨h2, by simp [e1, e2], s2, fun a b hab => (c2 a b hab).trans (c1 a b hab), ?_⟩
  rw [d2, d1]

theorem At.congr {u : Moments R} {op : HessGrad R → Option (HessGrad R)} {i j : VId}
    {f f' : Option (Diag R) → Diag R} (h : At u op i j f) (hf : ∀ o, f o = f' o) : At u op i j f' := by
  intro hg hs
  obtain ⟨h1, e1, s1, c1, d1⟩ := h hg hs
  exact ⟨h1, e1, s1, c1, by rw [d1, hf]⟩

/-- A change of the half hessian element followed by a change of the diagonal, if on the diagonal. -/
theorem at_mod (u : Moments R) {i j : VId} (hij : i ≤ j) (f : R → R) (g : Diag R → Diag R) :
    At u (fun hg => (hg.modHhess u i j f).map fun res => if i = j then res.modDiag u i g else res) i j
      (fun o => if i = j then g { o.getD (newDiag u) with hhess := f (o.getD (newDiag u)).hhess }
        else { o.getD (newDiag u) with hhess := f (o.getD (newDiag u)).hhess }) := by
  intro hg hs
  obtain ⟨h1, e1, s1, c1, d1⟩ := modHhess_spec u hg hs hij f
  by_cases h : i = j
  · subst h
    obtain ⟨s2, c2, d2⟩ := modDiag_spec u h1 s1 i g
    refine ⟨h1.modDiag u i g, by simp [e1], s2, fun a b hab => (c2 a b hab).trans (c1 a b hab), ?_⟩
    rw [d2, d1]; simp
  · exact ⟨h1, by simp [e1, h], s1, c1, by rw [d1]; simp [h]⟩

/-- Cell written by the `x` block. -/
def cellX (u : Moments R) (fx hxx : R) (e : Ent R) (o : Option (Diag R)) : Diag R :=
  let d := o.getD (newDiag u)
  { grad := if e.id1 = e.id2 then fx * e.d1.grad else d.grad
    hhess := hxx * e.d1.grad * e.d2.grad + fx * e.val
    mom := if e.id1 = e.id2 then e.d1.mom else d.mom }

/-- Cell written by the first part of the `y` block. -/
def cellYNew (u : Moments R) (e : Ent R) (o : Option (Diag R)) : Diag R :=
  let d := o.getD (newDiag u)
  { grad := d.grad
    hhess := 0
    mom := if e.id1 = e.id2 then e.d1.mom else d.mom }

/-- Cell written by the second part of the `y` block. -/
def cellY (u : Moments R) (fy hyy : R) (e : Ent R) (o : Option (Diag R)) : Diag R :=
  let d := o.getD (newDiag u)
  { grad := if e.id1 = e.id2 then d.grad + fy * e.d1.grad else d.grad
    hhess := d.hhess + hyy * e.d1.grad * e.d2.grad + fy * e.val
    mom := d.mom }

theorem at_unaryStep (u : Moments R) (fx hxx : R) {e : Ent R} (he : e.id1 ≤ e.id2) :
    At u (fun hg => UReal2.unaryStep u fx hxx hg e) e.id1 e.id2 (cellX u fx hxx e) :=
  (at_mod u he _ _).congr fun o => by unfold cellX; split_ifs <;> rfl

theorem at_binaryX (u : Moments R) (fx hxx : R) {e : Ent R} (he : e.id1 ≤ e.id2) :
    At u (fun hg => UReal2.binaryX u fx hxx hg e) e.id1 e.id2 (cellX u fx hxx e) :=
  (at_mod u he _ _).congr fun o => by unfold cellX; split_ifs <;> rfl

theorem at_binaryYNew (u : Moments R) {e : Ent R} (he : e.id1 ≤ e.id2) :
    At u (fun hg => UReal2.binaryYNew u hg e) e.id1 e.id2 (cellYNew u e) :=
  (at_mod u he _ _).congr fun o => by unfold cellYNew; split_ifs <;> rfl

theorem at_binaryY (u : Moments R) (fy hyy : R) {e : Ent R} (he : e.id1 ≤ e.id2) :
    At u (fun hg => UReal2.binaryY u fy hyy hg e) e.id1 e.id2 (cellY u fy hyy e) :=
  (at_mod u he _ _).congr fun o => by unfold cellY; split_ifs <;> rfl

/-! ## `unary` -/

theorem unary_fold (u : Moments R) (fx hxx : R) (es : List (Ent R)) (hes : ∀ e ∈ es, e.id1 ≤ e.id2) :
    ∀ hg : HessGrad R, hg.Srt →
      ∃ hg', es.foldlM (UReal2.unaryStep u fx hxx) hg = some hg' ∧ hg'.Srt ∧
        ∀ a b, hg'.cell u a b = (es.filter fun e => decide (e.key = toLex (a, b))).foldl
          (fun o e => some (cellX u fx hxx e o)) (hg.cell u a b) := by
  induction es with
  | nil => intro hg hs; exact ⟨hg, by simp, hs, by simp⟩
  | cons e es ih =>
    intro hg hs
    obtain ⟨h1, e1, s1, c1, d1⟩ := at_unaryStep u fx hxx (hes e (by simp)) hg hs
    obtain ⟨h2, e2, s2, c2⟩ := ih (fun e' he' => hes e' (by simp [he'])) h1 s1
    refine ⟨h2, ?_, s2, fun a b => ?_⟩
    · simp only [List.foldlM_cons]
      rw [show UReal2.unaryStep u fx hxx hg e = some h1 from e1]
      simpa using e2
    · rw [c2]
      by_cases hk : e.key = toLex (a, b)
      · obtain ⟨rfl, rfl⟩ := key_eq_iff.1 hk
        simp only [List.filter_cons, hk, decide_true, if_true, List.foldl_cons, d1]
      · have hne : (a, b) ≠ (e.id1, e.id2) := by
          rintro h
          exact hk (by rw [Prod.mk.injEq] at h; simp [Ent.key, h.1, h.2])
        simp only [List.filter_cons, hk, decide_false, Bool.false_eq_true, if_false, c1 a b hne]

/-! ## `binary` -/

/-- The writes to one cell, by the entries of both operands at that cell. -/
def cellProc (u : Moments R) (fx fy hxx hyy : R) :
    Option (Diag R) → List (Ent R) → List (Ent R) → Option (Diag R)
  | o, [], [] => o
  | o, e :: ex, [] => cellProc u fx fy hxx hyy (some (cellX u fx hxx e o)) ex []
  | o, [], e :: ey =>
    cellProc u fx fy hxx hyy (some (cellY u fy hyy e (some (cellYNew u e o)))) [] ey
  | o, e :: ex, e' :: ey =>
    cellProc u fx fy hxx hyy (some (cellY u fy hyy e' (some (cellX u fx hxx e o)))) ex ey
termination_by _ a b => a.length + b.length

theorem binaryLoop_spec (u : Moments R) (fx fy hxx hyy : R) (ex ey : List (Ent R)) :
    ∀ hg : HessGrad R, hg.Srt →
      (∀ e ∈ ex, e.id1 ≤ e.id2) → (∀ e ∈ ey, e.id1 ≤ e.id2) →
      (∀ e ∈ ex, e.key < toLex (maxId, maxId)) → (∀ e ∈ ey, e.key < toLex (maxId, maxId)) →
      ex.Pairwise (fun e e' => e.key ≤ e'.key) → ey.Pairwise (fun e e' => e.key ≤ e'.key) →
      ∃ hg', UReal2.binaryLoop u fx fy hxx hyy hg ex ey = some hg' ∧ hg'.Srt ∧
        ∀ a b, hg'.cell u a b = cellProc u fx fy hxx hyy (hg.cell u a b)
          (ex.filter fun e => decide (e.key = toLex (a, b)))
          (ey.filter fun e => decide (e.key = toLex (a, b))) := by
  obtain ⟨n, hn⟩ : ∃ n, n = ex.length + ey.length := ⟨_, rfl⟩
  induction n using Nat.strong_induction_on generalizing ex ey with
  | _ n ih =>
  have hne {e : Ent R} {a b : VId} (hk : ¬ e.key = toLex (a, b)) : (a, b) ≠ (e.id1, e.id2) := by
    rintro h
    exact hk (by rw [Prod.mk.injEq] at h; simp [Ent.key, h.1, h.2])
  intro hg hs hx hy mx my px py
  match ex, ey with
  | [], [] => exact ⟨hg, by simp [UReal2.binaryLoop], hs, by simp [cellProc]⟩
  | e :: tx, [] =>
    obtain ⟨h1, e1, s1, c1, d1⟩ := at_binaryX u fx hxx (hx e (by simp)) hg hs
    obtain ⟨h2, e2, s2, c2⟩ := ih _ (by simp [hn]) tx [] rfl h1 s1 (fun e' he' => hx e' (by simp [he'])) (by simp)
      (fun e' he' => mx e' (by simp [he'])) (by simp) (List.pairwise_cons.1 px).2 (by simp)
    refine ⟨h2, ?_, s2, fun a b => ?_⟩
    · rw [UReal2.binaryLoop, if_pos (show toLex (e.id1, e.id2) < toLex (maxId, maxId) from mx e (by simp)),
        show UReal2.binaryX u fx hxx hg e = some h1 from e1]
      exact e2
    · rw [c2]
      by_cases hk : e.key = toLex (a, b)
      · obtain ⟨rfl, rfl⟩ := key_eq_iff.1 hk
        simp only [List.filter_cons, hk, decide_true, if_true, List.filter_nil, d1]
        conv_rhs => rw [cellProc]
      · simp only [List.filter_cons, hk, decide_false, Bool.false_eq_true, if_false, c1 a b (hne hk)]
  | [], e :: ty =>
    obtain ⟨h1, e1, s1, c1, d1⟩ :=
      ((at_binaryYNew u (hy e (by simp))).bind (at_binaryY u fy hyy (hy e (by simp)))) hg hs
    obtain ⟨h2, e2, s2, c2⟩ := ih _ (by simp [hn]) [] ty rfl h1 s1 (by simp) (fun e' he' => hy e' (by simp [he']))
      (by simp) (fun e' he' => my e' (by simp [he'])) (by simp) (List.pairwise_cons.1 py).2
    refine ⟨h2, ?_, s2, fun a b => ?_⟩
    · rw [UReal2.binaryLoop, if_pos (show toLex (e.id1, e.id2) < toLex (maxId, maxId) from my e (by simp)), ← Option.bind_assoc]
      simp only at e1
      rw [e1]
      exact e2
    · rw [c2]
      by_cases hk : e.key = toLex (a, b)
      · obtain ⟨rfl, rfl⟩ := key_eq_iff.1 hk
        simp only [List.filter_cons, hk, decide_true, if_true, List.filter_nil, d1]
        conv_rhs => rw [cellProc]
      · simp only [List.filter_cons, hk, decide_false, Bool.false_eq_true, if_false, c1 a b (hne hk)]
  | e :: tx, e' :: ty =>
    have px' := List.pairwise_cons.1 px
    have py' := List.pairwise_cons.1 py
    rw [UReal2.binaryLoop]
    by_cases hlt : e.key < e'.key
    · obtain ⟨h1, e1, s1, c1, d1⟩ := at_binaryX u fx hxx (hx e (by simp)) hg hs
      obtain ⟨h2, e2, s2, c2⟩ := ih (tx.length + (e' :: ty).length) (by simp [hn]) tx (e' :: ty) rfl h1 s1
        (fun e' he' => hx e' (by simp [he'])) hy
        (fun e' he' => mx e' (by simp [he'])) my px'.2 py
      refine ⟨h2, ?_, s2, fun a b => ?_⟩
      · rw [if_pos (show toLex (e.id1, e.id2) < toLex (e'.id1, e'.id2) from hlt),
          show UReal2.binaryX u fx hxx hg e = some h1 from e1]
        exact e2
      · rw [c2]
        by_cases hk : e.key = toLex (a, b)
        · have hyf : (e' :: ty).filter (fun e => decide (e.key = toLex (a, b))) = [] := by
            rw [List.filter_eq_nil_iff]
            intro f hf
            have : e.key < f.key := by
              rcases List.mem_cons.1 hf with rfl | hf
              · exact hlt
              · exact hlt.trans_le (py'.1 f hf)
            simp only [decide_eq_true_eq, ← hk]
            exact this.ne'
          rw [hyf]
          obtain ⟨rfl, rfl⟩ := key_eq_iff.1 hk
          rw [List.filter_cons]
          simp only [hk, decide_true, if_true, d1]
          conv_rhs => rw [cellProc]
        · simp only [List.filter_cons (xs := tx), hk, decide_false, Bool.false_eq_true, if_false, c1 a b (hne hk)]
    · rw [if_neg (show ¬ toLex (e.id1, e.id2) < toLex (e'.id1, e'.id2) from hlt)]
      by_cases hlt' : e'.key < e.key
      · obtain ⟨h1, e1, s1, c1, d1⟩ :=
          ((at_binaryYNew u (hy e' (by simp))).bind (at_binaryY u fy hyy (hy e' (by simp)))) hg hs
        obtain ⟨h2, e2, s2, c2⟩ := ih ((e :: tx).length + ty.length) (by simp [hn]) (e :: tx) ty rfl h1 s1
          hx (fun e' he' => hy e' (by simp [he'])) mx
          (fun e' he' => my e' (by simp [he'])) px py'.2
        refine ⟨h2, ?_, s2, fun a b => ?_⟩
        · rw [if_pos (show toLex (e'.id1, e'.id2) < toLex (e.id1, e.id2) from hlt'), ← Option.bind_assoc]
          simp only at e1
          rw [e1]
          exact e2
        · rw [c2]
          by_cases hk : e'.key = toLex (a, b)
          · have hxf : (e :: tx).filter (fun e => decide (e.key = toLex (a, b))) = [] := by
              rw [List.filter_eq_nil_iff]
              intro f hf
              have : e'.key < f.key := by
                rcases List.mem_cons.1 hf with rfl | hf
                · exact hlt'
                · exact hlt'.trans_le (px'.1 f hf)
              simp only [decide_eq_true_eq, ← hk]
              exact this.ne'
            rw [hxf]
            obtain ⟨rfl, rfl⟩ := key_eq_iff.1 hk
            rw [List.filter_cons]
            simp only [hk, decide_true, if_true, d1]
            conv_rhs => rw [cellProc]
          · simp only [List.filter_cons (xs := ty), hk, decide_false, Bool.false_eq_true, if_false,
              c1 a b (hne hk)]
      · rw [if_neg (show ¬ toLex (e'.id1, e'.id2) < toLex (e.id1, e.id2) from hlt')]
        have heq : e.key = e'.key := le_antisymm (not_lt.1 hlt') (not_lt.1 hlt)
        obtain ⟨heq1, heq2⟩ := key_eq_iff.1 heq
        have hY := at_binaryY u fy hyy (hy e' (by simp))
        rw [← heq1, ← heq2] at hY
        obtain ⟨h1, e1, s1, c1, d1⟩ := ((at_binaryX u fx hxx (hx e (by simp))).bind hY) hg hs
        obtain ⟨h2, e2, s2, c2⟩ := ih (tx.length + ty.length) (by simp [hn]; omega) tx ty rfl h1 s1
          (fun e' he' => hx e' (by simp [he'])) (fun e' he' => hy e' (by simp [he']))
          (fun e' he' => mx e' (by simp [he'])) (fun e' he' => my e' (by simp [he'])) px'.2 py'.2
        refine ⟨h2, ?_, s2, fun a b => ?_⟩
        · rw [← Option.bind_assoc]
          simp only at e1
          rw [e1]
          exact e2
        · rw [c2]
          by_cases hk : e.key = toLex (a, b)
          · rw [List.filter_cons, List.filter_cons]
            simp only [← heq, hk, decide_true, if_true]
            obtain ⟨rfl, rfl⟩ := key_eq_iff.1 hk
            simp only [d1]
            conv_rhs => rw [cellProc]
          · rw [List.filter_cons, List.filter_cons]
            simp only [← heq, hk, decide_false, Bool.false_eq_true, if_false, c1 a b (hne hk)]

theorem cellProc_nil_isSome (u : Moments R) (fx fy hxx hyy : R) (o : Option (Diag R))
    (ex ey : List (Ent R)) :
    (cellProc u fx fy hxx hyy o ex ey).isSome ↔ o.isSome ∨ ex ≠ [] ∨ ey ≠ [] := by
  obtain ⟨n, hn⟩ : ∃ n, n = ex.length + ey.length := ⟨_, rfl⟩
  induction n using Nat.strong_induction_on generalizing ex ey o with
  | _ n ih =>
  match ex, ey with
  | [], [] => simp [cellProc]
  | e :: tx, [] => rw [cellProc, ih _ (by simp [hn]) _ tx [] rfl]; simp
  | [], e :: ty => rw [cellProc, ih _ (by simp [hn]) _ [] ty rfl]; simp
  | e :: tx, e' :: ty => rw [cellProc, ih _ (by simp [hn]; omega) _ tx ty rfl]; simp

end lawfree

/-! ## The non-skip mode -/

theorem takeWhile_eq_filter {i : VId} (l : SMap IdPair R) (hs : Sorted l)
    (hge : ∀ k ∈ keys l, i ≤ (ofLex k).1) :
    l.takeWhile (fun p => decide ((ofLex p.1).1 = i)) = l.filter (fun p => decide ((ofLex p.1).1 = i)) := by
  induction l with
  | nil => rfl
  | cons q l ih =>
    have hs' := sorted_cons.1 hs
    by_cases h : (ofLex q.1).1 = i
    · simp only [List.takeWhile_cons, List.filter_cons, h, decide_true, if_true]
      rw [ih hs'.2 fun k hk => hge k (by simp [hk])]
    · simp only [List.takeWhile_cons, List.filter_cons, h, decide_false, Bool.false_eq_true, if_false]
      symm
      rw [List.filter_eq_nil_iff]
      intro p hp
      have h1 : i < (ofLex q.1).1 := lt_of_le_of_ne (hge q.1 (by simp)) (Ne.symm h)
      have h2 := lex_fst_le (hs'.1 p.1 (List.mem_map_of_mem (f := Prod.fst) hp))
      simpa using (h1.trans_le h2).ne'

theorem filter_dropWhile_ne {i a : VId} (h : i ≠ a) (l : SMap IdPair R) :
    (l.dropWhile (fun p => decide ((ofLex p.1).1 = i))).filter (fun p => decide ((ofLex p.1).1 = a)) =
      l.filter (fun p => decide ((ofLex p.1).1 = a)) := by
  induction l with
  | nil => rfl
  | cons q l ih =>
    by_cases hq : (ofLex q.1).1 = i
    · simp only [List.dropWhile_cons, List.filter_cons, hq, decide_true, if_true, ih, h, decide_false,
        Bool.false_eq_true, if_false]
    · simp [hq]

/-- Without skipping, a pair `a < b` is shown only if `b` comes right after `a`; then it is shown once for
every element stored in row `a`, with the value only at the visit that finds its own element. -/
theorem hessSpec_nonskip_filter [Zero R] (lk : VId → Diag R) {a b : VId} (hab : a < b)
    (dm : SMap VId (Diag R)) : ∀ (tri : SMap IdPair R), Sorted dm → TriOf dm tri → Sorted tri →
      (∀ i ∈ keys dm, find? dm i = some (lk i)) →
      (hessSpec false lk dm tri).filter (fun e => decide (e.key = toLex (a, b))) =
        if nextIn dm a = some b then
          (tri.filter fun p => decide ((ofLex p.1).1 = a)).map
            fun p => ⟨a, b, lk a, lk b, if p.1 = toLex (a, b) then p.2 else 0⟩
        else [] := by
  induction dm with
  | nil => intro tri _ htri _ _; simp [hessSpec, nextIn]
  | cons p t ih =>
    intro tri hs htri hst hlk
    obtain ⟨i, d⟩ := p
    have hs' := sorted_cons.1 hs
    have hd : d = lk i := by
      have := hlk i (by simp); simpa [find?] using this
    have hlk' : ∀ j ∈ keys t, find? t j = some (lk j) := by
      intro j hj
      have := hlk j (by simp [hj])
      simpa [find?, (hs'.1 j hj).ne] using this
    obtain ⟨h1, h2, h3⟩ := row_drop hs htri hst
    have hhead : ¬ (i = a ∧ i = b) := fun h => hab.ne (h.1.symm.trans h.2)
    simp only [hessSpec, List.filter_cons, List.filter_append, Ent.key, key_eq_iff, hhead,
      decide_false, Bool.false_eq_true, if_false]
    by_cases hia : i = a
    · subst hia
      have hlater : (hessSpec false lk t (tri.dropWhile fun p => decide ((ofLex p.1).1 = i))).filter
          (fun e => decide (e.id1 = i ∧ e.id2 = b)) = [] := by
        rw [List.filter_eq_nil_iff]
        intro e he
        have := hs'.1 _ (hessSpec_mem false lk t _ hs'.2 h1 h2 hlk' e he).2.1
        simp only [decide_eq_true_eq, not_and]
        intro h; exact absurd h this.ne'
      rw [hlater, List.append_nil, takeWhile_eq_filter tri hst (fun k hk => by
        rcases List.mem_cons.1 (htri k hk).2.1 with h | h
        · exact h.ge
        · exact (hs'.1 _ h).le)]
      have hnext : nextIn ((i, d) :: t) i = (keys t).head? := by
        unfold nextIn
        simp only [keys_cons, List.filter_cons, lt_irrefl, decide_false, Bool.false_eq_true, if_false]
        rw [List.filter_eq_self.2 (fun j hj => by simpa using hs'.1 j hj)]
      rw [hnext]
      cases t with
      | nil =>
        simp only [keys_nil, List.head?_nil, reduceCtorEq, if_false]
        rw [List.filter_eq_nil_iff]
        intro e he
        obtain ⟨q, hq, rfl⟩ := List.mem_map.1 he
        simp only [rowEnt, Bool.false_eq_true, if_false, decide_eq_true_eq]
        exact fun h => hab.ne h.2
      | cons r t =>
        obtain ⟨j, e⟩ := r
        have he : e = lk j := by
          have := hlk' j (by simp); simpa [find?] using this
        simp only [keys_cons, List.head?_cons, Option.some.injEq]
        by_cases hjb : j = b
        · subst hjb
          simp only [if_true]
          rw [List.filter_eq_self.2]
          · refine List.map_congr_left fun q hq => ?_
            simp [rowEnt, hd, he]
          · intro f hf
            obtain ⟨q, hq, rfl⟩ := List.mem_map.1 hf
            simp [rowEnt]
        · simp only [hjb, if_false]
          rw [List.filter_eq_nil_iff]
          intro f hf
          obtain ⟨q, hq, rfl⟩ := List.mem_map.1 hf
          simp [rowEnt, hjb]
    · have hrow : ((tri.takeWhile fun p => decide ((ofLex p.1).1 = i)).map (rowEnt false lk i d t)).filter
          (fun e => decide (e.id1 = a ∧ e.id2 = b)) = [] := by
        rw [List.filter_eq_nil_iff]
        intro e he
        obtain ⟨q, hq, rfl⟩ := List.mem_map.1 he
        have := (rowEnt_ids (skip := false) (lk := lk) hs (row_take htri hq).2.2.2).1
        simp [this, hia]
      rw [hrow, List.nil_append]
      have := ih _ hs'.2 h1 h2 hlk'
      simp only [Ent.key, key_eq_iff] at this
      rw [this, filter_dropWhile_ne hia]
      by_cases hlt : i < a
      · have : nextIn ((i, d) :: t) a = nextIn t a := by
          unfold nextIn; simp [List.filter_cons, hlt.le]
        rw [this]
      · have hlt' : a < i := lt_of_le_of_ne (not_lt.1 hlt) (Ne.symm hia)
        have hnil : tri.filter (fun p => decide ((ofLex p.1).1 = a)) = [] := by
          rw [List.filter_eq_nil_iff]
          intro q hq
          have hm := (htri q.1 (List.mem_map_of_mem (f := Prod.fst) hq)).2.1
          simp only [decide_eq_true_eq]
          rintro rfl
          rcases List.mem_cons.1 hm with h | h
          · exact hlt'.ne h
          · exact lt_asymm hlt' (hs'.1 _ h)
        simp [hnil]

/-! ## Validity -/

theorem valid_of_cells [Zero R] (u : Moments R) {hg : HessGrad R} (hs : hg.Srt)
    (h : ∀ a b, a ≠ b → (hg.cell u a b).isSome → (hg.cell u a a).isSome ∧ (hg.cell u b b).isSome) :
    hg.Valid := by
  refine ⟨hs.1, hs.2.1, fun i j hij => ?_⟩
  have hne : i ≠ j := (show i < j from hs.2.2 _ hij).ne
  have := h i j hne ((mem_tri_iff_cell u hg hne).1 hij)
  exact ⟨hs.2.2 _ hij, (mem_vars_iff_cell u hg i).2 this.1, (mem_vars_iff_cell u hg j).2 this.2⟩

theorem smap_ext {K V : Type*} [LinearOrder K] {m m' : SMap K V} (hm : Sorted m) (hm' : Sorted m')
    (h : ∀ k, find? m k = find? m' k) : m = m' := by
  induction m generalizing m' with
  | nil =>
    cases m' with
    | nil => rfl
    | cons p t => have := h p.1; simp [find?] at this
  | cons p t ih =>
    obtain ⟨k, v⟩ := p
    cases m' with
    | nil => have := h k; simp [find?] at this
    | cons p' t' =>
      obtain ⟨k', v'⟩ := p'
      have s := sorted_cons.1 hm
      have s' := sorted_cons.1 hm'
      have hk : k = k' := by
        rcases lt_trichotomy k k' with hlt | heq | hlt
        · have := h k
          have hn : find? t' k = none := find?_eq_none.2 fun hmem => lt_asymm hlt (s'.1 k hmem)
          simp [find?, hlt.ne', hn] at this
        · exact heq
        · have := h k'
          have hn : find? t k' = none := find?_eq_none.2 fun hmem => lt_asymm hlt (s.1 k' hmem)
          simp [find?, hlt.ne', hn] at this
      subst hk
      have hv : v = v' := by have := h k; simpa [find?] using this
      subst hv
      rw [ih s.2 s'.2 fun j => ?_]
      by_cases hj : k = j
      · subst hj
        rw [find?_eq_none.2 fun hmem => (s.1 k hmem).false,
          find?_eq_none.2 fun hmem => (s'.1 k hmem).false]
      · have := h j; simpa [find?, hj] using this

theorem keys_eq_of_mem {V W : Type*} {m : SMap VId V} {m' : SMap VId W} (hm : Sorted m) (hm' : Sorted m')
    (h : ∀ i, i ∈ keys m ↔ i ∈ keys m') : keys m = keys m' :=
  List.Perm.eq_of_pairwise (fun _ _ _ _ h1 h2 => absurd h2 (lt_asymm h1)) hm hm'
    ((List.perm_ext_iff_of_nodup hm.nodup hm'.nodup).2 h)

theorem hg_ext {hg hg' : HessGrad R} (hv : hg.Valid) (hv' : hg'.Valid)
    (h1 : ∀ i, find? hg.diagmap i = find? hg'.diagmap i)
    (h2 : ∀ a b, a < b → find? hg.trimap (toLex (a, b)) = find? hg'.trimap (toLex (a, b))) : hg = hg' := by
  have e1 := smap_ext hv.dsorted hv'.dsorted h1
  have e2 : hg.trimap = hg'.trimap := by
    refine smap_ext hv.tsorted hv'.tsorted fun k => ?_
    by_cases hk : (ofLex k).1 < (ofLex k).2
    · exact h2 _ _ hk
    · rw [find?_eq_none.2 (show k ∉ keys hg.trimap from fun hm => hk (hv.tri (ofLex k).1 (ofLex k).2 hm).1),
        find?_eq_none.2 (show k ∉ keys hg'.trimap from fun hm => hk (hv'.tri (ofLex k).1 (ofLex k).2 hm).1)]
  cases hg; cases hg'; simp_all

theorem cell_map_hhess [Zero R] (u : Moments R) (hg : HessGrad R) {a b : VId} (hab : a ≠ b) :
    (hg.cell u a b).map Diag.hhess = find? hg.trimap (toLex (a, b)) := by
  simp only [cell, hab, if_false, Option.map_map]
  cases find? hg.trimap (toLex (a, b)) <;> rfl

section lawfree
variable [Zero R] [One R] [Neg R] [Add R] [Sub R] [Mul R] [Div R] [NatCast R] [CCmp R]

/-- Facts about the entries of a valid value. -/
theorem entries_facts {hg : HessGrad R} (hv : hg.Valid) (skip : Bool) :
    (∀ e ∈ hessSpec skip hg.dOf hg.diagmap hg.trimap, e.id1 ≤ e.id2 ∧ e.id1 ∈ keys hg.diagmap ∧
      e.id2 ∈ keys hg.diagmap ∧ e.d1 = hg.dOf e.id1 ∧ e.d2 = hg.dOf e.id2) ∧
    (hessSpec skip hg.dOf hg.diagmap hg.trimap).Pairwise (fun e e' => e.key ≤ e'.key) ∧
    (∀ a, (hessSpec skip hg.dOf hg.diagmap hg.trimap).filter (fun e => decide (e.key = toLex (a, a))) =
      (match find? hg.diagmap a with
         | some d => [⟨a, a, d, d, d.hhess⟩]
         | none => [])) :=
  ⟨hessSpec_mem skip _ _ _ hv.dsorted hv.triOf hv.tsorted fun _ hi => find_dOf hi,
    (hessSpec_sorted skip _ _ _ hv.dsorted hv.triOf hv.tsorted fun _ hi => find_dOf hi).1,
    fun a => hessSpec_diag_filter skip _ a _ _ hv.dsorted hv.triOf hv.tsorted⟩

/-- The entries at the pair `(a, b)`. -/
def entsAt (skip : Bool) (hg : HessGrad R) (a b : VId) : List (Ent R) :=
  (hessSpec skip hg.dOf hg.diagmap hg.trimap).filter fun e => decide (e.key = toLex (a, b))

theorem entsAt_vars {hg : HessGrad R} (hv : hg.Valid) {skip : Bool} {a b : VId}
    (h : entsAt skip hg a b ≠ []) : a ∈ keys hg.diagmap ∧ b ∈ keys hg.diagmap := by
  obtain ⟨e, he⟩ := List.exists_mem_of_ne_nil _ h
  obtain ⟨h1, h2⟩ := List.mem_filter.1 he
  obtain ⟨rfl, rfl⟩ := key_eq_iff.1 (of_decide_eq_true h2)
  obtain ⟨_, h3, h4, _⟩ := (entries_facts hv skip).1 e h1
  exact ⟨h3, h4⟩

/-- The value the entry `e` writes. -/
def valX (fx hxx : R) (e : Ent R) : R := hxx * e.d1.grad * e.d2.grad + fx * e.val

theorem unary_cells (u : Moments R) {x : UReal2 R} (hv : x.hg.Valid) (f fx fxx : R) :
    ∃ z, UReal2.unary u x f fx fxx = some z ∧ z.mu = f ∧ z.hg.Valid ∧
      (∀ i, find? z.hg.diagmap i = (find? x.hg.diagmap i).map fun d =>
        ⟨fx * d.grad, fxx / Mom.lit 2 * d.grad * d.grad + fx * d.hhess, d.mom⟩) ∧
      (∀ a b, a < b → find? z.hg.trimap (toLex (a, b)) =
        (entsAt (CCmp.eqb (fxx / Mom.lit 2) 0) x.hg a b).getLast?.map (valX fx (fxx / Mom.lit 2))) := by
  unfold UReal2.unary
  simp only [hessEntries_eq x.hg hv, Option.bind_some]
  obtain ⟨fm, fs, fd⟩ := entries_facts hv (CCmp.eqb (fxx / Mom.lit 2) (0 : R))
  obtain ⟨hg, e, s, c⟩ := unary_fold u fx (fxx / Mom.lit 2)
    (hessSpec (CCmp.eqb (fxx / Mom.lit 2) 0) x.hg.dOf x.hg.diagmap x.hg.trimap) (fun e he => (fm e he).1)
    HessGrad.empty srt_empty
  have hdiag : ∀ i, find? hg.diagmap i = (find? x.hg.diagmap i).map fun d =>
        ⟨fx * d.grad, fxx / Mom.lit 2 * d.grad * d.grad + fx * d.hhess, d.mom⟩ := by
    intro i
    have := c i i
    rw [fd i] at this
    simp only [cell, if_true] at this
    rw [this]
    cases find? x.hg.diagmap i <;> simp [cellX, empty, find?]
  have last : ∀ (l : List (Ent R)) (o : Option (Diag R)), o.map Diag.hhess = none ∨ l ≠ [] →
      (l.foldl (fun o e => some (cellX u fx (fxx / Mom.lit 2) e o)) o).map Diag.hhess =
        l.getLast?.map (valX fx (fxx / Mom.lit 2)) := by
    intro l
    induction l with
    | nil => intro o ho; simpa using ho
    | cons e l ih =>
      intro o _
      rw [List.foldl_cons]
      cases l with
      | nil => simp [cellX, valX]
      | cons e' l => rw [ih _ (Or.inr (by simp))]; simp
  have hcell : ∀ a b, a ≠ b → (hg.cell u a b).isSome → (hg.cell u a a).isSome ∧ (hg.cell u b b).isSome := by
    intro a b hab hs
    have hne : entsAt (CCmp.eqb (fxx / Mom.lit 2) 0) x.hg a b ≠ [] := by
      intro h0
      rw [c a b] at hs
      unfold entsAt at h0
      rw [h0] at hs
      simp at hs
    obtain ⟨ha, hb⟩ := entsAt_vars hv hne
    constructor
    · simp [cell, hdiag, find?_isSome, ha]
    · simp [cell, hdiag, find?_isSome, hb]
  refine ⟨⟨hg, f⟩, by rw [e]; rfl, rfl, valid_of_cells u s hcell, hdiag, fun a b hab => ?_⟩
  rw [← cell_map_hhess u hg hab.ne, c a b]
  exact last _ _ (Or.inl (by simp))

/-- The writes to one off-diagonal element. -/
def hProc (fx fy hxx hyy : R) : Option R → List (Ent R) → List (Ent R) → Option R
  | o, [], [] => o
  | _, e :: ex, [] => hProc fx fy hxx hyy (some (valX fx hxx e)) ex []
  | _, [], e :: ey =>
    hProc fx fy hxx hyy (some (0 + hyy * e.d1.grad * e.d2.grad + fy * e.val)) [] ey
  | _, e :: ex, e' :: ey =>
    hProc fx fy hxx hyy (some (valX fx hxx e + hyy * e'.d1.grad * e'.d2.grad + fy * e'.val)) ex ey
termination_by _ a b => a.length + b.length

theorem cellProc_hhess (u : Moments R) (fx fy hxx hyy : R) (o : Option (Diag R)) (ex ey : List (Ent R)) :
    (cellProc u fx fy hxx hyy o ex ey).map Diag.hhess = hProc fx fy hxx hyy (o.map Diag.hhess) ex ey := by
  obtain ⟨n, hn⟩ : ∃ n, n = ex.length + ey.length := ⟨_, rfl⟩
  induction n using Nat.strong_induction_on generalizing ex ey o with
  | _ n ih =>
  match ex, ey with
  | [], [] => simp [cellProc, hProc]
  | e :: tx, [] => rw [cellProc, ih _ (by simp [hn]) _ tx [] rfl, hProc]; simp [cellX, valX]
  | [], e :: ty => rw [cellProc, ih _ (by simp [hn]) _ [] ty rfl, hProc]; simp [cellY, cellYNew]
  | e :: tx, e' :: ty =>
    rw [cellProc, ih _ (by simp [hn]; omega) _ tx ty rfl, hProc]; simp [cellY, cellX, valX]

/-- The diagonal left by the first loop of `binary`. -/
def diagMerge (fx fy hxx hyy : R) : Option (Diag R) → Option (Diag R) → Option (Diag R)
  | none, none => none
  | some d, none => some ⟨fx * d.grad, hxx * d.grad * d.grad + fx * d.hhess, d.mom⟩
  | none, some e => some ⟨0 + fy * e.grad, 0 + hyy * e.grad * e.grad + fy * e.hhess, e.mom⟩
  | some d, some e => some ⟨fx * d.grad + fy * e.grad,
      hxx * d.grad * d.grad + fx * d.hhess + hyy * e.grad * e.grad + fy * e.hhess, d.mom⟩

theorem binaryLoop_cells (u : Moments R) {x y : HessGrad R} (hx : x.Valid) (hy : y.Valid)
    (bx : x.Below) (by' : y.Below) (sx sy : Bool) (fx fy hxx hyy : R) :
    ∃ z, UReal2.binaryLoop u fx fy hxx hyy HessGrad.empty (hessSpec sx x.dOf x.diagmap x.trimap)
        (hessSpec sy y.dOf y.diagmap y.trimap) = some z ∧ z.Valid ∧
      (∀ i, find? z.diagmap i = diagMerge fx fy hxx hyy (find? x.diagmap i) (find? y.diagmap i)) ∧
      (∀ a b, a < b → find? z.trimap (toLex (a, b)) =
        hProc fx fy hxx hyy none (entsAt sx x a b) (entsAt sy y a b)) := by
  obtain ⟨fm, fs, fd⟩ := entries_facts hx sx
  obtain ⟨gm, gs, gd⟩ := entries_facts hy sy
  obtain ⟨hg, e, s, c⟩ := binaryLoop_spec u fx fy hxx hyy _ _ HessGrad.empty srt_empty
    (fun e he => (fm e he).1) (fun e he => (gm e he).1)
    (fun e he => Prod.Lex.lt_iff.2 (Or.inl (bx _ (fm e he).2.1)))
    (fun e he => Prod.Lex.lt_iff.2 (Or.inl (by' _ (gm e he).2.1))) fs gs
  have hdiag : ∀ i, find? hg.diagmap i =
      diagMerge fx fy hxx hyy (find? x.diagmap i) (find? y.diagmap i) := by
    intro i
    have := c i i
    rw [fd i, gd i] at this
    simp only [cell, if_true] at this
    rw [this]
    cases find? x.diagmap i <;> cases find? y.diagmap i <;>
      simp [cellProc, cellX, cellY, cellYNew, empty, find?, diagMerge, newDiag]
  have hsome : ∀ i, i ∈ keys x.diagmap ∨ i ∈ keys y.diagmap → (hg.cell u i i).isSome := by
    intro i hi
    simp only [cell, if_true, hdiag]
    rw [← find?_isSome, ← find?_isSome] at hi
    revert hi
    cases find? x.diagmap i <;> cases find? y.diagmap i <;> simp [diagMerge]
  refine ⟨hg, e, valid_of_cells u s fun a b hab h => ?_, hdiag, fun a b hab => ?_⟩
  · rw [c a b, cellProc_nil_isSome] at h
    simp only [cell_empty, Option.isSome_none, Bool.false_eq_true, false_or] at h
    rcases h with h | h
    · obtain ⟨h1, h2⟩ := entsAt_vars hx h
      exact ⟨hsome a (Or.inl h1), hsome b (Or.inl h2)⟩
    · obtain ⟨h1, h2⟩ := entsAt_vars hy h
      exact ⟨hsome a (Or.inr h1), hsome b (Or.inr h2)⟩
  · rw [← cell_map_hhess u hg hab.ne, c a b, cellProc_hhess]
    simp [entsAt]

/-- `mixedLoop` on a valid value: no failure, diagonal gradients and moments untouched, and the result does
not depend on `u`. -/
theorem mixedStep_spec (u : Moments R) (h : R) {res : HessGrad R} (hv : res.Valid) {px py : VId × Diag R}
    (hx : px.1 ∈ keys res.diagmap) (hy : py.1 ∈ keys res.diagmap) :
    ∃ z, (∀ u, UReal2.mixedStep u h res px py = some z) ∧ z.Valid ∧
      (∀ i, find? z.diagmap i = (find? res.diagmap i).map fun d =>
        if i = px.1 ∧ i = py.1 then { d with hhess := d.hhess + Mom.lit 2 * (h * px.2.grad * py.2.grad) }
        else d) ∧
      (∀ a b, a < b → find? z.trimap (toLex (a, b)) =
        if a = min px.1 py.1 ∧ b = max px.1 py.1 then
          some ((find? res.trimap (toLex (a, b))).getD 0 + h * px.2.grad * py.2.grad)
        else find? res.trimap (toLex (a, b))) := by
  unfold UReal2.mixedStep
  by_cases hxy : px.1 = py.1
  · obtain ⟨d0, hd0⟩ := Option.isSome_iff_exists.1 (find?_isSome.2 hy)
    refine ⟨⟨upsert res.diagmap py.1 ⟨0, 0, px.2.mom⟩ fun d =>
      { d with hhess := d.hhess + Mom.lit 2 * (h * px.2.grad * py.2.grad) }, res.trimap⟩, ?_, ?_, ?_, ?_⟩
    · intro u
      simp only [hxy, min_self, max_self, ne_eq, not_true_eq_false, if_false, modDiag]
      congr 2
      refine smap_ext (sorted_upsert hv.dsorted) (sorted_upsert hv.dsorted) fun k => ?_
      by_cases hk : k = py.1
      · subst hk; rw [find?_upsert_self hv.dsorted, find?_upsert_self hv.dsorted, hd0]; rfl
      · rw [find?_upsert_ne hk, find?_upsert_ne hk]
    · refine ⟨sorted_upsert hv.dsorted, hv.tsorted, fun i j hij => ?_⟩
      obtain ⟨a, b, c⟩ := hv.tri i j hij
      exact ⟨a, mem_keys_upsert.2 (Or.inr b), mem_keys_upsert.2 (Or.inr c)⟩
    · intro i
      by_cases hi : i = py.1
      · subst hi; simp [find?_upsert_self hv.dsorted, hxy, hd0]
      · simp only [find?_upsert_ne hi, hi, and_false, if_false]
        cases find? res.diagmap i <;> simp
    · intro a b hab
      simp only [hxy, min_self, max_self]
      rw [if_neg (fun h => hab.ne (h.1.trans h.2.symm))]
  · have hne : min px.1 py.1 ≠ max px.1 py.1 := by simpa using hxy
    have hlt : min px.1 py.1 < max px.1 py.1 := lt_of_le_of_ne min_le_max hne
    refine ⟨⟨res.diagmap, upsert res.trimap (toLex (min px.1 py.1, max px.1 py.1)) 0 fun t =>
      t + h * px.2.grad * py.2.grad⟩, ?_, ?_, ?_, ?_⟩
    · intro u
      simp only [ne_eq, hne, not_false_eq_true, if_true, modTri, hlt]
    · refine ⟨hv.dsorted, sorted_upsert hv.tsorted, fun i j hij => ?_⟩
      rcases mem_keys_upsert.1 hij with hk | hk
      · obtain ⟨rfl, rfl⟩ := key_eq_iff.1 hk
        refine ⟨hlt, ?_, ?_⟩
        · rcases min_choice px.1 py.1 with e | e <;> rw [e] <;> assumption
        · rcases max_choice px.1 py.1 with e | e <;> rw [e] <;> assumption
      · exact hv.tri i j hk
    · intro i
      have : ¬ (i = px.1 ∧ i = py.1) := fun h => hxy (h.1.symm.trans h.2)
      simp only [this, if_false]
      cases find? res.diagmap i <;> simp
    · intro a b hab
      simp only
      split_ifs with hk
      · obtain ⟨rfl, rfl⟩ := hk
        rw [find?_upsert_self hv.tsorted]
      · rw [find?_upsert_ne fun h' => hk (key_eq_iff.1 h')]

/-- `mixedLoop` on a valid value, without arithmetic laws. -/
theorem mixedLoop_lawfree (h : R) (x y : SMap VId (Diag R)) {res : HessGrad R} (hv : res.Valid)
    (hx : ∀ i ∈ keys x, i ∈ keys res.diagmap) (hy : ∀ i ∈ keys y, i ∈ keys res.diagmap) :
    ∃ z, (∀ u, UReal2.mixedLoop u h res x y = some z) ∧ z.Valid ∧
      (∀ i, (find? z.diagmap i).map (fun d => (d.grad, d.mom)) =
        (find? res.diagmap i).map fun d => (d.grad, d.mom)) := by
  have keysOf : ∀ {r z : HessGrad R}, (∀ i, (find? z.diagmap i).map (fun d => (d.grad, d.mom)) =
        (find? r.diagmap i).map fun d => (d.grad, d.mom)) → ∀ i, i ∈ keys r.diagmap → i ∈ keys z.diagmap := by
    intro r z hz i hi
    have := congrArg Option.isSome (hz i)
    simp only [Option.isSome_map] at this
    rw [← find?_isSome, this, find?_isSome]; exact hi
  have inner : ∀ (px : VId × Diag R) (y : SMap VId (Diag R)) (res : HessGrad R), res.Valid →
      px.1 ∈ keys res.diagmap → (∀ i ∈ keys y, i ∈ keys res.diagmap) →
      ∃ z, (∀ u, y.foldlM (fun res py => UReal2.mixedStep u h res px py) res = some z) ∧ z.Valid ∧
      (∀ i, (find? z.diagmap i).map (fun d => (d.grad, d.mom)) =
        (find? res.diagmap i).map fun d => (d.grad, d.mom)) := by
    intro px y
    induction y with
    | nil => intro res hv _ _; exact ⟨res, fun u => rfl, hv, fun _ => rfl⟩
    | cons py y ih =>
      intro res hv hx hy
      obtain ⟨z1, e1, v1, d1, -⟩ := mixedStep_spec px.2.mom h hv (px := px) (py := py) hx (hy _ (by simp))
      have g1 : ∀ i, (find? z1.diagmap i).map (fun d => (d.grad, d.mom)) =
          (find? res.diagmap i).map fun d => (d.grad, d.mom) := by
        intro i
        rw [d1, Option.map_map]
        congr 1; funext d
        simp only [Function.comp]; split_ifs <;> rfl
      obtain ⟨z2, e2, v2, g2⟩ := ih z1 v1 (keysOf g1 _ hx) fun i hi => keysOf g1 i (hy i (by simp [hi]))
      exact ⟨z2, fun u => by rw [List.foldlM_cons, e1 u]; exact e2 u, v2, fun i => (g2 i).trans (g1 i)⟩
  unfold UReal2.mixedLoop
  induction x generalizing res with
  | nil => exact ⟨res, fun u => rfl, hv, fun _ => rfl⟩
  | cons px x ih =>
    obtain ⟨z1, e1, v1, g1⟩ := inner px y res hv (hx _ (by simp)) hy
    obtain ⟨z2, e2, v2, g2⟩ := ih v1 (fun i hi => keysOf g1 i (hx i (by simp [hi])))
      (fun i hi => keysOf g1 i (hy i hi))
    exact ⟨z2, fun u => by rw [List.foldlM_cons, e1 u]; exact e2 u, v2, fun i => (g2 i).trans (g1 i)⟩

/-- First-order part of a merge. -/
def gradMerge (fx fy : R) : Option (Diag R) → Option (Diag R) → Option (R × Moments R)
  | none, none => none
  | some d, none => some (fx * d.grad, d.mom)
  | none, some e => some (0 + fy * e.grad, e.mom)
  | some d, some e => some (fx * d.grad + fy * e.grad, d.mom)

/-- `unary` on a valid value: result independent of `u`, valid. -/
theorem unary_lawfree {x : UReal2 R} (hv : x.hg.Valid) (f fx fxx : R) :
    ∃ z, (∀ u, UReal2.unary u x f fx fxx = some z) ∧ z.mu = f ∧ z.hg.Valid ∧
      keys z.hg.diagmap = keys x.hg.diagmap ∧
      (∀ i, (find? z.hg.diagmap i).map (fun d => (d.grad, d.mom)) =
        (find? x.hg.diagmap i).map fun d => (fx * d.grad, d.mom)) := by
  obtain ⟨z, e, m, v, d, t⟩ := unary_cells ⟨0, 0, 0, 0, 0, 0⟩ hv f fx fxx
  refine ⟨z, fun u => ?_, m, v, keys_eq_of_mem v.dsorted hv.dsorted fun i => ?_, fun i => ?_⟩
  · obtain ⟨z', e', m', v', d', t'⟩ := unary_cells u hv f fx fxx
    rw [e', Option.some_inj]
    have := hg_ext v' v (fun i => (d' i).trans (d i).symm) fun a b hab => (t' a b hab).trans (t a b hab).symm
    cases z; cases z'; simp_all
  · rw [← find?_isSome, ← find?_isSome, d]; simp
  · rw [d, Option.map_map]; rfl

/-- `binary` on valid values: result independent of `u`, valid. -/
theorem binary_lawfree {x y : UReal2 R} (hx : Ok2 x) (hy : Ok2 y) (f fx fy fxx fyy fxy : R) :
    ∃ z, (∀ u, UReal2.binary u x y f fx fy fxx fyy fxy = some z) ∧ z.mu = f ∧ z.hg.Valid ∧
      (∀ i, i ∈ keys z.hg.diagmap ↔ i ∈ keys x.hg.diagmap ∨ i ∈ keys y.hg.diagmap) ∧
      (∀ i, (find? z.hg.diagmap i).map (fun d => (d.grad, d.mom)) =
        gradMerge fx fy (find? x.hg.diagmap i) (find? y.hg.diagmap i)) := by
  unfold UReal2.binary
  simp only [hessEntries_eq _ hx.valid, hessEntries_eq _ hy.valid, Option.bind_some]
  have key := fun u => binaryLoop_cells u hx.valid hy.valid hx.below hy.below
    (CCmp.eqb (fxx / Mom.lit 2) 0) (CCmp.eqb (fyy / Mom.lit 2) 0) fx fy (fxx / Mom.lit 2) (fyy / Mom.lit 2)
  obtain ⟨z, e, v, d, t⟩ := key ⟨0, 0, 0, 0, 0, 0⟩
  have e' : ∀ u, UReal2.binaryLoop u fx fy (fxx / Mom.lit 2) (fyy / Mom.lit 2) HessGrad.empty
      (hessSpec (CCmp.eqb (fxx / Mom.lit 2) 0) x.hg.dOf x.hg.diagmap x.hg.trimap)
      (hessSpec (CCmp.eqb (fyy / Mom.lit 2) 0) y.hg.dOf y.hg.diagmap y.hg.trimap) = some z := by
    intro u
    obtain ⟨z', e', v', d', t'⟩ := key u
    rw [e', Option.some_inj]
    exact hg_ext v' v (fun i => (d' i).trans (d i).symm) fun a b hab => (t' a b hab).trans (t a b hab).symm
  have hk : ∀ i, i ∈ keys z.diagmap ↔ i ∈ keys x.hg.diagmap ∨ i ∈ keys y.hg.diagmap := by
    intro i
    rw [← find?_isSome, ← find?_isSome, ← find?_isSome, d]
    cases find? x.hg.diagmap i <;> cases find? y.hg.diagmap i <;> simp [diagMerge]
  have hgm : ∀ i, (find? z.diagmap i).map (fun d => (d.grad, d.mom)) =
      gradMerge fx fy (find? x.hg.diagmap i) (find? y.hg.diagmap i) := by
    intro i
    rw [d]
    cases find? x.hg.diagmap i <;> cases find? y.hg.diagmap i <;> rfl
  simp only [e', Option.bind_some]
  cases hb : CCmp.eqb (fxy / Mom.lit 2) (0 : R) with
  | true => exact ⟨⟨z, f⟩, fun u => rfl, rfl, v, hk, hgm⟩
  | false =>
    obtain ⟨z2, e2, v2, g2⟩ := mixedLoop_lawfree (fxy / Mom.lit 2) x.hg.diagmap y.hg.diagmap v
      (fun i hi => (hk i).2 (Or.inl hi)) (fun i hi => (hk i).2 (Or.inr hi))
    refine ⟨⟨z2, f⟩, fun u => ?_, rfl, v2, fun i => ?_, fun i => (g2 i).trans (hgm i)⟩
    · simp [e2 u]
    · rw [← hk i, ← find?_isSome, ← find?_isSome]
      have := congrArg Option.isSome (g2 i)
      simp only [Option.isSome_map] at this
      rw [this]

end lawfree

/-! ## Value level -/

section ring
variable [CommRing R] [Div R] [CCmp R]

/-- `H` by cells. -/
theorem H_diag (hg : HessGrad R) (i : VId) : hg.H i i = ((find? hg.diagmap i).map Diag.hhess).getD 0 := by
  unfold H; cases find? hg.diagmap i <;> simp

theorem H_lt (hg : HessGrad R) {a b : VId} (h : a < b) :
    hg.H a b = (find? hg.trimap (toLex (a, b))).getD 0 := by
  unfold H
  rw [if_neg h.ne, min_eq_left h.le, max_eq_right h.le]
  unfold SMap.get
  cases find? hg.trimap (toLex (a, b)) <;> simp

theorem H_comm (hg : HessGrad R) (a b : VId) : hg.H a b = hg.H b a := by
  unfold H
  by_cases h : a = b
  · subst h; rfl
  · rw [if_neg h, if_neg (Ne.symm h), min_comm, max_comm]

theorem G_def (hg : HessGrad R) (i : VId) : hg.G i = ((find? hg.diagmap i).map Diag.grad).getD 0 := by
  unfold G; cases find? hg.diagmap i <;> simp

theorem G_dOf (hg : HessGrad R) (i : VId) : (hg.dOf i).grad = hg.G i := by
  unfold G dOf; cases find? hg.diagmap i <;> simp

theorem G_zero {hg : HessGrad R} {i : VId} (h : i ∉ keys hg.diagmap) : hg.G i = 0 := by
  rw [G_def, find?_eq_none.2 h]; rfl

theorem H_zero {hg : HessGrad R} (hv : hg.Valid) {i : VId} (h : i ∉ keys hg.diagmap) (j : VId) :
    hg.H i j = 0 := by
  by_cases hij : i = j
  · subst hij; rw [H_diag, find?_eq_none.2 h]; rfl
  · rcases lt_or_gt_of_ne hij with hl | hl
    · rw [H_lt _ hl, find?_eq_none.2 fun hm => h (hv.tri _ _ hm).2.1]; rfl
    · rw [H_comm, H_lt _ hl, find?_eq_none.2 fun hm => h (hv.tri _ _ hm).2.2]; rfl

/-- What the mixed loop adds. -/
def mixedAdd (x y : SMap VId (Diag R)) (a b : VId) : R :=
  (x.map fun px => (y.map fun py =>
    ((if a = px.1 ∧ b = py.1 then 1 else 0) + (if a = py.1 ∧ b = px.1 then 1 else 0)) *
      (px.2.grad * py.2.grad)).sum).sum

/-- `z` is `res` with `c a b` added to the half second derivatives. -/
structure Added (res z : HessGrad R) (c : VId → VId → R) : Prop where
  valid : z.Valid
  keys : keys z.diagmap = SMap.keys res.diagmap
  G : ∀ i, z.G i = res.G i
  mom : ∀ i, z.momOf i = res.momOf i
  H : ∀ a b, z.H a b = res.H a b + c a b

theorem Added.trans {r z w : HessGrad R} {c c' : VId → VId → R} (h : Added r z c) (h' : Added z w c') :
    Added r w fun a b => c a b + c' a b :=
  ⟨h'.valid, h'.keys.trans h.keys, fun i => (h'.G i).trans (h.G i), fun i => (h'.mom i).trans (h.mom i),
    fun a b => by rw [h'.H, h.H, add_assoc]⟩

theorem mixedStep_added (h : R) {res : HessGrad R} (hv : res.Valid) {px py : VId × Diag R}
    (hx : px.1 ∈ keys res.diagmap) (hy : py.1 ∈ keys res.diagmap) :
    ∃ z, (∀ u, UReal2.mixedStep u h res px py = some z) ∧ Added res z fun a b =>
      h * (((if a = px.1 ∧ b = py.1 then 1 else 0) + (if a = py.1 ∧ b = px.1 then 1 else 0)) *
      (px.2.grad * py.2.grad)) := by
  obtain ⟨z, e, v, hd, ht⟩ := mixedStep_spec px.2.mom h hv hx hy
  refine ⟨z, e, v, ?_, ?_, ?_, ?_⟩
  · refine keys_eq_of_mem v.dsorted hv.dsorted fun i => ?_
    rw [← find?_isSome, ← find?_isSome, hd]; simp
  · intro i
    rw [G_def, G_def, hd, Option.map_map]
    congr 2; funext d
    simp only [Function.comp]; split_ifs <;> rfl
  · intro i
    unfold momOf
    rw [hd, Option.map_map]
    congr 1; funext d
    simp only [Function.comp]; split_ifs <;> rfl
  · have hoff : ∀ a b, a < b → z.H a b = res.H a b +
        h * (((if a = px.1 ∧ b = py.1 then 1 else 0) + (if a = py.1 ∧ b = px.1 then 1 else 0)) *
          (px.2.grad * py.2.grad)) := by
      intro a b hab
      rw [H_lt _ hab, H_lt _ hab, ht a b hab]
      rcases lt_trichotomy px.1 py.1 with hl | hl | hl
      · rw [min_eq_left hl.le, max_eq_right hl.le]
        have h2 : ¬ (a = py.1 ∧ b = px.1) := by rintro ⟨rfl, rfl⟩; exact lt_asymm hab hl
        simp only [h2, if_false]
        split_ifs <;> simp <;> ring
      · rw [hl, min_self, max_self]
        have h2 : ¬ (a = py.1 ∧ b = py.1) := by rintro ⟨rfl, rfl⟩; exact lt_irrefl _ hab
        simp [h2]
      · rw [min_eq_right hl.le, max_eq_left hl.le]
        have h2 : ¬ (a = px.1 ∧ b = py.1) := by rintro ⟨rfl, rfl⟩; exact lt_asymm hab hl
        simp only [h2, if_false]
        split_ifs <;> simp <;> ring
    intro a b
    rcases lt_trichotomy a b with hab | rfl | hab
    · exact hoff a b hab
    · rw [H_diag, H_diag, hd, Option.map_map]
      by_cases hk : a = px.1 ∧ a = py.1
      · obtain ⟨d, hd0⟩ := Option.isSome_iff_exists.1 (find?_isSome.2 hy)
        rw [← hk.2] at hd0
        rw [hd0]
        simp [hk.1.symm, hk.2.symm, Mom.lit]; ring
      · have hk' : ¬ (a = py.1 ∧ a = px.1) := fun h => hk h.symm
        simp only [hk, hk', if_false]
        simp [Function.comp_def]
    · rw [H_comm, hoff b a hab, H_comm res]
      simp only [and_comm (a := b = _)]
      ring

theorem mixedLoop_added (h : R) (x y : SMap VId (Diag R)) {res : HessGrad R} (hv : res.Valid)
    (hx : ∀ i ∈ keys x, i ∈ keys res.diagmap) (hy : ∀ i ∈ keys y, i ∈ keys res.diagmap) :
    ∃ z, (∀ u, UReal2.mixedLoop u h res x y = some z) ∧ Added res z fun a b => h * mixedAdd x y a b := by
  have inner : ∀ (px : VId × Diag R) (y : SMap VId (Diag R)) (res : HessGrad R), res.Valid →
      px.1 ∈ keys res.diagmap → (∀ i ∈ keys y, i ∈ keys res.diagmap) →
      ∃ z, (∀ u, y.foldlM (fun res py => UReal2.mixedStep u h res px py) res = some z) ∧
        Added res z fun a b => h * (y.map fun py =>
          ((if a = px.1 ∧ b = py.1 then 1 else 0) + (if a = py.1 ∧ b = px.1 then 1 else 0)) *
            (px.2.grad * py.2.grad)).sum := by
    intro px y
    induction y with
    | nil =>
      intro res hv _ _
      exact ⟨res, fun u => rfl, hv, rfl, fun _ => rfl, fun _ => rfl, fun _ _ => by simp⟩
    | cons py y ih =>
      intro res hv hx hy
      obtain ⟨z1, e1, a1⟩ := mixedStep_added h hv (px := px) (py := py) hx (hy _ (by simp))
      obtain ⟨z2, e2, a2⟩ := ih z1 a1.valid (by rw [a1.keys]; exact hx)
        (fun i hi => by rw [a1.keys]; exact hy i (by simp [hi]))
      refine ⟨z2, fun u => ?_, ?_⟩
      · rw [List.foldlM_cons, e1 u]; exact e2 u
      · have := a1.trans a2
        refine ⟨this.valid, this.keys, this.G, this.mom, fun a b => ?_⟩
        rw [this.H]
        simp only [List.map_cons, List.sum_cons]
        ring
  unfold UReal2.mixedLoop mixedAdd
  induction x generalizing res with
  | nil => exact ⟨res, fun u => rfl, hv, rfl, fun _ => rfl, fun _ => rfl, fun _ _ => by simp⟩
  | cons px x ih =>
    obtain ⟨z1, e1, a1⟩ := inner px y res hv (hx _ (by simp)) hy
    obtain ⟨z2, e2, a2⟩ := ih a1.valid (fun i hi => by rw [a1.keys]; exact hx i (by simp [hi]))
      (fun i hi => by rw [a1.keys]; exact hy i hi)
    refine ⟨z2, fun u => ?_, ?_⟩
    · rw [List.foldlM_cons, e1 u]; exact e2 u
    · have := a1.trans a2
      refine ⟨this.valid, this.keys, this.G, this.mom, fun a b => ?_⟩
      rw [this.H]
      simp only [List.map_cons, List.sum_cons]
      ring

theorem sum_pick (m : SMap VId (Diag R)) (hm : Sorted m) (a : VId) :
    (m.map fun p => if a = p.1 then p.2.grad else 0).sum = ((find? m a).map Diag.grad).getD 0 := by
  induction m with
  | nil => simp [find?]
  | cons p t ih =>
    obtain ⟨k, d⟩ := p
    have hs := sorted_cons.1 hm
    rw [List.map_cons, List.sum_cons, ih hs.2]
    by_cases h : a = k
    · subst h
      rw [find?_eq_none.2 fun hmem => (hs.1 a hmem).false]
      simp [find?]
    · simp [find?, h, Ne.symm h]

theorem mixedAdd_eq (x y : HessGrad R) (hx : x.Valid) (hy : y.Valid) (a b : VId) :
    mixedAdd x.diagmap y.diagmap a b = x.G a * y.G b + x.G b * y.G a := by
  have e : ∀ px : VId × Diag R, (y.diagmap.map fun py =>
      ((if a = px.1 ∧ b = py.1 then 1 else 0) + (if a = py.1 ∧ b = px.1 then 1 else 0)) *
        (px.2.grad * py.2.grad)).sum =
      (if a = px.1 then px.2.grad else 0) * y.G b + (if b = px.1 then px.2.grad else 0) * y.G a := by
    intro px
    rw [G_def, G_def, ← sum_pick _ hy.dsorted, ← sum_pick _ hy.dsorted]
    induction y.diagmap with
    | nil => simp
    | cons q t ih =>
      simp only [List.map_cons, List.sum_cons] at ih ⊢
      rw [ih]
      rcases Classical.propComplete (a = px.1) with h1 | h1 <;>
        rcases Classical.propComplete (b = px.1) with h2 | h2 <;>
        rcases Classical.propComplete (a = q.1) with h3 | h3 <;>
        rcases Classical.propComplete (b = q.1) with h4 | h4 <;>
        simp only [h1, h2, h3, h4, true_and, false_and, and_true, and_false, if_true, if_false] <;> ring
  unfold mixedAdd
  simp only [e]
  rw [G_def x, G_def x, ← sum_pick _ hx.dsorted, ← sum_pick _ hx.dsorted]
  induction x.diagmap with
  | nil => simp
  | cons q t ih =>
    simp only [List.map_cons, List.sum_cons] at ih ⊢
    rw [ih]; ring

/-- At the pair `a < b` the listing `es` of `hg` is right for a function with half second derivative `h`: the
pair is shown once with its value, or is not shown and would contribute 0. -/
def GoodAt (skip : Bool) (hg : HessGrad R) (h : R) (a b : VId) : Prop :=
  entsAt skip hg a b = [⟨a, b, hg.dOf a, hg.dOf b, hg.H a b⟩] ∨
    (entsAt skip hg a b = [] ∧ hg.H a b = 0 ∧ h * hg.G a * hg.G b = 0)

theorem visits_filter {hg : HessGrad R} {es : List (Ent R)} {P : VId → VId → Prop} (hv : Visits hg es P)
    {a b : VId} (hP : P a b) (hes : ∀ e ∈ es, e.d1 = hg.dOf e.id1 ∧ e.d2 = hg.dOf e.id2) :
    es.filter (fun e => decide (e.key = toLex (a, b))) = [⟨a, b, hg.dOf a, hg.dOf b, hg.H a b⟩] := by
  obtain ⟨e, he, rfl, rfl⟩ := (hv.all a b).2 hP
  have hval : ∀ f ∈ es, f.key = toLex (e.id1, e.id2) →
      f = ⟨e.id1, e.id2, hg.dOf e.id1, hg.dOf e.id2, hg.H e.id1 e.id2⟩ := by
    intro f hf hk
    obtain ⟨h1, h2⟩ := key_eq_iff.1 hk
    obtain ⟨h3, h4⟩ := hes f hf
    have h5 := (hv.data f hf).2.2
    rw [h1] at h3; rw [h2] at h4; rw [h1, h2] at h5
    cases f; simp_all
  have hpw : (es.filter fun f => decide (f.key = toLex (e.id1, e.id2))).Pairwise
      fun f f' => f.id1 < f'.id1 ∨ (f.id1 = f'.id1 ∧ f.id2 < f'.id2) := hv.once.sublist List.filter_sublist
  have hmem : e ∈ es.filter fun f => decide (f.key = toLex (e.id1, e.id2)) :=
    List.mem_filter.2 ⟨he, by simp [Ent.key]⟩
  have hall : ∀ f ∈ es.filter fun f => decide (f.key = toLex (e.id1, e.id2)),
      f = ⟨e.id1, e.id2, hg.dOf e.id1, hg.dOf e.id2, hg.H e.id1 e.id2⟩ := fun f hf =>
    hval f (List.mem_filter.1 hf).1 (of_decide_eq_true (List.mem_filter.1 hf).2)
  generalize (es.filter fun f => decide (f.key = toLex (e.id1, e.id2))) = l at hpw hmem hall
  match l, hpw, hmem, hall with
  | [], _, hm, _ => simp at hm
  | [f], _, _, ha => rw [ha f (by simp)]
  | f :: f' :: t, hp, _, ha =>
    have := (List.pairwise_cons.1 hp).1 f' (by simp)
    rw [ha f (by simp), ha f' (by simp)] at this
    simp at this

theorem goodAt_of_visits {skip : Bool} {hg : HessGrad R} (hv : hg.Valid)
    (h : ∃ es, hg.hessEntries skip = some es ∧ Visits hg es fun i j => i ∈ hg.vars ∧ j ∈ hg.vars ∧ i ≤ j)
    (c : R) {a b : VId} (hab : a < b) : GoodAt skip hg c a b := by
  obtain ⟨es, he, hvis⟩ := h
  rw [hessEntries_eq hg hv] at he
  cases he
  have hm := (entries_facts hv skip).1
  by_cases ha : a ∈ keys hg.diagmap
  · by_cases hb : b ∈ keys hg.diagmap
    · left
      exact visits_filter hvis (a := a) (b := b) ⟨by simpa [vars] using ha, by simpa [vars] using hb, hab.le⟩
        (fun e he => ⟨(hm e he).2.2.2.1, (hm e he).2.2.2.2⟩)
    · right
      refine ⟨?_, by rw [H_comm]; exact H_zero hv hb a, by rw [G_zero hb, mul_zero]⟩
      by_contra hne
      exact hb (entsAt_vars hv hne).2
  · right
    refine ⟨?_, H_zero hv ha b, by rw [G_zero ha, mul_zero, zero_mul]⟩
    by_contra hne
    exact ha (entsAt_vars hv hne).1

theorem goodAt_skip {hg : HessGrad R} (hv : hg.Valid) {c : R} (hc : c = 0) {a b : VId} (hab : a < b) :
    GoodAt true hg c a b := by
  have := hessSpec_off_filter hg.dOf hab hg.diagmap hg.trimap hv.dsorted hv.triOf hv.tsorted
    fun i hi => find_dOf hi
  unfold GoodAt entsAt
  rw [this, H_lt _ hab]
  cases find? hg.trimap (toLex (a, b)) with
  | none => right; simp [hc]
  | some h => left; simp

theorem hProc_good {sx sy : Bool} {x y : HessGrad R} {fx fy hxx hyy : R} {a b : VId}
    (gx : GoodAt sx x hxx a b) (gy : GoodAt sy y hyy a b) :
    (hProc fx fy hxx hyy none (entsAt sx x a b) (entsAt sy y a b)).getD 0 =
      hxx * x.G a * x.G b + fx * x.H a b + hyy * y.G a * y.G b + fy * y.H a b := by
  rcases gx with gx | ⟨gx, h1, h2⟩ <;> rcases gy with gy | ⟨gy, h3, h4⟩ <;> rw [gx, gy] <;>
    simp only [hProc, valX, Option.getD_some, Option.getD_none, G_dOf]
  · rw [h3, h4]; ring
  · rw [h1, h2]; ring
  · rw [h1, h2, h3, h4]; ring

theorem unary_H {x : UReal2 R} (hv : x.hg.Valid) {f fx fxx : R}
    (good : ∀ a b, a < b → GoodAt (CCmp.eqb (fxx / Mom.lit 2) 0) x.hg (fxx / Mom.lit 2) a b)
    {z : UReal2 R} {u : Moments R} (hz : UReal2.unary u x f fx fxx = some z) (a b : VId) :
    z.hg.H a b = fxx / Mom.lit 2 * x.hg.G a * x.hg.G b + fx * x.hg.H a b := by
  obtain ⟨z', e, m, v, d, t⟩ := unary_cells u hv f fx fxx
  obtain rfl : z' = z := Option.some_inj.1 (e.symm.trans hz)
  have hoff : ∀ a b, a < b → z'.hg.H a b = fxx / Mom.lit 2 * x.hg.G a * x.hg.G b + fx * x.hg.H a b := by
    intro a b hab
    rw [H_lt _ hab, t a b hab]
    rcases good a b hab with g | ⟨g, h1, h2⟩ <;> rw [g]
    · simp [valX, G_dOf]
    · simp [h1, h2]
  rcases lt_trichotomy a b with hab | rfl | hab
  · exact hoff a b hab
  · rw [H_diag, d, H_diag, G_def]
    cases find? x.hg.diagmap a <;> simp
  · rw [H_comm, hoff b a hab, H_comm x.hg]; ring

theorem binary_H_of {x y : UReal2 R} (hx : Ok2 x) (hy : Ok2 y) {f fx fy fxx fyy fxy : R}
    (eqb0 : ∀ r : R, CCmp.eqb r 0 = true → r = 0) {a b : VId}
    (gx : a ≠ b → GoodAt (CCmp.eqb (fxx / Mom.lit 2) 0) x.hg (fxx / Mom.lit 2) (min a b) (max a b))
    (gy : a ≠ b → GoodAt (CCmp.eqb (fyy / Mom.lit 2) 0) y.hg (fyy / Mom.lit 2) (min a b) (max a b))
    {z : UReal2 R} {u : Moments R} (hz : UReal2.binary u x y f fx fy fxx fyy fxy = some z) :
    z.hg.H a b = fxx / Mom.lit 2 * x.hg.G a * x.hg.G b + fx * x.hg.H a b +
      (fyy / Mom.lit 2 * y.hg.G a * y.hg.G b + fy * y.hg.H a b) +
      fxy / Mom.lit 2 * (x.hg.G a * y.hg.G b + x.hg.G b * y.hg.G a) := by
  unfold UReal2.binary at hz
  simp only [hessEntries_eq _ hx.valid, hessEntries_eq _ hy.valid, Option.bind_some] at hz
  obtain ⟨w, e, v, d, t⟩ := binaryLoop_cells u hx.valid hy.valid hx.below hy.below
    (CCmp.eqb (fxx / Mom.lit 2) 0) (CCmp.eqb (fyy / Mom.lit 2) 0) fx fy (fxx / Mom.lit 2) (fyy / Mom.lit 2)
  rw [e, Option.bind_some] at hz
  have hw : w.H a b = fxx / Mom.lit 2 * x.hg.G a * x.hg.G b + fx * x.hg.H a b +
      (fyy / Mom.lit 2 * y.hg.G a * y.hg.G b + fy * y.hg.H a b) := by
    rcases lt_trichotomy a b with hab | rfl | hab
    · have g1 := gx hab.ne
      have g2 := gy hab.ne
      rw [min_eq_left hab.le, max_eq_right hab.le] at g1 g2
      rw [H_lt _ hab, t a b hab, hProc_good g1 g2]
      ring
    · rw [H_diag, d, H_diag, H_diag, G_def, G_def]
      cases find? x.hg.diagmap a <;> cases find? y.hg.diagmap a <;> simp [diagMerge]; ring
    · have g1 := gx hab.ne'
      have g2 := gy hab.ne'
      rw [min_eq_right hab.le, max_eq_left hab.le] at g1 g2
      rw [H_comm, H_lt _ hab, t b a hab, hProc_good g1 g2, H_comm x.hg, H_comm y.hg]; ring
  have hk : ∀ i, i ∈ keys w.diagmap ↔ i ∈ keys x.hg.diagmap ∨ i ∈ keys y.hg.diagmap := by
    intro i
    rw [← find?_isSome, ← find?_isSome, ← find?_isSome, d]
    cases find? x.hg.diagmap i <;> cases find? y.hg.diagmap i <;> simp [diagMerge]
  cases hb : CCmp.eqb (fxy / Mom.lit 2) (0 : R) with
  | true =>
    rw [hb] at hz
    simp only [Bool.not_true, Bool.false_eq_true, if_false, Option.map_some, Option.some_inj] at hz
    subst hz
    rw [hw, eqb0 _ hb]; ring
  | false =>
    obtain ⟨z2, e2, a2⟩ := mixedLoop_added (fxy / Mom.lit 2) x.hg.diagmap y.hg.diagmap v
      (fun i hi => (hk i).2 (Or.inl hi)) (fun i hi => (hk i).2 (Or.inr hi))
    rw [hb, e2 u] at hz
    simp only [Bool.not_false, if_true, Option.map_some, Option.some_inj] at hz
    subst hz
    rw [a2.H, hw, mixedAdd_eq _ _ hx.valid hy.valid]

theorem binary_H {x y : UReal2 R} (hx : Ok2 x) (hy : Ok2 y) {f fx fy fxx fyy fxy : R}
    (eqb0 : ∀ r : R, CCmp.eqb r 0 = true → r = 0)
    (gx : ∀ a b, a < b → GoodAt (CCmp.eqb (fxx / Mom.lit 2) 0) x.hg (fxx / Mom.lit 2) a b)
    (gy : ∀ a b, a < b → GoodAt (CCmp.eqb (fyy / Mom.lit 2) 0) y.hg (fyy / Mom.lit 2) a b)
    {z : UReal2 R} {u : Moments R} (hz : UReal2.binary u x y f fx fy fxx fyy fxy = some z) (a b : VId) :
    z.hg.H a b = fxx / Mom.lit 2 * x.hg.G a * x.hg.G b + fx * x.hg.H a b +
      (fyy / Mom.lit 2 * y.hg.G a * y.hg.G b + fy * y.hg.H a b) +
      fxy / Mom.lit 2 * (x.hg.G a * y.hg.G b + x.hg.G b * y.hg.G a) :=
  binary_H_of hx hy eqb0 (fun h => gx _ _ (lt_of_le_of_ne min_le_max (by simpa using h)))
    (fun h => gy _ _ (lt_of_le_of_ne min_le_max (by simpa using h))) hz

end ring
end Unc
