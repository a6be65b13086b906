import Verif.Lemmas.UReal2Ops
import Mathlib.Data.Real.Basic
import Mathlib.Tactic.NormNum
import Mathlib.Tactic.FinCases

/-!
# Properties of the iterators over the second-order coefficients (C45, C46, part of C21)

`hg.triEntries skip` and `hg.hessEntries skip` are the entries seen by a loop
`for (it = ctbegin(skip); it != ctend(); ++it)` and `for (it = chbegin(skip); it != chend(); ++it)`;
`none` would be undefined behaviour, a failed assert or a loop that does not stop.
-/

namespace Unc.Props
open Unc SMap HessGrad

/-! Concrete values. -/

/-- moments of a normal variable -/
def exN : Moments ℝ := ⟨0, 3, 0, 15, 0, 105⟩
/-- moments of an asymmetric variable (exponential distribution) -/
def exE : Moments ℝ := ⟨2, 9, 44, 265, 1854, 14833⟩
/-- depends on variables 1, 2, 4, with mixed second derivatives stored for (1,2) and (1,4) only -/
def exH : HessGrad ℝ :=
  ⟨[(1, ⟨2, 1, exN⟩), (2, ⟨-1, 3, exE⟩), (4, ⟨5, 0, exN⟩)], [(toLex (1, 2), 7), (toLex (1, 4), -2)]⟩
/-- depends on two variables, no mixed second derivative stored -/
def exH2 : HessGrad ℝ := ⟨[(1, ⟨1, 0, exN⟩), (2, ⟨1, 0, exE⟩)], []⟩
/-- depends on two variables, the mixed second derivative is stored -/
def exH3 : HessGrad ℝ := ⟨[(2, ⟨3, 1, exE⟩), (5, ⟨1, 0, exN⟩)], [(toLex (2, 5), 4)]⟩

theorem valid_exH : exH.Valid := by
  refine ⟨by simp [exH, Sorted], ?_, ?_⟩
  · simp [exH, Sorted, Prod.Lex.lt_iff]
  · intro i j h
    simp only [exH, keys_cons, keys_nil, List.mem_cons, List.not_mem_nil, or_false, key_eq_iff] at h
    rcases h with ⟨rfl, rfl⟩ | ⟨rfl, rfl⟩ <;> simp [exH]
theorem valid_exH2 : exH2.Valid :=
  ⟨by simp [exH2, Sorted], by simp [exH2, Sorted], by simp [exH2]⟩
theorem valid_exH3 : exH3.Valid := by
  refine ⟨by simp [exH3, Sorted], by simp [exH3, Sorted], ?_⟩
  intro i j h
  simp only [exH3, keys_cons, keys_nil, List.mem_cons, List.not_mem_nil, or_false, key_eq_iff] at h
  obtain ⟨rfl, rfl⟩ := h
  simp [exH3]

section
variable {R : Type*} [Zero R]

/-! ## C45 -/

omit [Zero R] in
theorem mem_pairsFrom {dm : SMap VId (Diag R)} (hs : Sorted dm) (p : (VId × Diag R) × (VId × Diag R)) :
    p ∈ pairsFrom dm ↔ p.1 ∈ dm ∧ p.2 ∈ dm ∧ p.1.1 < p.2.1 := by
  induction dm with
  | nil => simp [pairsFrom]
  | cons q t ih =>
    have hs' := sorted_cons.1 hs
    have lt {r : VId × Diag R} (hr : r ∈ t) : q.1 < r.1 := hs'.1 _ (List.mem_map_of_mem (f := Prod.fst) hr)
    obtain ⟨p1, p2⟩ := p
    simp only [pairsFrom, List.mem_append, List.mem_map, Prod.mk.injEq, ih hs'.2, List.mem_cons]
    constructor
    · rintro (⟨r, hr, rfl, rfl⟩ | ⟨h1, h2, h3⟩)
      · exact ⟨Or.inl rfl, Or.inr hr, lt hr⟩
      · exact ⟨Or.inr h1, Or.inr h2, h3⟩
    · rintro ⟨rfl | h1, rfl | h2, h3⟩
      · exact absurd h3 (lt_irrefl _)
      · exact Or.inl ⟨p2, h2, rfl, rfl⟩
      · exact absurd h3 (lt_asymm (lt h1))
      · exact Or.inr ⟨h1, h2, h3⟩

omit [Zero R] in
theorem pairsFrom_sorted {dm : SMap VId (Diag R)} (hs : Sorted dm) :
    (pairsFrom dm).Pairwise fun p q => p.1.1 < q.1.1 ∨ (p.1.1 = q.1.1 ∧ p.2.1 < q.2.1) := by
  induction dm with
  | nil => simp [pairsFrom]
  | cons q t ih =>
    have hs' := sorted_cons.1 hs
    simp only [pairsFrom, List.pairwise_append]
    refine ⟨?_, ih hs'.2, ?_⟩
    · rw [List.pairwise_map]
      have : t.Pairwise fun a b => a.1 < b.1 := List.pairwise_map.1 hs'.2
      exact this.imp fun h => Or.inr ⟨rfl, h⟩
    · intro p hp p' hp'
      obtain ⟨r, hr, rfl⟩ := List.mem_map.1 hp
      have := (mem_pairsFrom hs'.2 p').1 hp'
      exact Or.inl (hs'.1 _ (List.mem_map_of_mem (f := Prod.fst) this.1))

theorem H_of_lt {hg : HessGrad R} {i j : VId} (h : i < j) : hg.H i j = SMap.get hg.trimap (toLex (i, j)) := by
  unfold H
  rw [if_neg h.ne, min_eq_left h.le, max_eq_right h.le]

/-- **C45** `ConstTriIt` with missing elements included: every pair of distinct variables once, in order,
with the stored value or 0. -/
theorem C45_full {hg : HessGrad R} (hv : hg.Valid) :
    ∃ es, hg.triEntries false = some es ∧
      Visits hg es fun i j => i ∈ hg.vars ∧ j ∈ hg.vars ∧ i < j := by
  refine ⟨_, triEntries_full hg hv, ?_, ?_, ?_⟩
  · rw [List.pairwise_map]; exact pairsFrom_sorted hv.dsorted
  · intro i j
    simp only [List.mem_map, exists_exists_and_eq_and, entPair, mem_pairsFrom hv.dsorted, vars,
      List.mem_toFinset]
    constructor
    · rintro ⟨p, ⟨h1, h2, h3⟩, rfl, rfl⟩
      exact ⟨List.mem_map_of_mem (f := Prod.fst) h1, List.mem_map_of_mem (f := Prod.fst) h2, h3⟩
    · rintro ⟨h1, h2, h3⟩
      obtain ⟨p, hp, rfl⟩ := List.mem_map.1 h1
      obtain ⟨q, hq, rfl⟩ := List.mem_map.1 h2
      exact ⟨(p, q), ⟨hp, hq, h3⟩, rfl, rfl⟩
  · intro e he
    obtain ⟨p, hp, rfl⟩ := List.mem_map.1 he
    obtain ⟨h1, h2, h3⟩ := (mem_pairsFrom hv.dsorted p).1 hp
    exact ⟨find?_of_mem hv.dsorted h1, find?_of_mem hv.dsorted h2, (H_of_lt h3).symm⟩

/-- **C45** `ConstTriIt` with missing elements skipped: exactly the stored off-diagonal elements. -/
theorem C45_skip {hg : HessGrad R} (hv : hg.Valid) :
    ∃ es, hg.triEntries true = some es ∧
      Visits hg es fun i j => toLex (i, j) ∈ keys hg.trimap := by
  refine ⟨_, triEntries_skip hg hv, ?_, ?_, ?_⟩
  · rw [List.pairwise_map]
    have : hg.trimap.Pairwise fun a b => a.1 < b.1 := List.pairwise_map.1 hv.tsorted
    exact this.imp fun h => Prod.Lex.lt_iff.1 h
  · intro i j
    simp only [List.mem_map, exists_exists_and_eq_and, entOf, keys]
    constructor
    · rintro ⟨p, hp, rfl, rfl⟩; exact ⟨p, hp, rfl⟩
    · rintro ⟨p, hp, h⟩; exact ⟨p, hp, by rw [h]; rfl, by rw [h]; rfl⟩
  · intro e he
    obtain ⟨p, hp, rfl⟩ := List.mem_map.1 he
    obtain ⟨h1, h2, h3⟩ := hv.triOf p.1 (List.mem_map_of_mem (f := Prod.fst) hp)
    refine ⟨find_dOf h2, find_dOf h3, ?_⟩
    show p.2 = hg.H (ofLex p.1).1 (ofLex p.1).2
    rw [H_of_lt h1]
    simp only [SMap.get]
    rw [show (toLex ((ofLex p.1).1, (ofLex p.1).2) : IdPair) = p.1 from rfl,
      find?_of_mem hv.tsorted (show (p.1, p.2) ∈ hg.trimap from hp)]
    rfl

/-! ## C46 -/

/-- **C46** `ConstHessIt` with missing elements skipped: the diagonal and the stored elements, each once, in
order. -/
theorem C46_skip {hg : HessGrad R} (hv : hg.Valid) :
    ∃ es, hg.hessEntries true = some es ∧
      Visits hg es fun i j => (i = j ∧ i ∈ hg.vars) ∨ toLex (i, j) ∈ keys hg.trimap := by
  have hd := fun a => hessSpec_diag_filter true hg.dOf a hg.diagmap hg.trimap hv.dsorted hv.triOf hv.tsorted
  have ho := fun (a b : VId) (hab : a < b) => hessSpec_off_filter hg.dOf hab hg.diagmap hg.trimap hv.dsorted
    hv.triOf hv.tsorted fun i hi => find_dOf hi
  have hm := hessSpec_mem true hg.dOf hg.diagmap hg.trimap hv.dsorted hv.triOf hv.tsorted
    fun i hi => find_dOf hi
  have mem_filter : ∀ e ∈ hessSpec true hg.dOf hg.diagmap hg.trimap,
      e ∈ (hessSpec true hg.dOf hg.diagmap hg.trimap).filter fun e' => decide (e'.key = toLex (e.id1, e.id2)) :=
    fun e he => List.mem_filter.2 ⟨he, by simp [Ent.key]⟩
  refine ⟨_, hessEntries_eq hg hv true, ?_, ?_, ?_⟩
  · exact ((hessSpec_sorted true hg.dOf hg.diagmap hg.trimap hv.dsorted hv.triOf hv.tsorted
      fun i hi => find_dOf hi).2 rfl).imp fun h => Prod.Lex.lt_iff.1 h
  · intro i j
    constructor
    · rintro ⟨e, he, rfl, rfl⟩
      have h1 := (hm e he).1
      rcases h1.lt_or_eq with hlt | heq
      · right
        have := mem_filter e he
        rw [ho _ _ hlt] at this
        cases hf : find? hg.trimap (toLex (e.id1, e.id2)) with
        | none => simp [hf] at this
        | some h => exact find?_isSome.1 (by simp [hf])
      · left
        exact ⟨heq, by simpa [vars] using (hm e he).2.1⟩
    · rintro (⟨rfl, hi⟩ | hij)
      · have hi' : i ∈ keys hg.diagmap := by simpa [vars] using hi
        have h1 := hd i
        rw [find_dOf hi'] at h1
        have : (⟨i, i, hg.dOf i, hg.dOf i, (hg.dOf i).hhess⟩ : Ent R) ∈
            (hessSpec true hg.dOf hg.diagmap hg.trimap).filter fun e' => decide (e'.key = toLex (i, i)) := by
          rw [h1]; simp
        exact ⟨_, (List.mem_filter.1 this).1, rfl, rfl⟩
      · have hlt := (hv.tri i j hij).1
        obtain ⟨h, hf⟩ := Option.isSome_iff_exists.1 (find?_isSome.2 hij)
        have h1 := ho i j hlt
        rw [hf] at h1
        have : (⟨i, j, hg.dOf i, hg.dOf j, h⟩ : Ent R) ∈
            (hessSpec true hg.dOf hg.diagmap hg.trimap).filter fun e' => decide (e'.key = toLex (i, j)) := by
          rw [h1]; simp
        exact ⟨_, (List.mem_filter.1 this).1, rfl, rfl⟩
  · intro e he
    obtain ⟨h1, h2, h3, h4, h5⟩ := hm e he
    refine ⟨by rw [h4]; exact find_dOf h2, by rw [h5]; exact find_dOf h3, ?_⟩
    have hf := mem_filter e he
    rcases h1.lt_or_eq with hlt | heq
    · rw [ho _ _ hlt] at hf
      rw [H_of_lt hlt]; unfold SMap.get
      cases hf' : find? hg.trimap (toLex (e.id1, e.id2)) with
      | none => simp [hf'] at hf
      | some h => rw [hf'] at hf; simp only [List.mem_singleton] at hf; exact congrArg Ent.val hf
    · rw [← heq, hd] at hf
      rw [find_dOf h2] at hf
      simp only [List.mem_singleton] at hf
      unfold H
      rw [if_pos heq, find_dOf h2]
      rw [hf]

/-- The full statement of C46 for the mode which includes missing elements. -/
def C46_full_statement (R : Type*) [Zero R] : Prop :=
  ∀ hg : HessGrad R, hg.Valid → ∃ es, hg.hessEntries false = some es ∧
    Visits hg es fun i j => i ∈ hg.vars ∧ j ∈ hg.vars ∧ i ≤ j

/-- **C46** What `ConstHessIt` with missing elements included does: it terminates without undefined behaviour,
every diagonal element is shown once; a pair `a < b` is shown only if no variable lies between `a` and `b`, as
many times as there are elements stored in row `a`, and a visit shows the stored value only if
it meets the stored element of its own pair. -/
theorem C46_full_behaviour {hg : HessGrad R} (hv : hg.Valid) :
    ∃ es, hg.hessEntries false = some es ∧
      (∀ a, (es.filter fun e => decide (e.id1 = a ∧ e.id2 = a)).length = if a ∈ hg.vars then 1 else 0) ∧
      (∀ a b, a < b → (es.filter fun e => decide (e.id1 = a ∧ e.id2 = b)).map Ent.val =
        if nextIn hg.diagmap a = some b then
          (hg.trimap.filter fun p => decide ((ofLex p.1).1 = a)).map
            fun p => if p.1 = toLex (a, b) then p.2 else 0
        else []) := by
  refine ⟨_, hessEntries_eq hg hv false, fun a => ?_, fun a b hab => ?_⟩
  · have := hessSpec_diag_filter false hg.dOf a hg.diagmap hg.trimap hv.dsorted hv.triOf hv.tsorted
    simp only [Ent.key, key_eq_iff] at this
    rw [this]
    by_cases h : a ∈ keys hg.diagmap
    · simp [find_dOf h, vars, h]
    · simp [find?_eq_none.2 h, vars, h]
  · have := hessSpec_nonskip_filter hg.dOf hab hg.diagmap hg.trimap hv.dsorted hv.triOf hv.tsorted
      fun i hi => find_dOf hi
    simp only [Ent.key, key_eq_iff] at this
    rw [this]
    split_ifs
    · rw [List.map_map]; rfl
    · rfl

/-- **C46** (partial) With missing elements included, every pair is visited once if there is at most one
variable, or two variables with their mixed element stored.  Missing for the full statement:
any other sparsity pattern, for which it is false (`C46_full_false`, `C46_full_iff`). -/
theorem C46_full_partial {hg : HessGrad R} (hv : hg.Valid)
    (h : hg.size ≤ 1 ∨ (hg.size = 2 ∧ hg.trimap ≠ [])) :
    ∃ es, hg.hessEntries false = some es ∧
      Visits hg es fun i j => i ∈ hg.vars ∧ j ∈ hg.vars ∧ i ≤ j := by
  refine ⟨_, hessEntries_eq hg hv false, ?_⟩
  obtain ⟨dm, tri⟩ := hg
  have htri := hv.triOf
  have hst := hv.tsorted
  have hs := hv.dsorted
  simp only [HessGrad.size] at h htri hst hs ⊢
  match dm, h, hv, htri, hs with
  | [], _, hv, htri, hs => exact ⟨by simp [hessSpec], by simp [hessSpec, vars], by simp [hessSpec]⟩
  | [(i, d)], _, hv, htri, hs =>
    have : tri = [] := by
      rw [List.eq_nil_iff_forall_not_mem]
      intro p hp
      obtain ⟨h1, h2, h3⟩ := htri p.1 (List.mem_map_of_mem (f := Prod.fst) hp)
      simp only [keys_cons, keys_nil, List.mem_singleton] at h2 h3
      rw [h2, h3] at h1; exact lt_irrefl _ h1
    subst this
    refine ⟨by simp [hessSpec], ?_, ?_⟩
    · intro a b
      simp only [hessSpec, List.takeWhile_nil, List.map_nil, List.dropWhile_nil, List.nil_append,
        List.mem_singleton, exists_eq_left, vars, keys_cons, keys_nil, List.toFinset_cons,
        List.toFinset_nil, insert_empty_eq, Finset.mem_singleton]
      constructor
      · rintro ⟨rfl, rfl⟩; exact ⟨rfl, rfl, le_rfl⟩
      · rintro ⟨rfl, rfl, _⟩; exact ⟨rfl, rfl⟩
    · intro e he
      simp only [hessSpec, List.takeWhile_nil, List.map_nil, List.dropWhile_nil, List.nil_append,
        List.mem_singleton] at he
      subst he
      simp [Shows, find?, H]
  | [(i, d), (j, f)], h, hv, htri, hs =>
    have hij : i < j := (sorted_cons.1 hs).1 j (by simp)
    have hne : tri ≠ [] := by simpa using h
    have hkey : ∀ p ∈ tri, p.1 = toLex (i, j) := by
      intro p hp
      obtain ⟨h1, h2, h3⟩ := htri p.1 (List.mem_map_of_mem (f := Prod.fst) hp)
      simp only [keys_cons, keys_nil, List.mem_cons, List.not_mem_nil, or_false] at h2 h3
      have : (ofLex p.1).1 = i ∧ (ofLex p.1).2 = j := by
        rcases h2 with h2 | h2 <;> rcases h3 with h3 | h3
        · rw [h2, h3] at h1; exact absurd h1 (lt_irrefl _)
        · exact ⟨h2, h3⟩
        · rw [h2, h3] at h1; exact absurd h1 (lt_asymm hij)
        · rw [h2, h3] at h1; exact absurd h1 (lt_irrefl _)
      rw [← this.1, ← this.2]; rfl
    obtain ⟨v, rfl⟩ : ∃ v, tri = [(toLex (i, j), v)] := by
      match tri, hne, hkey, hst with
      | [p], _, hk, _ => exact ⟨p.2, by rw [← hk p (by simp)]⟩
      | p :: q :: t, _, hk, hst =>
        have := (sorted_cons.1 hst).1 q.1 (by simp)
        rw [hk p (by simp), hk q (by simp)] at this
        exact absurd this (lt_irrefl _)
    have hspec : ∀ lk, hessSpec false lk [(i, d), (j, f)] [(toLex (i, j), v)] =
        [⟨i, i, d, d, d.hhess⟩, ⟨i, j, d, f, v⟩, ⟨j, j, f, f, f.hhess⟩] := by
      intro lk
      simp [hessSpec, rowEnt]
    rw [hspec]
    refine ⟨?_, ?_, ?_⟩
    · simp [hij]
    · intro a b
      simp only [List.mem_cons, List.not_mem_nil, or_false, exists_eq_or_imp, exists_eq_left, vars, keys_cons,
        keys_nil, List.toFinset_cons, List.toFinset_nil, insert_empty_eq, Finset.mem_insert,
        Finset.mem_singleton]
      constructor
      · rintro (⟨rfl, rfl⟩ | ⟨rfl, rfl⟩ | ⟨rfl, rfl⟩)
        · simp
        · simp [hij.le]
        · simp
      · rintro ⟨rfl | rfl, rfl | rfl, hle⟩
        · simp
        · simp
        · exact absurd hle (not_le.2 hij)
        · simp
    · intro e he
      simp only [List.mem_cons, List.not_mem_nil, or_false] at he
      rcases he with rfl | rfl | rfl
      · simp [Shows, find?, H]
      · simp [Shows, find?, H, hij.ne, min_eq_left hij.le, max_eq_right hij.le, SMap.get]
      · simp [Shows, find?, H, hij.ne]
  | _ :: _ :: _ :: _, h, _, _, _ => simp at h

/-- **C46** The condition of `C46_full_partial` is also necessary: the iterator works in no other case. -/
theorem C46_full_iff {hg : HessGrad R} (hv : hg.Valid) :
    (∃ es, hg.hessEntries false = some es ∧
      Visits hg es fun i j => i ∈ hg.vars ∧ j ∈ hg.vars ∧ i ≤ j) ↔
      hg.size ≤ 1 ∨ (hg.size = 2 ∧ hg.trimap ≠ []) := by
  refine ⟨?_, C46_full_partial hv⟩
  rintro ⟨es, he, hvis⟩
  obtain ⟨es', he', -, hoff⟩ := C46_full_behaviour hv
  rw [he] at he'; cases he'
  obtain ⟨dm, tri⟩ := hg
  simp only [HessGrad.size] at hoff ⊢
  have hs : Sorted dm := hv.dsorted
  match dm, hs, hvis, hoff with
  | [], _, _, _ => simp
  | [_], _, _, _ => simp
  | [(i, d), (j, f)], hs, hvis, hoff =>
    right
    refine ⟨rfl, ?_⟩
    rintro rfl
    have hij : i < j := (sorted_cons.1 hs).1 j (by simp)
    obtain ⟨e, he, h1, h2⟩ := (hvis.all i j).2 ⟨by simp [vars], by simp [vars], hij.le⟩
    have := hoff i j hij
    simp only [List.filter_nil, List.map_nil, ite_self, List.map_eq_nil_iff] at this
    rw [List.filter_eq_nil_iff] at this
    exact this e he (by simp [h1, h2])
  | (i, d) :: (j, f) :: (k, g) :: t, hs, hvis, hoff =>
    exfalso
    have s1 := sorted_cons.1 hs
    have s2 := sorted_cons.1 s1.2
    have hij : i < j := s1.1 j (by simp)
    have hjk : j < k := s2.1 k (by simp)
    obtain ⟨e, he, h1, h2⟩ := (hvis.all i k).2 ⟨by simp [vars], by simp [vars], (hij.trans hjk).le⟩
    have hn : nextIn ((i, d) :: (j, f) :: (k, g) :: t) i = some j := by
      unfold nextIn
      simp [List.filter_cons, hij]
    have := hoff i k (hij.trans hjk)
    rw [hn, if_neg (by simp [hjk.ne]), List.map_eq_nil_iff, List.filter_eq_nil_iff] at this
    exact this e he (by simp [h1, h2])

end

/-- **C46** is false: `exH2` has two variables and no stored mixed element; the iteration never shows the pair
(1, 2). -/
theorem C46_full_false : ¬ C46_full_statement ℝ := by
  intro h
  have := (C46_full_iff valid_exH2).1 (h exH2 valid_exH2)
  simp [HessGrad.size, exH2] at this

/-! Hypotheses can be met, and the conclusions say something. -/

example : ∃ es, exH.triEntries false = some es ∧
    Visits exH es fun i j => i ∈ exH.vars ∧ j ∈ exH.vars ∧ i < j := C45_full valid_exH
example : exH.triEntries false = some [⟨1, 2, ⟨2, 1, exN⟩, ⟨-1, 3, exE⟩, 7⟩,
    ⟨1, 4, ⟨2, 1, exN⟩, ⟨5, 0, exN⟩, -2⟩, ⟨2, 4, ⟨-1, 3, exE⟩, ⟨5, 0, exN⟩, 0⟩] := by
  rw [triEntries_full exH valid_exH]
  simp [exH, pairsFrom, entPair, SMap.get, find?]
example : ∃ es, exH.triEntries true = some es ∧
    Visits exH es fun i j => toLex (i, j) ∈ keys exH.trimap := C45_skip valid_exH
example : ∃ es, exH.hessEntries true = some es ∧
    Visits exH es fun i j => (i = j ∧ i ∈ exH.vars) ∨ toLex (i, j) ∈ keys exH.trimap := C46_skip valid_exH
example : ∃ es, exH3.hessEntries false = some es ∧
    Visits exH3 es fun i j => i ∈ exH3.vars ∧ j ∈ exH3.vars ∧ i ≤ j :=
  C46_full_partial valid_exH3 (Or.inr ⟨rfl, by simp [exH3]⟩)
/-- The pair (1, 4) is never shown and (1, 2) twice, the second time with 0 in place of 7. -/
example : ∃ es, exH.hessEntries false = some es ∧
    (es.filter fun e => decide (e.id1 = 1 ∧ e.id2 = 2)).map Ent.val = [7, 0] ∧
    (es.filter fun e => decide (e.id1 = 1 ∧ e.id2 = 4)).map Ent.val = [] := by
  obtain ⟨es, h, -, h2⟩ := C46_full_behaviour valid_exH
  refine ⟨es, h, ?_, ?_⟩
  · rw [h2 1 2 (by norm_num)]
    simp [nextIn, exH, List.filter_cons, key_eq_iff]
  · rw [h2 1 4 (by norm_num)]
    simp [nextIn, exH, List.filter_cons]

/-- two variables without a mixed derivative, as after construction of a sum: the iterator over all pairs is wrong -/
example : ¬ ∃ es, exH2.hessEntries false = some es ∧ Visits exH2 es fun i j => i ∈ exH2.vars ∧ j ∈ exH2.vars ∧ i ≤ j := by
  rw [C46_full_iff ⟨by simp [exH2, Sorted], by simp [exH2], by simp [exH2]⟩]
  simp [exH2, HessGrad.size]

end Unc.Props
