import Verif.Lemmas.RawMom

/-! # `compute_m1`, `compute_m2` and `compute_c2` as expectations of polynomials -/

namespace Unc
namespace Mom
open SMap HessGrad Sums Expect Props
variable {R : Type*} [CommRing R] {hg a b : HessGrad R}

theorem G_out {i : VId} (h : i ∉ hg.vars) : hg.G i = 0 := by
  have h' : i ∉ keys hg.diagmap := by simpa [vars] using h
  unfold G
  rw [find?_eq_none.2 h']

theorem H_out (hv : hg.Valid) {i : VId} (h : i ∉ hg.vars) (j : VId) : hg.H i j = 0 := by
  have h' : i ∉ keys hg.diagmap := by simpa [vars] using h
  unfold H
  split_ifs with hij
  · rw [find?_eq_none.2 h']
  · apply get_of_not_mem
    intro hm
    have := hv.tri _ _ hm
    rcases le_total i j with hl | hl
    · rw [min_eq_left hl] at this; exact h' this.2.1
    · rw [max_eq_left hl] at this; exact h' this.2.2

/-- Variables on which a value does not depend can be added. -/
theorem poly_eq (hv : hg.Valid) {S : Finset VId} (hS : hg.vars ⊆ S) : poly hg = Q S hg.G hg.H := by
  unfold poly Q
  refine congrArg₂ _ ?_ ?_
  · exact Finset.sum_subset hS fun i _ hi => by rw [G_out hi]; simp
  · rw [← Finset.sum_subset hS]
    · refine Finset.sum_congr rfl fun i _ => Finset.sum_subset hS fun j _ hj => ?_
      rw [H_symm, H_out hv hj]; simp
    · intro i _ hi
      exact Finset.sum_eq_zero fun j _ => by rw [H_out hv hi]; simp

theorem raw1 (hv : hg.Valid) : m1 hg = E (mus hg) (poly hg) := by
  unfold poly
  rw [m1_eq hv, E_expand (S := hg.vars) (mus hg) (fun _ => rfl) (Q_vars _ _ _)
    ((Q_degree _ _ _).trans (by norm_num))]
  have h1 : ∀ i, mus hg i 1 = 0 := fun _ => rfl
  have h2 : ∀ i, mus hg i 2 = 1 := fun _ => rfl
  have e2 : (S2 hg.vars fun x y => Eo (mus hg) (insert y {x}) (cut (insert y {x}) (Q hg.vars hg.G hg.H))) = 0 := by
    rw [S2_congr (g := fun _ _ => 0)]
    · simp [S2]
    · intro a ha b hb hab
      rw [Eo_cut]
      refine Eo_eq_zero _ h1 (Q_degree _ _ _) ?_
      rw [Finset.card_insert_of_notMem (by simpa using hab.ne'), Finset.card_singleton]; norm_num
  have e3 : (S3 hg.vars fun x y z => Eo (mus hg) (insert z (insert y {x}))
      (cut (insert z (insert y {x})) (Q hg.vars hg.G hg.H))) = 0 := by
    rw [S3_congr (g := fun _ _ _ => 0)]
    · simp [S3]
    · intro a ha b hb c hc hab hbc
      rw [Eo_cut]
      refine Eo_eq_zero _ h1 (Q_degree _ _ _) ?_
      rw [Finset.card_insert_of_notMem (by simp [hbc.ne', (hab.trans hbc).ne']),
        Finset.card_insert_of_notMem (by simpa using hab.ne'), Finset.card_singleton]; norm_num
  have e4 : (S4 hg.vars fun x y z w => Eo (mus hg) (insert w (insert z (insert y {x})))
      (cut (insert w (insert z (insert y {x}))) (Q hg.vars hg.G hg.H))) = 0 := by
    rw [S4_congr (g := fun _ _ _ _ => 0)]
    · simp [S4]
    · intro a ha b hb c hc d hd hab hbc hcd
      rw [Eo_cut]
      refine Eo_eq_zero _ h1 (Q_degree _ _ _) ?_
      rw [Finset.card_insert_of_notMem
          (by simp [hcd.ne', (hbc.trans hcd).ne', (hab.trans (hbc.trans hcd)).ne']),
        Finset.card_insert_of_notMem (by simp [hbc.ne', (hab.trans hbc).ne']),
        Finset.card_insert_of_notMem (by simpa using hab.ne'), Finset.card_singleton]; norm_num
  rw [e2, e3, e4, cut_Q (Finset.empty_subset _), Q_empty, map_zero, zero_add, add_zero, add_zero, add_zero]
  refine Finset.sum_congr rfl fun i hi => ?_
  rw [cut_Q (sub1 hi), Q_one, single_eq]
  have e : (0 + MvPolynomial.C (hg.G i) * MvPolynomial.X i + MvPolynomial.C (hg.H i i) * MvPolynomial.X i ^ 2
      : MvPolynomial VId R) = polyL (MvPolynomial.X i) [0, MvPolynomial.C (hg.G i), MvPolynomial.C (hg.H i i)] := by
    simp only [polyL]; ring
  rw [e, Eo_list (mus hg) (Finset.notMem_empty i) (h1 i) (h2 i) _ _ _ _ Free.zero (Free.C _) (Free.C _)
    (List.forall_mem_nil _), dotL, add_zero, Eo_empty_C, H_self]

/-- The expectation of the product of two values. -/
theorem E_product (ha : a.Valid) (hb : b.Valid) {S : Finset VId} (haS : a.vars ⊆ S) (hbS : b.vars ⊆ S)
    (mu : VId → ℕ → R) (h1 : ∀ i, mu i 1 = 0) (h2 : ∀ i, mu i 2 = 1) :
    E mu (poly a * poly b) = (∑ i ∈ S, (a.G i * b.G i + a.H i i * b.G i * mu i 3 + a.G i * b.H i i * mu i 3
        + a.H i i * b.H i i * mu i 4))
      + S2 S fun i j => a.H i i * b.H j j + a.H j j * b.H i i + 4 * a.H i j * b.H i j := by
  rw [poly_eq ha haS, poly_eq hb hbS]
  have hdeg : (Q S a.G a.H * Q S b.G b.H).totalDegree ≤ 4 :=
    (MvPolynomial.totalDegree_mul _ _).trans (Nat.add_le_add (Q_degree _ _ _) (Q_degree _ _ _))
  rw [E_expand (S := S) mu h1 (Subalgebra.mul_mem _ (Q_vars _ _ _) (Q_vars _ _ _)) (hdeg.trans (by norm_num))]
  have e3 : (S3 S fun x y z => Eo mu (insert z (insert y {x}))
      (cut (insert z (insert y {x})) (Q S a.G a.H * Q S b.G b.H))) = 0 := by
    rw [S3_congr (g := fun _ _ _ => 0)]
    · simp [S3]
    · intro a ha b hb c hc hab hbc
      rw [Eo_cut]
      refine Eo_eq_zero _ h1 hdeg ?_
      rw [Finset.card_insert_of_notMem (by simp [hbc.ne', (hab.trans hbc).ne']),
        Finset.card_insert_of_notMem (by simpa using hab.ne'), Finset.card_singleton]; norm_num
  have e4 : (S4 S fun x y z w => Eo mu (insert w (insert z (insert y {x})))
      (cut (insert w (insert z (insert y {x}))) (Q S a.G a.H * Q S b.G b.H))) = 0 := by
    rw [S4_congr (g := fun _ _ _ _ => 0)]
    · simp [S4]
    · intro a ha b hb c hc d hd hab hbc hcd
      rw [Eo_cut]
      refine Eo_eq_zero _ h1 hdeg ?_
      rw [Finset.card_insert_of_notMem
          (by simp [hcd.ne', (hbc.trans hcd).ne', (hab.trans (hbc.trans hcd)).ne']),
        Finset.card_insert_of_notMem (by simp [hbc.ne', (hab.trans hbc).ne']),
        Finset.card_insert_of_notMem (by simpa using hab.ne'), Finset.card_singleton]; norm_num
  rw [e3, e4]
  simp only [map_mul]
  rw [cut_Q (Finset.empty_subset _), Q_empty, zero_mul, map_zero, zero_add, add_zero, add_zero]
  refine congrArg₂ _ ?_ ?_
  · refine Finset.sum_congr rfl fun i hi => ?_
    rw [cut_Q (sub1 hi), cut_Q (sub1 hi), EP_1 mu h1 h2]
    simp only [P1]; ring
  · refine S2_congr fun i hi j hj hij => ?_
    rw [cut_Q (sub2 hi hj), cut_Q (sub2 hi hj), EP_2 mu h1 h2 _ _ (H_symm a) _ _ (H_symm b) hij.ne']
    simp only [P2]; ring

theorem raw2 (hv : hg.Valid) : m2 hg = some (E (mus hg) (poly hg ^ 2)) := by
  rw [m2_eq hv, pow_two, E_product hv hv subset_rfl subset_rfl (mus hg) (fun _ => rfl) fun _ => rfl]
  congr 2
  · refine Finset.sum_congr rfl fun i _ => ?_
    simp only [m2A, mus, mseq, ← H_self, ← dOf_grad, lit]
    push_cast; ring
  · refine S2_congr fun i _ j _ hij => ?_
    simp only [m2B, ent, ← H_self, lit]
    push_cast; ring

/-! ## `compute_c2` -/

/-- The addends of cycle A. -/
def incC (da db : Diag R) : R :=
  da.grad * db.grad + da.hhess * db.grad * da.mom.v3 + da.grad * db.hhess * da.mom.v3
    + da.hhess * db.hhess * da.mom.v4

theorem c2A_eq (m : R) (la lb : SMap VId (Diag R)) (ha : Sorted la) (hb : Sorted lb) :
    c2A m la lb = m + (la.map fun p => ((find? lb p.1).map fun db => incC p.2 db).getD 0).sum := by
  fun_induction c2A m la lb with
  | case1 m ida da ta idb db tb hlt ih =>
    have hnone : find? ((idb, db) :: tb) ida = none := by
      rw [find?_eq_none]
      intro hm
      rw [keys_cons, List.mem_cons] at hm
      rcases hm with h | h
      · exact hlt.ne h
      · exact ((sorted_cons.1 hb).1 _ h).not_gt hlt
    rw [ih ha.tail hb, List.map_cons, List.sum_cons, hnone]
    simp
  | case2 m ida da ta idb db tb hlt hlt2 ih =>
    rw [ih ha hb.tail]
    congr 2
    refine List.map_congr_left fun p hp => ?_
    have hne : p.1 ≠ idb := by
      have : ida ≤ p.1 := by
        rcases List.mem_cons.1 hp with rfl | h
        · exact le_rfl
        · exact ((sorted_cons.1 ha).1 _ (List.mem_map_of_mem (f := Prod.fst) h)).le
      exact (hlt2.trans_le this).ne'
    have : find? ((idb, db) :: tb) p.1 = find? tb p.1 := by
      simp only [find?, hne.symm, if_false]
    rw [this]
  | case3 m ida da ta idb db tb hlt hlt2 m1 m2 m3 m4 ih =>
    have heq : ida = idb := le_antisymm (not_lt.1 hlt2) (not_lt.1 hlt)
    subst heq
    rw [ih ha.tail hb.tail, List.map_cons, List.sum_cons]
    have h1 : find? ((ida, db) :: tb) ida = some db := by simp [find?]
    rw [h1, Option.map_some, Option.getD_some]
    have h2 : (ta.map fun p => ((find? ((ida, db) :: tb) p.1).map fun db => incC p.2 db).getD 0)
        = ta.map fun p => ((find? tb p.1).map fun db => incC p.2 db).getD 0 := by
      refine List.map_congr_left fun p hp => ?_
      have hne : ida ≠ p.1 := ((sorted_cons.1 ha).1 _ (List.mem_map_of_mem (f := Prod.fst) hp)).ne
      have : find? ((ida, db) :: tb) p.1 = find? tb p.1 := by
        simp only [find?, hne, if_false]
      rw [this]
    rw [h2]
    simp only [m4, m3, m2, m1, incC]; ring
  | case4 m la lb hne =>
    rcases la with _ | ⟨p, ta⟩
    · simp
    · rcases lb with _ | ⟨q, tb⟩
      · simp [find?]
      · exact (hne p.1 p.2 ta q.1 q.2 tb rfl rfl).elim

/-- The value of the entry with the given ids in a list, or 0. -/
def valAt (l : List (Ent R)) (i j : VId) : R :=
  (l.map fun e => if e.id1 = i ∧ e.id2 = j then e.val else 0).sum

theorem c2B_eq (m : R) (la lb : List (Ent R)) (ha : la.Pairwise fun x y => entLt x y = true)
    (hb : lb.Pairwise fun x y => entLt x y = true) (hla : ∀ e ∈ la, e.id1 < e.id2) (hlb : ∀ e ∈ lb, e.id1 < e.id2) :
    c2B m la lb = some (m + (la.map fun e => 4 * e.val * valAt lb e.id1 e.id2).sum) := by
  fun_induction c2B m la lb with
  | case1 m ta la tb lb h =>
    exact absurd h (by simp [hla ta List.mem_cons_self, hlb tb List.mem_cons_self])
  | case2 m ta la tb lb h ida idb hlt ih =>
    rw [ih ha.tail hb (fun e he => hla e (List.mem_cons_of_mem _ he)) hlb, List.map_cons, List.sum_cons]
    have : valAt (tb :: lb) ta.id1 ta.id2 = 0 := by
      unfold valAt
      rw [show ((tb :: lb).map fun e => if e.id1 = ta.id1 ∧ e.id2 = ta.id2 then e.val else 0)
        = (tb :: lb).map fun _ => (0 : R) from List.map_congr_left fun e he => ?_]
      · simp
      · rw [if_neg]
        rintro ⟨e1, e2⟩
        simp only [ida, idb, Prod.Lex.toLex_lt_toLex] at hlt
        rcases List.mem_cons.1 he with rfl | h
        · omega
        · have := (List.pairwise_cons.1 hb).1 e h
          simp only [entLt, decide_eq_true_eq] at this
          omega
    rw [this]; simp
  | case3 m ta la tb lb h ida idb hlt hlt2 ih =>
    rw [ih ha hb.tail hla (fun e he => hlb e (List.mem_cons_of_mem _ he))]
    congr 3
    refine List.map_congr_left fun e he => ?_
    congr 1
    unfold valAt
    rw [List.map_cons, List.sum_cons, if_neg, zero_add]
    rintro ⟨e1, e2⟩
    simp only [ida, idb, Prod.Lex.toLex_lt_toLex] at hlt2
    rcases List.mem_cons.1 he with rfl | h
    · omega
    · have := (List.pairwise_cons.1 ha).1 e h
      simp only [entLt, decide_eq_true_eq] at this
      omega
  | case4 m ta la tb lb h ida idb hlt hlt2 m1 ih =>
    have heq : ta.id1 = tb.id1 ∧ ta.id2 = tb.id2 := by
      have := le_antisymm (not_lt.1 hlt2) (not_lt.1 hlt)
      exact key_eq_iff.1 this
    rw [ih ha.tail hb.tail (fun e he => hla e (List.mem_cons_of_mem _ he))
      (fun e he => hlb e (List.mem_cons_of_mem _ he)), List.map_cons, List.sum_cons]
    have h1 : valAt (tb :: lb) ta.id1 ta.id2 = tb.val := by
      unfold valAt
      rw [List.map_cons, List.sum_cons, if_pos ⟨heq.1.symm, heq.2.symm⟩,
        show (lb.map fun e => if e.id1 = ta.id1 ∧ e.id2 = ta.id2 then e.val else 0)
        = lb.map fun _ => (0 : R) from List.map_congr_left fun e he => ?_]
      · simp
      · rw [if_neg]
        rintro ⟨e1, e2⟩
        have := (List.pairwise_cons.1 hb).1 e he
        simp only [entLt, decide_eq_true_eq] at this
        omega
    have h2 : (la.map fun e => 4 * e.val * valAt (tb :: lb) e.id1 e.id2)
        = la.map fun e => 4 * e.val * valAt lb e.id1 e.id2 := by
      refine List.map_congr_left fun e he => ?_
      congr 1
      unfold valAt
      rw [List.map_cons, List.sum_cons, if_neg, zero_add]
      rintro ⟨e1, e2⟩
      have := (List.pairwise_cons.1 ha).1 e he
      simp only [entLt, decide_eq_true_eq] at this
      omega
    rw [h1, h2]
    congr 1
    simp only [m1, lit]
    push_cast; ring
  | case5 m la lb hne =>
    rcases la with _ | ⟨p, ta⟩
    · simp
    · rcases lb with _ | ⟨q, tb⟩
      · simp [valAt]
      · exact (hne p ta q tb rfl rfl).elim

theorem valAt_eq (hv : hg.Valid) {es : List (Ent R)}
    (hvis : Visits hg es fun i j => toLex (i, j) ∈ keys hg.trimap) {i j : VId} (hij : i < j) :
    valAt es i j = hg.H i j := by
  unfold valAt
  rw [sum_es_skip hv hvis]
  · unfold S2
    by_cases hi : i ∈ hg.vars
    · by_cases hj : j ∈ hg.vars
      · rw [Finset.sum_eq_single i, Finset.sum_eq_single j]
        · simp [hij, ent]
        · intro k _ hk; simp [ent, hk]
        · intro h; exact absurd hj h
        · intro k _ hk
          exact Finset.sum_eq_zero fun l _ => by simp [ent, hk]
        · intro h; exact absurd hi h
      · rw [H_symm, H_out hv hj]
        refine Finset.sum_eq_zero fun k _ => Finset.sum_eq_zero fun l hl => ?_
        have : l ≠ j := fun h => hj (h ▸ hl)
        simp [ent, this]
    · rw [H_out hv hi]
      refine Finset.sum_eq_zero fun k hk => Finset.sum_eq_zero fun l _ => ?_
      have : k ≠ i := fun h => hi (h ▸ hk)
      simp [ent, this]
  · intro k l _ h
    simp [ent, h]

/-- `compute_c2` is the expectation of the product. -/
theorem rawc2 (ha : a.Valid) (hb : b.Valid) (mu : VId → ℕ → R) (h1 : ∀ i, mu i 1 = 0) (h2 : ∀ i, mu i 2 = 1)
    (h3 : ∀ i ∈ a.vars, i ∈ b.vars → mu i 3 = (a.dOf i).mom.v3 ∧ mu i 4 = (a.dOf i).mom.v4) :
    c2 a b = some (E mu (poly a * poly b)) := by
  obtain ⟨ea, hea, hva⟩ := C45_skip ha
  obtain ⟨eb, heb, hvb⟩ := C45_skip hb
  have hpw : ∀ {hg : HessGrad R} {es : List (Ent R)}, Visits hg es (fun i j => toLex (i, j) ∈ keys hg.trimap) →
      es.Pairwise fun a b => entLt a b = true := fun hvis => hvis.once.imp fun h => by simpa [entLt] using h
  have hlt : ∀ {hg : HessGrad R} {es : List (Ent R)}, hg.Valid →
      Visits hg es (fun i j => toLex (i, j) ∈ keys hg.trimap) → ∀ e ∈ es, e.id1 < e.id2 := fun hv hvis e hm =>
    (hv.tri e.id1 e.id2 ((hvis.all _ _).1 ⟨e, hm, rfl, rfl⟩)).1
  rw [c2, hea, heb, Option.bind_some, Option.bind_some, c2A_eq _ _ _ ha.dsorted hb.dsorted,
    c2B_eq _ _ _ (hpw hva) (hpw hvb) (hlt ha hva) (hlt hb hvb), Option.map_some]
  congr 1
  have eC : ∀ m, c2C m a.diagmap b.diagmap = m + ∑ i ∈ a.vars, ∑ j ∈ b.vars,
      if i ≠ j then (a.dOf i).hhess * (b.dOf j).hhess else 0 := by
    intro m
    unfold c2C
    rw [foldl_add (φ := fun ita => (b.diagmap.map fun itb => if ita.1 ≠ itb.1 then ita.2.hhess * itb.2.hhess else 0).sum)
      (fun m ita => foldl_add (fun m itb => by
        by_cases h : ita.1 = itb.1 <;> simp [h]) _ _), sum_dm ha]
    simp only [sum_dm hb]
  rw [eC, zero_add, sum_dm ha, sum_es_skip ha hva]
  · rw [E_product ha hb (Finset.subset_union_left (s₂ := b.vars)) Finset.subset_union_right mu h1 h2]
    generalize hS : a.vars ∪ b.vars = S
    have haS : a.vars ⊆ S := hS ▸ Finset.subset_union_left
    have hbS : b.vars ⊆ S := hS ▸ Finset.subset_union_right
    have p1 : ∑ i ∈ a.vars, ((find? b.diagmap i).map fun db => incC (a.dOf i) db).getD 0
        = ∑ i ∈ S, (a.G i * b.G i + a.H i i * b.G i * mu i 3 + a.G i * b.H i i * mu i 3
        + a.H i i * b.H i i * mu i 4) := by
      rw [← Finset.sum_subset haS]
      · refine Finset.sum_congr rfl fun i hi => ?_
        by_cases hib : i ∈ b.vars
        · have : i ∈ keys b.diagmap := by simpa [vars] using hib
          rw [find_dOf this, Option.map_some, Option.getD_some, (h3 i hi hib).1, (h3 i hi hib).2, incC,
            dOf_grad, dOf_grad, H_self, H_self]
        · have : i ∉ keys b.diagmap := by simpa [vars] using hib
          rw [find?_eq_none.2 this, G_out hib, H_out hb hib]
          simp
      · intro i _ hi
        rw [G_out hi, H_out ha hi]; simp
    have p2 : (S2 a.vars fun i j => 4 * (ent a i j).val * valAt eb (ent a i j).id1 (ent a i j).id2)
        = S2 S fun i j => 4 * a.H i j * b.H i j := by
      have : (S2 a.vars fun i j => 4 * (ent a i j).val * valAt eb (ent a i j).id1 (ent a i j).id2)
        = S2 a.vars fun i j => 4 * a.H i j * b.H i j := S2_congr fun i _ j _ hij => by
          simp only [ent]; rw [valAt_eq hb hvb hij]
      rw [this]
      unfold S2
      rw [← Finset.sum_subset haS]
      · refine Finset.sum_congr rfl fun i _ => Finset.sum_subset haS fun j _ hj => ?_
        dsimp only
        rw [H_symm a, H_out ha hj]; simp
      · intro i _ hi
        exact Finset.sum_eq_zero fun j _ => by dsimp only; rw [H_out ha hi]; simp
    have p3 : (∑ i ∈ a.vars, ∑ j ∈ b.vars, if i ≠ j then (a.dOf i).hhess * (b.dOf j).hhess else 0)
        = S2 S fun i j => a.H i i * b.H j j + a.H j j * b.H i i := by
      rw [← D2_eq (f := fun i j => a.H i i * b.H j j)]
      unfold D2
      rw [← Finset.sum_subset haS]
      · refine Finset.sum_congr rfl fun i _ => ?_
        rw [← Finset.sum_subset hbS]
        · simp only [H_self]
        · intro j _ hj
          dsimp only
          rw [H_out hb hj]; simp
      · intro i _ hi
        exact Finset.sum_eq_zero fun j _ => by dsimp only; rw [H_out ha hi]; simp
    rw [p1, p2, p3, add_assoc]
    rw [add_comm (S2 S fun i j => 4 * a.H i j * b.H i j), S2_add]
  · intro i j _ h
    simp [ent, h]

end Mom
end Unc
