import Verif.Props.Iterators
import Verif.Lemmas.UReal2Ops
import Verif.Lemmas.Sums
import Mathlib.Tactic.Ring

/-! # The loops of `moments.hpp` as sums over the variables -/

namespace Unc
namespace Mom
open SMap HessGrad Sums Props
variable {R : Type*} [CommRing R]

theorem foldl_add {α : Type*} {f : R → α → R} {φ : α → R} (hf : ∀ m a, f m a = m + φ a) (l : List α) (m : R) :
    l.foldl f m = m + (l.map φ).sum := by
  induction l generalizing m with
  | nil => simp
  | cons a t ih => rw [List.foldl_cons, ih, hf, List.map_cons, List.sum_cons, add_assoc]

theorem foldl_add_mem {α : Type*} {f : R → α → R} {φ : α → R} {l : List α}
    (hf : ∀ m, ∀ a ∈ l, f m a = m + φ a) (m : R) : l.foldl f m = m + (l.map φ).sum := by
  induction l generalizing m with
  | nil => simp
  | cons a t ih =>
    rw [List.foldl_cons, ih fun m b hb => hf m b (List.mem_cons_of_mem _ hb), hf m a List.mem_cons_self,
      List.map_cons, List.sum_cons, add_assoc]

/-- Sum over the elements of a list, each seen with the elements after it. -/
def tsum {α : Type*} (ψ : α → List α → R) : List α → R
  | [] => 0
  | a :: t => ψ a t + tsum ψ t

theorem forTails_add {α : Type*} {f : R → α → List α → R} {ψ : α → List α → R}
    (hf : ∀ m a t, f m a t = m + ψ a t) (l : List α) (m : R) : forTails f m l = m + tsum ψ l := by
  induction l generalizing m with
  | nil => simp [forTails, tsum]
  | cons a t ih => rw [forTails, ih, hf, tsum, add_assoc]

theorem forTails_add_mem {α : Type*} {f : R → α → List α → R} {ψ : α → List α → R} {l : List α}
    (hf : ∀ m a t, (a :: t) <:+ l → f m a t = m + ψ a t) (m : R) : forTails f m l = m + tsum ψ l := by
  induction l generalizing m with
  | nil => simp [forTails, tsum]
  | cons a t ih =>
    rw [forTails, ih fun m b u h => hf m b u (h.trans (List.suffix_cons a t)), hf m a t List.suffix_rfl, tsum, add_assoc]

theorem forTails_some {α : Type*} {g : α → List α → R → Option R} {ψ : α → List α → R} (l : List α)
    (hg : ∀ a t, (a :: t) <:+ l → ∀ m, g a t m = some (m + ψ a t)) (m : R) :
    forTails (fun m a t => m.bind (g a t)) (some m) l = some (m + tsum ψ l) := by
  induction l generalizing m with
  | nil => simp [forTails, tsum]
  | cons a t ih =>
    rw [forTails, Option.bind_some, hg a t List.suffix_rfl, ih (fun b u h => hg b u (h.trans (List.suffix_cons a t))),
      tsum, add_assoc]

theorem tsum_pairwise {α : Type*} (r : α → α → Bool) (hr : ∀ a b, r a b = true → r b a = false)
    (ψ : α → List α → R) (l : List α) (hl : l.Pairwise fun a b => r a b = true) :
    tsum ψ l = (l.map fun a => ψ a (l.filter (r a))).sum := by
  have hirr : ∀ a, r a a = false := fun a => by
    cases h : r a a
    · rfl
    · exact absurd (hr a a h) (by simp [h])
  induction l with
  | nil => simp [tsum]
  | cons a t ih =>
    rw [List.pairwise_cons] at hl
    rw [tsum, List.map_cons, List.sum_cons, ih hl.2, List.filter_cons_of_neg (by simp [hirr]),
      List.filter_eq_self.2 hl.1]
    congr 2
    refine List.map_congr_left fun b hb => ?_
    rw [List.filter_cons_of_neg (by simp [hr a b (hl.1 b hb)])]

theorem tsum_congr {α : Type*} {ψ ψ' : α → List α → R} {l : List α}
    (h : ∀ a t, (a :: t) <:+ l → ψ a t = ψ' a t) : tsum ψ l = tsum ψ' l := by
  induction l with
  | nil => rfl
  | cons a t ih =>
    rw [tsum, tsum, h a t List.suffix_rfl, ih fun b u hb => h b u (hb.trans (List.suffix_cons a t))]

theorem sum_filter {α : Type*} (q : α → Bool) (φ : α → R) (l : List α) :
    ((l.filter q).map φ).sum = (l.map fun a => if q a then φ a else 0).sum := by
  induction l with
  | nil => rfl
  | cons a t ih =>
    rw [List.map_cons, List.sum_cons, List.filter_cons]
    split_ifs
    · rw [List.map_cons, List.sum_cons, ih]
    · rw [ih, zero_add]

variable {hg : HessGrad R}

theorem diagmap_eq (hv : hg.Valid) : hg.diagmap = (keys hg.diagmap).map fun i => (i, hg.dOf i) := by
  rw [keys, List.map_map]
  conv_lhs => rw [← List.map_id hg.diagmap]
  refine List.map_congr_left fun p hp => ?_
  have h : p.1 ∈ keys hg.diagmap := List.mem_map_of_mem hp
  have h2 := find_dOf h
  rw [find?_of_mem hv.dsorted hp] at h2
  rw [Function.comp_apply, ← Option.some_inj.1 h2]
  rfl

theorem sum_dm (hv : hg.Valid) (φ : VId × Diag R → R) :
    (hg.diagmap.map φ).sum = ∑ i ∈ hg.vars, φ (i, hg.dOf i) := by
  conv_lhs => rw [diagmap_eq hv]
  rw [List.map_map, vars, List.sum_toFinset _ hv.dsorted.nodup]
  rfl

/-- The stored variables after `i`. -/
def after (hg : HessGrad R) (i : VId) : SMap VId (Diag R) := hg.diagmap.filter fun b => decide (i < b.1)

theorem sum_after (hv : hg.Valid) (i : VId) (φ : VId × Diag R → R) :
    ((after hg i).map φ).sum = ∑ j ∈ hg.vars, if i < j then φ (j, hg.dOf j) else 0 := by
  rw [after, sum_filter, sum_dm hv]
  simp

theorem tsum_dm (hv : hg.Valid) (ψ : VId × Diag R → List (VId × Diag R) → R) :
    tsum ψ hg.diagmap = ∑ i ∈ hg.vars, ψ (i, hg.dOf i) (after hg i) := by
  rw [tsum_pairwise (fun a b => decide (a.1 < b.1)), sum_dm hv]
  · rfl
  · intro a b h
    simp only [decide_eq_true_eq, decide_eq_false_iff_not] at h ⊢
    exact h.not_gt
  · simpa using List.pairwise_map.1 hv.dsorted

theorem tsum_after (hv : hg.Valid) (i : VId) (ψ : VId × Diag R → List (VId × Diag R) → R) :
    tsum ψ (after hg i) = ∑ j ∈ hg.vars, if i < j then ψ (j, hg.dOf j) (after hg j) else 0 := by
  rw [tsum_pairwise (fun a b => decide (a.1 < b.1)), sum_after hv]
  · refine Finset.sum_congr rfl fun j _ => ?_
    split_ifs with h
    · congr 1
      rw [after, List.filter_filter, after]
      refine List.filter_congr fun b _ => ?_
      by_cases hb : j < b.1
      · simp [hb, h.trans hb]
      · simp [hb]
    · rfl
  · intro a b h
    simp only [decide_eq_true_eq, decide_eq_false_iff_not] at h ⊢
    exact h.not_gt
  · have := List.pairwise_map.1 hv.dsorted
    exact (this.sublist List.filter_sublist).imp fun h => by simpa using h

/-- The entry of a pair of variables. -/
def ent (hg : HessGrad R) (i j : VId) : Ent R := ⟨i, j, hg.dOf i, hg.dOf j, hg.H i j⟩

theorem ent_of_shows {e : Ent R} (h : Shows hg e) : e = ent hg e.id1 e.id2 := by
  obtain ⟨h1, h2, h3⟩ := h
  have a1 := find_dOf (mem_keys_of_find? h1)
  have a2 := find_dOf (mem_keys_of_find? h2)
  rw [h1] at a1
  rw [h2] at a2
  cases e
  simp only [ent] at *
  rw [← Option.some_inj.1 a1, ← Option.some_inj.1 a2, h3]

open Classical in
theorem sum_es {es : List (Ent R)} {P : VId → VId → Prop} (hvis : Visits hg es P)
    (hP : ∀ i j, P i j → i ∈ hg.vars ∧ j ∈ hg.vars) (φ : Ent R → R) :
    (es.map φ).sum = ∑ i ∈ hg.vars, ∑ j ∈ hg.vars, if P i j then φ (ent hg i j) else 0 := by
  have h1 : es.map φ = (es.map fun e => (e.id1, e.id2)).map fun p => φ (ent hg p.1 p.2) := by
    rw [List.map_map]
    refine List.map_congr_left fun e he => ?_
    rw [Function.comp_apply, ← ent_of_shows (hvis.data e he)]
  have hnd : (es.map fun e => (e.id1, e.id2)).Nodup := by
    rw [List.Nodup, List.pairwise_map]
    refine hvis.once.imp fun {a b} h h' => ?_
    rw [Prod.mk.injEq] at h'
    rcases h with h | h
    · exact h.ne h'.1
    · exact h.2.ne h'.2
  rw [h1, ← List.sum_toFinset _ hnd, ← Finset.sum_product', ← Finset.sum_filter]
  refine Finset.sum_congr ?_ fun _ _ => rfl
  ext ⟨i, j⟩
  simp only [List.mem_toFinset, List.mem_map, Prod.mk.injEq, Finset.mem_filter, Finset.mem_product]
  rw [hvis.all i j]
  exact ⟨fun h => ⟨hP i j h, h⟩, fun h => h.2⟩

theorem sum_es_full {es : List (Ent R)}
    (hvis : Visits hg es fun i j => i ∈ hg.vars ∧ j ∈ hg.vars ∧ i < j) (φ : Ent R → R) :
    (es.map φ).sum = S2 hg.vars fun i j => φ (ent hg i j) := by
  rw [sum_es hvis (fun i j h => ⟨h.1, h.2.1⟩), S2]
  refine Finset.sum_congr rfl fun i hi => Finset.sum_congr rfl fun j hj => ?_
  simp [hi, hj]

theorem sum_es_skip (hv : hg.Valid) {es : List (Ent R)}
    (hvis : Visits hg es fun i j => toLex (i, j) ∈ keys hg.trimap) (φ : Ent R → R)
    (hφ : ∀ i j, i < j → hg.H i j = 0 → φ (ent hg i j) = 0) :
    (es.map φ).sum = S2 hg.vars fun i j => φ (ent hg i j) := by
  rw [sum_es hvis (fun i j h => ?_), S2]
  · refine Finset.sum_congr rfl fun i hi => Finset.sum_congr rfl fun j hj => ?_
    by_cases h : (toLex (i, j) : IdPair) ∈ keys hg.trimap
    · rw [if_pos h, if_pos (hv.tri i j h).1]
    · rw [if_neg h]
      split_ifs with hij
      · rw [hφ i j hij]
        rw [H_of_lt hij, get_of_not_mem h]
      · rfl
  · simpa [vars] using (hv.tri i j h).2

theorem triFind_eq (hg : HessGrad R) {i j : VId} (h : i ≠ j) : (hg.triFind i j).getD 0 = hg.H i j := by
  unfold triFind H SMap.get
  rw [if_neg h]

theorem triFind_match (hg : HessGrad R) {i j : VId} (h : i ≠ j) (m : R) (f : R → R) (hf : f 0 = m) :
    (match hg.triFind i j with
      | some x => f x
      | none => m) = f (hg.H i j) := by
  rw [← triFind_eq hg h]
  cases hg.triFind i j with
  | none => simp [hf]
  | some x => simp

/-! ## `compute_m1`, `compute_m2` -/

theorem m1_eq (hv : hg.Valid) : m1 hg = ∑ i ∈ hg.vars, (hg.dOf i).hhess := by
  rw [m1, foldl_add (φ := fun it : VId × Diag R => it.2.hhess) (fun _ _ => rfl), sum_dm hv, zero_add]

theorem m2_eq (hv : hg.Valid) : m2 hg = some
    (∑ i ∈ hg.vars, m2A 0 (hg.dOf i) + S2 hg.vars fun i j => m2B 0 (ent hg i j)) := by
  obtain ⟨es, he, hvis⟩ := C45_full hv
  rw [m2, he, Option.map_some]
  rw [foldl_add (φ := fun it : VId × Diag R => m2A 0 it.2) (fun m a => by simp only [m2A]; ring),
    foldl_add (φ := fun e : Ent R => m2B 0 e) (fun m a => by simp only [m2B]; ring), sum_dm hv,
    sum_es_full hvis, zero_add]

/-! ## `compute_m3` -/

/-- The order of the entries. -/
def entLt (a b : Ent R) : Bool := decide (a.id1 < b.id1 ∨ (a.id1 = b.id1 ∧ a.id2 < b.id2))

theorem entLt_asymm (a b : Ent R) (h : entLt a b = true) : entLt b a = false := by
  simp only [entLt, decide_eq_true_eq, decide_eq_false_iff_not] at *
  omega

theorem takeWhile_row (i : VId) (l : List (Ent R)) (hl : l.Pairwise fun a b => entLt a b = true)
    (hi : ∀ e ∈ l, i ≤ e.id1) :
    l.takeWhile (fun e => decide (e.id1 = i)) = l.filter fun e => decide (e.id1 = i) := by
  induction l with
  | nil => rfl
  | cons a t ih =>
    rw [List.pairwise_cons] at hl
    by_cases h : a.id1 = i
    · rw [List.takeWhile_cons_of_pos (by simpa using h), List.filter_cons_of_pos (by simpa using h),
        ih hl.2 fun e he => hi e (List.mem_cons_of_mem _ he)]
    · rw [List.takeWhile_cons_of_neg (by simpa using h), List.filter_cons_of_neg (by simpa using h)]
      symm
      rw [List.filter_eq_nil_iff]
      intro e he
      have h1 := hl.1 e he
      have h2 := hi a List.mem_cons_self
      simp only [entLt, decide_eq_true_eq] at h1
      simp only [decide_eq_true_eq]
      omega

theorem m3_eq (hv : hg.Valid) : m3 hg = some
    ((∑ i ∈ hg.vars, m3A 0 (hg.dOf i))
      + (S2 hg.vars fun i j => m3B 0 (hg.dOf i) (hg.dOf j) + m3D 0 (ent hg i j))
      + (D3 hg.vars fun i j k =>
          (if i < j ∧ j < k then m3C 0 (hg.dOf i) (hg.dOf j) (hg.dOf k)
            + lit (6 * 8) * hg.H i j * hg.H i k * hg.H j k else 0)
          + (if j < k then lit (2 * 6) * (hg.dOf i).hhess * hg.H j k * hg.H j k else 0))) := by
  obtain ⟨es, he, hvis⟩ := C45_skip hv
  have hpw : es.Pairwise fun a b => entLt a b = true := hvis.once.imp fun h => by simpa [entLt] using h
  have hlt : ∀ e ∈ es, e.id1 < e.id2 := fun e hm =>
    (hv.tri e.id1 e.id2 ((hvis.all _ _).1 ⟨e, hm, rfl, rfl⟩)).1
  rw [m3, he, Option.bind_some]
  -- first part
  have hC : ∀ (d d' : Diag R) (l : List (VId × Diag R)) m,
      l.foldl (fun m it3 => m3C m d d' it3.2) m = m + (l.map fun it3 => m3C 0 d d' it3.2).sum :=
    fun d d' l m => foldl_add (fun m a => by simp only [m3C]; ring) l m
  have hF : ∀ (it : VId × Diag R) m, es.foldl (fun m it2 => m3F m it it2) m
      = m + (es.map fun it2 => m3F 0 it it2).sum :=
    fun it m => foldl_add (fun m a => by simp only [m3F]; split_ifs <;> ring) es m
  have h1 : forTails (fun m it rest =>
        let m := m3A m it.2
        let m := forTails (fun m it2 rest2 =>
            let m := m3B m it.2 it2.2
            rest2.foldl (fun m it3 => m3C m it.2 it2.2 it3.2) m) m rest
        es.foldl (fun m it2 => m3F m it it2) m) 0 hg.diagmap
      = 0 + tsum (fun it rest => m3A 0 it.2
          + tsum (fun it2 rest2 => m3B 0 it.2 it2.2 + (rest2.map fun it3 => m3C 0 it.2 it2.2 it3.2).sum) rest
          + (es.map fun it2 => m3F 0 it it2).sum) hg.diagmap := by
    refine forTails_add (fun m it rest => ?_) _ _
    dsimp only
    rw [hF, forTails_add (ψ := fun it2 rest2 => m3B 0 it.2 it2.2
        + (rest2.map fun it3 => m3C 0 it.2 it2.2 it3.2).sum)]
    · simp only [m3A]; ring
    · intro m it2 rest2
      rw [hC]
      simp only [m3B]; ring
  rw [h1]
  -- second part
  have hE : ∀ e t, (e :: t) <:+ es → ∀ m,
      ((t.takeWhile fun it2 => decide (it2.id1 = e.id1)).foldlM (fun m it2 => m3E hg m e it2) (m3D m e))
        = some (m + (m3D 0 e + (((t.filter fun it2 => decide (it2.id1 = e.id1))).map fun it2 =>
            lit (6 * 8) * e.val * it2.val * hg.H e.id2 it2.id2).sum)) := by
    intro e t hsuf m
    have hp := hpw.sublist hsuf.sublist
    rw [List.pairwise_cons] at hp
    rw [takeWhile_row e.id1 t hp.2 fun e' he' => by
      have := hp.1 e' he'
      simp only [entLt, decide_eq_true_eq] at this
      omega]
    have key : ∀ (l : List (Ent R)), (∀ e' ∈ l, e.id2 < e'.id2) → ∀ m,
        l.foldlM (fun m it2 => m3E hg m e it2) m
          = some (m + (l.map fun it2 => lit (6 * 8) * e.val * it2.val * hg.H e.id2 it2.id2).sum) := by
      intro l hl m
      induction l generalizing m with
      | nil => simp
      | cons a u ih =>
        have ha := hl a List.mem_cons_self
        have : m3E hg m e a = some (m + lit (6 * 8) * e.val * a.val * hg.H e.id2 a.id2) := by
          rw [m3E, triGet, if_pos ha, Option.map_some, H_of_lt ha]
          rfl
        rw [List.foldlM_cons, this]
        show List.foldlM (fun m it2 => m3E hg m e it2) _ u = _
        rw [ih fun b hb => hl b (List.mem_cons_of_mem _ hb), List.map_cons, List.sum_cons, add_assoc]
    rw [key]
    · congr 1
      simp only [m3D]; ring
    · intro e' he'
      rw [List.mem_filter] at he'
      have h1 := hp.1 e' he'.1
      have h2 := he'.2
      simp only [entLt, decide_eq_true_eq] at h1 h2
      omega
  rw [forTails_some es (g := fun it rest m => (rest.takeWhile fun it2 => decide (it2.id1 = it.id1)).foldlM
            (fun m it2 => m3E hg m it it2) (m3D m it)) hE]
  congr 1
  rw [tsum_pairwise entLt entLt_asymm _ _ hpw, tsum_dm hv, zero_add]
  have e2 : (es.map fun a => m3D 0 a + (((es.filter (entLt a)).filter fun it2 => decide (it2.id1 = a.id1)).map
      fun it2 => lit (6 * 8) * a.val * it2.val * hg.H a.id2 it2.id2).sum).sum
      = (S2 hg.vars fun i j => m3D 0 (ent hg i j)) + S3 hg.vars fun i j k =>
          lit (6 * 8) * hg.H i j * hg.H i k * hg.H j k := by
    have inner : ∀ a ∈ es, (((es.filter (entLt a)).filter fun it2 => decide (it2.id1 = a.id1)).map
        fun it2 => lit (6 * 8) * a.val * it2.val * hg.H a.id2 it2.id2).sum
        = ∑ k ∈ hg.vars, if a.id2 < k then lit (6 * 8) * a.val * hg.H a.id1 k * hg.H a.id2 k else 0 := by
      intro a ha
      rw [List.filter_filter, sum_filter, sum_es_skip hv hvis]
      · unfold S2
        have hav : a.id1 ∈ hg.vars := by
          have := (hv.tri a.id1 a.id2 ((hvis.all _ _).1 ⟨a, ha, rfl, rfl⟩)).2.1
          simpa [vars] using this
        rw [Finset.sum_eq_single a.id1]
        · refine Finset.sum_congr rfl fun k _ => ?_
          have := hlt a ha
          by_cases hk : a.id2 < k
          · have hk2 := this.trans hk
            simp [ent, entLt, hk, hk2]
          · simp [ent, entLt, hk]
        · intro b _ hb
          refine Finset.sum_eq_zero fun k _ => ?_
          simp [ent, hb]
        · intro h; exact absurd hav h
      · intro i j _ h
        simp only [ent, h, mul_zero, zero_mul, ite_self]
    have : (es.map fun a => m3D 0 a + (((es.filter (entLt a)).filter fun it2 => decide (it2.id1 = a.id1)).map
      fun it2 => lit (6 * 8) * a.val * it2.val * hg.H a.id2 it2.id2).sum)
      = es.map fun a => m3D 0 a
          + ∑ k ∈ hg.vars, if a.id2 < k then lit (6 * 8) * a.val * hg.H a.id1 k * hg.H a.id2 k else 0 :=
      List.map_congr_left fun a ha => by rw [inner a ha]
    rw [this, sum_es_skip hv hvis]
    · unfold S2 S3
      simp only [← Finset.sum_add_distrib]
      refine Finset.sum_congr rfl fun i _ => Finset.sum_congr rfl fun j _ => ?_
      by_cases hij : i < j
      · simp only [hij, true_and, if_true, ent]
        congr 1
      · simp [hij]
    · intro i j _ h
      simp [ent, h, m3D]
  rw [e2]
  have e1 : ∀ i ∈ hg.vars, m3A 0 (hg.dOf i)
      + tsum (fun it2 rest2 => m3B 0 (hg.dOf i) it2.2
          + (List.map (fun it3 => m3C 0 (hg.dOf i) it2.2 it3.2) rest2).sum) (after hg i)
      + (List.map (fun it2 => m3F 0 (i, hg.dOf i) it2) es).sum
      = m3A 0 (hg.dOf i) + (∑ j ∈ hg.vars, if i < j then m3B 0 (hg.dOf i) (hg.dOf j) else 0)
        + (∑ j ∈ hg.vars, ∑ k ∈ hg.vars, if i < j ∧ j < k then m3C 0 (hg.dOf i) (hg.dOf j) (hg.dOf k) else 0)
        + ∑ j ∈ hg.vars, ∑ k ∈ hg.vars, if i ≠ j ∧ k ≠ i ∧ k ≠ j then
            (if j < k then lit (2 * 6) * (hg.dOf i).hhess * hg.H j k * hg.H j k else 0) else 0 := by
    intro i _
    rw [tsum_after hv, sum_es_skip hv hvis]
    · simp only [sum_after hv]
      have a1 : (∑ j ∈ hg.vars, if i < j then m3B 0 (hg.dOf i) (hg.dOf j)
          + ∑ k ∈ hg.vars, (if j < k then m3C 0 (hg.dOf i) (hg.dOf j) (hg.dOf k) else 0) else 0)
          = (∑ j ∈ hg.vars, if i < j then m3B 0 (hg.dOf i) (hg.dOf j) else 0)
        + (∑ j ∈ hg.vars, ∑ k ∈ hg.vars, if i < j ∧ j < k then m3C 0 (hg.dOf i) (hg.dOf j) (hg.dOf k) else 0) := by
        rw [← Finset.sum_add_distrib]
        refine Finset.sum_congr rfl fun j _ => ?_
        by_cases hij : i < j <;> simp [hij]
      have a2 : (S2 hg.vars fun j k => m3F 0 (i, hg.dOf i) (ent hg j k)) = ∑ j ∈ hg.vars, ∑ k ∈ hg.vars,
          if i ≠ j ∧ k ≠ i ∧ k ≠ j then
            (if j < k then lit (2 * 6) * (hg.dOf i).hhess * hg.H j k * hg.H j k else 0) else 0 := by
        unfold S2
        refine Finset.sum_congr rfl fun j _ => Finset.sum_congr rfl fun k _ => ?_
        by_cases hjk : j < k
        · have hne := hjk.ne'
          by_cases hji : i = j
          · simp [hjk, m3F, ent, hji]
          · have hji' : j ≠ i := Ne.symm hji
            by_cases hki : k = i
            · simp [hjk, m3F, ent, hki]
            · simp [hjk, m3F, ent, hji, hji', hki, hne]
        · simp [hjk]
      rw [a1, a2]; ring
    · intro j k _ h
      simp [m3F, ent, h]
  rw [Finset.sum_congr rfl e1]
  simp only [Finset.sum_add_distrib]
  have hD : (D3 hg.vars fun i j k =>
          (if i < j ∧ j < k then m3C 0 (hg.dOf i) (hg.dOf j) (hg.dOf k)
            + lit (6 * 8) * hg.H i j * hg.H i k * hg.H j k else 0)
          + (if j < k then lit (2 * 6) * (hg.dOf i).hhess * hg.H j k * hg.H j k else 0))
      = (S3 hg.vars fun i j k => m3C 0 (hg.dOf i) (hg.dOf j) (hg.dOf k))
        + (S3 hg.vars fun i j k => lit (6 * 8) * hg.H i j * hg.H i k * hg.H j k)
        + ∑ i ∈ hg.vars, ∑ j ∈ hg.vars, ∑ k ∈ hg.vars, if i ≠ j ∧ k ≠ i ∧ k ≠ j then
            (if j < k then lit (2 * 6) * (hg.dOf i).hhess * hg.H j k * hg.H j k else 0) else 0 := by
    unfold D3 S3
    simp only [← Finset.sum_add_distrib]
    refine Finset.sum_congr rfl fun i _ => Finset.sum_congr rfl fun j _ => Finset.sum_congr rfl fun k _ => ?_
    by_cases h : i < j ∧ j < k
    · have h3 := h.1.trans h.2
      simp [h, h.1.ne, h.2.ne', h3.ne']
    · simp [h]
  rw [hD]
  have hS2 : (S2 hg.vars fun i j => m3B 0 (hg.dOf i) (hg.dOf j) + m3D 0 (ent hg i j))
      = (∑ i ∈ hg.vars, ∑ j ∈ hg.vars, if i < j then m3B 0 (hg.dOf i) (hg.dOf j) else 0)
        + S2 hg.vars fun i j => m3D 0 (ent hg i j) := by
    unfold S2
    simp only [← Finset.sum_add_distrib]
    refine Finset.sum_congr rfl fun i _ => Finset.sum_congr rfl fun j _ => ?_
    split_ifs <;> simp
  rw [hS2]
  show _ + _ + (S3 hg.vars fun i j k => m3C 0 (hg.dOf i) (hg.dOf j) (hg.dOf k)) + _ + _ = _
  ring

/-! ## `compute_m4` -/

/-- Cycles G and H. -/
def inc4G (hg : HessGrad R) (i j k : VId) : R :=
  m4G2 0 (ent hg i j) (hg.dOf k) (hg.H i k) + m4G3 0 (ent hg i j) (hg.dOf k) (hg.H j k)
    + m4H 0 (ent hg i j) (hg.H i k) (hg.H j k)

/-- Cycle J. -/
def inc4J (hg : HessGrad R) (i j k l : VId) : R :=
  lit (2 * 32) * (hg.dOf l).hhess * hg.H i j * hg.H i k * hg.H j k

/-- Cycle L. -/
def inc4L (hg : HessGrad R) (i j k l : VId) : R :=
  lit (2 * 2 * 12) * (hg.dOf k).hhess * (hg.dOf l).hhess * hg.H i j * hg.H i j

/-- Cycles I and K. -/
def inc4I (hg : HessGrad R) (i j k l : VId) : R :=
  lit (2 * 48) * hg.H i j * hg.H i k * hg.H j l * hg.H k l + lit (2 * 48) * hg.H i j * hg.H j k * hg.H i l * hg.H k l
    + lit (2 * 2 * 12) * hg.H i j * hg.H i j * hg.H k l * hg.H k l

theorem m4G_add (hv : hg.Valid) {i j k : VId} (hki : k ≠ i) (hkj : k ≠ j) (m : R) (rest : SMap VId (Diag R)) :
    m4G hg m (ent hg i j) (k, hg.dOf k) rest
      = m + (inc4G hg i j k
        + (hg.diagmap.map fun it3 => if it3.1 = i ∨ it3.1 = j ∨ it3.1 = k then 0 else
            lit (2 * 32) * it3.2.hhess * hg.H i j * hg.H i k * hg.H j k).sum
        + (rest.map fun it3 => if it3.1 = i ∨ it3.1 = j then 0 else
            lit (2 * 2 * 12) * (hg.dOf k).hhess * it3.2.hhess * hg.H i j * hg.H i j).sum) := by
  have hJ : ∀ h2 h3 m, hg.diagmap.foldl (fun m it3 => m4J m (ent hg i j) k h2 h3 it3) m
      = m + (hg.diagmap.map fun it3 => if it3.1 = i ∨ it3.1 = j ∨ it3.1 = k then 0 else
            lit (2 * 32) * it3.2.hhess * hg.H i j * h2 * h3).sum := fun h2 h3 m =>
    foldl_add (fun m a => by by_cases h : a.1 = i ∨ a.1 = j ∨ a.1 = k <;> simp [m4J, ent, h]) _ _
  have hL : ∀ m, rest.foldl (fun m it3 => m4L m (ent hg i j) (hg.dOf k) it3) m
      = m + (rest.map fun it3 => if it3.1 = i ∨ it3.1 = j then 0 else
            lit (2 * 2 * 12) * (hg.dOf k).hhess * it3.2.hhess * hg.H i j * hg.H i j).sum := fun m =>
    foldl_add (fun m a => by by_cases h : a.1 = i ∨ a.1 = j <;> simp [m4L, ent, h]) _ _
  have hz : ∀ h2 h3, h2 = 0 ∨ h3 = 0 → (hg.diagmap.map fun it3 => if it3.1 = i ∨ it3.1 = j ∨ it3.1 = k then 0 else
            lit (2 * 32) * it3.2.hhess * hg.H i j * h2 * h3).sum = 0 := by
    intro h2 h3 h
    rw [show (hg.diagmap.map fun it3 => if it3.1 = i ∨ it3.1 = j ∨ it3.1 = k then 0 else
            lit (2 * 32) * it3.2.hhess * hg.H i j * h2 * h3) = hg.diagmap.map fun _ => (0 : R) from
      List.map_congr_left fun a _ => by rcases h with h | h <;> simp [h]]
    simp
  have hki' : ¬ ((k, hg.dOf k).1 = (ent hg i j).id1 ∨ (k, hg.dOf k).1 = (ent hg i j).id2) := by
    simp [ent, hki, hkj]
  unfold m4G
  rw [if_neg hki']
  dsimp only
  rw [hL]
  have f2 := triFind_eq hg (Ne.symm hki)
  have f3 := triFind_eq hg (Ne.symm hkj)
  simp only [inc4G]
  have hid1 : (ent hg i j).id1 = i := rfl
  have hid2 : (ent hg i j).id2 = j := rfl
  rw [hid1, hid2]
  cases h2 : hg.triFind i k with
  | none =>
    rw [h2, Option.getD_none] at f2
    cases h3 : hg.triFind j k with
    | none =>
      rw [h3, Option.getD_none] at f3
      dsimp only
      rw [← f2, ← f3, hz 0 0 (Or.inl rfl)]
      simp only [m4G2, m4G3, m4H, mul_zero, zero_mul, add_zero]; ring
    | some x3 =>
      rw [h3, Option.getD_some] at f3
      dsimp only
      rw [← f2, ← f3, hz 0 x3 (Or.inl rfl)]
      simp only [m4G2, m4G3, m4H, mul_zero, zero_mul, add_zero]; ring
  | some x2 =>
    rw [h2, Option.getD_some] at f2
    cases h3 : hg.triFind j k with
    | none =>
      rw [h3, Option.getD_none] at f3
      dsimp only
      rw [← f2, ← f3, hz x2 0 (Or.inr rfl)]
      simp only [m4G2, m4G3, m4H, mul_zero, zero_mul, add_zero]; ring
    | some x3 =>
      rw [h3, Option.getD_some] at f3
      dsimp only
      rw [← f2, ← f3, hJ]
      simp only [m4G2, m4G3, m4H]; ring

theorem m4I_add (m : R) {i j k l : VId} (h1 : i ≠ k) (h2 : i ≠ l) (h3 : j ≠ k) (h4 : j ≠ l) :
    m4I hg m (ent hg i j) (ent hg k l) = m + inc4I hg i j k l := by
  have hne : ¬ ((ent hg i j).id1 = (ent hg k l).id1 ∨ (ent hg i j).id1 = (ent hg k l).id2
      ∨ (ent hg i j).id2 = (ent hg k l).id1 ∨ (ent hg i j).id2 = (ent hg k l).id2) := by
    simp [ent, h1, h2, h3, h4]
  unfold m4I
  rw [if_neg hne]
  dsimp only [ent]
  have f1 := triFind_eq hg h1
  have f2 := triFind_eq hg h2
  have f3 := triFind_eq hg h3
  have f4 := triFind_eq hg h4
  unfold inc4I
  rw [← f1, ← f2, ← f3, ← f4]
  cases hg.triFind i k <;> cases hg.triFind j l <;> cases hg.triFind i l <;> cases hg.triFind j k <;>
    simp only [Option.getD_none, Option.getD_some] <;> ring

theorem m4I_same (m : R) {i j k l : VId} (h : i = k ∨ i = l ∨ j = k ∨ j = l) :
    m4I hg m (ent hg i j) (ent hg k l) = m := by
  unfold m4I
  rw [if_pos]
  exact h

/-- The first group of loops of `compute_m4`. -/
theorem m4_part1 (hv : hg.Valid) {es : List (Ent R)}
    (hvis : Visits hg es fun i j => toLex (i, j) ∈ keys hg.trimap) :
    hg.diagmap.foldl (fun m it =>
        let m := m4A m it.2
        let m := forTails (fun m it2 rest2 =>
            if it.1 = it2.1 then m
            else
            let m := m4B m it.2 it2.2
            forTails (fun m it3 rest3 =>
                if it.1 = it3.1 then m
                else
                let m := m4C m it.2 it2.2 it3.2
                rest3.foldl (fun m it4 =>
                  if it.1 = it4.1 then m
                  else m4D m it.2 it2.2 it3.2 it4.2) m) m rest2) m hg.diagmap
        es.foldl (fun m it2 => m4F m it it2) m) 0
      = (∑ i ∈ hg.vars, m4A 0 (hg.dOf i)) + (D2 hg.vars fun i j => m4B 0 (hg.dOf i) (hg.dOf j))
        + (D3 hg.vars fun i j k => if j < k then m4C 0 (hg.dOf i) (hg.dOf j) (hg.dOf k)
            + m4F 0 (i, hg.dOf i) (ent hg j k) else 0)
        + D4 hg.vars fun i j k l => if j < k ∧ k < l then m4D 0 (hg.dOf i) (hg.dOf j) (hg.dOf k) (hg.dOf l) else 0 := by
  have hF : ∀ (it : VId × Diag R) m, es.foldl (fun m it2 => m4F m it it2) m
      = m + (es.map fun it2 => m4F 0 it it2).sum :=
    fun it m => foldl_add (fun m a => by
      by_cases h : it.1 = a.id1 ∨ it.1 = a.id2
      · simp [m4F, h]
      · simp only [m4F, h, if_false]; ring) es m
  have hD : ∀ (it it2 it3 : VId × Diag R) (l : List (VId × Diag R)) m,
      l.foldl (fun m it4 => if it.1 = it4.1 then m else m4D m it.2 it2.2 it3.2 it4.2) m
        = m + (l.map fun it4 => if it.1 = it4.1 then 0 else m4D 0 it.2 it2.2 it3.2 it4.2).sum :=
    fun it it2 it3 l m => foldl_add (fun m a => by
      by_cases h : it.1 = a.1
      · simp [h]
      · simp only [m4D, h, if_false]; ring) l m
  have hC : ∀ (it it2 : VId × Diag R) (l : List (VId × Diag R)) m,
      forTails (fun m it3 rest3 =>
                if it.1 = it3.1 then m
                else
                let m := m4C m it.2 it2.2 it3.2
                rest3.foldl (fun m it4 =>
                  if it.1 = it4.1 then m
                  else m4D m it.2 it2.2 it3.2 it4.2) m) m l
        = m + tsum (fun it3 rest3 => if it.1 = it3.1 then 0 else m4C 0 it.2 it2.2 it3.2
            + (rest3.map fun it4 => if it.1 = it4.1 then 0 else m4D 0 it.2 it2.2 it3.2 it4.2).sum) l :=
    fun it it2 l m => forTails_add (fun m it3 t => by
      by_cases h : it.1 = it3.1
      · simp [h]
      · simp only [h, if_false, hD]
        simp only [m4C]; ring) l m
  have hB : ∀ (it : VId × Diag R) (l : List (VId × Diag R)) m,
      forTails (fun m it2 rest2 =>
            if it.1 = it2.1 then m
            else
            let m := m4B m it.2 it2.2
            forTails (fun m it3 rest3 =>
                if it.1 = it3.1 then m
                else
                let m := m4C m it.2 it2.2 it3.2
                rest3.foldl (fun m it4 =>
                  if it.1 = it4.1 then m
                  else m4D m it.2 it2.2 it3.2 it4.2) m) m rest2) m l
        = m + tsum (fun it2 rest2 => if it.1 = it2.1 then 0 else m4B 0 it.2 it2.2
            + tsum (fun it3 rest3 => if it.1 = it3.1 then 0 else m4C 0 it.2 it2.2 it3.2
            + (rest3.map fun it4 => if it.1 = it4.1 then 0 else m4D 0 it.2 it2.2 it3.2 it4.2).sum) rest2) l :=
    fun it l m => forTails_add (fun m it2 t => by
      by_cases h : it.1 = it2.1
      · simp [h]
      · simp only [h, if_false, hC]
        simp only [m4B]; ring) l m
  rw [foldl_add (φ := fun it => m4A 0 it.2
      + tsum (fun it2 rest2 => if it.1 = it2.1 then 0 else m4B 0 it.2 it2.2
            + tsum (fun it3 rest3 => if it.1 = it3.1 then 0 else m4C 0 it.2 it2.2 it3.2
            + (rest3.map fun it4 => if it.1 = it4.1 then 0 else m4D 0 it.2 it2.2 it3.2 it4.2).sum) rest2) hg.diagmap
      + (es.map fun it2 => m4F 0 it it2).sum)
    (fun m it => by
      dsimp only
      rw [hF, hB]
      simp only [m4A]; ring), zero_add, sum_dm hv]
  have hi : ∀ i ∈ hg.vars, m4A 0 (hg.dOf i)
      + tsum (fun it2 rest2 => if i = it2.1 then 0 else m4B 0 (hg.dOf i) it2.2
            + tsum (fun it3 rest3 => if i = it3.1 then 0 else m4C 0 (hg.dOf i) it2.2 it3.2
            + (rest3.map fun it4 => if i = it4.1 then 0 else m4D 0 (hg.dOf i) it2.2 it3.2 it4.2).sum) rest2) hg.diagmap
      + (es.map fun it2 => m4F 0 (i, hg.dOf i) it2).sum
      = m4A 0 (hg.dOf i) + (∑ j ∈ hg.vars, if i ≠ j then m4B 0 (hg.dOf i) (hg.dOf j) else 0)
        + (∑ j ∈ hg.vars, ∑ k ∈ hg.vars, if i ≠ j ∧ k ≠ i ∧ k ≠ j then
            (if j < k then m4C 0 (hg.dOf i) (hg.dOf j) (hg.dOf k) + m4F 0 (i, hg.dOf i) (ent hg j k) else 0) else 0)
        + ∑ j ∈ hg.vars, ∑ k ∈ hg.vars, ∑ l ∈ hg.vars,
            if (i ≠ j ∧ k ≠ i ∧ k ≠ j) ∧ l ≠ i ∧ l ≠ j ∧ l ≠ k then
              (if j < k ∧ k < l then m4D 0 (hg.dOf i) (hg.dOf j) (hg.dOf k) (hg.dOf l) else 0) else 0 := by
    intro i _
    rw [tsum_dm hv, sum_es_skip hv hvis]
    · simp only [tsum_after hv, sum_after hv]
      have a2 : (S2 hg.vars fun j k => m4F 0 (i, hg.dOf i) (ent hg j k)) = ∑ j ∈ hg.vars, ∑ k ∈ hg.vars,
          if i ≠ j ∧ k ≠ i ∧ k ≠ j then (if j < k then m4F 0 (i, hg.dOf i) (ent hg j k) else 0) else 0 := by
        unfold S2
        refine Finset.sum_congr rfl fun j _ => Finset.sum_congr rfl fun k _ => ?_
        by_cases hjk : j < k
        · have hne := hjk.ne'
          by_cases hji : i = j
          · simp [hjk, m4F, ent, hji]
          · by_cases hki : k = i
            · simp [hjk, m4F, ent, hki]
            · simp only [hjk, hji, hki, hne, ne_eq, not_false_eq_true, and_self, if_true]
        · simp [hjk]
      rw [a2, add_assoc, add_assoc, add_assoc]
      congr 1
      simp only [← Finset.sum_add_distrib]
      refine Finset.sum_congr rfl fun j _ => ?_
      by_cases hij : i = j
      · simp [hij]
      · simp only [hij, if_false, ne_eq, not_false_eq_true, if_true, true_and]
        rw [add_assoc]
        congr 1
        simp only [← Finset.sum_add_distrib]
        refine Finset.sum_congr rfl fun k _ => ?_
        by_cases hjk : j < k
        · have hne := hjk.ne'
          by_cases hki : k = i
          · simp [hki]
          · have hki' : ¬ i = k := fun h => hki h.symm
            simp only [hjk, hki, hki', hne, if_true, if_false, not_false_eq_true, and_self, true_and]
            have : ∀ l, (if k < l then if i = l then 0 else m4D 0 (hg.dOf i) (hg.dOf j) (hg.dOf k) (hg.dOf l) else 0)
                = if ¬ l = i ∧ ¬ l = j ∧ ¬ l = k then
                  (if k < l then m4D 0 (hg.dOf i) (hg.dOf j) (hg.dOf k) (hg.dOf l) else 0) else 0 := by
              intro l
              by_cases hkl : k < l
              · have h1 := hkl.ne'
                have h2 := (hjk.trans hkl).ne'
                by_cases hl : l = i
                · simp [hl]
                · have hl' : ¬ i = l := fun h => hl h.symm
                  simp [hkl, hl, hl', h1, h2]
              · simp [hkl]
            simp only [this]
            ring
        · simp [hjk]
    · intro j k _ h
      simp [m4F, ent, h]
  rw [Finset.sum_congr rfl hi]
  simp only [Finset.sum_add_distrib]
  rfl

/-- The second group of loops of `compute_m4`. -/
theorem m4_part2 (hv : hg.Valid) {es : List (Ent R)}
    (hvis : Visits hg es fun i j => toLex (i, j) ∈ keys hg.trimap) (m : R) :
    es.foldl (fun m it =>
        let m := m4E m it
        let m := forTails (fun m it2 rest => m4G hg m it it2 rest) m hg.diagmap
        es.foldl (fun m it2 => m4I hg m it it2) m) m
      = m + ((S2 hg.vars fun i j => m4E 0 (ent hg i j))
        + (D3 hg.vars fun i j k => if i < j then inc4G hg i j k else 0)
        + D4 hg.vars fun i j k l => (if i < j then inc4J hg i j k l else 0)
            + if i < j ∧ k < l then inc4L hg i j k l + inc4I hg i j k l else 0) := by
  have hlt : ∀ e ∈ es, e.id1 < e.id2 := fun e hm =>
    (hv.tri e.id1 e.id2 ((hvis.all _ _).1 ⟨e, hm, rfl, rfl⟩)).1
  have hI : ∀ i j m, es.foldl (fun m it2 => m4I hg m (ent hg i j) it2) m
      = m + (es.map fun e => if i = e.id1 ∨ i = e.id2 ∨ j = e.id1 ∨ j = e.id2 then 0
          else inc4I hg i j e.id1 e.id2).sum := fun i j m =>
    foldl_add_mem (fun m e he => by
      rw [ent_of_shows (hvis.data e he)]
      by_cases h : i = e.id1 ∨ i = e.id2 ∨ j = e.id1 ∨ j = e.id2
      · rw [m4I_same m h]
        simp [ent, h]
      · have h' := h
        simp only [not_or] at h'
        rw [m4I_add m h'.1 h'.2.1 h'.2.2.1 h'.2.2.2]
        simp [ent, h]) m
  have hG : ∀ i j m, forTails (fun m it2 rest => m4G hg m (ent hg i j) it2 rest) m hg.diagmap
      = m + tsum (fun it2 rest => if it2.1 = i ∨ it2.1 = j then 0 else
          inc4G hg i j it2.1
        + (hg.diagmap.map fun it3 => if it3.1 = i ∨ it3.1 = j ∨ it3.1 = it2.1 then 0 else
            lit (2 * 32) * it3.2.hhess * hg.H i j * hg.H i it2.1 * hg.H j it2.1).sum
        + (rest.map fun it3 => if it3.1 = i ∨ it3.1 = j then 0 else
            lit (2 * 2 * 12) * (hg.dOf it2.1).hhess * it3.2.hhess * hg.H i j * hg.H i j).sum) hg.diagmap :=
    fun i j m => forTails_add_mem (fun m it2 rest hs => by
      have hm : it2 ∈ hg.diagmap := hs.subset List.mem_cons_self
      have h2 : it2 = (it2.1, hg.dOf it2.1) := by
        have h : it2.1 ∈ keys hg.diagmap := List.mem_map_of_mem hm
        have h2 := find_dOf h
        rw [find?_of_mem hv.dsorted hm] at h2
        rw [← Option.some_inj.1 h2]
      by_cases h : it2.1 = i ∨ it2.1 = j
      · rw [m4G, if_pos (by simpa [ent] using h), if_pos h, add_zero]
      · rw [if_neg h]
        rw [not_or] at h
        conv_lhs => rw [h2]
        rw [m4G_add hv h.1 h.2]) m
  rw [foldl_add_mem (φ := fun e => m4E 0 e
      + tsum (fun it2 rest => if it2.1 = e.id1 ∨ it2.1 = e.id2 then 0 else
          inc4G hg e.id1 e.id2 it2.1
        + (hg.diagmap.map fun it3 => if it3.1 = e.id1 ∨ it3.1 = e.id2 ∨ it3.1 = it2.1 then 0 else
            lit (2 * 32) * it3.2.hhess * hg.H e.id1 e.id2 * hg.H e.id1 it2.1 * hg.H e.id2 it2.1).sum
        + (rest.map fun it3 => if it3.1 = e.id1 ∨ it3.1 = e.id2 then 0 else
            lit (2 * 2 * 12) * (hg.dOf it2.1).hhess * it3.2.hhess * hg.H e.id1 e.id2 * hg.H e.id1 e.id2).sum) hg.diagmap
      + (es.map fun e' => if e.id1 = e'.id1 ∨ e.id1 = e'.id2 ∨ e.id2 = e'.id1 ∨ e.id2 = e'.id2 then 0
          else inc4I hg e.id1 e.id2 e'.id1 e'.id2).sum)
    (fun m e he => by
      dsimp only
      have h2 := ent_of_shows (hvis.data e he)
      have e1 : ∀ m, es.foldl (fun m it2 => m4I hg m e it2) m
        = es.foldl (fun m it2 => m4I hg m (ent hg e.id1 e.id2) it2) m := fun m => by rw [← h2]
      have e2 : ∀ m, forTails (fun m it2 rest => m4G hg m e it2 rest) m hg.diagmap
        = forTails (fun m it2 rest => m4G hg m (ent hg e.id1 e.id2) it2 rest) m hg.diagmap := fun m => by rw [← h2]
      rw [e1, hI, e2, hG]
      simp only [m4E]; ring)]
  congr 1
  rw [sum_es_skip hv hvis]
  · have key : ∀ i ∈ hg.vars, ∀ j ∈ hg.vars, i < j → 
        m4E 0 (ent hg i j)
      + tsum (fun it2 rest => if it2.1 = i ∨ it2.1 = j then 0 else
          inc4G hg i j it2.1
        + (hg.diagmap.map fun it3 => if it3.1 = i ∨ it3.1 = j ∨ it3.1 = it2.1 then 0 else
            lit (2 * 32) * it3.2.hhess * hg.H i j * hg.H i it2.1 * hg.H j it2.1).sum
        + (rest.map fun it3 => if it3.1 = i ∨ it3.1 = j then 0 else
            lit (2 * 2 * 12) * (hg.dOf it2.1).hhess * it3.2.hhess * hg.H i j * hg.H i j).sum) hg.diagmap
      + (es.map fun e' => if i = e'.id1 ∨ i = e'.id2 ∨ j = e'.id1 ∨ j = e'.id2 then 0
          else inc4I hg i j e'.id1 e'.id2).sum
      = m4E 0 (ent hg i j) + (∑ k ∈ hg.vars, if i ≠ j ∧ k ≠ i ∧ k ≠ j then inc4G hg i j k else 0)
        + ∑ k ∈ hg.vars, ∑ l ∈ hg.vars, if (i ≠ j ∧ k ≠ i ∧ k ≠ j) ∧ l ≠ i ∧ l ≠ j ∧ l ≠ k then
            inc4J hg i j k l + (if k < l then inc4L hg i j k l + inc4I hg i j k l else 0) else 0 := by
      intro i _ j _ hij
      rw [tsum_dm hv, sum_es_skip hv hvis]
      · simp only [sum_dm hv, sum_after hv, S2]
        rw [add_assoc, add_assoc]
        congr 1
        simp only [← Finset.sum_add_distrib]
        refine Finset.sum_congr rfl fun k _ => ?_
        by_cases hki : k = i
        · simp [hki, ent]
        · by_cases hkj : k = j
          · simp [hkj, ent]
          · have hki' : ¬ i = k := fun h => hki h.symm
            have hkj' : ¬ j = k := fun h => hkj h.symm
            simp only [hki, hkj, hki', hkj', hij.ne, ent, or_self, if_false, ne_eq, not_false_eq_true, and_self, if_true,
              true_and, or_false, false_or]
            rw [add_assoc, add_assoc]
            congr 1
            simp only [← Finset.sum_add_distrib]
            refine Finset.sum_congr rfl fun l _ => ?_
            by_cases hli : l = i
            · simp [hli]
            · by_cases hlj : l = j
              · simp [hlj]
              · have hli' : ¬ i = l := fun h => hli h.symm
                have hlj' : ¬ j = l := fun h => hlj h.symm
                by_cases hlk : l = k
                · simp [hlk]
                · simp only [hli, hlj, hlk, hli', hlj', or_self, if_false, not_false_eq_true, and_self, if_true,
                    inc4J, inc4L]
                  by_cases hkl : k < l
                  · simp only [hkl, if_true]
                  · simp [hkl]
      · intro k l _ h
        simp [ent, inc4I, h]
    have : (S2 hg.vars fun i j => m4E 0 (ent hg i j)
      + tsum (fun it2 rest => if it2.1 = (ent hg i j).id1 ∨ it2.1 = (ent hg i j).id2 then 0 else
          inc4G hg (ent hg i j).id1 (ent hg i j).id2 it2.1
        + (hg.diagmap.map fun it3 => if it3.1 = (ent hg i j).id1 ∨ it3.1 = (ent hg i j).id2 ∨ it3.1 = it2.1 then 0 else
            lit (2 * 32) * it3.2.hhess * hg.H (ent hg i j).id1 (ent hg i j).id2 * hg.H (ent hg i j).id1 it2.1 * hg.H (ent hg i j).id2 it2.1).sum
        + (rest.map fun it3 => if it3.1 = (ent hg i j).id1 ∨ it3.1 = (ent hg i j).id2 then 0 else
            lit (2 * 2 * 12) * (hg.dOf it2.1).hhess * it3.2.hhess * hg.H (ent hg i j).id1 (ent hg i j).id2 * hg.H (ent hg i j).id1 (ent hg i j).id2).sum) hg.diagmap
      + (es.map fun e' => if (ent hg i j).id1 = e'.id1 ∨ (ent hg i j).id1 = e'.id2 ∨ (ent hg i j).id2 = e'.id1 ∨ (ent hg i j).id2 = e'.id2 then 0
          else inc4I hg (ent hg i j).id1 (ent hg i j).id2 e'.id1 e'.id2).sum)
      = S2 hg.vars fun i j => m4E 0 (ent hg i j) + (∑ k ∈ hg.vars, if i ≠ j ∧ k ≠ i ∧ k ≠ j then inc4G hg i j k else 0)
        + ∑ k ∈ hg.vars, ∑ l ∈ hg.vars, if (i ≠ j ∧ k ≠ i ∧ k ≠ j) ∧ l ≠ i ∧ l ≠ j ∧ l ≠ k then
            inc4J hg i j k l + (if k < l then inc4L hg i j k l + inc4I hg i j k l else 0) else 0 := by
      unfold S2
      refine Finset.sum_congr rfl fun i hi => Finset.sum_congr rfl fun j hj => ?_
      by_cases hij : i < j
      · rw [if_pos hij, if_pos hij]
        exact key i hi j hj hij
      · rw [if_neg hij, if_neg hij]
    rw [this]
    unfold S2 D3 D4
    simp only [← Finset.sum_add_distrib]
    refine Finset.sum_congr rfl fun i _ => Finset.sum_congr rfl fun j _ => ?_
    by_cases hij : i < j
    · simp only [hij, if_true, true_and, Finset.sum_add_distrib]
    · simp [hij]
  · intro i j _ h
    have h1 : ∀ k, inc4G hg i j k = 0 := fun k => by
      simp [inc4G, m4G2, m4G3, m4H, ent, h]
    have h2 : ∀ k l, inc4I hg i j k l = 0 := fun k l => by simp [inc4I, h]
    have h3 : m4E 0 (ent hg i j) = 0 := by simp [m4E, ent, h]
    rw [h3]
    simp only [ent, h1, h2, h, mul_zero, zero_mul, ite_self, List.map_const', List.sum_replicate, smul_zero, add_zero,
      zero_add]
    rw [tsum_dm hv]
    simp

theorem m4_eq (hv : hg.Valid) : m4 hg = some
    ((∑ i ∈ hg.vars, m4A 0 (hg.dOf i))
      + ((D2 hg.vars fun i j => m4B 0 (hg.dOf i) (hg.dOf j)) + S2 hg.vars fun i j => m4E 0 (ent hg i j))
      + ((D3 hg.vars fun i j k => if j < k then m4C 0 (hg.dOf i) (hg.dOf j) (hg.dOf k)
            + m4F 0 (i, hg.dOf i) (ent hg j k) else 0)
        + D3 hg.vars fun i j k => if i < j then inc4G hg i j k else 0)
      + ((D4 hg.vars fun i j k l => if j < k ∧ k < l then m4D 0 (hg.dOf i) (hg.dOf j) (hg.dOf k) (hg.dOf l) else 0)
        + D4 hg.vars fun i j k l => (if i < j then inc4J hg i j k l else 0)
            + if i < j ∧ k < l then inc4L hg i j k l + inc4I hg i j k l else 0)) := by
  obtain ⟨es, he, hvis⟩ := C45_skip hv
  rw [m4, he, Option.map_some]
  dsimp only
  rw [m4_part2 hv hvis, m4_part1 hv hvis]
  congr 1
  ring

end Mom
end Unc
