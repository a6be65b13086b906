import Verif.Spec.Tally
import Verif.Lemmas.Natural2
import Verif.Props.Sparse

/-!
# The operations made by the functions of `internal/moments.hpp`
-/

namespace Unc.TallyOps
open Unc Unc.Spec HessGrad SMap Mom

variable {R : Type*} [Zero R] [Add R] [Sub R] [Mul R] [NatCast R]

@[simp] theorem ops_zero : (0 : Tally R).ops = 0 := rfl
@[simp] theorem ops_lit (n : ℕ) : (lit n : Tally R).ops = 0 := rfl
@[simp] theorem ops_add (a b : Tally R) : (a + b).ops = a.ops + b.ops + 1 := rfl
@[simp] theorem ops_mul (a b : Tally R) : (a * b).ops = a.ops + b.ops + 1 := rfl

/-- forgetting the count preserves the operations -/
theorem val_hom : OpHom (Tally.val : Tally R → R) := ⟨rfl, fun _ _ => rfl, fun _ _ => rfl, fun _ _ => rfl, fun _ => rfl⟩

/-- the numbers in a `Diag` cost nothing -/
structure DFree (d : Diag (Tally R)) : Prop where
  g : d.grad.ops = 0
  h : d.hhess.ops = 0
  v3 : d.mom.v3.ops = 0
  v4 : d.mom.v4.ops = 0
  v5 : d.mom.v5.ops = 0
  v6 : d.mom.v6.ops = 0
  v7 : d.mom.v7.ops = 0
  v8 : d.mom.v8.ops = 0

/-- the numbers shown by an iterator cost nothing -/
structure EFree (e : Ent (Tally R)) : Prop where
  d1 : DFree e.d1
  d2 : DFree e.d2
  val : e.val.ops = 0

/-- the numbers in the maps cost nothing -/
structure HFree (hg : HessGrad (Tally R)) : Prop where
  diag : ∀ p ∈ hg.diagmap, DFree p.2
  tri : ∀ p ∈ hg.trimap, p.2.ops = 0

theorem hfree (hg : HessGrad R) : HFree (mapHG Tally.free hg) := by
  constructor
  · intro p hp
    simp only [mapHG, mapVal, List.mem_map] at hp
    obtain ⟨q, -, rfl⟩ := hp
    exact ⟨rfl, rfl, rfl, rfl, rfl, rfl, rfl, rfl⟩
  · intro p hp
    simp only [mapHG, mapVal, List.mem_map] at hp
    obtain ⟨q, -, rfl⟩ := hp
    rfl

theorem val_free (hg : HessGrad R) : mapHG Tally.val (mapHG Tally.free hg) = hg := by
  obtain ⟨dm, tri⟩ := hg
  simp only [mapHG, mapVal, List.map_map]
  congr 1
  · exact (List.map_congr_left fun p _ => rfl).trans (List.map_id _)
  · exact (List.map_congr_left fun p _ => rfl).trans (List.map_id _)

/-! ## the addends -/

section
variable {m : Tally R} {d d' d'' d3 : Diag (Tally R)} {e e2 : Ent (Tally R)} {a b : Tally R}

theorem m2A_ops (h : DFree d) : (m2A m d).ops = m.ops + 9 := by
  simp [m2A, h.g, h.h, h.v3, h.v4]

theorem m2B_ops (h : EFree e) : (m2B m e).ops = m.ops + 6 := by
  simp [m2B, h.d1.h, h.d2.h, h.val]

theorem m3A_ops (h : DFree d) : (m3A m d).ops = m.ops + 18 := by
  simp [m3A, h.g, h.h, h.v3, h.v4, h.v5, h.v6]

theorem m3B_ops (h : DFree d) (h' : DFree d') : (m3B m d d').ops = m.ops + 28 := by
  simp [m3B, h.g, h.h, h.v3, h.v4, h'.g, h'.h, h'.v3, h'.v4]

theorem m3C_ops (h : DFree d) (h' : DFree d') (h'' : DFree d'') : (m3C m d d' d'').ops = m.ops + 4 := by
  simp [m3C, h.h, h'.h, h''.h]

theorem m3F_ops {it : VId × Diag (Tally R)} (h : DFree it.2) (h' : EFree e) :
    (m3F m it e).ops = m.ops + if e.id1 = it.1 ∨ e.id2 = it.1 then 0 else 4 := by
  simp only [m3F]
  split_ifs <;> simp [h.h, h'.val]

theorem m3D_ops (h : EFree e) : (m3D m e).ops = m.ops + 46 := by
  obtain ⟨⟨g, h, v3, v4, v5, v6, v7, v8⟩, ⟨g', h', v3', v4', v5', v6', v7', v8'⟩, hv⟩ := h
  simp [m3D, *]

theorem m4A_ops (h : DFree d) : (m4A m d).ops = m.ops + 28 := by
  obtain ⟨g, h, v3, v4, v5, v6, v7, v8⟩ := h
  simp [m4A, *]

theorem m4B_ops (h : DFree d) (h' : DFree d') : (m4B m d d').ops = m.ops + 62 := by
  obtain ⟨g, h, v3, v4, v5, v6, v7, v8⟩ := h
  obtain ⟨g', h', v3', v4', v5', v6', v7', v8'⟩ := h'
  simp [m4B, *]

theorem m4C_ops (h : DFree d) (h' : DFree d') (h'' : DFree d'') : (m4C m d d' d'').ops = m.ops + 22 := by
  simp [m4C, h.g, h.h, h.v3, h.v4, h'.g, h'.h, h''.g, h''.h]

theorem m4D_ops (h : DFree d) (h' : DFree d') (h'' : DFree d'') (h3 : DFree d3) : (m4D m d d' d'' d3).ops = m.ops + 5 := by
  simp [m4D, h.h, h'.h, h''.h, h3.h]

theorem m4F_ops {it : VId × Diag (Tally R)} (h : DFree it.2) (h' : EFree e) : (m4F m it e).ops = m.ops + if it.1 = e.id1 ∨ it.1 = e.id2 then 0 else 72 := by
  obtain ⟨g, h, v3, v4, v5, v6, v7, v8⟩ := h
  obtain ⟨⟨g1, h1, v31, v41, v51, v61, v71, v81⟩, ⟨g', h', v3', v4', v5', v6', v7', v8'⟩, hv⟩ := h'
  simp only [m4F]
  split_ifs <;> simp [*]

theorem m4E_ops (h : EFree e) : (m4E m e).ops = m.ops + 177 := by
  obtain ⟨⟨g, h, v3, v4, v5, v6, v7, v8⟩, ⟨g', h', v3', v4', v5', v6', v7', v8'⟩, hv⟩ := h
  simp [m4E, *]

theorem m4G2_ops (h : EFree e) (hd : DFree d) (ha : a.ops = 0) : (m4G2 m e d a).ops = m.ops + 37 := by
  simp [m4G2, h.d1.v3, h.d1.v4, h.d2.g, h.d2.h, h.d2.v3, h.val, hd.g, hd.h, hd.v3, ha]

theorem m4G3_ops (h : EFree e) (hd : DFree d) (ha : a.ops = 0) : (m4G3 m e d a).ops = m.ops + 37 := by
  simp [m4G3, h.d2.v3, h.d2.v4, h.d1.g, h.d1.h, h.d1.v3, h.val, hd.g, hd.h, hd.v3, ha]

theorem m4H_ops (h : EFree e) (ha : a.ops = 0) (hb : b.ops = 0) : (m4H m e a b).ops = m.ops + 38 := by
  simp [m4H, h.d1.g, h.d1.h, h.d1.v3, h.d1.v4, h.d2.g, h.d2.h, h.d2.v3, h.d2.v4, h.val, ha, hb]

theorem m4J_ops {k : VId} {it : VId × Diag (Tally R)} (h : EFree e) (ha : a.ops = 0) (hb : b.ops = 0) (hd : DFree it.2) :
    m.ops ≤ (m4J m e k a b it).ops ∧ (m4J m e k a b it).ops ≤ m.ops + 5 := by
  simp only [m4J]
  split_ifs <;> simp [hd.h, h.val, ha, hb] <;> omega

theorem m4L_ops {it : VId × Diag (Tally R)} (h : EFree e) (hd : DFree d) (hd' : DFree it.2) :
    m.ops ≤ (m4L m e d it).ops ∧ (m4L m e d it).ops ≤ m.ops + 5 := by
  simp only [m4L]
  split_ifs <;> simp [hd.h, hd'.h, h.val] <;> omega

end

/-! ## loops -/

theorem foldl_ops {α : Type*} {g : Tally R → α → Tally R} {c : ℕ} : ∀ (l : List α), (∀ a ∈ l, ∀ m, (g m a).ops ≤ m.ops + c) → ∀ m, (l.foldl g m).ops ≤ m.ops + l.length * c
  | [], _, m => by simp
  | a :: l, h, m => by
    have h1 := foldl_ops l (fun b hb => h b (List.mem_cons_of_mem _ hb)) (g m a)
    have h2 := h a (by simp) m
    rw [List.foldl_cons, List.length_cons, Nat.succ_mul]
    omega

theorem foldl_ops_eq {α : Type*} {g : Tally R → α → Tally R} {w : α → ℕ} : ∀ (l : List α), (∀ a ∈ l, ∀ m, (g m a).ops = m.ops + w a) → ∀ m, (l.foldl g m).ops = m.ops + (l.map w).sum
  | [], _, m => by simp
  | a :: l, h, m => by
    rw [List.foldl_cons, foldl_ops_eq l (fun b hb => h b (List.mem_cons_of_mem _ hb)), h a (by simp), List.map_cons, List.sum_cons, add_assoc]

theorem foldl_ops_ge {α : Type*} {g : Tally R → α → Tally R} {c : ℕ} : ∀ (l : List α), (∀ a ∈ l, ∀ m, m.ops + c ≤ (g m a).ops) → ∀ m, m.ops + l.length * c ≤ (l.foldl g m).ops
  | [], _, m => by simp
  | a :: l, h, m => by
    have h1 := foldl_ops_ge l (fun b hb => h b (List.mem_cons_of_mem _ hb)) (g m a)
    have h2 := h a (by simp) m
    rw [List.foldl_cons, List.length_cons, Nat.succ_mul]
    omega

theorem forTails_ops {α : Type*} {g : Tally R → α → List α → Tally R} {c : ℕ} :
    ∀ (l : List α), (∀ a ∈ l, ∀ t, t <:+ l → ∀ m, (g m a t).ops ≤ m.ops + c) → ∀ m, (forTails g m l).ops ≤ m.ops + l.length * c
  | [], _, m => by simp [forTails]
  | a :: l, h, m => by
    have h1 := forTails_ops l (fun b hb t ht => h b (List.mem_cons_of_mem _ hb) t (ht.trans (List.suffix_cons a l))) (g m a l)
    have h2 := h a (by simp) l (List.suffix_cons a l) m
    rw [forTails, List.length_cons, Nat.succ_mul]
    omega

theorem forTails_ops_ge {α : Type*} {g : Tally R → α → List α → Tally R} :
    ∀ (l : List α), (∀ a ∈ l, ∀ t, t <:+ l → ∀ m, m.ops ≤ (g m a t).ops) → ∀ m, m.ops ≤ (forTails g m l).ops
  | [], _, m => by simp [forTails]
  | a :: l, h, m => by
    have h1 := forTails_ops_ge l (fun b hb t ht => h b (List.mem_cons_of_mem _ hb) t (ht.trans (List.suffix_cons a l))) (g m a l)
    have h2 := h a (by simp) l (List.suffix_cons a l) m
    rw [forTails]
    omega

/-- a loop over the elements but for the excluded ones, which visits in turn the `k`-tuples of the elements after the current one -/
theorem forTails_choose {α : Type*} {g : Tally R → α → List α → Tally R} (P : α → Bool) {c k : ℕ} :
    ∀ (l : List α), (∀ a ∈ l, ∀ t, t <:+ l → ∀ m, m.ops + (if P a then c * (t.countP P).choose k else 0) ≤ (g m a t).ops) →
      ∀ m, m.ops + c * (l.countP P).choose (k + 1) ≤ (forTails g m l).ops
  | [], _, m => by simp [forTails]
  | a :: l, h, m => by
    have h1 := forTails_choose P l (fun b hb t ht => h b (List.mem_cons_of_mem _ hb) t (ht.trans (List.suffix_cons a l))) (g m a l)
    have h2 := h a (by simp) l (List.suffix_cons a l) m
    rw [forTails, List.countP_cons]
    by_cases hp : P a = true
    · simp only [hp, if_true] at h2 ⊢
      rw [Nat.choose_succ_succ', mul_add]
      omega
    · simp only [hp, if_false, add_zero, Bool.false_eq_true] at h2 ⊢
      omega

theorem foldl_countP {α : Type*} {g : Tally R → α → Tally R} (P : α → Bool) {c : ℕ} :
    ∀ (l : List α), (∀ a ∈ l, ∀ m, m.ops + (if P a then c else 0) ≤ (g m a).ops) → ∀ m, m.ops + c * (l.countP P).choose 1 ≤ (l.foldl g m).ops
  | [], _, m => by simp
  | a :: l, h, m => by
    have h1 := foldl_countP P l (fun b hb => h b (List.mem_cons_of_mem _ hb)) (g m a)
    have h2 := h a (by simp) m
    rw [List.foldl_cons, List.countP_cons]
    rw [Nat.choose_one_right] at h1 ⊢
    by_cases hp : P a = true
    · simp only [hp, if_true] at h2 ⊢
      rw [mul_add]; omega
    · simp only [hp, if_false, add_zero, Bool.false_eq_true] at h2 ⊢
      omega

/-! ## entries -/

theorem dOf_free {hg : HessGrad (Tally R)} (h : HFree hg) {i : VId} (hi : i ∈ keys hg.diagmap) : DFree (hg.dOf i) :=
  h.diag (i, hg.dOf i) (find?_some_mem (find_dOf hi))

theorem entries_free {hg : HessGrad (Tally R)} (hv : hg.Valid) (h : HFree hg) {e : Ent (Tally R)} (he : e ∈ hg.trimap.map (entOf hg.dOf)) : EFree e := by
  obtain ⟨p, hp, rfl⟩ := List.mem_map.1 he
  have := hv.tri (ofLex p.1).1 (ofLex p.1).2 (List.mem_map_of_mem (f := Prod.fst) hp)
  exact ⟨dOf_free h this.2.1, dOf_free h this.2.2, h.tri p hp⟩

theorem mem_pairsFrom {α : Type*} : ∀ {l : List α} {p : α × α}, p ∈ pairsFrom l → p.1 ∈ l ∧ p.2 ∈ l
  | [], p, h => by simp [pairsFrom] at h
  | a :: t, p, h => by
    rw [pairsFrom, List.mem_append] at h
    rcases h with h | h
    · obtain ⟨b, hb, rfl⟩ := List.mem_map.1 h
      exact ⟨by simp, by simp [hb]⟩
    · have := mem_pairsFrom h
      exact ⟨List.mem_cons_of_mem _ this.1, List.mem_cons_of_mem _ this.2⟩

theorem len_pairsFrom {α : Type*} (l : List α) : (pairsFrom l).length = l.length.choose 2 := by
  induction l with
  | nil => rfl
  | cons p t ih => simp [pairsFrom, ih, Nat.choose_succ_succ']

theorem pair_free {hg : HessGrad (Tally R)} (h : HFree hg) {e : Ent (Tally R)} (he : e ∈ (pairsFrom hg.diagmap).map (entPair hg.trimap)) : EFree e := by
  obtain ⟨p, hp, rfl⟩ := List.mem_map.1 he
  obtain ⟨h1, h2⟩ := mem_pairsFrom hp
  refine ⟨h.diag _ h1, h.diag _ h2, ?_⟩
  simp only [entPair, SMap.get]
  cases hf : find? hg.trimap (toLex (p.1.1, p.2.1)) with
  | none => rfl
  | some v => exact h.tri _ (find?_some_mem hf)

theorem triFind_free {hg : HessGrad (Tally R)} (h : HFree hg) {i j : VId} {a : Tally R} (ha : hg.triFind i j = some a) : a.ops = 0 := by
  rw [HessGrad.triFind] at ha
  exact h.tri _ (find?_some_mem ha)

theorem triGet_free {hg : HessGrad (Tally R)} (h : HFree hg) {i j : VId} {a : Tally R} (ha : hg.triGet i j = some a) : a.ops = 0 := by
  simp only [HessGrad.triGet] at ha
  split_ifs at ha
  rw [Option.some_inj] at ha
  subst ha
  cases hf : find? hg.trimap (toLex (i, j)) with
  | none => rfl
  | some v => exact h.tri _ (find?_some_mem hf)

/-! ## the moments -/

theorem m1_ops {hg : HessGrad (Tally R)} (h : HFree hg) : (m1 hg).ops = hg.diagmap.length := by
  have := foldl_ops_eq (w := fun _ => 1) hg.diagmap (g := fun m it => m + it.2.hhess) (fun p hp m => by simp [(h.diag p hp).h]) 0
  simp only [ops_zero, List.map_const', List.sum_replicate, smul_eq_mul, mul_one, zero_add] at this
  exact this

theorem m2_ops {hg : HessGrad (Tally R)} (hv : hg.Valid) (h : HFree hg) {m : Tally R} (hm : m2 hg = some m) :
    m.ops = 9 * hg.diagmap.length + 6 * hg.diagmap.length.choose 2 := by
  rw [m2, triEntries_full hg hv, Option.map_some, Option.some_inj] at hm
  subst hm
  rw [foldl_ops_eq (w := fun _ => 6) _ (fun e he m => m2B_ops (pair_free h he)), foldl_ops_eq (w := fun _ => 9) _ (fun p hp m => m2A_ops (h.diag p hp))]
  simp only [ops_zero, List.map_const', List.sum_replicate, smul_eq_mul, List.length_map, len_pairsFrom]
  ring

/-- the elements of the row of `e` among those after `e` -/
theorem row_le {hg : HessGrad (Tally R)} (hv : hg.Valid) {e : Ent (Tally R)} {t : List (Ent (Tally R))} (ht : t <:+ hg.trimap.map (entOf hg.dOf)) :
    (t.takeWhile fun it2 => decide (it2.id1 = e.id1)).length ≤ hg.diagmap.length := by
  set l := t.takeWhile fun it2 => decide (it2.id1 = e.id1) with hl
  have hsub : l.Sublist (hg.trimap.map (entOf hg.dOf)) := (List.takeWhile_sublist _).trans ht.sublist
  have hid : ∀ x ∈ l, x.id1 = e.id1 := fun x hx => by simpa using List.mem_takeWhile_imp hx
  have hmem : ∀ x ∈ l, x.id2 ∈ keys hg.diagmap := fun x hx => by
    obtain ⟨p, hp, rfl⟩ := List.mem_map.1 (hsub.subset hx)
    exact (hv.tri (ofLex p.1).1 (ofLex p.1).2 (List.mem_map_of_mem (f := Prod.fst) hp)).2.2
  have hnd : ((hg.trimap.map (entOf hg.dOf)).map fun x => (toLex (x.id1, x.id2) : IdPair)).Nodup := by
    rw [List.map_map]
    exact (Sorted.nodup hv.tsorted)
  have hnd' : (l.map fun x => x.id2).Nodup := by
    refine List.Nodup.map_on ?_ (List.Nodup.of_map _ ((hsub.map _).nodup hnd))
    intro x hx y hy hxy
    refine List.inj_on_of_nodup_map ((hsub.map _).nodup hnd) hx hy ?_
    simp only [hid x hx, hid y hy, hxy]
  have := List.Subperm.length_le (List.subperm_of_subset hnd' (l₂ := keys hg.diagmap) fun i hi => by
    obtain ⟨x, hx, rfl⟩ := List.mem_map.1 hi
    exact hmem x hx)
  simpa [keys] using this

theorem foldlM_ops {α : Type*} {g : Tally R → α → Option (Tally R)} {c : ℕ} :
    ∀ (l : List α), (∀ a ∈ l, ∀ m m', g m a = some m' → m.ops ≤ m'.ops ∧ m'.ops ≤ m.ops + c) →
      ∀ m m', l.foldlM g m = some m' → m.ops ≤ m'.ops ∧ m'.ops ≤ m.ops + l.length * c
  | [], _, m, m', e => by
    simp only [List.foldlM_nil, Option.pure_def, Option.some_inj] at e
    subst e
    simp
  | a :: l, h, m, m', e => by
    rw [List.foldlM_cons] at e
    obtain ⟨m1, h1, e⟩ := Option.bind_eq_some_iff.1 e
    have h2 := foldlM_ops l (fun b hb => h b (List.mem_cons_of_mem _ hb)) _ _ e
    have h3 := h a (by simp) m m1 h1
    rw [List.length_cons, Nat.succ_mul]
    omega

theorem forTailsM_ops {α : Type*} {g : Tally R → α → List α → Option (Tally R)} {c : ℕ} :
    ∀ (l : List α), (∀ a ∈ l, ∀ t, t <:+ l → ∀ m m', g m a t = some m' → m.ops ≤ m'.ops ∧ m'.ops ≤ m.ops + c) →
      ∀ m m', forTails (fun m a t => m.bind fun m => g m a t) (some m) l = some m' → m.ops ≤ m'.ops ∧ m'.ops ≤ m.ops + l.length * c
  | [], _, m, m', e => by
    simp only [forTails, Option.some_inj] at e
    subst e
    simp
  | a :: l, h, m, m', e => by
    rw [forTails, Option.bind_some] at e
    cases h1 : g m a l with
    | none =>
      rw [h1] at e
      have : ∀ l : List α, forTails (fun (m : Option (Tally R)) a t => m.bind fun m => g m a t) none l = none := fun l => by
        induction l with
        | nil => rfl
        | cons b l ih => rw [forTails]; exact ih
      rw [this] at e
      exact nomatch e
    | some m1 =>
      rw [h1] at e
      have h2 := forTailsM_ops l (fun b hb t ht => h b (List.mem_cons_of_mem _ hb) t (ht.trans (List.suffix_cons a l))) _ _ e
      have h3 := h a (by simp) l (List.suffix_cons a l) m m1 h1
      rw [List.length_cons, Nat.succ_mul]
      omega

/-- bound to the operations of `compute_m3` with `N` variables and `T` stored off-diagonal elements -/
def cost3 (N T : ℕ) : ℕ := N * (18 + N * (28 + N * 4) + T * 4) + T * (46 + N * 4)

theorem m3_ops {hg : HessGrad (Tally R)} (hv : hg.Valid) (h : HFree hg) {m : Tally R} (hm : m3 hg = some m) :
    4 * hg.diagmap.length.choose 3 ≤ m.ops ∧ m.ops ≤ cost3 hg.diagmap.length hg.trimap.length := by
  rw [m3, triEntries_skip hg hv, Option.bind_some] at hm
  have hes : ∀ e ∈ hg.trimap.map (entOf hg.dOf), EFree e := fun e he => entries_free hv h he
  have hrow : ∀ e, ∀ t, t <:+ hg.trimap.map (entOf hg.dOf) → (t.takeWhile fun it2 => decide (it2.id1 = Ent.id1 e)).length ≤ hg.diagmap.length := fun e t ht => row_le hv ht
  have hlen : (hg.trimap.map (entOf hg.dOf)).length = hg.trimap.length := List.length_map _
  generalize hg.trimap.map (entOf hg.dOf) = es at hm hes hlen hrow
  rw [← hlen]
  simp only at hm
  have h2 := forTailsM_ops (c := 46 + hg.diagmap.length * 4) es (g := fun m it rest => (rest.takeWhile fun it2 => decide (it2.id1 = it.id1)).foldlM
            (fun m it2 => m3E hg m it it2) (m3D m it)) (fun e he t ht m m' e' => by
      have a1 := m3D_ops (m := m) (hes e he)
      have a2 := foldlM_ops (c := 4) _ (fun e2 he2 m m' e' => by
        simp only [m3E] at e'
        obtain ⟨a, ha, rfl⟩ := Option.map_eq_some_iff.1 e'
        simp [(hes e he).val, (hes e2 (ht.subset ((List.takeWhile_prefix _).subset he2))).val, triGet_free h ha, add_assoc]) _ _ e'
      have := Nat.mul_le_mul_right 4 (hrow e t ht)
      omega) _ m hm
  have hup := forTails_ops (c := 18 + hg.diagmap.length * (28 + hg.diagmap.length * 4) + es.length * 4) hg.diagmap (g := fun m it rest =>
        es.foldl (fun m it2 => m3F m it it2) (forTails (fun m it2 rest2 => rest2.foldl (fun m it3 => m3C m it.2 it2.2 it3.2) (m3B m it.2 it2.2)) (m3A m it.2) rest))
        (fun p hp t ht m => by
    have ht' : t.length ≤ hg.diagmap.length := ht.length_le
    have a1 := m3A_ops (m := m) (h.diag p hp)
    have a2 := forTails_ops (c := 28 + hg.diagmap.length * 4) t (g := fun m it2 rest2 => rest2.foldl (fun m it3 => m3C m p.2 it2.2 it3.2) (m3B m p.2 it2.2))
      (fun q hq r hr m => by
        have hq' := h.diag q (ht.subset hq)
        have b1 := m3B_ops (m := m) (h.diag p hp) hq'
        have b2 := foldl_ops (c := 4) r (g := fun m it3 => m3C m p.2 q.2 it3.2)
          (fun s hs m => (m3C_ops (h.diag p hp) hq' (h.diag s (ht.subset (hr.subset hs)))).le) (m3B m p.2 q.2)
        have := Nat.mul_le_mul_right 4 (hr.length_le.trans ht')
        omega) (m3A m p.2)
    have a3 := foldl_ops (c := 4) es (g := fun m it2 => m3F m p it2) (fun e he m => by
      have := m3F_ops (m := m) (h.diag p hp) (hes e he)
      split_ifs at this <;> omega) (forTails (fun m it2 rest2 => rest2.foldl (fun m it3 => m3C m p.2 it2.2 it3.2) (m3B m p.2 it2.2)) (m3A m p.2) t)
    have : t.length * (28 + hg.diagmap.length * 4) ≤ hg.diagmap.length * (28 + hg.diagmap.length * 4) := Nat.mul_le_mul_right _ ht'
    omega) 0
  have hlo := forTails_choose (fun _ => true) (c := 4) (k := 2) hg.diagmap (g := fun m it rest =>
        es.foldl (fun m it2 => m3F m it it2) (forTails (fun m it2 rest2 => rest2.foldl (fun m it3 => m3C m it.2 it2.2 it3.2) (m3B m it.2 it2.2)) (m3A m it.2) rest))
        (fun p hp t ht m => by
    have a1 := m3A_ops (m := m) (h.diag p hp)
    have a2 := forTails_choose (fun _ => true) (c := 4) (k := 1) t (g := fun m it2 rest2 => rest2.foldl (fun m it3 => m3C m p.2 it2.2 it3.2) (m3B m p.2 it2.2))
      (fun q hq r hr m => by
        have hq' := h.diag q (ht.subset hq)
        have b1 := m3B_ops (m := m) (h.diag p hp) hq'
        have b2 := foldl_countP (fun _ => true) (c := 4) r (g := fun m it3 => m3C m p.2 q.2 it3.2)
          (fun s hs m => (m3C_ops (h.diag p hp) hq' (h.diag s (ht.subset (hr.subset hs)))).ge) (m3B m p.2 q.2)
        simp only [if_true] at b2 ⊢
        omega) (m3A m p.2)
    have a3 := foldl_ops_ge (c := 0) es (g := fun m it2 => m3F m p it2) (fun e he m => by
      have := m3F_ops (m := m) (h.diag p hp) (hes e he)
      split_ifs at this <;> omega) (forTails (fun m it2 rest2 => rest2.foldl (fun m it3 => m3C m p.2 it2.2 it3.2) (m3B m p.2 it2.2)) (m3A m p.2) t)
    simp only [if_true, Nat.reduceAdd] at a2 a3 ⊢
    omega) 0
  simp only [List.countP_true, ops_zero, zero_add, Nat.reduceAdd] at hlo hup
  unfold cost3
  omega

theorem m4G_ops {hg : HessGrad (Tally R)} (h : HFree hg) {e : Ent (Tally R)} (he : EFree e) {p : VId × Diag (Tally R)} (hp : p ∈ hg.diagmap)
    {t : SMap VId (Diag (Tally R))} (ht : t <:+ hg.diagmap) (m : Tally R) :
    m.ops ≤ (m4G hg m e p t).ops ∧ (m4G hg m e p t).ops ≤ m.ops + (112 + hg.diagmap.length * 5 + hg.diagmap.length * 5) := by
  have hl := Nat.mul_le_mul_right 5 ht.length_le
  have hd := h.diag p hp
  simp only [m4G]
  split_ifs
  · omega
  · have fin : ∀ m : Tally R, m.ops ≤ (t.foldl (fun m it3 => m4L m e p.2 it3) m).ops ∧ (t.foldl (fun m it3 => m4L m e p.2 it3) m).ops ≤ m.ops + t.length * 5 := fun m =>
      ⟨foldl_ops_ge (c := 0) t (g := fun m it3 => m4L m e p.2 it3) (fun q hq m => (m4L_ops he hd (h.diag q (ht.subset hq))).1) m,
        foldl_ops (c := 5) t (g := fun m it3 => m4L m e p.2 it3) (fun q hq m => (m4L_ops he hd (h.diag q (ht.subset hq))).2) m⟩
    rcases h2 : hg.triFind e.id1 p.1 with _ | a <;> rcases h3 : hg.triFind e.id2 p.1 with _ | b <;> dsimp only
    · have := fin m
      omega
    · have a1 := m4G3_ops (m := m) he hd (triFind_free h h3)
      have := fin (m4G3 m e p.2 b)
      omega
    · have a1 := m4G2_ops (m := m) he hd (triFind_free h h2)
      have := fin (m4G2 m e p.2 a)
      omega
    · have a1 := m4G2_ops (m := m) he hd (triFind_free h h2)
      have a2 := m4G3_ops (m := m4G2 m e p.2 a) he hd (triFind_free h h3)
      have b1 := m4H_ops (m := m4G3 (m4G2 m e p.2 a) e p.2 b) he (triFind_free h h2) (triFind_free h h3)
      have b2 := foldl_ops (c := 5) hg.diagmap (g := fun m it3 => m4J m e p.1 a b it3)
        (fun q hq m => (m4J_ops he (triFind_free h h2) (triFind_free h h3) (h.diag q hq)).2) (m4H (m4G3 (m4G2 m e p.2 a) e p.2 b) e a b)
      have b3 := foldl_ops_ge (c := 0) hg.diagmap (g := fun m it3 => m4J m e p.1 a b it3)
        (fun q hq m => (m4J_ops he (triFind_free h h2) (triFind_free h h3) (h.diag q hq)).1) (m4H (m4G3 (m4G2 m e p.2 a) e p.2 b) e a b)
      have := fin (hg.diagmap.foldl (fun m it3 => m4J m e p.1 a b it3) (m4H (m4G3 (m4G2 m e p.2 a) e p.2 b) e a b))
      omega

theorem m4I_ops {hg : HessGrad (Tally R)} (h : HFree hg) {e e2 : Ent (Tally R)} (he : EFree e) (he2 : EFree e2) (m : Tally R) :
    m.ops ≤ (m4I hg m e e2).ops ∧ (m4I hg m e e2).ops ≤ m.ops + 15 := by
  have v1 := he.val; have v2 := he2.val
  simp only [m4I]
  split_ifs
  · omega
  · rcases h1 : hg.triFind e.id1 e2.id1 with _ | a <;> rcases h2 : hg.triFind e.id2 e2.id2 with _ | b <;>
      rcases h3 : hg.triFind e.id1 e2.id2 with _ | c <;> rcases h4 : hg.triFind e.id2 e2.id1 with _ | d <;>
      simp only [ops_add, ops_mul, ops_lit, v1, v2] <;>
      first
        | omega
        | (have e1 := triFind_free h h1; have e2 := triFind_free h h2; have e3 := triFind_free h h3; have e4 := triFind_free h h4; omega)
        | (have e1 := triFind_free h h1; have e2 := triFind_free h h2; omega)
        | (have e3 := triFind_free h h3; have e4 := triFind_free h h4; omega)

/-- bound to the operations of `compute_m4` with `N` variables and `T` stored off-diagonal elements -/
def cost4 (N T : ℕ) : ℕ := N * (28 + N * (62 + N * (22 + N * 5)) + T * 72) + T * (177 + N * (112 + N * 5 + N * 5) + T * 15)

theorem countP_ne {V : Type*} {l : SMap VId V} (hs : Sorted l) {p : VId × V} (hp : p ∈ l) : l.countP (fun q => !decide (p.1 = q.1)) = l.length - 1 := by
  have h1 : l.countP (fun q => decide (p.1 = q.1)) = 1 := by
    have : (keys l).count p.1 = 1 := List.count_eq_one_of_mem (Sorted.nodup hs) (List.mem_map_of_mem (f := Prod.fst) hp)
    rw [keys, List.count, List.countP_map] at this
    rw [← this]
    refine List.countP_congr fun q _ => ?_
    simp only [Function.comp, beq_iff_eq, decide_eq_true_eq]
    exact eq_comm
  have h2 := List.length_eq_countP_add_countP (fun q : VId × V => decide (p.1 = q.1)) (l := l)
  have h3 : l.countP (fun q => !decide (p.1 = q.1)) = l.countP (fun q => ¬ decide (p.1 = q.1) = true) := by
    refine List.countP_congr fun q _ => ?_
    simp
  omega

/-- cycles A to D for the variable `p` -/
def m4Var (dm : SMap VId (Diag (Tally R))) (m : Tally R) (p : VId × Diag (Tally R)) : Tally R :=
  forTails (fun m it2 rest2 =>
            if p.1 = it2.1 then m
            else
            forTails (fun m it3 rest3 =>
                if p.1 = it3.1 then m
                else
                rest3.foldl (fun m it4 =>
                  if p.1 = it4.1 then m
                  else m4D m p.2 it2.2 it3.2 it4.2) (m4C m p.2 it2.2 it3.2)) (m4B m p.2 it2.2) rest2) (m4A m p.2) dm

theorem m4Var_le {dm : SMap VId (Diag (Tally R))} (h : ∀ p ∈ dm, DFree p.2) {p : VId × Diag (Tally R)} (hp : p ∈ dm) (m : Tally R) :
    (m4Var dm m p).ops ≤ m.ops + (28 + dm.length * (62 + dm.length * (22 + dm.length * 5))) := by
  have hd := h p hp
  have a1 := m4A_ops (m := m) hd
  have a2 := forTails_ops (c := 62 + dm.length * (22 + dm.length * 5)) dm (g := fun m it2 rest2 =>
            if p.1 = it2.1 then m
            else
            forTails (fun m it3 rest3 =>
                if p.1 = it3.1 then m
                else
                rest3.foldl (fun m it4 =>
                  if p.1 = it4.1 then m
                  else m4D m p.2 it2.2 it3.2 it4.2) (m4C m p.2 it2.2 it3.2)) (m4B m p.2 it2.2) rest2)
      (fun q hq r hr m => by
        have hrl := Nat.mul_le_mul_right (22 + dm.length * 5) hr.length_le
        split_ifs
        · omega
        · have hq' := h q hq
          have b1 := m4B_ops (m := m) hd hq'
          have b2 := forTails_ops (c := 22 + dm.length * 5) r (g := fun m it3 rest3 =>
                if p.1 = it3.1 then m
                else
                rest3.foldl (fun m it4 =>
                  if p.1 = it4.1 then m
                  else m4D m p.2 q.2 it3.2 it4.2) (m4C m p.2 q.2 it3.2))
            (fun s hs t ht m => by
              have htl := Nat.mul_le_mul_right 5 (ht.length_le.trans hr.length_le)
              split_ifs
              · omega
              · have hs' := h s (hr.subset hs)
                have c1 := m4C_ops (m := m) hd hq' hs'
                have c2 := foldl_ops (c := 5) t (g := fun m it4 =>
                  if p.1 = it4.1 then m
                  else m4D m p.2 q.2 s.2 it4.2) (fun v hv m => by
                    have := m4D_ops (m := m) hd hq' hs' (h v (hr.subset (ht.subset hv)))
                    split_ifs <;> omega) (m4C m p.2 q.2 s.2)
                omega) (m4B m p.2 q.2)
          omega) (m4A m p.2)
  rw [m4Var]
  omega

theorem m4Var_ge {dm : SMap VId (Diag (Tally R))} (hs : Sorted dm) (h : ∀ p ∈ dm, DFree p.2) {p : VId × Diag (Tally R)} (hp : p ∈ dm) (m : Tally R) :
    m.ops + 5 * (dm.length - 1).choose 3 ≤ (m4Var dm m p).ops := by
  have hd := h p hp
  have a1 := m4A_ops (m := m) hd
  have a2 := forTails_choose (fun q => !decide (p.1 = q.1)) (c := 5) (k := 2) dm (g := fun m it2 rest2 =>
            if p.1 = it2.1 then m
            else
            forTails (fun m it3 rest3 =>
                if p.1 = it3.1 then m
                else
                rest3.foldl (fun m it4 =>
                  if p.1 = it4.1 then m
                  else m4D m p.2 it2.2 it3.2 it4.2) (m4C m p.2 it2.2 it3.2)) (m4B m p.2 it2.2) rest2)
      (fun q hq r hr m => by
        by_cases hpq : p.1 = q.1
        · simp [hpq]
        · have hq' := h q hq
          have b1 := m4B_ops (m := m) hd hq'
          have b2 := forTails_choose (fun q => !decide (p.1 = q.1)) (c := 5) (k := 1) r (g := fun m it3 rest3 =>
                if p.1 = it3.1 then m
                else
                rest3.foldl (fun m it4 =>
                  if p.1 = it4.1 then m
                  else m4D m p.2 q.2 it3.2 it4.2) (m4C m p.2 q.2 it3.2))
            (fun s hs t ht m => by
              by_cases hps : p.1 = s.1
              · simp [hps]
              · have hs' := h s (hr.subset hs)
                have c1 := m4C_ops (m := m) hd hq' hs'
                have c2 := foldl_countP (fun q => !decide (p.1 = q.1)) (c := 5) t (g := fun m it4 =>
                  if p.1 = it4.1 then m
                  else m4D m p.2 q.2 s.2 it4.2) (fun v hv m => by
                    have := m4D_ops (m := m) hd hq' hs' (h v (hr.subset (ht.subset hv)))
                    by_cases hpv : p.1 = v.1
                    · simp [hpv]
                    · simp only [hpv, decide_false, Bool.not_false, if_true, if_false]
                      omega) (m4C m p.2 q.2 s.2)
                simp only [hps, decide_false, Bool.not_false, if_true, if_false]
                omega) (m4B m p.2 q.2)
          simp only [hpq, decide_false, Bool.not_false, if_true, if_false]
          simp only [Nat.reduceAdd] at b2
          omega) (m4A m p.2)
  rw [countP_ne hs hp] at a2
  simp only [Nat.reduceAdd] at a2
  rw [m4Var]
  omega

theorem m4_ops {hg : HessGrad (Tally R)} (hv : hg.Valid) (h : HFree hg) {m : Tally R} (hm : m4 hg = some m) :
    5 * hg.diagmap.length * (hg.diagmap.length - 1).choose 3 ≤ m.ops ∧ m.ops ≤ cost4 hg.diagmap.length hg.trimap.length := by
  rw [m4, triEntries_skip hg hv, Option.map_some, Option.some_inj] at hm
  have hes : ∀ e ∈ hg.trimap.map (entOf hg.dOf), EFree e := fun e he => entries_free hv h he
  have hlen : (hg.trimap.map (entOf hg.dOf)).length = hg.trimap.length := List.length_map _
  generalize hg.trimap.map (entOf hg.dOf) = es at hm hes hlen
  rw [← hlen]
  subst hm
  have hF : ∀ p ∈ hg.diagmap, ∀ m : Tally R, m.ops ≤ (es.foldl (fun m it2 => m4F m p it2) m).ops ∧ (es.foldl (fun m it2 => m4F m p it2) m).ops ≤ m.ops + es.length * 72 := fun p hp m =>
    ⟨foldl_ops_ge (c := 0) es (g := fun m it2 => m4F m p it2) (fun e he m => by
        have := m4F_ops (m := m) (h.diag p hp) (hes e he)
        omega) m,
      foldl_ops (c := 72) es (g := fun m it2 => m4F m p it2) (fun e he m => by
        have := m4F_ops (m := m) (h.diag p hp) (hes e he)
        split_ifs at this <;> omega) m⟩
  have up := foldl_ops (c := 28 + hg.diagmap.length * (62 + hg.diagmap.length * (22 + hg.diagmap.length * 5)) + es.length * 72) hg.diagmap
    (g := fun m it => es.foldl (fun m it2 => m4F m it it2) (m4Var hg.diagmap m it)) (fun p hp m => by
      have a1 := m4Var_le h.diag hp m
      have a2 := hF p hp (m4Var hg.diagmap m p)
      omega) 0
  have lo := foldl_ops_ge (c := 5 * (hg.diagmap.length - 1).choose 3) hg.diagmap
    (g := fun m it => es.foldl (fun m it2 => m4F m it it2) (m4Var hg.diagmap m it)) (fun p hp m => by
      have a1 := m4Var_ge hv.dsorted h.diag hp m
      have a2 := hF p hp (m4Var hg.diagmap m p)
      omega) 0
  set M := hg.diagmap.foldl (fun m it => es.foldl (fun m it2 => m4F m it it2) (m4Var hg.diagmap m it)) 0 with hM
  have hE : ∀ e ∈ es, ∀ m : Tally R, m.ops ≤ (es.foldl (fun m it2 => m4I hg m e it2) (forTails (fun m it2 rest => m4G hg m e it2 rest) (m4E m e) hg.diagmap)).ops ∧
      (es.foldl (fun m it2 => m4I hg m e it2) (forTails (fun m it2 rest => m4G hg m e it2 rest) (m4E m e) hg.diagmap)).ops ≤
        m.ops + (177 + hg.diagmap.length * (112 + hg.diagmap.length * 5 + hg.diagmap.length * 5) + es.length * 15) := fun e he m => by
    have a1 := m4E_ops (m := m) (hes e he)
    have a2 := forTails_ops (c := 112 + hg.diagmap.length * 5 + hg.diagmap.length * 5) hg.diagmap (g := fun m it2 rest => m4G hg m e it2 rest)
      (fun p hp t ht m => (m4G_ops h (hes e he) hp ht m).2) (m4E m e)
    have a3 := forTails_ops_ge hg.diagmap (g := fun m it2 rest => m4G hg m e it2 rest)
      (fun p hp t ht m => (m4G_ops h (hes e he) hp ht m).1) (m4E m e)
    set W := forTails (fun m it2 rest => m4G hg m e it2 rest) (m4E m e) hg.diagmap
    have a4 := foldl_ops (c := 15) es (g := fun m it2 => m4I hg m e it2) (fun e2 he2 m => (m4I_ops h (hes e he) (hes e2 he2) m).2) W
    have a5 := foldl_ops_ge (c := 0) es (g := fun m it2 => m4I hg m e it2) (fun e2 he2 m => (m4I_ops h (hes e he) (hes e2 he2) m).1) W
    omega
  have up2 := foldl_ops (c := 177 + hg.diagmap.length * (112 + hg.diagmap.length * 5 + hg.diagmap.length * 5) + es.length * 15) es
    (g := fun m e => es.foldl (fun m it2 => m4I hg m e it2) (forTails (fun m it2 rest => m4G hg m e it2 rest) (m4E m e) hg.diagmap)) (fun e he m => (hE e he m).2) M
  have lo2 := foldl_ops_ge (c := 0) es
    (g := fun m e => es.foldl (fun m it2 => m4I hg m e it2) (forTails (fun m it2 rest => m4G hg m e it2 rest) (m4E m e) hg.diagmap)) (fun e he m => (hE e he m).1) M
  simp only [ops_zero, zero_add] at up lo
  have e1 : 5 * hg.diagmap.length * (hg.diagmap.length - 1).choose 3 = hg.diagmap.length * (5 * (hg.diagmap.length - 1).choose 3) := by ring
  have l3 : 5 * hg.diagmap.length * (hg.diagmap.length - 1).choose 3 ≤ (es.foldl (fun m e => es.foldl (fun m it2 => m4I hg m e it2) (forTails (fun m it2 rest => m4G hg m e it2 rest) (m4E m e) hg.diagmap)) M).ops := by
    omega
  have u3 : (es.foldl (fun m e => es.foldl (fun m it2 => m4I hg m e it2) (forTails (fun m it2 rest => m4G hg m e it2 rest) (m4E m e) hg.diagmap)) M).ops ≤ cost4 hg.diagmap.length es.length := by
    unfold cost4
    omega
  exact ⟨l3, u3⟩

/-! ## the covariance -/

theorem c2A_ops (m : Tally R) (la lb : SMap VId (Diag (Tally R))) (ha : Sorted la) (hb : Sorted lb) (fa : ∀ p ∈ la, DFree p.2) (fb : ∀ p ∈ lb, DFree p.2) :
    (c2A m la lb).ops = m.ops + 11 * la.countP fun p => decide (p.1 ∈ keys lb) := by
  fun_induction c2A m la lb with
  | case1 m ida da ta idb db tb hlt ih =>
    have hn : ida ∉ keys ((idb, db) :: tb) := by
      intro hm
      rw [keys_cons, List.mem_cons] at hm
      rcases hm with h | h
      · exact hlt.ne h
      · exact ((sorted_cons.1 hb).1 _ h).not_gt hlt
    rw [ih ha.tail hb (fun p hp => fa p (List.mem_cons_of_mem _ hp)) fb, List.countP_cons]
    simp only [hn, decide_false, Bool.false_eq_true, if_false, add_zero]
  | case2 m ida da ta idb db tb hlt hlt2 ih =>
    rw [ih ha hb.tail fa fun p hp => fb p (List.mem_cons_of_mem _ hp)]
    congr 2
    refine List.countP_congr fun p hp => ?_
    have hne : p.1 ≠ idb := by
      have : ida ≤ p.1 := by
        rcases List.mem_cons.1 hp with rfl | h
        · exact le_rfl
        · exact ((sorted_cons.1 ha).1 _ (List.mem_map_of_mem (f := Prod.fst) h)).le
      exact (hlt2.trans_le this).ne'
    simp [keys_cons, hne]
  | case3 m ida da ta idb db tb hlt hlt2 m1 m2 m3 m4 ih =>
    have heq : ida = idb := le_antisymm (not_lt.1 hlt2) (not_lt.1 hlt)
    subst heq
    rw [ih ha.tail hb.tail (fun p hp => fa p (List.mem_cons_of_mem _ hp)) fun p hp => fb p (List.mem_cons_of_mem _ hp), List.countP_cons]
    have h1 : ida ∈ keys ((ida, db) :: tb) := by simp [keys_cons]
    have h2 : ta.countP (fun p => decide (p.1 ∈ keys ((ida, db) :: tb))) = ta.countP fun p => decide (p.1 ∈ keys tb) := by
      refine List.countP_congr fun p hp => ?_
      have hne : p.1 ≠ ida := ((sorted_cons.1 ha).1 _ (List.mem_map_of_mem (f := Prod.fst) hp)).ne'
      simp [keys_cons, hne]
    have f1 := fa (ida, da) (by simp); have f2 := fb (ida, db) (by simp)
    have g1 := f1.g; have g2 := f1.h; have g3 := f1.v3; have g4 := f1.v4; have g5 := f2.g; have g6 := f2.h
    simp only at g1 g2 g3 g4 g5 g6
    rw [h2]
    simp only [m4, m3, m2, m1, h1, decide_true, if_true, ops_add, ops_mul, g1, g2, g3, g4, g5, g6]
    omega
  | case4 m la lb hne =>
    rcases la with _ | ⟨p, ta⟩
    · simp
    · rcases lb with _ | ⟨q, tb⟩
      · simp [keys]
      · exact (hne p.1 p.2 ta q.1 q.2 tb rfl rfl).elim

/-- the pair of ids shown by an iterator -/
def ek (e : Ent (Tally R)) : IdPair := toLex (e.id1, e.id2)

theorem c2B_ops (m : Tally R) (la lb : List (Ent (Tally R))) (ha : (la.map ek).Pairwise (· < ·)) (hb : (lb.map ek).Pairwise (· < ·)) (fa : ∀ p ∈ la, EFree p)
    (fb : ∀ p ∈ lb, EFree p) {m' : Tally R} (h' : c2B m la lb = some m') : m'.ops = m.ops + 3 * la.countP fun p => decide (ek p ∈ lb.map ek) := by
  fun_induction c2B m la lb with
  | case1 m ta la tb lb h => exact nomatch h'
  | case2 m ta la tb lb h ida idb hlt ih =>
    have hn : ek ta ∉ (tb :: lb).map ek := by
      intro hm
      rw [List.map_cons, List.mem_cons] at hm
      rcases hm with h | h
      · exact hlt.ne h
      · rw [List.map_cons, List.pairwise_cons] at hb
        exact (hb.1 _ h).not_gt hlt
    rw [List.map_cons, List.pairwise_cons] at ha
    rw [ih ha.2 hb (fun p hp => fa p (List.mem_cons_of_mem _ hp)) fb h', List.countP_cons]
    simp only [hn, decide_false, Bool.false_eq_true, if_false, add_zero]
  | case3 m ta la tb lb h ida idb hlt hlt2 ih =>
    rw [ih ha (by rw [List.map_cons, List.pairwise_cons] at hb; exact hb.2) fa (fun p hp => fb p (List.mem_cons_of_mem _ hp)) h']
    congr 2
    refine List.countP_congr fun p hp => ?_
    have hne : ek p ≠ ek tb := by
      have : ek ta ≤ ek p := by
        rcases List.mem_cons.1 hp with rfl | h
        · exact le_rfl
        · rw [List.map_cons, List.pairwise_cons] at ha
          exact (ha.1 _ (List.mem_map_of_mem h)).le
      exact (lt_of_lt_of_le hlt2 this).ne'
    rw [List.map_cons, decide_eq_true_eq, decide_eq_true_eq, List.mem_cons]
    simp [hne]
  | case4 m ta la tb lb h ida idb hlt hlt2 m1 ih =>
    have heq : ek ta = ek tb := le_antisymm (not_lt.1 hlt2) (not_lt.1 hlt)
    rw [List.map_cons, List.pairwise_cons] at ha
    have hb2 := hb
    rw [List.map_cons, List.pairwise_cons] at hb2
    rw [ih ha.2 hb2.2 (fun p hp => fa p (List.mem_cons_of_mem _ hp)) (fun p hp => fb p (List.mem_cons_of_mem _ hp)) h', List.countP_cons]
    have h1 : ek ta ∈ (tb :: lb).map ek := by rw [heq]; simp
    have h2 : la.countP (fun p => decide (ek p ∈ (tb :: lb).map ek)) = la.countP fun p => decide (ek p ∈ lb.map ek) := by
      refine List.countP_congr fun p hp => ?_
      have hne : ek p ≠ ek tb := by
        rw [← heq]
        exact (ha.1 _ (List.mem_map_of_mem hp)).ne'
      rw [List.map_cons, decide_eq_true_eq, decide_eq_true_eq, List.mem_cons]
      simp [hne]
    have g1 := (fa ta (by simp)).val; have g2 := (fb tb (by simp)).val
    rw [h2]
    simp only [m1, h1, decide_true, if_true, ops_add, ops_mul, ops_lit, g1, g2]
    omega
  | case5 m la lb hne =>
    rw [Option.some_inj] at h'
    subst h'
    rcases la with _ | ⟨p, ta⟩
    · simp
    · rcases lb with _ | ⟨q, tb⟩
      · simp
      · exact (hne p ta q tb rfl rfl).elim

theorem countP_other {V W : Type*} {l : SMap VId V} (hs : Sorted l) (p : VId × W) :
    l.countP (fun q => decide (p.1 ≠ q.1)) + (if p.1 ∈ keys l then 1 else 0) = l.length := by
  have h1 : l.countP (fun q => decide (p.1 = q.1)) = if p.1 ∈ keys l then 1 else 0 := by
    have : (keys l).count p.1 = if p.1 ∈ keys l then 1 else 0 := by
      split_ifs with h
      · exact List.count_eq_one_of_mem (Sorted.nodup hs) h
      · exact List.count_eq_zero_of_not_mem h
    rw [keys, List.count, List.countP_map] at this
    rw [← keys] at this
    rw [← this]
    refine List.countP_congr fun q _ => ?_
    simp only [Function.comp, beq_iff_eq, decide_eq_true_eq]
    exact eq_comm
  have h2 := List.length_eq_countP_add_countP (fun q : VId × V => decide (p.1 = q.1)) (l := l)
  have h3 : l.countP (fun q => decide (p.1 ≠ q.1)) = l.countP (fun q => ¬ decide (p.1 = q.1) = true) := by
    refine List.countP_congr fun q _ => ?_
    simp
  omega

theorem sum_ite_countP {α : Type*} (P : α → Bool) (c : ℕ) (l : List α) : (l.map fun q => if P q then c else 0).sum = c * l.countP P := by
  induction l with
  | nil => rfl
  | cons a t ih =>
    rw [List.map_cons, List.sum_cons, ih, List.countP_cons]
    split_ifs <;> ring

theorem c2C_ops (m : Tally R) (la lb : SMap VId (Diag (Tally R))) (hb : Sorted lb) (fa : ∀ p ∈ la, DFree p.2) (fb : ∀ p ∈ lb, DFree p.2) :
    (c2C m la lb).ops + 2 * (la.countP fun p => decide (p.1 ∈ keys lb)) = m.ops + 2 * (la.length * lb.length) := by
  rw [c2C, foldl_ops_eq (w := fun p => 2 * lb.countP fun q => decide (p.1 ≠ q.1)) la (fun p hp m => by
    rw [foldl_ops_eq (w := fun q => if decide (p.1 ≠ q.1) = true then 2 else 0) lb (fun q hq m => by
      have h1 := (fa p hp).h; have h2 := (fb q hq).h
      by_cases h : p.1 ≠ q.1
      · simp only [h, h1, h2, decide_true, ops_add, ops_mul, if_true, ne_eq, not_false_eq_true]
      · simp [h]), sum_ite_countP])]
  rw [add_assoc]
  congr 1
  clear fa
  induction la with
  | nil => simp
  | cons a t ih =>
    rw [List.map_cons, List.sum_cons, List.countP_cons, List.length_cons, show (t.length + 1) * lb.length = t.length * lb.length + lb.length from Nat.succ_mul _ _]
    have := countP_other hb a
    simp only [decide_eq_true_eq] at this ih ⊢
    omega

theorem countP_card {K V : Type*} [LinearOrder K] {la : SMap K V} (ha : Sorted la) (l : List K) :
    (la.countP fun p => decide (p.1 ∈ l)) = ((keys la).toFinset ∩ l.toFinset).card := by
  have h1 : (la.countP fun p => decide (p.1 ∈ l)) = (keys la).countP fun k => decide (k ∈ l) := by
    rw [keys, List.countP_map]; rfl
  rw [h1, List.countP_eq_length_filter, ← List.toFinset_card_of_nodup ((Sorted.nodup ha).filter _), List.toFinset_filter]
  congr 1
  ext k
  simp

theorem c2_ops {a b : HessGrad (Tally R)} (va : a.Valid) (vb : b.Valid) (fa : HFree a) (fb : HFree b) {m : Tally R} (hm : c2 a b = some m) :
    m.ops = 9 * (a.vars ∩ b.vars).card + 3 * ((keys a.trimap).toFinset ∩ (keys b.trimap).toFinset).card + 2 * (a.diagmap.length * b.diagmap.length) := by
  rw [c2, triEntries_skip a va, triEntries_skip b vb, Option.bind_some, Option.bind_some] at hm
  obtain ⟨w, hw, rfl⟩ := Option.map_eq_some_iff.1 hm
  have e1 : ∀ hg : HessGrad (Tally R), (hg.trimap.map (entOf hg.dOf)).map ek = keys hg.trimap := fun hg => by
    rw [List.map_map]; rfl
  have k1 := c2B_ops _ _ _ (by rw [e1]; exact va.tsorted) (by rw [e1]; exact vb.tsorted) (fun e he => entries_free va fa he) (fun e he => entries_free vb fb he) hw
  rw [e1, List.countP_map] at k1
  have k2 := c2A_ops 0 a.diagmap b.diagmap va.dsorted vb.dsorted fa.diag fb.diag
  have k3 := c2C_ops w a.diagmap b.diagmap vb.dsorted fa.diag fb.diag
  have k4 : (a.diagmap.countP fun p => decide (p.1 ∈ keys b.diagmap)) = (a.vars ∩ b.vars).card := by
    rw [countP_card va.dsorted]; rfl
  have k5 : w.ops = (c2A 0 a.diagmap b.diagmap).ops + 3 * ((keys a.trimap).toFinset ∩ (keys b.trimap).toFinset).card := by
    rw [k1]
    congr 2
    convert countP_card va.tsorted (keys b.trimap) using 2
    funext p
    exact decide_eq_decide.2 Iff.rfl
  rw [k4] at k2 k3
  rw [ops_zero] at k2
  omega

end Unc.TallyOps
