import Verif.Lemmas.Param

/-!
# Relations which only sums and products preserve

As `Verif/Lemmas/Param.lean`, for relations such as `0 ≤ a ≤ b`, which `-a` and `a - b` do not preserve; the means are the same.
-/

namespace Unc
open UReal
universe v
variable {R : Type v} [Zero R] [One R] [Neg R] [Add R] [Sub R] [Mul R] [Div R] [CCmp R] [CSqrt R]

/-- sums and products preserve the relation `r` -/
structure GrowRel (r : R → R → Prop) : Prop where
  zero : r 0 0
  add : ∀ {a b c d}, r a b → r c d → r (a + c) (b + d)
  mul : ∀ {a b c d}, r a b → r c d → r (a * c) (b * d)

/-- values with the same mean and related contributions of the variables, the uncertainty not cached -/
structure Grow (r : R → R → Prop) (x y : UReal R) : Prop where
  id : x.id = y.id
  mu : x.mu = y.mu
  sdev : 0 ≤ x.id → r x.sdev y.sdev
  sigma : MRel r x.sigma y.sigma
  fresh : x.id < 0 → x.sdev = -1 ∧ y.sdev = -1

variable {r : R → R → Prop} (O : GrowRel r)
include O

theorem s2_grow {x y : UReal R} (h : Grow r x y) : r x.s2 y.s2 :=
  foldl_rel (P := r) (fun hab hcd => O.add hab (O.mul hcd.2 hcd.2)) h.sigma O.zero

theorem unary_grow {x y : UReal R} (h : Grow r x y) {m m' : R} (hm : m = m') {d d' : R} (hd : r d d') : Grow r (unary x m d) (unary y m' d') := by
  unfold unary
  rw [h.id]
  split_ifs with h1 h2
  · exact ⟨rfl, hm, fun _ => O.mul (h.sdev (by rw [h.id]; omega)) hd, .nil, fun h => absurd h (by simp only; omega)⟩
  · exact ⟨rfl, hm, fun h => absurd h (by simp only; omega), mapVal_rel h.sigma (fun hv => O.mul hv hd), fun _ => ⟨rfl, rfl⟩⟩
  · exact ⟨rfl, hm, fun _ => O.zero, .nil, fun h => absurd h (by simp only; omega)⟩

theorem mergeLoop_grow {dx dy : R} {dx' dy' : R} (hdx : r dx dx') (hdy : r dy dy') {a a' : SMap VId R} {b b' : SMap VId R} (h : MRel r a b)
    (h' : MRel r a' b') {z : SMap VId R} {z' : SMap VId R} (hz : MRel r z z') :
    Option.Rel (MRel r) (mergeLoop dx dy a a' z) (mergeLoop dx' dy' b b' z') := by
  induction h generalizing a' b' z z' with
  | nil =>
    induction h' generalizing z z' with
    | nil => unfold mergeLoop; exact .some hz
    | @cons p' q' m' n' hp' ht' ih' =>
      obtain ⟨j1, v'⟩ := p'
      obtain ⟨j2, w'⟩ := q'
      obtain ⟨h1', h2'⟩ := hp'
      simp only at h1' h2'
      subst h1'
      unfold mergeLoop
      split_ifs
      · exact .none
      · exact ih' (upsert_rel (upsert_rel hz j1 O.zero (fun _ => O.zero)) j1 O.zero (fun hv => O.add hv (O.mul hdy h2')))
  | @cons p q m n hp ht ih =>
    obtain ⟨k1, v⟩ := p
    obtain ⟨k2, w⟩ := q
    obtain ⟨h1, h2⟩ := hp
    simp only at h1 h2
    subst h1
    induction h' generalizing z z' with
    | nil =>
      unfold mergeLoop
      simp only
      split_ifs
      · exact .none
      · exact ih .nil (upsert_rel hz k1 O.zero (fun _ => O.mul hdx h2))
      · exact .none
    | @cons p' q' m' n' hp' ht' ih' =>
      obtain ⟨j1, v'⟩ := p'
      obtain ⟨j2, w'⟩ := q'
      obtain ⟨h1', h2'⟩ := hp'
      simp only at h1' h2'
      subst h1'
      have hz1 : MRel r (if k1 ≤ j1 then z.upsert k1 0 (fun _ => dx * v) else z) (if k1 ≤ j1 then z'.upsert k1 0 (fun _ => dx' * w) else z') := by
        split_ifs
        · exact upsert_rel hz k1 O.zero (fun _ => O.mul hdx h2)
        · exact hz
      unfold mergeLoop
      simp only
      generalize (if k1 ≤ j1 then z.upsert k1 0 (fun _ => dx * v) else z) = z1 at hz1 ⊢
      generalize (if k1 ≤ j1 then z'.upsert k1 0 (fun _ => dx' * w) else z') = z1' at hz1 ⊢
      by_cases l1 : j1 ≤ k1
      · rw [if_pos l1, if_pos l1]
        have hz2 : MRel r (if j1 ≠ k1 then z1.upsert j1 0 (fun _ => 0) else z1) (if j1 ≠ k1 then z1'.upsert j1 0 (fun _ => 0) else z1') := by
          split_ifs
          · exact upsert_rel hz1 j1 O.zero (fun _ => O.zero)
          · exact hz1
        have hz3 := upsert_rel hz2 j1 O.zero (g := fun p => p + dy * v') (g' := fun p => p + dy' * w') (fun hv => O.add hv (O.mul hdy h2'))
        by_cases l2 : k1 ≤ j1
        · rw [if_pos l2, if_pos l2]; exact ih ht' hz3
        · rw [if_neg l2, if_neg l2]; exact ih' hz3
      · rw [if_neg l1, if_neg l1]
        exact ih (a' := (j1, v') :: m') (b' := (j1, w') :: n') (.cons ⟨rfl, h2'⟩ ht') hz1

theorem binary_grow {x x' : UReal R} {y y' : UReal R} (h : Grow r x y) (h' : Grow r x' y') {m m' : R} (hm : m = m') {dx dy : R} {dx' dy' : R}
    (hdx : r dx dx') (hdy : r dy dy') : Option.Rel (Grow r) (binary x x' m dx dy) (binary y y' m' dx' dy') := by
  have e1 := h.id
  have e2 := h'.id
  unfold binary
  simp only
  rw [e1, e2]
  have A : MRel r (if 0 < y.id then SMap.upsert [] y.id 0 (fun _ => dx * x.sdev) else if y.id < 0 ∧ y'.id ≥ 0 then
      x.sigma.foldl (fun z p => SMap.upsert z p.1 0 (fun _ => dx * p.2)) [] else [])
      (if 0 < y.id then SMap.upsert [] y.id 0 (fun _ => dx' * y.sdev) else if y.id < 0 ∧ y'.id ≥ 0 then
      y.sigma.foldl (fun z p => SMap.upsert z p.1 0 (fun _ => dx' * p.2)) [] else []) := by
    split_ifs with c1
    · exact upsert_rel .nil _ O.zero (fun _ => O.mul hdx (h.sdev (h.id ▸ c1.le)))
    · refine foldl_rel (P := MRel r) (fun {a b c d} hab hcd => ?_) h.sigma .nil
      rw [hcd.1]
      exact upsert_rel hab _ O.zero (fun _ => O.mul hdx hcd.2)
    · exact .nil
  revert A
  generalize (if 0 < y.id then SMap.upsert [] y.id 0 (fun _ => dx * x.sdev) else if y.id < 0 ∧ y'.id ≥ 0 then
      x.sigma.foldl (fun z p => SMap.upsert z p.1 0 (fun _ => dx * p.2)) [] else []) = z
  generalize (if 0 < y.id then SMap.upsert [] y.id 0 (fun _ => dx' * y.sdev) else if y.id < 0 ∧ y'.id ≥ 0 then
      y.sigma.foldl (fun z p => SMap.upsert z p.1 0 (fun _ => dx' * p.2)) [] else []) = z'
  intro A
  have B : MRel r (if 0 < y'.id then SMap.upsert z y'.id 0 (fun v => v + dy * x'.sdev) else if y'.id < 0 ∧ y.id ≥ 0 then
      x'.sigma.foldl (fun z p => SMap.upsert z p.1 0 (fun v => v + dy * p.2)) z else z)
      (if 0 < y'.id then SMap.upsert z' y'.id 0 (fun v => v + dy' * y'.sdev) else if y'.id < 0 ∧ y.id ≥ 0 then
      y'.sigma.foldl (fun z p => SMap.upsert z p.1 0 (fun v => v + dy' * p.2)) z' else z') := by
    split_ifs with c1
    · exact upsert_rel A _ O.zero (fun hv => O.add hv (O.mul hdy (h'.sdev (h'.id ▸ c1.le))))
    · refine foldl_rel (P := MRel r) (fun {a b c d} hab hcd => ?_) h'.sigma A
      rw [hcd.1]
      exact upsert_rel hab _ O.zero (fun hv => O.add hv (O.mul hdy hcd.2))
    · exact A
  revert B
  generalize (if 0 < y'.id then SMap.upsert z y'.id 0 (fun v => v + dy * x'.sdev) else if y'.id < 0 ∧ y.id ≥ 0 then
      x'.sigma.foldl (fun z p => SMap.upsert z p.1 0 (fun v => v + dy * p.2)) z else z) = t
  generalize (if 0 < y'.id then SMap.upsert z' y'.id 0 (fun v => v + dy' * y'.sdev) else if y'.id < 0 ∧ y.id ≥ 0 then
      y'.sigma.foldl (fun z p => SMap.upsert z p.1 0 (fun v => v + dy' * p.2)) z' else z') = t'
  intro B
  have C : Option.Rel (MRel r) (if y.id < 0 ∧ y'.id < 0 then mergeLoop dx dy x.sigma x'.sigma t else some t)
      (if y.id < 0 ∧ y'.id < 0 then mergeLoop dx' dy' y.sigma y'.sigma t' else some t') := by
    split_ifs
    · exact mergeLoop_grow O hdx hdy h.sigma h'.sigma B
    · exact .some B
  revert C
  generalize (if y.id < 0 ∧ y'.id < 0 then mergeLoop dx dy x.sigma x'.sigma t else some t) = o
  generalize (if y.id < 0 ∧ y'.id < 0 then mergeLoop dx' dy' y.sigma y'.sigma t' else some t') = o'
  intro C
  cases C with
  | none => exact .none
  | some hr =>
    exact .some ⟨rfl, hm, fun h => absurd h (by simp [invalidId]), hr, fun _ => ⟨rfl, rfl⟩⟩

end Unc
