import Verif.Model.UReal
import Verif.Spec.Range

/-!
# The functions of the class preserve relations between number types

A relation between two number types which the operations preserve is preserved by the model functions.
-/

namespace Unc
open Spec UReal
universe v w
variable {R : Type v} {S : Type w}

section
variable [Zero R] [One R] [Neg R] [Add R] [Sub R] [Mul R] [Div R] [CCmp R] [CSqrt R]
variable [Zero S] [One S] [Neg S] [Add S] [Sub S] [Mul S] [Div S] [CCmp S] [CSqrt S]

/-- The operations preserve the relation `r`; the comparisons only as far as the functions need. -/
structure OpRel (r : R → S → Prop) : Prop where
  zero : r 0 0
  one : r 1 1
  neg : ∀ {a b}, r a b → r (-a) (-b)
  add : ∀ {a b c d}, r a b → r c d → r (a + c) (b + d)
  sub : ∀ {a b c d}, r a b → r c d → r (a - c) (b - d)
  mul : ∀ {a b c d}, r a b → r c d → r (a * c) (b * d)
  sqrt : ∀ {a b}, r a b → r (CSqrt.sqrt a) (CSqrt.sqrt b)
  abs : ∀ {a b}, r a b → r (CSqrt.abs a) (CSqrt.abs b)
  scale : ∀ {a b c d}, r a b → r c d → r (if CCmp.eqb a 1 then c else c * a) (if CCmp.eqb b 1 then d else d * b)
  fresh : CCmp.leb (0 : R) (-1) = false ∧ CCmp.leb (0 : S) (-1) = false
  fresh' : CCmp.ltb (0 : R) (-1) = false ∧ CCmp.ltb (0 : S) (-1) = false
  still : CCmp.ltb (0 : R) 0 = false ∧ CCmp.ltb (0 : S) 0 = false

/-- entry by entry -/
abbrev MRel (r : R → S → Prop) : SMap VId R → SMap VId S → Prop := List.Forall₂ fun p q => p.1 = q.1 ∧ r p.2 q.2

/-- the relation between values of the class, with the uncertainty not cached -/
structure URel (r : R → S → Prop) (x : UReal R) (y : UReal S) : Prop where
  id : x.id = y.id
  mu : r x.mu y.mu
  sdev : r x.sdev y.sdev
  sigma : MRel r x.sigma y.sigma
  fresh : x.id < 0 → x.sdev = -1 ∧ y.sdev = -1
  const : x.id = 0 → x.sdev = 0 ∧ y.sdev = 0

variable {r : R → S → Prop}

theorem upsert_rel {m : SMap VId R} {n : SMap VId S} (h : MRel r m n) (k : VId) {a : R} {b : S} (hab : r a b) {g : R → R} {g' : S → S}
    (hg : ∀ {v w}, r v w → r (g v) (g' w)) : MRel r (m.upsert k a g) (n.upsert k b g') := by
  induction h with
  | nil => exact .cons ⟨rfl, hg hab⟩ .nil
  | @cons p q m n hp ht ih =>
    obtain ⟨k1, v⟩ := p
    obtain ⟨k2, w⟩ := q
    obtain ⟨h1, h2⟩ := hp
    simp only at h1 h2
    subst h1
    unfold SMap.upsert
    split_ifs
    · exact .cons ⟨rfl, hg hab⟩ (.cons ⟨rfl, h2⟩ ht)
    · exact .cons ⟨rfl, hg h2⟩ ht
    · exact .cons ⟨rfl, h2⟩ ih

theorem mapVal_rel {m : SMap VId R} {n : SMap VId S} (h : MRel r m n) {g : R → R} {g' : S → S}
    (hg : ∀ {v w}, r v w → r (g v) (g' w)) : MRel r (m.mapVal g) (n.mapVal g') := by
  induction h with
  | nil => exact .nil
  | cons hp _ ih => exact .cons ⟨hp.1, hg hp.2⟩ ih

theorem find_rel {m : SMap VId R} {n : SMap VId S} (h : MRel r m n) (k : VId) : Option.Rel r (m.find? k) (n.find? k) := by
  induction h with
  | nil => exact .none
  | @cons p q m n hp ht ih =>
    obtain ⟨k1, v⟩ := p
    obtain ⟨k2, w⟩ := q
    obtain ⟨h1, h2⟩ := hp
    simp only at h1 h2
    subst h1
    unfold SMap.find?
    split_ifs
    · exact .some h2
    · exact ih

theorem foldl_rel {α β γ δ : Type*} {P : α → β → Prop} {Q : γ → δ → Prop} {g : α → γ → α} {g' : β → δ → β}
    (hg : ∀ {a b c d}, P a b → Q c d → P (g a c) (g' b d)) {l : List γ} {l' : List δ} (hl : List.Forall₂ Q l l') :
    ∀ {a b}, P a b → P (l.foldl g a) (l'.foldl g' b) := by
  induction hl with
  | nil => exact id
  | cons h _ ih => exact fun hab => ih (hg hab h)

variable (O : OpRel r)
include O

theorem s2_rel {x : UReal R} {y : UReal S} (h : URel r x y) : r x.s2 y.s2 :=
  foldl_rel (P := r) (fun hab hcd => O.add hab (O.mul hcd.2 hcd.2)) h.sigma O.zero

theorem s_rel {x : UReal R} {y : UReal S} (h : URel r x y) : r x.s y.s := by
  unfold UReal.s
  by_cases hi : 0 ≤ x.id
  · rw [if_pos hi, if_pos (h.id ▸ hi)]
    exact O.abs h.sdev
  · obtain ⟨e1, e2⟩ := h.fresh (by omega)
    have hi' : ¬ 0 ≤ y.id := h.id ▸ hi
    rw [if_neg hi, if_neg hi', e1, e2, O.fresh.1, O.fresh.2]
    simp only [Bool.false_eq_true, if_false]
    exact O.sqrt (s2_rel O h)

theorem var_rel {x : UReal R} {y : UReal S} (h : URel r x y) : r x.var y.var := by
  unfold UReal.var
  by_cases hi : 0 ≤ x.id
  · rw [if_pos (Or.inl hi), if_pos (Or.inl (h.id ▸ hi))]
    exact O.mul h.sdev h.sdev
  · obtain ⟨e1, e2⟩ := h.fresh (by omega)
    have hi' : ¬ 0 ≤ y.id := h.id ▸ hi
    rw [e1, e2, if_neg (by simp [O.fresh.1, hi]), if_neg (by simp [O.fresh.2, hi'])]
    exact s2_rel O h

theorem covLoop_rel {a a' : SMap VId R} {b b' : SMap VId S} (h : MRel r a b) (h' : MRel r a' b') {c : R} {d : S} (hc : r c d) :
    r (covLoop a a' c) (covLoop b b' d) := by
  induction h generalizing a' b' c d with
  | nil => unfold covLoop; exact hc
  | @cons p q m n hp ht ih =>
    obtain ⟨k1, v⟩ := p
    obtain ⟨k2, w⟩ := q
    obtain ⟨h1, h2⟩ := hp
    simp only at h1 h2
    subst h1
    induction h' generalizing c d with
    | nil => unfold covLoop; exact hc
    | @cons p' q' m' n' hp' ht' ih' =>
      obtain ⟨j1, v'⟩ := p'
      obtain ⟨j2, w'⟩ := q'
      obtain ⟨h1', h2'⟩ := hp'
      simp only at h1' h2'
      subst h1'
      have hc' : r (if k1 = j1 then c + v * v' else c) (if k1 = j1 then d + w * w' else d) := by
        split_ifs
        · exact O.add hc (O.mul h2 h2')
        · exact hc
      unfold covLoop
      simp only
      by_cases l1 : k1 < j1
      · rw [if_pos l1, if_pos l1]; exact ih (.cons ⟨rfl, h2'⟩ ht') hc'
      · rw [if_neg l1, if_neg l1]
        by_cases l2 : j1 < k1
        · rw [if_pos l2, if_pos l2]; exact ih' hc'
        · rw [if_neg l2, if_neg l2]; exact ih ht' hc'

theorem cov_rel {x x' : UReal R} {y y' : UReal S} (h : URel r x y) (h' : URel r x' y') : r (cov x x') (cov y y') := by
  unfold cov
  rw [h.id, h'.id]
  split_ifs
  · exact O.add O.zero (O.mul h.sdev h'.sdev)
  · exact O.zero
  · have := find_rel h.sigma y'.id
    generalize x.sigma.find? y'.id = o at this
    generalize y.sigma.find? y'.id = o' at this
    cases this with
    | none => exact O.zero
    | some hr => exact O.add O.zero (O.mul hr h'.sdev)
  · have := find_rel h'.sigma y.id
    generalize x'.sigma.find? y.id = o at this
    generalize y'.sigma.find? y.id = o' at this
    cases this with
    | none => exact O.zero
    | some hr => exact O.add O.zero (O.mul h.sdev hr)
  · exact covLoop_rel O h.sigma h'.sigma O.zero
  · exact O.zero

theorem unary_rel {x : UReal R} {y : UReal S} (h : URel r x y) {m : R} {m' : S} (hm : r m m') {d : R} {d' : S} (hd : r d d') :
    URel r (unary x m d) (unary y m' d') := by
  unfold unary
  rw [h.id]
  split_ifs with h1 h2
  · exact ⟨rfl, hm, O.mul h.sdev hd, .nil, fun h => absurd h (by simp only; omega), fun h => absurd h (by simp only; omega)⟩
  · exact ⟨rfl, hm, O.neg O.one, mapVal_rel h.sigma (fun hv => O.mul hv hd), fun _ => ⟨rfl, rfl⟩, fun h => absurd h (by simp only; omega)⟩
  · exact ⟨rfl, hm, O.zero, .nil, fun h => absurd h (by simp only; omega), fun _ => ⟨rfl, rfl⟩⟩

theorem mergeLoop_rel {dx dy : R} {dx' dy' : S} (hdx : r dx dx') (hdy : r dy dy') {a a' : SMap VId R} {b b' : SMap VId S} (h : MRel r a b)
    (h' : MRel r a' b') {z : SMap VId R} {z' : SMap VId S} (hz : MRel r z z') :
    Option.Rel (MRel r) (mergeLoop dx dy a a' z) (mergeLoop dx' dy' b b' z') := by
  induction h generalizing a' b' z z' with
  | nil =>
    induction h' generalizing z z' with
    | nil => unfold mergeLoop; exact .some hz
    | @cons p' q' m' n' hp' ht' ih' =>
      obtain ⟨j1, v'⟩ := p'
      obtain ⟨j2, w'⟩ := q'
      obtain ⟨h1', h2'⟩ := hp'
      simp only at h1' h2'
      subst h1'
      unfold mergeLoop
      split_ifs
      · exact .none
      · exact ih' (upsert_rel (upsert_rel hz j1 O.zero (fun _ => O.zero)) j1 O.zero (fun hv => O.add hv (O.mul hdy h2')))
  | @cons p q m n hp ht ih =>
    obtain ⟨k1, v⟩ := p
    obtain ⟨k2, w⟩ := q
    obtain ⟨h1, h2⟩ := hp
    simp only at h1 h2
    subst h1
    induction h' generalizing z z' with
    | nil =>
      unfold mergeLoop
      simp only
      split_ifs
      · exact .none
      · exact ih .nil (upsert_rel hz k1 O.zero (fun _ => O.mul hdx h2))
      · exact .none
    | @cons p' q' m' n' hp' ht' ih' =>
      obtain ⟨j1, v'⟩ := p'
      obtain ⟨j2, w'⟩ := q'
      obtain ⟨h1', h2'⟩ := hp'
      simp only at h1' h2'
      subst h1'
      have hz1 : MRel r (if k1 ≤ j1 then z.upsert k1 0 (fun _ => dx * v) else z) (if k1 ≤ j1 then z'.upsert k1 0 (fun _ => dx' * w) else z') := by
        split_ifs
        · exact upsert_rel hz k1 O.zero (fun _ => O.mul hdx h2)
        · exact hz
      unfold mergeLoop
      simp only
      generalize (if k1 ≤ j1 then z.upsert k1 0 (fun _ => dx * v) else z) = z1 at hz1 ⊢
      generalize (if k1 ≤ j1 then z'.upsert k1 0 (fun _ => dx' * w) else z') = z1' at hz1 ⊢
      by_cases l1 : j1 ≤ k1
      · rw [if_pos l1, if_pos l1]
        have hz2 : MRel r (if j1 ≠ k1 then z1.upsert j1 0 (fun _ => 0) else z1) (if j1 ≠ k1 then z1'.upsert j1 0 (fun _ => 0) else z1') := by
          split_ifs
          · exact upsert_rel hz1 j1 O.zero (fun _ => O.zero)
          · exact hz1
        have hz3 := upsert_rel hz2 j1 O.zero (g := fun p => p + dy * v') (g' := fun p => p + dy' * w') (fun hv => O.add hv (O.mul hdy h2'))
        by_cases l2 : k1 ≤ j1
        · rw [if_pos l2, if_pos l2]; exact ih ht' hz3
        · rw [if_neg l2, if_neg l2]; exact ih' hz3
      · rw [if_neg l1, if_neg l1]
        exact ih (.cons ⟨rfl, h2'⟩ ht') hz1

theorem binary_rel {x x' : UReal R} {y y' : UReal S} (h : URel r x y) (h' : URel r x' y') {m : R} {m' : S} (hm : r m m') {dx dy : R} {dx' dy' : S}
    (hdx : r dx dx') (hdy : r dy dy') : Option.Rel (URel r) (binary x x' m dx dy) (binary y y' m' dx' dy') := by
  have e1 := h.id
  have e2 := h'.id
  unfold binary
  simp only
  rw [e1, e2]
  have A : MRel r (if 0 < y.id then SMap.upsert [] y.id 0 (fun _ => dx * x.sdev) else if y.id < 0 ∧ y'.id ≥ 0 then
      x.sigma.foldl (fun z p => SMap.upsert z p.1 0 (fun _ => dx * p.2)) [] else [])
      (if 0 < y.id then SMap.upsert [] y.id 0 (fun _ => dx' * y.sdev) else if y.id < 0 ∧ y'.id ≥ 0 then
      y.sigma.foldl (fun z p => SMap.upsert z p.1 0 (fun _ => dx' * p.2)) [] else []) := by
    split_ifs
    · exact upsert_rel .nil _ O.zero (fun _ => O.mul hdx h.sdev)
    · refine foldl_rel (P := MRel r) (fun {a b c d} hab hcd => ?_) h.sigma .nil
      rw [hcd.1]
      exact upsert_rel hab _ O.zero (fun _ => O.mul hdx hcd.2)
    · exact .nil
  revert A
  generalize (if 0 < y.id then SMap.upsert [] y.id 0 (fun _ => dx * x.sdev) else if y.id < 0 ∧ y'.id ≥ 0 then
      x.sigma.foldl (fun z p => SMap.upsert z p.1 0 (fun _ => dx * p.2)) [] else []) = z
  generalize (if 0 < y.id then SMap.upsert [] y.id 0 (fun _ => dx' * y.sdev) else if y.id < 0 ∧ y'.id ≥ 0 then
      y.sigma.foldl (fun z p => SMap.upsert z p.1 0 (fun _ => dx' * p.2)) [] else []) = z'
  intro A
  have B : MRel r (if 0 < y'.id then SMap.upsert z y'.id 0 (fun v => v + dy * x'.sdev) else if y'.id < 0 ∧ y.id ≥ 0 then
      x'.sigma.foldl (fun z p => SMap.upsert z p.1 0 (fun v => v + dy * p.2)) z else z)
      (if 0 < y'.id then SMap.upsert z' y'.id 0 (fun v => v + dy' * y'.sdev) else if y'.id < 0 ∧ y.id ≥ 0 then
      y'.sigma.foldl (fun z p => SMap.upsert z p.1 0 (fun v => v + dy' * p.2)) z' else z') := by
    split_ifs
    · exact upsert_rel A _ O.zero (fun hv => O.add hv (O.mul hdy h'.sdev))
    · refine foldl_rel (P := MRel r) (fun {a b c d} hab hcd => ?_) h'.sigma A
      rw [hcd.1]
      exact upsert_rel hab _ O.zero (fun hv => O.add hv (O.mul hdy hcd.2))
    · exact A
  revert B
  generalize (if 0 < y'.id then SMap.upsert z y'.id 0 (fun v => v + dy * x'.sdev) else if y'.id < 0 ∧ y.id ≥ 0 then
      x'.sigma.foldl (fun z p => SMap.upsert z p.1 0 (fun v => v + dy * p.2)) z else z) = t
  generalize (if 0 < y'.id then SMap.upsert z' y'.id 0 (fun v => v + dy' * y'.sdev) else if y'.id < 0 ∧ y.id ≥ 0 then
      y'.sigma.foldl (fun z p => SMap.upsert z p.1 0 (fun v => v + dy' * p.2)) z' else z') = t'
  intro B
  have C : Option.Rel (MRel r) (if y.id < 0 ∧ y'.id < 0 then mergeLoop dx dy x.sigma x'.sigma t else some t)
      (if y.id < 0 ∧ y'.id < 0 then mergeLoop dx' dy' y.sigma y'.sigma t' else some t') := by
    split_ifs
    · exact mergeLoop_rel O hdx hdy h.sigma h'.sigma B
    · exact .some B
  revert C
  generalize (if y.id < 0 ∧ y'.id < 0 then mergeLoop dx dy x.sigma x'.sigma t else some t) = o
  generalize (if y.id < 0 ∧ y'.id < 0 then mergeLoop dx' dy' y.sigma y'.sigma t' else some t') = o'
  intro C
  cases C with
  | none => exact .none
  | some hr =>
    exact .some ⟨rfl, hm, O.neg O.one, hr, fun _ => ⟨rfl, rfl⟩, fun h => absurd h (by simp [invalidId])⟩

theorem addInto_rel {z : SMap VId R} {z' : SMap VId S} (hz : MRel r z z') {x : UReal R} {y : UReal S} (h : URel r x y) {d : R} {d' : S} (hd : r d d') :
    MRel r (addInto z x d) (addInto z' y d') := by
  unfold addInto
  rw [h.id]
  split_ifs
  · exact upsert_rel hz _ O.zero (fun hv => O.add hv (O.mul hd h.sdev))
  · refine foldl_rel (P := MRel r) (fun {a b c d} hab hcd => ?_) h.sigma hz
    rw [hcd.1]
    exact upsert_rel hab _ O.zero (fun hv => O.add hv (O.mul hd hcd.2))
  · exact hz

theorem binaryAssign_rel {x x' : UReal R} {y y' : UReal S} (h : URel r x y) (h' : URel r x' y') {m : R} {m' : S} (hm : r m m') {dt dx : R} {dt' dx' : S}
    (hdt : r dt dt') (hdx : r dx dx') : URel r (binaryAssign x x' m dt dx) (binaryAssign y y' m' dt' dx') := by
  unfold binaryAssign
  simp only
  refine ⟨rfl, hm, O.neg O.one, addInto_rel O ?_ h' hdx, fun _ => ⟨rfl, rfl⟩, fun h => absurd h (by simp [invalidId])⟩
  have A : MRel r (if 0 < x.id then x.sigma.upsert x.id 0 (fun _ => x.sdev) else x.sigma)
      (if 0 < y.id then y.sigma.upsert y.id 0 (fun _ => y.sdev) else y.sigma) := by
    rw [h.id]
    split_ifs
    · exact upsert_rel h.sigma _ O.zero (fun _ => h.sdev)
    · exact h.sigma
  revert A
  generalize (if 0 < x.id then x.sigma.upsert x.id 0 (fun _ => x.sdev) else x.sigma) = z
  generalize (if 0 < y.id then y.sigma.upsert y.id 0 (fun _ => y.sdev) else y.sigma) = z'
  intro A
  have e1 : (if CCmp.eqb dt 1 = true then z else z.mapVal fun v => v * dt) = z.mapVal fun v => if CCmp.eqb dt 1 = true then v else v * dt := by
    split_ifs
    · simp [SMap.mapVal]
    · rfl
  have e2 : (if CCmp.eqb dt' 1 = true then z' else z'.mapVal fun v => v * dt') = z'.mapVal fun v => if CCmp.eqb dt' 1 = true then v else v * dt' := by
    split_ifs
    · simp [SMap.mapVal]
    · rfl
  rw [e1, e2]
  exact mapVal_rel A (fun hv => O.scale hdt hv)

theorem binaryAssignSelf_rel {x : UReal R} {y : UReal S} (h : URel r x y) {m : R} {m' : S} (hm : r m m') {dt dx : R} {dt' dx' : S}
    (hdt : r dt dt') (hdx : r dx dx') : URel r (binaryAssignSelf x m dt dx) (binaryAssignSelf y m' dt' dx') := by
  have hd := O.add hdt hdx
  unfold binaryAssignSelf
  simp only
  rcases lt_trichotomy x.id 0 with hi | hi | hi
  · obtain ⟨e1, e2⟩ := h.fresh hi
    have hi' : y.id < 0 := h.id ▸ hi
    rw [if_neg (by rw [e1, O.fresh'.1]; simp; omega), if_neg (by rw [e2, O.fresh'.2]; simp; omega)]
    exact ⟨h.id, hm, h.sdev, mapVal_rel h.sigma (fun hv => O.mul hv hd), fun _ => ⟨e1, e2⟩, fun h => absurd h (by simp only; omega)⟩
  · obtain ⟨e1, e2⟩ := h.const hi
    have hi' : y.id = 0 := h.id ▸ hi
    rw [if_neg (by rw [e1, O.still.1]; simp; omega), if_neg (by rw [e2, O.still.2]; simp; omega)]
    exact ⟨h.id, hm, h.sdev, mapVal_rel h.sigma (fun hv => O.mul hv hd), fun h => absurd h (by simp only; omega), fun _ => ⟨e1, e2⟩⟩
  · have hi' : 0 < y.id := h.id ▸ hi
    rw [if_pos (Or.inr hi), if_pos (Or.inr hi')]
    exact ⟨h.id, hm, O.mul h.sdev hd, mapVal_rel h.sigma (fun hv => O.mul hv hd), fun h => absurd h (by simp only; omega),
      fun h => absurd h (by simp only; omega)⟩

theorem un_rel {x : UReal R} {y : UReal S} (h : URel r x y) (o : UnOp) : URel r (o.call x) (o.call y) := by
  cases o with
  | neg => exact unary_rel O h (O.neg h.mu) (O.neg O.one)
  | twice => exact binaryAssignSelf_rel O h (O.add h.mu h.mu) O.one O.one
  | cancel => exact binaryAssignSelf_rel O h (O.sub h.mu h.mu) O.one (O.neg O.one)
  | square => exact binaryAssignSelf_rel O h (O.mul h.mu h.mu) h.mu h.mu

theorem bin_rel {x x' : UReal R} {y y' : UReal S} (h : URel r x y) (h' : URel r x' y') (o : BinOp) (ho : o.divides = true → r (1 / x'.mu) (1 / y'.mu)) :
    Option.Rel (URel r) (o.call x x') (o.call y y') := by
  cases o with
  | add => exact binary_rel O h h' (O.add h.mu h'.mu) O.one O.one
  | sub => exact binary_rel O h h' (O.sub h.mu h'.mu) O.one (O.neg O.one)
  | mul => exact binary_rel O h h' (O.mul h.mu h'.mu) h'.mu h.mu
  | div => exact binary_rel O h h' (O.mul h.mu (ho rfl)) (ho rfl) (O.mul (O.neg (O.mul h.mu (ho rfl))) (ho rfl))
  | addTo => exact .some (binaryAssign_rel O h h' (O.add h.mu h'.mu) O.one O.one)
  | subTo => exact .some (binaryAssign_rel O h h' (O.sub h.mu h'.mu) O.one (O.neg O.one))
  | mulTo => exact .some (binaryAssign_rel O h h' (O.mul h.mu h'.mu) h'.mu h.mu)
  | divTo => exact .some (binaryAssign_rel O h h' (O.mul h.mu (ho rfl)) (ho rfl) (O.mul (O.neg (O.mul h.mu (ho rfl))) (ho rfl)))

end
end Unc
