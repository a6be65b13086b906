import Verif.Lemmas.Param
import Verif.Spec.Units

/-!
# A change of units at first order
-/

namespace Unc
open Spec UReal
variable {f : Fmt} {k l m : ℤ}

/-! ## numbers -/

theorem pow2_pos (k : ℤ) : (0 : ℝ) < 2 ^ k := zpow_pos (by norm_num) k

theorem bitsPos_two (p : ℕ) (k : ℤ) {x : ℝ} (hx : 0 < x) : bitsPos p (2 ^ k * x) = 2 ^ k * bitsPos p x := by
  obtain ⟨h1, h2⟩ := log_bounds hx
  have e : ∀ n : ℤ, (2 : ℝ) ^ k * 2 ^ n = 2 ^ (k + n) := fun n => (zpow_add₀ (by norm_num) k n).symm
  have h1' : (2 : ℝ) ^ (k + Int.log 2 x) ≤ 2 ^ k * x := by rw [← e]; exact mul_le_mul_of_nonneg_left h1 (pow2_pos k).le
  have h2' : 2 ^ k * x < (2 : ℝ) ^ (k + Int.log 2 x + 1) := by rw [add_assoc, ← e]; exact mul_lt_mul_of_pos_left h2 (pow2_pos k)
  rw [bitsPos_eq h1' h2', bitsPos, show k + Int.log 2 x - p + 1 = k + (Int.log 2 x - p + 1) by ring, ← e, mul_div_mul_left _ _ (pow2_pos k).ne']
  ring

theorem bits_two {p : ℕ} (hp : 1 ≤ p) : TwoScaled (bits p hp) := by
  intro k x
  change bitsRd p _ = _ * bitsRd p x
  have h := pow2_pos k
  unfold bitsRd
  rcases lt_trichotomy x 0 with hx | hx | hx
  · have : 2 ^ k * x < 0 := mul_neg_of_pos_of_neg h hx
    rw [if_neg this.not_gt, if_pos this, if_neg hx.not_gt, if_pos hx, ← mul_neg, bitsPos_two p k (by linarith)]
    ring
  · simp [hx]
  · rw [if_pos (mul_pos h hx), if_pos hx, bitsPos_two p k hx]

namespace Spec.Times2

theorem zero : Times2 k (0 : FP f) 0 := by simp [Times2]
theorem one : Times2 0 (1 : FP f) 1 := by simp [Times2]
theorem neg {a b : FP f} (h : Times2 k a b) : Times2 k (-a) (-b) := by simp only [Times2, FP.val_neg] at *; rw [h]; ring

theorem abs {a b : FP f} (h : Times2 k a b) : Times2 k (CSqrt.abs a) (CSqrt.abs b) := by
  simp only [Times2, FP.val_abs] at *
  rw [h, abs_mul, abs_of_pos (pow2_pos k)]

theorem eqb {a b : FP f} (h : Times2 k a b) : CCmp.eqb a 0 = CCmp.eqb b 0 := by
  rw [Bool.eq_iff_iff, FP.eqb_fp, FP.eqb_fp, h]
  simp [(pow2_pos k).ne']

variable (hf : TwoScaled f)
include hf

theorem add {a b c d : FP f} (h : Times2 k a b) (h' : Times2 k c d) : Times2 k (a + c) (b + d) := by
  simp only [Times2, FP.val_add] at *
  rw [h, h', ← mul_add, hf]

theorem sub {a b c d : FP f} (h : Times2 k a b) (h' : Times2 k c d) : Times2 k (a - c) (b - d) := by
  simp only [Times2, FP.val_sub] at *
  rw [h, h', ← mul_sub, hf]

theorem mul {a b c d : FP f} (h : Times2 k a b) (h' : Times2 l c d) (hm : k + l = m) : Times2 m (a * c) (b * d) := by
  subst hm
  simp only [Times2, FP.val_mul] at *
  rw [h, h', ← hf, zpow_add₀ (by norm_num)]
  ring_nf

theorem div {a b c d : FP f} (h : Times2 k a b) (h' : Times2 l c d) (hm : k - l = m) : Times2 m (a / c) (b / d) := by
  subst hm
  simp only [Times2, FP.val_div] at *
  rw [h, h', ← hf, zpow_sub₀ (by norm_num), mul_div_mul_comm]

theorem sqrt {a b : FP f} (h : Times2 (k + k) a b) : Times2 k (CSqrt.sqrt a) (CSqrt.sqrt b) := by
  simp only [Times2, FP.val_sqrt] at *
  rw [h, ← hf, zpow_add₀ (by norm_num), Real.sqrt_mul (mul_self_nonneg _), Real.sqrt_mul_self (pow2_pos k).le]

/-- the factor is left out if it is 1 -/
theorem scale {a b c d : FP f} (h : Times2 k a b) (h' : Times2 l c d) (hm : l + k = m) :
    Times2 m (if CCmp.eqb a 1 then c else c * a) (if CCmp.eqb b 1 then d else d * b) := by
  have e : ∀ {a c : FP f}, (if CCmp.eqb a 1 then c else c * a) = c * a := by
    intro a c
    split_ifs with h
    · rw [FP.eqb_fp] at h
      refine FP.ext ?_
      rw [FP.val_mul, h, FP.val_one, mul_one, c.rep]
    · rfl
  rw [e, e]
  exact mul hf h' h hm

end Spec.Times2

theorem fp_fresh : CCmp.leb (0 : FP f) (-1) = false := by
  rw [← Bool.not_eq_true, FP.leb_fp]; simp

theorem fp_fresh' : CCmp.ltb (0 : FP f) (-1) = false := by
  rw [← Bool.not_eq_true, FP.ltb_fp]; simp

theorem fp_still : CCmp.ltb (0 : FP f) 0 = false := by
  rw [← Bool.not_eq_true, FP.ltb_fp]; simp

/-! ## the functions of the class -/

/-- entry by entry -/
abbrev MU (k : ℤ) : SMap VId (FP f) → SMap VId (FP f) → Prop := MRel (Times2 k)

theorem mapVal_rel' {a b : SMap VId (FP f)} (h : MU k a b) {g g' : FP f → FP f} (hg : ∀ {v w}, Times2 k v w → Times2 m (g v) (g' w)) :
    MU m (a.mapVal g) (b.mapVal g') := by
  induction h with
  | nil => exact .nil
  | cons hp _ ih => exact .cons ⟨hp.1, hg hp.2⟩ ih

section
variable (hf : TwoScaled f)
include hf

theorem s2_units {x y : UReal (FP f)} (h : InUnits k x y) : Times2 (k + k) x.s2 y.s2 :=
  foldl_rel (P := Times2 (k + k)) (fun hab hcd => Times2.add hf hab (Times2.mul hf hcd.2 hcd.2 rfl)) h.sigma Times2.zero

theorem s_units {x y : UReal (FP f)} (h : InUnits k x y) : Times2 k x.s y.s := by
  unfold UReal.s
  by_cases hi : 0 ≤ x.id
  · rw [if_pos hi, if_pos (h.id ▸ hi)]
    exact (h.sdev hi).abs
  · obtain ⟨e1, e2⟩ := h.fresh (by omega)
    have hi' : ¬ 0 ≤ y.id := h.id ▸ hi
    rw [if_neg hi, if_neg hi', e1, e2, fp_fresh]
    simp only [Bool.false_eq_true, if_false]
    exact Times2.sqrt hf (s2_units hf h)

theorem var_units {x y : UReal (FP f)} (h : InUnits k x y) : Times2 (k + k) x.var y.var := by
  unfold UReal.var
  by_cases hi : 0 ≤ x.id
  · rw [if_pos (Or.inl hi), if_pos (Or.inl (h.id ▸ hi))]
    exact Times2.mul hf (h.sdev hi) (h.sdev hi) rfl
  · obtain ⟨e1, e2⟩ := h.fresh (by omega)
    have hi' : ¬ 0 ≤ y.id := h.id ▸ hi
    rw [e1, e2, if_neg (by simp [fp_fresh, hi]), if_neg (by simp [fp_fresh, hi'])]
    exact s2_units hf h

theorem covLoop_units {a a' b b' : SMap VId (FP f)} (h : MU k a b) (h' : MU l a' b') {c d : FP f} (hc : Times2 (k + l) c d) :
    Times2 (k + l) (covLoop a a' c) (covLoop b b' d) := by
  induction h generalizing a' b' c d with
  | nil => unfold covLoop; exact hc
  | @cons p q m n hp ht ih =>
    obtain ⟨k1, v⟩ := p
    obtain ⟨k2, w⟩ := q
    obtain ⟨h1, h2⟩ := hp
    simp only at h1 h2
    subst h1
    induction h' generalizing c d with
    | nil => unfold covLoop; exact hc
    | @cons p' q' m' n' hp' ht' ih' =>
      obtain ⟨j1, v'⟩ := p'
      obtain ⟨j2, w'⟩ := q'
      obtain ⟨h1', h2'⟩ := hp'
      simp only at h1' h2'
      subst h1'
      have hc' : Times2 (k + l) (if k1 = j1 then c + v * v' else c) (if k1 = j1 then d + w * w' else d) := by
        split_ifs
        · exact Times2.add hf hc (Times2.mul hf h2 h2' rfl)
        · exact hc
      unfold covLoop
      simp only
      by_cases l1 : k1 < j1
      · rw [if_pos l1, if_pos l1]; exact ih (List.Forall₂.cons (R := fun p q : VId × FP f => p.1 = q.1 ∧ Times2 l p.2 q.2) (a := (j1, v')) (b := (j1, w')) ⟨rfl, h2'⟩ ht') hc'
      · rw [if_neg l1, if_neg l1]
        by_cases l2 : j1 < k1
        · rw [if_pos l2, if_pos l2]; exact ih' hc'
        · rw [if_neg l2, if_neg l2]; exact ih ht' hc'

theorem cov_units {x x' y y' : UReal (FP f)} (h : InUnits k x y) (h' : InUnits l x' y') : Times2 (k + l) (cov x x') (cov y y') := by
  have hs := h.sdev
  have hs' := h'.sdev
  unfold cov
  rw [← h.id, ← h'.id]
  split_ifs with h1 h2 h3 h4 h5
  · exact Times2.add hf Times2.zero (Times2.mul hf (hs h1.1.le) (hs' h1.2.le) rfl)
  · exact Times2.zero
  · have := find_rel h.sigma x'.id
    generalize x.sigma.find? x'.id = o at this
    generalize y.sigma.find? x'.id = o' at this
    cases this with
    | none => exact Times2.zero
    | some hr => exact Times2.add hf Times2.zero (Times2.mul hf hr (hs' h3.2.le) rfl)
  · have := find_rel h'.sigma x.id
    generalize x'.sigma.find? x.id = o at this
    generalize y'.sigma.find? x.id = o' at this
    cases this with
    | none => exact Times2.zero
    | some hr => exact Times2.add hf Times2.zero (Times2.mul hf (hs h4.1.le) hr rfl)
  · exact covLoop_units hf h.sigma h'.sigma Times2.zero
  · exact Times2.zero

theorem corr_units {x x' y y' : UReal (FP f)} (h : InUnits k x y) (h' : InUnits l x' y') : corr x x' = corr y y' := by
  have := Times2.div hf (cov_units hf h h') (Times2.mul hf (s_units hf h) (s_units hf h') rfl) rfl
  refine FP.ext ?_
  rw [sub_self, Times2, zpow_zero, one_mul] at this
  exact this.symm

theorem unary_units {x y : UReal (FP f)} (h : InUnits k x y) {a a' d d' : FP f} (ha : Times2 m a a') (hd : Times2 l d d') (hm : k + l = m) :
    InUnits m (unary x a d) (unary y a' d') := by
  have hs := h.sdev
  unfold unary
  rw [← h.id]
  split_ifs with h1 h2
  · exact ⟨rfl, ha, fun _ => Times2.mul hf (hs h1.le) hd hm, .nil, fun h => absurd h (by simp only; omega), fun h => absurd h (by simp only; omega)⟩
  · exact ⟨rfl, ha, fun h => absurd h (by simp only; omega), mapVal_rel' h.sigma (fun hv => Times2.mul hf hv hd hm), fun _ => ⟨rfl, rfl⟩,
      fun h => absurd h (by simp only; omega)⟩
  · exact ⟨rfl, ha, fun _ => Times2.zero, .nil, fun h => absurd h (by simp only; omega), fun _ => ⟨rfl, rfl⟩⟩

theorem mergeLoop_units {dx dy dx' dy' : FP f} {kx ky : ℤ} (hdx : Times2 kx dx dx') (hdy : Times2 ky dy dy') (hkx : kx + k = m) (hky : ky + l = m)
    {a a' b b' : SMap VId (FP f)} (h : MU k a b) (h' : MU l a' b') {z z' : SMap VId (FP f)} (hz : MU m z z') :
    Option.Rel (MU m) (mergeLoop dx dy a a' z) (mergeLoop dx' dy' b b' z') := by
  induction h generalizing a' b' z z' with
  | nil =>
    induction h' generalizing z z' with
    | nil => unfold mergeLoop; exact .some hz
    | @cons p' q' m' n' hp' ht' ih' =>
      obtain ⟨j1, v'⟩ := p'
      obtain ⟨j2, w'⟩ := q'
      obtain ⟨h1', h2'⟩ := hp'
      simp only at h1' h2'
      subst h1'
      unfold mergeLoop
      split_ifs
      · exact .none
      · exact ih' (upsert_rel (upsert_rel hz j1 Times2.zero (fun _ => Times2.zero)) j1 Times2.zero
          (fun hv => Times2.add hf hv (Times2.mul hf hdy h2' hky)))
  | @cons p q _ n hp ht ih =>
    obtain ⟨k1, v⟩ := p
    obtain ⟨k2, w⟩ := q
    obtain ⟨h1, h2⟩ := hp
    simp only at h1 h2
    subst h1
    induction h' generalizing z z' with
    | nil =>
      unfold mergeLoop
      simp only
      split_ifs
      · exact .none
      · exact ih .nil (upsert_rel hz k1 Times2.zero (fun _ => Times2.mul hf hdx h2 hkx))
      · exact .none
    | @cons p' q' m' n' hp' ht' ih' =>
      obtain ⟨j1, v'⟩ := p'
      obtain ⟨j2, w'⟩ := q'
      obtain ⟨h1', h2'⟩ := hp'
      simp only at h1' h2'
      subst h1'
      have hz1 : MU m (if k1 ≤ j1 then z.upsert k1 0 (fun _ => dx * v) else z) (if k1 ≤ j1 then z'.upsert k1 0 (fun _ => dx' * w) else z') := by
        split_ifs
        · exact upsert_rel hz k1 Times2.zero (fun _ => Times2.mul hf hdx h2 hkx)
        · exact hz
      unfold mergeLoop
      simp only
      generalize (if k1 ≤ j1 then z.upsert k1 0 (fun _ => dx * v) else z) = z1 at hz1 ⊢
      generalize (if k1 ≤ j1 then z'.upsert k1 0 (fun _ => dx' * w) else z') = z1' at hz1 ⊢
      by_cases l1 : j1 ≤ k1
      · rw [if_pos l1, if_pos l1]
        have hz2 : MU m (if j1 ≠ k1 then z1.upsert j1 0 (fun _ => 0) else z1) (if j1 ≠ k1 then z1'.upsert j1 0 (fun _ => 0) else z1') := by
          split_ifs
          · exact upsert_rel hz1 j1 Times2.zero (fun _ => Times2.zero)
          · exact hz1
        have hz3 := upsert_rel hz2 j1 Times2.zero (g := fun p => p + dy * v') (g' := fun p => p + dy' * w')
          (fun hv => Times2.add hf hv (Times2.mul hf hdy h2' hky))
        by_cases l2 : k1 ≤ j1
        · rw [if_pos l2, if_pos l2]; exact ih ht' hz3
        · rw [if_neg l2, if_neg l2]; exact ih' hz3
      · rw [if_neg l1, if_neg l1]
        exact ih (List.Forall₂.cons (R := fun p q : VId × FP f => p.1 = q.1 ∧ Times2 l p.2 q.2) (a := (j1, v')) (b := (j1, w')) ⟨rfl, h2'⟩ ht') hz1

theorem binary_units {x x' y y' : UReal (FP f)} (h : InUnits k x y) (h' : InUnits l x' y') {a a' : FP f} (ha : Times2 m a a') {dx dy dx' dy' : FP f} {kx ky : ℤ}
    (hdx : Times2 kx dx dx') (hdy : Times2 ky dy dy') (hkx : kx + k = m) (hky : ky + l = m) :
    Option.Rel (InUnits m) (binary x x' a dx dy) (binary y y' a' dx' dy') := by
  have hs := h.sdev
  have hs' := h'.sdev
  have e1 := h.id
  have e2 := h'.id
  unfold binary
  simp only
  rw [← e1, ← e2]
  have A : MU m (if 0 < x.id then SMap.upsert [] x.id 0 (fun _ => dx * x.sdev) else if x.id < 0 ∧ x'.id ≥ 0 then
      x.sigma.foldl (fun z p => SMap.upsert z p.1 0 (fun _ => dx * p.2)) [] else [])
      (if 0 < x.id then SMap.upsert [] x.id 0 (fun _ => dx' * y.sdev) else if x.id < 0 ∧ x'.id ≥ 0 then
      y.sigma.foldl (fun z p => SMap.upsert z p.1 0 (fun _ => dx' * p.2)) [] else []) := by
    split_ifs with i1
    · exact upsert_rel .nil _ Times2.zero (fun _ => Times2.mul hf hdx (hs i1.le) hkx)
    · refine foldl_rel (P := MU m) (fun {a b c d} hab hcd => ?_) h.sigma .nil
      rw [hcd.1]
      exact upsert_rel hab _ Times2.zero (fun _ => Times2.mul hf hdx hcd.2 hkx)
    · exact .nil
  revert A
  generalize (if 0 < x.id then SMap.upsert [] x.id 0 (fun _ => dx * x.sdev) else if x.id < 0 ∧ x'.id ≥ 0 then
      x.sigma.foldl (fun z p => SMap.upsert z p.1 0 (fun _ => dx * p.2)) [] else []) = z
  generalize (if 0 < x.id then SMap.upsert [] x.id 0 (fun _ => dx' * y.sdev) else if x.id < 0 ∧ x'.id ≥ 0 then
      y.sigma.foldl (fun z p => SMap.upsert z p.1 0 (fun _ => dx' * p.2)) [] else []) = z'
  intro A
  have B : MU m (if 0 < x'.id then SMap.upsert z x'.id 0 (fun v => v + dy * x'.sdev) else if x'.id < 0 ∧ x.id ≥ 0 then
      x'.sigma.foldl (fun z p => SMap.upsert z p.1 0 (fun v => v + dy * p.2)) z else z)
      (if 0 < x'.id then SMap.upsert z' x'.id 0 (fun v => v + dy' * y'.sdev) else if x'.id < 0 ∧ x.id ≥ 0 then
      y'.sigma.foldl (fun z p => SMap.upsert z p.1 0 (fun v => v + dy' * p.2)) z' else z') := by
    split_ifs with i1
    · exact upsert_rel A _ Times2.zero (fun hv => Times2.add hf hv (Times2.mul hf hdy (hs' i1.le) hky))
    · refine foldl_rel (P := MU m) (fun {a b c d} hab hcd => ?_) h'.sigma A
      rw [hcd.1]
      exact upsert_rel hab _ Times2.zero (fun hv => Times2.add hf hv (Times2.mul hf hdy hcd.2 hky))
    · exact A
  revert B
  generalize (if 0 < x'.id then SMap.upsert z x'.id 0 (fun v => v + dy * x'.sdev) else if x'.id < 0 ∧ x.id ≥ 0 then
      x'.sigma.foldl (fun z p => SMap.upsert z p.1 0 (fun v => v + dy * p.2)) z else z) = t
  generalize (if 0 < x'.id then SMap.upsert z' x'.id 0 (fun v => v + dy' * y'.sdev) else if x'.id < 0 ∧ x.id ≥ 0 then
      y'.sigma.foldl (fun z p => SMap.upsert z p.1 0 (fun v => v + dy' * p.2)) z' else z') = t'
  intro B
  have C : Option.Rel (MU m) (if x.id < 0 ∧ x'.id < 0 then mergeLoop dx dy x.sigma x'.sigma t else some t)
      (if x.id < 0 ∧ x'.id < 0 then mergeLoop dx' dy' y.sigma y'.sigma t' else some t') := by
    split_ifs
    · exact mergeLoop_units hf hdx hdy hkx hky h.sigma h'.sigma B
    · exact .some B
  revert C
  generalize (if x.id < 0 ∧ x'.id < 0 then mergeLoop dx dy x.sigma x'.sigma t else some t) = o
  generalize (if x.id < 0 ∧ x'.id < 0 then mergeLoop dx' dy' y.sigma y'.sigma t' else some t') = o'
  intro C
  cases C with
  | none => exact .none
  | some hr =>
    exact .some ⟨rfl, ha, fun h => absurd h (by simp [invalidId]), hr, fun _ => ⟨rfl, rfl⟩, fun h => absurd h (by simp [invalidId])⟩

theorem addInto_units {z z' : SMap VId (FP f)} (hz : MU m z z') {x y : UReal (FP f)} (h : InUnits k x y) {d d' : FP f} (hd : Times2 l d d') (hm : l + k = m) :
    MU m (addInto z x d) (addInto z' y d') := by
  have hs := h.sdev
  unfold addInto
  rw [← h.id]
  split_ifs with i1
  · exact upsert_rel hz _ Times2.zero (fun hv => Times2.add hf hv (Times2.mul hf hd (hs i1.le) hm))
  · refine foldl_rel (P := MU m) (fun {a b c d} hab hcd => ?_) h.sigma hz
    rw [hcd.1]
    exact upsert_rel hab _ Times2.zero (fun hv => Times2.add hf hv (Times2.mul hf hd hcd.2 hm))
  · exact hz

theorem binaryAssign_units {x x' y y' : UReal (FP f)} (h : InUnits k x y) (h' : InUnits l x' y') {a a' : FP f} (ha : Times2 m a a') {dt dx dt' dx' : FP f} {kt kx : ℤ}
    (hdt : Times2 kt dt dt') (hdx : Times2 kx dx dx') (hkt : kt + k = m) (hkx : kx + l = m) :
    InUnits m (binaryAssign x x' a dt dx) (binaryAssign y y' a' dt' dx') := by
  have hs := h.sdev
  unfold binaryAssign
  simp only
  refine ⟨rfl, ha, fun h => absurd h (by simp [invalidId]), addInto_units hf ?_ h' hdx hkx, fun _ => ⟨rfl, rfl⟩, fun h => absurd h (by simp [invalidId])⟩
  have A : MU k (if 0 < x.id then x.sigma.upsert x.id 0 (fun _ => x.sdev) else x.sigma)
      (if 0 < y.id then y.sigma.upsert y.id 0 (fun _ => y.sdev) else y.sigma) := by
    rw [← h.id]
    split_ifs with i1
    · exact upsert_rel h.sigma _ Times2.zero (fun _ => hs i1.le)
    · exact h.sigma
  revert A
  generalize (if 0 < x.id then x.sigma.upsert x.id 0 (fun _ => x.sdev) else x.sigma) = z
  generalize (if 0 < y.id then y.sigma.upsert y.id 0 (fun _ => y.sdev) else y.sigma) = z'
  intro A
  have e1 : (if CCmp.eqb dt 1 = true then z else z.mapVal fun v => v * dt) = z.mapVal fun v => if CCmp.eqb dt 1 = true then v else v * dt := by
    split_ifs
    · simp [SMap.mapVal]
    · rfl
  have e2 : (if CCmp.eqb dt' 1 = true then z' else z'.mapVal fun v => v * dt') = z'.mapVal fun v => if CCmp.eqb dt' 1 = true then v else v * dt' := by
    split_ifs
    · simp [SMap.mapVal]
    · rfl
  rw [e1, e2]
  exact mapVal_rel' A (fun hv => Times2.scale hf hdt hv (by omega))

theorem binaryAssignSelf_units {x y : UReal (FP f)} (h : InUnits k x y) {a a' : FP f} (ha : Times2 m a a') {dt dx dt' dx' : FP f} {kt : ℤ}
    (hdt : Times2 kt dt dt') (hdx : Times2 kt dx dx') (hm : k + kt = m) : InUnits m (binaryAssignSelf x a dt dx) (binaryAssignSelf y a' dt' dx') := by
  have hd := Times2.add hf hdt hdx
  have hs := h.sdev
  unfold binaryAssignSelf
  simp only
  rcases lt_trichotomy x.id 0 with hi | hi | hi
  · obtain ⟨e1, e2⟩ := h.fresh hi
    have hi' : y.id < 0 := h.id ▸ hi
    rw [if_neg (by rw [e1, fp_fresh']; simp; omega), if_neg (by rw [e2, fp_fresh']; simp; omega)]
    exact ⟨h.id, ha, fun h => absurd h (by simp only; omega), mapVal_rel' h.sigma (fun hv => Times2.mul hf hv hd hm), fun _ => ⟨e1, e2⟩,
      fun h => absurd h (by simp only; omega)⟩
  · obtain ⟨e1, e2⟩ := h.const hi
    have hi' : y.id = 0 := h.id ▸ hi
    rw [if_neg (by rw [e1, fp_still]; simp; omega), if_neg (by rw [e2, fp_still]; simp; omega)]
    exact ⟨h.id, ha, fun _ => by simp only; rw [e1, e2]; exact Times2.zero, mapVal_rel' h.sigma (fun hv => Times2.mul hf hv hd hm),
      fun h => absurd h (by simp only; omega), fun _ => ⟨e1, e2⟩⟩
  · have hi' : 0 < y.id := h.id ▸ hi
    rw [if_pos (Or.inr hi), if_pos (Or.inr hi')]
    exact ⟨h.id, ha, fun _ => Times2.mul hf (hs hi.le) hd hm, mapVal_rel' h.sigma (fun hv => Times2.mul hf hv hd hm), fun h => absurd h (by simp only; omega),
      fun h => absurd h (by simp only; omega)⟩

/-! ## the operators -/

theorem un_units {x y : UReal (FP f)} (h : InUnits k x y) :
    InUnits k (UnOp.call .neg x) (UnOp.call .neg y) ∧ InUnits k (UnOp.call .twice x) (UnOp.call .twice y) ∧
      InUnits k (UnOp.call .cancel x) (UnOp.call .cancel y) ∧ InUnits (k + k) (UnOp.call .square x) (UnOp.call .square y) :=
  ⟨unary_units hf h h.mu.neg Times2.one.neg (by ring), binaryAssignSelf_units hf h (Times2.add hf h.mu h.mu) Times2.one Times2.one (by ring),
    binaryAssignSelf_units hf h (Times2.sub hf h.mu h.mu) Times2.one Times2.one.neg (by ring),
    binaryAssignSelf_units hf h (Times2.mul hf h.mu h.mu rfl) h.mu h.mu rfl⟩

theorem bin_units {x x' y y' : UReal (FP f)} (h : InUnits k x y) (h' : InUnits l x' y') (o : BinOp) (ho : o.unit k l = some m) :
    Option.Rel (InUnits m) (o.call x x') (o.call y y') := by
  have hinv : Times2 (-l) (1 / x'.mu) (1 / y'.mu) := Times2.div hf Times2.one h'.mu (by ring)
  have hq : Times2 (k - l) (x.mu * (1 / x'.mu)) (y.mu * (1 / y'.mu)) := Times2.mul hf h.mu hinv (by ring)
  have hy : Times2 (k - l - l) (-(x.mu * (1 / x'.mu)) * (1 / x'.mu)) (-(y.mu * (1 / y'.mu)) * (1 / y'.mu)) := Times2.mul hf hq.neg hinv (by ring)
  cases o <;> simp only [BinOp.unit] at ho
  · split_ifs at ho with e; cases ho; subst e
    exact binary_units hf h h' (Times2.add hf h.mu h'.mu) Times2.one Times2.one (by ring) (by ring)
  · split_ifs at ho with e; cases ho; subst e
    exact binary_units hf h h' (Times2.sub hf h.mu h'.mu) Times2.one Times2.one.neg (by ring) (by ring)
  · cases ho
    exact binary_units hf h h' (Times2.mul hf h.mu h'.mu rfl) h'.mu h.mu (by ring) (by ring)
  · cases ho
    exact binary_units hf h h' hq hinv hy (by ring) (by ring)
  · split_ifs at ho with e; cases ho; subst e
    exact .some (binaryAssign_units hf h h' (Times2.add hf h.mu h'.mu) Times2.one Times2.one (by ring) (by ring))
  · split_ifs at ho with e; cases ho; subst e
    exact .some (binaryAssign_units hf h h' (Times2.sub hf h.mu h'.mu) Times2.one Times2.one.neg (by ring) (by ring))
  · cases ho
    exact .some (binaryAssign_units hf h h' (Times2.mul hf h.mu h'.mu rfl) h'.mu h.mu (by ring) (by ring))
  · cases ho
    exact .some (binaryAssign_units hf h h' hq hinv hy (by ring) (by ring))

theorem run_units {env env' : ℕ → UReal (FP f)} {w : ℕ → ℤ} (h : ∀ i, InUnits (w i) (env i) (env' i)) (t : Calc) {k : ℤ} (ht : t.unit w = some k) :
    Option.Rel (InUnits k) (t.run env) (t.run env') := by
  induction t generalizing k with
  | leaf i => cases ht; exact .some (h i)
  | un o a ih =>
    have key : ∀ {l m : ℤ}, a.unit w = some l → (∀ {x y : UReal (FP f)}, InUnits l x y → InUnits m (o.call x) (o.call y)) →
        Option.Rel (InUnits m) ((a.run env).map o.call) ((a.run env').map o.call) := by
      intro l m hl ho
      have := ih hl
      generalize a.run env = p at this
      generalize a.run env' = q at this
      cases this with
      | none => exact .none
      | some hr => exact .some (ho hr)
    cases o <;> simp only [Calc.unit] at ht
    · exact key ht fun hr => (un_units hf hr).1
    · exact key ht fun hr => (un_units hf hr).2.1
    · exact key ht fun hr => (un_units hf hr).2.2.1
    · obtain ⟨l, hl, rfl⟩ := Option.map_eq_some_iff.1 ht
      exact key hl fun hr => (un_units hf hr).2.2.2
  | bin o a b iha ihb =>
    simp only [Calc.unit, Option.bind_eq_some_iff] at ht
    obtain ⟨p, hp, q, hq, ho⟩ := ht
    have ha := iha hp
    have hb := ihb hq
    simp only [Calc.run]
    generalize a.run env = p at ha
    generalize a.run env' = p' at ha
    generalize b.run env = q at hb
    generalize b.run env' = q' at hb
    cases ha with
    | none => exact .none
    | some ha =>
      cases hb with
      | none => exact .none
      | some hb => exact bin_units hf ha hb o ho

end

end Unc
