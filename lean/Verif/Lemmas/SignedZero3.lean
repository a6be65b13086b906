import Verif.Lemmas.SignedZero

/-!
# The rules of signs of the operations on numbers with signed zeros
-/

namespace Unc
open Spec UReal

namespace FP
variable {f : Fmt}

theorem neg_mul' (a b : FP f) : -a * b = -(a * b) := FP.ext (by simp only [val_mul, val_neg, neg_mul, f.odd])
theorem mul_comm' (a b : FP f) : a * b = b * a := FP.ext (by simp only [val_mul, mul_comm])
theorem neg_div' (a b : FP f) : -a / b = -(a / b) := FP.ext (by simp only [val_div, val_neg, neg_div, f.odd])
theorem div_neg' (a b : FP f) : a / -b = -(a / b) := FP.ext (by simp only [val_div, val_neg, div_neg, f.odd])
theorem sub_eq' (a b : FP f) : a - b = a + -b := FP.ext (by simp only [val_sub, val_add, val_neg, sub_eq_add_neg])
theorem add_comm' (a b : FP f) : a + b = b + a := FP.ext (by simp only [val_add, add_comm])
theorem neg_neg' (a : FP f) : - -a = a := FP.ext (by simp)

end FP

namespace Ext
variable {f : Fmt} {M : ℝ}

theorem neg_nan : -(nan : Ext f M) = nan := rfl
theorem neg_inf (s : Bool) : -(inf s : Ext f M) = inf (!s) := rfl

theorem neg_fin {a : FP f} (h : |a.val| ≤ M) : -(fin a h : Ext f M) = fin (-a) (by simpa using h) := ofFP_of_le (by simpa using h)

theorem neg_ofFP (hM : 1 ≤ M) (a : FP f) : -(ofFP M a) = ofFP M (-a) := by
  by_cases h : |a.val| ≤ M
  · rw [ofFP_of_le h, neg_fin, ofFP_of_le]
  · have h' := not_le.1 h
    rw [ofFP_of_lt h', ofFP_of_lt (by simpa using h'), neg_inf]
    have h0 : a.val ≠ 0 := by
      intro e; rw [e, abs_zero] at h'; linarith
    congr 1
    rw [FP.val_neg]
    rcases lt_or_gt_of_ne h0 with h1 | h1
    · simp [h1, h1.le]
    · simp [h1, h1.le]

theorem isZero_neg (a : Ext f M) : (-a).isZero = a.isZero := by
  rcases a with _ | s | ⟨a, ha⟩
  · rfl
  · rfl
  · rw [neg_fin]; simp [isZero]

theorem isNeg_neg {a : Ext f M} (h : a.isZero = false) (hn : a ≠ nan) : (-a).isNeg = !a.isNeg := by
  rcases a with _ | s | ⟨a, ha⟩
  · exact absurd rfl hn
  · rfl
  · rw [neg_fin]
    simp only [isZero, decide_eq_false_iff_not] at h
    rcases lt_or_gt_of_ne h with h1 | h1
    · simp [isNeg, h1, h1.le]
    · simp [isNeg, h1, h1.le]

theorem neg_neg'' (a : Ext f M) : - -a = a := by
  rcases a with _ | s | ⟨a, ha⟩
  · rfl
  · rw [neg_inf, neg_inf, Bool.not_not]
  · rw [neg_fin, neg_fin]
    congr 1
    exact FP.neg_neg' a

theorem mul_comm'' (a b : Ext f M) : a * b = b * a := by
  rw [mul_def, mul_def]
  rcases a with _ | s | ⟨a, ha⟩ <;> rcases b with _ | t | ⟨b, hb⟩ <;> simp [mul', Bool.xor_comm, FP.mul_comm', isZero]

theorem add_comm'' (a b : Ext f M) : a + b = b + a := by
  rw [add_def, add_def]
  rcases a with _ | s | ⟨a, ha⟩ <;> rcases b with _ | t | ⟨b, hb⟩ <;> simp only [add', FP.add_comm']
  cases s <;> cases t <;> rfl

theorem neg_mul'' (hM : 1 ≤ M) (a b : Ext f M) : -a * b = -(a * b) := by
  rw [mul_def, mul_def]
  rcases a with _ | s | ⟨a, ha⟩
  · rcases b with _ | t | ⟨b, hb⟩ <;> rfl
  · rw [neg_inf]
    rcases b with _ | t | ⟨b, hb⟩
    · rfl
    · simp [mul', isZero, isNeg, neg_inf]
    · by_cases h : b.val = 0
      · simp [mul', isZero, h, neg_nan]
      · simp [mul', isZero, isNeg, h, neg_inf]
  · rw [neg_fin]
    rcases b with _ | t | ⟨b, hb⟩
    · rfl
    · by_cases h : a.val = 0
      · simp [mul', isZero, h, neg_nan]
      · rcases lt_or_gt_of_ne h with h1 | h1
        · simp [mul', isZero, isNeg, h, neg_inf, h1, h1.not_gt]
        · simp [mul', isZero, isNeg, h, neg_inf, h1, h1.not_gt]
    · simp only [mul']
      rw [FP.neg_mul', neg_ofFP hM]

theorem sub_eq'' (a b : Ext f M) : a - b = a + -b := by
  rw [sub_def, add_def]
  rcases b with _ | t | ⟨b, hb⟩
  · rcases a with _ | s | ⟨a, ha⟩ <;> rfl
  · rw [neg_inf]
    rcases a with _ | s | ⟨a, ha⟩
    · rfl
    · cases s <;> cases t <;> rfl
    · rfl
  · rw [neg_fin]
    rcases a with _ | s | ⟨a, ha⟩
    · rfl
    · rfl
    · simp only [sub', add', FP.sub_eq']

theorem one_mul'' (hM : 1 ≤ M) (a : Ext f M) : 1 * a = a := by
  rw [one_eq hM, mul_def]
  rcases a with _ | s | ⟨a, ha⟩
  · rfl
  · have : ¬ (1 : ℝ) < 0 := by norm_num
    simp [mul', isZero, isNeg, this]
  · have : (1 : FP f) * a = a := FP.ext (by rw [FP.val_mul, FP.val_one, one_mul]; exact a.2)
    simp only [mul']
    rw [this, ofFP_of_le ha]

theorem neg_div'' (hM : 1 ≤ M) {a b : Ext f M} (hb : b.isZero = false) : -a / b = -(a / b) := by
  rw [div_def, div_def]
  rcases a with _ | s | ⟨a, ha⟩
  · rcases b with _ | t | ⟨b, hb'⟩ <;> rfl
  · rw [neg_inf]
    rcases b with _ | t | ⟨b, hb'⟩
    · rfl
    · rfl
    · simp [div', neg_inf]
  · rw [neg_fin]
    rcases b with _ | t | ⟨b, hb'⟩
    · rfl
    · simp only [div']
      rw [zero_eq hM, neg_fin]
      congr 1
      exact FP.ext (by simp)
    · simp only [isZero, decide_eq_false_iff_not] at hb
      simp only [div', if_neg hb]
      rw [FP.neg_div', neg_ofFP hM]

theorem div_neg'' (hM : 1 ≤ M) {a b : Ext f M} (hb : b.isZero = false) : a / -b = -(a / b) := by
  rw [div_def, div_def]
  rcases b with _ | t | ⟨b, hb'⟩
  · rcases a with _ | s | ⟨a, ha⟩ <;> rfl
  · rw [neg_inf]
    rcases a with _ | s | ⟨a, ha⟩
    · rfl
    · rfl
    · simp only [div']
      rw [zero_eq hM, neg_fin]
      congr 1
      exact FP.ext (by simp)
  · have h := isNeg_neg hb (by simp)
    rw [neg_fin] at h ⊢
    rcases a with _ | s | ⟨a, ha⟩
    · rfl
    · simp only [div', h]
      simp [neg_inf]
    · simp only [isZero, decide_eq_false_iff_not] at hb
      simp only [div', FP.val_neg, neg_eq_zero, if_neg hb]
      rw [FP.div_neg', neg_ofFP hM]

end Ext

namespace SExt
variable {f : Fmt} {M : ℝ}

theorem ext' {a b : SExt f M} (h : a.v = b.v) (h' : a.v.isZero = true → a.neg = b.neg) : a = b := by
  rcases a with ⟨v, s, hs⟩
  rcases b with ⟨w, t, ht⟩
  simp only at h h'
  subst h
  congr 1
  cases e : v.isZero with
  | true => exact h' e
  | false => rw [hs e, ht e]

theorem of_neg {v : Ext f M} (s : Bool) (h : v.isZero = true) : (of v s).neg = s := if_pos h
theorem of_neg' {v : Ext f M} (s : Bool) (h : v.isZero = false) : (of v s).neg = v.isNeg := by
  show (if v.isZero then s else v.isNeg) = _
  rw [h]; rfl

theorem neg_neg_eq (a : SExt f M) : - -a = a := by
  refine ext' (Ext.neg_neg'' a.v) fun h => ?_
  have h1 : (-a.v).isZero = true := by
    rw [← Ext.isZero_neg]; exact h
  show (of (-(-a).v) (!(-a).neg)).neg = _
  rw [of_neg _ (by exact h)]
  show (!(of (-a.v) (!a.neg)).neg) = _
  rw [of_neg _ h1, Bool.not_not]

theorem mul_comm_eq (a b : SExt f M) : a * b = b * a := by
  refine ext' (Ext.mul_comm'' a.v b.v) fun h => ?_
  show (of (a.v * b.v) _).neg = (of (b.v * a.v) _).neg
  rw [Ext.mul_comm'' a.v b.v, Bool.xor_comm]

theorem zeroSign_comm (a b : Ext f M) (s : Bool) : zeroSign a b s = zeroSign b a s := by
  rcases a with _ | u | ⟨a, ha⟩ <;> rcases b with _ | t | ⟨b, hb⟩ <;> simp [zeroSign, add_comm]

theorem add_comm_eq (a b : SExt f M) : a + b = b + a := by
  refine ext' (Ext.add_comm'' a.v b.v) fun h => ?_
  show (of (a.v + b.v) _).neg = (of (b.v + a.v) _).neg
  rw [Ext.add_comm'' a.v b.v, Bool.and_comm, zeroSign_comm]

/-- the sign of minus a number -/
theorem neg_neg_bit {a : SExt f M} (h : a.v ≠ .nan) : (-a).neg = !a.neg := by
  cases e : a.v.isZero with
  | true => exact of_neg _ (by rw [Ext.isZero_neg]; exact e)
  | false =>
    have := of_neg' (!a.neg) (v := -a.v) (by rw [Ext.isZero_neg]; exact e)
    rw [show -a = of (-a.v) (!a.neg) from rfl, this, Ext.isNeg_neg e h, a.agree e]

theorem neg_mul_eq (hM : 1 ≤ M) (a b : SExt f M) : -a * b = -(a * b) := by
  refine ext' (Ext.neg_mul'' hM a.v b.v) fun h => ?_
  have h1 : (a.v * b.v).isZero = true := by
    rw [← Ext.isZero_neg, ← Ext.neg_mul'' hM]; exact h
  have ha : a.v ≠ .nan := by
    intro e
    rw [e] at h1
    rcases b with ⟨_ | t | ⟨b, hb⟩, s, hs⟩ <;> cases h1
  show (of (-a.v * b.v) (xor (-a).neg b.neg)).neg = (of (-(a * b).v) (!(of (a.v * b.v) (xor a.neg b.neg)).neg)).neg
  rw [of_neg _ (by exact h), of_neg _ (by rw [Ext.isZero_neg]; exact h1), of_neg _ h1, neg_neg_bit ha]
  simp

theorem mul_neg_eq (hM : 1 ≤ M) (a b : SExt f M) : a * -b = -(a * b) := by
  rw [mul_comm_eq, neg_mul_eq hM, mul_comm_eq]

theorem one_neg_bit (hM : 1 ≤ M) : (1 : SExt f M).neg = false := by
  rw [(1 : SExt f M).agree (by rw [v_one, Ext.one_eq hM]; simp [Ext.isZero]), v_one, Ext.one_eq hM]
  simp [Ext.isNeg]

theorem one_mul_eq (hM : 1 ≤ M) (a : SExt f M) : 1 * a = a := by
  refine ext' (Ext.one_mul'' hM a.v) fun h => ?_
  show (of ((1 : SExt f M).v * a.v) (xor (1 : SExt f M).neg a.neg)).neg = _
  rw [of_neg _ (by exact h), one_neg_bit hM]
  simp

theorem mul_neg_one_eq (hM : 1 ≤ M) (a : SExt f M) : a * -1 = -a := by
  rw [mul_neg_eq hM, mul_comm_eq, one_mul_eq hM]

theorem sub_eq_add_neg' (a b : SExt f M) : a - b = a + -b := by
  refine ext' (Ext.sub_eq'' a.v b.v) fun h => ?_
  have hb : b.v ≠ .nan := by
    intro e
    rw [v_sub, e] at h
    rcases a with ⟨_ | t | ⟨b, hb⟩, s, hs⟩ <;> cases h
  show (of (a.v - b.v) _).neg = (of (a.v + -b.v) (zeroSign a.v (-b.v) (a.neg && (-b).neg))).neg
  rw [← Ext.sub_eq'', neg_neg_bit hb]

theorem quot_nan_left {a b : SExt f M} (h : a.v = .nan) : (a / b).v = .nan := by
  rw [v_div, quot, h]
  split_ifs
  · rfl
  · rw [Ext.div_def]; rcases b.v with _ | t | ⟨b, hb⟩ <;> rfl

theorem quot_nan_right {a b : SExt f M} (h : b.v = .nan) : (a / b).v = .nan := by
  rw [v_div, quot, h]
  simp only [Ext.isZero, Bool.false_eq_true, if_false]
  rw [Ext.div_def]; rcases a.v with _ | t | ⟨b, hb⟩ <;> rfl

theorem quot_neg_left (hM : 1 ≤ M) {a b : SExt f M} (ha : a.v ≠ .nan) : quot (-a) b = -(quot a b) := by
  unfold quot
  rw [v_neg]
  by_cases h : b.v.isZero = true
  · rw [if_pos h, if_pos h, neg_neg_bit ha]
    rcases e : a.v with _ | s | ⟨c, hc⟩
    · exact absurd e ha
    · simp [Ext.neg_inf]
    · rw [Ext.neg_fin]
      by_cases h0 : c.val = 0
      · simp [h0, Ext.neg_nan]
      · simp [h0, Ext.neg_inf]
  · rw [if_neg h, if_neg h, Ext.neg_div'' hM (by simpa using h)]

theorem quot_neg_right (hM : 1 ≤ M) {a b : SExt f M} (hb : b.v ≠ .nan) : quot a (-b) = -(quot a b) := by
  unfold quot
  rw [v_neg, Ext.isZero_neg]
  by_cases h : b.v.isZero = true
  · rw [if_pos h, if_pos h, neg_neg_bit hb]
    rcases e : a.v with _ | s | ⟨c, hc⟩
    · rfl
    · simp [Ext.neg_inf]
    · by_cases h0 : c.val = 0
      · simp [h0, Ext.neg_nan]
      · simp [h0, Ext.neg_inf]
  · rw [if_neg h, if_neg h, Ext.div_neg'' hM (by simpa using h)]

theorem nan_eq {a b : SExt f M} (h : a.v = .nan) (h' : b.v = .nan) : a = b := ext' (h.trans h'.symm) (by rw [h]; intro e; cases e)

theorem neg_div_eq (hM : 1 ≤ M) (a b : SExt f M) : -a / b = -(a / b) := by
  by_cases ha : a.v = .nan
  · exact nan_eq (quot_nan_left (by rw [v_neg, ha]; rfl)) (by rw [v_neg, quot_nan_left ha]; rfl)
  · refine ext' (quot_neg_left hM ha) fun h => ?_
    have h1 : (quot a b).isZero = true := by
      rw [← Ext.isZero_neg, ← quot_neg_left hM ha]; exact h
    show (of (quot (-a) b) (xor (-a).neg b.neg)).neg = (of (-(a / b).v) (!(of (quot a b) (xor a.neg b.neg)).neg)).neg
    rw [of_neg _ (by exact h), of_neg _ (by rw [Ext.isZero_neg]; exact h1), of_neg _ h1, neg_neg_bit ha]
    simp

theorem div_neg_eq (hM : 1 ≤ M) (a b : SExt f M) : a / -b = -(a / b) := by
  by_cases hb : b.v = .nan
  · exact nan_eq (quot_nan_right (by rw [v_neg, hb]; rfl)) (by rw [v_neg, quot_nan_right hb]; rfl)
  · refine ext' (quot_neg_right hM hb) fun h => ?_
    have h1 : (quot a b).isZero = true := by
      rw [← Ext.isZero_neg, ← quot_neg_right hM hb]; exact h
    show (of (quot a (-b)) (xor a.neg (-b).neg)).neg = (of (-(a / b).v) (!(of (quot a b) (xor a.neg b.neg)).neg)).neg
    rw [of_neg _ (by exact h), of_neg _ (by rw [Ext.isZero_neg]; exact h1), of_neg _ h1, neg_neg_bit hb]
    simp

end SExt

namespace UReal
variable {R : Type*} [Zero R] [One R] [Neg R] [Add R] [Mul R]

/-- only the products with the derivative count -/
theorem mergeLoop_map {dx dy dx' dy' : R} {g k : R → R} (hx : ∀ a, dx * a = dx' * g a) (hy : ∀ b, dy * b = dy' * k b) (xs ys z : SMap VId R) :
    mergeLoop dx dy xs ys z = mergeLoop dx' dy' (SMap.mapVal g xs) (SMap.mapVal k ys) z := by
  have key : ∀ n, ∀ xs ys z : SMap VId R, xs.length + ys.length ≤ n → mergeLoop dx dy xs ys z = mergeLoop dx' dy' (SMap.mapVal g xs) (SMap.mapVal k ys) z := by
    intro n
    induction n with
    | zero =>
      intro xs ys z h
      have h1 : xs = [] := List.eq_nil_of_length_eq_zero (by omega)
      have h2 : ys = [] := List.eq_nil_of_length_eq_zero (by omega)
      subst h1 h2
      simp [SMap.mapVal, mergeLoop]
    | succ n ih =>
      intro xs ys z h
      rcases xs with _ | ⟨⟨i, a⟩, xs⟩ <;> rcases ys with _ | ⟨⟨j, b⟩, ys⟩
      · simp [SMap.mapVal, mergeLoop]
      · simp only [List.length_cons, List.length_nil] at h
        show _ = mergeLoop dx' dy' (SMap.mapVal g []) ((j, k b) :: SMap.mapVal k ys) z
        unfold mergeLoop
        simp only [SMap.mapVal, List.map_nil]
        rw [hy, ih _ _ _ (by simp only [List.length_nil]; omega)]
        rfl
      · simp only [List.length_cons, List.length_nil] at h
        show _ = mergeLoop dx' dy' ((i, g a) :: SMap.mapVal g xs) (SMap.mapVal k []) z
        unfold mergeLoop
        simp only [SMap.mapVal, List.map_nil]
        rw [hx, ih _ _ _ (by simp only [List.length_nil]; omega)]
        rfl
      · simp only [List.length_cons] at h
        show _ = mergeLoop dx' dy' ((i, g a) :: SMap.mapVal g xs) ((j, k b) :: SMap.mapVal k ys) z
        unfold mergeLoop
        rw [hx, hy]
        simp only []
        rw [ih xs ys _ (by omega), ih ((i, a) :: xs) ys _ (by simp only [List.length_cons]; omega), ih xs ((j, b) :: ys) _ (by simp only [List.length_cons]; omega)]
        rfl
  exact key _ xs ys z le_rfl

theorem foldl_map {g : R → R} {F G : SMap VId R → VId × R → SMap VId R} (h : ∀ z i a, F z (i, a) = G z (i, g a)) : ∀ (xs z : SMap VId R), xs.foldl F z = (SMap.mapVal g xs).foldl G z
  | [], _ => rfl
  | (i, a) :: xs, z => by
    show xs.foldl F (F z (i, a)) = (SMap.mapVal g xs).foldl G (G z (i, g a))
    rw [h, foldl_map h xs]

/-- the same value with coefficients changed by `g` -/
structure TimesG (g : R → R) (x x' : UReal R) : Prop where
  id : x'.id = x.id
  sdev : 0 < x.id → x'.sdev = g x.sdev
  sigma : x.id < 0 → x'.sigma = SMap.mapVal g x.sigma

theorem binary_scaled {dx dy dx' dy' : R} {g k : R → R} (hx : ∀ a, dx * a = dx' * g a) (hy : ∀ b, dy * b = dy' * k b) {x y x' y' : UReal R} (h : TimesG g x x') (h' : TimesG k y y') (mu : R) :
    binary x y mu dx dy = binary x' y' mu dx' dy' := by
  unfold binary
  simp only [h.id, h'.id]
  have e1 : (if 0 < x.id then SMap.upsert ([] : SMap VId R) x.id 0 (fun _ => dx * x.sdev)
      else if x.id < 0 ∧ y.id ≥ 0 then x.sigma.foldl (fun z p => SMap.upsert z p.1 0 (fun _ => dx * p.2)) [] else []) =
      (if 0 < x.id then SMap.upsert ([] : SMap VId R) x.id 0 (fun _ => dx' * x'.sdev)
      else if x.id < 0 ∧ y.id ≥ 0 then x'.sigma.foldl (fun z p => SMap.upsert z p.1 0 (fun _ => dx' * p.2)) [] else []) := by
    by_cases h1 : 0 < x.id
    · rw [if_pos h1, if_pos h1, h.sdev h1, hx]
    · rw [if_neg h1, if_neg h1]
      by_cases h2 : x.id < 0 ∧ y.id ≥ 0
      · rw [if_pos h2, if_pos h2, h.sigma h2.1]
        exact foldl_map (fun z i a => by simp only [hx]) _ _
      · rw [if_neg h2, if_neg h2]
  rw [e1]
  generalize (if 0 < x.id then SMap.upsert ([] : SMap VId R) x.id 0 (fun _ => dx' * x'.sdev)
      else if x.id < 0 ∧ y.id ≥ 0 then x'.sigma.foldl (fun z p => SMap.upsert z p.1 0 (fun _ => dx' * p.2)) [] else []) = z
  have e2 : (if 0 < y.id then SMap.upsert z y.id 0 (fun v => v + dy * y.sdev)
      else if y.id < 0 ∧ x.id ≥ 0 then y.sigma.foldl (fun z p => SMap.upsert z p.1 0 (fun v => v + dy * p.2)) z else z) =
      (if 0 < y.id then SMap.upsert z y.id 0 (fun v => v + dy' * y'.sdev)
      else if y.id < 0 ∧ x.id ≥ 0 then y'.sigma.foldl (fun z p => SMap.upsert z p.1 0 (fun v => v + dy' * p.2)) z else z) := by
    by_cases h1 : 0 < y.id
    · rw [if_pos h1, if_pos h1, h'.sdev h1, hy]
    · rw [if_neg h1, if_neg h1]
      by_cases h2 : y.id < 0 ∧ x.id ≥ 0
      · rw [if_pos h2, if_pos h2, h'.sigma h2.1]
        exact foldl_map (fun z i a => by simp only [hy]) _ _
      · rw [if_neg h2, if_neg h2]
  rw [e2]
  by_cases h3 : x.id < 0 ∧ y.id < 0
  · rw [if_pos h3, if_pos h3, h.sigma h3.1, h'.sigma h3.2, mergeLoop_map hx hy]
  · rw [if_neg h3, if_neg h3]

theorem scaled_id (x : UReal R) : TimesG (fun a => a) x x := ⟨rfl, fun _ => rfl, fun _ => by simp [SMap.mapVal]⟩

theorem scaled_unary (x : UReal R) (mu dx : R) : TimesG (fun a => a * dx) x (unary x mu dx) := by
  unfold unary
  refine ⟨?_, fun h => ?_, fun h => ?_⟩
  · split_ifs <;> rfl
  · rw [if_pos h]
  · rw [if_neg (by omega), if_pos h]

end UReal

end Unc
