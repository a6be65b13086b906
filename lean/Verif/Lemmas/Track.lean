import Verif.Lemmas.Natural2
import Verif.Lemmas.Float
import Verif.Spec.Float
import Verif.Props.FloatConv2

/-!
# Rounded numbers with a bound of their error

A rounded number is kept together with the exact one, with a bound of its magnitude and with the number of roundings.  The operations of the library on these give those on each component.
-/

namespace Unc
open Unc.Spec HessGrad SMap Mom

/-- the number of roundings of a sum; `none` is an exact 0 -/
def cadd : Option ℕ → Option ℕ → Option ℕ
  | none, b => b
  | some a, none => some a
  | some a, some b => some (max a b + 1)

/-- the number of roundings of a product -/
def cmul : Option ℕ → Option ℕ → Option ℕ
  | none, _ => none
  | some _, none => none
  | some a, some b => some (a + b + 1)

/-- at most `K` roundings -/
def CLe (k : Option ℕ) (K : ℕ) : Prop := ∀ j, k = some j → j ≤ K

/-- `v` is `t` but for `k` roundings, `w` bounds the magnitude -/
def Rough (u : ℝ) (k : Option ℕ) (v t w : ℝ) : Prop :=
  |t| ≤ w ∧ match k with
    | none => v = 0 ∧ w = 0
    | some k => |v - t| ≤ ((1 + u) ^ k - 1) * w

variable {f : Fmt} {u : ℝ}

theorem Rough.nonneg {k : Option ℕ} {v t w : ℝ} (h : Rough u k v t w) : 0 ≤ w := (abs_nonneg _).trans h.1

theorem Rough.bound (hu : 0 ≤ u) {k : Option ℕ} {v t w : ℝ} (h : Rough u k v t w) {K : ℕ} (hk : CLe k K) : |v - t| ≤ ((1 + u) ^ K - 1) * w := by
  have h0 := h.nonneg
  have h1 : (1 : ℝ) ≤ (1 + u) ^ K := one_le_pow₀ (by linarith)
  cases k with
  | none =>
    obtain ⟨h1, rfl, rfl⟩ := h
    have : t = 0 := by simpa using h1
    simp [this]
  | some k =>
    exact h.2.trans (mul_le_mul_of_nonneg_right (sub_le_sub_right (pow_le_pow_right₀ (by linarith) (hk k rfl)) _) h0)

theorem Rough.zero_of {v t w : ℝ} (h : Rough u none v t w) : v = 0 ∧ t = 0 ∧ w = 0 := by
  obtain ⟨h1, rfl, rfl⟩ := h
  exact ⟨rfl, by simpa using h1, rfl⟩

theorem rough_zero : Rough u none 0 0 0 := ⟨by simp, rfl, rfl⟩

theorem rough_exact (v : ℝ) : Rough u (some 0) v v |v| := ⟨le_rfl, by simp⟩

theorem rough_neg {k : Option ℕ} {v t w : ℝ} (h : Rough u k v t w) : Rough u k (-v) (-t) w := by
  cases k with
  | none => obtain ⟨rfl, rfl, rfl⟩ := h.zero_of; simpa using rough_zero
  | some k => exact ⟨by rw [abs_neg]; exact h.1, by rw [show -v - -t = -(v - t) by ring, abs_neg]; exact h.2⟩

theorem rough_add (hu : Acc f.rd u) {k k' : Option ℕ} {v v' : FP f} {t w t' w' : ℝ} (h : Rough u k v.val t w) (h' : Rough u k' v'.val t' w') :
    Rough u (cadd k k') (v + v').val (t + t') (w + w') := by
  have u0 := hu.nonneg
  rw [FP.val_add]
  cases k with
  | none =>
    obtain ⟨h1, rfl, rfl⟩ := h.zero_of
    rw [h1, zero_add, zero_add, zero_add, v'.rep]
    exact h'
  | some k =>
    cases k' with
    | none =>
      obtain ⟨h1, rfl, rfl⟩ := h'.zero_of
      rw [h1, add_zero, add_zero, add_zero, v.rep]
      exact h
    | some k' =>
      have hw : |t + t'| ≤ w + w' := (abs_add_le _ _).trans (add_le_add h.1 h'.1)
      refine ⟨hw, ?_⟩
      have e1 := h.bound u0 (K := max k k') (by rintro j ⟨⟩; exact le_max_left _ _)
      have e2 := h'.bound u0 (K := max k k') (by rintro j ⟨⟩; exact le_max_right _ _)
      show |f.rd (v.val + v'.val) - (t + t')| ≤ ((1 + u) ^ (max k k' + 1) - 1) * (w + w')
      generalize max k k' = m at e1 e2 ⊢
      have e3 : |v.val + v'.val - (t + t')| ≤ ((1 + u) ^ m - 1) * (w + w') := by
        rw [show v.val + v'.val - (t + t') = (v.val - t) + (v'.val - t') by ring]
        refine (abs_add_le _ _).trans ?_
        linarith
      have e4 : |v.val + v'.val| ≤ (1 + u) ^ m * (w + w') := by
        have := abs_add_le (v.val + v'.val - (t + t')) (t + t')
        rw [sub_add_cancel] at this
        linarith
      have e5 := hu.err (v.val + v'.val)
      calc |f.rd (v.val + v'.val) - (t + t')| = |(f.rd (v.val + v'.val) - (v.val + v'.val)) + (v.val + v'.val - (t + t'))| := by ring_nf
        _ ≤ u * |v.val + v'.val| + |v.val + v'.val - (t + t')| := (abs_add_le _ _).trans (by linarith)
        _ ≤ u * ((1 + u) ^ m * (w + w')) + ((1 + u) ^ m - 1) * (w + w') := add_le_add (mul_le_mul_of_nonneg_left e4 u0) e3
        _ = ((1 + u) ^ (m + 1) - 1) * (w + w') := by ring

theorem rough_sub (hu : Acc f.rd u) {k k' : Option ℕ} {v v' : FP f} {t w t' w' : ℝ} (h : Rough u k v.val t w) (h' : Rough u k' v'.val t' w') :
    Rough u (cadd k k') (v - v').val (t - t') (w + w') := by
  have h'' : Rough u k' (-v').val (-t') w' := by rw [FP.val_neg]; exact rough_neg h'
  have := rough_add hu h h''
  rw [FP.val_add, FP.val_neg, ← sub_eq_add_neg, ← sub_eq_add_neg] at this
  rw [FP.val_sub]
  exact this

theorem rough_mul (hu : Acc f.rd u) {k k' : Option ℕ} {v v' : FP f} {t w t' w' : ℝ} (h : Rough u k v.val t w) (h' : Rough u k' v'.val t' w') :
    Rough u (cmul k k') (v * v').val (t * t') (w * w') := by
  have u0 := hu.nonneg
  rw [FP.val_mul]
  cases k with
  | none =>
    obtain ⟨h1, rfl, rfl⟩ := h.zero_of
    rw [h1, zero_mul, zero_mul, zero_mul, Fmt.rd_zero]
    exact rough_zero
  | some k =>
    cases k' with
    | none =>
      obtain ⟨h1, rfl, rfl⟩ := h'.zero_of
      rw [h1, mul_zero, mul_zero, mul_zero, Fmt.rd_zero]
      exact rough_zero
    | some k' =>
      have w0 := h.nonneg
      have w0' := h'.nonneg
      refine ⟨by rw [abs_mul]; exact mul_le_mul h.1 h'.1 (abs_nonneg _) w0, ?_⟩
      have p1 : (1 : ℝ) ≤ (1 + u) ^ k := one_le_pow₀ (by linarith)
      have p2 : (1 : ℝ) ≤ (1 + u) ^ k' := one_le_pow₀ (by linarith)
      have e1 : |v.val - t| ≤ ((1 + u) ^ k - 1) * w := h.2
      have e2 : |v'.val - t'| ≤ ((1 + u) ^ k' - 1) * w' := h'.2
      have b2 : |v'.val| ≤ (1 + u) ^ k' * w' := by
        have := abs_add_le (v'.val - t') t'
        rw [sub_add_cancel] at this
        linarith [h'.1]
      have e3 : |v.val * v'.val - t * t'| ≤ ((1 + u) ^ (k + k') - 1) * (w * w') := by
        calc |v.val * v'.val - t * t'| = |(v.val - t) * v'.val + t * (v'.val - t')| := by ring_nf
          _ ≤ |v.val - t| * |v'.val| + |t| * |v'.val - t'| := by rw [← abs_mul, ← abs_mul]; exact abs_add_le _ _
          _ ≤ ((1 + u) ^ k - 1) * w * ((1 + u) ^ k' * w') + w * (((1 + u) ^ k' - 1) * w') :=
            add_le_add (mul_le_mul e1 b2 (abs_nonneg _) (mul_nonneg (by linarith) w0)) (mul_le_mul h.1 e2 (abs_nonneg _) w0)
          _ = ((1 + u) ^ (k + k') - 1) * (w * w') := by rw [pow_add]; ring
      have e4 : |v.val * v'.val| ≤ (1 + u) ^ (k + k') * (w * w') := by
        have := abs_add_le (v.val * v'.val - t * t') (t * t')
        rw [sub_add_cancel] at this
        have h2 : |t * t'| ≤ w * w' := by rw [abs_mul]; exact mul_le_mul h.1 h'.1 (abs_nonneg _) w0
        linarith
      have e5 := hu.err (v.val * v'.val)
      calc |f.rd (v.val * v'.val) - t * t'| = |(f.rd (v.val * v'.val) - v.val * v'.val) + (v.val * v'.val - t * t')| := by ring_nf
        _ ≤ u * |v.val * v'.val| + |v.val * v'.val - t * t'| := (abs_add_le _ _).trans (by linarith)
        _ ≤ u * ((1 + u) ^ (k + k') * (w * w')) + ((1 + u) ^ (k + k') - 1) * (w * w') := add_le_add (mul_le_mul_of_nonneg_left e4 u0) e3
        _ = ((1 + u) ^ (k + k' + 1) - 1) * (w * w') := by ring

theorem rough_nat (hu : Acc f.rd u) (n : ℕ) : Rough u (some 1) (n : FP f).val n n := by
  have u0 := hu.nonneg
  refine ⟨by simp, ?_⟩
  have := hu.err n
  rw [show |(n : ℝ)| = n from abs_of_nonneg (Nat.cast_nonneg n)] at this
  change |f.rd n - n| ≤ _
  simpa using this

/-- a rounding after a calculation -/
theorem rough_rd (hu : Acc f.rd u) {k : ℕ} {r t w : ℝ} (h1 : |t| ≤ w) (h2 : |r - t| ≤ ((1 + u) ^ k - 1) * w) : |f.rd r - t| ≤ ((1 + u) ^ (k + 1) - 1) * w := by
  have u0 := hu.nonneg
  have e4 : |r| ≤ (1 + u) ^ k * w := by
    have := abs_add_le (r - t) t
    rw [sub_add_cancel] at this
    linarith
  calc |f.rd r - t| = |(f.rd r - r) + (r - t)| := by ring_nf
    _ ≤ u * |r| + |r - t| := (abs_add_le _ _).trans (by linarith [hu.err r])
    _ ≤ u * ((1 + u) ^ k * w) + ((1 + u) ^ k - 1) * w := add_le_add (mul_le_mul_of_nonneg_left e4 u0) h2
    _ = _ := by ring

/-- a number which is not zero is not rounded to zero -/
theorem rd_ne_of_acc (hu : Acc f.rd u) {r : ℝ} (hr : r ≠ 0) : f.rd r ≠ 0 := by
  intro h
  have := hu.err r
  rw [h, zero_sub, abs_neg] at this
  have h1 := hu.lt
  have := abs_pos.2 hr
  nlinarith

theorem near_mul {v t w v' t' w' A B : ℝ} (hA : 1 ≤ A) (h1 : |t| ≤ w) (h2 : |v - t| ≤ (A - 1) * w) (h1' : |t'| ≤ w') (h2' : |v' - t'| ≤ (B - 1) * w') :
    |v * v' - t * t'| ≤ (A * B - 1) * (w * w') := by
  have w0 := (abs_nonneg _).trans h1
  have b2 : |v'| ≤ B * w' := by
    have := abs_add_le (v' - t') t'
    rw [sub_add_cancel] at this
    linarith
  calc |v * v' - t * t'| = |(v - t) * v' + t * (v' - t')| := by ring_nf
    _ ≤ |v - t| * |v'| + |t| * |v' - t'| := by rw [← abs_mul, ← abs_mul]; exact abs_add_le _ _
    _ ≤ (A - 1) * w * (B * w') + w * ((B - 1) * w') :=
      add_le_add (mul_le_mul h2 b2 (abs_nonneg _) (mul_nonneg (by linarith) w0)) (mul_le_mul h1 h2' (abs_nonneg _) w0)
    _ = _ := by ring

/-- the inverse of a number with an error of at most half of it -/
theorem near_inv {v t w A : ℝ} (t0 : t ≠ 0) (h2 : |v - t| ≤ (A - 1) * w) (hA : (A - 1) * w ≤ |t| / 2) (hw : |t| ≤ w) :
    v ≠ 0 ∧ |1 / t| ≤ w / t ^ 2 ∧ |1 / v - 1 / t| ≤ (A ^ 2 - 1) * (w / t ^ 2) := by
  have tp := abs_pos.2 t0
  have hv : |t| / 2 ≤ |v| := by
    have := abs_sub_abs_le_abs_sub t v
    rw [abs_sub_comm] at this
    linarith
  have vp : 0 < |v| := by linarith
  have v0 := abs_pos.1 vp
  refine ⟨v0, ?_, ?_⟩
  · rw [abs_div, abs_one, ← sq_abs t, div_le_div_iff₀ tp (by positivity)]
    nlinarith
  · have e : 1 / v - 1 / t = -(v - t) / (v * t) := by field_simp; ring
    rw [e, abs_div, abs_neg, abs_mul, ← sq_abs t, mul_div_assoc', div_le_div_iff₀ (by positivity) (by positivity)]
    have a0 := abs_nonneg (v - t)
    have w0 := tp.le.trans hw
    have k1 : |v - t| * |t| ^ 2 ≤ |v - t| * (2 * (|v| * |t|)) := mul_le_mul_of_nonneg_left (by nlinarith) a0
    have k2 : |v - t| * 2 ≤ (A ^ 2 - 1) * w := by nlinarith [mul_nonneg (sq_nonneg (A - 1)) w0]
    have := mul_le_mul_of_nonneg_right k2 (mul_pos vp tp).le
    nlinarith

/-! ## the counts -/

theorem cle_zero (K : ℕ) : CLe none K := by rintro j ⟨⟩
theorem cle_some {k K : ℕ} (h : k ≤ K) : CLe (some k) K := by rintro j ⟨⟩; exact h
theorem CLe.mono {k : Option ℕ} {K L : ℕ} (h : CLe k K) (hl : K ≤ L) : CLe k L := fun j hj => (h j hj).trans hl

theorem CLe.add {a b : Option ℕ} {K : ℕ} (ha : CLe a K) (hb : CLe b K) : CLe (cadd a b) (K + 1) := by
  cases a with
  | none => exact hb.mono (Nat.le_succ _)
  | some a =>
    cases b with
    | none => exact ha.mono (Nat.le_succ _)
    | some b => exact cle_some (Nat.succ_le_succ (max_le (ha a rfl) (hb b rfl)))

theorem CLe.mul {a b : Option ℕ} {K L : ℕ} (ha : CLe a K) (hb : CLe b L) : CLe (cmul a b) (K + L + 1) := by
  cases a with
  | none => exact cle_zero _
  | some a =>
    cases b with
    | none => exact cle_zero _
    | some b => exact cle_some (Nat.succ_le_succ (Nat.add_le_add (ha a rfl) (hb b rfl)))

/-! ## the numbers -/

/-- a rounded number, the exact one, a bound of the magnitude, the number of roundings -/
structure Tr (f : Fmt) (u : ℝ) (hu : Acc f.rd u) where
  /-- the rounded number -/
  v : FP f
  /-- the exact number -/
  t : ℝ
  /-- the bound -/
  w : ℝ
  /-- the number of roundings -/
  k : Option ℕ
  rough : Rough u k v.val t w

/-- real numbers where the subtraction is an addition -/
def Mag : Type := ℝ

noncomputable instance : Zero Mag := inferInstanceAs (Zero ℝ)
noncomputable instance : Add Mag := inferInstanceAs (Add ℝ)
noncomputable instance : Mul Mag := inferInstanceAs (Mul ℝ)
noncomputable instance : NatCast Mag := inferInstanceAs (NatCast ℝ)
noncomputable instance : Sub Mag := ⟨fun (a b : ℝ) => (a + b : ℝ)⟩

namespace Tr
variable {hu : Acc f.rd u}

noncomputable instance : Zero (Tr f u hu) := ⟨⟨0, 0, 0, none, by simpa using rough_zero⟩⟩
noncomputable instance : Add (Tr f u hu) := ⟨fun a b => ⟨a.v + b.v, a.t + b.t, a.w + b.w, cadd a.k b.k, rough_add hu a.rough b.rough⟩⟩
noncomputable instance : Sub (Tr f u hu) := ⟨fun a b => ⟨a.v - b.v, a.t - b.t, a.w + b.w, cadd a.k b.k, rough_sub hu a.rough b.rough⟩⟩
noncomputable instance : Mul (Tr f u hu) := ⟨fun a b => ⟨a.v * b.v, a.t * b.t, a.w * b.w, cmul a.k b.k, rough_mul hu a.rough b.rough⟩⟩
noncomputable instance : NatCast (Tr f u hu) := ⟨fun n => ⟨n, n, n, some 1, rough_nat hu n⟩⟩

/-- the bound, as a number without subtraction -/
def m (a : Tr f u hu) : Mag := a.w

theorem v_hom : OpHom (Tr.v (hu := hu)) := ⟨rfl, fun _ _ => rfl, fun _ _ => rfl, fun _ _ => rfl, fun _ => rfl⟩
theorem t_hom : OpHom (Tr.t (hu := hu)) := ⟨rfl, fun _ _ => rfl, fun _ _ => rfl, fun _ _ => rfl, fun _ => rfl⟩
theorem m_hom : OpHom (Tr.m (hu := hu)) := ⟨rfl, fun _ _ => rfl, fun _ _ => rfl, fun _ _ => rfl, fun _ => rfl⟩

/-- a given number -/
noncomputable def lift (hu : Acc f.rd u) (a : FP f) : Tr f u hu := ⟨a, a.val, |a.val|, some 0, rough_exact _⟩

/-- at most `K` roundings -/
def Few (a : Tr f u hu) (K : ℕ) : Prop := CLe a.k K

theorem few_zero (K : ℕ) : Few (0 : Tr f u hu) K := cle_zero K
theorem few_lit (n : ℕ) : Few (lit n : Tr f u hu) 1 := cle_some le_rfl
theorem few_lift (a : FP f) : Few (lift hu a) 0 := cle_some le_rfl
theorem Few.mono {a : Tr f u hu} {K L : ℕ} (h : Few a K) (hl : K ≤ L) : Few a L := CLe.mono h hl
theorem Few.add {a b : Tr f u hu} {K : ℕ} (ha : Few a K) (hb : Few b K) : Few (a + b) (K + 1) := CLe.add ha hb
theorem Few.sub {a b : Tr f u hu} {K : ℕ} (ha : Few a K) (hb : Few b K) : Few (a - b) (K + 1) := CLe.add ha hb
theorem Few.mul {a b : Tr f u hu} {K L : ℕ} (ha : Few a K) (hb : Few b L) : Few (a * b) (K + L + 1) := CLe.mul ha hb
theorem few_zero_mul (a : Tr f u hu) (K : ℕ) : Few (0 * a) K := cle_zero K
theorem few_zero_mul2 (a b : Tr f u hu) (K : ℕ) : Few (0 * a * b) K := cle_zero K
theorem few_zero_add {a : Tr f u hu} {K : ℕ} (h : Few a K) : Few (0 + a) K := h
theorem few_zero2_add {a b c : Tr f u hu} {K : ℕ} (h : Few c K) : Few (0 * a * b + c) K := h
theorem few_add_zero2 {a b c : Tr f u hu} {K : ℕ} (h : Few c K) : Few (c + 0 * a * b) K := by
  change CLe (cadd c.k none) K
  have : cadd c.k none = c.k := by cases c.k <;> rfl
  rw [this]; exact h

/-- add a term -/
theorem Few.step {m t : Tr f u hu} {K D : ℕ} (hm : Few m K) (ht : Few t D) (h : D ≤ K) : Few (m + t) (K + 1) := hm.add (ht.mono h)

theorem err (a : Tr f u hu) {K : ℕ} (h : Few a K) : |a.v.val - a.t| ≤ ((1 + u) ^ K - 1) * a.w := a.rough.bound hu.nonneg h

/-- the inverse -/
noncomputable def inv (a : Tr f u hu) (K : ℕ) (hK : Few a K) (t0 : a.t ≠ 0) (h : ((1 + u) ^ K - 1) * a.w ≤ |a.t| / 2) : Tr f u hu :=
  ⟨1 / a.v, 1 / a.t, a.w / a.t ^ 2, some (2 * K + 1), by
    obtain ⟨-, h1, h2⟩ := near_inv t0 (a.err hK) h a.rough.1
    rw [FP.val_div, FP.val_one]
    rw [← pow_mul, mul_comm K 2] at h2
    exact ⟨h1, rough_rd hu h1 h2⟩⟩

/-- the quotient -/
noncomputable def quot (b a : Tr f u hu) (K' K : ℕ) (hK' : Few b K') (hK : Few a K) (t0 : a.t ≠ 0) (h : ((1 + u) ^ K - 1) * a.w ≤ |a.t| / 2) : Tr f u hu :=
  ⟨b.v / a.v, b.t / a.t, b.w * (a.w / a.t ^ 2), some (K' + 2 * K + 1), by
    obtain ⟨-, h1, h2⟩ := near_inv t0 (a.err hK) h a.rough.1
    rw [FP.val_div]
    rw [← pow_mul, mul_comm K 2] at h2
    have hb : |b.t / a.t| ≤ b.w * (a.w / a.t ^ 2) := by
      rw [div_eq_mul_one_div, abs_mul]
      exact mul_le_mul b.rough.1 h1 (abs_nonneg _) b.rough.nonneg
    refine ⟨hb, rough_rd hu hb ?_⟩
    rw [div_eq_mul_one_div b.v.val, div_eq_mul_one_div b.t, pow_add]
    exact near_mul (one_le_pow₀ (by linarith [hu.nonneg])) b.rough.1 (b.err hK') h1 h2⟩

/-- the half -/
noncomputable def halve (hu : Acc f.rd u) (h2 : (lit 2 : FP f).val = 2) (a : Tr f u hu) (K : ℕ) (hK : Few a K) : Tr f u hu :=
  ⟨a.v / lit 2, a.t / lit 2, a.w / lit 2, some (K + 1), by
    have e2 : (lit 2 : ℝ) = 2 := Nat.cast_ofNat
    rw [FP.val_div, h2, e2]
    have h1 : |a.t / 2| ≤ a.w / 2 := by rw [abs_div, abs_of_pos (by norm_num : (0 : ℝ) < 2)]; linarith [a.rough.1]
    refine ⟨h1, rough_rd hu h1 ?_⟩
    rw [← sub_div, abs_div, abs_of_pos (by norm_num : (0 : ℝ) < 2)]
    linarith [a.err hK]⟩

end Tr
end Unc
