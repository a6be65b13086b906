import Verif.Model.Num
import Mathlib.Data.Int.Log
import Mathlib.Algebra.Order.Floor.Ring
import Mathlib.Data.Real.Archimedean
import Mathlib.Tactic.Linarith

/-!
# Floating point numbers as the template parameter `Real`

The library is instantiated with `double` and `float` (uncertainties/ureal.hpp:831-832).  The model functions need only operations
without laws, so they run on this type as they are.

Simplifications: no NaN, no infinities, no overflow; a division by zero gives 0 and the square root of a negative number is 0, so theorems which use
them must show that this does not happen.  Underflow is allowed.
-/

namespace Unc

/-- A floating point format with its rounding: the operations of `float` and `double` (uncertainties/ureal.hpp:831-832) give the exact result rounded by
`rd`, which is monotone and odd, and does not change the numbers of the format, 1 being one of them.  Simplification: no overflow. -/
structure Fmt where
  /-- rounding -/
  rd : ℝ → ℝ
  mono : Monotone rd
  odd : ∀ x, rd (-x) = -rd x
  idem : ∀ x, rd (rd x) = rd x
  one : rd 1 = 1

namespace Fmt

theorem rd_zero (f : Fmt) : f.rd 0 = 0 := by
  have := f.odd 0
  rw [neg_zero] at this
  linarith

theorem rd_nonneg (f : Fmt) {x : ℝ} (h : 0 ≤ x) : 0 ≤ f.rd x := by
  have := f.mono h
  rwa [f.rd_zero] at this

end Fmt

/-- A number of the format: a value of type `float` or `double` (uncertainties/ureal.hpp:831-832). -/
structure FP (f : Fmt) where
  /-- its value -/
  val : ℝ
  rep : f.rd val = val

namespace FP
variable {f : Fmt}

@[ext] theorem ext {a b : FP f} (h : a.val = b.val) : a = b := by
  cases a; cases b; simp only at h; subst h; rfl

/-- rounding a real number to the format (the result of an operation of `double`, uncertainties/ureal.hpp:831-832) -/
def round (f : Fmt) (x : ℝ) : FP f := ⟨f.rd x, f.idem x⟩

/-- the literal `0` (uncertainties/ureal.hpp:326 etc.) -/
instance : Zero (FP f) := ⟨⟨0, f.rd_zero⟩⟩
/-- the literal `1` (uncertainties/ureal.hpp:757 etc.) -/
instance : One (FP f) := ⟨⟨1, f.one⟩⟩
/-- `-x` is exact (uncertainties/ureal.hpp:779 etc.) -/
instance : Neg (FP f) := ⟨fun a => ⟨-a.val, by rw [f.odd, a.rep]⟩⟩
/-- `x + y` (uncertainties/ureal.hpp:329 etc.) -/
instance : Add (FP f) := ⟨fun a b => round f (a.val + b.val)⟩
/-- `x - y` (uncertainties/ureal.hpp:785 etc.) -/
instance : Sub (FP f) := ⟨fun a b => round f (a.val - b.val)⟩
/-- `x * y` (uncertainties/ureal.hpp:329 etc.) -/
instance : Mul (FP f) := ⟨fun a b => round f (a.val * b.val)⟩
/-- `x / y` (uncertainties/ureal.hpp:568, 791 etc.) -/
noncomputable instance : Div (FP f) := ⟨fun a b => round f (a.val / b.val)⟩

/-- the comparisons are those of the values (uncertainties/ureal.hpp:352 etc.) -/
noncomputable instance : CCmp (FP f) where
  ltb a b := decide (a.val < b.val)
  leb a b := decide (a.val ≤ b.val)
  eqb a b := decide (a.val = b.val)

/-- the square root is correctly rounded, the absolute value is exact (uncertainties/ureal.hpp:416-422) -/
noncomputable instance : CSqrt (FP f) where
  sqrt a := round f (Real.sqrt a.val)
  abs a := ⟨|a.val|, by rcases abs_choice a.val with h | h <;> rw [h]; exacts [a.rep, by rw [f.odd, a.rep]]⟩

@[simp] theorem val_zero : (0 : FP f).val = 0 := rfl
@[simp] theorem val_one : (1 : FP f).val = 1 := rfl
@[simp] theorem val_neg (a : FP f) : (-a).val = -a.val := rfl
theorem val_add (a b : FP f) : (a + b).val = f.rd (a.val + b.val) := rfl
theorem val_sub (a b : FP f) : (a - b).val = f.rd (a.val - b.val) := rfl
theorem val_mul (a b : FP f) : (a * b).val = f.rd (a.val * b.val) := rfl
theorem val_div (a b : FP f) : (a / b).val = f.rd (a.val / b.val) := rfl
theorem val_sqrt (a : FP f) : (CSqrt.sqrt a).val = f.rd (Real.sqrt a.val) := rfl
@[simp] theorem val_abs (a : FP f) : (CSqrt.abs a).val = |a.val| := rfl
@[simp] theorem ltb_fp (a b : FP f) : CCmp.ltb a b = true ↔ a.val < b.val := by simp [CCmp.ltb]
@[simp] theorem leb_fp (a b : FP f) : CCmp.leb a b = true ↔ a.val ≤ b.val := by simp [CCmp.leb]
@[simp] theorem eqb_fp (a b : FP f) : CCmp.eqb a b = true ↔ a.val = b.val := by simp [CCmp.eqb]

end FP

/-! ### binary formats -/

/-- round to the nearest number with `p` binary digits, halfway cases away from zero; the exponent is unbounded (a model of the rounding of `double`, `p = 53`, and `float`,
`p = 24`, uncertainties/ureal.hpp:831-832; IEEE rounds halfway cases to even) -/
noncomputable def bitsPos (p : ℕ) (x : ℝ) : ℝ :=
  ⌊x / 2 ^ (Int.log 2 x - p + 1) + 1 / 2⌋ * 2 ^ (Int.log 2 x - p + 1)

theorem bitsPos_eq {p : ℕ} {x : ℝ} {e : ℤ} (h1 : (2 : ℝ) ^ e ≤ x) (h2 : x < 2 ^ (e + 1)) :
    bitsPos p x = ⌊x / 2 ^ (e - p + 1) + 1 / 2⌋ * 2 ^ (e - p + 1) := by
  have hx : 0 < x := lt_of_lt_of_le (zpow_pos (by norm_num) _) h1
  have he : Int.log 2 x = e := by
    apply le_antisymm
    · by_contra h
      push Not at h
      have h3 : (2 : ℝ) ^ (e + 1) ≤ 2 ^ Int.log 2 x := zpow_le_zpow_right₀ (by norm_num) h
      have h4 := Int.zpow_log_le_self (b := 2) (by norm_num) hx
      push_cast at h4
      linarith
    · exact (Int.zpow_le_iff_le_log (b := 2) (by norm_num) hx).1 (by exact_mod_cast h1)
  rw [bitsPos, he]

section
variable {p : ℕ} (hp : 1 ≤ p)

theorem log_bounds {x : ℝ} (hx : 0 < x) : (2 : ℝ) ^ Int.log 2 x ≤ x ∧ x < 2 ^ (Int.log 2 x + 1) := by
  have h1 := Int.zpow_log_le_self (b := 2) (by norm_num) hx
  have h2 := Int.lt_zpow_succ_log_self (b := 2) (by norm_num) x
  push_cast at h1 h2
  exact ⟨h1, h2⟩

theorem two_zpow_pos (e : ℤ) : (0 : ℝ) < 2 ^ e := zpow_pos (by norm_num) e

include hp in
/-- the integer mantissa of a positive number -/
theorem mant_bounds {x : ℝ} {e : ℤ} (h1 : (2 : ℝ) ^ e ≤ x) (h2 : x < 2 ^ (e + 1)) :
    (2 : ℤ) ^ (p - 1) ≤ ⌊x / 2 ^ (e - p + 1) + 1 / 2⌋ ∧ ⌊x / 2 ^ (e - p + 1) + 1 / 2⌋ ≤ 2 ^ p := by
  have hq := two_zpow_pos (e - p + 1)
  have e1 : (2 : ℝ) ^ (p - 1) * 2 ^ (e - p + 1) = 2 ^ e := by
    rw [← zpow_natCast, ← zpow_add₀ (by norm_num)]; congr 1; push_cast [Nat.cast_sub hp]; ring
  have e2 : (2 : ℝ) ^ p * 2 ^ (e - p + 1) = 2 ^ (e + 1) := by
    rw [← zpow_natCast, ← zpow_add₀ (by norm_num)]; congr 1; ring
  constructor
  · rw [Int.le_floor]; push_cast
    have : (2 : ℝ) ^ (p - 1) ≤ x / 2 ^ (e - p + 1) := by rw [le_div_iff₀ hq, e1]; exact h1
    linarith
  · have : x / 2 ^ (e - p + 1) < 2 ^ p := by rw [div_lt_iff₀ hq, e2]; exact h2
    have h3 : ⌊x / 2 ^ (e - p + 1) + 1 / 2⌋ < 2 ^ p + 1 := by
      rw [Int.floor_lt]; push_cast; linarith
    omega

include hp in
theorem bitsPos_bounds {x : ℝ} {e : ℤ} (h1 : (2 : ℝ) ^ e ≤ x) (h2 : x < 2 ^ (e + 1)) : (2 : ℝ) ^ e ≤ bitsPos p x ∧ bitsPos p x ≤ 2 ^ (e + 1) := by
  obtain ⟨m1, m2⟩ := mant_bounds hp h1 h2
  rw [bitsPos_eq h1 h2]
  have hq := two_zpow_pos (e - p + 1)
  have e1 : (2 : ℝ) ^ (p - 1) * 2 ^ (e - p + 1) = 2 ^ e := by
    rw [← zpow_natCast, ← zpow_add₀ (by norm_num)]; congr 1; push_cast [Nat.cast_sub hp]; ring
  have e2 : (2 : ℝ) ^ p * 2 ^ (e - p + 1) = 2 ^ (e + 1) := by
    rw [← zpow_natCast, ← zpow_add₀ (by norm_num)]; congr 1; ring
  rw [← e1, ← e2]
  exact ⟨mul_le_mul_of_nonneg_right (by exact_mod_cast m1) hq.le, mul_le_mul_of_nonneg_right (by exact_mod_cast m2) hq.le⟩

include hp in
theorem bitsPos_pos {x : ℝ} (hx : 0 < x) : 0 < bitsPos p x :=
  lt_of_lt_of_le (two_zpow_pos _) (bitsPos_bounds hp (log_bounds hx).1 (log_bounds hx).2).1

include hp in
theorem bitsPos_mono {x y : ℝ} (hx : 0 < x) (h : x ≤ y) : bitsPos p x ≤ bitsPos p y := by
  have hy := lt_of_lt_of_le hx h
  obtain ⟨a1, a2⟩ := log_bounds hx
  obtain ⟨b1, b2⟩ := log_bounds hy
  rcases (Int.log_mono_right (b := 2) hx h).eq_or_lt with he | he
  · rw [bitsPos_eq a1 a2, bitsPos_eq (e := Int.log 2 x) (by rw [he]; exact b1) (by rw [he]; exact b2)]
    refine mul_le_mul_of_nonneg_right ?_ (two_zpow_pos _).le
    have := div_le_div_of_nonneg_right h (two_zpow_pos (Int.log 2 x - p + 1)).le
    exact_mod_cast Int.floor_mono (add_le_add_left this (1 / 2))
  · refine (bitsPos_bounds hp a1 a2).2.trans (le_trans ?_ (bitsPos_bounds hp b1 b2).1)
    exact zpow_le_zpow_right₀ (by norm_num) he

/-- A number with at most `p` binary digits is not changed. -/
theorem bitsPos_fix (N : ℤ) {k : ℤ} {e : ℤ} (hk : e - p + 1 ≤ k) (h1 : (2 : ℝ) ^ e ≤ N * 2 ^ k) (h2 : (N : ℝ) * 2 ^ k < 2 ^ (e + 1)) :
    bitsPos p (N * 2 ^ k) = N * 2 ^ k := by
  rw [bitsPos_eq h1 h2]
  obtain ⟨d, hd⟩ := Int.eq_ofNat_of_zero_le (sub_nonneg.2 hk)
  have hk' : k = (d : ℤ) + (e - p + 1) := by rw [← hd]; ring
  have e3 : (2 : ℝ) ^ k = 2 ^ d * 2 ^ (e - p + 1) := by
    rw [hk', zpow_add₀ (by norm_num), zpow_natCast]
  have e1 : (N : ℝ) * 2 ^ k / 2 ^ (e - p + 1) = ((N * 2 ^ d : ℤ) : ℝ) := by
    rw [e3]
    push_cast
    field_simp
  rw [e1]
  have e2 : ⌊((N * 2 ^ d : ℤ) : ℝ) + 1 / 2⌋ = N * 2 ^ d := by
    rw [Int.floor_eq_iff]; constructor <;> linarith
  rw [e2, e3]
  push_cast
  ring

include hp in
theorem bitsPos_idem {x : ℝ} (hx : 0 < x) : bitsPos p (bitsPos p x) = bitsPos p x := by
  obtain ⟨a1, a2⟩ := log_bounds hx
  obtain ⟨b1, b2⟩ := bitsPos_bounds hp a1 a2
  rcases b2.eq_or_lt with h | h
  · rw [h]
    have := bitsPos_fix (p := p) 1 (k := Int.log 2 x + 1) (e := Int.log 2 x + 1) (by have : (1 : ℤ) ≤ p := by exact_mod_cast hp
                                                                                     omega) (by simp) (by
      simp only [Int.cast_one, one_mul]
      exact zpow_lt_zpow_right₀ (by norm_num) (by omega))
    simpa using this
  · rw [bitsPos_eq a1 a2] at b1 h ⊢
    exact bitsPos_fix _ le_rfl b1 h

/-- the relative error is at most `2 ^ -p` -/
theorem bitsPos_err {x : ℝ} (hx : 0 < x) : |bitsPos p x - x| ≤ (1 / 2) ^ p * x := by
  obtain ⟨a1, a2⟩ := log_bounds hx
  have hq := two_zpow_pos (Int.log 2 x - p + 1)
  have h1 := Int.floor_le (x / 2 ^ (Int.log 2 x - p + 1) + 1 / 2)
  have h2 := Int.lt_floor_add_one (x / 2 ^ (Int.log 2 x - p + 1) + 1 / 2)
  have hb : |bitsPos p x - x| ≤ 2 ^ (Int.log 2 x - p + 1) / 2 := by
    rw [bitsPos]
    have e : x = x / 2 ^ (Int.log 2 x - p + 1) * 2 ^ (Int.log 2 x - p + 1) := by field_simp
    have e' : (⌊x / 2 ^ (Int.log 2 x - p + 1) + 1 / 2⌋ : ℝ) * 2 ^ (Int.log 2 x - p + 1) - x =
      (⌊x / 2 ^ (Int.log 2 x - p + 1) + 1 / 2⌋ - x / 2 ^ (Int.log 2 x - p + 1)) * 2 ^ (Int.log 2 x - p + 1) := by
      rw [sub_mul, ← e]
    rw [e', abs_mul, abs_of_pos hq, show (2 : ℝ) ^ (Int.log 2 x - p + 1) / 2 = 1 / 2 * 2 ^ (Int.log 2 x - p + 1) by ring]
    refine mul_le_mul_of_nonneg_right ?_ hq.le
    rw [abs_le]; constructor <;> linarith
  refine hb.trans ?_
  have e3 : (2 : ℝ) ^ (Int.log 2 x - p + 1) / 2 = (1 / 2) ^ p * 2 ^ Int.log 2 x := by
    rw [zpow_add₀ (by norm_num), zpow_sub₀ (by norm_num), zpow_natCast, one_div, inv_pow]
    field_simp
  rw [e3]
  exact mul_le_mul_of_nonneg_left a1 (by positivity)

end

/-- rounding to `p` binary digits (uncertainties/ureal.hpp:831-832, see `bitsPos`) -/
noncomputable def bitsRd (p : ℕ) (x : ℝ) : ℝ := if 0 < x then bitsPos p x else if x < 0 then -bitsPos p (-x) else 0

/-- The binary format with `p` digits: `double` for `p = 53`, `float` for `p = 24` (uncertainties/ureal.hpp:831-832).  Simplifications: unbounded exponent, halfway
cases away from zero. -/
noncomputable def bits (p : ℕ) (hp : 1 ≤ p) : Fmt where
  rd := bitsRd p
  mono := by
    intro x y h
    unfold bitsRd
    rcases lt_trichotomy x 0 with hx | hx | hx
    · rcases lt_trichotomy y 0 with hy | hy | hy
      · simp only [hx, hy, hx.not_gt, hy.not_gt, if_false, if_true]
        exact neg_le_neg (bitsPos_mono hp (by linarith) (by linarith))
      · subst hy
        simp only [hx, hx.not_gt, if_false, if_true, lt_irrefl]
        linarith [bitsPos_pos hp (x := -x) (by linarith)]
      · simp only [hx, hy, hx.not_gt, if_false, if_true]
        linarith [bitsPos_pos hp (x := -x) (by linarith), bitsPos_pos hp hy]
    · subst hx
      rcases h.eq_or_lt with hy | hy
      · subst hy; rfl
      · simp only [hy, lt_irrefl, if_false, if_true]
        exact (bitsPos_pos hp hy).le
    · have hy := lt_of_lt_of_le hx h
      simp only [hx, hy, if_true]
      exact bitsPos_mono hp hx h
  odd := by
    intro x
    unfold bitsRd
    rcases lt_trichotomy x 0 with hx | hx | hx
    · simp [hx, hx.not_gt]
    · simp [hx]
    · simp [hx, hx.not_gt]
  idem := by
    intro x
    unfold bitsRd
    rcases lt_trichotomy x 0 with hx | hx | hx
    · have := bitsPos_pos hp (x := -x) (by linarith)
      simp only [hx, hx.not_gt, if_false, if_true, Left.neg_pos_iff, this.not_gt, Left.neg_neg_iff, this, neg_neg]
      rw [bitsPos_idem hp (by linarith)]
    · simp [hx]
    · have := bitsPos_pos hp hx
      simp only [hx, if_true, this]
      exact bitsPos_idem hp hx
  one := by
    unfold bitsRd
    rw [if_pos one_pos]
    have := bitsPos_fix (p := p) 1 (k := 0) (e := 0) (by omega) (by simp) (by norm_num)
    simpa using this

theorem bits_err (p : ℕ) (hp : 1 ≤ p) (x : ℝ) : |(bits p hp).rd x - x| ≤ (1 / 2) ^ p * |x| := by
  change |bitsRd p x - x| ≤ _
  unfold bitsRd
  rcases lt_trichotomy x 0 with hx | hx | hx
  · simp only [hx, hx.not_gt, if_false, if_true]
    have := bitsPos_err (p := p) (x := -x) (by linarith)
    rw [abs_of_neg hx, ← abs_neg]
    convert! this using 2
    ring
  · simp [hx]
  · simp only [hx, if_true, abs_of_pos hx]
    exact bitsPos_err hx

end Unc
