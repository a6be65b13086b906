import Verif.Model.Float
import Mathlib.Data.EReal.Basic

/-!
# IEEE numbers: limited exponents, infinities and NaN

`Verif/Model/Float.lean` has numbers without overflow.  Here the numbers have a largest exponent, with infinities and NaN above, and a smallest
exponent, with gradual underflow below; halfway cases are rounded to even.

Simplification: only one zero, without sign, so that `x / 0` is the infinity with the sign of `x` where C++ looks at the sign of the zero too.
-/

namespace Unc

/-! ### rounding to nearest, ties to even -/

/-- the nearest integer, the even one if there are two (the rounding of the operations of `double`, uncertainties/ureal.hpp:831-832) -/
noncomputable def nearEven (y : ℝ) : ℤ :=
  if Int.fract y < 1 / 2 then ⌊y⌋ else if 1 / 2 < Int.fract y then ⌊y⌋ + 1 else if Even ⌊y⌋ then ⌊y⌋ else ⌊y⌋ + 1

theorem nearEven_int (n : ℤ) : nearEven n = n := by simp [nearEven]

theorem nearEven_err (y : ℝ) : |(nearEven y : ℝ) - y| ≤ 1 / 2 := by
  have h := Int.floor_add_fract y
  have h0 := Int.fract_nonneg y
  have h1 := Int.fract_lt_one y
  unfold nearEven
  rw [abs_le]
  split_ifs with a b c <;> push_cast <;> constructor <;> linarith

/-- the rounding is one of the two neighbours -/
theorem nearEven_floor (y : ℝ) : ⌊y⌋ ≤ nearEven y ∧ nearEven y ≤ ⌊y⌋ + 1 := by
  unfold nearEven
  split_ifs <;> omega

theorem nearEven_mono {x y : ℝ} (h : x ≤ y) : nearEven x ≤ nearEven y := by
  rcases (Int.floor_mono h).eq_or_lt with hf | hf
  · have hx := Int.floor_add_fract x
    have hy := Int.floor_add_fract y
    have hf' : (⌊x⌋ : ℝ) = ⌊y⌋ := by exact_mod_cast hf
    have hr : Int.fract x ≤ Int.fract y := by linarith
    unfold nearEven
    rw [hf]
    split_ifs <;> first | omega | (exfalso; linarith)
  · have := (nearEven_floor x).2
    have := (nearEven_floor y).1
    omega

/-- the exponent of a positive number, at least `emin` (gradual underflow; `double` of uncertainties/ureal.hpp:831) -/
noncomputable def expo (emin : ℤ) (x : ℝ) : ℤ := max (Int.log 2 x) emin

/-- round a positive number to `p` binary digits, or less if the exponent would be less than `emin` (the rounding of `double`, `p = 53` and `emin = -1022`,
uncertainties/ureal.hpp:831); the exponent is not limited above -/
noncomputable def ieeePos (p : ℕ) (emin : ℤ) (x : ℝ) : ℝ :=
  nearEven (x / 2 ^ (expo emin x - p + 1)) * 2 ^ (expo emin x - p + 1)

section
variable {p : ℕ} {emin : ℤ}

theorem expo_lt {x : ℝ} (hx : 0 < x) : x < 2 ^ (expo emin x + 1) :=
  lt_of_lt_of_le (log_bounds hx).2 (zpow_le_zpow_right₀ (by norm_num) (by unfold expo; omega))

theorem expo_le {x : ℝ} {e : ℤ} (hx : 0 < x) (he : emin ≤ e) (h : x < 2 ^ (e + 1)) : expo emin x ≤ e := by
  unfold expo
  refine max_le ?_ he
  have h1 : (2 : ℝ) ^ Int.log 2 x < 2 ^ (e + 1) := lt_of_le_of_lt (log_bounds hx).1 h
  have := (zpow_lt_zpow_iff_right₀ (by norm_num : (1 : ℝ) < 2)).1 h1
  omega

theorem expo_eq {x : ℝ} {e : ℤ} (he : emin ≤ e) (h1 : (2 : ℝ) ^ e ≤ x) (h2 : x < 2 ^ (e + 1)) : expo emin x = e := by
  have hx : 0 < x := lt_of_lt_of_le (two_zpow_pos _) h1
  refine le_antisymm (expo_le hx he h2) ?_
  unfold expo
  have : e ≤ Int.log 2 x := (Int.zpow_le_iff_le_log (b := 2) (by norm_num) hx).1 (by exact_mod_cast h1)
  omega

theorem expo_mono {x y : ℝ} (hx : 0 < x) (h : x ≤ y) : expo emin x ≤ expo emin y :=
  max_le_max (Int.log_mono_right (b := 2) hx h) le_rfl

/-- the largest mantissa -/
theorem pow_digits (e : ℤ) : (2 : ℝ) ^ p * 2 ^ (e - p + 1) = 2 ^ (e + 1) := by
  rw [← zpow_natCast, ← zpow_add₀ (by norm_num)]; congr 1; ring

/-- the smallest mantissa of a number which is not subnormal -/
theorem pow_digits' (hp : 1 ≤ p) (e : ℤ) : (2 : ℝ) ^ (p - 1) * 2 ^ (e - p + 1) = 2 ^ e := by
  rw [← zpow_natCast, ← zpow_add₀ (by norm_num)]; congr 1; push_cast [Nat.cast_sub hp]; ring

theorem ieeePos_nonneg {x : ℝ} (hx : 0 < x) : 0 ≤ ieeePos p emin x := by
  refine mul_nonneg ?_ (two_zpow_pos _).le
  have h := nearEven_mono (x := ((0 : ℤ) : ℝ)) (y := x / 2 ^ (expo emin x - p + 1)) (by push_cast; exact div_nonneg hx.le (two_zpow_pos _).le)
  rw [nearEven_int] at h
  exact_mod_cast h

theorem ieeePos_le {x : ℝ} (hx : 0 < x) : nearEven (x / 2 ^ (expo emin x - p + 1)) ≤ 2 ^ p ∧ ieeePos p emin x ≤ 2 ^ (expo emin x + 1) := by
  have h : nearEven (x / 2 ^ (expo emin x - p + 1)) ≤ 2 ^ p := by
    rw [← nearEven_int (2 ^ p)]
    refine nearEven_mono ?_
    push_cast
    rw [div_le_iff₀ (two_zpow_pos _), pow_digits]
    exact (expo_lt hx).le
  refine ⟨h, ?_⟩
  have h' : (nearEven (x / 2 ^ (expo emin x - p + 1)) : ℝ) ≤ 2 ^ p := by exact_mod_cast h
  rw [ieeePos, ← pow_digits (p := p) (expo emin x)]
  exact mul_le_mul_of_nonneg_right h' (two_zpow_pos _).le

theorem le_ieeePos (hp : 1 ≤ p) {x : ℝ} {e : ℤ} (he : expo emin x = e) (h1 : (2 : ℝ) ^ e ≤ x) : (2 : ℝ) ^ e ≤ ieeePos p emin x := by
  have h : (2 : ℤ) ^ (p - 1) ≤ nearEven (x / 2 ^ (e - p + 1)) := by
    rw [← nearEven_int (2 ^ (p - 1))]
    refine nearEven_mono ?_
    push_cast
    rw [le_div_iff₀ (two_zpow_pos _), pow_digits' hp]
    exact h1
  rw [ieeePos, he, ← pow_digits' hp]
  exact mul_le_mul_of_nonneg_right (by exact_mod_cast h) (two_zpow_pos _).le

theorem ieeePos_mono (hp : 1 ≤ p) {x y : ℝ} (hx : 0 < x) (h : x ≤ y) : ieeePos p emin x ≤ ieeePos p emin y := by
  have hy := lt_of_lt_of_le hx h
  rcases (expo_mono (emin := emin) hx h).eq_or_lt with he | he
  · unfold ieeePos
    rw [he]
    refine mul_le_mul_of_nonneg_right ?_ (two_zpow_pos _).le
    exact_mod_cast nearEven_mono (div_le_div_of_nonneg_right h (two_zpow_pos _).le)
  · have hl : expo emin y = Int.log 2 y := by
      have : emin ≤ expo emin x := le_max_right _ _
      unfold expo at he this ⊢
      omega
    refine (ieeePos_le hx).2.trans (le_trans (zpow_le_zpow_right₀ (by norm_num) (by omega : expo emin x + 1 ≤ expo emin y)) ?_)
    exact le_ieeePos hp rfl (by rw [hl]; exact (log_bounds hy).1)

/-- A multiple of the distance between the numbers is not changed. -/
theorem ieeePos_fix (N : ℤ) {k : ℤ} (hk : expo emin (N * 2 ^ k) - p + 1 ≤ k) : ieeePos p emin (N * 2 ^ k) = N * 2 ^ k := by
  obtain ⟨d, hd⟩ := Int.eq_ofNat_of_zero_le (sub_nonneg.2 hk)
  set q := expo emin (N * 2 ^ k) - p + 1 with hq
  have e3 : (2 : ℝ) ^ k = 2 ^ d * 2 ^ q := by
    rw [show k = (d : ℤ) + q by omega, zpow_add₀ (by norm_num), zpow_natCast]
  have e1 : (N : ℝ) * 2 ^ k / 2 ^ q = ((N * 2 ^ d : ℤ) : ℝ) := by
    rw [e3]; push_cast; field_simp
  rw [ieeePos, ← hq, e1, nearEven_int, e3]
  push_cast; ring

theorem ieeePos_idem (hp : 1 ≤ p) {x : ℝ} (hx : 0 < x) (h0 : 0 < ieeePos p emin x) : ieeePos p emin (ieeePos p emin x) = ieeePos p emin x := by
  obtain ⟨h1, h2⟩ := ieeePos_le (p := p) (emin := emin) hx
  have he : emin ≤ expo emin x := le_max_right _ _
  have hp' : (1 : ℤ) ≤ p := by exact_mod_cast hp
  rcases h2.eq_or_lt with h | h
  · rw [h]
    have := ieeePos_fix (p := p) (emin := emin) 1 (k := expo emin x + 1) (by
      rw [Int.cast_one, one_mul, expo_eq (e := expo emin x + 1) (by omega) le_rfl (zpow_lt_zpow_right₀ (by norm_num) (by omega))]
      omega)
    simpa using this
  · have := expo_le h0 he h
    exact ieeePos_fix _ (by rw [ieeePos] at this; omega)

/-- the error is at most half of the distance between the numbers -/
theorem ieeePos_err (x : ℝ) : |ieeePos p emin x - x| ≤ 2 ^ (expo emin x - p + 1) / 2 := by
  have hq := two_zpow_pos (expo emin x - p + 1)
  have h := nearEven_err (x / 2 ^ (expo emin x - p + 1))
  have e : ieeePos p emin x - x = (nearEven (x / 2 ^ (expo emin x - p + 1)) - x / 2 ^ (expo emin x - p + 1)) * 2 ^ (expo emin x - p + 1) := by
    rw [ieeePos, sub_mul, div_mul_cancel₀ _ hq.ne']
  rw [e, abs_mul, abs_of_pos hq]
  nlinarith

end

/-- rounding to `p` binary digits with gradual underflow (uncertainties/ureal.hpp:831-832, see `ieeePos`) -/
noncomputable def ieeeRd (p : ℕ) (emin : ℤ) (x : ℝ) : ℝ := if 0 < x then ieeePos p emin x else if x < 0 then -ieeePos p emin (-x) else 0

/-- The IEEE format with `p` digits and least exponent `emin`: `double` for 53 and -1022, `float` for 24 and -126 (uncertainties/ureal.hpp:831-832).
The exponent is not limited above, see `Ext` for that. -/
noncomputable def ieee (p : ℕ) (emin : ℤ) (hp : 1 ≤ p) (he : emin ≤ 0) : Fmt where
  rd := ieeeRd p emin
  mono := by
    intro x y h
    unfold ieeeRd
    rcases lt_trichotomy x 0 with hx | hx | hx
    · rcases lt_trichotomy y 0 with hy | hy | hy
      · simp only [hx, hy, hx.not_gt, hy.not_gt, if_false, if_true]
        exact neg_le_neg (ieeePos_mono hp (by linarith) (by linarith))
      · subst hy
        simp only [hx, hx.not_gt, if_false, if_true, lt_irrefl]
        linarith [ieeePos_nonneg (p := p) (emin := emin) (x := -x) (by linarith)]
      · simp only [hx, hy, hx.not_gt, if_false, if_true]
        linarith [ieeePos_nonneg (p := p) (emin := emin) (x := -x) (by linarith), ieeePos_nonneg (p := p) (emin := emin) hy]
    · subst hx
      rcases h.eq_or_lt with hy | hy
      · subst hy; rfl
      · simp only [hy, lt_irrefl, if_false, if_true]
        exact ieeePos_nonneg hy
    · have hy := lt_of_lt_of_le hx h
      simp only [hx, hy, if_true]
      exact ieeePos_mono hp hx h
  odd := by
    intro x
    unfold ieeeRd
    rcases lt_trichotomy x 0 with hx | hx | hx
    · simp [hx, hx.not_gt]
    · simp [hx]
    · simp [hx, hx.not_gt]
  idem := by
    intro x
    unfold ieeeRd
    rcases lt_trichotomy x 0 with hx | hx | hx
    · simp only [hx, hx.not_gt, if_false, if_true]
      rcases (ieeePos_nonneg (p := p) (emin := emin) (x := -x) (by linarith)).eq_or_lt with h | h
      · simp [← h]
      · simp only [Left.neg_pos_iff, h.not_gt, Left.neg_neg_iff, h, neg_neg, if_true, if_false]
        rw [ieeePos_idem hp (by linarith) h]
    · simp [hx]
    · simp only [hx, if_true]
      rcases (ieeePos_nonneg (p := p) (emin := emin) hx).eq_or_lt with h | h
      · simp [← h]
      · simp only [h, if_true]
        exact ieeePos_idem hp hx h
  one := by
    unfold ieeeRd
    rw [if_pos one_pos]
    have hp' : (1 : ℤ) ≤ p := by exact_mod_cast hp
    have := ieeePos_fix (p := p) (emin := emin) 1 (k := 0) (by
      rw [expo_eq (e := 0) he (by simp) (by norm_num)]; omega)
    simpa using this

/-! ### numbers with infinities and NaN -/

/-- The numbers of the format `f` up to `M`, the infinities and NaN: the values of `double` with `f = ieee 53 (-1022)` and `M` the largest finite number
(uncertainties/ureal.hpp:831-832). -/
inductive Ext (f : Fmt) (M : ℝ) where
  /-- NaN -/
  | nan
  /-- an infinity, with its sign -/
  | inf (neg : Bool)
  /-- an ordinary number -/
  | fin (a : FP f) (h : |a.val| ≤ M)

namespace Ext
variable {f : Fmt} {M : ℝ}

/-- a number which the format without limit would have, infinite if it is too large (overflow of the operations of `double`, uncertainties/ureal.hpp:831-832) -/
noncomputable def ofFP (M : ℝ) (a : FP f) : Ext f M :=
  if h : |a.val| ≤ M then fin a h else inf (decide (a.val < 0))

/-- `true` for the negative numbers (the sign in the rules of infinities, uncertainties/ureal.hpp:329 etc.) -/
noncomputable def isNeg : Ext f M → Bool
  | nan => false
  | inf s => s
  | fin a _ => decide (a.val < 0)

/-- `true` for zero (used for `inf * 0`, uncertainties/ureal.hpp:329 etc.) -/
noncomputable def isZero : Ext f M → Bool
  | fin a _ => decide (a.val = 0)
  | _ => false

/-- the literal `0` (uncertainties/ureal.hpp:326 etc.) -/
noncomputable instance : Zero (Ext f M) := ⟨ofFP M 0⟩
/-- the literal `1` (uncertainties/ureal.hpp:757 etc.) -/
noncomputable instance : One (Ext f M) := ⟨ofFP M 1⟩

/-- `-x` (uncertainties/ureal.hpp:779 etc.) -/
noncomputable instance : Neg (Ext f M) := ⟨fun a => match a with
  | nan => nan
  | inf s => inf (!s)
  | fin a _ => ofFP M (-a)⟩

/-- `x + y`: `inf - inf` is NaN (uncertainties/ureal.hpp:329 etc.) -/
noncomputable def add' : Ext f M → Ext f M → Ext f M
  | fin a _, fin b _ => ofFP M (a + b)
  | inf s, inf t => if s = t then inf s else nan
  | inf s, fin _ _ => inf s
  | fin _ _, inf t => inf t
  | _, _ => nan

/-- `operator+` (uncertainties/ureal.hpp:329 etc.) -/
noncomputable instance : Add (Ext f M) := ⟨add'⟩

/-- `x - y` (uncertainties/ureal.hpp:785 etc.) -/
noncomputable def sub' : Ext f M → Ext f M → Ext f M
  | fin a _, fin b _ => ofFP M (a - b)
  | inf s, inf t => if s = t then nan else inf s
  | inf s, fin _ _ => inf s
  | fin _ _, inf t => inf (!t)
  | _, _ => nan

/-- `operator-` (uncertainties/ureal.hpp:785 etc.) -/
noncomputable instance : Sub (Ext f M) := ⟨sub'⟩

/-- `x * y`: `inf * 0` is NaN (uncertainties/ureal.hpp:329 etc.) -/
noncomputable def mul' (x y : Ext f M) : Ext f M :=
  match x, y with
  | fin a _, fin b _ => ofFP M (a * b)
  | nan, _ => nan
  | _, nan => nan
  | a, b => if a.isZero || b.isZero then nan else inf (xor a.isNeg b.isNeg)

/-- `operator*` (uncertainties/ureal.hpp:329 etc.) -/
noncomputable instance : Mul (Ext f M) := ⟨mul'⟩

/-- `x / y`: `0 / 0` and `inf / inf` are NaN, a number divided by zero is infinite, a number divided by an infinity is zero (uncertainties/ureal.hpp:568, 791 etc.) -/
noncomputable def div' : Ext f M → Ext f M → Ext f M
  | fin a ha, fin b _ => if b.val = 0 then (if a.val = 0 then nan else inf (isNeg (fin a ha))) else ofFP M (a / b)
  | fin _ _, inf _ => 0
  | inf s, fin b hb => inf (xor s (isNeg (fin b hb)))
  | _, _ => nan

/-- `operator/` (uncertainties/ureal.hpp:568, 791 etc.) -/
noncomputable instance : Div (Ext f M) := ⟨div'⟩

/-- the value for comparisons; NaN has none (uncertainties/ureal.hpp:352 etc.) -/
noncomputable def ereal : Ext f M → Option EReal
  | nan => none
  | inf s => some (if s then ⊥ else ⊤)
  | fin a _ => some (a.val : EReal)

/-- comparisons are false if one operand is NaN (uncertainties/ureal.hpp:352 etc.) -/
noncomputable def cmp' (r : EReal → EReal → Prop) (x y : Ext f M) : Bool :=
  match x.ereal, y.ereal with
  | some a, some b => open Classical in decide (r a b)
  | _, _ => false

/-- the comparisons (uncertainties/ureal.hpp:352 etc.) -/
noncomputable instance : CCmp (Ext f M) := ⟨cmp' (· < ·), cmp' (· ≤ ·), cmp' (· = ·)⟩

/-- `sqrt` (NaN for negative numbers) and `abs` (uncertainties/ureal.hpp:416-422) -/
noncomputable instance : CSqrt (Ext f M) where
  sqrt a := match a with
    | nan => nan
    | inf s => if s then nan else inf false
    | fin a _ => if a.val < 0 then nan else ofFP M (CSqrt.sqrt a)
  abs a := match a with
    | nan => nan
    | inf _ => inf false
    | fin a _ => ofFP M (CSqrt.abs a)

end Ext

/-- the format of `double` (uncertainties/ureal.hpp:831), but for the largest number -/
noncomputable abbrev dblFmt : Fmt := ieee 53 (-1022) (by norm_num) (by norm_num)

/-- `std::numeric_limits<double>::max()` (`double` of uncertainties/ureal.hpp:831) -/
noncomputable def dblMax : ℝ := (2 ^ 53 - 1) * 2 ^ 971

/-- the type `double` (uncertainties/ureal.hpp:831) -/
abbrev Dbl := Ext dblFmt dblMax

end Unc
