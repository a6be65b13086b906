import Verif.Model.Format
import Verif.Spec.Format
import Mathlib.Data.List.TakeWhile
import Mathlib.Tactic.IntervalCases

/-! # Helper lemmas about `Verif/Model/Format.lean` -/

namespace Unc
open Unc.Spec Fmt

/-! ## strings of digits -/

theorem digitChar_facts {d : ℕ} (h : d < 10) : (digitChar d).isDigit ∧ digitVal (digitChar d) = d ∧ (digitChar d = '0' ↔ d = 0) := by
  interval_cases d <;> decide

theorem natVal_foldl (l : List Char) (a : ℕ) : l.foldl (fun a c => 10 * a + digitVal c) a = a * 10 ^ l.length + natVal l := by
  induction l generalizing a with
  | nil => simp [natVal]
  | cons c t ih =>
    simp only [natVal, List.foldl_cons, List.length_cons]
    rw [ih, ih (10 * 0 + digitVal c)]
    ring

theorem natVal_append (a b : List Char) : natVal (a ++ b) = natVal a * 10 ^ b.length + natVal b := by
  rw [natVal, List.foldl_append, natVal_foldl]; rfl

theorem natVal_cons (c : Char) (t : List Char) : natVal (c :: t) = digitVal c * 10 ^ t.length + natVal t := by
  rw [show c :: t = [c] ++ t from rfl, natVal_append]; simp [natVal]

theorem digitVal_lt {c : Char} (h : c.isDigit) : digitVal c < 10 := by
  simp only [Char.isDigit, Bool.and_eq_true, decide_eq_true_eq, UInt32.le_iff_toNat_le] at h
  have h2 : c.val.toNat ≤ 57 := h.2
  have : c.toNat = c.val.toNat := rfl
  simp only [digitVal, this]
  have : '0'.toNat = 48 := rfl
  omega

theorem digitVal_ne {c : Char} (h : c.isDigit) (h0 : c ≠ '0') : 1 ≤ digitVal c := by
  simp only [Char.isDigit, Bool.and_eq_true, decide_eq_true_eq, UInt32.le_iff_toNat_le] at h
  have h1 : 48 ≤ c.val.toNat := h.1
  have : c.toNat = c.val.toNat := rfl
  simp only [digitVal, this]
  have h3 : '0'.toNat = 48 := rfl
  rcases Nat.lt_or_ge 48 c.val.toNat with h | h
  · omega
  · exfalso
    apply h0
    apply Char.ext
    apply UInt32.toNat_inj.1
    show c.val.toNat = 48
    omega

theorem natVal_lt {s : List Char} (h : ∀ c ∈ s, c.isDigit) : natVal s < 10 ^ s.length := by
  induction s with
  | nil => simp [natVal]
  | cons c t ih =>
    rw [natVal_cons, List.length_cons, pow_succ]
    have h1 := digitVal_lt (h c (by simp))
    have h2 := ih fun c hc => h c (by simp [hc])
    have : (digitVal c + 1) * 10 ^ t.length ≤ 10 * 10 ^ t.length := Nat.mul_le_mul_right _ (by omega)
    nlinarith

theorem le_natVal {c : Char} {t : List Char} (h : ∀ x ∈ c :: t, x.isDigit) (h0 : c ≠ '0') : 10 ^ t.length ≤ natVal (c :: t) := by
  rw [natVal_cons]
  have := digitVal_ne (h c (by simp)) h0
  nlinarith [Nat.zero_le (natVal t), Nat.pow_pos (n := t.length) (show 0 < 10 by norm_num)]

/-- a string of digits without needless zeros -/
structure Canon (s : List Char) : Prop where
  digits : ∀ c ∈ s, c.isDigit
  head : s = ['0'] ∨ ∃ c t, s = c :: t ∧ c ≠ '0'

theorem Canon.ne {s : List Char} (h : Canon s) : s ≠ [] := by
  rcases h.head with rfl | ⟨c, t, rfl, -⟩ <;> simp

theorem canon_zero : Canon ['0'] := ⟨by decide, Or.inl rfl⟩

theorem Canon.length_iff {s : List Char} (h : Canon s) {n : ℕ} (hn : 10 ^ n ≤ natVal s) (hn' : natVal s < 10 ^ (n + 1)) : s.length = n + 1 := by
  rcases h.head with rfl | ⟨c, t, rfl, h0⟩
  · have : natVal ['0'] = 0 := rfl
    have := Nat.pow_pos (n := n) (show 0 < 10 by norm_num)
    omega
  · have h1 := natVal_lt h.digits
    have h2 := le_natVal h.digits h0
    rw [List.length_cons] at h1 ⊢
    have a : n < t.length + 1 := (Nat.pow_lt_pow_iff_right (by norm_num : 1 < 10)).1 (lt_of_le_of_lt hn h1)
    have b : t.length < n + 1 := (Nat.pow_lt_pow_iff_right (by norm_num : 1 < 10)).1 (lt_of_le_of_lt h2 hn')
    omega

theorem digitsLoop_facts (x : ℕ) : (∀ c ∈ digitsLoop x, c.isDigit) ∧ natVal (digitsLoop x).reverse = x ∧
    (x = 0 → digitsLoop x = []) ∧ (x ≠ 0 → ∃ c t, (digitsLoop x).reverse = c :: t ∧ c ≠ '0') := by
  induction x using Nat.strongRecOn with
  | ind x ih =>
    rw [digitsLoop]
    split_ifs with hx
    · obtain ⟨h1, h2, h3, h4⟩ := ih (x / 10) (by omega)
      obtain ⟨d1, d2, d3⟩ := digitChar_facts (d := x % 10) (by omega)
      refine ⟨?_, ?_, by omega, fun _ => ?_⟩
      · intro c hc
        rcases List.mem_cons.1 hc with rfl | hc
        · exact d1
        · exact h1 c hc
      · rw [List.reverse_cons, natVal_append, h2]
        simp only [List.length_singleton, natVal, List.foldl_cons, List.foldl_nil, d2]
        omega
      · rw [List.reverse_cons]
        by_cases h0 : x / 10 = 0
        · rw [h3 h0]
          refine ⟨_, [], rfl, fun h => ?_⟩
          have := d3.1 h
          omega
        · obtain ⟨c, t, e, hc⟩ := h4 h0
          exact ⟨c, t ++ [digitChar (x % 10)], by rw [e]; rfl, hc⟩
    · have : x = 0 := by omega
      subst this
      simp [natVal]

theorem intMantissaString_facts (x : ℤ) : Canon (intMantissaString x) ∧ natVal (intMantissaString x) = x.natAbs := by
  obtain ⟨h1, h2, h3, h4⟩ := digitsLoop_facts x.natAbs
  unfold intMantissaString
  by_cases h0 : x.natAbs = 0
  · rw [h3 h0, h0]
    exact ⟨canon_zero, rfl⟩
  · obtain ⟨c, t, e, hc⟩ := h4 h0
    have hne : ¬ (digitsLoop x.natAbs).length = 0 := by
      intro h
      rw [List.length_eq_zero_iff.1 h] at e
      simp at e
    simp only [hne, if_false]
    refine ⟨⟨fun c hc => h1 c (by simpa using hc), Or.inr ⟨c, t, e, hc⟩⟩, h2⟩

theorem formatExp_facts {e : ℤ} (he : e ≠ 0) : expStr (formatExp e) e := by
  obtain ⟨h1, h2⟩ := intMantissaString_facts |e|
  have h3 : |e|.natAbs = e.natAbs := Int.natAbs_abs e
  refine ⟨intMantissaString |e|, rfl, h1.ne, h1.digits, ?_, by rw [h2, h3]⟩
  rcases h1.head with h | ⟨c, t, h, h0⟩
  · exfalso
    rw [h] at h2
    have : natVal ['0'] = 0 := rfl
    omega
  · rw [h]
    simpa using h0

/-! ## the point -/

theorem not_dot {c : Char} (h : c.isDigit) : (c != '.') = true := by
  rcases eq_or_ne c '.' with rfl | h'
  · exact absurd h (by decide)
  · simpa using h'

theorem parts_nodot {s : List Char} (h : ∀ c ∈ s, c.isDigit) : intPart s = s ∧ fracPart s = [] := by
  have hw : ∀ c ∈ s, (c != '.') = true := fun c hc => not_dot (h c hc)
  refine ⟨List.takeWhile_eq_self_iff.2 hw, ?_⟩
  rw [fracPart, List.dropWhile_eq_nil_iff.2 hw]; rfl

theorem parts_dot {a b : List Char} (h : ∀ c ∈ a, c.isDigit) : intPart (a ++ '.' :: b) = a ∧ fracPart (a ++ '.' :: b) = b := by
  have hw : ∀ c ∈ a, (c != '.') = true := fun c hc => not_dot (h c hc)
  constructor
  · rw [intPart, List.takeWhile_append_of_pos hw, List.takeWhile_cons]
    simp
  · rw [fracPart, List.dropWhile_append_of_pos hw, List.dropWhile_cons]
    simp

theorem natVal_zeros (n : ℕ) (s : List Char) : natVal (List.replicate n '0' ++ s) = natVal s := by
  induction n with
  | zero => simp
  | succ n ih =>
    rw [List.replicate_succ, List.cons_append, natVal_cons, ih]
    have : digitVal '0' = 0 := rfl
    simp [this]

theorem dropWhile_zeros (n : ℕ) (s : List Char) : (List.replicate n '0' ++ s).dropWhile (fun c => c == '0') = s.dropWhile fun c => c == '0' := by
  induction n with
  | zero => simp
  | succ n ih => rw [List.replicate_succ, List.cons_append, List.dropWhile_cons]; simpa using ih

theorem insertIdx_take_drop {α : Type*} (x : α) : ∀ (i : ℕ) (l : List α), i ≤ l.length → l.insertIdx i x = l.take i ++ x :: l.drop i
  | 0, l, _ => by simp
  | i + 1, [], h => by simp at h
  | i + 1, a :: l, h => by
    rw [List.insertIdx_succ_cons, insertIdx_take_drop x i l (by simpa using h)]; simp

/-- `insert_dot` puts the point: `s` are the digits of a number whose last digit has place `e - n + 1`, not above the units. -/
theorem insertDot_spec {s : List Char} (hs : Canon s) {n e : ℤ} (hk : e - n + 1 ≤ 0) :
    Numeral (insertDot s n e) ∧ (decimals (insertDot s n e) : ℤ) = -(e - n + 1) ∧
      decVal (insertDot s n e) = natVal s * (10 : ℝ) ^ (e - n + 1) ∧
      sigDigits (insertDot s n e) = (s.dropWhile fun c => c == '0').length := by
  have hlen : 1 ≤ s.length := List.length_pos_iff.2 hs.ne
  unfold insertDot
  simp only
  split_ifs with h1 h2
  · -- no point
    have h0 : e - n + 1 = 0 := by omega
    obtain ⟨p1, p2⟩ := parts_nodot hs.digits
    refine ⟨⟨by rw [p1, p2, List.append_nil]; exact hs.digits, by rw [p1]; exact hs.head, fun h => ?_⟩, ?_, ?_, ?_⟩
    · exact absurd (hs.digits _ h) (by decide)
    · simp [decimals, p2, h0]
    · simp [decVal, decimals, p1, p2, h0]
    · simp [sigDigits, p1, p2]
  · -- inside
    obtain ⟨i, hi⟩ : ∃ i : ℕ, e + (s.length - n) = i := ⟨_, (Int.toNat_of_nonneg h2).symm⟩
    have hil : i + 1 < s.length := by omega
    rw [hi, show (1 + (i : ℤ)).toNat = i + 1 by omega, insertIdx_take_drop _ _ _ (by omega)]
    have hd : ∀ c ∈ s.take (i + 1), c.isDigit := fun c hc => hs.digits c (List.mem_of_mem_take hc)
    obtain ⟨p1, p2⟩ := parts_dot (b := s.drop (i + 1)) hd
    have hdl : ((s.drop (i + 1)).length : ℤ) = -(e - n + 1) := by
      rw [List.length_drop]
      omega
    refine ⟨⟨by rw [p1, p2, List.take_append_drop]; exact hs.digits, ?_, fun _ => ?_⟩, ?_, ?_, ?_⟩
    · rw [p1]
      rcases hs.head with h | ⟨c, t, h, hc⟩
      · rw [h] at hil
        simp at hil
      · right
        exact ⟨c, t.take i, by rw [h, List.take_succ_cons], hc⟩
    · rw [p2]
      intro h
      have := congrArg List.length h
      rw [List.length_drop, List.length_nil] at this
      omega
    · rw [decimals, p2, hdl]
    · rw [decVal, decimals, p1, p2, List.take_append_drop, ← zpow_natCast, hdl, zpow_neg, div_eq_mul_inv, inv_inv]
    · rw [sigDigits, p1, p2, List.take_append_drop]
  · -- in front
    obtain ⟨i, hi⟩ : ∃ i : ℕ, e + (s.length - n) = -((i + 1 : ℕ) : ℤ) := ⟨(-(e + (s.length - n))).toNat - 1, by omega⟩
    rw [hi, neg_neg, Int.toNat_natCast, List.replicate_succ, List.cons_append]
    rw [show ('0' :: (List.replicate i '0' ++ s)).insertIdx 1 '.' = ['0'] ++ '.' :: (List.replicate i '0' ++ s) from rfl]
    obtain ⟨p1, p2⟩ := parts_dot (a := ['0']) (b := List.replicate i '0' ++ s) (by decide)
    have hdl : ((List.replicate i '0' ++ s).length : ℤ) = -(e - n + 1) := by
      rw [List.length_append, List.length_replicate]
      omega
    have hz : ['0'] ++ (List.replicate i '0' ++ s) = List.replicate (i + 1) '0' ++ s := by simp [List.replicate_succ]
    refine ⟨⟨?_, by rw [p1]; exact Or.inl rfl, fun _ => ?_⟩, ?_, ?_, ?_⟩
    · rw [p1, p2]
      intro c hc
      rw [hz] at hc
      rcases List.mem_append.1 hc with hc | hc
      · rw [List.eq_of_mem_replicate hc]; decide
      · exact hs.digits c hc
    · rw [p2]
      simp [hs.ne]
    · rw [decimals, p2, hdl]
    · rw [decVal, decimals, p1, p2, hz, natVal_zeros, ← zpow_natCast, hdl, zpow_neg, div_eq_mul_inv, inv_inv]
    · rw [sigDigits, p1, p2, hz, dropWhile_zeros]

/-! ## exponents and rounding -/

theorem ten_pos (k : ℤ) : (0 : ℝ) < 10 ^ k := by positivity

theorem ten_succ (k : ℤ) : (10 : ℝ) ^ (k + 1) = 10 * 10 ^ k := by rw [zpow_add_one₀ (by norm_num)]; ring

theorem ten_mono {a b : ℤ} (h : a ≤ b) : (10 : ℝ) ^ a ≤ 10 ^ b := zpow_le_zpow_right₀ (by norm_num) h

theorem exponent_eq {x : ℝ} (hx : x ≠ 0) : exponent x = some (leadPos |x|) := by
  rw [exponent, if_neg hx, leadPos]
  have := Real.floor_logb_natCast (b := 10) (abs_nonneg x)
  rw [← this]
  norm_num

theorem leadPos_spec {x : ℝ} (hx : 0 < x) : 10 ^ leadPos x ≤ x ∧ x < 10 ^ (leadPos x + 1) := by
  have h1 := Int.zpow_log_le_self (b := 10) (by norm_num) hx
  have h2 := Int.lt_zpow_succ_log_self (b := 10) (by norm_num) x
  exact ⟨by simpa [leadPos] using h1, by simpa [leadPos] using h2⟩

theorem leadPos_unique {x : ℝ} {k : ℤ} (h1 : 10 ^ k ≤ x) (h2 : x < 10 ^ (k + 1)) : leadPos x = k := by
  have hx : 0 < x := lt_of_lt_of_le (ten_pos k) h1
  obtain ⟨h3, h4⟩ := leadPos_spec hx
  have a : k < leadPos x + 1 := (zpow_lt_zpow_iff_right₀ (by norm_num : (1 : ℝ) < 10)).1 (lt_of_le_of_lt h1 h4)
  have b : leadPos x < k + 1 := (zpow_lt_zpow_iff_right₀ (by norm_num : (1 : ℝ) < 10)).1 (lt_of_le_of_lt h3 h2)
  omega

theorem leadDigits_range {x : ℝ} (hx : 0 < x) : 1 ≤ leadDigits x ∧ leadDigits x < 10 ∧ x = leadDigits x * 10 ^ leadPos x := by
  obtain ⟨h1, h2⟩ := leadPos_spec hx
  have hp := ten_pos (leadPos x)
  rw [ten_succ] at h2
  refine ⟨(one_le_div hp).2 h1, (div_lt_iff₀ hp).2 h2, ?_⟩
  rw [leadDigits]; field_simp

/-- the fractional part of the logarithm against a threshold -/
theorem frac_log_lt {x p : ℝ} (hx : 0 < x) : Real.logb 10 x - ⌊Real.logb 10 x⌋ < p ↔ leadDigits x < 10 ^ p := by
  have hf : ⌊Real.logb 10 x⌋ = leadPos x := by
    have := Real.floor_logb_natCast (b := 10) hx.le
    rw [leadPos, ← this]
    norm_num
  obtain ⟨h1, -, h3⟩ := leadDigits_range hx
  have hl : 0 < leadDigits x := by linarith
  have : Real.logb 10 x - ⌊Real.logb 10 x⌋ = Real.logb 10 (leadDigits x) := by
    rw [hf, leadDigits, Real.logb_div hx.ne' (ten_pos _).ne']
    congr 1
    rw [← Real.rpow_intCast, Real.logb_rpow (by norm_num) (by norm_num)]
  rw [this, Real.logb_lt_iff_lt_rpow (by norm_num) hl]

theorem cround_spec (x : ℝ) : ((cround x).natAbs : ℝ) - 1 / 2 ≤ |x| ∧ |x| < (cround x).natAbs + 1 / 2 := by
  have key : ∀ y : ℝ, 0 ≤ y → ((⌊y + 1 / 2⌋.natAbs : ℕ) : ℝ) - 1 / 2 ≤ y ∧ y < (⌊y + 1 / 2⌋.natAbs : ℕ) + 1 / 2 := by
    intro y hy
    have h0 : 0 ≤ ⌊y + 1 / 2⌋ := Int.floor_nonneg.2 (by linarith)
    have h1 : ((⌊y + 1 / 2⌋.natAbs : ℕ) : ℝ) = (⌊y + 1 / 2⌋ : ℝ) := by
      rw [← Int.cast_natCast, Int.natAbs_of_nonneg h0]
    rw [h1]
    have h2 := Int.floor_le (y + 1 / 2)
    have h3 := Int.lt_floor_add_one (y + 1 / 2)
    constructor <;> linarith
  unfold cround
  split_ifs with h
  · rw [abs_of_nonneg h]; exact key x h
  · rw [Int.natAbs_neg, abs_of_neg (by linarith)]; exact key (-x) (by linarith)

/-- the integer mantissa is the number of units of the place `e - n + 1` after rounding -/
theorem intMantissa_spec (x : ℝ) (n e : ℤ) : RoundsTo (e - n + 1) |x| ((intMantissa x n e).natAbs * 10 ^ (e - n + 1)) := by
  obtain ⟨h1, h2⟩ := cround_spec (x * (10 : ℝ) ^ (n - 1 - e))
  rw [abs_mul, abs_of_pos (ten_pos _)] at h1 h2
  have hk : |x| = |x| * (10 : ℝ) ^ (n - 1 - e) * 10 ^ (e - n + 1) := by
    rw [mul_assoc, ← zpow_add₀ (by norm_num), show n - 1 - e + (e - n + 1) = 0 by ring, zpow_zero, mul_one]
  have hp := ten_pos (e - n + 1)
  refine ⟨⟨_, rfl⟩, ?_, ?_⟩
  · rw [hk, intMantissa]; nlinarith
  · rw [hk, intMantissa]; nlinarith

theorem roundsTo_unique {k : ℤ} {x : ℝ} {a b : ℕ} (ha : RoundsTo k x (a * 10 ^ k)) (hb : RoundsTo k x (b * 10 ^ k)) : a = b := by
  obtain ⟨-, h1, h2⟩ := ha
  obtain ⟨-, h3, h4⟩ := hb
  have hp := ten_pos k
  have h5 : (a : ℝ) < b + 1 := by
    by_contra h
    push Not at h
    nlinarith
  have h6 : (b : ℝ) < a + 1 := by
    by_contra h
    push Not at h
    nlinarith
  have h5' : a < b + 1 := by exact_mod_cast h5
  have h6' : b < a + 1 := by exact_mod_cast h6
  omega

theorem carries_iff {x : ℝ} (hx : 0 < x) {k : ℤ} : Carries k x ↔ k < leadPos x + 1 ∧ 10 ^ (leadPos x + 1) - 10 ^ k / 2 ≤ x := by
  obtain ⟨h1, h2⟩ := leadPos_spec hx
  constructor
  · rintro ⟨j, hj, h3, h4⟩
    have a : leadPos x < j := (zpow_lt_zpow_iff_right₀ (by norm_num : (1 : ℝ) < 10)).1 (lt_of_le_of_lt h1 h4)
    have b : j - 1 < leadPos x + 1 := by
      refine (zpow_lt_zpow_iff_right₀ (by norm_num : (1 : ℝ) < 10)).1 (lt_of_le_of_lt ?_ h2)
      refine le_trans ?_ h3
      have : (10 : ℝ) ^ k ≤ 10 ^ (j - 1) := ten_mono (by omega)
      have e : (10 : ℝ) ^ j = 10 * 10 ^ (j - 1) := by rw [← ten_succ]; congr 1; ring
      have := ten_pos (j - 1)
      linarith
    obtain rfl : j = leadPos x + 1 := by omega
    exact ⟨hj, h3⟩
  · rintro ⟨h3, h4⟩
    exact ⟨_, h3, h4, h2⟩

theorem not_carries_zero {k : ℤ} : ¬ Carries k 0 := by
  rintro ⟨j, hj, h, -⟩
  have : (10 : ℝ) ^ k < 10 ^ j := zpow_lt_zpow_right₀ (by norm_num) hj
  have := ten_pos k
  linarith

theorem mantissa_bounds {x : ℝ} (hx : x ≠ 0) (N : ℕ) : 10 ^ N ≤ (intMantissa x (N + 1) (leadPos |x|)).natAbs ∧
    (intMantissa x (N + 1) (leadPos |x|)).natAbs ≤ 10 ^ (N + 1) ∧
    ((intMantissa x (N + 1) (leadPos |x|)).natAbs = 10 ^ (N + 1) ↔ Carries (leadPos |x| - (N + 1) + 1) |x|) := by
  have hx' : 0 < |x| := abs_pos.2 hx
  obtain ⟨h1, h2⟩ := leadPos_spec hx'
  obtain ⟨-, h3, h4⟩ := intMantissa_spec x (N + 1) (leadPos |x|)
  have hp := ten_pos (leadPos |x| - (N + 1) + 1)
  have e1 : (10 : ℝ) ^ leadPos |x| = 10 ^ N * 10 ^ (leadPos |x| - (N + 1) + 1) := by
    rw [← zpow_natCast, ← zpow_add₀ (by norm_num)]; congr 1; ring
  have e2 : (10 : ℝ) ^ (leadPos |x| + 1) = 10 ^ (N + 1) * 10 ^ (leadPos |x| - (N + 1) + 1) := by
    rw [ten_succ, e1]; ring
  rw [carries_iff hx']
  generalize (intMantissa x (N + 1) (leadPos |x|)).natAbs = m at *
  generalize hk : leadPos |x| - (N + 1) + 1 = k at *
  rw [e1] at h1
  rw [e2] at h2 ⊢
  have up : m ≤ 10 ^ (N + 1) := by
    have : (m : ℝ) - 1 / 2 < 10 ^ (N + 1) := by
      by_contra h
      push Not at h
      nlinarith
    by_contra h
    push Not at h
    have h' : ((10 ^ (N + 1) + 1 : ℕ) : ℝ) ≤ m := by exact_mod_cast h
    push_cast at h'
    linarith
  refine ⟨?_, up, ?_⟩
  · have : (10 : ℝ) ^ N < m + 1 / 2 := by
      by_contra h
      push Not at h
      nlinarith
    by_contra h
    push Not at h
    have h' : ((m + 1 : ℕ) : ℝ) ≤ 10 ^ N := by exact_mod_cast h
    push_cast at h'
    linarith
  · constructor
    · rintro rfl
      push_cast at h3
      exact ⟨by omega, by linarith⟩
    · rintro ⟨-, h⟩
      refine le_antisymm up ?_
      by_contra h'
      push Not at h'
      have h'' : ((m + 1 : ℕ) : ℝ) ≤ 10 ^ (N + 1) := by exact_mod_cast h'
      push_cast at h''
      nlinarith

theorem natVal_dropLast {s : List Char} (hs : Canon s) {n : ℕ} (hv : natVal s = 10 ^ (n + 1)) :
    Canon s.dropLast ∧ natVal s.dropLast = 10 ^ n ∧ s.dropLast.length = n + 1 := by
  have hl : s.length = n + 2 := hs.length_iff (n := n + 1) hv.ge (by rw [hv]; exact Nat.pow_lt_pow_right (by norm_num) (by omega))
  obtain ⟨c, hc⟩ : ∃ c, s = s.dropLast ++ [c] := ⟨s.getLast hs.ne, (List.dropLast_append_getLast hs.ne).symm⟩
  have hd : c.isDigit := hs.digits c (by rw [hc]; simp)
  have hv' := hv
  rw [hc, natVal_append] at hv'
  simp only [List.length_singleton, pow_one] at hv'
  have h1 := digitVal_lt hd
  have h2 : natVal [c] = digitVal c := by simp [natVal]
  refine ⟨⟨fun c hc => hs.digits c (List.mem_of_mem_dropLast hc), ?_⟩, by rw [pow_succ] at hv'; omega, by rw [List.length_dropLast]; omega⟩
  right
  rcases hs.head with h | ⟨c, t, h, h0⟩
  · rw [h] at hl
    simp at hl
  · rw [h] at hl ⊢
    cases t with
    | nil => simp at hl
    | cons d t => exact ⟨c, (d :: t).dropLast, by simp [List.dropLast], h0⟩

/-- What `mantissa` does when given the right exponent. -/
theorem mantissa_spec {x : ℝ} {n e : ℤ} (h : (x ≠ 0 ∧ e = leadPos |x|) ∨ (x = 0 ∧ n < 0)) :
    ∃ (str : List Char) (c : ℤ), mantissa x n e = some (str, e + c) ∧ Canon str ∧
      (natVal str : ℝ) * 10 ^ (e + c - n + 1) = (intMantissa x n e).natAbs * 10 ^ (e - n + 1) ∧
      (1 ≤ n → (str.length : ℤ) = n ∧ 1 ≤ natVal str) ∧ (n ≤ 0 → natVal str ≤ 1) ∧
      ((c = 0 ∧ ¬ Carries (e - n + 1) |x|) ∨ (c = 1 ∧ 1 ≤ n ∧ Carries (e - n + 1) |x|)) := by
  obtain ⟨hc, hv⟩ := intMantissaString_facts (intMantissa x n e)
  unfold mantissa
  simp only
  rcases h with ⟨hx, he⟩ | ⟨rfl, hn⟩
  · have hx' : 0 < |x| := abs_pos.2 hx
    by_cases hn : 1 ≤ n
    · obtain ⟨N, rfl⟩ : ∃ N : ℕ, n = N + 1 := ⟨(n - 1).toNat, by omega⟩
      obtain ⟨b1, b2, b3⟩ := mantissa_bounds hx N
      rw [← he] at b1 b2 b3
      rcases b2.lt_or_eq with hlt | heq
      · have hl : (intMantissaString (intMantissa x (N + 1) e)).length = N + 1 :=
          hc.length_iff (by rw [hv]; exact b1) (by rw [hv]; exact hlt)
        refine ⟨_, 0, ?_, hc, ?_, fun _ => ⟨by rw [hl]; push_cast; rfl, ?_⟩, fun h => absurd hn (by omega), Or.inl ⟨rfl, fun h => hlt.ne (b3.2 h)⟩⟩
        · rw [if_pos (Or.inl (by rw [hl]; push_cast; rfl)), if_neg (by rw [hl]; push_cast; omega), add_zero]
        · rw [hv, add_zero]
        · rw [hv]; exact le_trans (Nat.one_le_pow _ _ (by norm_num)) b1
      · rw [heq] at hv
        obtain ⟨d1, d2, d3⟩ := natVal_dropLast hc hv
        have hl : (intMantissaString (intMantissa x (N + 1) e)).length = N + 2 :=
          hc.length_iff (n := N + 1) hv.ge (by rw [hv]; exact Nat.pow_lt_pow_right (by norm_num) (by omega))
        refine ⟨_, 1, ?_, d1, ?_, fun _ => ⟨by rw [d3]; push_cast; rfl, ?_⟩, fun h => absurd hn (by omega), Or.inr ⟨rfl, hn, b3.1 heq⟩⟩
        · rw [if_pos (Or.inr (Or.inl (by rw [hl]; push_cast; ring))), if_pos ⟨hn, by rw [hl]; push_cast; ring⟩]
        · rw [d2, heq, show e + 1 - ((N : ℤ) + 1) + 1 = (e - ((N : ℤ) + 1) + 1) + 1 by ring, ten_succ]
          push_cast
          ring
        · rw [d2]; exact Nat.one_le_pow _ _ (by norm_num)
    · obtain ⟨-, h3, h4⟩ := intMantissa_spec x n e
      obtain ⟨h1, h2⟩ := leadPos_spec hx'
      rw [← he] at h1 h2
      have hncar : ¬ Carries (e - n + 1) |x| := by
        rw [carries_iff hx', ← he]
        omega
      have hp := ten_pos (e - n + 1)
      have hle : (10 : ℝ) ^ (e + 1) ≤ 10 ^ (e - n + 1) := ten_mono (by omega)
      have hm1 : (intMantissa x n e).natAbs ≤ 1 := by
        by_contra h
        push Not at h
        have : (2 : ℝ) ≤ (intMantissa x n e).natAbs := by exact_mod_cast h
        nlinarith
      have hlen : (intMantissaString (intMantissa x n e)).length = 1 := by
        interval_cases hmm : (intMantissa x n e).natAbs
        · rcases hc.head with h | ⟨c, t, h, h0⟩
          · rw [h]; rfl
          · exfalso
            have := le_natVal (c := c) (t := t) (by rw [← h]; exact hc.digits) h0
            rw [← h, hv] at this
            have := Nat.one_le_pow t.length 10 (by norm_num)
            omega
        · exact hc.length_iff (n := 0) (by rw [hv]; norm_num) (by rw [hv]; norm_num)
      have hm0 : n < 0 → intMantissa x n e = 0 := by
        intro hn0
        have hle : (10 : ℝ) ^ (e + 1 + 1) ≤ 10 ^ (e - n + 1) := ten_mono (by omega)
        rw [ten_succ] at hle
        by_contra h
        have h0 : 1 ≤ (intMantissa x n e).natAbs := by omega
        have : (1 : ℝ) ≤ (intMantissa x n e).natAbs := by exact_mod_cast h0
        nlinarith
      refine ⟨_, 0, ?_, hc, by rw [hv, add_zero], fun h => absurd h hn, fun _ => by rw [hv]; exact hm1, Or.inl ⟨rfl, hncar⟩⟩
      rw [hlen, if_pos, if_neg (by omega), add_zero]
      by_cases hn0 : n < 0
      · exact Or.inr (Or.inr ⟨hm0 hn0, hn0⟩)
      · right; left; push_cast; omega
  · have h0 : intMantissa 0 n e = 0 := by
      rw [intMantissa, zero_mul, cround, if_pos le_rfl, zero_add, Int.floor_eq_iff]
      norm_num
    refine ⟨_, 0, ?_, hc, by rw [hv, add_zero], fun h => by omega, fun _ => by rw [hv, h0]; simp, Or.inl ⟨rfl, by rw [abs_zero]; exact not_carries_zero⟩⟩
    rw [if_pos (Or.inr (Or.inr ⟨h0, hn⟩)), if_neg (by omega), add_zero]

/-! ## the whole function -/

theorem insertDot_high {s : List Char} {n e : ℤ} (h : 0 ≤ e - n + 1) : insertDot s n e = insertDot s n (n - 1) := by
  unfold insertDot
  simp only
  rw [if_pos (by omega), if_pos (by omega)]

theorem Canon.sig {s : List Char} (hs : Canon s) (h : 1 ≤ natVal s) : (s.dropWhile fun c => c == '0').length = s.length := by
  rcases hs.head with rfl | ⟨c, t, rfl, h0⟩
  · exact absurd h (by decide)
  · rw [List.dropWhile_cons, if_neg (by simpa using h0)]

theorem mul_ten_sub (v : ℝ) (k e : ℤ) : v * 10 ^ (k - e) * 10 ^ e = v * 10 ^ k := by
  rw [mul_assoc, ← zpow_add₀ (by norm_num)]; congr 2; ring

theorem natVal_mul_lt {s : List Char} (hs : Canon s) {n k : ℤ} (hl : (s.length : ℤ) = n) (hk : n + k ≤ 1) :
    (natVal s : ℝ) * 10 ^ k < 10 := by
  have h1 : (natVal s : ℝ) < 10 ^ n := by
    rw [← hl, zpow_natCast]
    exact_mod_cast natVal_lt hs.digits
  have h2 : (10 : ℝ) ^ n * 10 ^ k ≤ 10 := by
    rw [← zpow_add₀ (by norm_num)]
    calc (10 : ℝ) ^ (n + k) ≤ 10 ^ (1 : ℤ) := ten_mono hk
      _ = 10 := by norm_num
  have := ten_pos k
  nlinarith

theorem one_le_natVal_mul {s : List Char} (hs : Canon s) (hv : 1 ≤ natVal s) {n : ℤ} (hl : (s.length : ℤ) = n) :
    (1 : ℝ) ≤ natVal s * 10 ^ (1 - n) := by
  rcases hs.head with rfl | ⟨c, t, rfl, h0⟩
  · exact absurd hv (by decide)
  · have h1 : ((10 ^ t.length : ℕ) : ℝ) ≤ natVal (c :: t) := by exact_mod_cast le_natVal hs.digits h0
    rw [List.length_cons] at hl
    push_cast at hl h1
    rw [← zpow_natCast] at h1
    have h2 : (10 : ℝ) ^ (t.length : ℤ) * 10 ^ (1 - n) = 1 := by
      rw [← zpow_add₀ (by norm_num), ← hl]; simp
    have := ten_pos (1 - n)
    nlinarith

/-- the mean rounds up to a power of ten, with the last digit in the units and less digits than the uncertainty -/
def LostDigit (pl nd : ℤ) (mu : ℝ) : Prop := pl = 0 ∧ Carries 0 |mu| ∧ |mu| < 10 ^ (nd - 1)

/-- What `format` prints, in terms of what `ndigits` returned: `nd` digits for the value `s'`. -/
structure Shape (mu s' : ℝ) (nd : ℤ) (M S : List Char) (E : Option ℤ) (pl : ℤ) : Prop where
  numM : Numeral M
  numS : Numeral S
  valS : RoundsTo (leadPos |s'| - nd + 1) |s'| (decVal S * 10 ^ scale E)
  decS : scale E - decimals S = pl
  sigS : (sigDigits S : ℤ) = nd
  lost : LostDigit pl nd mu → E = none ∧ decimals M = 0 ∧ RoundsTo 0 |mu| (10 * decVal M)
  valM : ¬ LostDigit pl nd mu → RoundsTo pl |mu| (decVal M * 10 ^ scale E)
  decC : ¬ LostDigit pl nd mu → Carries pl |mu| → scale E - decimals M = pl + 1
  decM : ¬ LostDigit pl nd mu → ¬ Carries pl |mu| → scale E - decimals M = pl
  norm : ∀ e, E = some e → 1 ≤ max (decVal M) (decVal S) ∧ max (decVal M) (decVal S) < 10
  expE : ∀ e, E = some e → e = leadPos (max (decVal M * 10 ^ scale E) (decVal S * 10 ^ scale E))
  useE : E ≠ none ↔ leadPos (max (decVal M * 10 ^ scale E) (decVal S * 10 ^ scale E)) < -1 ∨ 1 ≤ pl ∨
    (pl = 0 ∧ Carries 0 |mu| ∧ 10 ^ (nd - 1) ≤ |mu|)

theorem shape_of {mu s' : ℝ} {nd pl sexp muexp mundig cm : ℤ} {mumant smant : List Char} (hnd : 1 ≤ nd)
    (cS : Canon smant) (lS : (smant.length : ℤ) = nd) (pS : 1 ≤ natVal smant)
    (rS : RoundsTo (leadPos |s'| - nd + 1) |s'| (natVal smant * 10 ^ pl))
    (hmx : (mu ≠ 0 ∧ muexp = leadPos |mu|) ∨ (mu = 0 ∧ mundig < 0))
    (cM : Canon mumant) (lM : 1 ≤ mundig → (mumant.length : ℤ) = mundig ∧ 1 ≤ natVal mumant) (zM : mundig ≤ 0 → natVal mumant ≤ 1)
    (hcm : (cm = 0 ∧ ¬ Carries pl |mu|) ∨ (cm = 1 ∧ 1 ≤ mundig ∧ Carries pl |mu|))
    (rM : RoundsTo pl |mu| (natVal mumant * 10 ^ (pl + cm)))
    (hpl : pl = sexp - nd + 1) (hmd : mundig = nd + muexp - sexp)
    (E : Option ℤ) (h1 : pl - scale E ≤ 0) (h2 : pl + cm - scale E ≤ 0 ∨ (pl = 0 ∧ cm = 1 ∧ E = none ∧ muexp < sexp))
    (h3 : LostDigit pl nd mu → E = none)
    (h4 : ∀ e, E = some e → (e = muexp + cm ∧ nd ≤ mundig) ∨ (e = sexp ∧ mundig < nd))
    (h5 : E ≠ none ↔ (nd ≤ mundig ∧ (mundig ≤ muexp + cm ∨ muexp + cm < -1)) ∨ (mundig < nd ∧ (nd ≤ sexp ∨ sexp < -1))) :
    Shape mu s' nd (insertDot mumant mundig (muexp + cm - scale E)) (insertDot smant nd (sexp - scale E)) E pl := by
  obtain ⟨nS, dS, valS, sigS⟩ := insertDot_spec cS (n := nd) (e := sexp - scale E) (by omega)
  rw [show sexp - scale E - nd + 1 = pl - scale E by omega] at dS valS
  have lost : (pl = 0 ∧ cm = 1 ∧ E = none ∧ muexp < sexp) → LostDigit pl nd mu := by
    rintro ⟨a, b, c, d⟩
    obtain ⟨-, hn, hc⟩ : cm = 1 ∧ 1 ≤ mundig ∧ Carries pl |mu| := by
      rcases hcm with ⟨h, -⟩ | h
      · omega
      · exact h
    obtain ⟨m0, m1⟩ : mu ≠ 0 ∧ muexp = leadPos |mu| := by
      rcases hmx with h | ⟨-, h⟩
      · exact h
      · omega
    refine ⟨a, a ▸ hc, lt_of_lt_of_le (leadPos_spec (abs_pos.2 m0)).2 (ten_mono ?_)⟩
    omega
  have dot : ¬ LostDigit pl nd mu → (decimals (insertDot mumant mundig (muexp + cm - scale E)) : ℤ) = -(pl + cm - scale E) ∧
      decVal (insertDot mumant mundig (muexp + cm - scale E)) = natVal mumant * (10 : ℝ) ^ (pl + cm - scale E) := by
    intro hl
    have h2 : pl + cm - scale E ≤ 0 := by
      rcases h2 with h2 | h2
      · exact h2
      · exact absurd (lost h2) hl
    obtain ⟨-, b2, b3, -⟩ := insertDot_spec cM (n := mundig) (e := muexp + cm - scale E) (by omega)
    rw [show muexp + cm - scale E - mundig + 1 = pl + cm - scale E by omega] at b2 b3
    exact ⟨b2, b3⟩
  -- the leading digit of the larger number
  have big : leadPos (max (decVal (insertDot mumant mundig (muexp + cm - scale E)) * 10 ^ scale E)
      (decVal (insertDot smant nd (sexp - scale E)) * 10 ^ scale E)) = if nd ≤ mundig then muexp + cm else sexp := by
    rw [valS, mul_ten_sub]
    have s1 := one_le_natVal_mul cS pS lS
    have s2 := natVal_mul_lt cS lS (k := 1 - nd) (by omega)
    have se : (natVal smant : ℝ) * 10 ^ pl = natVal smant * 10 ^ (1 - nd) * 10 ^ sexp := by
      rw [mul_assoc, ← zpow_add₀ (by norm_num)]; congr 2; omega
    rw [se]
    have tp := ten_pos sexp
    by_cases hA : nd ≤ mundig
    · rw [if_pos hA]
      have hl : ¬ LostDigit pl nd mu := by
        rintro ⟨a, b, c⟩
        have m0 : mu ≠ 0 := by
          rintro rfl
          rw [abs_zero] at b
          exact not_carries_zero b
        have m1 : muexp = leadPos |mu| := by
          rcases hmx with h | h
          · exact h.2
          · exact absurd h.1 m0
        have := (zpow_lt_zpow_iff_right₀ (by norm_num : (1 : ℝ) < 10)).1 (lt_of_le_of_lt (leadPos_spec (abs_pos.2 m0)).1 c)
        omega
      rw [(dot hl).2, mul_ten_sub]
      obtain ⟨lM, pM⟩ := lM (by omega)
      have m1 := one_le_natVal_mul cM pM lM
      have m2 := natVal_mul_lt cM lM (k := 1 - mundig) (by omega)
      have me : (natVal mumant : ℝ) * 10 ^ (pl + cm) = natVal mumant * 10 ^ (1 - mundig) * 10 ^ (muexp + cm) := by
        rw [mul_assoc, ← zpow_add₀ (by norm_num)]; congr 2; omega
      rw [me]
      have tm := ten_pos (muexp + cm)
      have hle : (10 : ℝ) ^ sexp ≤ 10 ^ (muexp + cm) := ten_mono (by omega)
      apply leadPos_unique
      · exact le_max_of_le_left (by nlinarith)
      · rw [ten_succ]
        exact max_lt (by nlinarith) (by nlinarith)
    · rw [if_neg hA]
      apply leadPos_unique
      · exact le_max_of_le_right (by nlinarith)
      · rw [ten_succ]
        refine max_lt ?_ (by nlinarith)
        by_cases hl : LostDigit pl nd mu
        · have hE := h3 hl
          subst hE
          have hc1 : cm = 1 := by
            rcases hcm with ⟨-, h⟩ | ⟨h, -⟩
            · exact absurd (hl.1 ▸ hl.2.1) h
            · exact h
          have hpl0 := hl.1
          simp only [scale, zpow_zero, mul_one]
          rw [insertDot_high (by omega)]
          obtain ⟨-, -, b3, -⟩ := insertDot_spec cM (n := mundig) (e := mundig - 1) (by omega)
          obtain ⟨lM, pM⟩ := lM (by omega)
          rw [b3, show mundig - 1 - mundig + 1 = 0 by ring, ← ten_succ]
          have : (natVal mumant : ℝ) < 10 ^ mundig := by
            rw [← lM, zpow_natCast]
            exact_mod_cast natVal_lt cM.digits
          rw [zpow_zero, mul_one]
          exact lt_of_lt_of_le this (ten_mono (by omega))
        · rw [(dot hl).2, mul_ten_sub]
          by_cases hn1 : 1 ≤ mundig
          · obtain ⟨lM, pM⟩ := lM hn1
            have : (natVal mumant : ℝ) < 10 ^ mundig := by
              rw [← lM, zpow_natCast]
              exact_mod_cast natVal_lt cM.digits
            have h6 : (10 : ℝ) ^ mundig * 10 ^ (pl + cm) ≤ 10 ^ (sexp + 1) := by
              rw [← zpow_add₀ (by norm_num)]
              exact ten_mono (by omega)
            rw [ten_succ] at h6
            have := ten_pos (pl + cm)
            nlinarith
          · have h7 : (natVal mumant : ℝ) ≤ 1 := by exact_mod_cast zM (by omega)
            have h6 : (10 : ℝ) ^ (pl + cm) ≤ 10 ^ sexp := ten_mono (by omega)
            have := ten_pos (pl + cm)
            nlinarith
  refine ⟨?_, nS, ?_, by omega, ?_, ?_, ?_, ?_, ?_, ?_, ?_, ?_⟩
  · rcases h2 with h2 | h2
    · exact (insertDot_spec cM (n := mundig) (e := muexp + cm - scale E) (by omega)).1
    · obtain ⟨a, b, rfl, d⟩ := h2
      rw [insertDot_high (by simp only [scale]; omega)]
      exact (insertDot_spec cM (n := mundig) (e := mundig - 1) (by omega)).1
  · rw [valS, mul_ten_sub]; exact rS
  · rw [sigS, cS.sig pS]; exact lS
  · intro hl
    have hE := h3 hl
    subst hE
    obtain ⟨l1, l2, l3⟩ := hl
    obtain ⟨hc1, -⟩ : cm = 1 ∧ 1 ≤ mundig := by
      rcases hcm with ⟨-, h⟩ | ⟨h, h', -⟩
      · exact absurd (l1 ▸ l2) h
      · exact ⟨h, h'⟩
    rw [insertDot_high (by simp only [scale]; omega)]
    obtain ⟨-, b2, b3, -⟩ := insertDot_spec cM (n := mundig) (e := mundig - 1) (by omega)
    refine ⟨rfl, by omega, ?_⟩
    rw [b3, show mundig - 1 - mundig + 1 = 0 by ring, zpow_zero, mul_one]
    rw [l1, hc1] at rM
    norm_num at rM
    rwa [mul_comm]
  · intro hl
    rw [(dot hl).2, mul_ten_sub]; exact rM
  · intro hl hc
    have := (dot hl).1
    rcases hcm with ⟨-, h⟩ | ⟨h, -, -⟩
    · exact absurd hc h
    · omega
  · intro hl hc
    have := (dot hl).1
    rcases hcm with ⟨h, -⟩ | ⟨-, -, h⟩
    · omega
    · exact absurd h hc
  · rintro e rfl
    have hl : ¬ LostDigit pl nd mu := fun h => by simpa using h3 h
    have b3 := (dot hl).2
    rw [b3, valS]
    simp only [scale] at *
    rcases h4 e rfl with ⟨he, hn⟩ | ⟨he, hn⟩
    · obtain ⟨lM, pM⟩ := lM (by omega)
      refine ⟨le_max_of_le_left ?_, max_lt ?_ ?_⟩
      · have := one_le_natVal_mul cM pM lM
        rwa [show pl + cm - e = 1 - mundig by omega]
      · exact natVal_mul_lt cM lM (by omega)
      · exact natVal_mul_lt cS lS (by omega)
    · refine ⟨le_max_of_le_right ?_, max_lt ?_ ?_⟩
      · have := one_le_natVal_mul cS pS lS
        rwa [show pl - e = 1 - nd by omega]
      · by_cases hn1 : 1 ≤ mundig
        · exact natVal_mul_lt cM (lM hn1).1 (by omega)
        · have h1 : (natVal mumant : ℝ) ≤ 1 := by exact_mod_cast zM (by omega)
          have h0 : cm = 0 := by omega
          have h2 : (10 : ℝ) ^ (pl + cm - e) ≤ 10 ^ (0 : ℤ) := ten_mono (by omega)
          rw [zpow_zero] at h2
          have := ten_pos (pl + cm - e)
          nlinarith
      · exact natVal_mul_lt cS lS (by omega)
  · intro e he
    rw [big]
    rcases h4 e he with ⟨a, b⟩ | ⟨a, b⟩
    · rw [if_pos b]; exact a
    · rw [if_neg (by omega)]; exact a
  · rw [big, h5]
    have h0 : Carries 0 |mu| → mu ≠ 0 ∧ muexp = leadPos |mu| := by
      intro hc
      rcases hmx with h | h
      · exact h
      · rw [h.1, abs_zero] at hc; exact absurd hc not_carries_zero
    by_cases hA : nd ≤ mundig
    · rw [if_pos hA]
      have hB : ¬ mundig < nd := by omega
      simp only [hA, hB, true_and, false_and, or_false]
      rcases hcm with ⟨c0, hc⟩ | ⟨c1, -, hc⟩
      · constructor
        · rintro (h | h)
          · right; left; omega
          · exact Or.inl h
        · rintro (h | h | ⟨h, h', -⟩)
          · exact Or.inr h
          · left; omega
          · rw [h] at hc; exact absurd h' hc
      · constructor
        · rintro (h | h)
          · by_cases hp : pl = 0
            · refine Or.inr (Or.inr ⟨hp, hp ▸ hc, ?_⟩)
              obtain ⟨m0, m1⟩ := h0 (hp ▸ hc)
              exact le_trans (ten_mono (by omega)) (leadPos_spec (abs_pos.2 m0)).1
            · right; left; omega
          · exact Or.inl h
        · rintro (h | h | ⟨h, h', -⟩)
          · exact Or.inr h
          · left; omega
          · left; omega
    · rw [if_neg hA]
      have hB : mundig < nd := by omega
      simp only [hA, hB, true_and, false_and, false_or]
      constructor
      · rintro (h | h)
        · right; left; omega
        · exact Or.inl h
      · rintro (h | h | ⟨h, h', h''⟩)
        · exact Or.inr h
        · left; omega
        · obtain ⟨m0, m1⟩ := h0 h'
          have := (zpow_lt_zpow_iff_right₀ (by norm_num : (1 : ℝ) < 10)).1 (lt_of_le_of_lt h'' (leadPos_spec (abs_pos.2 m0)).2)
          omega

theorem formatFin_shape {mu s n : ℝ} {nd : ℤ} {s' : ℝ} (h : ndigits s n = some (nd, s')) (hs : s' ≠ 0) (hnd : 1 ≤ nd) (sep : List Char) :
    ∃ (out M S : List Char) (E : Option ℤ) (cs pl : ℤ),
      formatFin mu s n sep = some out ∧ Layout out (decide (mu < 0)) M S sep E ∧
      ((cs = 0 ∧ ¬ Carries (leadPos |s'| - nd + 1) |s'|) ∨ (cs = 1 ∧ Carries (leadPos |s'| - nd + 1) |s'|)) ∧
      pl = leadPos |s'| + cs - nd + 1 ∧ Shape mu s' nd M S E pl := by
  obtain ⟨smant, cs, hsm, cS, vS, lS, -, hcs⟩ := mantissa_spec (x := s') (n := nd) (e := leadPos |s'|) (Or.inl ⟨hs, rfl⟩)
  obtain ⟨lS, pS⟩ := lS hnd
  have hcs' : (cs = 0 ∧ ¬ Carries (leadPos |s'| - nd + 1) |s'|) ∨ (cs = 1 ∧ Carries (leadPos |s'| - nd + 1) |s'|) :=
    hcs.imp_right fun h => ⟨h.1, h.2.2⟩
  have rS := intMantissa_spec s' nd (leadPos |s'|)
  rw [← vS] at rS
  clear vS
  -- the exponent of the mean
  obtain ⟨muexp, hmu, hmx⟩ : ∃ muexp, (if mu ≠ 0 then exponent mu else some (leadPos |s'| - nd - 1)) = some muexp ∧
      ((mu ≠ 0 ∧ muexp = leadPos |mu|) ∨ (mu = 0 ∧ nd + muexp - (leadPos |s'| + cs) < 0)) := by
    by_cases h0 : mu = 0
    · exact ⟨_, by rw [if_neg (not_not.2 h0)], Or.inr ⟨h0, by omega⟩⟩
    · exact ⟨leadPos |mu|, by rw [if_pos h0, exponent_eq h0], Or.inl ⟨h0, rfl⟩⟩
  obtain ⟨mumant, cm, hmm, cM, vM, lM, zM, hcm⟩ := mantissa_spec (x := mu) (n := nd + muexp - (leadPos |s'| + cs)) (e := muexp) hmx
  have rM := intMantissa_spec mu (nd + muexp - (leadPos |s'| + cs)) muexp
  rw [← vM] at rM
  clear vM
  obtain ⟨sexp, hse⟩ : ∃ sexp, sexp = leadPos |s'| + cs := ⟨_, rfl⟩
  obtain ⟨pl, hpl⟩ : ∃ pl, pl = sexp - nd + 1 := ⟨_, rfl⟩
  obtain ⟨mundig, hmd⟩ : ∃ mundig, mundig = nd + muexp - (leadPos |s'| + cs) := ⟨_, rfl⟩
  have e1 : muexp - (nd + muexp - (leadPos |s'| + cs)) + 1 = pl := by omega
  have e2 : muexp + cm - (nd + muexp - (leadPos |s'| + cs)) + 1 = pl + cm := by omega
  rw [e1, e2] at rM
  rw [e1] at hcm
  rw [← hmd] at hmm lM zM hcm hmx
  rw [← hse, ← hpl] at rS
  have key := shape_of hnd cS lS pS rS hmx cM lM zM hcm rM hpl (by omega)
  have lostB : LostDigit pl nd mu → cm = 1 ∧ mundig < nd ∧ pl = 0 := by
    rintro ⟨l1, l2, l3⟩
    have hc1 : cm = 1 := by
      rcases hcm with ⟨-, h⟩ | ⟨h, -, -⟩
      · exact absurd (l1 ▸ l2) h
      · exact h
    have m0 : mu ≠ 0 := by
      rintro rfl
      rw [abs_zero] at l2
      exact not_carries_zero l2
    have m1 : muexp = leadPos |mu| := by
      rcases hmx with h | h
      · exact h.2
      · exact absurd h.1 m0
    have m2 : leadPos |mu| < nd - 1 :=
      (zpow_lt_zpow_iff_right₀ (by norm_num : (1 : ℝ) < 10)).1 (lt_of_le_of_lt (leadPos_spec (abs_pos.2 m0)).1 l3)
    exact ⟨hc1, by omega, l1⟩
  have cm01 : cm = 0 ∨ (cm = 1 ∧ 1 ≤ mundig) := hcm.imp (fun h => h.1) fun h => ⟨h.1, h.2.1⟩
  have neg : (if mu < 0 then ['-'] else ([] : List Char)) = if decide (mu < 0) = true then ['-'] else [] := by simp
  have run : formatFin mu s n sep = some
      (open Classical in
      if (if mundig ≥ nd then muexp + cm ≥ mundig ∨ muexp + cm < -1 else sexp ≥ nd ∨ sexp < -1) then
        ['('] ++ (if mu < 0 then ['-'] else []) ++ insertDot mumant mundig (muexp + cm - if mundig ≥ nd then muexp + cm else sexp) ++ sep ++
          insertDot smant nd (sexp - if mundig ≥ nd then muexp + cm else sexp) ++ [')', 'e'] ++
          formatExp (if mundig ≥ nd then muexp + cm else sexp)
      else (if mu < 0 then ['-'] else []) ++ insertDot mumant mundig (muexp + cm) ++ sep ++ insertDot smant nd sexp) := by
    unfold formatFin
    rw [h, Option.bind_some]
    simp only
    rw [exponent_eq hs, Option.bind_some, hmu, Option.bind_some, hsm, Option.bind_some]
    simp only
    rw [← hmd, hmm, Option.map_some, hse]
  rw [neg] at run
  obtain ⟨sg, hsg⟩ : ∃ sg : List Char, sg = if decide (mu < 0) = true then ['-'] else [] := ⟨_, rfl⟩
  rw [← hsg] at run
  clear hmm hsm hmu rS rM cS cM
  by_cases hA : mundig ≥ nd
  · simp only [if_pos hA] at run
    split_ifs at run with hu
    · refine ⟨_, _, _, some (muexp + cm), cs, pl, run, ⟨by omega, _, formatExp_facts (by omega), by rw [← hsg]; rfl⟩, hcs', by omega, key _ ?_ ?_ ?_ ?_ ?_⟩
      · simp only [scale]; omega
      · simp only [scale]; omega
      · intro hl; have := lostB hl; omega
      · rintro e ⟨⟩; exact Or.inl ⟨rfl, hA⟩
      · simp only [ne_eq, reduceCtorEq, not_false_eq_true, true_iff]; omega
    · refine ⟨_, insertDot mumant mundig (muexp + cm - scale none), insertDot smant nd (sexp - scale none), none, cs, pl, run, ?_, hcs', by omega,
        key _ ?_ ?_ (fun _ => rfl) (by rintro e ⟨⟩) (by simp only [ne_eq, not_true_eq_false, false_iff]; omega)⟩
      · simp only [scale, sub_zero, Layout, ← hsg]
      · simp only [scale]; omega
      · simp only [scale]; omega
  · simp only [if_neg hA] at run
    split_ifs at run with hu
    · refine ⟨_, _, _, some sexp, cs, pl, run, ⟨by omega, _, formatExp_facts (by omega), by rw [← hsg]; rfl⟩, hcs', by omega, key _ ?_ ?_ ?_ ?_ ?_⟩
      · simp only [scale]; omega
      · simp only [scale]; omega
      · intro hl; have := lostB hl; omega
      · rintro e ⟨⟩; exact Or.inr ⟨rfl, by omega⟩
      · simp only [ne_eq, reduceCtorEq, not_false_eq_true, true_iff]; omega
    · refine ⟨_, insertDot mumant mundig (muexp + cm - scale none), insertDot smant nd (sexp - scale none), none, cs, pl, run, ?_, hcs', by omega,
        key _ ?_ ?_ (fun _ => rfl) (by rintro e ⟨⟩) (by simp only [ne_eq, not_true_eq_false, false_iff]; omega)⟩
      · simp only [scale, sub_zero, Layout, ← hsg]
      · simp only [scale]; omega
      · simp only [scale]
        by_cases h : pl + cm ≤ 0
        · left; omega
        · right; exact ⟨by omega, by omega, trivial, by omega⟩

/-! ## the number of digits -/

theorem leadPos_mul {x : ℝ} (hx : 0 < x) (k : ℤ) : leadPos (x * 10 ^ k) = leadPos x + k := by
  obtain ⟨h1, h2⟩ := leadPos_spec hx
  have hp := ten_pos k
  apply leadPos_unique
  · rw [zpow_add₀ (by norm_num)]; nlinarith
  · rw [show leadPos x + k + 1 = (leadPos x + 1) + k by ring, zpow_add₀ (by norm_num)]; nlinarith

theorem leadDigits_mul {x : ℝ} (hx : 0 < x) (k : ℤ) : leadDigits (x * 10 ^ k) = leadDigits x := by
  have hp := ten_pos k
  rw [leadDigits, leadPos_mul hx, zpow_add₀ (by norm_num), leadDigits]
  field_simp

theorem leadPos_pow (j : ℤ) : leadPos (10 ^ j) = j :=
  leadPos_unique le_rfl (zpow_lt_zpow_right₀ (by norm_num) (by omega))

theorem leadDigits_pow (j : ℤ) : leadDigits (10 ^ j) = 1 := by
  rw [leadDigits, leadPos_pow, div_self (ten_pos j).ne']

theorem naive_eq {x : ℝ} (hx : 0 < x) {n : ℕ} {p : ℝ} (hp : 0 ≤ p) (hp1 : p < 1) : naiveNdigits x (n + p) = askedDigits n p x := by
  have hf : ⌊(n : ℝ) + p⌋ = n := by
    rw [Int.floor_eq_iff]
    constructor <;> push_cast <;> linarith
  unfold naiveNdigits askedDigits
  simp only
  rw [hf, abs_of_pos hx]
  have : (n : ℝ) + p - ((n : ℤ) : ℝ) = p := by push_cast; ring
  rw [this]
  by_cases h : leadDigits x < 10 ^ p
  · rw [if_pos ⟨hx.ne', (frac_log_lt hx).2 h⟩, if_pos h]; push_cast; ring
  · rw [if_neg (fun h' => h ((frac_log_lt hx).1 h'.2)), if_neg h]; simp

theorem naive_pos (x : ℝ) {n : ℝ} (hn : 1 < n) : 1 ≤ naiveNdigits x n := by
  have : 1 ≤ ⌊n⌋ := Int.le_floor.2 (by exact_mod_cast hn.le)
  unfold naiveNdigits
  simp only
  split_ifs <;> omega

theorem ndigits_some (s : ℝ) (hs : s ≠ 0) {n : ℝ} (hn : 1 < n) : ∃ nd s', ndigits s n = some (nd, s') ∧ s' ≠ 0 ∧ 1 ≤ nd := by
  unfold ndigits
  simp only
  rw [exponent_eq hs, Option.map_some]
  split_ifs with h1 h2
  · refine ⟨_, _, rfl, fun h0 => ?_, naive_pos _ hn⟩
    rw [h0] at h2
    unfold naiveNdigits at h2
    simp only [ne_eq, not_true_eq_false, false_and, if_false] at h2
    split_ifs at h2 <;> omega
  · exact ⟨_, _, rfl, hs, naive_pos _ hn⟩
  · exact ⟨_, _, rfl, hs, naive_pos _ hn⟩

theorem roundsUp_iff {s : ℝ} (hs : 0 < s) {d : ℕ} (hd : 1 ≤ d) : RoundsUp d s ↔ Carries (leadPos s - d + 1) s := by
  rw [carries_iff hs, RoundsUp, leadDigits]
  have hp := ten_pos (leadPos s)
  rw [le_div_iff₀ hp, ten_succ]
  have : (10 : ℝ) ^ (leadPos s - d + 1) = 10 ^ (1 - d : ℤ) * 10 ^ leadPos s := by
    rw [← zpow_add₀ (by norm_num)]; congr 1; ring
  rw [this]
  constructor
  · intro h; exact ⟨by omega, by linarith⟩
  · rintro ⟨-, h⟩; linarith

theorem askedDigits_pos {n : ℕ} (hn : 1 ≤ n) (p s : ℝ) : 1 ≤ askedDigits n p s := by
  unfold askedDigits
  split_ifs <;> omega

theorem askedDigits_le (n : ℕ) (p s : ℝ) : askedDigits n p s ≤ n + 1 := by
  unfold askedDigits
  split_ifs <;> omega

theorem roundsTo_eq {k : ℤ} {x y z : ℝ} (hy : RoundsTo k x y) (hz : RoundsTo k x z) : y = z := by
  obtain ⟨a, ha⟩ := hy.1
  obtain ⟨b, hb⟩ := hz.1
  rw [ha] at hy ⊢
  rw [hb] at hz ⊢
  rw [roundsTo_unique hy hz]

/-- a carry rounds to the power of ten -/
theorem carries_rounds {k : ℤ} {x : ℝ} (hx : 0 < x) (hc : Carries k x) : RoundsTo k x (10 ^ (leadPos x + 1)) := by
  obtain ⟨h1, h2⟩ := (carries_iff hx).1 hc
  have h3 := (leadPos_spec hx).2
  have := ten_pos k
  refine ⟨⟨10 ^ (leadPos x + 1 - k).toNat, ?_⟩, h2, by linarith⟩
  push_cast
  rw [← zpow_natCast, ← zpow_add₀ (by norm_num)]
  congr 1
  omega

/-- the digits and the value that reach the printing, in the good case -/
theorem ndigits_good {s p : ℝ} {n : ℕ} (hs : 0 < s) (hn : 1 ≤ n) (hp : 0 ≤ p) (hp1 : p < 1) (h : n = 1 ∨ ¬ Crosses n p s) :
    ∃ s', ndigits s (n + p) = some ((sdevDigits n p s : ℤ), s') ∧ 0 < s' ∧ 1 ≤ sdevDigits n p s ∧
      ∀ cs : ℤ, ((cs = 0 ∧ ¬ Carries (leadPos s' - sdevDigits n p s + 1) s') ∨ (cs = 1 ∧ Carries (leadPos s' - sdevDigits n p s + 1) s')) →
        leadPos s' + cs - sdevDigits n p s + 1 = place n p s ∧
        ∀ y, RoundsTo (leadPos s' - sdevDigits n p s + 1) s' y → RoundsTo (place n p s) s y := by
  -- nothing changes
  have same : (RoundsUp (askedDigits n p s) s → (if 0 < p then n + 1 else n) = askedDigits n p s) →
      sdevDigits n p s = askedDigits n p s ∧
      ∀ cs : ℤ, ((cs = 0 ∧ ¬ Carries (leadPos s - sdevDigits n p s + 1) s) ∨ (cs = 1 ∧ Carries (leadPos s - sdevDigits n p s + 1) s)) →
        leadPos s + cs - sdevDigits n p s + 1 = place n p s ∧
        ∀ y, RoundsTo (leadPos s - sdevDigits n p s + 1) s y → RoundsTo (place n p s) s y := by
    intro hu
    have e : sdevDigits n p s = askedDigits n p s := by
      unfold sdevDigits
      split_ifs with h1 h2
      · rw [← hu h1, if_pos h2]
      · rw [← hu h1, if_neg h2]
      · rfl
    refine ⟨e, fun cs hcs => ?_⟩
    rw [e, ← roundsUp_iff hs (askedDigits_pos hn p s)] at hcs
    unfold place
    rw [e]
    rcases hcs with ⟨h0, hc⟩ | ⟨h1, hc⟩
    · rw [if_neg hc, h0]
      exact ⟨by ring, fun y hy => hy⟩
    · rw [if_pos hc, h1]
      refine ⟨rfl, fun y hy => ?_⟩
      rw [roundsUp_iff hs (askedDigits_pos hn p s)] at hc
      have ey := roundsTo_eq hy (carries_rounds hs hc)
      have := askedDigits_pos hn p s
      have h3 := (leadPos_spec hs).2
      obtain ⟨-, h4⟩ := (carries_iff hs).1 hc
      have h5 : (10 : ℝ) ^ (leadPos s + 1 - askedDigits n p s + 1) = 10 * 10 ^ (leadPos s - askedDigits n p s + 1) := by
        rw [← ten_succ]; congr 1; ring
      have h6 := ten_pos (leadPos s - askedDigits n p s + 1)
      rw [ey]
      refine ⟨⟨10 ^ (askedDigits n p s - 1), ?_⟩, by linarith, by linarith⟩
      push_cast
      rw [← zpow_natCast, ← zpow_add₀ (by norm_num)]
      congr 1
      omega
  have r := intMantissa_spec s (askedDigits n p s) (leadPos s)
  have hm0 : 0 ≤ intMantissa s (askedDigits n p s) (leadPos s) := by
    unfold intMantissa cround
    have : 0 ≤ s * (10 : ℝ) ^ ((askedDigits n p s : ℤ) - 1 - leadPos s) := mul_nonneg hs.le (ten_pos _).le
    rw [if_pos this]
    exact Int.floor_nonneg.2 (by linarith)
  have hm1 : 1 ≤ intMantissa s (askedDigits n p s) (leadPos s) := by
    obtain ⟨N, hN⟩ : ∃ N, askedDigits n p s = N + 1 := ⟨askedDigits n p s - 1, by have := askedDigits_pos hn p s; omega⟩
    have := (mantissa_bounds hs.ne' N).1
    rw [abs_of_pos hs] at this
    rw [hN] at hm0 ⊢
    push_cast at hm0 ⊢
    have := Nat.one_le_pow N 10 (by norm_num)
    omega
  have hcast : ((intMantissa s (askedDigits n p s) (leadPos s)).natAbs : ℝ) = (intMantissa s (askedDigits n p s) (leadPos s) : ℝ) := by
    rw [← Int.cast_natCast, Int.natAbs_of_nonneg hm0]
  rw [hcast, abs_of_pos hs] at r
  have hmpos : (0 : ℝ) < intMantissa s (askedDigits n p s) (leadPos s) := by exact_mod_cast hm1
  unfold ndigits
  simp only
  rw [exponent_eq hs.ne', abs_of_pos hs, Option.map_some, naive_eq hs hp hp1, naive_eq (mul_pos hmpos (ten_pos _)) hp hp1]
  rw [askedDigits.eq_def n p (_ * _), leadDigits_mul hmpos]
  have cross : leadDigits (intMantissa s (askedDigits n p s) (leadPos s) : ℝ) < 10 ^ p → askedDigits n p s = n → Crosses n p s := by
    intro hl ha
    have h1 : ¬ leadDigits s < 10 ^ p := by
      intro h
      rw [askedDigits, if_pos h] at ha
      omega
    rw [← ha]
    refine ⟨not_lt.1 h1, _, r, ?_⟩
    rwa [leadDigits_mul hmpos]
  have up : RoundsUp (askedDigits n p s) s →
      (intMantissa s (askedDigits n p s) (leadPos s) : ℝ) * 10 ^ (leadPos s - askedDigits n p s + 1) = 10 ^ (leadPos s + 1) := by
    intro h
    rw [roundsUp_iff hs (askedDigits_pos hn p s)] at h
    exact roundsTo_eq r (carries_rounds hs h)
  have up1 : RoundsUp (askedDigits n p s) s → leadDigits (intMantissa s (askedDigits n p s) (leadPos s) : ℝ) = 1 := by
    intro h
    rw [← leadDigits_mul hmpos, up h, leadDigits_pow]
  have ld1 := (leadDigits_range hs).1
  have an : askedDigits n p s = n + 1 ∧ leadDigits s < 10 ^ p ∨ askedDigits n p s = n ∧ 10 ^ p ≤ leadDigits s := by
    unfold askedDigits
    split_ifs with h
    · exact Or.inl ⟨rfl, h⟩
    · exact Or.inr ⟨rfl, not_lt.1 h⟩
  have ppos : (1 : ℝ) < 10 ^ p → 0 < p := by
    intro h
    by_contra h'
    have : p = 0 := by linarith
    rw [this, Real.rpow_zero] at h
    exact lt_irrefl _ h
  have fin : ((RoundsUp (askedDigits n p s) s → (if 0 < p then n + 1 else n) = askedDigits n p s)) →
      ∃ s', (some ((askedDigits n p s : ℤ), s) : Option (ℤ × ℝ)) = some ((sdevDigits n p s : ℤ), s') ∧ 0 < s' ∧ 1 ≤ sdevDigits n p s ∧
      ∀ cs : ℤ, ((cs = 0 ∧ ¬ Carries (leadPos s' - sdevDigits n p s + 1) s') ∨ (cs = 1 ∧ Carries (leadPos s' - sdevDigits n p s + 1) s')) →
        leadPos s' + cs - sdevDigits n p s + 1 = place n p s ∧
        ∀ y, RoundsTo (leadPos s' - sdevDigits n p s + 1) s' y → RoundsTo (place n p s) s y := by
    intro hu
    obtain ⟨e, hh⟩ := same hu
    exact ⟨s, by rw [e], hs, by rw [e]; exact askedDigits_pos hn p s, hh⟩
  by_cases hl : leadDigits (intMantissa s (askedDigits n p s) (leadPos s) : ℝ) < 10 ^ p
  · rw [if_pos hl]
    rcases an with ⟨ha, hd⟩ | ⟨ha, hd⟩
    · have : ¬ (((n + 1 : ℕ) : ℤ) > askedDigits n p s) := by rw [ha]; omega
      rw [if_neg this, ite_self]
      exact fin fun _ => by rw [if_pos (ppos (by linarith)), ha]
    · have hn1 : n = 1 := by
        rcases h with h | h
        · exact h
        · exact absurd (cross hl ha) h
      have hgt : ((n + 1 : ℕ) : ℤ) > askedDigits n p s := by rw [ha]; omega
      rw [if_pos hgt]
      subst hn1
      by_cases hgs : (intMantissa s (askedDigits 1 p s) (leadPos s) : ℝ) * 10 ^ leadPos s > s
      · rw [if_pos hgs]
        obtain ⟨-, b2, b3⟩ := mantissa_bounds hs.ne' 0
        rw [abs_of_pos hs] at b2 b3
        norm_num at b2 b3
        rw [ha] at up r hl hgs hm1 hm0 hmpos ⊢
        norm_num at r hgs hm1 hm0 hl hmpos ⊢
        have hp := ten_pos (leadPos s)
        have hm10 : intMantissa s 1 (leadPos s) = 10 := by
          by_contra hne
          have h9 : intMantissa s 1 (leadPos s) < 10 := by omega
          have h9' : (intMantissa s 1 (leadPos s) : ℝ) < 10 := by exact_mod_cast h9
          have h1' : (1 : ℝ) ≤ intMantissa s 1 (leadPos s) := by exact_mod_cast hm1
          have e0 : leadPos (intMantissa s 1 (leadPos s) : ℝ) = 0 := leadPos_unique (by norm_num; exact h1') (by norm_num; exact h9')
          rw [leadDigits, e0, zpow_zero, div_one] at hl
          obtain ⟨-, -, es⟩ := leadDigits_range hs
          have : (intMantissa s 1 (leadPos s) : ℝ) * 10 ^ leadPos s < leadDigits s * 10 ^ leadPos s := by nlinarith
          linarith
        rw [hm10] at r hl b3 ⊢
        have h10 : ((10 : ℤ) : ℝ) * 10 ^ leadPos s = 10 ^ (leadPos s + 1) := by rw [ten_succ]; norm_num
        have e10 : ((10 : ℤ) : ℝ) = 10 ^ (1 : ℤ) := by norm_num
        rw [e10, leadDigits_pow] at hl
        have hpp := ppos hl
        have hup : RoundsUp 1 s := by
          rw [roundsUp_iff hs le_rfl]
          norm_num
          exact b3.1 (by norm_num)
        have hd2 : sdevDigits 1 p s = 2 := by
          unfold sdevDigits
          rw [ha, if_pos hup, if_pos hpp]
        have hpl : place 1 p s = leadPos s := by
          unfold place
          rw [ha, if_pos hup, hd2]
          push_cast; ring
        rw [hd2, hpl]
        refine ⟨10 ^ (leadPos s + 1), ⟨rfl, by exact_mod_cast h10⟩, ten_pos _, by norm_num, ?_⟩
        rw [leadPos_pow]
        push_cast
        rw [show leadPos s + 1 - 2 + 1 = leadPos s by ring]
        have hnc : ¬ Carries (leadPos s) ((10 : ℝ) ^ (leadPos s + 1)) := by
          rw [carries_iff (ten_pos _), leadPos_pow, ten_succ (leadPos s + 1), ten_succ (leadPos s)]
          rintro ⟨-, h⟩
          linarith
        rintro cs (⟨rfl, -⟩ | ⟨-, hc⟩)
        · refine ⟨by ring, fun y hy => ?_⟩
          have : RoundsTo (leadPos s) ((10 : ℝ) ^ (leadPos s + 1)) (10 ^ (leadPos s + 1)) :=
            ⟨⟨10, by rw [ten_succ]; norm_num⟩, by linarith, by linarith⟩
          rw [roundsTo_eq hy this]
          rw [h10] at r
          exact r
        · exact absurd hc hnc
      · rw [if_neg hgs]
        refine fin fun hu => absurd (up hu) ?_
        intro he
        apply hgs
        rw [ha] at he
        rw [ha]
        norm_num at he
        have := (leadPos_spec hs).2
        push_cast
        linarith
  · rw [if_neg hl]
    have : ¬ ((n : ℤ) > askedDigits n p s) := by
      rcases an with ⟨ha, -⟩ | ⟨ha, -⟩ <;> omega
    rw [if_neg this, ite_self]
    refine fin fun hu => ?_
    rw [up1 hu] at hl
    have hp0 : ¬ 0 < p := fun h' => hl (Real.one_lt_rpow (by norm_num) h')
    rw [if_neg hp0]
    rcases an with ⟨ha, h1⟩ | ⟨ha, -⟩
    · exact absurd (lt_of_le_of_lt ld1 h1) hl
    · exact ha.symm

/-- a multiple of the unit of the place is not changed by rounding -/
theorem roundsTo_self (k : ℤ) (a : ℕ) : RoundsTo k (a * 10 ^ k) (a * 10 ^ k) := by
  have := ten_pos k
  exact ⟨⟨a, rfl⟩, by linarith, by linarith⟩

theorem not_carries_mul (k : ℤ) (a : ℕ) : ¬ Carries k (a * 10 ^ k) := by
  rintro ⟨j, hj, h1, h2⟩
  have hp := ten_pos k
  have e : (10 : ℝ) ^ j = (10 ^ (j - k).toNat : ℕ) * 10 ^ k := by
    push_cast
    rw [← zpow_natCast, ← zpow_add₀ (by norm_num)]
    congr 1
    omega
  rw [e] at h1 h2
  generalize 10 ^ (j - k).toNat = b at h1 h2
  have h3 : (a : ℝ) < b := lt_of_mul_lt_mul_right h2 hp.le
  have h4 : a + 1 ≤ b := by exact_mod_cast h3
  have h5 : (a : ℝ) + 1 ≤ b := by exact_mod_cast h4
  nlinarith

theorem mul_ten_le {k k' : ℤ} (h : k' ≤ k) (a : ℕ) : ∃ b : ℕ, (a : ℝ) * 10 ^ k = b * 10 ^ k' := by
  refine ⟨a * 10 ^ (k - k').toNat, ?_⟩
  push_cast
  rw [mul_assoc, ← zpow_natCast, ← zpow_add₀ (by norm_num)]
  congr 2
  omega

/-- the digits and the value that reach the printing, in the bad case -/
theorem ndigits_cross {s p : ℝ} {n : ℕ} (hs : 0 < s) (hn : 2 ≤ n) (hp : 0 ≤ p) (hp1 : p < 1) (h : Crosses n p s) :
    ∃ y s', RoundsTo (leadPos s - n + 1) s y ∧ 0 < y ∧ s' = y * 10 ^ (n - 1) ∧ ndigits s (n + p) = some (((n + 1 : ℕ) : ℤ), s') ∧ 0 < s' ∧
      ¬ Carries (leadPos s' - (n + 1 : ℕ) + 1) s' ∧ RoundsTo (leadPos s' - (n + 1 : ℕ) + 1) s' s' := by
  obtain ⟨h1, y', hy', hy2⟩ := h
  obtain ⟨N, rfl⟩ : ∃ N, n = N + 1 := ⟨n - 1, by omega⟩
  have ha : askedDigits (N + 1) p s = N + 1 := by rw [askedDigits, if_neg (not_lt.2 h1)]
  obtain ⟨b1, b2, -⟩ := mantissa_bounds hs.ne' N
  have r := intMantissa_spec s (N + 1) (leadPos s)
  rw [abs_of_pos hs] at b1 b2 r
  have hm0 : 0 ≤ intMantissa s (N + 1) (leadPos s) := by
    unfold intMantissa cround
    have : 0 ≤ s * (10 : ℝ) ^ (((N : ℤ) + 1) - 1 - leadPos s) := mul_nonneg hs.le (ten_pos _).le
    rw [if_pos this]
    exact Int.floor_nonneg.2 (by linarith)
  obtain ⟨m, hm⟩ := Int.eq_ofNat_of_zero_le hm0
  rw [hm, Int.natAbs_natCast] at b1 b2 r
  have hN : 10 ≤ 10 ^ N := by
    calc 10 = 10 ^ 1 := by norm_num
      _ ≤ 10 ^ N := Nat.pow_le_pow_right (by norm_num) (by omega)
  have hmpos : (0 : ℝ) < m := by exact_mod_cast (by omega : 0 < m)
  have hy : y' = m * 10 ^ (leadPos s - (N + 1) + 1) := by
    push_cast at hy'
    exact roundsTo_eq hy' r
  have hs' : (m : ℝ) * 10 ^ leadPos s = m * 10 ^ (leadPos s - (N + 1) + 1) * 10 ^ (N + 1 - 1) := by
    rw [Nat.add_sub_cancel, mul_assoc, ← zpow_natCast, ← zpow_add₀ (by norm_num)]
    congr 2
    ring
  have hpos : (0 : ℝ) < m * 10 ^ leadPos s := mul_pos hmpos (ten_pos _)
  -- the place
  have hlp : leadPos ((m : ℝ) * 10 ^ leadPos s) ≤ N + 1 + leadPos s := by
    rw [leadPos_mul hmpos]
    have : leadPos (m : ℝ) < N + 2 := by
      refine (zpow_lt_zpow_iff_right₀ (by norm_num : (1 : ℝ) < 10)).1 (lt_of_le_of_lt (leadPos_spec hmpos).1 ?_)
      have h1 : (m : ℝ) ≤ 10 ^ (N + 1) := by exact_mod_cast b2
      have h2 : (10 : ℝ) ^ ((N : ℤ) + 2) = 10 * 10 ^ (N + 1) := by
        rw [show (N : ℤ) + 2 = ((N + 2 : ℕ) : ℤ) by push_cast; ring, zpow_natCast]; ring
      rw [h2]
      linarith
    omega
  obtain ⟨b, hb⟩ := mul_ten_le (k := leadPos s) (k' := leadPos ((m : ℝ) * 10 ^ leadPos s) - (N + 1 + 1 : ℕ) + 1) (by push_cast; omega) m
  refine ⟨_, _, by push_cast; exact r, mul_pos hmpos (ten_pos _), hs', ?_, hpos, ?_, ?_⟩
  · unfold ndigits
    simp only
    rw [exponent_eq hs.ne', abs_of_pos hs, Option.map_some, naive_eq hs hp hp1, ha]
    push_cast
    rw [hm]
    push_cast
    have hgt : (m : ℝ) * 10 ^ leadPos s > s := by
      have := (leadPos_spec hs).2
      rw [ten_succ] at this
      have h10 : (10 : ℝ) ≤ m := by exact_mod_cast hN.trans b1
      have := ten_pos (leadPos s)
      nlinarith
    have hask : naiveNdigits ((m : ℝ) * 10 ^ leadPos s) ((N : ℝ) + 1 + p) = N + 1 + 1 := by
      have := naive_eq hpos (n := N + 1) hp hp1
      push_cast at this
      rw [this, askedDigits, if_pos]
      · push_cast; ring
      · rw [hy, leadDigits_mul hmpos] at hy2
        rwa [leadDigits_mul hmpos]
    rw [if_pos hgt, hask, if_pos (by omega)]
  · generalize leadPos ((m : ℝ) * 10 ^ leadPos s) - (N + 1 + 1 : ℕ) + 1 = k at hb ⊢
    rw [hb]
    exact not_carries_mul _ _
  · generalize leadPos ((m : ℝ) * 10 ^ leadPos s) - (N + 1 + 1 : ℕ) + 1 = k at hb ⊢
    rw [hb]
    exact roundsTo_self _ _

/-! ## numbers without uncertainty -/

theorem tostring_shape {x : ℝ} (hx : x ≠ 0) : ∃ out M E, tostring (.fin x) = some out ∧ Layout1 out M E ∧ Numeral M ∧ sigDigits M = 6 ∧
    RoundsTo (leadPos |x| - 5) |x| (decVal M * 10 ^ scale E) ∧ (∀ e, E = some e → 1 ≤ decVal M ∧ decVal M < 10) := by
  obtain ⟨m, c, hm, cm, vm, lm, -, hc⟩ := mantissa_spec (x := x) (n := 6) (e := leadPos |x|) (Or.inl ⟨hx, rfl⟩)
  obtain ⟨l6, p6⟩ := lm (by norm_num)
  have c01 : c = 0 ∨ c = 1 := hc.imp (fun h => h.1) fun h => h.1
  have r := intMantissa_spec x 6 (leadPos |x|)
  rw [← vm, show leadPos |x| - 6 + 1 = leadPos |x| - 5 by ring] at r
  have run : tostring (.fin x) = some (if leadPos |x| + c ≥ 6 ∨ leadPos |x| + c < -1 then insertDot m 6 0 ++ ('e' :: formatExp (leadPos |x| + c))
      else insertDot m 6 (leadPos |x| + c)) := by
    unfold tostring
    simp only
    rw [if_neg hx, exponent_eq hx, Option.bind_some, hm, Option.map_some]
  split_ifs at run with hu
  · obtain ⟨n1, -, n3, n4⟩ := insertDot_spec cm (n := 6) (e := 0) (by norm_num)
    refine ⟨_, _, some (leadPos |x| + c), run, ⟨by omega, _, formatExp_facts (by omega), rfl⟩, n1, ?_, ?_, ?_⟩
    · rw [n4, cm.sig p6]; omega
    · rw [n3, show (0 : ℤ) - 6 + 1 = (leadPos |x| + c - 6 + 1) - (leadPos |x| + c) by ring]
      simp only [scale]
      rw [mul_ten_sub]
      exact r
    · rintro e -
      rw [n3]
      have := one_le_natVal_mul cm p6 l6
      have := natVal_mul_lt cm l6 (k := -5) (by norm_num)
      norm_num at *
      constructor <;> assumption
  · obtain ⟨n1, -, n3, n4⟩ := insertDot_spec cm (n := 6) (e := leadPos |x| + c) (by omega)
    refine ⟨_, _, none, run, rfl, n1, ?_, ?_, by rintro e ⟨⟩⟩
    · rw [n4, cm.sig p6]; omega
    · simp only [scale]
      rw [n3, zpow_zero, mul_one]
      exact r

theorem cround_neg (x : ℝ) : (cround (-x)).natAbs = (cround x).natAbs := by
  unfold cround
  rcases lt_trichotomy x 0 with h | rfl | h
  · rw [if_pos (by linarith), if_neg (by linarith), Int.natAbs_neg]
  · simp
  · rw [if_neg (by linarith), if_pos h.le, Int.natAbs_neg, neg_neg]

theorem tostring_neg (x : ℝ) : tostring (.fin (-x)) = tostring (.fin x) := by
  have he : exponent (-x) = exponent x := by simp [exponent]
  have hi : ∀ n e, (intMantissa (-x) n e).natAbs = (intMantissa x n e).natAbs := by
    intro n e
    rw [intMantissa, intMantissa, neg_mul, cround_neg]
  have hm : ∀ n e, mantissa (-x) n e = mantissa x n e := by
    intro n e
    have h0 : intMantissa (-x) n e = 0 ↔ intMantissa x n e = 0 := by
      rw [← Int.natAbs_eq_zero, hi, Int.natAbs_eq_zero]
    unfold mantissa intMantissaString
    simp only [hi, h0]
  unfold tostring
  simp only [neg_eq_zero, he, hm]

/-! ## reading the output back -/

theorem numeral_chars {M : List Char} (h : Numeral M) : ∀ c ∈ M, c.isDigit ∨ c = '.' := by
  intro c hc
  have e : M = intPart M ++ M.dropWhile fun c => c != '.' := (List.takeWhile_append_dropWhile).symm
  rw [e] at hc
  rcases List.mem_append.1 hc with hc | hc
  · exact Or.inl (h.digits c (List.mem_append_left _ hc))
  · rcases hd : M.dropWhile fun c => c != '.' with _ | ⟨a, t⟩
    · rw [hd] at hc
      simp at hc
    · have ha : a = '.' := by
        have := List.head?_dropWhile_not (fun c => c != '.') M
        rw [hd] at this
        simpa using this
      rw [hd] at hc
      rcases List.mem_cons.1 hc with rfl | hc
      · exact Or.inr ha
      · refine Or.inl (h.digits c (List.mem_append_right _ ?_))
        rw [fracPart, hd]
        simpa using hc

theorem numeral_first {M : List Char} (h : Numeral M) : ∃ c t, M = c :: t ∧ c.isDigit := by
  have e : M = intPart M ++ M.dropWhile fun c => c != '.' := (List.takeWhile_append_dropWhile).symm
  obtain ⟨c, t, hc⟩ : ∃ c t, intPart M = c :: t := by
    rcases h.head with h | ⟨c, t, h, -⟩
    · exact ⟨_, _, h⟩
    · exact ⟨_, _, h⟩
  refine ⟨c, t ++ M.dropWhile fun c => c != '.', by rw [← List.cons_append, ← hc]; exact e, ?_⟩
  exact h.digits c (List.mem_append_left _ (by rw [hc]; simp))

theorem split_unique {α : Type*} {p : α → Prop} {a a' b b' : List α} {c : α} (h : a ++ c :: b = a' ++ c :: b') (ha : ∀ x ∈ a, p x)
    (ha' : ∀ x ∈ a', p x) (hc : ¬ p c) : a = a' ∧ b = b' := by
  induction a generalizing a' with
  | nil =>
    cases a' with
    | nil => simpa using h
    | cons d t =>
      simp only [List.nil_append, List.cons_append, List.cons.injEq] at h
      exact absurd (h.1 ▸ ha' d (by simp)) hc
  | cons d t ih =>
    cases a' with
    | nil =>
      simp only [List.nil_append, List.cons_append, List.cons.injEq] at h
      exact absurd (h.1 ▸ ha d (by simp)) hc
    | cons d' t' =>
      simp only [List.cons_append, List.cons.injEq] at h
      obtain ⟨h1, h2⟩ := ih (a' := t') h.2 (fun x hx => ha x (by simp [hx])) fun x hx => ha' x (by simp [hx])
      exact ⟨by rw [h.1, h1], h2⟩

theorem expStr_unique {cs : List Char} {e e' : ℤ} (h0 : e ≠ 0) (h0' : e' ≠ 0) (h : expStr cs e) (h' : expStr cs e') : e = e' := by
  obtain ⟨ds, h1, -, -, -, h2⟩ := h
  obtain ⟨ds', h1', -, -, -, h2'⟩ := h'
  rw [h1] at h1'
  simp only [List.cons.injEq] at h1'
  obtain ⟨hs, rfl⟩ := h1'
  rw [h2] at h2'
  split_ifs at hs with a b b <;> first | omega | (exact absurd hs (by decide))

theorem sign_unique {neg neg' : Bool} {M M' R R' : List Char} (hM : Numeral M) (hM' : Numeral M')
    (h : (if neg then ['-'] else []) ++ (M ++ R) = (if neg' then ['-'] else []) ++ (M' ++ R')) : neg = neg' ∧ M ++ R = M' ++ R' := by
  obtain ⟨c, t, rfl, hc⟩ := numeral_first hM
  obtain ⟨c', t', rfl, hc'⟩ := numeral_first hM'
  cases neg <;> cases neg' <;> simp only [Bool.false_eq_true, if_false, if_true, List.nil_append, List.cons_append, List.cons.injEq] at h ⊢
  · exact ⟨trivial, h⟩
  · rw [h.1] at hc; exact absurd hc (by decide)
  · rw [← h.1] at hc'; exact absurd hc' (by decide)
  · exact ⟨trivial, h.2⟩

/-- With a separator that begins with a space, as the default one, there is only one way to read the output. -/
theorem layout_unique {out M S M' S' sep : List Char} {neg neg' : Bool} {E E' : Option ℤ} (hM : Numeral M) (hS : Numeral S) (hM' : Numeral M')
    (hS' : Numeral S') (h : Layout out neg M S (' ' :: sep) E) (h' : Layout out neg' M' S' (' ' :: sep) E') :
    neg = neg' ∧ M = M' ∧ S = S' ∧ E = E' := by
  have nosp : ∀ {N : List Char}, Numeral N → ∀ c ∈ N, c ≠ ' ' := by
    rintro N hN c hc rfl
    rcases numeral_chars hN _ hc with h | h <;> exact absurd h (by decide)
  have nopar : ∀ {N : List Char}, Numeral N → ∀ c ∈ N, c ≠ ')' := by
    rintro N hN c hc rfl
    rcases numeral_chars hN _ hc with h | h <;> exact absurd h (by decide)
  have par : ∀ {neg : Bool} {N R es : List Char}, Numeral N → (if neg then ['-'] else []) ++ (N ++ R) ≠ '(' :: es := by
    intro neg N R es hN h
    obtain ⟨c, t, rfl, hc⟩ := numeral_first hN
    cases neg <;> simp only [Bool.false_eq_true, if_false, if_true, List.nil_append, List.cons_append, List.cons.injEq] at h
    · rw [h.1] at hc; exact absurd hc (by decide)
    · exact absurd h.1 (by decide)
  cases E with
  | none =>
    cases E' with
    | none =>
      simp only [Layout] at h h'
      rw [h] at h'
      simp only [List.append_assoc] at h'
      obtain ⟨a, b⟩ := sign_unique hM hM' h'
      obtain ⟨c, d⟩ := split_unique (p := fun c => c ≠ ' ') b (nosp hM) (nosp hM') (by simp)
      exact ⟨a, c, List.append_cancel_left d, rfl⟩
    | some e' =>
      obtain ⟨-, es, -, h'⟩ := h'
      simp only [Layout] at h
      rw [h] at h'
      simp only [List.append_assoc, List.cons_append, List.nil_append] at h'
      exact absurd h' (par hM)
  | some e =>
    obtain ⟨e0, es, he, h⟩ := h
    cases E' with
    | none =>
      simp only [Layout] at h'
      rw [h] at h'
      simp only [List.append_assoc, List.cons_append, List.nil_append] at h'
      exact absurd h'.symm (par hM')
    | some e' =>
      obtain ⟨e0', es', he', h'⟩ := h'
      rw [h] at h'
      simp only [List.append_assoc, List.cons_append, List.nil_append, List.cons.injEq, true_and] at h'
      obtain ⟨a, b⟩ := sign_unique hM hM' h'
      obtain ⟨c, d⟩ := split_unique (p := fun c => c ≠ ' ') b (nosp hM) (nosp hM') (by simp)
      have d := List.append_cancel_left d
      obtain ⟨f, g⟩ := split_unique (p := fun c => c ≠ ')') d (nopar hS) (nopar hS') (by simp)
      simp only [List.cons.injEq, true_and] at g
      subst g
      exact ⟨a, c, f, by rw [expStr_unique e0 e0' he he']⟩

/-! ## numbers -/

theorem sqrt_ten : (3 : ℝ) < 10 ^ (1 / 2 : ℝ) ∧ (10 : ℝ) ^ (1 / 2 : ℝ) < 32 / 10 := by
  rw [← Real.sqrt_eq_rpow]
  constructor
  · rw [Real.lt_sqrt (by norm_num)]; norm_num
  · rw [Real.sqrt_lt' (by norm_num)]; norm_num

theorem exponent_eval {x : ℝ} (e : ℤ) (h1 : 10 ^ e ≤ |x|) (h2 : |x| < 10 ^ (e + 1)) : exponent x = some e := by
  have hx : 0 < |x| := lt_of_lt_of_le (ten_pos e) h1
  rw [exponent_eq (abs_pos.1 hx), leadPos_unique h1 h2]

theorem intMantissa_eval {x : ℝ} {n e : ℤ} (m : ℤ) (h0 : 0 ≤ x * (10 : ℝ) ^ (n - 1 - e)) (h1 : (m : ℝ) - 1 / 2 ≤ x * (10 : ℝ) ^ (n - 1 - e))
    (h2 : x * (10 : ℝ) ^ (n - 1 - e) < m + 1 / 2) : intMantissa x n e = m := by
  rw [intMantissa, cround, if_pos h0, Int.floor_eq_iff]
  constructor <;> linarith

theorem ndigits_int {s : ℝ} (hs : 0 < s) {n : ℕ} : ndigits s n = some ((n : ℤ), s) := by
  have key : ∀ x : ℝ, naiveNdigits x n = n := by
    intro x
    unfold naiveNdigits
    simp only [Int.floor_natCast, Int.cast_natCast, sub_self]
    rw [if_neg, add_zero]
    rintro ⟨-, h⟩
    linarith [Int.floor_le (Real.logb 10 |x|)]
  unfold ndigits
  simp only [key, exponent_eq hs.ne', Option.map_some, gt_iff_lt, lt_irrefl, if_false, ite_self]

theorem ndigits_max {s p : ℝ} (hs : 0 < s) {n : ℕ} (hp : 0 ≤ p) (hp1 : p < 1) (h : leadDigits s < 10 ^ p) :
    ndigits s (n + p) = some ((n : ℤ) + 1, s) := by
  have hn : naiveNdigits s (n + p) = n + 1 := by
    rw [naive_eq hs hp hp1, askedDigits, if_pos h]; push_cast; rfl
  have hf : ⌊(n : ℝ) + p⌋ = n := by
    rw [Int.floor_eq_iff]
    constructor <;> push_cast <;> linarith
  have hle : ∀ x, ¬ naiveNdigits x (n + p) > n + 1 := by
    intro x
    unfold naiveNdigits
    simp only [hf]
    split_ifs <;> omega
  unfold ndigits
  simp only [hn, exponent_eq hs.ne', Option.map_some, hle, if_false, ite_self]

theorem formatFin_eval {mu s r s' : ℝ} {nd sexp muexp sexp' muexp' : ℤ} {smant mumant : List Char} (sep : List Char)
    (h1 : ndigits s r = some (nd, s')) (h2 : exponent s' = some sexp) (h3 : (if mu ≠ 0 then exponent mu else some (sexp - nd - 1)) = some muexp)
    (h4 : mantissa s' nd sexp = some (smant, sexp')) (h5 : mantissa mu (nd + muexp - sexp') muexp = some (mumant, muexp')) :
    formatFin mu s r sep = some (
      let mundig := nd + muexp - sexp'
      let musign : List Char := if mu < 0 then ['-'] else []
      let base_exp := if mundig ≥ nd then muexp' else sexp'
      if (mundig ≥ nd ∧ (muexp' ≥ mundig ∨ muexp' < -1)) ∨ (mundig < nd ∧ (sexp' ≥ nd ∨ sexp' < -1)) then
        ['('] ++ musign ++ insertDot mumant mundig (muexp' - base_exp) ++ sep ++ insertDot smant nd (sexp' - base_exp) ++ [')', 'e'] ++
          formatExp base_exp
      else musign ++ insertDot mumant mundig muexp' ++ sep ++ insertDot smant nd sexp') := by
  unfold formatFin
  rw [h1, Option.bind_some]
  simp only
  rw [h2, Option.bind_some, h3, Option.bind_some, h4, Option.bind_some]
  simp only
  rw [h5, Option.map_some]
  by_cases hA : nd + muexp - sexp' ≥ nd
  · have hB : ¬ nd + muexp - sexp' < nd := by omega
    simp only [hA, hB, if_true, true_and, false_and, or_false]
  · have hB : nd + muexp - sexp' < nd := by omega
    simp only [hA, hB, if_false, true_and, false_and, false_or]

end Unc
