import Verif.Model.FormatFP
import Verif.Lemmas.Format
import Verif.Lemmas.Range
import Mathlib.Analysis.SpecialFunctions.Log.Deriv
import Mathlib.Analysis.Complex.ExponentialBounds

/-! # Helper lemmas about `Verif/Model/FormatFP.lean` -/

namespace Unc
open Unc.Spec Ext

/-! ## rounding -/

section
variable {p : ℕ} {emin : ℤ}

/-- the error of a rounding, including underflow -/
theorem ieee_err_all (hp : 1 ≤ p) (he : emin ≤ 0) (x : ℝ) : |(ieee p emin hp he).rd x - x| ≤ (1 / 2) ^ p * |x| + 2 ^ (emin - p) := by
  have key : ∀ x : ℝ, 0 < x → |ieeePos p emin x - x| ≤ (1 / 2) ^ p * x + 2 ^ (emin - p) := by
    intro x h0
    refine (ieeePos_err x).trans ?_
    have e1 : (2 : ℝ) ^ (expo emin x - p + 1) / 2 = (1 / 2) ^ p * 2 ^ expo emin x := by
      rw [zpow_add₀ (by norm_num), zpow_sub₀ (by norm_num), zpow_natCast, one_div, inv_pow]; field_simp
    have e2 : (2 : ℝ) ^ (emin - p) = (1 / 2) ^ p * 2 ^ emin := by
      rw [zpow_sub₀ (by norm_num), zpow_natCast, one_div, inv_pow]; field_simp
    rw [e1, e2, ← mul_add]
    refine mul_le_mul_of_nonneg_left ?_ (by positivity)
    have h1 := (log_bounds h0).1
    have h2 := two_zpow_pos emin
    unfold expo
    rcases max_choice (Int.log 2 x) emin with h | h <;> rw [h] <;> linarith
  change |ieeeRd p emin x - x| ≤ _
  unfold ieeeRd
  have h2 := two_zpow_pos (emin - p)
  rcases lt_trichotomy x 0 with h | h | h
  · rw [if_neg h.not_gt, if_pos h, abs_of_neg h, show -ieeePos p emin (-x) - x = -(ieeePos p emin (-x) - -x) by ring, abs_neg]
    exact key _ (by linarith)
  · simp [h, h2.le]
  · rw [if_pos h, abs_of_pos h]
    exact key _ h

theorem ieee_natCast (hp : 1 ≤ p) (he : emin ≤ 0) (hq : emin - p + 1 ≤ 0) (N : ℤ) (hN : |N| < 2 ^ p) : (ieee p emin hp he).rd N = N := by
  have := ieee_int hp he N 0 hN hq
  simpa using this

/-- a number which is not zero is not too small -/
theorem ieee_min (hp : 1 ≤ p) (he : emin ≤ 0) {x : ℝ} (h : (ieee p emin hp he).rd x = x) (h0 : x ≠ 0) : (2 : ℝ) ^ (emin - p) ≤ |x| := by
  by_contra hlt
  push Not at hlt
  have h2 := two_zpow_pos (emin - p)
  have key : ∀ x : ℝ, 0 < x → x < 2 ^ (emin - p) → ieeePos p emin x = 0 := by
    intro x hx hlt
    have he2 : expo emin x = emin := by
      refine le_antisymm (expo_le hx le_rfl (hlt.trans_le (zpow_le_zpow_right₀ (by norm_num) (by omega)))) (le_max_right _ _)
    have e1 : (2 : ℝ) ^ (emin - p + 1) = 2 * 2 ^ (emin - p) := by rw [zpow_add₀ (by norm_num), zpow_one, mul_comm]
    have h3 : x / 2 ^ (emin - p + 1) < 1 / 2 := by
      rw [div_lt_iff₀ (two_zpow_pos _), e1]; linarith
    have h4 : 0 ≤ x / 2 ^ (emin - p + 1) := div_nonneg hx.le (two_zpow_pos _).le
    have h5 : ⌊x / 2 ^ (emin - p + 1)⌋ = 0 := Int.floor_eq_zero_iff.2 ⟨h4, by linarith⟩
    have h6 : nearEven (x / 2 ^ (emin - p + 1)) = 0 := by
      rw [nearEven, if_pos, h5]
      have := Int.floor_add_fract (x / 2 ^ (emin - p + 1))
      rw [h5] at this
      push_cast at this
      linarith
    rw [ieeePos, he2, h6]; simp
  change ieeeRd p emin x = x at h
  unfold ieeeRd at h
  rcases lt_or_gt_of_ne h0 with hx | hx
  · rw [if_neg hx.not_gt, if_pos hx, key _ (by linarith) (by rwa [abs_of_neg hx] at hlt)] at h
    simp only [neg_zero] at h
    exact h0 h.symm
  · rw [if_pos hx, key _ hx (by rwa [abs_of_pos hx] at hlt)] at h
    exact h0 h.symm

end

/-- `10 ^ -16`-ish: the unit roundoff of `double` -/
theorem dbl_err (x : ℝ) : |dblFmt.rd x - x| ≤ 2 ^ (-53 : ℤ) * |x| + 2 ^ (-1075 : ℤ) := by
  have := ieee_err_all (p := 53) (emin := -1022) (by norm_num) (by norm_num) x
  rw [show (2 : ℝ) ^ (-53 : ℤ) = (1 / 2) ^ 53 by rw [zpow_neg]; norm_num]
  exact_mod_cast this

theorem dbl_int (N : ℤ) (hN : |N| < 2 ^ 53) : dblFmt.rd N = N := ieee_natCast _ _ (by norm_num) N hN

theorem flt_int (N : ℤ) (hN : |N| < 2 ^ 24) : fltFmt.rd N = N := ieee_natCast _ _ (by norm_num) N hN

theorem flt_err (x : ℝ) : |fltFmt.rd x - x| ≤ 2 ^ (-24 : ℤ) * |x| + 2 ^ (-150 : ℤ) := by
  have := ieee_err_all (p := 24) (emin := -126) (by norm_num) (by norm_num) x
  rw [show (2 : ℝ) ^ (-24 : ℤ) = (1 / 2) ^ 24 by rw [zpow_neg]; norm_num]
  exact_mod_cast this

theorem dbl_max : dblFmt.rd dblMax = dblMax := by
  have := ieee_int (p := 53) (emin := -1022) (by norm_num) (by norm_num) (2 ^ 53 - 1) 971 (by norm_num) (by norm_num)
  rw [show dblMax = ((2 ^ 53 - 1 : ℤ) : ℝ) * 2 ^ (971 : ℤ) by
    rw [dblMax, show (971 : ℤ) = ((971 : ℕ) : ℤ) from rfl, zpow_natCast]; norm_num only]
  exact this

set_option exponentiation.threshold 1200 in
theorem dblMax_ge : (10 : ℝ) ^ (308 : ℤ) ≤ dblMax := by
  have : (10 ^ 308 : ℕ) ≤ (2 ^ 53 - 1) * 2 ^ 971 := by decide +kernel
  have h : ((10 ^ 308 : ℕ) : ℝ) ≤ ((2 ^ 53 - 1) * 2 ^ 971 : ℕ) := Nat.cast_le.2 this
  rw [Nat.cast_mul, Nat.cast_sub (by norm_num)] at h
  simp only [Nat.cast_pow, Nat.cast_ofNat, Nat.cast_one] at h
  exact h

set_option exponentiation.threshold 1200 in
theorem dblMax_le : dblMax ≤ (10 : ℝ) ^ (309 : ℤ) := by
  have : (2 ^ 53 - 1) * 2 ^ 971 ≤ (10 ^ 309 : ℕ) := by decide +kernel
  have h : (((2 ^ 53 - 1) * 2 ^ 971 : ℕ) : ℝ) ≤ ((10 ^ 309 : ℕ) : ℝ) := Nat.cast_le.2 this
  rw [Nat.cast_mul, Nat.cast_sub (by norm_num)] at h
  simp only [Nat.cast_pow, Nat.cast_ofNat, Nat.cast_one] at h
  exact h

set_option exponentiation.threshold 1200 in
theorem dbl_min_ge : (10 : ℝ) ^ (-330 : ℤ) ≤ 2 ^ (-1075 : ℤ) := by
  have : (2 ^ 1075 : ℕ) ≤ 10 ^ 330 := by decide +kernel
  have h : ((2 ^ 1075 : ℕ) : ℝ) ≤ ((10 ^ 330 : ℕ) : ℝ) := Nat.cast_le.2 this
  simp only [Nat.cast_pow, Nat.cast_ofNat] at h
  rw [zpow_neg, zpow_neg]
  exact inv_anti₀ (by positivity) h

set_option exponentiation.threshold 1200 in
theorem dbl_min_le : (2 : ℝ) ^ (-1075 : ℤ) ≤ 10 ^ (-320 : ℤ) := by
  have : (10 ^ 320 : ℕ) ≤ 2 ^ 1075 := by decide +kernel
  have h : ((10 ^ 320 : ℕ) : ℝ) ≤ ((2 ^ 1075 : ℕ) : ℝ) := Nat.cast_le.2 this
  simp only [Nat.cast_pow, Nat.cast_ofNat] at h
  rw [zpow_neg, zpow_neg]
  exact inv_anti₀ (by positivity) h

namespace FmtFP

/-- a real number which is not too large -/
theorem is_ofReal {x : ℝ} (h : |x| ≤ dblMax) : Is (ofReal dblFmt dblMax x) (dblFmt.rd x) := by
  have h1 : |dblFmt.rd x| ≤ dblMax := by
    rw [abs_le] at h ⊢
    have h2 := dblFmt.mono h.2
    have h3 := dblFmt.mono h.1
    rw [dblFmt.odd, dbl_max] at h3
    rw [dbl_max] at h2
    exact ⟨h3, h2⟩
  exact ⟨FP.round dblFmt x, h1, ofFP_of_le (a := FP.round dblFmt x) h1, rfl⟩

theorem is_int {N : ℤ} (h : |N| < 2 ^ 53) : Is (ofReal dblFmt dblMax N) N := by
  have := is_ofReal (x := (N : ℝ)) (by
    refine le_trans ?_ dblMax_ge
    have h1 : |(N : ℝ)| < 2 ^ 53 := by exact_mod_cast h
    refine h1.le.trans ?_
    have : (2 : ℝ) ^ 53 ≤ 10 ^ (16 : ℤ) := by norm_num
    exact this.trans (zpow_le_zpow_right₀ (by norm_num) (by norm_num)))
  rwa [dbl_int N h] at this

/-- a number of type `double` -/
theorem is_bounds {x : Dbl} {v : ℝ} (h : Is x v) : |v| ≤ dblMax ∧ dblFmt.rd v = v ∧ (v ≠ 0 → 10 ^ (-330 : ℤ) ≤ |v|) := by
  obtain ⟨a, ha, rfl, rfl⟩ := h
  exact ⟨ha, a.rep, fun h0 => dbl_min_ge.trans (ieee_min _ _ a.rep h0)⟩

theorem log_ten : Real.log 10 < 231 / 100 ∧ 2 < Real.log 10 := by
  have h1 := Real.exp_one_gt_d9
  have h2 := Real.exp_one_lt_d9
  have h0 := Real.exp_pos 1
  have e (n : ℕ) : Real.exp n = Real.exp 1 ^ n := by rw [← Real.exp_nat_mul, mul_one]
  constructor
  · rw [Real.log_lt_iff_lt_exp (by norm_num)]
    have : (10 : ℝ) ^ 100 < Real.exp (231 / 100) ^ 100 := by
      rw [← Real.exp_nat_mul, show ((100 : ℕ) : ℝ) * (231 / 100) = ((231 : ℕ) : ℝ) by norm_num, e]
      refine lt_of_lt_of_le ?_ (pow_le_pow_left₀ (by norm_num) h1.le 231)
      norm_num
    exact lt_of_pow_lt_pow_left₀ 100 (Real.exp_pos _).le this
  · rw [Real.lt_log_iff_exp_lt (by norm_num), show (2 : ℝ) = ((2 : ℕ) : ℝ) by norm_num, e]
    nlinarith

/-- numbers with almost the same logarithm -/
theorem logb_near {x : ℝ} {e : ℤ} {t : ℝ} (hx : 0 < x) (h : (e : ℝ) - t ≤ Real.logb 10 x) (ht : 0 ≤ t) : 10 ^ e * (1 - 231 / 100 * t) ≤ x := by
  have hl := log_ten
  have h1 : (e : ℝ) * Real.log 10 - t * Real.log 10 ≤ Real.log x := by
    rw [Real.logb, le_div_iff₀ (by linarith)] at h
    linarith
  have h2 : Real.exp ((e : ℝ) * Real.log 10 - t * Real.log 10) ≤ x := by
    rw [← Real.exp_log hx]
    exact Real.exp_le_exp.2 h1
  refine le_trans ?_ h2
  rw [sub_eq_add_neg (_ * _), Real.exp_add, mul_comm (e : ℝ), Real.exp_mul, Real.exp_log (by norm_num), Real.rpow_intCast]
  refine mul_le_mul_of_nonneg_left ?_ (ten_pos e).le
  have := Real.add_one_le_exp (-(t * Real.log 10))
  nlinarith

/-- the size of the logarithm -/
theorem logb_bound {v : ℝ} (h1 : 10 ^ (-330 : ℤ) ≤ |v|) (h2 : |v| ≤ 10 ^ (309 : ℤ)) : -330 ≤ Real.logb 10 |v| ∧ Real.logb 10 |v| ≤ 309 := by
  have h0 : 0 < |v| := lt_of_lt_of_le (ten_pos _) h1
  rw [Real.le_logb_iff_rpow_le (by norm_num) h0, Real.logb_le_iff_le_rpow (by norm_num) h0]
  refine ⟨le_trans (le_of_eq ?_) h1, le_trans h2 (le_of_eq ?_)⟩
  · rw [← Real.rpow_intCast]; norm_num
  · rw [← Real.rpow_intCast]; norm_num

theorem small_pow : (2 : ℝ) ^ (-53 : ℤ) * 330 + 2 ^ (-1075 : ℤ) ≤ 4 * 10 ^ (-14 : ℤ) := by
  have h1 : (2 : ℝ) ^ (-1075 : ℤ) ≤ 2 ^ (-60 : ℤ) := zpow_le_zpow_right₀ (by norm_num) (by norm_num)
  have h2 : (2 : ℝ) ^ (-53 : ℤ) * 330 + 2 ^ (-60 : ℤ) ≤ 4 * 10 ^ (-14 : ℤ) := by norm_num
  linarith

/-- the logarithm is a number -/
theorem log10Abs_is {x : Dbl} {v : ℝ} (h : Is x v) (h0 : v ≠ 0) : Is (log10Abs x) (dblFmt.rd (Real.logb 10 |v|)) ∧
    |dblFmt.rd (Real.logb 10 |v|) - Real.logb 10 (|v|)| ≤ 4 * 10 ^ (-14 : ℤ) ∧ -330 ≤ Real.logb 10 |v| ∧ Real.logb 10 |v| ≤ 309 := by
  obtain ⟨b1, -, b3⟩ := is_bounds h
  obtain ⟨l1, l2⟩ := logb_bound (b3 h0) (b1.trans dblMax_le)
  have la : |Real.logb 10 (|v|)| ≤ 330 := abs_le.2 ⟨by linarith, by linarith⟩
  obtain ⟨a, ha, rfl, rfl⟩ := h
  refine ⟨?_, ?_, l1, l2⟩
  · rw [log10Abs, if_neg h0]
    refine is_ofReal (la.trans (le_trans ?_ dblMax_ge))
    exact le_trans (by norm_num : (330 : ℝ) ≤ 10 ^ (3 : ℤ)) (zpow_le_zpow_right₀ (by norm_num) (by norm_num))
  · refine (dbl_err _).trans (le_trans ?_ small_pow)
    have := two_zpow_pos (-53)
    nlinarith

/-- The computed exponent: right, but for numbers slightly less than a power of ten. -/
theorem exponent_is {x : Dbl} {v : ℝ} (h : Is x v) (h0 : v ≠ 0) : ∃ e, exponent x = some e ∧ e = ⌊dblFmt.rd (Real.logb 10 |v|)⌋ ∧
    10 ^ e * (1 - 10 ^ (-13 : ℤ)) ≤ |v| ∧ |v| < 10 ^ (e + 1) ∧ -332 ≤ e ∧ e ≤ 310 := by
  obtain ⟨hl, err, l1, l2⟩ := log10Abs_is h h0
  obtain ⟨δ, hδ⟩ : ∃ δ : ℝ, δ = 4 * 10 ^ (-14 : ℤ) := ⟨_, rfl⟩
  rw [← hδ] at err
  obtain ⟨err1, err2⟩ := abs_le.1 err
  have hv : 0 < |v| := abs_pos.2 h0
  set L := dblFmt.rd (Real.logb 10 |v|) with hL
  have f1 := Int.floor_le L
  have f2 := Int.lt_floor_add_one L
  have small : δ ≤ 1 / 2 := by rw [hδ]; norm_num
  have e1 : -332 ≤ ⌊L⌋ := by
    have : (-332 : ℝ) < ⌊L⌋ := by linarith
    exact_mod_cast this.le
  have e2 : ⌊L⌋ ≤ 310 := by
    have : (⌊L⌋ : ℝ) ≤ 310 := by linarith
    exact_mod_cast this
  refine ⟨⌊L⌋, ?_, rfl, ?_, ?_, e1, e2⟩
  · have hi := is_int (N := ⌊L⌋) (abs_lt.2 ⟨by omega, by omega⟩)
    obtain ⟨a, ha, h1, h2⟩ := hl
    obtain ⟨b, hb, h3, h4⟩ := hi
    rw [exponent, h1, floorE, h2, h3, toInt]
    simp only [h4, Int.floor_intCast, Int.ceil_intCast, ite_self]
    rw [if_pos ⟨by omega, by omega⟩]
  · refine le_trans ?_ (logb_near (e := ⌊L⌋) (t := δ) hv (by linarith) (by rw [hδ]; positivity))
    refine mul_le_mul_of_nonneg_left ?_ (ten_pos _).le
    rw [hδ]
    norm_num
  · by_contra hge
    push Not at hge
    have h1 : ((⌊L⌋ + 1 : ℤ) : ℝ) ≤ Real.logb 10 |v| := by
      rw [Real.le_logb_iff_rpow_le (by norm_num) hv, Real.rpow_intCast]
      exact hge
    have h2 := dblFmt.mono h1
    rw [dbl_int _ (abs_lt.2 ⟨by omega, by omega⟩), ← hL] at h2
    push_cast at h2
    linarith

/-! ## products with powers of ten -/

theorem one_le_dblMax : 1 ≤ dblMax := le_trans (one_le_zpow₀ (by norm_num) (by norm_num)) dblMax_ge

theorem is_pow10 {k : ℤ} (h1 : -300 ≤ k) (h2 : k ≤ 308) : ∃ w, Is (pow10 dblFmt dblMax k) w ∧ 0 ≤ w ∧
    |w - 10 ^ k| ≤ (2 ^ (-53 : ℤ) + 10 ^ (-20 : ℤ)) * 10 ^ k := by
  have hk := ten_pos k
  have h3 : (2 : ℝ) ^ (-1075 : ℤ) ≤ 10 ^ (-20 : ℤ) * 10 ^ k := by
    refine dbl_min_le.trans ?_
    rw [← zpow_add₀ (by norm_num)]
    exact ten_mono (by omega)
  refine ⟨dblFmt.rd (10 ^ k), is_ofReal ?_, dblFmt.rd_nonneg hk.le, ?_⟩
  · rw [abs_of_pos hk]
    exact (ten_mono h2).trans dblMax_ge
  · refine (dbl_err _).trans ?_
    rw [abs_of_pos hk]
    linarith

/-- the product computed by `int_mantissa` before it is rounded to an integer -/
theorem is_mul_pow10 {x : Dbl} {v : ℝ} (h : Is x v) {k : ℤ} (h1 : -300 ≤ k) (h2 : k ≤ 308) (h3 : |v| * 10 ^ k ≤ 10 ^ (300 : ℤ)) :
    ∃ y, Is (x * pow10 dblFmt dblMax k) y ∧ |y - v * 10 ^ k| ≤ 3 * 10 ^ (-16 : ℤ) * (|v| * 10 ^ k) + 10 ^ (-300 : ℤ) ∧
      (0 ≤ v → 0 ≤ y) ∧ (v ≤ 0 → y ≤ 0) := by
  obtain ⟨w, hw, w0, w1⟩ := is_pow10 h1 h2
  have hk := ten_pos k
  set T := |v| * 10 ^ k with hT
  have hT0 : 0 ≤ T := mul_nonneg (abs_nonneg _) hk.le
  have e0 : (2 : ℝ) ^ (-1075 : ℤ) ≤ 10 ^ (-300 : ℤ) := dbl_min_le.trans (ten_mono (by norm_num))
  obtain ⟨u, hu⟩ : ∃ u : ℝ, u = 2 ^ (-53 : ℤ) := ⟨_, rfl⟩
  obtain ⟨c, hc⟩ : ∃ c : ℝ, c = 10 ^ (-20 : ℤ) := ⟨_, rfl⟩
  have hu0 : 0 ≤ u := by rw [hu]; positivity
  have hc0 : 0 ≤ c := by rw [hc]; positivity
  have hsmall : u * (1 + (u + c)) + (u + c) ≤ 3 * 10 ^ (-16 : ℤ) := by rw [hu, hc]; norm_num
  have huc : u + c ≤ 1 := by rw [hu, hc]; norm_num
  rw [← hu, ← hc] at w1
  -- the exact product
  have p1 : |v * w - v * 10 ^ k| ≤ (u + c) * T := by
    rw [← mul_sub, abs_mul, hT]
    nlinarith [abs_nonneg v]
  have p2 : |v * w| ≤ T + (u + c) * T := by
    have := abs_sub_abs_le_abs_sub (v * w) (v * 10 ^ k)
    rw [abs_mul v (10 ^ k), abs_of_pos hk] at this
    linarith
  have p3 : |v * w| ≤ dblMax := by
    have h4 : T + (u + c) * T ≤ 2 * 10 ^ (300 : ℤ) := by
      generalize (10 : ℝ) ^ (300 : ℤ) = B at h3
      nlinarith
    refine (p2.trans h4).trans (le_trans ?_ dblMax_ge)
    calc (2 : ℝ) * 10 ^ (300 : ℤ) ≤ 10 * 10 ^ (300 : ℤ) := mul_le_mul_of_nonneg_right (by norm_num) (ten_pos 300).le
      _ = 10 ^ (301 : ℤ) := (ten_succ 300).symm
      _ ≤ _ := ten_mono (by norm_num)
  have hy := is_ofReal p3
  refine ⟨dblFmt.rd (v * w), ?_, ?_, ?_, ?_⟩
  · obtain ⟨a, ha, rfl, rfl⟩ := h
    obtain ⟨b, hb, h5, rfl⟩ := hw
    rw [h5, fin_mul]
    exact hy
  · have p4 := dbl_err (v * w)
    rw [← hu] at p4
    have p5 : |dblFmt.rd (v * w) - v * 10 ^ k| ≤ |dblFmt.rd (v * w) - v * w| + |v * w - v * 10 ^ k| := by
      have := abs_add_le (dblFmt.rd (v * w) - v * w) (v * w - v * 10 ^ k)
      rwa [sub_add_sub_cancel] at this
    nlinarith
  · intro hv
    exact dblFmt.rd_nonneg (mul_nonneg hv w0)
  · intro hv
    have := dblFmt.mono (mul_nonpos_of_nonpos_of_nonneg hv w0)
    rwa [dblFmt.rd_zero] at this

/-- the integer computed by `int_mantissa` -/
theorem intMantissa_is {x : Dbl} {v : ℝ} (h : Is x v) {n e : ℤ} (h1 : -300 ≤ n - 1 - e) (h2 : n - 1 - e ≤ 308) (h3 : |v| * 10 ^ (n - 1 - e) ≤ 10 ^ (15 : ℤ)) :
    ∃ y, Is (intMantissa x n e) (Fmt.cround y) ∧ |Fmt.cround y| < 2 ^ 53 ∧
      |y - v * 10 ^ (n - 1 - e)| ≤ 3 * 10 ^ (-16 : ℤ) * (|v| * 10 ^ (n - 1 - e)) + 10 ^ (-300 : ℤ) ∧ (0 ≤ v → 0 ≤ y) ∧ (v ≤ 0 → y ≤ 0) := by
  obtain ⟨y, hy, e1, e2, e3⟩ := is_mul_pow10 h h1 h2 (h3.trans (ten_mono (by norm_num)))
  have hc := (cround_spec y).1
  have hb : |y| ≤ 2 * 10 ^ (15 : ℤ) := by
    have := abs_sub_abs_le_abs_sub y (v * 10 ^ (n - 1 - e))
    rw [abs_mul v, abs_of_pos (ten_pos _)] at this
    have h5 : (3 : ℝ) * 10 ^ (-16 : ℤ) * 10 ^ (15 : ℤ) ≤ 1 := by norm_num
    have h6 : (10 : ℝ) ^ (-300 : ℤ) ≤ 1 := zpow_le_one_of_nonpos₀ (by norm_num) (by norm_num)
    have h7 : (3 : ℝ) * 10 ^ (-16 : ℤ) * (|v| * 10 ^ (n - 1 - e)) ≤ 3 * 10 ^ (-16 : ℤ) * 10 ^ (15 : ℤ) :=
      mul_le_mul_of_nonneg_left h3 (by positivity)
    have h8 : (2 : ℝ) ≤ 10 ^ (15 : ℤ) := by norm_num
    linarith
  have hlt : |Fmt.cround y| < 2 ^ 53 := by
    rw [Int.abs_eq_natAbs]
    have h5 : (2 : ℝ) * 10 ^ (15 : ℤ) + 1 / 2 < 2 ^ 53 := by norm_num
    have h6 : ((Fmt.cround y).natAbs : ℝ) < 2 ^ 53 := by linarith
    exact_mod_cast h6
  refine ⟨y, ?_, hlt, e1, e2, e3⟩
  obtain ⟨a, ha, h5, h6⟩ := hy
  rw [intMantissa, h5, roundE, h6]
  exact is_int hlt

/-! ## digits -/

theorem is_leb {x y : Dbl} {v w : ℝ} (h : Is x v) (h' : Is y w) : CCmp.leb x y = true ↔ v ≤ w := by
  obtain ⟨a, ha, rfl, rfl⟩ := h
  obtain ⟨b, hb, rfl, rfl⟩ := h'
  exact fin_leb _ _

theorem is_ltb {x y : Dbl} {v w : ℝ} (h : Is x v) (h' : Is y w) : CCmp.ltb x y = true ↔ v < w := by
  obtain ⟨a, ha, rfl, rfl⟩ := h
  obtain ⟨b, hb, rfl, rfl⟩ := h'
  exact fin_ltb _ _

theorem is_eqb {x y : Dbl} {v w : ℝ} (h : Is x v) (h' : Is y w) : CCmp.eqb x y = true ↔ v = w := by
  obtain ⟨a, ha, rfl, rfl⟩ := h
  obtain ⟨b, hb, rfl, rfl⟩ := h'
  exact fin_eqb _ _

theorem is_zero : Is (0 : Dbl) 0 := ⟨_, _, zero_eq one_le_dblMax, rfl⟩
theorem is_one : Is (1 : Dbl) 1 := ⟨_, _, one_eq one_le_dblMax, rfl⟩

/-- division by ten of an integer which the type represents, rounded down -/
theorem floor_tenth {N : ℕ} (h : N < 2 ^ 53) : ⌊dblFmt.rd ((N : ℝ) / 10)⌋ = ((N / 10 : ℕ) : ℤ) := by
  have hq : N / 10 < 2 ^ 53 := lt_of_le_of_lt (Nat.div_le_self _ _) h
  have h1 : ((N / 10 : ℕ) : ℝ) ≤ (N : ℝ) / 10 := Nat.cast_div_le
  have h2 : (N : ℝ) / 10 ≤ (N / 10 : ℕ) + 9 / 10 := by
    have : N ≤ 10 * (N / 10) + 9 := by omega
    have : (N : ℝ) ≤ 10 * (N / 10 : ℕ) + 9 := by exact_mod_cast this
    linarith
  have h3 := dblFmt.mono h1
  have h4 : dblFmt.rd ((N / 10 : ℕ) : ℝ) = (N / 10 : ℕ) := by
    have := dbl_int ((N / 10 : ℕ) : ℤ) (by rw [Nat.abs_cast]; exact_mod_cast hq)
    exact_mod_cast this
  have h5 := dbl_err ((N : ℝ) / 10)
  rw [abs_of_nonneg (by positivity : (0 : ℝ) ≤ N / 10), abs_le] at h5
  have h6 : (N : ℝ) ≤ 2 ^ 53 - 1 := by
    have : N ≤ 2 ^ 53 - 1 := by omega
    have h7 : (N : ℝ) ≤ ((2 ^ 53 - 1 : ℕ) : ℝ) := by exact_mod_cast this
    refine h7.trans (le_of_eq (by norm_num))
  have h8 : (2 : ℝ) ^ (-53 : ℤ) * (N / 10) + 2 ^ (-1075 : ℤ) < 1 / 10 := by
    have a1 : (2 : ℝ) ^ (-1075 : ℤ) ≤ 2 ^ (-60 : ℤ) := zpow_le_zpow_right₀ (by norm_num) (by norm_num)
    have a2 : (2 : ℝ) ^ (-53 : ℤ) * (N / 10) ≤ 2 ^ (-53 : ℤ) * ((2 ^ 53 - 1) / 10) :=
      mul_le_mul_of_nonneg_left (by linarith) (by positivity)
    have a3 : (2 : ℝ) ^ (-53 : ℤ) * ((2 ^ 53 - 1) / 10) + 2 ^ (-60 : ℤ) < 1 / 10 := by norm_num
    exact lt_of_le_of_lt (add_le_add a2 a1) a3
  have h9 := h5.2
  generalize (2 : ℝ) ^ (-53 : ℤ) * (N / 10) + 2 ^ (-1075 : ℤ) = B at h8 h9
  rw [Int.floor_eq_iff, Int.cast_natCast]
  constructor
  · linarith
  · linarith

theorem digitsLoop_is (fuel : ℕ) : ∀ {x : Dbl} {N : ℕ}, Is x N → N < 2 ^ 53 → N < fuel → digitsLoop fuel x = some (Fmt.digitsLoop N) := by
  induction fuel with
  | zero => intro x N _ _ h; omega
  | succ fuel ih =>
    intro x N hx hN hf
    rw [digitsLoop, Fmt.digitsLoop]
    by_cases h1 : 1 ≤ N
    · rw [if_pos ((is_leb is_one hx).2 (by exact_mod_cast h1)), if_pos h1]
      have hfl : ⌊(N : ℝ) / 10⌋ = ((N / 10 : ℕ) : ℤ) := by
        have h2 : ((N / 10 : ℕ) : ℝ) ≤ (N : ℝ) / 10 := Nat.cast_div_le
        have h3 : N < 10 * (N / 10) + 10 := by omega
        have h4 : (N : ℝ) < 10 * (N / 10 : ℕ) + 10 := by exact_mod_cast h3
        rw [Int.floor_eq_iff, Int.cast_natCast]
        exact ⟨h2, by linarith⟩
      have hm : (N : ℝ) - 10 * ((N / 10 : ℕ) : ℝ) = ((N % 10 : ℕ) : ℤ) := by
        have : N = 10 * (N / 10) + N % 10 := (Nat.div_add_mod N 10).symm
        have : (N : ℝ) = 10 * (N / 10 : ℕ) + (N % 10 : ℕ) := by exact_mod_cast this
        rw [Int.cast_natCast]
        linarith
      have hd : N % 10 < 10 := Nat.mod_lt _ (by norm_num)
      have i1 : Is (ofReal dblFmt dblMax ((N % 10 : ℕ) : ℤ)) (((N % 10 : ℕ) : ℤ) : ℝ) := is_int (by rw [Nat.abs_cast]; omega)
      have i2 : fmod10 x = ofReal dblFmt dblMax ((N % 10 : ℕ) : ℤ) := by
        obtain ⟨a, ha, rfl, h2⟩ := hx
        rw [fmod10, h2, hfl, ← hm]
        push_cast; rfl
      have i3 : toInt (fmod10 x) = some ((N % 10 : ℕ) : ℤ) := by
        obtain ⟨b, hb, h3, h4⟩ := i1
        rw [i2, h3, toInt]
        simp only [h4, Int.floor_intCast, Int.ceil_intCast, ite_self]
        rw [if_pos ⟨by omega, by omega⟩]
      have i4 : Is (floorE (x / ofReal dblFmt dblMax 10)) (N / 10 : ℕ) := by
        have t := is_int (N := 10) (by norm_num)
        push_cast at t
        obtain ⟨a, ha, rfl, h2⟩ := hx
        obtain ⟨b, hb, h3, h4⟩ := t
        have h5 : Is (ofReal dblFmt dblMax ((N : ℝ) / 10)) (dblFmt.rd ((N : ℝ) / 10)) := is_ofReal (by
          rw [abs_of_nonneg (by positivity)]
          have : |a.val| ≤ dblMax := ha
          rw [h2, Nat.abs_cast] at this
          have : (0 : ℝ) ≤ N := by positivity
          linarith)
        have h6 : (fin a ha : Dbl) / ofReal dblFmt dblMax 10 = ofReal dblFmt dblMax ((N : ℝ) / 10) := by
          rw [h3, div_def, div', if_neg (by rw [h4]; norm_num)]
          rw [← h2, ← h4]; rfl
        obtain ⟨c, hc, h7, h8⟩ := h5
        rw [h6, h7, floorE, h8, floor_tenth hN]
        have := is_int (N := ((N / 10 : ℕ) : ℤ)) (by rw [Nat.abs_cast]; omega)
        exact_mod_cast this
      rw [i3, Option.bind_some, i2, if_pos ((is_eqb i1 i1).2 rfl), ih i4 (by omega) (by omega), Option.map_some, Int.toNat_natCast]
    · rw [if_neg (by rw [is_leb is_one hx]; push_cast; intro h; exact h1 (by exact_mod_cast h)), if_neg h1]

/-- The digits of an integer which the type represents are right. -/
theorem intMantissaString_is {x : Dbl} {N : ℤ} (h : Is x N) (hN : |N| < 2 ^ 53) : intMantissaString x = some (Fmt.intMantissaString N) := by
  obtain ⟨a, ha, rfl, h2⟩ := h
  have habs : Is (CSqrt.abs (fin a ha : Dbl)) (N.natAbs : ℕ) := by
    refine ⟨CSqrt.abs a, by rw [FP.val_abs, abs_abs]; exact ha, ?_, ?_⟩
    · exact ofFP_of_le (a := CSqrt.abs a) (by rw [FP.val_abs, abs_abs]; exact ha)
    · rw [FP.val_abs, h2, Nat.cast_natAbs, Int.cast_abs]
  have hfuel : fuel (fin a ha : Dbl) = N.natAbs + 1 := by
    rw [fuel, h2, show |(N : ℝ)| = ((N.natAbs : ℕ) : ℝ) by rw [Nat.cast_natAbs, Int.cast_abs], Nat.floor_natCast]
  have hlt : N.natAbs < 2 ^ 53 := by
    rw [Int.abs_eq_natAbs] at hN
    exact_mod_cast hN
  rw [intMantissaString, hfuel, digitsLoop_is _ habs hlt (by omega), Option.map_some]
  rfl

/-! ## the computed mantissa is that of a number near to the given one -/

theorem cround_eval {x : ℝ} {N : ℕ} (h0 : 0 ≤ x) (h1 : (N : ℝ) - 1 / 2 ≤ x) (h2 : x < N + 1 / 2) : Fmt.cround x = N := by
  rw [Fmt.cround, if_pos h0, Int.floor_eq_iff, Int.cast_natCast]
  constructor <;> linarith

theorem cround_odd (x : ℝ) : Fmt.cround (-x) = -Fmt.cround x := by
  unfold Fmt.cround
  rcases lt_trichotomy x 0 with h | h | h
  · rw [if_pos (by linarith), if_neg (by linarith), neg_neg]
  · subst h; norm_num
  · rw [if_neg (by linarith), if_pos (by linarith), neg_neg]

/-- what rounding errors do to the product computed by `int_mantissa` -/
theorem near_pos {v y T : ℝ} {n e : ℤ} (hv : 0 < v) (h1 : 10 ^ e * (1 - 10 ^ (-13 : ℤ)) ≤ v) (h2 : v < 10 ^ (e + 1)) (hn : n ≤ 13) (hT : T = v * 10 ^ (n - 1 - e))
    (y0 : 0 ≤ y) (hy : |y - T| ≤ 3 * 10 ^ (-16 : ℤ) * T + 10 ^ (-300 : ℤ)) :
    (∃ z, 0 ≤ z ∧ |z - v| ≤ 4 * 10 ^ (-16 : ℤ) * v ∧ Fmt.cround (z * 10 ^ (n - 1 - e)) = Fmt.cround y) ∧
    ∃ v', 10 ^ e ≤ v' ∧ v' < 10 ^ (e + 1) ∧ Fmt.cround (v' * 10 ^ (n - 1 - e)) = Fmt.cround y := by
  have hk := ten_pos (n - 1 - e)
  have hT0 : 0 < T := by rw [hT]; positivity
  have f1 : (10 : ℝ) ^ e * 10 ^ (n - 1 - e) = 10 ^ (n - 1) := by rw [← zpow_add₀ (by norm_num)]; congr 1; ring
  have f2 : (10 : ℝ) ^ (e + 1) * 10 ^ (n - 1 - e) = 10 ^ n := by rw [← zpow_add₀ (by norm_num)]; congr 1; ring
  -- the nearby number with the same result
  obtain ⟨z, z0, z1, z2⟩ : ∃ z, 0 ≤ z ∧ |z - v| ≤ 4 * 10 ^ (-16 : ℤ) * v ∧ Fmt.cround (z * 10 ^ (n - 1 - e)) = Fmt.cround y := by
    by_cases hs : (10 : ℝ) ^ (-200 : ℤ) ≤ T
    · refine ⟨y / 10 ^ (n - 1 - e), div_nonneg y0 hk.le, ?_, by rw [div_mul_cancel₀ _ hk.ne']⟩
      have h3 : (10 : ℝ) ^ (-300 : ℤ) ≤ 10 ^ (-16 : ℤ) * T := by
        have : (10 : ℝ) ^ (-300 : ℤ) ≤ 10 ^ (-16 : ℤ) * 10 ^ (-200 : ℤ) := by
          rw [← zpow_add₀ (by norm_num)]; exact ten_mono (by norm_num)
        exact this.trans (mul_le_mul_of_nonneg_left hs (by positivity))
      have h4 : |y - T| ≤ 4 * 10 ^ (-16 : ℤ) * T := by
        refine hy.trans ?_
        generalize (10 : ℝ) ^ (-300 : ℤ) = B at h3
        linarith
      rw [show y / 10 ^ (n - 1 - e) - v = (y - T) / 10 ^ (n - 1 - e) by rw [hT]; field_simp, abs_div, abs_of_pos hk, div_le_iff₀ hk, mul_assoc, ← hT]
      exact h4
    · push Not at hs
      have h3 : T < 1 / 4 := hs.trans (lt_of_le_of_lt (ten_mono (show (-200 : ℤ) ≤ -1 by norm_num)) (by norm_num))
      have h4 : (10 : ℝ) ^ (-300 : ℤ) ≤ 1 / 10 := le_trans (ten_mono (show (-300 : ℤ) ≤ -1 by norm_num)) (by norm_num)
      have h5 : (3 : ℝ) * 10 ^ (-16 : ℤ) * T ≤ 1 / 10 * T := mul_le_mul_of_nonneg_right (by norm_num) hT0.le
      have h6 := (abs_le.1 (hy.trans (add_le_add h5 h4))).2
      refine ⟨v, hv.le, by rw [sub_self, abs_zero]; positivity, ?_⟩
      rw [← hT, cround_eval (N := 0) hT0.le (by push_cast; linarith) (by push_cast; linarith),
        cround_eval (N := 0) y0 (by push_cast; linarith) (by push_cast; linarith)]
  refine ⟨⟨z, z0, z1, z2⟩, ?_⟩
  obtain ⟨c, hc⟩ : ∃ c : ℝ, c = 4 * 10 ^ (-16 : ℤ) := ⟨_, rfl⟩
  obtain ⟨d, hd⟩ : ∃ d : ℝ, d = 10 ^ (-13 : ℤ) := ⟨_, rfl⟩
  have c0 : 0 ≤ c := by rw [hc]; positivity
  have d0 : 0 ≤ d := by rw [hd]; positivity
  have cd : c ≤ d := by rw [hc, hd]; norm_num
  have d1 : d * 10 ^ (13 : ℤ) = 1 := by rw [hd]; norm_num
  have c1 : c * 10 ^ (13 : ℤ) ≤ 1 / 100 := by rw [hc]; norm_num
  have d2 : d ≤ 1 / 100 := by rw [hd]; norm_num
  rw [← hc] at z1
  rw [← hd] at h1
  obtain ⟨z3, z4⟩ := abs_le.1 z1
  have hn13 : (10 : ℝ) ^ n ≤ 10 ^ (13 : ℤ) := ten_mono hn
  have hpe := ten_pos e
  have he1 := ten_succ e
  have hn1 : (10 : ℝ) ^ n = 10 * 10 ^ (n - 1) := by rw [← ten_succ]; congr 1; ring
  have hpn := ten_pos (n - 1)
  generalize (10 : ℝ) ^ (13 : ℤ) = B at *
  rcases lt_or_ge z (10 ^ e) with hz | hz
  · -- slightly less than a power of ten
    refine ⟨10 ^ e, le_rfl, by rw [he1]; linarith, ?_⟩
    rw [← z2, f1]
    have g1 : z * 10 ^ (n - 1 - e) < 10 ^ (n - 1) := by rw [← f1]; exact mul_lt_mul_of_pos_right hz hk
    have g2 : 10 ^ (n - 1) * (1 - 2 * d) ≤ z * 10 ^ (n - 1 - e) := by
      have : 10 ^ e * (1 - 2 * d) ≤ z := by nlinarith
      calc (10 : ℝ) ^ (n - 1) * (1 - 2 * d) = 10 ^ e * (1 - 2 * d) * 10 ^ (n - 1 - e) := by rw [← f1]; ring
        _ ≤ _ := mul_le_mul_of_nonneg_right this hk.le
    by_cases h : 1 ≤ n
    · obtain ⟨N, rfl⟩ : ∃ N : ℕ, n = N + 1 := ⟨(n - 1).toNat, by omega⟩
      rw [add_sub_cancel_right, zpow_natCast] at *
      have g3 : (10 : ℝ) ^ N * d ≤ 1 / 10 := by nlinarith
      rw [cround_eval (N := 10 ^ N) (by positivity) (by push_cast; linarith) (by push_cast; linarith),
        cround_eval (N := 10 ^ N) (mul_nonneg z0 hk.le) (by push_cast; linarith) (by push_cast; linarith)]
    · have g3 : (10 : ℝ) ^ (n - 1) ≤ 1 / 10 := le_trans (ten_mono (show n - 1 ≤ -1 by omega)) (by norm_num)
      rw [cround_eval (N := 0) hpn.le (by push_cast; linarith) (by push_cast; linarith),
        cround_eval (N := 0) (mul_nonneg z0 hk.le) (by push_cast; linarith [mul_nonneg z0 hk.le]) (by push_cast; linarith)]
  · rcases lt_or_ge z (10 ^ (e + 1)) with hz' | hz'
    · exact ⟨z, hz, hz', z2⟩
    · -- rounded up to a power of ten
      refine ⟨v, by nlinarith, h2, ?_⟩
      rw [← z2, ← hT]
      have g1 : T < 10 ^ n := by rw [hT, ← f2]; exact mul_lt_mul_of_pos_right h2 hk
      have g2 : 10 ^ n * (1 - c) ≤ T := by
        have : 10 ^ (e + 1) * (1 - c) ≤ v := by nlinarith
        calc (10 : ℝ) ^ n * (1 - c) = 10 ^ (e + 1) * (1 - c) * 10 ^ (n - 1 - e) := by rw [← f2]; ring
          _ ≤ _ := by rw [hT]; exact mul_le_mul_of_nonneg_right this hk.le
      have g3 : 10 ^ n ≤ z * 10 ^ (n - 1 - e) := by rw [← f2]; exact mul_le_mul_of_nonneg_right hz' hk.le
      have g4 : z * 10 ^ (n - 1 - e) ≤ T + c * T := by
        have : z ≤ v + c * v := by linarith
        calc z * 10 ^ (n - 1 - e) ≤ (v + c * v) * 10 ^ (n - 1 - e) := mul_le_mul_of_nonneg_right this hk.le
          _ = T + c * T := by rw [hT]; ring
      have g5 : c * T ≤ 1 / 100 := by nlinarith
      have g6 : c * 10 ^ n ≤ 1 / 100 := by nlinarith
      by_cases h : 0 ≤ n
      · obtain ⟨N, rfl⟩ : ∃ N : ℕ, n = N := ⟨n.toNat, by omega⟩
        rw [zpow_natCast] at *
        rw [cround_eval (N := 10 ^ N) hT0.le (by push_cast; linarith) (by push_cast; linarith),
          cround_eval (N := 10 ^ N) (mul_nonneg z0 hk.le) (by push_cast; linarith) (by push_cast; linarith)]
      · have g7 : (10 : ℝ) ^ n ≤ 1 / 10 := le_trans (ten_mono (show n ≤ -1 by omega)) (by norm_num)
        rw [cround_eval (N := 0) hT0.le (by push_cast; linarith) (by push_cast; linarith),
          cround_eval (N := 0) (mul_nonneg z0 hk.le) (by push_cast; linarith [mul_nonneg z0 hk.le]) (by push_cast; linarith)]

/-- the assertion and the strings are those of the exact model, if the integer is the same -/
theorem mantissa_eq {x : Dbl} {m : ℤ} {v' : ℝ} {n e : ℤ} (h : Is (intMantissa x n e) m) (hm : |m| < 2 ^ 53) (hv : Fmt.intMantissa v' n e = m) :
    mantissa x n e = Fmt.mantissa v' n e := by
  have h0 : CCmp.eqb (intMantissa x n e) 0 = true ↔ m = 0 := by rw [is_eqb h is_zero]; exact_mod_cast Iff.rfl
  unfold mantissa Fmt.mantissa
  simp only
  rw [intMantissaString_is h hm, Option.bind_some, hv]
  simp only [h0]

/-- **The mantissa of a `double`** is the exact mantissa of a number `v'` which has the computed exponent; the integer it shows is the rounding of a number `z` which has a relative distance of
at most `4e-16` from the given one. -/
theorem mantissa_is {x : Dbl} {v : ℝ} (h : Is x v) {n e : ℤ} (hv : v ≠ 0) (h1 : 10 ^ e * (1 - 10 ^ (-13 : ℤ)) ≤ |v|) (h2 : |v| < 10 ^ (e + 1)) (hn : n ≤ 13)
    (k1 : -300 ≤ n - 1 - e) (k2 : n - 1 - e ≤ 308) :
    ∃ v' z, v' ≠ 0 ∧ leadPos |v'| = e ∧ (v' < 0 ↔ v < 0) ∧ mantissa x n e = Fmt.mantissa v' n e ∧
      |z - v| ≤ 4 * 10 ^ (-16 : ℤ) * |v| ∧ Fmt.intMantissa z n e = Fmt.intMantissa v' n e ∧ (v < 0 → z ≤ 0) ∧ (0 < v → 0 ≤ z) := by
  have hk := ten_pos (n - 1 - e)
  have f2 : (10 : ℝ) ^ (e + 1) * 10 ^ (n - 1 - e) = 10 ^ n := by rw [← zpow_add₀ (by norm_num)]; congr 1; ring
  have h3 : |v| * 10 ^ (n - 1 - e) ≤ 10 ^ (15 : ℤ) := by
    have := mul_le_mul_of_nonneg_right h2.le hk.le
    rw [f2] at this
    exact this.trans (ten_mono (by omega))
  obtain ⟨y, i1, i2, i3, i4, i5⟩ := intMantissa_is h k1 k2 h3
  rcases lt_or_gt_of_ne hv with hneg | hpos
  · rw [abs_of_neg hneg] at *
    obtain ⟨⟨z, z0, z1, z2⟩, v', v0, v1, v2⟩ := near_pos (v := -v) (y := -y) (T := -v * 10 ^ (n - 1 - e)) (by linarith) h1 h2 hn rfl
      (by linarith [i5 hneg.le]) (by rw [show -y - -v * 10 ^ (n - 1 - e) = -(y - v * 10 ^ (n - 1 - e)) by ring, abs_neg]; exact i3)
    have vp := lt_of_lt_of_le (ten_pos e) v0
    have e1 : Fmt.intMantissa (-v') n e = Fmt.cround y := by rw [Fmt.intMantissa, neg_mul, cround_odd, v2, cround_odd, neg_neg]
    have e2 : Fmt.intMantissa (-z) n e = Fmt.cround y := by rw [Fmt.intMantissa, neg_mul, cround_odd, z2, cround_odd, neg_neg]
    refine ⟨-v', -z, by linarith, ?_, ⟨fun _ => hneg, fun _ => by linarith⟩, mantissa_eq i1 i2 e1, ?_, by rw [e1, e2], fun _ => by linarith,
      fun h => absurd h (by linarith)⟩
    · rw [abs_neg, abs_of_pos vp]; exact leadPos_unique v0 v1
    · rw [show -z - v = -(z - -v) by ring, abs_neg]; exact z1
  · rw [abs_of_pos hpos] at *
    obtain ⟨⟨z, z0, z1, z2⟩, v', v0, v1, v2⟩ := near_pos hpos h1 h2 hn rfl (i4 hpos.le) i3
    have vp := lt_of_lt_of_le (ten_pos e) v0
    refine ⟨v', z, vp.ne', ?_, ⟨fun h => absurd h (by linarith), fun h => absurd h (by linarith)⟩, mantissa_eq i1 i2 (by rw [Fmt.intMantissa, v2]), z1,
      by rw [Fmt.intMantissa, Fmt.intMantissa, z2, v2], fun h => absurd h (by linarith), fun _ => z0⟩
    rw [abs_of_pos vp]; exact leadPos_unique v0 v1

/-- the same for zero -/
theorem mantissa_zero {x : Dbl} (h : Is x 0) {n e : ℤ} (k1 : -300 ≤ n - 1 - e) (k2 : n - 1 - e ≤ 308) : mantissa x n e = Fmt.mantissa 0 n e := by
  obtain ⟨y, i1, i2, i3, i4, i5⟩ := intMantissa_is h k1 k2 (by rw [abs_zero, zero_mul]; positivity)
  have : y = 0 := le_antisymm (i5 le_rfl) (i4 le_rfl)
  exact mantissa_eq i1 i2 (by rw [Fmt.intMantissa, zero_mul, this])

/-! ## the whole text -/

/-- the rounding of two numbers with the same integer -/
theorem rounds_transfer {a b : ℝ} {n e : ℤ} (h : Fmt.intMantissa a n e = Fmt.intMantissa b n e) {y : ℝ} (hb : RoundsTo (e - n + 1) |b| y) : RoundsTo (e - n + 1) |a| y := by
  have h1 := intMantissa_spec a n e
  rw [h] at h1
  rwa [roundsTo_eq hb (intMantissa_spec b n e)]

/-- What `format` prints, if `ndigits` returned `nd` digits for the number `t`.  The printed uncertainty is the rounding of a number `zt` near to `t`, and the printed mean of a number `zv` near to
the mean `v`. -/
structure Printed (v t : ℝ) (nd : ℕ) (sep out M S : List Char) (E : Option ℤ) (zv zt : ℝ) (e cs pl : ℤ) : Prop where
  lay : Layout out (decide (v < 0)) M S sep E
  numM : Numeral M
  numS : Numeral S
  sigS : sigDigits S = nd
  lo : 10 ^ e * (1 - 10 ^ (-13 : ℤ)) ≤ t
  hi : t < 10 ^ (e + 1)
  cs01 : (cs = 0 ∧ decVal S * 10 ^ scale E ≠ 10 ^ (e + 1)) ∨ (cs = 1 ∧ decVal S * 10 ^ scale E = 10 ^ (e + 1))
  plE : pl = e + cs - nd + 1
  decS : scale E - decimals S = pl
  nearS : |zt - t| ≤ 4 * 10 ^ (-16 : ℤ) * t
  valS : RoundsTo (e - nd + 1) zt (decVal S * 10 ^ scale E)
  nearM : |zv - v| ≤ 4 * 10 ^ (-16 : ℤ) * |v|
  valM : RoundsTo pl |zv| (decVal M * 10 ^ scale E) ∨
    (pl = 0 ∧ ∃ j : ℕ, 1 ≤ j ∧ j < nd ∧ RoundsTo 0 |zv| (10 ^ j) ∧ |v| < 10 ^ j)

set_option maxHeartbeats 1000000 in
theorem formatFin_is {g : Fmt} {mu s s1 : Dbl} {v t : ℝ} {r : FP g} {nd : ℕ} (hd : ndigits s r = some ((nd : ℤ), s1)) (ht : Is s1 t) (hv : Is mu v) (h1 : 1 ≤ nd) (h2 : nd ≤ 13)
    (t1 : 10 ^ (-291 : ℤ) ≤ t) (t2 : t ≤ 10 ^ (291 : ℤ)) (hvt : |v| ≤ 10 ^ (12 - nd : ℤ) * t) (sep : List Char) :
    ∃ out M S E zv zt e cs pl, formatFin mu s r sep = some out ∧ Printed v t nd sep out M S E zv zt e cs pl := by
  have t0 : 0 < t := lt_of_lt_of_le (ten_pos _) t1
  obtain ⟨e, he, -, a1, a2, -⟩ := exponent_is ht t0.ne'
  rw [abs_of_pos t0] at a1 a2
  have dlt : (10 : ℝ) ^ (-13 : ℤ) ≤ 1 / 2 := by norm_num
  have e1 : -291 < e + 1 := (zpow_lt_zpow_iff_right₀ (by norm_num : (1 : ℝ) < 10)).1 (lt_of_le_of_lt t1 a2)
  have low : ∀ {a : ℝ} {x : ℤ}, 10 ^ x * (1 - 10 ^ (-13 : ℤ)) ≤ a → 10 ^ x ≤ 2 * a := by
    intro a x h
    have := ten_pos x
    generalize (10 : ℝ) ^ (-13 : ℤ) = d at *
    nlinarith
  have e2 : e < 292 := by
    refine (zpow_lt_zpow_iff_right₀ (by norm_num : (1 : ℝ) < 10)).1 (lt_of_le_of_lt (low a1) ?_)
    have : (10 : ℝ) ^ (292 : ℤ) = 10 * 10 ^ (291 : ℤ) := ten_succ 291
    have := ten_pos 291
    generalize (10 : ℝ) ^ (291 : ℤ) = B at *
    generalize (10 : ℝ) ^ (292 : ℤ) = B' at *
    linarith
  obtain ⟨t', zt, t'0, t'e, t's, tm, tz, tzm, -, tzp⟩ := mantissa_is ht (n := nd) (e := e) t0.ne' (by rw [abs_of_pos t0]; exact a1) (by rw [abs_of_pos t0]; exact a2)
    (by omega) (by omega) (by omega)
  rw [abs_of_pos t0] at tz
  have t'p : 0 < t' := by
    rcases lt_or_gt_of_ne t'0 with h | h
    · exact absurd (t's.1 h) (by linarith)
    · exact h
  obtain ⟨smant, cs, hsm, -, -, -, -, hcs⟩ := mantissa_spec (x := t') (n := nd) (e := e) (Or.inl ⟨t'0, t'e.symm⟩)
  have cs01 : cs = 0 ∨ cs = 1 := hcs.imp (fun h => h.1) fun h => h.1
  -- the mean
  obtain ⟨v', zv, ev, m1, m2, m3, m4, m5, m6, m7⟩ : ∃ v' zv ev, (if CCmp.eqb mu 0 = true then some (e - (nd : ℤ) - 1) else exponent mu) = some ev ∧
      (if v' ≠ 0 then Fmt.exponent v' else some (e - (nd : ℤ) - 1)) = some ev ∧ (v' < 0 ↔ v < 0) ∧
      mantissa mu (nd + ev - (e + cs)) ev = Fmt.mantissa v' (nd + ev - (e + cs)) ev ∧ |zv - v| ≤ 4 * 10 ^ (-16 : ℤ) * |v| ∧
      Fmt.intMantissa zv (nd + ev - (e + cs)) ev = Fmt.intMantissa v' (nd + ev - (e + cs)) ev ∧ (v' ≠ 0 → |v| < 10 ^ (leadPos |v'| + 1)) := by
    by_cases hv0 : v = 0
    · subst hv0
      refine ⟨0, 0, e - nd - 1, ?_, by simp, Iff.rfl, mantissa_zero hv (by omega) (by omega), by simp, rfl, fun h => absurd rfl h⟩
      rw [if_pos ((is_eqb hv is_zero).2 rfl)]
    · obtain ⟨ev, hev, -, b1, b2, -⟩ := exponent_is hv hv0
      have hle : nd + ev - (e + cs) ≤ 13 := by
        have c1 := low b1
        have c2 : 10 ^ ev < (10 : ℝ) ^ (14 - nd + e) := by
          have h3 : (10 : ℝ) ^ (14 - nd + e) = 10 * (10 ^ (12 - nd : ℤ) * 10 ^ (e + 1)) := by
            rw [← zpow_add₀ (by norm_num), ← ten_succ]; congr 1; ring
          have h4 : (10 : ℝ) ^ (12 - nd : ℤ) * t < 10 ^ (12 - nd : ℤ) * 10 ^ (e + 1) := mul_lt_mul_of_pos_left a2 (ten_pos _)
          have := ten_pos (e + 1)
          have := ten_pos (12 - nd)
          have : (0 : ℝ) < 10 ^ (12 - nd : ℤ) * 10 ^ (e + 1) := by positivity
          rw [h3]
          linarith
        have := (zpow_lt_zpow_iff_right₀ (by norm_num : (1 : ℝ) < 10)).1 c2
        omega
      obtain ⟨v', zv, n1, n2, n3, n4, n5, n6, -⟩ := mantissa_is hv (n := nd + ev - (e + cs)) (e := ev) hv0 b1 b2 hle (by omega) (by omega)
      refine ⟨v', zv, ev, ?_, ?_, n3, n4, n5, n6, fun _ => by rw [n2]; exact b2⟩
      · rw [if_neg (by rw [is_eqb hv is_zero]; exact hv0), hev]
      · rw [if_pos n1, exponent_eq n1, n2]
  have run : formatFin mu s r sep = Fmt.formatFin v' t' nd sep := by
    unfold formatFin Fmt.formatFin
    rw [hd, ndigits_int t'p, Option.bind_some, Option.bind_some]
    simp only
    rw [he, exponent_eq t'0, t'e, Option.bind_some, Option.bind_some, m1, m2, Option.bind_some, Option.bind_some, tm, hsm, Option.bind_some, Option.bind_some]
    simp only
    rw [m4]
    have : CCmp.ltb mu 0 = true ↔ v' < 0 := by rw [is_ltb hv is_zero, m3]
    simp only [this]
  obtain ⟨out, M, S, E, cs', pl, f1, f2, f3, f4, sh⟩ := formatFin_shape (mu := v') (ndigits_int (n := nd) t'p) t'0 (by exact_mod_cast h1) sep
  rw [abs_of_pos t'p] at f3 f4 t'e hcs
  have valS := sh.valS
  rw [abs_of_pos t'p] at valS
  rw [t'e] at f3 f4 valS
  have hcs' : cs' = cs := by
    rcases hcs with ⟨h, hc⟩ | ⟨h, -, hc⟩ <;> rcases f3 with ⟨h', hc'⟩ | ⟨h', hc'⟩
    · rw [h, h']
    · exact absurd hc' hc
    · exact absurd hc hc'
    · rw [h, h']
  subst hcs'
  have tb := leadPos_spec t'p
  rw [t'e] at tb
  have zt0 : 0 ≤ zt := tzp t0
  have valS' : RoundsTo (e - nd + 1) zt (decVal S * 10 ^ scale E) := by
    have := rounds_transfer tzm (y := decVal S * 10 ^ scale E) (by rw [abs_of_pos t'p]; exact valS)
    rwa [abs_of_nonneg zt0] at this
  have plE : ev - (nd + ev - (e + cs')) + 1 = pl := by omega
  have sv0 : ∀ y, RoundsTo pl |v'| y → RoundsTo pl |zv| y := by
    intro y hy
    have := rounds_transfer m6 (y := y) (by rw [plE]; exact hy)
    rwa [plE] at this
  have hnear := m5
  refine ⟨out, M, S, E, zv, zt, e, cs', pl, by rw [run, f1], ⟨?_, sh.numM, sh.numS, by exact_mod_cast sh.sigS, a1, a2, ?_, f4, sh.decS, tz, valS', m5, ?_⟩⟩
  · rw [show decide (v < 0) = decide (v' < 0) by rw [decide_eq_decide]; exact m3.symm]; exact f2
  · rcases f3 with ⟨h, hc⟩ | ⟨h, hc⟩
    · refine Or.inl ⟨h, fun h' => hc ?_⟩
      rw [h'] at valS
      exact ⟨e + 1, by omega, valS.2.1, tb.2⟩
    · refine Or.inr ⟨h, ?_⟩
      have := carries_rounds t'p hc
      rw [t'e] at this
      exact roundsTo_eq valS this
  · by_cases hl : LostDigit pl nd v'
    · right
      obtain ⟨l1, l2, l3⟩ := hl
      have v'0 : v' ≠ 0 := by
        rintro rfl
        rw [abs_zero] at l2
        exact not_carries_zero l2
      have hr := carries_rounds (abs_pos.2 v'0) l2
      obtain ⟨c1, c2⟩ := (carries_iff (abs_pos.2 v'0)).1 l2
      have c3 := (leadPos_spec (abs_pos.2 v'0)).1
      have c4 : leadPos |v'| < nd - 1 := (zpow_lt_zpow_iff_right₀ (by norm_num : (1 : ℝ) < 10)).1 (lt_of_le_of_lt c3 l3)
      obtain ⟨j, hj⟩ : ∃ j : ℕ, leadPos |v'| + 1 = j := ⟨(leadPos |v'| + 1).toNat, by omega⟩
      have b := m7 v'0
      rw [hj, zpow_natCast] at b hr
      refine ⟨l1, j, by omega, by omega, ?_, b⟩
      have := sv0 (10 ^ j) (by rw [l1]; exact hr)
      rwa [l1] at this
    · exact Or.inl (sv0 _ (sh.valM hl))

/-- the uncertainty is rounded to the place of its last digit -/
theorem Printed.valS' {v t : ℝ} {nd : ℕ} {sep out M S : List Char} {E : Option ℤ} {zv zt : ℝ} {e cs pl : ℤ} (h : Printed v t nd sep out M S E zv zt e cs pl) (hnd : 1 ≤ nd) :
    RoundsTo pl zt (decVal S * 10 ^ scale E) := by
  have h1 := h.plE
  rcases h.cs01 with ⟨h2, -⟩ | ⟨h2, h3⟩
  · rw [h1, h2, add_zero]; exact h.valS
  · have h4 := h.valS
    rw [h3] at h4 ⊢
    have h5 : (10 : ℝ) ^ (e - nd + 1) ≤ 10 ^ pl := ten_mono (by omega)
    refine ⟨⟨10 ^ (nd - 1), ?_⟩, by linarith [h4.2.1], by linarith [h4.2.2]⟩
    push_cast
    rw [← zpow_natCast, ← zpow_add₀ (by norm_num)]
    congr 1
    rw [Nat.cast_sub hnd]
    omega

end FmtFP
end Unc
