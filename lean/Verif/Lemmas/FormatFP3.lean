import Verif.Lemmas.FormatFP2

/-!
# Formatting in double precision: the default number of digits, and failures
-/

namespace Unc
open Spec Ext

namespace FmtFP

/-! ## logarithms -/

theorem logb_upper {x c : ℝ} {j : ℤ} (hx : 0 < x) (hc : 0 ≤ c) (h : x ≤ (1 + c) * 10 ^ j) : Real.logb 10 x ≤ j + c / 2 := by
  refine (Real.logb_le_logb_of_le (by norm_num) hx h).trans ?_
  rw [logb_mul_ten (by linarith), Real.logb]
  have h1 := Real.log_le_sub_one_of_pos (x := 1 + c) (by linarith)
  have h2 := log_ten.2
  have : Real.log (1 + c) / Real.log 10 ≤ c / 2 := by
    rw [div_le_div_iff₀ (by linarith) (by norm_num)]
    nlinarith
  linarith

theorem logb_upper' {x c : ℝ} {j : ℤ} (hx : 0 < x) (hc : 0 ≤ c) (hc1 : c < 1) (h : x ≤ (1 - c) * 10 ^ j) : Real.logb 10 x ≤ j - c * (100 / 231) := by
  refine (Real.logb_le_logb_of_le (by norm_num) hx h).trans ?_
  rw [logb_mul_ten (by linarith), Real.logb]
  have h1 := Real.log_le_sub_one_of_pos (x := 1 - c) (by linarith)
  have h2 := log_ten
  have : Real.log (1 - c) / Real.log 10 ≤ -(c * (100 / 231)) := by
    rw [div_le_iff₀ (by linarith)]
    nlinarith [h2.1]
  linarith

theorem logb_lower {x c : ℝ} {j : ℤ} (hc : 0 ≤ c) (hc1 : c ≤ 1 / 2) (h : (1 - c) * 10 ^ j ≤ x) : j - c ≤ Real.logb 10 x := by
  have hp : 0 < (1 - c) * 10 ^ j := mul_pos (by linarith) (ten_pos j)
  refine le_trans ?_ (Real.logb_le_logb_of_le (by norm_num) hp h)
  rw [logb_mul_ten (by linarith), Real.logb]
  have h1 := Real.one_sub_inv_le_log_of_pos (x := 1 - c) (by linarith)
  have h2 := log_ten.2
  have h3 : -(2 * c) ≤ 1 - (1 - c)⁻¹ := by
    have : (1 - c)⁻¹ ≤ 1 + 2 * c := by
      rw [inv_le_iff_one_le_mul₀ (by linarith)]
      nlinarith
    linarith
  have : -c ≤ Real.log (1 - c) / Real.log 10 := by
    rw [le_div_iff₀ (by linarith)]
    nlinarith
  linarith

theorem logb_lower' {x c : ℝ} {j : ℤ} (hc : 0 ≤ c) (hc1 : c ≤ 1) (h : (1 + c) * 10 ^ j ≤ x) : j + c / 2 * (100 / 231) ≤ Real.logb 10 x := by
  have hp : 0 < (1 + c) * 10 ^ j := mul_pos (by linarith) (ten_pos j)
  refine le_trans ?_ (Real.logb_le_logb_of_le (by norm_num) hp h)
  rw [logb_mul_ten (by linarith), Real.logb]
  have h1 := Real.one_sub_inv_le_log_of_pos (x := 1 + c) (by linarith)
  have h2 := log_ten
  have h3 : c / 2 ≤ 1 - (1 + c)⁻¹ := by
    have : (1 + c)⁻¹ ≤ 1 - c / 2 := by
      rw [inv_le_iff_one_le_mul₀ (by linarith)]
      nlinarith
    linarith
  have : c / 2 * (100 / 231) ≤ Real.log (1 + c) / Real.log 10 := by
    rw [le_div_iff₀ (by linarith)]
    nlinarith [h2.1]
  linarith

/-- three and a bit: the square root of ten -/
theorem logb_sqrt {a : ℝ} (h0 : 0 < a) : (a ≤ 316 / 100 → Real.logb 10 a ≤ 4997 / 10000) ∧ (317 / 100 ≤ a → 5005 / 10000 ≤ Real.logb 10 a) := by
  have hsq : Real.logb 10 (a ^ 2) = 2 * Real.logb 10 a := by rw [Real.logb_pow]; norm_num
  constructor
  · intro h
    have := logb_upper' (x := a ^ 2) (c := 144 / 100000) (j := 1) (by positivity) (by norm_num) (by norm_num) (by norm_num; nlinarith)
    rw [hsq] at this
    norm_num at this
    linarith
  · intro h
    have h1 := logb_lower' (x := a ^ 2) (c := 489 / 100000) (j := 1) (by norm_num) (by norm_num) (by norm_num; nlinarith)
    rw [hsq] at h1
    norm_num at h1
    linarith

/-! ## the default number of digits -/

theorem flt_half : fltFmt.rd (1 / 2) = 1 / 2 := by
  have := ieee_int (p := 24) (emin := -126) (by norm_num) (by norm_num) 1 (-1) (by norm_num) (by norm_num)
  norm_num at this
  norm_num
  exact this

/-- the two cases of the number of digits -/
theorem naive_default {x : Dbl} {v : ℝ} (h : Is x v) (h0 : v ≠ 0) {r : FP fltFmt} (hr : r.val = 3 / 2) {e : ℤ} (he : |e| < 2 ^ 23)
    (e1 : (e : ℝ) ≤ fltFmt.rd (dblFmt.rd (Real.logb 10 |v|))) (e2 : fltFmt.rd (dblFmt.rd (Real.logb 10 |v|)) < e + 1) :
    (fltFmt.rd (dblFmt.rd (Real.logb 10 |v|)) ≤ e + 4999 / 10000 → naiveNdigits x r = 2) ∧ (e + 1 / 2 ≤ fltFmt.rd (dblFmt.rd (Real.logb 10 |v|)) → naiveNdigits x r = 1) := by
  have hfl : ⌊(3 / 2 : ℝ)⌋ = 1 := by rw [Int.floor_eq_iff]; norm_num
  rw [naive_val h h0, hr, hfl]
  set A := fltFmt.rd (dblFmt.rd (Real.logb 10 |v|))
  have fA : ⌊A⌋ = e := by rw [Int.floor_eq_iff]; exact ⟨e1, e2⟩
  have hh : fltFmt.rd (3 / 2 - ((1 : ℤ) : ℝ)) = 1 / 2 := by rw [← flt_half]; norm_num
  rw [fA, flt_int e (he.trans (by norm_num)), hh]
  constructor
  · intro h1
    rw [if_pos]
    · norm_num
    · have h2 := fltFmt.mono (show A - e ≤ 4999 / 10000 by linarith)
      refine lt_of_le_of_lt h2 ?_
      have h3 := (abs_le.1 (flt_err (4999 / 10000))).2
      have h4 : (2 : ℝ) ^ (-24 : ℤ) * |4999 / 10000| + 2 ^ (-150 : ℤ) ≤ 1 / 100000 := by
        rw [abs_of_pos (by norm_num)]
        norm_num
      have h5 := h3.trans h4
      linarith only [h5]
  · intro h1
    rw [if_neg, add_zero]
    have h2 := fltFmt.mono (show 1 / 2 ≤ A - e by linarith)
    rw [flt_half] at h2
    linarith

/-- the logarithm is not less than its integer part -/
theorem log_ge {v : ℝ} {L : ℤ} (hL : |L| < 2 ^ 23) (h : (L : ℝ) ≤ Real.logb 10 |v|) : (L : ℝ) ≤ fltFmt.rd (dblFmt.rd (Real.logb 10 |v|)) := by
  have h1 := fltFmt.mono (dblFmt.mono h)
  rwa [dbl_int L (hL.trans (by norm_num)), flt_int L (hL.trans (by norm_num))] at h1

theorem log_le {v : ℝ} {L : ℤ} (hL : |L| < 2 ^ 23) (h : Real.logb 10 |v| ≤ L) : fltFmt.rd (dblFmt.rd (Real.logb 10 |v|)) ≤ L := by
  have h1 := fltFmt.mono (dblFmt.mono h)
  rwa [dbl_int L (hL.trans (by norm_num)), flt_int L (hL.trans (by norm_num))] at h1

theorem leadPos_bound {v : ℝ} (v1 : 10 ^ (-280 : ℤ) ≤ v) (v2 : v ≤ 10 ^ (280 : ℤ)) : -281 ≤ leadPos v ∧ leadPos v ≤ 280 := by
  have v0 : 0 < v := lt_of_lt_of_le (ten_pos _) v1
  obtain ⟨l1, l2⟩ := leadPos_spec v0
  have h1 := (zpow_lt_zpow_iff_right₀ (by norm_num : (1 : ℝ) < 10)).1 (lt_of_le_of_lt v1 l2)
  have h2 := (zpow_le_zpow_iff_right₀ (by norm_num : (1 : ℝ) < 10)).1 (l1.trans v2)
  omega

theorem naive_two {x : Dbl} {v : ℝ} (h : Is x v) (v1 : 10 ^ (-280 : ℤ) ≤ v) (v2 : v ≤ 10 ^ (280 : ℤ)) {r : FP fltFmt} (hr : r.val = 3 / 2) (hl : leadDigits v ≤ 316 / 100) :
    naiveNdigits x r = 2 := by
  have v0 : 0 < v := lt_of_lt_of_le (ten_pos _) v1
  obtain ⟨b1, b2⟩ := leadPos_bound v1 v2
  obtain ⟨d1, d2, d3⟩ := leadDigits_range v0
  have hlog : Real.logb 10 |v| = Real.logb 10 (leadDigits v) + leadPos v := by
    rw [abs_of_pos v0]
    conv_lhs => rw [d3]
    exact logb_mul_ten (by linarith) _
  have hnn : 0 ≤ Real.logb 10 (leadDigits v) := Real.logb_nonneg (by norm_num) d1
  have hup := (logb_sqrt (by linarith : 0 < leadDigits v)).1 hl
  have herr := (abs_le.1 (log_flt h v0.ne')).2
  have s : (3 : ℝ) * 10 ^ (-5 : ℤ) ≤ 1 / 10000 := by norm_num
  generalize (3 : ℝ) * 10 ^ (-5 : ℤ) = c at *
  have hb : |leadPos v| < 2 ^ 23 := abs_lt.2 ⟨by omega, by omega⟩
  have h1 := log_ge (v := v) hb (by rw [hlog]; linarith)
  rw [hlog] at h1 herr
  refine (naive_default h v0.ne' hr hb (by rw [hlog]; exact h1) ?_).1 ?_ <;> rw [hlog] <;> linarith

theorem naive_one {x : Dbl} {v : ℝ} (h : Is x v) (v1 : 10 ^ (-280 : ℤ) ≤ v) (v2 : v ≤ 10 ^ (280 : ℤ)) {r : FP fltFmt} (hr : r.val = 3 / 2) (hl : 317 / 100 ≤ leadDigits v)
    (hl' : leadDigits v ≤ 99 / 10) : naiveNdigits x r = 1 := by
  have v0 : 0 < v := lt_of_lt_of_le (ten_pos _) v1
  obtain ⟨b1, b2⟩ := leadPos_bound v1 v2
  obtain ⟨d1, d2, d3⟩ := leadDigits_range v0
  have hlog : Real.logb 10 |v| = Real.logb 10 (leadDigits v) + leadPos v := by
    rw [abs_of_pos v0]
    conv_lhs => rw [d3]
    exact logb_mul_ten (by linarith) _
  have hnn : 0 ≤ Real.logb 10 (leadDigits v) := Real.logb_nonneg (by norm_num) d1
  have hlo := (logb_sqrt (by linarith : 0 < leadDigits v)).2 hl
  have hup := logb_upper' (x := leadDigits v) (c := 1 / 100) (j := 1) (by linarith) (by norm_num) (by norm_num) (by norm_num; linarith)
  norm_num at hup
  obtain ⟨herr1, herr2⟩ := abs_le.1 (log_flt h v0.ne')
  have s : (3 : ℝ) * 10 ^ (-5 : ℤ) ≤ 1 / 10000 := by norm_num
  generalize (3 : ℝ) * 10 ^ (-5 : ℤ) = c at *
  have hb : |leadPos v| < 2 ^ 23 := abs_lt.2 ⟨by omega, by omega⟩
  have h1 := log_ge (v := v) hb (by rw [hlog]; linarith)
  rw [hlog] at h1 herr1 herr2
  refine (naive_default h v0.ne' hr hb (by rw [hlog]; exact h1) ?_).2 ?_ <;> rw [hlog] <;> linarith

/-- a logarithm which is an integer in `float` -/
theorem naive_near {x : Dbl} {v : ℝ} (h : Is x v) (h0 : v ≠ 0) {r : FP fltFmt} (hr : r.val = 3 / 2) {j : ℤ} (hj : |j| < 2 ^ 19)
    (hA : fltFmt.rd (dblFmt.rd (Real.logb 10 |v|)) = j) : naiveNdigits x r = 2 := by
  refine (naive_default h h0 hr (e := j) (hj.trans (by norm_num)) hA.ge ?_).1 ?_ <;> rw [hA] <;> linarith

/-- a number near to a power of ten other than one -/
theorem log_near {x : Dbl} {v : ℝ} (h : Is x v) (h0 : 0 < v) {j : ℤ} (hj0 : j ≠ 0) (hj : |j| < 2 ^ 19) (h1 : (1 - 4 * 10 ^ (-16 : ℤ)) * 10 ^ j ≤ v)
    (h2 : v ≤ (1 + 4 * 10 ^ (-16 : ℤ)) * 10 ^ j) : fltFmt.rd (dblFmt.rd (Real.logb 10 |v|)) = j := by
  obtain ⟨-, err, -⟩ := log10Abs_is h h0.ne'
  refine flt_near hj0 hj ?_
  have s1 : (4 : ℝ) * 10 ^ (-16 : ℤ) ≤ 1 / 2 := by norm_num
  have s0 : (0 : ℝ) ≤ 4 * 10 ^ (-16 : ℤ) := by positivity
  have s2 : (4 : ℝ) * 10 ^ (-16 : ℤ) + 4 * 10 ^ (-14 : ℤ) ≤ 10 ^ (-10 : ℤ) := by norm_num
  have l1 := logb_lower s0 s1 h1
  have l2 := logb_upper h0 s0 h2
  rw [abs_of_pos h0] at err ⊢
  obtain ⟨e1, e2⟩ := abs_le.1 err
  generalize (4 : ℝ) * 10 ^ (-16 : ℤ) = c at *
  generalize (4 : ℝ) * 10 ^ (-14 : ℤ) = d at *
  generalize (10 : ℝ) ^ (-10 : ℤ) = b at *
  rw [abs_le]
  constructor <;> linarith

/-- The result of `ndigits` for the leading digits from 9.51: two digits. -/
theorem ndigits_carry {s : Dbl} {v : ℝ} (h : Is s v) (v1 : 10 ^ (-280 : ℤ) ≤ v) (v2 : v ≤ 10 ^ (280 : ℤ)) {r : FP fltFmt} (hr : r.val = 3 / 2) (hl : 951 / 100 ≤ leadDigits v)
    (h1 : naiveNdigits s r = 1) : ∃ s1, ndigits s r = some (2, s1) := by
  have v0 : 0 < v := lt_of_lt_of_le (ten_pos _) v1
  obtain ⟨b1, b2⟩ := leadPos_bound v1 v2
  obtain ⟨d1, d2, d3⟩ := leadDigits_range v0
  obtain ⟨e, he, hef, a1, a2, -⟩ := exponent_is h v0.ne'
  rw [abs_of_pos v0] at a1 a2
  obtain ⟨L, hL⟩ : ∃ L, L = leadPos v := ⟨_, rfl⟩
  rw [← hL] at b1 b2 d3
  have pL := ten_pos L
  have vlt : v < 10 ^ (L + 1) := by rw [hL]; exact (leadPos_spec v0).2
  have vge : 951 / 100 * 10 ^ L ≤ v := by rw [d3]; exact mul_le_mul_of_nonneg_right hl pL.le
  have hb : |L + 1| < 2 ^ 19 := abs_lt.2 ⟨by omega, by omega⟩
  have logle : Real.logb 10 |v| ≤ ((L + 1 : ℤ) : ℝ) := by
    rw [abs_of_pos v0, Real.logb_le_iff_le_rpow (by norm_num) v0, Real.rpow_intCast]
    exact vlt.le
  have hA := log_le (v := v) (L := L + 1) (hb.trans (by norm_num)) logle
  have eL : e = L := by
    have g1 : (10 : ℝ) ^ e < 10 ^ (L + 2) := by
      have dlt : (10 : ℝ) ^ (-13 : ℤ) ≤ 1 / 1000 := by norm_num
      have := ten_pos e
      rw [show L + 2 = L + 1 + 1 by ring, ten_succ (L + 1)]
      generalize (10 : ℝ) ^ (-13 : ℤ) = d at *
      nlinarith
    have g2 : (10 : ℝ) ^ L < 10 ^ (e + 1) := by nlinarith
    have g3 := (zpow_lt_zpow_iff_right₀ (by norm_num : (1 : ℝ) < 10)).1 g1
    have g4 := (zpow_lt_zpow_iff_right₀ (by norm_num : (1 : ℝ) < 10)).1 g2
    by_contra hne
    have e1 : e = L + 1 := by omega
    have h3 : (e : ℝ) ≤ dblFmt.rd (Real.logb 10 |v|) := by rw [hef]; exact Int.floor_le _
    have h4 := fltFmt.mono h3
    rw [e1, flt_int _ (hb.trans (by norm_num))] at h4
    have := naive_near h v0.ne' hr hb (le_antisymm hA h4)
    omega
  subst eL
  have pk := ten_pos (1 - 1 - e)
  have ek : (10 : ℝ) ^ e * 10 ^ (1 - 1 - e) = 1 := by rw [← zpow_add₀ (by norm_num)]; norm_num
  have T10 : v * 10 ^ (1 - 1 - e) < 10 := by
    have := mul_lt_mul_of_pos_right a2 pk
    rw [ten_succ, mul_assoc, ek, mul_one] at this
    exact this
  have T9 : 951 / 100 ≤ v * 10 ^ (1 - 1 - e) := by
    have := mul_le_mul_of_nonneg_right vge pk.le
    rw [mul_assoc, ek, mul_one] at this
    exact this
  obtain ⟨y, i1, i2, i3, i4, -⟩ := intMantissa_is h (n := 1) (e := e) (by omega) (by omega) (by
    rw [abs_of_pos v0]; exact T10.le.trans (by norm_num))
  rw [abs_of_pos v0] at i3
  have hm : Fmt.cround y = 10 := by
    have s1 : (3 : ℝ) * 10 ^ (-16 : ℤ) * (v * 10 ^ (1 - 1 - e)) + 10 ^ (-300 : ℤ) ≤ 1 / 1000 := by
      have s2 : (10 : ℝ) ^ (-300 : ℤ) ≤ 1 / 10000 := le_trans (ten_mono (show (-300 : ℤ) ≤ -4 by norm_num)) (by norm_num)
      have s3 : (3 : ℝ) * 10 ^ (-16 : ℤ) * (v * 10 ^ (1 - 1 - e)) ≤ 3 * 10 ^ (-16 : ℤ) * 10 := mul_le_mul_of_nonneg_left T10.le (by positivity)
      have s4 : (3 : ℝ) * 10 ^ (-16 : ℤ) * 10 ≤ 1 / 10000 := by norm_num
      refine (add_le_add (s3.trans s4) s2).trans (by norm_num)
    obtain ⟨j1, j2⟩ := abs_le.1 (i3.trans s1)
    clear i3 s1
    generalize v * (10 : ℝ) ^ (1 - 1 - e) = T at *
    exact cround_eval (N := 10) (i4 v0.le) (by push_cast; linarith only [j1, T9]) (by push_cast; linarith only [j2, T10])
  rw [hm] at i1
  obtain ⟨t, q1, q2, q3, -⟩ := is_mul_pow10 i1 (k := e) (by omega) (by omega) (by
    push_cast
    rw [abs_of_pos (by norm_num)]
    calc (10 : ℝ) * 10 ^ e = 10 ^ (e + 1) := (ten_succ e).symm
      _ ≤ _ := ten_mono (by omega))
  have tiny : (10 : ℝ) ^ (-300 : ℤ) ≤ 10 ^ (-16 : ℤ) * 10 ^ (e + 1) := by
    rw [← zpow_add₀ (by norm_num)]; exact ten_mono (by omega)
  have tn : |t - 10 ^ (e + 1)| ≤ 4 * 10 ^ (-16 : ℤ) * 10 ^ (e + 1) := by
    push_cast at q2
    rw [abs_of_pos (show (0 : ℝ) < 10 by norm_num), ← ten_succ] at q2
    refine q2.trans ?_
    generalize (10 : ℝ) ^ (-300 : ℤ) = B at *
    generalize (10 : ℝ) ^ (-16 : ℤ) = C at *
    linarith
  -- the power of ten is one, or not
  have t1 : e + 1 = 0 → t = 1 := by
    intro h0
    have he : e = -1 := by omega
    subst he
    have h5 : Is (intMantissa s 1 (-1) * pow10 dblFmt dblMax (-1)) 1 := by
      obtain ⟨a, ha, g1, g2⟩ := i1
      obtain ⟨b, hb, g3, g4⟩ : Is (pow10 dblFmt dblMax (-1)) (dblFmt.rd (10 ^ (-1 : ℤ))) :=
        is_ofReal (le_trans (by norm_num) (one_le_dblMax))
      rw [g1, g3, fin_mul]
      have h6 := is_ofReal (x := 10 * dblFmt.rd (10 ^ (-1 : ℤ))) (by
        have h8 := (abs_le.1 (dbl_err (10 ^ (-1 : ℤ)))).2
        have h9 := dblFmt.rd_nonneg (show (0 : ℝ) ≤ 10 ^ (-1 : ℤ) by positivity)
        have hd := dblFmt.mono (show (10 : ℝ) ^ (-1 : ℤ) ≤ 1 by norm_num)
        rw [dblFmt.one] at hd
        rw [abs_of_nonneg (by linarith)]
        refine le_trans (show _ ≤ (10 : ℝ) ^ (308 : ℤ) from ?_) dblMax_ge
        refine le_trans (show _ ≤ (10 : ℝ) ^ (1 : ℤ) by rw [zpow_one]; linarith) (ten_mono (by norm_num)))
      rw [dbl_tenth] at h6
      have h7 : ofFP dblMax (a * b) = ofReal dblFmt dblMax (10 * dblFmt.rd (10 ^ (-1 : ℤ))) := by
        have h8 : a * b = FP.round dblFmt (10 * dblFmt.rd (10 ^ (-1 : ℤ))) := by
          apply FP.ext
          change dblFmt.rd (a.val * b.val) = dblFmt.rd _
          rw [g2, g4]
          push_cast
          rfl
        rw [h8, ofReal]
      rw [h7]
      exact h6
    obtain ⟨a, ha, g1, g2⟩ := h5
    obtain ⟨b, hb, g3, g4⟩ := q1
    rw [g1] at g3
    injection g3 with g5
    rw [← g4, ← g5, g2]
  have c0 : (0 : ℝ) ≤ 4 * 10 ^ (-16 : ℤ) := by positivity
  have c1 : (0 : ℝ) < 1 - 4 * 10 ^ (-16 : ℤ) := by norm_num
  obtain ⟨n1, n2⟩ := abs_le.1 tn
  have lt1 : (1 - 4 * 10 ^ (-16 : ℤ)) * (10 : ℝ) ^ (e + 1) ≤ t := by linarith
  have lt2 : t ≤ (1 + 4 * 10 ^ (-16 : ℤ)) * (10 : ℝ) ^ (e + 1) := by linarith
  have t0 : 0 < t := lt_of_lt_of_le (mul_pos c1 (ten_pos _)) lt1
  have vt : v < t := by
    by_contra hge
    push Not at hge
    by_cases h0 : e + 1 = 0
    · rw [h0, zpow_zero] at vlt
      rw [t1 h0] at hge
      linarith
    · have hp := ten_pos (e + 1)
      have := naive_near h v0.ne' hr hb (log_near h v0 h0 hb (lt1.trans hge) (by nlinarith))
      omega
  have nt : naiveNdigits (intMantissa s 1 e * pow10 dblFmt dblMax e) r = 2 := by
    by_cases h0 : e + 1 = 0
    · refine naive_near q1 t0.ne' hr (j := 0) (by norm_num) ?_
      rw [t1 h0, abs_one, Real.logb_one, dblFmt.rd_zero, fltFmt.rd_zero]
      norm_num
    · exact naive_near q1 t0.ne' hr hb (log_near q1 t0 h0 hb lt1 lt2)
  refine ⟨intMantissa s 1 e * pow10 dblFmt dblMax e, ?_⟩
  unfold ndigits
  rw [he, h1]
  simp only [Option.map_some]
  rw [if_pos ((is_ltb h q1).2 vt), nt, if_pos (by norm_num)]

/-! ## overflow -/

theorem string_inf (b : Bool) : intMantissaString (inf b : Dbl) = none := by
  have h : CCmp.leb (1 : Dbl) (inf false) = true := by
    rw [one_eq one_le_dblMax]
    simp [CCmp.leb, cmp', ereal]
  have h2 : CSqrt.abs (inf b : Dbl) = inf false := rfl
  unfold intMantissaString fuel
  simp only
  rw [digitsLoop, h2, if_pos h]
  rfl

theorem mantissa_inf {x : Dbl} {n e : ℤ} {b : Bool} (h : intMantissa x n e = inf b) : mantissa x n e = none := by
  unfold mantissa
  simp only
  rw [h, string_inf]
  rfl

theorem ofReal_inf {x : ℝ} (h : 2 * 10 ^ (309 : ℤ) ≤ |x|) : ∃ b, ofReal dblFmt dblMax x = inf b := by
  have h1 : dblMax < |dblFmt.rd x| := by
    have e := dbl_err x
    have s1 : (2 : ℝ) ^ (-53 : ℤ) ≤ 1 / 10 := by norm_num
    have s2 : (2 : ℝ) ^ (-1075 : ℤ) ≤ 1 := zpow_le_one_of_nonpos₀ (by norm_num) (by norm_num)
    have s3 := mul_le_mul_of_nonneg_right s1 (abs_nonneg x)
    have s4 := abs_sub_abs_le_abs_sub x (dblFmt.rd x)
    rw [abs_sub_comm] at s4
    have s5 : (10 : ℝ) ≤ 10 ^ (309 : ℤ) := le_trans (by norm_num) (ten_mono (show (1 : ℤ) ≤ 309 by norm_num))
    have s6 := dblMax_le
    have s7 := e.trans (add_le_add s3 s2)
    generalize (10 : ℝ) ^ (309 : ℤ) = B at *
    linarith only [s4, s5, s6, s7, h]
  refine ⟨decide (dblFmt.rd x < 0), ?_⟩
  unfold ofReal ofFP
  rw [dif_neg (by change ¬ |dblFmt.rd x| ≤ dblMax; exact not_le.2 h1)]
  rfl

theorem pow10_inf {k : ℤ} (hk : 310 ≤ k) : pow10 dblFmt dblMax k = inf false := by
  have h1 : 2 * (10 : ℝ) ^ (309 : ℤ) ≤ |(10 : ℝ) ^ k| := by
    rw [abs_of_pos (ten_pos k)]
    refine le_trans ?_ (ten_mono hk)
    have := ten_succ 309
    have h0 := ten_pos 309
    norm_num only at this
    rw [this]
    exact mul_le_mul_of_nonneg_right (by norm_num) h0.le
  obtain ⟨b, hb⟩ := ofReal_inf h1
  rw [pow10, hb]
  unfold ofReal ofFP at hb
  split_ifs at hb with h2
  injection hb with h3
  rw [← h3]
  congr 1
  exact decide_eq_false (not_lt.2 (dblFmt.rd_nonneg (ten_pos k).le))

theorem intMantissa_inf {x : Dbl} {v : ℝ} (h : Is x v) (h0 : v ≠ 0) {n e : ℤ} (hk : 310 ≤ n - 1 - e) : ∃ b, intMantissa x n e = inf b := by
  obtain ⟨a, ha, rfl, rfl⟩ := h
  rw [intMantissa, pow10_inf hk]
  have h1 : (fin a ha * inf false : Dbl) = inf (xor (isNeg (fin a ha : Dbl)) false) := by
    change mul' _ _ = _
    simp only [mul', isZero, isNeg, decide_eq_false h0, Bool.or_false, Bool.false_eq_true, if_false]
  exact ⟨_, by rw [h1]; rfl⟩

/-- the product overflows -/
theorem intMantissa_over {x : Dbl} {v : ℝ} (h : Is x v) {n e : ℤ} (h1 : -300 ≤ n - 1 - e) (h2 : n - 1 - e ≤ 308) (h3 : 3 * 10 ^ (309 : ℤ) ≤ |v| * 10 ^ (n - 1 - e)) :
    ∃ b, intMantissa x n e = inf b := by
  obtain ⟨w, hw, w0, w1⟩ := is_pow10 h1 h2
  have hk := ten_pos (n - 1 - e)
  have h4 : 2 * 10 ^ (309 : ℤ) ≤ |v * w| := by
    have s1 : ((2 : ℝ) ^ (-53 : ℤ) + 10 ^ (-20 : ℤ)) * 10 ^ (n - 1 - e) ≤ 1 / 10 * 10 ^ (n - 1 - e) := mul_le_mul_of_nonneg_right (by norm_num) hk.le
    have s2 := (abs_le.1 (w1.trans s1)).1
    have s3 : |v| * (9 / 10 * 10 ^ (n - 1 - e)) ≤ |v| * w := mul_le_mul_of_nonneg_left (by linarith) (abs_nonneg v)
    rw [abs_mul, abs_of_nonneg w0]
    have s4 := ten_pos 309
    generalize (10 : ℝ) ^ (309 : ℤ) = B at *
    linarith only [s3, s4, h3]
  obtain ⟨b, hb⟩ := ofReal_inf h4
  obtain ⟨a, ha, rfl, rfl⟩ := h
  obtain ⟨c, hc, g1, rfl⟩ := hw
  refine ⟨b, ?_⟩
  rw [intMantissa, g1, fin_mul]
  have : ofFP dblMax (a * c) = ofReal dblFmt dblMax (a.val * c.val) := rfl
  rw [this, hb]
  rfl

theorem naive_nofrac {f g : Fmt} {M : ℝ} {x : Ext f M} (h : logFrac g x = none) (y : Ext f M) (n : FP g) : naiveNdigits x n ≤ naiveNdigits y n := by
  unfold naiveNdigits
  rw [h]
  rcases logFrac g y with _ | l
  · simp
  · simp only
    split_ifs <;> omega

theorem logFrac_inf_mul {g : Fmt} (b : Bool) (y : Dbl) : logFrac g (inf b * y : Dbl) = none := by
  change logFrac g (mul' (inf b) y) = none
  unfold mul'
  rcases y with _ | c | ⟨a, ha⟩
  · rfl
  · rfl
  · simp only
    split_ifs <;> rfl

/-- `ndigits` does not change a number which is too small -/
theorem ndigits_tiny {g : Fmt} {s : Dbl} {t : ℝ} (ht : Is s t) (h0 : t ≠ 0) {r : FP g} {e : ℤ} (he : exponent s = some e) (hk : 310 ≤ naiveNdigits s r - 1 - e) :
    ndigits s r = some (naiveNdigits s r, s) := by
  obtain ⟨b, hb⟩ := intMantissa_inf ht h0 hk
  unfold ndigits
  rw [he]
  simp only [Option.map_some]
  rw [hb, if_neg (show ¬ naiveNdigits (inf b * pow10 dblFmt dblMax e) r > naiveNdigits s r from not_lt.2 (naive_nofrac (logFrac_inf_mul b _) _ _)), ite_self]

end FmtFP
end Unc
