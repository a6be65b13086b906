import Verif.Lemmas.FormatFP3

/-!
# C69: formatting of `double` numbers

C38–C43 are about exact numbers.  Here the text is computed with `double`, `log10`, `pow` and so on included, and the part written with `float`.
-/

namespace Unc.Props
open Unc Unc.Spec Unc.Ext Unc.FmtFP

theorem isFin_is {x : Dbl} {v : ℝ} (h : Is x v) : isFin x = true := by
  obtain ⟨a, ha, rfl, -⟩ := h
  rfl

theorem is_abs {x : Dbl} {v : ℝ} (h : Is x v) : Is (CSqrt.abs x) |v| := by
  obtain ⟨a, ha, rfl, rfl⟩ := h
  exact ⟨CSqrt.abs a, by rw [FP.val_abs, abs_abs]; exact ha, ofFP_of_le (a := CSqrt.abs a) (by rw [FP.val_abs, abs_abs]; exact ha), FP.val_abs _⟩

theorem fp_leb_one {r : FP fltFmt} : CCmp.leb r 1 = true ↔ r.val ≤ 1 := by
  change decide (r.val ≤ (1 : FP fltFmt).val) = true ↔ _
  rw [decide_eq_true_iff]
  rfl

theorem format_finite {mu s : Dbl} {v t : ℝ} (hmu : Is mu v) (hs : Is s t) (h0 : t ≠ 0) {r : FP fltFmt} (hr : 1 < r.val) (sep : List Char) :
    format mu s r sep = (formatFin mu s r sep).map .ok := by
  unfold format
  rw [if_neg (by rw [fp_leb_one]; exact not_le.2 hr), isFin_is hmu, isFin_is hs, if_neg]
  have : CCmp.eqb s 0 ≠ true := by rw [Ne, is_eqb hs is_zero]; exact h0
  simpa using this

/-! ## what is thrown -/

/-- `format` throws exactly when `errdig` is at most 1, and then `std::invalid_argument`. -/
theorem C69_throws (mu s : Dbl) (r : FP fltFmt) (sep : List Char) (ex : Exn) :
    format mu s r sep = some (.error ex) ↔ ex = .invalidArgument ∧ r.val ≤ 1 := by
  unfold format
  by_cases h : r.val ≤ 1
  · rw [if_pos (fp_leb_one.2 h)]
    simp [h, eq_comm]
  · rw [if_neg (by rwa [fp_leb_one])]
    simp only [h, and_false, iff_false]
    split_ifs
    · simp only [Option.bind_eq_some_iff, Option.map_eq_some_iff]
      rintro ⟨a, -, b, -, hb⟩
      cases hb
    · simp only [Option.map_eq_some_iff]
      rintro ⟨a, -, hb⟩
      cases hb

example : format (1 : Dbl) 1 (1 : FP fltFmt) [] = some (.error .invalidArgument) := (C69_throws _ _ _ _ _).2 ⟨rfl, le_rfl⟩

/-! ## a given number of digits -/

/-- An integer number `N` of digits: the text reads as the mean and the uncertainty rounded to the place of the last digit of the uncertainty, which has `N` digits.  What is rounded is near to the
given numbers.

Missing: more digits, numbers near to the limits of the range, means with many digits (see `C69_assert_false`, `C69_wide_false`), and the lost digit of C39. -/
theorem C69_digits_partial {mu s : Dbl} {v t : ℝ} (hmu : Is mu v) (hs : Is s t) (t1 : 10 ^ (-280 : ℤ) ≤ t) (t2 : t ≤ 10 ^ (280 : ℤ)) {r : FP fltFmt} {N : ℕ} (hr : r.val = N)
    (n1 : 2 ≤ N) (n2 : N ≤ 13) (hvt : |v| ≤ 10 ^ (12 - N : ℤ) * t) (hl : KeepsDigit v t) (sep : List Char) :
    ∃ out mu' s' k, format mu s r sep = some (.ok out) ∧ ReadsD mu' s' N k out sep ∧ Near mu' v ∧ Near s' t := by
  have t0 : 0 < t := lt_of_lt_of_le (ten_pos _) t1
  have hn : (2 : ℝ) ≤ N := by exact_mod_cast n1
  obtain ⟨e, he, -⟩ := exponent_is hs t0.ne'
  obtain ⟨out, mu', s', k, h1, h2, h3, h4⟩ := reads_self (FmtFP.ndigits_int he hr) hs hmu (by omega) n2 t1 t2 hvt hl sep
  exact ⟨out, mu', s', k, by rw [format_finite hmu hs t0.ne' (by rw [hr]; linarith), h1]; rfl, h2, h3, h4⟩

theorem is_quarter : Is (ofReal dblFmt dblMax (1 / 4)) (1 / 4) := by
  have := is_ofReal (x := 1 / 4) (by rw [abs_of_pos (by norm_num)]; linarith [one_le_dblMax])
  have h2 := ieee_int (p := 53) (emin := -1022) (by norm_num) (by norm_num) 1 (-2) (by norm_num) (by norm_num)
  rwa [show dblFmt.rd (1 / 4) = 1 / 4 by norm_num at h2 ⊢; exact h2] at this

/-- a number of digits in `float` -/
theorem flt_digits (N : ℕ) (hN : N ≤ 13) : (FP.round fltFmt N).val = N := by
  have := flt_int N (abs_lt.2 ⟨by omega, by omega⟩)
  change fltFmt.rd N = N
  simpa using this

theorem pow280 : (10 : ℝ) ^ (-280 : ℤ) ≤ 10 ^ (-1 : ℤ) ∧ (10 : ℝ) ^ (1 : ℤ) ≤ 10 ^ (280 : ℤ) := ⟨ten_mono (by norm_num), ten_mono (by norm_num)⟩

/-- three digits for -1234 ± 0.25 -/
example : ∃ out mu' s' k, format (ofReal dblFmt dblMax (-1234 : ℤ)) (ofReal dblFmt dblMax (1 / 4)) (FP.round fltFmt (3 : ℕ)) [';'] = some (.ok out) ∧ ReadsD mu' s' 3 k out [';'] ∧
    Near mu' (-1234 : ℤ) ∧ Near s' (1 / 4) := by
  obtain ⟨p1, p2⟩ := pow280
  refine C69_digits_partial (is_int (by norm_num)) is_quarter (p1.trans (by norm_num)) (le_trans (by norm_num) p2) (flt_digits 3 (by norm_num)) (by norm_num) (by norm_num)
    (by norm_num) (Or.inl (by norm_num)) _

/-- the error of the printed numbers: half a unit of the last digit, and the rounding error of the computation -/
theorem C69_error_partial {mu s : Dbl} {v t : ℝ} (hmu : Is mu v) (hs : Is s t) (t1 : 10 ^ (-280 : ℤ) ≤ t) (t2 : t ≤ 10 ^ (280 : ℤ)) {r : FP fltFmt} {N : ℕ} (hr : r.val = N)
    (n1 : 2 ≤ N) (n2 : N ≤ 13) (hvt : |v| ≤ 10 ^ (12 - N : ℤ) * t) (hl : KeepsDigit v t) (sep : List Char) :
    ∃ out M S E, format mu s r sep = some (.ok out) ∧ Layout out (decide (v < 0)) M S sep E ∧
      |decVal M * 10 ^ scale E - (|v|)| ≤ 10 ^ (scale E - decimals S) / 2 + 4 * 10 ^ (-16 : ℤ) * |v| ∧
      |decVal S * 10 ^ scale E - t| ≤ 10 ^ (scale E - decimals S) / 2 + 4 * 10 ^ (-16 : ℤ) * t := by
  have t0 : 0 < t := lt_of_lt_of_le (ten_pos _) t1
  obtain ⟨out, mu', s', k, h1, ⟨M, S, E, h2, -, -, h3, h4, h5, -⟩, h6, h7⟩ := C69_digits_partial hmu hs t1 t2 hr n1 n2 hvt hl sep
  refine ⟨out, M, S, E, h1, ?_, ?_, ?_⟩
  · rw [show decide (v < 0) = decide (mu' < 0) by rw [decide_eq_decide]; exact (near_sign h6).symm]
    exact h2
  · rw [h5]
    have a1 := abs_abs_sub_abs_le mu' v
    have a2 := a1.trans h6
    have a3 : |decVal M * 10 ^ scale E - (|mu'|)| ≤ 10 ^ k / 2 := abs_le.2 ⟨by linarith [h3.2.2], by linarith [h3.2.1]⟩
    calc |decVal M * 10 ^ scale E - (|v|)| = |(decVal M * 10 ^ scale E - |mu'|) + (|mu'| - |v|)| := by congr 1; ring
      _ ≤ _ := (abs_add_le _ _).trans (add_le_add a3 a2)
  · rw [h5]
    rw [Near, abs_of_pos t0] at h7
    have a3 : |decVal S * 10 ^ scale E - s'| ≤ 10 ^ k / 2 := abs_le.2 ⟨by linarith [h4.2.2], by linarith [h4.2.1]⟩
    calc |decVal S * 10 ^ scale E - t| = |(decVal S * 10 ^ scale E - s') + (s' - t)| := by congr 1; ring
      _ ≤ _ := (abs_add_le _ _).trans (add_le_add a3 h7)

example : ∃ out M S E, format (ofReal dblFmt dblMax (-1234 : ℤ)) (ofReal dblFmt dblMax (1 / 4)) (FP.round fltFmt (3 : ℕ)) [';'] = some (.ok out) ∧
    Layout out (decide (((-1234 : ℤ) : ℝ) < 0)) M S [';'] E ∧ |decVal M * 10 ^ scale E - (|((-1234 : ℤ) : ℝ)|)| ≤ 10 ^ (scale E - decimals S) / 2 + 4 * 10 ^ (-16 : ℤ) * |((-1234 : ℤ) : ℝ)| ∧
    |decVal S * 10 ^ scale E - 1 / 4| ≤ 10 ^ (scale E - decimals S) / 2 + 4 * 10 ^ (-16 : ℤ) * (1 / 4) := by
  obtain ⟨p1, p2⟩ := pow280
  exact C69_error_partial (is_int (by norm_num)) is_quarter (p1.trans (by norm_num)) (le_trans (by norm_num) p2) (flt_digits 3 (by norm_num)) (by norm_num) (by norm_num)
    (by norm_num) (Or.inl (by norm_num)) _

/-! ## one digit or two -/

/-- An `errdig` between 1 and 2: one digit or two. -/
theorem C69_frac_partial {mu s : Dbl} {v t : ℝ} (hmu : Is mu v) (hs : Is s t) (t1 : 10 ^ (-280 : ℤ) ≤ t) (t2 : t ≤ 10 ^ (280 : ℤ)) {r : FP fltFmt} (r1 : 1 < r.val) (r2 : r.val < 2)
    (hvt : |v| ≤ 10 ^ (10 : ℤ) * t) (hl : KeepsDigit v t) (sep : List Char) :
    ∃ out mu' s' d k, format mu s r sep = some (.ok out) ∧ (d = 1 ∨ d = 2) ∧ ReadsD mu' s' d k out sep ∧ Near mu' v ∧ Near s' t := by
  have t0 : 0 < t := lt_of_lt_of_le (ten_pos _) t1
  rw [format_finite hmu hs t0.ne' r1]
  rcases ndigits_frac hs t1 t2 r1 r2 with ⟨nd, h1, -, h2⟩ | ⟨s1, x, e, z, h1, h2, h3, h4, h5, h6⟩
  · obtain ⟨out, mu', s', k, g1, g2, g3, g4⟩ := reads_self h2 hs hmu (by omega) (by omega) t1 t2 (hvt.trans (mul_le_mul_of_nonneg_right (ten_mono (by omega)) t0.le)) hl sep
    exact ⟨out, mu', s', nd, k, by rw [g1]; rfl, h1, g2, g3, g4⟩
  · obtain ⟨out, mu', g1, g2, g3⟩ := reads_ten h1 h2 hmu t1 t2 hvt hl h3 h4 h5 h6 sep
    exact ⟨out, mu', z, 2, e, by rw [g1]; rfl, Or.inr rfl, g2, g3, by rw [Near, abs_of_pos t0]; exact h5⟩

theorem flt_three_half : (FP.round fltFmt (3 / 2)).val = 3 / 2 := by
  have := ieee_int (p := 24) (emin := -126) (by norm_num) (by norm_num) 3 (-1) (by norm_num) (by norm_num)
  change fltFmt.rd (3 / 2) = 3 / 2
  norm_num at this ⊢
  exact this

example : ∃ out mu' s' d k, format (ofReal dblFmt dblMax (-1234 : ℤ)) (ofReal dblFmt dblMax (1 / 4)) (FP.round fltFmt (3 / 2)) [';'] = some (.ok out) ∧ (d = 1 ∨ d = 2) ∧
    ReadsD mu' s' d k out [';'] ∧ Near mu' (-1234 : ℤ) ∧ Near s' (1 / 4) := by
  obtain ⟨p1, p2⟩ := pow280
  exact C69_frac_partial (is_int (by norm_num)) is_quarter (p1.trans (by norm_num)) (le_trans (by norm_num) p2) (by rw [flt_three_half]; norm_num) (by rw [flt_three_half]; norm_num)
    (by norm_num) (Or.inl (by norm_num)) _

/-- **The default format of `double` variables**: two digits if the leading digits of the uncertainty are at most 3.16 or at least 9.51 (which is rounded to 10), and one digit if they are between
3.17 and 9.49.  Between 3.16 and 3.17 and between 9.49 and 9.51 there is one digit or two. -/
theorem C69_default_partial {x : UReal Dbl} {v t : ℝ} (hmu : Is x.n v) (hs : Is x.s t) (t1 : 10 ^ (-280 : ℤ) ≤ t) (t2 : t ≤ 10 ^ (280 : ℤ)) (hvt : |v| ≤ 10 ^ (10 : ℤ) * t)
    (hl : KeepsDigit v t) :
    ∃ out mu' s' d k, ofUReal x = some (.ok out) ∧ ReadsD mu' s' d k out Fmt.defaultSep ∧ Near mu' v ∧ Near s' t ∧ (d = 1 ∨ d = 2) ∧
      (leadDigits t ≤ 316 / 100 → d = 2) ∧ (317 / 100 ≤ leadDigits t → leadDigits t ≤ 949 / 100 → d = 1) ∧ (951 / 100 ≤ leadDigits t → d = 2) := by
  have t0 : 0 < t := lt_of_lt_of_le (ten_pos _) t1
  have hr := flt_three_half
  have r1 : 1 < (FP.round fltFmt (3 / 2)).val := by rw [hr]; norm_num
  have r2 : (FP.round fltFmt (3 / 2)).val < 2 := by rw [hr]; norm_num
  rw [FmtFP.ofUReal, format_finite hmu hs t0.ne' r1]
  rcases ndigits_frac hs t1 t2 r1 r2 with ⟨nd, h1, h1', h2⟩ | ⟨s1, x', e, z, h1, h2, h3, h4, h5, h6⟩
  · obtain ⟨out, mu', s', k, g1, g2, g3, g4⟩ := reads_self h2 hs hmu (by omega) (by omega) t1 t2 (hvt.trans (mul_le_mul_of_nonneg_right (ten_mono (by omega)) t0.le)) hl Fmt.defaultSep
    refine ⟨out, mu', s', nd, k, by rw [g1]; rfl, g2, g3, g4, h1, fun h => ?_, fun h h' => ?_, fun h => ?_⟩
    · have := naive_two hs t1 t2 hr h
      omega
    · have := naive_one hs t1 t2 hr h (by linarith)
      omega
    · by_contra hne
      have n1 : naiveNdigits x.s (FP.round fltFmt (3 / 2)) = 1 := by omega
      obtain ⟨s1, hs1⟩ := ndigits_carry hs t1 t2 hr h n1
      rw [hs1] at h2
      injection h2 with h2
      injection h2 with h2 _
      omega
  · obtain ⟨out, mu', g1, g2, g3⟩ := reads_ten h1 h2 hmu t1 t2 hvt hl h3 h4 h5 h6 Fmt.defaultSep
    refine ⟨out, mu', z, 2, e, by rw [g1]; rfl, g2, g3, by rw [Near, abs_of_pos t0]; exact h5, Or.inr rfl, fun _ => rfl, fun h h' => ?_, fun _ => rfl⟩
    exfalso
    obtain ⟨d1, d2, d3⟩ := leadDigits_range t0
    have pe := ten_pos e
    have pL := ten_pos (leadPos t)
    obtain ⟨c, hc⟩ : ∃ c : ℝ, c = 4 * 10 ^ (-16 : ℤ) := ⟨_, rfl⟩
    have c0 : 0 ≤ c := by rw [hc]; positivity
    have c1 : c ≤ 1 / 100000 := by rw [hc]; norm_num
    rw [← hc] at h3 h5
    rw [ten_succ] at h3 h6
    have b1 := (abs_le.1 h5).2
    have b2 := (abs_le.1 h3).2
    have b3 := h6.2.1
    have u1 : 317 / 100 * 10 ^ leadPos t ≤ t := by conv_rhs => rw [d3]
                                                   exact mul_le_mul_of_nonneg_right h pL.le
    have u2 : t ≤ 949 / 100 * 10 ^ leadPos t := by conv_lhs => rw [d3]
                                                   exact mul_le_mul_of_nonneg_right h' pL.le
    have e1 : (10 : ℝ) ^ e < 10 ^ (leadPos t + 0) := by rw [add_zero]; nlinarith
    have e2 : (10 : ℝ) ^ leadPos t < 10 ^ (e + 1) := by rw [ten_succ]; nlinarith
    have e3 := (zpow_lt_zpow_iff_right₀ (by norm_num : (1 : ℝ) < 10)).1 e1
    have e4 := (zpow_lt_zpow_iff_right₀ (by norm_num : (1 : ℝ) < 10)).1 e2
    omega

/-- -1234 ± 0.25 -/
example : ∃ out mu' s' k, FmtFP.ofUReal (⟨1, ofReal dblFmt dblMax (1 / 4), ofReal dblFmt dblMax (-1234 : ℤ), []⟩ : UReal Dbl) = some (.ok out) ∧
    ReadsD mu' s' 2 k out Fmt.defaultSep ∧ Near mu' (-1234 : ℤ) ∧ Near s' (1 / 4) := by
  obtain ⟨p1, p2⟩ := pow280
  have hs : Is (⟨1, ofReal dblFmt dblMax (1 / 4), ofReal dblFmt dblMax (-1234 : ℤ), []⟩ : UReal Dbl).s (1 / 4) := by
    have := is_abs is_quarter
    rw [abs_of_pos (by norm_num)] at this
    exact this
  obtain ⟨out, mu', s', d, k, h1, h2, h3, h4, -, h5, -⟩ := C69_default_partial (x := ⟨1, ofReal dblFmt dblMax (1 / 4), ofReal dblFmt dblMax (-1234 : ℤ), []⟩)
    (is_int (N := -1234) (by norm_num)) hs (p1.trans (by norm_num)) (le_trans (by norm_num) p2) (by norm_num) (Or.inl (by norm_num))
  have hd : d = 2 := h5 (by
    rw [leadDigits, leadPos_unique (k := -1) (by norm_num) (by norm_num)]
    norm_num)
  subst hd
  exact ⟨out, mu', s', k, h1, h2, h3, h4⟩

/-! ## numbers without uncertainty -/

theorem exp_le {t : ℝ} {e m : ℤ} (h : 10 ^ e * (1 - 10 ^ (-13 : ℤ)) ≤ t) (h2 : t ≤ 10 ^ m) : e ≤ m := by
  have h1 : (10 : ℝ) ^ e < 10 ^ (m + 1) := by
    have d : (10 : ℝ) ^ (-13 : ℤ) ≤ 1 / 2 := by norm_num
    have := ten_pos e
    rw [ten_succ]
    generalize (10 : ℝ) ^ (-13 : ℤ) = d at *
    nlinarith
  have := (zpow_lt_zpow_iff_right₀ (by norm_num : (1 : ℝ) < 10)).1 h1
  omega

/-- A mean without uncertainty: six digits, without the sign (C42). -/
theorem C69_tostring_partial {x : Dbl} {v : ℝ} (h : Is x v) (h0 : v ≠ 0) (h1 : 10 ^ (-300 : ℤ) ≤ |v|) (h2 : |v| ≤ 10 ^ (300 : ℤ)) :
    ∃ out M E z k, FmtFP.tostring x = some out ∧ Layout1 out M E ∧ Numeral M ∧ sigDigits M = 6 ∧ Near z v ∧ RoundsTo k |z| (decVal M * 10 ^ scale E) ∧ |v| < 10 ^ (k + 6) := by
  obtain ⟨e, he, -, a1, a2, -⟩ := exponent_is h h0
  have e1 := (zpow_lt_zpow_iff_right₀ (by norm_num : (1 : ℝ) < 10)).1 (lt_of_le_of_lt h1 a2)
  have e2 := exp_le a1 h2
  obtain ⟨v', z, b1, b2, b3, b4, b5, b6, -⟩ := mantissa_is h (n := 6) (e := e) h0 a1 a2 (by norm_num) (by omega) (by omega)
  have run : FmtFP.tostring x = Fmt.tostring (.fin v') := by
    obtain ⟨a, ha, rfl, rfl⟩ := h
    unfold FmtFP.tostring Fmt.tostring
    simp only
    rw [if_neg (by rw [is_eqb ⟨a, ha, rfl, rfl⟩ is_zero]; exact h0), if_neg b1, he, exponent_eq b1, b2, Option.bind_some, Option.bind_some, b4]
  obtain ⟨out, M, E, c1, c2, c3, c4, c5, -⟩ := tostring_shape b1
  rw [b2] at c5
  refine ⟨out, M, E, z, e - 5, by rw [run, c1], c2, c3, c4, b5, ?_, by rw [show e - 5 + 6 = e + 1 by ring]; exact a2⟩
  have := rounds_transfer b6 (y := decVal M * 10 ^ scale E) (by rw [show e - 6 + 1 = e - 5 by ring]; exact c5)
  rwa [show e - 6 + 1 = e - 5 by ring] at this

example : ∃ out M E z k, FmtFP.tostring (ofReal dblFmt dblMax (1 / 4)) = some out ∧ Layout1 out M E ∧ Numeral M ∧ sigDigits M = 6 ∧ Near z (1 / 4) ∧
    RoundsTo k |z| (decVal M * 10 ^ scale E) ∧ |(1 / 4 : ℝ)| < 10 ^ (k + 6) := by
  refine C69_tostring_partial is_quarter (by norm_num) ?_ ?_ <;> rw [abs_of_pos (by norm_num)]
  · exact le_trans (ten_mono (show (-300 : ℤ) ≤ -1 by norm_num)) (by norm_num)
  · exact le_trans (by norm_num) (ten_mono (show (0 : ℤ) ≤ 300 by norm_num))

/-- infinities and NaN -/
theorem C69_special (s b : Bool) {r : FP fltFmt} (hr : 1 < r.val) (sep : List Char) :
    format (.inf s : Dbl) (.inf b) r sep = some (.ok ((if s then ['-', 'i', 'n', 'f'] else ['i', 'n', 'f']) ++ sep ++ if b then ['-', 'i', 'n', 'f'] else ['i', 'n', 'f'])) ∧
    format (.nan : Dbl) (.inf b) r sep = some (.ok (['n', 'a', 'n'] ++ sep ++ if b then ['-', 'i', 'n', 'f'] else ['i', 'n', 'f'])) ∧
    format (.inf s : Dbl) .nan r sep = some (.ok ((if s then ['-', 'i', 'n', 'f'] else ['i', 'n', 'f']) ++ sep ++ ['n', 'a', 'n'])) ∧
    format (.nan : Dbl) .nan r sep = some (.ok (['n', 'a', 'n'] ++ sep ++ ['n', 'a', 'n'])) := by
  have h : ¬ CCmp.leb r 1 = true := by rw [fp_leb_one]; exact not_le.2 hr
  refine ⟨?_, ?_, ?_, ?_⟩ <;> unfold format <;> rw [if_neg h, if_pos (by rfl)] <;> rfl

example : format (.nan : Dbl) .nan (FP.round fltFmt (3 / 2)) [';'] = some (.ok ['n', 'a', 'n', ';', 'n', 'a', 'n']) :=
  (C69_special true true (by rw [flt_three_half]; norm_num) _).2.2.2

/-! ## where it fails -/

/-- **Small uncertainties can not be printed**: the power of ten overflows and the infinity is turned into digits, which has no end or is undefined. -/
theorem C69_tiny_false {mu s : Dbl} {v t : ℝ} (hmu : Is mu v) (hs : Is s t) (t0 : 0 < t) (t1 : t ≤ 10 ^ (-310 : ℤ)) {r : FP fltFmt} (hr : 1 < r.val) (sep : List Char) :
    format mu s r sep = none := by
  obtain ⟨e, he, -, a1, -⟩ := exponent_is hs t0.ne'
  rw [abs_of_pos t0] at a1
  have e1 := exp_le a1 t1
  have hn : 1 ≤ naiveNdigits s r := by
    have h1 : 1 ≤ ⌊r.val⌋ := Int.le_floor.2 (by push_cast; exact hr.le)
    unfold naiveNdigits
    rcases logFrac fltFmt s with _ | l
    · simpa using h1
    · simp only
      split_ifs <;> omega
  have hk : 310 ≤ naiveNdigits s r - 1 - e := by omega
  obtain ⟨b, hb⟩ := intMantissa_inf hs t0.ne' hk
  rw [format_finite hmu hs t0.ne' hr]
  unfold formatFin
  rw [ndigits_tiny hs t0.ne' he hk, Option.bind_some]
  simp only
  rw [he, Option.bind_some]
  obtain ⟨ev, hev⟩ : ∃ ev, (if CCmp.eqb mu 0 = true then some (e - naiveNdigits s r - 1) else exponent mu) = some ev := by
    by_cases hv : v = 0
    · exact ⟨_, if_pos ((is_eqb hmu is_zero).2 hv)⟩
    · obtain ⟨ev, hev, -⟩ := exponent_is hmu hv
      exact ⟨ev, by rw [if_neg (by rw [is_eqb hmu is_zero]; exact hv), hev]⟩
  rw [hev, Option.bind_some, mantissa_inf hb]
  rfl

/-- the smallest number is one of them -/
example : ∃ s : Dbl, Is s (2 ^ (-1074 : ℤ)) ∧ ∀ r : FP fltFmt, 1 < r.val → ∀ sep, format (1 : Dbl) s r sep = none := by
  have h1 : dblFmt.rd (2 ^ (-1074 : ℤ)) = 2 ^ (-1074 : ℤ) := by
    have := ieee_int (p := 53) (emin := -1022) (by norm_num) (by norm_num) 1 (-1074) (by norm_num) (by norm_num)
    rw [Int.cast_one, one_mul] at this
    exact this
  have p0 : (0 : ℝ) < 2 ^ (-1074 : ℤ) := by positivity
  have h2 : (2 : ℝ) ^ (-1074 : ℤ) ≤ 10 ^ (-310 : ℤ) := by
    have h3 := dbl_min_le
    have h4 : (2 : ℝ) ^ (-1074 : ℤ) = 2 ^ (-1075 : ℤ) * 2 := by rw [← zpow_add_one₀ (by norm_num)]; norm_num
    have h5 := ten_succ (-320)
    have h6 : (10 : ℝ) ^ (-320 + 1 : ℤ) ≤ 10 ^ (-310 : ℤ) := ten_mono (by norm_num)
    have h7 := ten_pos (-320)
    rw [h4]
    rw [h5] at h6
    generalize (10 : ℝ) ^ (-320 : ℤ) = A at *
    generalize (10 : ℝ) ^ (-310 : ℤ) = B at *
    generalize (2 : ℝ) ^ (-1075 : ℤ) = C at *
    linarith
  have h3 : Is (ofReal dblFmt dblMax (2 ^ (-1074 : ℤ))) (2 ^ (-1074 : ℤ)) := by
    have := is_ofReal (x := 2 ^ (-1074 : ℤ)) (by
      rw [abs_of_pos p0]
      exact (zpow_le_one_of_nonpos₀ (by norm_num) (by norm_num)).trans one_le_dblMax)
    rwa [h1] at this
  exact ⟨_, h3, fun r hr sep => C69_tiny_false is_one h3 p0 h2 hr sep⟩

/-- Nor can small numbers without uncertainty. -/
theorem C69_tiny_constant_false {mu : Dbl} {v : ℝ} (hmu : Is mu v) (h0 : v ≠ 0) (h1 : |v| ≤ 10 ^ (-305 : ℤ)) {r : FP fltFmt} (hr : 1 < r.val) (sep : List Char) :
    format mu 0 r sep = none := by
  obtain ⟨e, he, -, a1, -⟩ := exponent_is hmu h0
  have e1 := exp_le a1 h1
  obtain ⟨b, hb⟩ := intMantissa_inf hmu h0 (n := 6) (e := e) (by omega)
  have ht : FmtFP.tostring mu = none := by
    obtain ⟨a, ha, rfl, rfl⟩ := hmu
    unfold FmtFP.tostring
    simp only
    rw [if_neg (by rw [is_eqb ⟨a, ha, rfl, rfl⟩ is_zero]; exact h0), he, Option.bind_some, mantissa_inf hb]
    rfl
  unfold format
  rw [if_neg (by rw [fp_leb_one]; exact not_le.2 hr), if_pos, ht]
  · rfl
  · have : CCmp.eqb (0 : Dbl) 0 = true := (is_eqb is_zero is_zero).2 rfl
    rw [this, Bool.or_true]

example : format (ofReal dblFmt dblMax (2 ^ (-1074 : ℤ))) (0 : Dbl) (FP.round fltFmt (3 / 2)) [] = none := by
  have h1 : dblFmt.rd (2 ^ (-1074 : ℤ)) = 2 ^ (-1074 : ℤ) := by
    have := ieee_int (p := 53) (emin := -1022) (by norm_num) (by norm_num) 1 (-1074) (by norm_num) (by norm_num)
    rw [Int.cast_one, one_mul] at this
    exact this
  have p0 : (0 : ℝ) < 2 ^ (-1074 : ℤ) := by positivity
  have h3 : Is (ofReal dblFmt dblMax (2 ^ (-1074 : ℤ))) (2 ^ (-1074 : ℤ)) := by
    have := is_ofReal (x := 2 ^ (-1074 : ℤ)) (by
      rw [abs_of_pos p0]
      exact (zpow_le_one_of_nonpos₀ (by norm_num) (by norm_num)).trans one_le_dblMax)
    rwa [h1] at this
  refine C69_tiny_constant_false h3 p0.ne' ?_ (by rw [flt_three_half]; norm_num) _
  rw [abs_of_pos p0]
  have h3 := dbl_min_le
  have h4 : (2 : ℝ) ^ (-1074 : ℤ) = 2 ^ (-1075 : ℤ) * 2 := by rw [← zpow_add_one₀ (by norm_num)]; norm_num
  have h5 := ten_succ (-320)
  have h6 : (10 : ℝ) ^ (-320 + 1 : ℤ) ≤ 10 ^ (-305 : ℤ) := ten_mono (by norm_num)
  have h7 := ten_pos (-320)
  rw [h4]
  rw [h5] at h6
  generalize (10 : ℝ) ^ (-320 : ℤ) = A at *
  generalize (10 : ℝ) ^ (-305 : ℤ) = B at *
  generalize (2 : ℝ) ^ (-1075 : ℤ) = C at *
  linarith

/-- **Nor a mean which is very large compared to the uncertainty**: the same, with the digits of the mean. -/
theorem C69_wide_false {mu s : Dbl} {v t : ℝ} (hmu : Is mu v) (hs : Is s t) (t1 : 10 ^ (-280 : ℤ) ≤ t) (t2 : t ≤ 10 ^ (280 : ℤ)) {r : FP fltFmt} {N : ℕ} (hr : r.val = N)
    (n1 : 2 ≤ N) (n2 : N ≤ 13) (hvt : 10 ^ (310 : ℤ) * t ≤ |v|) (sep : List Char) : format mu s r sep = none := by
  have t0 : 0 < t := lt_of_lt_of_le (ten_pos _) t1
  have hn : (2 : ℝ) ≤ N := by exact_mod_cast n1
  have v0 : v ≠ 0 := by
    rintro rfl
    rw [abs_zero] at hvt
    exact absurd (mul_pos (ten_pos 310) t0) (not_lt.2 hvt)
  obtain ⟨e, he, -, a1, a2, -⟩ := exponent_is hs t0.ne'
  obtain ⟨ev, hev, -⟩ := exponent_is hmu v0
  rw [abs_of_pos t0] at a1 a2
  have e1 := (zpow_lt_zpow_iff_right₀ (by norm_num : (1 : ℝ) < 10)).1 (lt_of_le_of_lt t1 a2)
  have e2 := exp_le a1 t2
  rw [format_finite hmu hs t0.ne' (by rw [hr]; linarith)]
  unfold formatFin
  rw [FmtFP.ndigits_int he hr, Option.bind_some]
  simp only
  rw [he, Option.bind_some, if_neg (by rw [is_eqb hmu is_zero]; exact v0), hev, Option.bind_some]
  rcases hm : mantissa s N e with _ | ⟨smant, sexp⟩
  · rfl
  rw [Option.bind_some]
  simp only
  have hse : sexp = e ∨ sexp = e + 1 := by
    unfold mantissa at hm
    simp only [Option.bind_eq_some_iff] at hm
    obtain ⟨q, -, hq⟩ := hm
    split_ifs at hq <;> cases hq <;> simp
  obtain ⟨b, hb⟩ := intMantissa_over hmu (n := N + ev - sexp) (e := ev) (by omega) (by omega) (by
    have k1 : (10 : ℝ) ^ (-e) ≤ 10 ^ (N + ev - sexp - 1 - ev) := ten_mono (by omega)
    have k2 : (10 : ℝ) ^ (310 : ℤ) * (1 - 10 ^ (-13 : ℤ)) ≤ |v| * 10 ^ (-e) := by
      have k3 : (10 : ℝ) ^ e * 10 ^ (-e) = 1 := by rw [← zpow_add₀ (by norm_num)]; norm_num
      have k4 := mul_le_mul_of_nonneg_right a1 (ten_pos (-e)).le
      rw [mul_right_comm, k3, one_mul] at k4
      calc (10 : ℝ) ^ (310 : ℤ) * (1 - 10 ^ (-13 : ℤ)) ≤ 10 ^ (310 : ℤ) * (t * 10 ^ (-e)) := mul_le_mul_of_nonneg_left k4 (ten_pos _).le
        _ = 10 ^ (310 : ℤ) * t * 10 ^ (-e) := by ring
        _ ≤ _ := mul_le_mul_of_nonneg_right hvt (ten_pos _).le
    have k5 := mul_le_mul_of_nonneg_left k1 (abs_nonneg v)
    have k6 : (3 : ℝ) * 10 ^ (309 : ℤ) ≤ 10 ^ (310 : ℤ) * (1 - 10 ^ (-13 : ℤ)) := by
      have : (10 : ℝ) ^ (310 : ℤ) = 10 * 10 ^ (309 : ℤ) := ten_succ 309
      have hd : (10 : ℝ) ^ (-13 : ℤ) ≤ 1 / 2 := by norm_num
      have p := ten_pos 309
      rw [this]
      clear a1 k2 this
      generalize (10 : ℝ) ^ (-13 : ℤ) = d at *
      generalize (10 : ℝ) ^ (309 : ℤ) = B at *
      have := mul_nonneg p.le (sub_nonneg.2 hd)
      linarith only [this, p]
    exact (k6.trans k2).trans k5)
  rw [mantissa_inf hb]
  rfl

set_option exponentiation.threshold 2000 in
theorem two_ten {a b : ℕ} (h : Nat.ble (2 ^ a) (10 ^ b) = true) : (2 : ℝ) ^ (a : ℤ) ≤ 10 ^ (b : ℤ) := by
  rw [zpow_natCast, zpow_natCast]
  exact_mod_cast Nat.le_of_ble_eq_true h

theorem ten_two {a b : ℕ} (h : Nat.ble (10 ^ b) (2 ^ a) = true) : (10 : ℝ) ^ (b : ℤ) ≤ 2 ^ (a : ℤ) := by
  rw [zpow_natCast, zpow_natCast]
  exact_mod_cast Nat.le_of_ble_eq_true h

set_option exponentiation.threshold 2000 in
theorem is_pow2 (k : ℤ) (h1 : -1074 ≤ k) (h2 : k ≤ 1000) : Is (ofReal dblFmt dblMax (2 ^ k)) (2 ^ k) := by
  have e : dblFmt.rd (2 ^ k) = 2 ^ k := by
    have := ieee_int (p := 53) (emin := -1022) (by norm_num) (by norm_num) 1 k (by norm_num) (by omega)
    rw [Int.cast_one, one_mul] at this
    exact this
  have := is_ofReal (x := 2 ^ k) (by
    rw [abs_of_pos (by positivity)]
    refine (zpow_le_zpow_right₀ (by norm_num) h2).trans (le_trans ?_ dblMax_ge)
    exact two_ten (a := 1000) (b := 308) (by decide +kernel))
  rwa [e] at this

set_option exponentiation.threshold 2000 in
/-- `2^1000 ± 2^-900` -/
example : format (ofReal dblFmt dblMax (2 ^ (1000 : ℤ))) (ofReal dblFmt dblMax (2 ^ (-900 : ℤ))) (FP.round fltFmt (2 : ℕ)) ['+'] = none := by
  refine C69_wide_false (is_pow2 _ (by norm_num) (by norm_num)) (is_pow2 _ (by norm_num) (by norm_num)) ?_ ?_ (N := 2) (flt_digits 2 (by norm_num)) (by norm_num) (by norm_num) ?_ _
  · rw [zpow_neg, zpow_neg]
    exact inv_anti₀ (by positivity) (two_ten (a := 900) (b := 280) (by decide +kernel))
  · exact (zpow_le_one_of_nonpos₀ (by norm_num) (by norm_num)).trans (one_le_zpow₀ (by norm_num) (by norm_num))
  · rw [abs_of_pos (by positivity), show (1000 : ℤ) = 1900 + -900 by norm_num, zpow_add₀ (by norm_num)]
    exact mul_le_mul_of_nonneg_right (ten_two (a := 1900) (b := 310) (by decide +kernel)) (by positivity)

theorem log_all_nines : dblFmt.rd (Real.logb 10 |(999999999999999 : ℝ)|) = 15 := by
  have h1 : Real.logb 10 (999999999999999 : ℝ) ≤ 15 := by
    have := Real.logb_le_logb_of_le (b := 10) (by norm_num) (by norm_num) (show (999999999999999 : ℝ) ≤ 10 ^ (15 : ℤ) by norm_num)
    rwa [← Real.rpow_intCast, Real.logb_rpow (by norm_num) (by norm_num)] at this
  have h2 : 15 - 6 / 10 ^ 16 ≤ Real.logb 10 (999999999999999 : ℝ) := by
    rw [show (999999999999999 : ℝ) = (1 - 1 / 10 ^ 15) * 10 ^ (15 : ℤ) by norm_num, logb_mul_ten (by norm_num), Real.logb]
    have a1 := Real.one_sub_inv_le_log_of_pos (x := 1 - 1 / 10 ^ 15) (by norm_num)
    have a2 := log_ten.2
    have a3 : -(6 / 10 ^ 16) ≤ Real.log (1 - 1 / 10 ^ 15) / Real.log 10 := by
      rw [le_div_iff₀ (by linarith)]
      refine le_trans ?_ a1
      norm_num
      linarith
    push_cast
    linarith
  rw [abs_of_pos (by norm_num)]
  generalize Real.logb 10 (999999999999999 : ℝ) = L at *
  change ieeeRd 53 (-1022) L = 15
  have h0 : 14 < L := lt_of_lt_of_le (by norm_num) h2
  rw [ieeeRd, if_pos (by linarith)]
  have he : expo (-1022) L = 3 := expo_eq (by norm_num) (by norm_num; linarith) (by norm_num; linarith)
  rw [ieeePos_near 15 0 (by rw [he]; norm_num) (by
    rw [he, abs_lt]
    norm_num at h2 ⊢
    constructor <;> linarith)]
  norm_num

/-- **`999999999999999 ± 20` with two digits fails an assertion**: the logarithm is rounded to 15, and the mantissa has fewer digits than expected. -/
theorem C69_assert_false {mu s : Dbl} (hmu : Is mu 999999999999999) (hs : Is s 20) {r : FP fltFmt} (hr : r.val = 2) (sep : List Char) : format mu s r sep = none := by
  obtain ⟨e, he, -, a1, a2, -⟩ := exponent_is hs (by norm_num)
  rw [abs_of_pos (by norm_num)] at a1 a2
  have e1 : e = 1 := by
    have h1 := exp_le a1 (m := 2) (by norm_num)
    have h2 := (zpow_lt_zpow_iff_right₀ (by norm_num : (1 : ℝ) < 10)).1 (show (10 : ℝ) ^ (1 : ℤ) < 10 ^ (e + 1) from lt_of_le_of_lt (by norm_num) a2)
    have h3 : e ≠ 2 := by
      rintro rfl
      norm_num at a1
    omega
  subst e1
  obtain ⟨ev, hev, hev2, -⟩ := exponent_is hmu (by norm_num)
  rw [log_all_nines] at hev2
  have e2 : ev = 15 := by rw [hev2]; exact_mod_cast Int.floor_intCast (R := ℝ) 15
  subst e2
  have tiny : (10 : ℝ) ^ (-300 : ℤ) ≤ 10 ^ (-2 : ℤ) := ten_mono (by norm_num)
  have m1 : mantissa s 2 1 = some (['2', '0'], 1) := by
    obtain ⟨y, i1, i2, i3, i4, -⟩ := intMantissa_is hs (n := 2) (e := 1) (by norm_num) (by norm_num) (by norm_num)
    have hy : Fmt.cround y = (20 : ℕ) := by
      obtain ⟨j1, j2⟩ := abs_le.1 i3
      generalize (10 : ℝ) ^ (-300 : ℤ) = A at *
      norm_num at j1 j2 tiny
      exact cround_eval (i4 (by norm_num)) (by push_cast; linarith) (by push_cast; linarith)
    have hc : Fmt.intMantissa (20 : ℝ) 2 1 = (20 : ℕ) := by
      rw [Fmt.intMantissa]
      exact cround_eval (by norm_num) (by norm_num) (by norm_num)
    rw [mantissa_eq i1 i2 (hc.trans hy.symm)]
    unfold Fmt.mantissa
    simp only [hc]
    have : Fmt.intMantissaString ((20 : ℕ) : ℤ) = ['2', '0'] := by
      unfold Fmt.intMantissaString
      simp [Fmt.digitsLoop, Fmt.digitChar]
    rw [this]
    simp
  have m2 : mantissa mu 16 15 = none := by
    obtain ⟨y, i1, i2, i3, i4, -⟩ := intMantissa_is hmu (n := 16) (e := 15) (by norm_num) (by norm_num) (by norm_num)
    have hy : Fmt.cround y = (999999999999999 : ℕ) := by
      obtain ⟨j1, j2⟩ := abs_le.1 i3
      generalize (10 : ℝ) ^ (-300 : ℤ) = A at *
      norm_num at j1 j2 tiny
      exact cround_eval (i4 (by norm_num)) (by push_cast; linarith) (by push_cast; linarith)
    have hc : Fmt.intMantissa (999999999999999 : ℝ) 16 15 = (999999999999999 : ℕ) := by
      rw [Fmt.intMantissa]
      exact cround_eval (by norm_num) (by norm_num) (by norm_num)
    rw [mantissa_eq i1 i2 (hc.trans hy.symm)]
    unfold Fmt.mantissa
    simp only [hc]
    have : (Fmt.intMantissaString ((999999999999999 : ℕ) : ℤ)).length = 15 := by
      unfold Fmt.intMantissaString
      simp [Fmt.digitsLoop]
    rw [this]
    simp
  rw [format_finite hmu hs (by norm_num) (by rw [hr]; norm_num)]
  unfold formatFin
  rw [FmtFP.ndigits_int (N := 2) he (by rw [hr]; norm_num), Option.bind_some]
  simp only
  rw [he, Option.bind_some, if_neg (by rw [is_eqb hmu is_zero]; norm_num), hev, Option.bind_some]
  simp only [Nat.cast_ofNat]
  rw [m1, Option.bind_some]
  simp only
  rw [show (2 : ℤ) + 15 - 1 = 16 by norm_num, m2]
  rfl

example : format (ofReal dblFmt dblMax (999999999999999 : ℤ)) (ofReal dblFmt dblMax (20 : ℤ)) (FP.round fltFmt (2 : ℕ)) ['+', '/', '-'] = none := by
  refine C69_assert_false ?_ ?_ ?_ _
  · have := is_int (N := 999999999999999) (by norm_num)
    simpa using this
  · have := is_int (N := 20) (by norm_num)
    simpa using this
  · have := flt_digits 2 (by norm_num)
    simpa using this

end Unc.Props
