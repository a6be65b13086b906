import Verif.Lemmas.FormatFP
import Verif.Spec.FormatFP

/-!
# Formatting in double precision: the number of digits
-/

namespace Unc
open Spec Ext
variable {p : ℕ} {emin : ℤ}

/-- a number is rounded to the multiple of the spacing which is near -/
theorem ieeePos_near {x : ℝ} (N k : ℤ) (hk : expo emin x - p + 1 ≤ k) (h : |x - N * 2 ^ k| < 2 ^ (expo emin x - p + 1) / 2) : ieeePos p emin x = N * 2 ^ k := by
  obtain ⟨d, hd⟩ := Int.eq_ofNat_of_zero_le (sub_nonneg.2 hk)
  rw [ieeePos]
  set q := expo emin x - p + 1 with hq
  have q0 := two_zpow_pos q
  have e3 : (2 : ℝ) ^ k = 2 ^ d * 2 ^ q := by
    rw [show k = (d : ℤ) + q by omega, zpow_add₀ (by norm_num), zpow_natCast]
  have e1 : |x / 2 ^ q - (N * 2 ^ d : ℤ)| < 1 / 2 := by
    rw [show x / 2 ^ q - ((N * 2 ^ d : ℤ) : ℝ) = (x - N * 2 ^ k) / 2 ^ q by rw [e3]; push_cast; field_simp, abs_div, abs_of_pos q0, div_lt_iff₀ q0]
    linarith
  have e2 := nearEven_err (x / 2 ^ q)
  have e4 : |(nearEven (x / 2 ^ q) : ℝ) - (N * 2 ^ d : ℤ)| < 1 := by
    rw [abs_lt] at e1 ⊢
    rw [abs_le] at e2
    constructor <;> linarith [e1.1, e1.2, e2.1, e2.2]
  have e5 : nearEven (x / 2 ^ q) = N * 2 ^ d := by
    have : |nearEven (x / 2 ^ q) - N * 2 ^ d| < 1 := by exact_mod_cast e4
    have := Int.abs_lt_one_iff.1 this
    omega
  rw [e5, e3]
  push_cast; ring

/-- a number near to an integer other than zero is rounded to it -/
theorem flt_near {x : ℝ} {j : ℤ} (h0 : j ≠ 0) (hj : |j| < 2 ^ 19) (h : |x - j| ≤ 10 ^ (-10 : ℤ)) : fltFmt.rd x = j := by
  have key : ∀ {x : ℝ} {j : ℤ}, 0 < j → j < 2 ^ 19 → |x - j| ≤ 10 ^ (-10 : ℤ) → fltFmt.rd x = j := by
    intro x j h0 hj h
    have hj1 : (1 : ℝ) ≤ j := by exact_mod_cast h0
    have hj2 : (j : ℝ) < 2 ^ 19 := by exact_mod_cast hj
    have hs : (10 : ℝ) ^ (-10 : ℤ) < 2 ^ (-25 : ℤ) := by norm_num
    have hs2 : (10 : ℝ) ^ (-10 : ℤ) < 1 / 2 := by norm_num
    obtain ⟨B, hB⟩ : ∃ B : ℝ, B = 10 ^ (-10 : ℤ) := ⟨_, rfl⟩
    rw [← hB] at h hs hs2
    obtain ⟨h1, h2⟩ := abs_le.1 h
    have hx : 1 / 2 ≤ x := by linarith
    have hx0 : 0 < x := by linarith
    have hx2 : x < 2 ^ (20 : ℤ) := by
      have : (2 : ℝ) ^ (20 : ℤ) = 2 * 2 ^ 19 := by norm_num
      linarith
    change ieeeRd 24 (-126) x = j
    rw [ieeeRd, if_pos hx0]
    have a1 : expo (-126) x ≤ 19 := expo_le hx0 (by norm_num) hx2
    have a2 : -1 ≤ expo (-126) x := by
      have := expo_mono (emin := -126) (by norm_num : (0 : ℝ) < 1 / 2) hx
      rwa [expo_eq (x := 1 / 2) (e := -1) (by norm_num) (by norm_num) (by norm_num)] at this
    have := ieeePos_near (p := 24) (emin := -126) (x := x) j 0 (by push_cast; omega) (by
      rw [zpow_zero, mul_one]
      refine lt_of_le_of_lt h (hs.trans_le ?_)
      rw [le_div_iff₀ (by norm_num), ← zpow_add_one₀ (by norm_num)]
      exact zpow_le_zpow_right₀ (by norm_num) (by push_cast; omega))
    simpa using this
  rcases lt_or_gt_of_ne h0 with hn | hp
  · rw [abs_of_neg hn] at hj
    have := key (x := -x) (j := -j) (by omega) hj (by push_cast; rw [show -x - -(j : ℝ) = -(x - j) by ring, abs_neg]; exact h)
    rw [fltFmt.odd] at this
    push_cast at this
    linarith
  · rw [abs_of_pos hp] at hj
    exact key hp hj h

/-- ten times one tenth is one -/
theorem dbl_tenth : dblFmt.rd (10 * dblFmt.rd (10 ^ (-1 : ℤ))) = 1 := by
  have h1 : dblFmt.rd (10 ^ (-1 : ℤ)) = 7205759403792794 * 2 ^ (-56 : ℤ) := by
    change ieeeRd 53 (-1022) _ = _
    rw [ieeeRd, if_pos (by norm_num)]
    have he : expo (-1022) ((10 : ℝ) ^ (-1 : ℤ)) = -4 := expo_eq (by norm_num) (by norm_num) (by norm_num)
    have := ieeePos_near (p := 53) (emin := -1022) (x := 10 ^ (-1 : ℤ)) 7205759403792794 (-56) (by rw [he]; norm_num) (by rw [he]; norm_num [abs_lt])
    exact_mod_cast this
  rw [h1]
  change ieeeRd 53 (-1022) _ = _
  rw [ieeeRd, if_pos (by norm_num)]
  have he : expo (-1022) ((10 : ℝ) * (7205759403792794 * 2 ^ (-56 : ℤ))) = 0 := expo_eq (by norm_num) (by norm_num) (by norm_num)
  have := ieeePos_near (p := 53) (emin := -1022) (x := 10 * (7205759403792794 * 2 ^ (-56 : ℤ))) 1 0 (by rw [he]; norm_num) (by rw [he]; norm_num [abs_lt])
  simpa using this

namespace FmtFP

/-! ## an integer number of digits -/

theorem frac_nonneg {f g : Fmt} {M : ℝ} (x : Ext f M) {l : ℝ} (h : logFrac g x = some l) : 0 ≤ l := by
  unfold logFrac at h
  split at h
  · rename_i a _ _
    cases h
    refine g.rd_nonneg (sub_nonneg.2 ?_)
    have := g.mono (Int.floor_le (g.rd a.val))
    rwa [g.idem] at this
  · cases h

theorem naive_int {f g : Fmt} {M : ℝ} (x : Ext f M) {n : FP g} {N : ℕ} (hn : n.val = N) : naiveNdigits x n = N := by
  unfold naiveNdigits
  rw [hn, Int.floor_natCast, Int.cast_natCast, sub_self, g.rd_zero]
  rcases hl : logFrac g x with _ | l
  · simp
  · simp [(frac_nonneg x hl).not_gt]

theorem ndigits_int {f g : Fmt} {M : ℝ} {x : Ext f M} {e : ℤ} (he : exponent x = some e) {n : FP g} {N : ℕ} (hn : n.val = N) : ndigits x n = some ((N : ℤ), x) := by
  unfold ndigits
  simp only [naive_int _ hn, he, Option.map_some, gt_iff_lt, lt_irrefl, if_false, ite_self]

/-! ## one digit or two -/

/-- the number of digits in terms of the logarithm -/
theorem naive_val {x : Dbl} {v : ℝ} (h : Is x v) (h0 : v ≠ 0) (n : FP fltFmt) :
    naiveNdigits x n = ⌊n.val⌋ + if fltFmt.rd (fltFmt.rd (dblFmt.rd (Real.logb 10 |v|)) - fltFmt.rd ⌊fltFmt.rd (dblFmt.rd (Real.logb 10 |v|))⌋) < fltFmt.rd (n.val - ⌊n.val⌋) then 1 else 0 := by
  obtain ⟨⟨a, ha, h1, h2⟩, -⟩ := log10Abs_is h h0
  unfold naiveNdigits logFrac
  rw [h1]
  simp only [h2]

/-- the logarithm in `float` -/
theorem log_flt {x : Dbl} {v : ℝ} (h : Is x v) (h0 : v ≠ 0) :
    |fltFmt.rd (dblFmt.rd (Real.logb 10 |v|)) - Real.logb 10 (|v|)| ≤ 3 * 10 ^ (-5 : ℤ) := by
  obtain ⟨-, e1, l1, l2⟩ := log10Abs_is h h0
  set a := dblFmt.rd (Real.logb 10 |v|)
  have s1 : (4 : ℝ) * 10 ^ (-14 : ℤ) ≤ 10 ^ (-6 : ℤ) := by norm_num
  have s2 : (2 : ℝ) ^ (-150 : ℤ) ≤ 10 ^ (-6 : ℤ) := by norm_num
  have s3 : (2 : ℝ) ^ (-24 : ℤ) * 331 ≤ 2 * 10 ^ (-5 : ℤ) := by norm_num
  have s4 : (2 : ℝ) * 10 ^ (-5 : ℤ) + 2 * 10 ^ (-6 : ℤ) ≤ 3 * 10 ^ (-5 : ℤ) := by norm_num
  have s5 : (10 : ℝ) ^ (-6 : ℤ) ≤ 1 := by norm_num
  obtain ⟨b1, b2⟩ := abs_le.1 e1
  have ha : |a| ≤ 331 := abs_le.2 ⟨by linarith, by linarith⟩
  have e2 := flt_err a
  have e3 : (2 : ℝ) ^ (-24 : ℤ) * |a| ≤ 2 ^ (-24 : ℤ) * 331 := mul_le_mul_of_nonneg_left ha (by positivity)
  have e4 := abs_add_le (fltFmt.rd a - a) (a - Real.logb 10 (|v|))
  rw [sub_add_sub_cancel] at e4
  linarith

theorem logb_mul_ten {a : ℝ} (ha : 0 < a) (e : ℤ) : Real.logb 10 (a * 10 ^ e) = Real.logb 10 a + e := by
  rw [Real.logb_mul ha.ne' (ten_pos e).ne', ← Real.rpow_intCast, Real.logb_rpow (by norm_num) (by norm_num)]

/-- rounding to an integer does not change the float logarithm's order -/
theorem log_mono {v w : ℝ} (h0 : 0 < v) (h : v ≤ w) : fltFmt.rd (dblFmt.rd (Real.logb 10 |v|)) ≤ fltFmt.rd (dblFmt.rd (Real.logb 10 |w|)) := by
  rw [abs_of_pos h0, abs_of_pos (h0.trans_le h)]
  exact fltFmt.mono (dblFmt.mono (Real.logb_le_logb_of_le (by norm_num) h0 h))

/-- The result of `ndigits` for an `errdig` between 1 and 2: the number itself with the digits of `naive_ndigits`, or two digits for a power of ten to which it is rounded. -/
theorem ndigits_frac {s : Dbl} {v : ℝ} (h : Is s v) (v1 : 10 ^ (-280 : ℤ) ≤ v) (v2 : v ≤ 10 ^ (280 : ℤ)) {r : FP fltFmt} (r1 : 1 < r.val) (r2 : r.val < 2) :
    (∃ nd : ℕ, (nd = 1 ∨ nd = 2) ∧ (nd : ℤ) = naiveNdigits s r ∧ ndigits s r = some ((nd : ℤ), s)) ∨
    ∃ s1 t e z, ndigits s r = some (((2 : ℕ) : ℤ), s1) ∧ Is s1 t ∧ |t - 10 ^ (e + 1)| ≤ 4 * 10 ^ (-16 : ℤ) * 10 ^ (e + 1) ∧ v < t ∧
      |z - v| ≤ 4 * 10 ^ (-16 : ℤ) * v ∧ RoundsTo e z (10 ^ (e + 1)) := by
  have v0 : 0 < v := lt_of_lt_of_le (ten_pos _) v1
  obtain ⟨e, he, hef, a1, a2, -⟩ := exponent_is h v0.ne'
  have hfl : ⌊r.val⌋ = 1 := by rw [Int.floor_eq_iff]; push_cast; constructor <;> linarith
  have n12 : ∀ x : Dbl, naiveNdigits x r = 1 ∨ naiveNdigits x r = 2 := by
    intro x
    unfold naiveNdigits
    rw [hfl]
    rcases logFrac fltFmt x with _ | l
    · simp
    · simp only
      split_ifs <;> simp
  have left : ndigits s r = some (naiveNdigits s r, s) → ∃ nd : ℕ, (nd = 1 ∨ nd = 2) ∧ (nd : ℤ) = naiveNdigits s r ∧ ndigits s r = some ((nd : ℤ), s) := by
    intro hh
    rcases n12 s with h' | h'
    · exact ⟨1, Or.inl rfl, by rw [h']; rfl, by rw [hh, h']; rfl⟩
    · exact ⟨2, Or.inr rfl, by rw [h']; rfl, by rw [hh, h']; rfl⟩
  have hnd : ndigits s r = some (if CCmp.ltb s (intMantissa s (naiveNdigits s r) e * pow10 dblFmt dblMax e) = true then
      if naiveNdigits (intMantissa s (naiveNdigits s r) e * pow10 dblFmt dblMax e) r > naiveNdigits s r then
        (naiveNdigits (intMantissa s (naiveNdigits s r) e * pow10 dblFmt dblMax e) r, intMantissa s (naiveNdigits s r) e * pow10 dblFmt dblMax e)
      else (naiveNdigits s r, s) else (naiveNdigits s r, s)) := by
    unfold ndigits
    rw [he]
    rfl
  by_cases c1 : CCmp.ltb s (intMantissa s (naiveNdigits s r) e * pow10 dblFmt dblMax e) = true
  swap
  · exact Or.inl (left (by rw [hnd, if_neg c1]))
  by_cases c2 : naiveNdigits (intMantissa s (naiveNdigits s r) e * pow10 dblFmt dblMax e) r > naiveNdigits s r
  swap
  · exact Or.inl (left (by rw [hnd, if_pos c1, if_neg c2]))
  right
  rw [if_pos c1, if_pos c2] at hnd
  have ns : naiveNdigits s r = 1 := by
    rcases n12 s with h' | h' <;> rcases n12 (intMantissa s (naiveNdigits s r) e * pow10 dblFmt dblMax e) with h'' | h'' <;> omega
  have nr : naiveNdigits (intMantissa s (naiveNdigits s r) e * pow10 dblFmt dblMax e) r = 2 := by
    rcases n12 (intMantissa s (naiveNdigits s r) e * pow10 dblFmt dblMax e) with h'' | h'' <;> omega
  rw [nr, ns] at hnd
  rw [ns] at nr c1
  rw [abs_of_pos v0] at a1 a2
  have dlt : (10 : ℝ) ^ (-13 : ℤ) ≤ 1 / 2 := by norm_num
  have low : 10 ^ e ≤ 2 * v := by
    have := ten_pos e
    generalize (10 : ℝ) ^ (-13 : ℤ) = d at *
    nlinarith
  have e1 : -280 < e + 1 := (zpow_lt_zpow_iff_right₀ (by norm_num : (1 : ℝ) < 10)).1 (lt_of_le_of_lt v1 a2)
  have e2 : e < 281 := by
    refine (zpow_lt_zpow_iff_right₀ (by norm_num : (1 : ℝ) < 10)).1 (lt_of_le_of_lt low ?_)
    have : (10 : ℝ) ^ (281 : ℤ) = 10 * 10 ^ (280 : ℤ) := ten_succ 280
    have := ten_pos 280
    generalize (10 : ℝ) ^ (280 : ℤ) = B at *
    generalize (10 : ℝ) ^ (281 : ℤ) = B' at *
    linarith
  have pe := ten_pos e
  have pk := ten_pos (1 - 1 - e)
  have ek : (10 : ℝ) ^ e * 10 ^ (1 - 1 - e) = 1 := by rw [← zpow_add₀ (by norm_num)]; norm_num
  have T10 : v * 10 ^ (1 - 1 - e) < 10 := by
    have := mul_lt_mul_of_pos_right a2 pk
    rw [ten_succ, mul_assoc, ek, mul_one] at this
    exact this
  have T0 : 0 < v * 10 ^ (1 - 1 - e) := by positivity
  obtain ⟨y, i1, i2, i3, i4, -⟩ := intMantissa_is h (n := 1) (e := e) (by omega) (by omega) (by
    rw [abs_of_pos v0]; exact T10.le.trans (by norm_num))
  rw [abs_of_pos v0] at i3
  have y0 := i4 v0.le
  obtain ⟨⟨z, z0, z1, z2⟩, -⟩ := near_pos v0 a1 a2 (by norm_num) rfl y0 i3
  have ylt : y < 21 / 2 := by
    have s1 : (3 : ℝ) * 10 ^ (-16 : ℤ) ≤ 1 / 100 := by norm_num
    have s2 : (10 : ℝ) ^ (-300 : ℤ) ≤ 1 / 100 := le_trans (ten_mono (show (-300 : ℤ) ≤ -2 by norm_num)) (by norm_num)
    have := (abs_le.1 i3).2
    generalize (10 : ℝ) ^ (-300 : ℤ) = B at *
    generalize (10 : ℝ) ^ (-16 : ℤ) = C at *
    nlinarith
  have m0 : 0 ≤ Fmt.cround y := by
    rw [Fmt.cround, if_pos y0]
    exact Int.floor_nonneg.2 (by linarith)
  have m10 : Fmt.cround y ≤ 10 := by
    have h3 : (Fmt.cround y : ℝ) < 11 := by
      rw [Fmt.cround, if_pos y0]
      exact lt_of_le_of_lt (Int.floor_le _) (by linarith)
    have : Fmt.cround y < 11 := by exact_mod_cast h3
    omega
  have m0' : (0 : ℝ) ≤ Fmt.cround y := by exact_mod_cast m0
  have m10' : (Fmt.cround y : ℝ) ≤ 10 := by exact_mod_cast m10
  obtain ⟨t, q1, q2, -⟩ := is_mul_pow10 i1 (k := e) (by omega) (by omega) (by
    rw [abs_of_nonneg m0']
    calc (Fmt.cround y : ℝ) * 10 ^ e ≤ 10 * 10 ^ e := mul_le_mul_of_nonneg_right m10' pe.le
      _ = 10 ^ (e + 1) := (ten_succ e).symm
      _ ≤ _ := ten_mono (by omega))
  rw [abs_of_nonneg m0'] at q2
  have tiny : (10 : ℝ) ^ (-300 : ℤ) ≤ 10 ^ (-16 : ℤ) * 10 ^ e := by
    rw [← zpow_add₀ (by norm_num)]; exact ten_mono (by omega)
  by_cases hm : Fmt.cround y = 10
  · refine ⟨_, t, e, z, by rw [hnd]; rfl, q1, ?_, (is_ltb h q1).1 c1, z1, ?_⟩
    · rw [hm] at q2
      push_cast at q2
      rw [ten_succ]
      refine q2.trans ?_
      have hC : (0 : ℝ) ≤ 10 ^ (-16 : ℤ) * 10 ^ e := by positivity
      generalize (10 : ℝ) ^ (-300 : ℤ) = B at *
      generalize (10 : ℝ) ^ (-16 : ℤ) = C at *
      linarith
    · have := intMantissa_spec z 1 e
      rw [Fmt.intMantissa, z2, hm, abs_of_nonneg z0, show e - 1 + 1 = e by ring] at this
      rw [ten_succ]
      exact this
  · exfalso
    have m9 : Fmt.cround y ≤ 9 := by omega
    have m9' : (Fmt.cround y : ℝ) ≤ 9 := by exact_mod_cast m9
    have tv : v < t := (is_ltb h q1).1 c1
    have t9 : t ≤ 901 / 100 * 10 ^ e := by
      have s1 : (3 : ℝ) * 10 ^ (-16 : ℤ) * (Fmt.cround y * 10 ^ e) ≤ 1 / 1000 * 10 ^ e := by
        have s2 : (3 : ℝ) * 10 ^ (-16 : ℤ) ≤ 1 / 10000 := by norm_num
        have s3 : (0 : ℝ) ≤ 3 * 10 ^ (-16 : ℤ) := by positivity
        generalize (3 : ℝ) * 10 ^ (-16 : ℤ) = C at *
        nlinarith [mul_le_mul_of_nonneg_right m9' pe.le, mul_nonneg m0' pe.le]
      have s4 : (10 : ℝ) ^ (-16 : ℤ) * 10 ^ e ≤ 1 / 1000 * 10 ^ e := mul_le_mul_of_nonneg_right (by norm_num) pe.le
      have s5 := (abs_le.1 q2).2
      have s6 := mul_le_mul_of_nonneg_right m9' pe.le
      have s7 := s5.trans (add_le_add s1 (tiny.trans s4))
      linarith only [s6, s7, pe]
    have t0 : 0 < t := v0.trans tv
    rw [naive_val h v0.ne', hfl] at ns
    rw [naive_val q1 t0.ne', hfl] at nr
    set A := fltFmt.rd (dblFmt.rd (Real.logb 10 |v|)) with hA
    set B := fltFmt.rd (dblFmt.rd (Real.logb 10 |t|)) with hB
    have AB : A ≤ B := log_mono v0 tv.le
    have eA : (e : ℝ) ≤ A := by
      have h3 : (e : ℝ) ≤ dblFmt.rd (Real.logb 10 |v|) := by rw [hef]; exact Int.floor_le _
      have h4 := fltFmt.mono h3
      rwa [flt_int e (abs_lt.2 ⟨by omega, by omega⟩)] at h4
    have Be : B < e + 1 := by
      have h3 := (abs_le.1 (log_flt q1 t0.ne')).2
      rw [← hB] at h3
      have h4 : Real.logb 10 |t| ≤ 24 / 25 + e := by
        rw [abs_of_pos t0]
        refine (Real.logb_le_logb_of_le (by norm_num) t0 t9).trans ?_
        rw [logb_mul_ten (by norm_num)]
        have h5 : Real.logb 10 (901 / 100) ≤ 24 / 25 := by
          rw [le_div_iff₀ (by norm_num), mul_comm]
          have := Real.logb_rpow_eq_mul_logb_of_pos (b := 10) (x := 901 / 100) (y := 25) (by norm_num)
          rw [← this, Real.logb_le_iff_le_rpow (by norm_num) (by positivity)]
          norm_num
        linarith
      have h6 : (3 : ℝ) * 10 ^ (-5 : ℤ) < 1 / 100 := by norm_num
      generalize (3 : ℝ) * 10 ^ (-5 : ℤ) = C at h3 h6
      linarith only [h3, h4, h6]
    have fA : ⌊A⌋ = e := by rw [Int.floor_eq_iff]; exact ⟨eA, by linarith⟩
    have fB : ⌊B⌋ = e := by rw [Int.floor_eq_iff]; exact ⟨by linarith, Be⟩
    rw [fA] at ns
    rw [fB] at nr
    have hl := fltFmt.mono (sub_le_sub_right AB (fltFmt.rd e))
    split_ifs at ns nr with g1 g2
    all_goals first | omega | linarith

/-! ## reading the text -/

theorem near_sign {x y : ℝ} (h : |x - y| ≤ 4 * 10 ^ (-16 : ℤ) * |y|) : x < 0 ↔ y < 0 := by
  have h1 : (4 : ℝ) * 10 ^ (-16 : ℤ) ≤ 1 / 2 := by norm_num
  have h2 : |x - y| ≤ 1 / 2 * |y| := h.trans (mul_le_mul_of_nonneg_right h1 (abs_nonneg _))
  obtain ⟨h3, h4⟩ := abs_le.1 h2
  constructor
  · intro hx
    by_contra hy
    push Not at hy
    rw [abs_of_nonneg hy] at h3 h4
    linarith
  · intro hy
    rw [abs_of_neg hy] at h3 h4
    linarith

theorem near_abs {x y : ℝ} (h : |x - y| ≤ 4 * 10 ^ (-16 : ℤ) * |y|) : |x| ≤ |y| + 10 ^ (-15 : ℤ) * |y| := by
  have h1 : (4 : ℝ) * 10 ^ (-16 : ℤ) ≤ 10 ^ (-15 : ℤ) := by norm_num
  have h2 := mul_le_mul_of_nonneg_right h1 (abs_nonneg y)
  have := abs_sub_abs_le_abs_sub x y
  linarith

/-- the exceptional case does not occur -/
theorem Printed.noLoss {v t : ℝ} {nd : ℕ} {sep out M S : List Char} {E : Option ℤ} {zv zt : ℝ} {e cs pl : ℤ} (h : Printed v t nd sep out M S E zv zt e cs pl)
    (hnd : nd ≤ 13) (hl : 2 * t ≤ |v| ∨ ∀ j : ℕ, 1 ≤ j → ¬ (10 ^ j - 1 ≤ |v| ∧ |v| ≤ 10 ^ j)) : RoundsTo pl |zv| (decVal M * 10 ^ scale E) := by
  rcases h.valM with h1 | ⟨h0, j, j1, j2, h2, h3⟩
  · exact h1
  exfalso
  have h4 := h.plE
  have hj : (10 : ℝ) ^ j ≤ 10 ^ (nd - 1) := pow_le_pow_right₀ (by norm_num) (by omega)
  rcases hl with hl | hl
  · obtain ⟨d, hd⟩ : ∃ d : ℝ, d = 10 ^ (-13 : ℤ) := ⟨_, rfl⟩
    obtain ⟨c, hc⟩ : ∃ c : ℝ, c = 10 ^ (-15 : ℤ) := ⟨_, rfl⟩
    have d1 : d ≤ 1 / 2 := by rw [hd]; norm_num
    have c1 : c ≤ 1 / 2 := by rw [hc]; norm_num
    have lo := h.lo
    rw [← hd] at lo
    have p1 : (10 : ℝ) ≤ 10 ^ (nd - 1) := by
      have : (10 : ℝ) ^ 1 ≤ 10 ^ (nd - 1) := pow_le_pow_right₀ (by norm_num) (by omega)
      linarith
    rcases h.cs01 with ⟨hcs, -⟩ | ⟨hcs, h5⟩
    · have e1 : e = ((nd - 1 : ℕ) : ℤ) := by rw [Nat.cast_sub (by omega)]; omega
      rw [e1, zpow_natCast] at lo
      nlinarith
    · have e1 : e + 1 = ((nd - 1 : ℕ) : ℤ) := by rw [Nat.cast_sub (by omega)]; omega
      have t0 : 0 ≤ t := le_trans (mul_nonneg (ten_pos e).le (by linarith)) lo
      have h6 := h.valS.2.1
      rw [h5, e1, zpow_natCast, show e - nd + 1 = -1 by omega] at h6
      have h7 := near_abs (x := zt) (y := t) (by rw [abs_of_nonneg t0]; exact h.nearS)
      rw [abs_of_nonneg t0, ← hc] at h7
      have h8 := le_abs_self zt
      norm_num at h6
      nlinarith
  · refine hl j j1 ⟨?_, h3.le⟩
    have h5 := h2.2.1
    rw [zpow_zero] at h5
    have h6 := near_abs h.nearM
    have h7 : (10 : ℝ) ^ (nd - 1) ≤ 10 ^ 12 := pow_le_pow_right₀ (by norm_num) (by omega)
    have h8 : (10 : ℝ) ^ (-15 : ℤ) * |v| ≤ 1 / 2 := by
      have : (10 : ℝ) ^ (-15 : ℤ) * |v| ≤ 10 ^ (-15 : ℤ) * 10 ^ 12 := mul_le_mul_of_nonneg_left (by linarith) (by positivity)
      refine this.trans (by norm_num)
    generalize (10 : ℝ) ^ (-15 : ℤ) * |v| = C at *
    linarith

/-- the text, in terms of the specification -/
theorem Printed.reads {v t : ℝ} {nd : ℕ} {sep out M S : List Char} {E : Option ℤ} {zv zt : ℝ} {e cs pl : ℤ} (h : Printed v t nd sep out M S E zv zt e cs pl)
    (hnd : nd ≤ 13) (hl : 2 * t ≤ |v| ∨ ∀ j : ℕ, 1 ≤ j → ¬ (10 ^ j - 1 ≤ |v| ∧ |v| ≤ 10 ^ j)) {z : ℝ} (hz : RoundsTo pl z (decVal S * 10 ^ scale E)) :
    ReadsD zv z nd pl out sep := by
  refine ⟨M, S, E, ?_, h.numM, h.numS, h.noLoss hnd hl, hz, h.decS, h.sigS⟩
  rw [show decide (zv < 0) = decide (v < 0) by rw [decide_eq_decide]; exact near_sign h.nearM]
  exact h.lay

/-- the result if `ndigits` returned the number itself -/
theorem reads_self {g : Fmt} {mu s : Dbl} {v t : ℝ} {r : FP g} {nd : ℕ} (hd : ndigits s r = some ((nd : ℤ), s)) (ht : Is s t) (hv : Is mu v) (h1 : 1 ≤ nd) (h2 : nd ≤ 13)
    (t1 : 10 ^ (-280 : ℤ) ≤ t) (t2 : t ≤ 10 ^ (280 : ℤ)) (hvt : |v| ≤ 10 ^ (12 - nd : ℤ) * t) (hl : KeepsDigit v t) (sep : List Char) :
    ∃ out mu' s' k, formatFin mu s r sep = some out ∧ ReadsD mu' s' nd k out sep ∧ Near mu' v ∧ Near s' t := by
  have t0 : 0 < t := lt_of_lt_of_le (ten_pos _) t1
  obtain ⟨out, M, S, E, zv, zt, e, cs, pl, h3, h4⟩ := formatFin_is hd ht hv h1 h2 ((ten_mono (by norm_num)).trans t1) (t2.trans (ten_mono (by norm_num))) hvt sep
  exact ⟨out, zv, zt, pl, h3, h4.reads h2 (hl.imp_left fun h => by linarith) (h4.valS' h1), h4.nearM, by rw [Near, abs_of_pos t0]; exact h4.nearS⟩

/-- the result if `ndigits` returned a power of ten -/
theorem reads_ten {g : Fmt} {mu s s1 : Dbl} {v x t z : ℝ} {r : FP g} {e : ℤ} (hd : ndigits s r = some (((2 : ℕ) : ℤ), s1)) (ht : Is s1 t) (hv : Is mu v)
    (t1 : 10 ^ (-280 : ℤ) ≤ x) (t2 : x ≤ 10 ^ (280 : ℤ)) (hvx : |v| ≤ 10 ^ (10 : ℤ) * x) (hl : KeepsDigit v x)
    (hte : |t - 10 ^ (e + 1)| ≤ 4 * 10 ^ (-16 : ℤ) * 10 ^ (e + 1)) (hxt : x < t) (hz : |z - x| ≤ 4 * 10 ^ (-16 : ℤ) * x) (hr : RoundsTo e z (10 ^ (e + 1))) (sep : List Char) :
    ∃ out mu', formatFin mu s r sep = some out ∧ ReadsD mu' z 2 e out sep ∧ Near mu' v := by
  have x0 : 0 < x := lt_of_lt_of_le (ten_pos _) t1
  have pe := ten_pos e
  obtain ⟨c, hc⟩ : ∃ c : ℝ, c = 4 * 10 ^ (-16 : ℤ) := ⟨_, rfl⟩
  have c0 : 0 ≤ c := by rw [hc]; positivity
  have c1 : c ≤ 1 / 1000 := by rw [hc]; norm_num
  rw [← hc] at hte hz
  rw [ten_succ] at hte
  obtain ⟨b1, b2⟩ := abs_le.1 hte
  obtain ⟨b3, b4⟩ := abs_le.1 hz
  have r1 := hr.2.1
  rw [ten_succ] at r1
  have tx : t ≤ 11 / 10 * x := by nlinarith
  have u1 : (10 : ℝ) ^ (-291 : ℤ) ≤ t := ((ten_mono (by norm_num)).trans t1).trans hxt.le
  have u2 : t ≤ (10 : ℝ) ^ (291 : ℤ) := by
    have : (10 : ℝ) ^ (281 : ℤ) = 10 * 10 ^ (280 : ℤ) := ten_succ 280
    have h3 : (10 : ℝ) ^ (281 : ℤ) ≤ 10 ^ (291 : ℤ) := ten_mono (by norm_num)
    generalize (10 : ℝ) ^ (280 : ℤ) = B at *
    generalize (10 : ℝ) ^ (281 : ℤ) = B' at *
    generalize (10 : ℝ) ^ (291 : ℤ) = B'' at *
    linarith
  obtain ⟨out, M, S, E, zv, zt, e', cs, pl, h3, h4⟩ := formatFin_is hd ht hv (by norm_num) (by norm_num) u1 u2 (by
    refine hvx.trans ?_
    have : (12 - ((2 : ℕ) : ℤ)) = 10 := by norm_num
    rw [this]
    exact mul_le_mul_of_nonneg_left hxt.le (by positivity)) sep
  have nS := h4.nearS
  rw [← hc] at nS
  obtain ⟨n1, n2⟩ := abs_le.1 nS
  -- the printed uncertainty is the power of ten
  have dlt : (10 : ℝ) ^ (-13 : ℤ) ≤ 1 / 1000 := by norm_num
  have lo := h4.lo
  have hi := h4.hi
  have pe' := ten_pos e'
  have ee : e' = e + 1 ∨ e' = e := by
    have g1 : (10 : ℝ) ^ e' < 10 ^ (e + 2) := by
      rw [show e + 2 = e + 1 + 1 by ring, ten_succ, ten_succ]
      generalize (10 : ℝ) ^ (-13 : ℤ) = d at *
      nlinarith
    have g2 : (10 : ℝ) ^ e < 10 ^ (e' + 1) := by nlinarith
    have g3 := (zpow_lt_zpow_iff_right₀ (by norm_num : (1 : ℝ) < 10)).1 g1
    have g4 := (zpow_lt_zpow_iff_right₀ (by norm_num : (1 : ℝ) < 10)).1 g2
    omega
  have zt1 : 10 * 10 ^ e - 1 / 20 * 10 ^ e < zt := by nlinarith
  have zt2 : zt < 10 * 10 ^ e + 1 / 20 * 10 ^ e := by nlinarith
  have key : decVal S * 10 ^ scale E = 10 ^ (e + 1) := by
    refine roundsTo_eq h4.valS ?_
    rcases ee with h | h
    · rw [show e' - ((2 : ℕ) : ℤ) + 1 = e by rw [h]; push_cast; ring, ten_succ]
      exact ⟨⟨10, by norm_num⟩, by linarith, by linarith⟩
    · have g5 : (10 : ℝ) ^ e = 10 * 10 ^ (e - 1) := by rw [← ten_succ]; congr 1; ring
      rw [show e' - ((2 : ℕ) : ℤ) + 1 = e - 1 by rw [h]; push_cast; ring, ten_succ]
      exact ⟨⟨100, by rw [g5]; norm_num; ring⟩, by linarith, by linarith⟩
  have hpl : pl = e := by
    have := h4.plE
    rcases ee with h | h
    · rcases h4.cs01 with ⟨hcs, -⟩ | ⟨-, hcs⟩
      · push_cast at this; omega
      · rw [key, h, ten_succ (e + 1)] at hcs
        have := ten_pos (e + 1)
        linarith
    · rcases h4.cs01 with ⟨-, hcs⟩ | ⟨hcs, -⟩
      · rw [key, h] at hcs
        exact absurd rfl hcs
      · push_cast at this; omega
  refine ⟨out, zv, h3, ?_, h4.nearM⟩
  have := h4.reads (z := z) (by norm_num) (hl.imp_left fun h => by linarith) (by rw [hpl, key]; exact hr)
  rwa [hpl] at this

end FmtFP
end Unc
