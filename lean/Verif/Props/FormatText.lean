import Verif.Lemmas.FormatText
import Verif.Props.Format

/-!
# C77: the whole text

With C39–C43 each aspect of what is printed has its statement, but none says when a common exponent is used.  Here the text is characterised
completely.  Exact arithmetic: see the head of `Verif/Model/Format.lean`.
-/

namespace Unc.Props
open Unc Unc.Spec Fmt

/-- When a common exponent is used and which one, for all numbers and `errdig` above 1: it is used exactly if the larger of the two printed numbers
is below 0.1, or the last digit of the uncertainty is above the units, or it is at the units and the mean, which is not
smaller than the uncertainty, is rounded up to a power of ten.  It is the position of the leading digit of the larger number. -/
theorem C77_exponent {mu s r : ℝ} (hs : s ≠ 0) (hr : 1 < r) (sep : List Char) :
    ∃ out M S E, format (.fin mu) (.fin s) (.fin r) sep = some (.ok out) ∧ Layout out (decide (mu < 0)) M S sep E ∧ Numeral M ∧ Numeral S ∧
      (∀ e, E = some e → e = leadPos (max (decVal M * 10 ^ scale E) (decVal S * 10 ^ scale E))) ∧
      (E ≠ none ↔ leadPos (max (decVal M * 10 ^ scale E) (decVal S * 10 ^ scale E)) < -1 ∨ 1 ≤ scale E - decimals S ∨
        (scale E - decimals S = 0 ∧ Carries 0 |mu| ∧ 10 ^ ((sigDigits S : ℤ) - 1) ≤ |mu|)) := by
  obtain ⟨out, M, S, E, nd, s', h1, h2, h3⟩ := any_shape (mu := mu) hs hr sep
  refine ⟨out, M, S, E, h1, h2, h3.numM, h3.numS, h3.expE, ?_⟩
  rw [h3.sigS]
  exact h3.useE

example := C77_exponent (mu := 48 / 5) (s := 34 / 10) (r := 3 / 2) (by norm_num) (by norm_num) [' ', '±', ' ']

/-- Part of C77: the output is the only text which writes the mean and the uncertainty rounded at the place of the last digit of the uncertainty,
with an exponent exactly if it must be there.  If the mean is rounded up to a power of ten its last digit is one place above, and this is
why the full statement, which would have the place `k` for both, is false (`C77_false`).  The hypotheses `h` and `hl` exclude the cases
in which the printed numbers are wrong (C39). -/
theorem C77_text_partial {mu s p : ℝ} {n : ℕ} (hs : 0 < s) (hn : 1 ≤ n) (hp : 0 ≤ p) (hp1 : p < 1) (he : 1 < n + p)
    (h : n = 1 ∨ ¬ Crosses n p s) (hl : ¬ MeanLosesDigit n p s mu) (sep out : List Char) :
    format (.fin mu) (.fin s) (.fin (n + p)) sep = some (.ok out) ↔
      ∃ m t, RoundsTo (place n p s) |mu| m ∧ RoundsTo (place n p s) s t ∧
        Writes out sep (decide (mu < 0)) m t (open Classical in if Carries (place n p s) |mu| then place n p s + 1 else place n p s) (place n p s) := by
  obtain ⟨out', M, S, E, h1, h2, h3, s', h4⟩ := good_shape (mu := mu) hs hn hp hp1 he h sep
  have w : Writes out' sep (decide (mu < 0)) (decVal M * 10 ^ scale E) (decVal S * 10 ^ scale E)
      (open Classical in if Carries (place n p s) |mu| then place n p s + 1 else place n p s) (place n p s) := by
    refine ⟨M, S, E, h2, h4.numM, h4.numS, rfl, rfl, ?_, h4.decS, h4.expE, ?_⟩
    · split_ifs with hc
      · exact h4.decC hl hc
      · exact h4.decM hl hc
    · rw [h4.useE]
      refine or_congr_right ?_
      constructor
      · rintro (a | ⟨a, b, -⟩)
        · split_ifs <;> omega
        · rw [if_pos (by rw [a]; exact b)]; omega
      · intro a
        split_ifs at a with hc
        · by_cases h0 : place n p s = 0
          · rw [h0] at hc
            refine Or.inr ⟨h0, hc, ?_⟩
            by_contra hh
            exact hl ⟨h0, hc, not_le.1 hh⟩
          · left; omega
        · exact Or.inl a
  constructor
  · intro ho
    have e : out' = out := by
      rw [h1] at ho
      simpa using ho
    subst e
    exact ⟨_, _, h4.valM hl, h3, w⟩
  · rintro ⟨m, t, r1, r2, w'⟩
    rw [roundsTo_eq r1 (h4.valM hl), roundsTo_eq r2 h3] at w'
    rw [h1, writes_unique w w']

/-- and when the mean loses a digit: the text is right for a tenth of the rounded mean -/
theorem C77_lost {mu s p : ℝ} {n : ℕ} (hs : 0 < s) (hn : 1 ≤ n) (hp : 0 ≤ p) (hp1 : p < 1) (he : 1 < n + p)
    (h : n = 1 ∨ ¬ Crosses n p s) (hl : MeanLosesDigit n p s mu) (sep out : List Char) :
    format (.fin mu) (.fin s) (.fin (n + p)) sep = some (.ok out) ↔
      ∃ m t, RoundsTo 0 |mu| (10 * m) ∧ RoundsTo 0 s t ∧ Writes out sep (decide (mu < 0)) m t 0 0 := by
  obtain ⟨out', M, S, E, h1, h2, h3, s', h4⟩ := good_shape (mu := mu) hs hn hp hp1 he h sep
  have hl' : LostDigit (place n p s) (sdevDigits n p s) mu := hl
  obtain ⟨rfl, d0, rM⟩ := h4.lost hl'
  have w : Writes out' sep (decide (mu < 0)) (decVal M) (decVal S) 0 0 := by
    refine ⟨M, S, none, h2, h4.numM, h4.numS, by simp [scale], by simp [scale], by simp [scale, d0], by rw [h4.decS]; exact hl.1, by rintro e ⟨⟩, ?_⟩
    have := h4.useE
    simp only [scale, zpow_zero, mul_one] at this
    rw [this, hl.1]
    simp only [show ¬ (1 : ℤ) ≤ 0 by norm_num, or_false, true_and, false_or]
    constructor
    · rintro (a | ⟨-, a⟩)
      · exact a
      · exact absurd a (not_le.2 hl.2.2)
    · exact Or.inl
  rw [hl.1] at h3
  simp only [scale, zpow_zero, mul_one] at h3
  constructor
  · intro ho
    have e : out' = out := by
      rw [h1] at ho
      simpa using ho
    subst e
    exact ⟨_, _, rM, h3, w⟩
  · rintro ⟨m, t, r1, r2, w'⟩
    have e := roundsTo_eq r1 rM
    rw [show m = decVal M by linarith, roundsTo_eq r2 h3] at w'
    rw [h1, writes_unique w w']

/-- Numbers without uncertainty: the output is the only text which writes the absolute value rounded to six digits. -/
theorem C77_tostring {x : ℝ} (hx : x ≠ 0) (out : List Char) : tostring (.fin x) = some out ↔
    ∃ m, RoundsTo (leadPos |x| - 5) |x| m ∧ Writes1 out m := by
  obtain ⟨out', m, h1, h2, h3⟩ := tostring_text hx
  constructor
  · intro ho
    have e : out' = out := by
      rw [h1] at ho
      simpa using ho
    subst e
    exact ⟨m, h2, h3⟩
  · rintro ⟨m', h4, h5⟩
    rw [roundsTo_eq h4 h2] at h5
    rw [h1, writes1_unique h3 h5]

/-- 9.6 ± 4 -/
theorem ten_exp : format (.fin (48 / 5)) (.fin 4) (.fin (3 / 2)) defaultSep =
    some (.ok ['(', '1', ' ', '±', ' ', '0', '.', '4', ')', 'e', '+', '1']) := by
  obtain ⟨q1, q2⟩ := sqrt_ten
  have lp : leadPos (4 : ℝ) = 0 := leadPos_unique (by norm_num) (by norm_num)
  have ld : leadDigits (4 : ℝ) = 4 := by rw [leadDigits, lp]; norm_num
  have as : askedDigits 1 (1 / 2) 4 = 0 + 1 := by rw [askedDigits, ld, if_neg (by linarith)]
  have nd : ndigits 4 (3 / 2) = some (1, 4) := by
    have := (ndigits_self (n := 1) (p := 1 / 2) (by norm_num) (by norm_num) (a := 4) (N := 0) 0 (by norm_num) (by norm_num) (by
      rw [zpow_zero, mul_one]; exact_mod_cast as)).2
    norm_num at this
    norm_num
    exact this
  have i1 : intMantissa 4 1 0 = 4 := intMantissa_eval 4 (by norm_num) (by norm_num) (by norm_num)
  have i2 : intMantissa (48 / 5) 1 0 = 10 := intMantissa_eval 10 (by norm_num) (by norm_num) (by norm_num)
  have s1 : intMantissaString 4 = ['4'] := by simp [intMantissaString, digitsLoop, digitChar]
  have s2 : intMantissaString 10 = ['1', '0'] := by simp [intMantissaString, digitsLoop, digitChar]
  have s3 : formatExp 1 = ['+', '1'] := by simp [formatExp, intMantissaString, digitsLoop, digitChar]
  rw [format_fin (by norm_num) (by norm_num),
    formatFin_eval _ nd (sexp := 0) (exponent_eval 0 (by norm_num [abs_of_pos]) (by norm_num [abs_of_pos])) (muexp := 0) (smant := ['4'])
      (sexp' := 0) (mumant := ['1']) (muexp' := 1)
      (by rw [if_pos (by norm_num)]; exact exponent_eval 0 (by norm_num [abs_of_pos]) (by norm_num [abs_of_pos]))
      (by simp [mantissa, i1, s1]) (by simp [mantissa, i2, s2])]
  norm_num [insertDot, defaultSep, s3]

/-- The full statement is false: 9.6 ± 4 is printed as "(1 ± 0.4)e+1", although "10 ± 4" has the last digits at the units. -/
theorem C77_false : ¬ ∀ mu s : ℝ, 0 < s → ¬ MeanLosesDigit 1 (1 / 2) s mu → ∀ out,
    format (.fin mu) (.fin s) (.fin (3 / 2)) defaultSep = some (.ok out) ↔
      ∃ m t, RoundsTo (place 1 (1 / 2) s) |mu| m ∧ RoundsTo (place 1 (1 / 2) s) s t ∧
        Writes out defaultSep (decide (mu < 0)) m t (place 1 (1 / 2) s) (place 1 (1 / 2) s) := by
  intro h
  obtain ⟨q1, q2⟩ := sqrt_ten
  have hnl : ¬ MeanLosesDigit 1 (1 / 2) 4 (48 / 5) := by
    rw [loses_default (by norm_num)]
    rintro ⟨-, h, -⟩
    norm_num at h
  obtain ⟨m, t, r1, r2, M, S, E, hl, hM, hS, vM, vS, dM, dS, -⟩ := (h (48 / 5) 4 (by norm_num) hnl _).1 ten_exp
  have lp : leadPos (4 : ℝ) = 0 := leadPos_unique (by norm_num) (by norm_num)
  have ld : leadDigits (4 : ℝ) = 4 := by rw [leadDigits, lp]; norm_num
  have hd : decide ((48 / 5 : ℝ) < 0) = false := by norm_num
  rw [hd] at hl
  have n1 : Numeral ['1'] := ⟨by decide, Or.inr ⟨'1', [], rfl, by decide⟩, by decide⟩
  have n2 : Numeral ['0', '.', '4'] := ⟨by decide, Or.inl rfl, by decide⟩
  have hl' : Layout ['(', '1', ' ', '±', ' ', '0', '.', '4', ')', 'e', '+', '1'] false ['1'] ['0', '.', '4'] defaultSep (some 1) :=
    ⟨by norm_num, ['+', '1'], ⟨['1'], rfl, by simp, by decide, by decide, by decide⟩, rfl⟩
  obtain ⟨-, rfl, rfl, rfl⟩ := layout_unique n1 n2 hM hS hl' hl
  have d1 : decimals ['1'] = 0 := rfl
  have d2 : decimals ['0', '.', '4'] = 1 := rfl
  rw [d1] at dM
  rw [d2, ← dM] at dS
  norm_num [scale] at dS

/-- Nor is the exponent used only if it must be: in the same output the larger number is 10 and the last digit of the uncertainty is at the units. -/
theorem C77_exponent_false : ¬ ∀ mu s : ℝ, 0 < s → ∀ out M S E, format (.fin mu) (.fin s) (.fin (3 / 2)) defaultSep = some (.ok out) →
    Layout out (decide (mu < 0)) M S defaultSep E → Numeral M → Numeral S → E ≠ none →
      leadPos (max (decVal M * 10 ^ scale E) (decVal S * 10 ^ scale E)) < -1 ∨ 1 ≤ scale E - decimals S := by
  intro h
  have n1 : Numeral ['1'] := ⟨by decide, Or.inr ⟨'1', [], rfl, by decide⟩, by decide⟩
  have n2 : Numeral ['0', '.', '4'] := ⟨by decide, Or.inl rfl, by decide⟩
  have hd : decide ((48 / 5 : ℝ) < 0) = false := by norm_num
  have hl' : Layout ['(', '1', ' ', '±', ' ', '0', '.', '4', ')', 'e', '+', '1'] false ['1'] ['0', '.', '4'] defaultSep (some 1) :=
    ⟨by norm_num, ['+', '1'], ⟨['1'], rfl, by simp, by decide, by decide, by decide⟩, rfl⟩
  have d2 : decimals ['0', '.', '4'] = 1 := rfl
  rcases h (48 / 5) 4 (by norm_num) _ _ _ _ ten_exp (by rw [hd]; exact hl') n1 n2 (by simp) with a | a
  · have v1 : decVal ['1'] = 1 := by
      have e : natVal (intPart ['1'] ++ fracPart ['1']) = 1 := by decide
      have e' : decimals ['1'] = 0 := rfl
      rw [decVal, e, e']; norm_num
    have hm : (10 : ℝ) ^ (1 : ℤ) ≤ max (decVal ['1'] * 10 ^ scale (some 1)) (decVal ['0', '.', '4'] * 10 ^ scale (some 1)) :=
      le_max_of_le_left (by rw [v1]; norm_num [scale])
    have hp : (0 : ℝ) < max (decVal ['1'] * 10 ^ scale (some 1)) (decVal ['0', '.', '4'] * 10 ^ scale (some 1)) :=
      lt_of_lt_of_le (by norm_num) hm
    have h2 := lt_of_le_of_lt hm (leadPos_spec hp).2
    have := (zpow_lt_zpow_iff_right₀ (by norm_num : (1 : ℝ) < 10)).1 h2
    omega
  · rw [d2] at a
    norm_num [scale] at a

/-- 12.34 ± 0.5 with the default number of digits -/
example (out : List Char) := C77_text_partial (mu := 1234 / 100) (s := 1 / 2) (n := 1) (p := 1 / 2) (by norm_num) le_rfl (by norm_num) (by norm_num)
  (by norm_num) (Or.inl rfl) (by rw [loses_default (by norm_num)]; rintro ⟨-, h, -⟩; norm_num at h) [' '] out

/-- 9.6 ± 25 -/
example (out : List Char) := C77_lost (mu := 48 / 5) (s := 25) (n := 1) (p := 1 / 2) (by norm_num) le_rfl (by norm_num) (by norm_num)
  (by norm_num) (Or.inl rfl) (by
    obtain ⟨q1, q2⟩ := sqrt_ten
    rw [loses_default (by norm_num)]
    exact ⟨by norm_num [abs_of_pos], by norm_num, by linarith⟩) [' '] out

example (out : List Char) := C77_tostring (x := -1234567) (by norm_num) out

end Unc.Props
