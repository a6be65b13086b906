import Verif.Lemmas.Format

/-!
# C38–C43: formatting

Exact arithmetic: see the head of `Verif/Model/Format.lean`.  The argument `errdig` is written `n + p`, integer and fractional part.
-/

namespace Unc.Props
open Unc Unc.Spec Fmt

/-! ## C38 -/

/-- `format` throws exactly when `errdig` is at most 1, and then `std::invalid_argument`. -/
theorem C38_throws (mu s errdig : FNum) (sep : List Char) (ex : Exn) :
    format mu s errdig sep = some (.error ex) ↔ ex = .invalidArgument ∧ ((∃ r : ℝ, errdig = .fin r ∧ r ≤ 1) ∨ errdig = .inf true) := by
  have low : errdigLow errdig ↔ (∃ r : ℝ, errdig = .fin r ∧ r ≤ 1) ∨ errdig = .inf true := by
    cases errdig <;> simp [errdigLow]
  rw [← low]
  unfold format
  split_ifs with h
  · simp [h, eq_comm]
  · simp only [h, and_false, iff_false]
    intro h'
    cases mu <;> cases s <;> simp only [Option.bind_eq_some_iff, Option.map_eq_some_iff] at h'
    all_goals try (obtain ⟨_, _, _, _, h'⟩ := h'; cases h')
    split_ifs at h'
    · simp only [Option.bind_eq_some_iff, Option.map_eq_some_iff] at h'
      obtain ⟨_, _, _, _, h'⟩ := h'
      cases h'
    · cases errdig <;> simp at h'

example : format (.fin 1) (.fin 2) (.fin 1) [] = some (.error .invalidArgument) := (C38_throws _ _ _ _ _).2 ⟨rfl, Or.inl ⟨1, rfl, le_rfl⟩⟩
example (ex : Exn) : format (.fin 1) (.fin 2) (.fin (3 / 2)) [] ≠ some (.error ex) := by
  rw [ne_eq, C38_throws]
  rintro ⟨-, ⟨r, hr, h⟩ | h⟩
  · cases hr; norm_num at h
  · cases h

/-- The documentation says that it throws if `errdig < 1.0f` (uncertainties/core.hpp:92): it also throws for 1. -/
theorem C38_doc_false : ¬ ∀ (mu s r : ℝ) (sep : List Char) (ex : Exn), format (.fin mu) (.fin s) (.fin r) sep = some (.error ex) → r < 1 := by
  intro h
  exact lt_irrefl _ (h 1 2 1 [] .invalidArgument ((C38_throws _ _ _ _ _).2 ⟨rfl, Or.inl ⟨1, rfl, le_rfl⟩⟩))

theorem tostring_some (x : FNum) : ∃ a, tostring x = some a := by
  cases x with
  | nan => exact ⟨_, rfl⟩
  | inf neg => exact ⟨_, rfl⟩
  | fin x =>
    by_cases h : x = 0
    · exact ⟨['0'], by rw [tostring, if_pos h]⟩
    · obtain ⟨out, M, E, h, -⟩ := tostring_shape h
      exact ⟨out, h⟩

theorem format_fin {mu s r : ℝ} (hs : s ≠ 0) (hr : 1 < r) (sep : List Char) :
    format (.fin mu) (.fin s) (.fin r) sep = (formatFin mu s r sep).map .ok := by
  unfold format
  rw [if_neg (by simp only [errdigLow]; linarith)]
  simp only
  rw [if_neg hs]

theorem format_plain {mu s : FNum} {r : ℝ} (hr : 1 < r) (sep : List Char) (h : ∀ m t : ℝ, mu = .fin m → s = .fin t → t = 0) :
    format mu s (.fin r) sep = (tostring mu).bind fun a => (tostring s).map fun b => .ok (a ++ sep ++ b) := by
  unfold format
  rw [if_neg (by simp only [errdigLow]; linarith)]
  cases mu <;> cases s <;> simp only
  rw [if_pos (h _ _ rfl rfl)]

/-- With a finite `errdig` above 1 there is always a result: no assertion fails, no conversion overflows. -/
theorem C38_total (mu s : FNum) {r : ℝ} (hr : 1 < r) (sep : List Char) : ∃ out, format mu s (.fin r) sep = some (.ok out) := by
  obtain ⟨a, ha⟩ := tostring_some mu
  obtain ⟨b, hb⟩ := tostring_some s
  by_cases h : ∀ m t : ℝ, mu = .fin m → s = .fin t → t = 0
  · rw [format_plain hr sep h, ha, hb]
    exact ⟨_, rfl⟩
  · push Not at h
    obtain ⟨m, t, rfl, rfl, ht⟩ := h
    rw [format_fin ht hr]
    obtain ⟨nd, s', h1, h2, h3⟩ := ndigits_some t ht hr
    obtain ⟨out, M, S, E, cs, pl, h4, -⟩ := formatFin_shape (mu := m) h1 h2 h3 sep
    rw [h4]
    exact ⟨_, rfl⟩

example : ∃ out, format .nan (.fin (-1)) (.fin 2) [] = some (.ok out) := C38_total _ _ (by norm_num) _
example : ∃ out, format (.fin 0) (.fin 12345) (.fin (31 / 10)) [' '] = some (.ok out) := C38_total _ _ (by norm_num) _

/-- An infinite or NaN `errdig` is let through, and is undefined behaviour for ordinary numbers. -/
theorem C38_undefined (mu s : ℝ) (hs : s ≠ 0) (sep : List Char) :
    format (.fin mu) (.fin s) .nan sep = none ∧ format (.fin mu) (.fin s) (.inf false) sep = none := by
  constructor <;>
  · unfold format
    rw [if_neg (by simp [errdigLow])]
    simp only
    rw [if_neg hs]

example : format (.fin 3) (.fin 1) .nan [] = none := (C38_undefined 3 1 one_ne_zero []).1

/-! ## C39 -/

/-- what is printed when the number of digits is right -/
theorem good_shape {mu s p : ℝ} {n : ℕ} (hs : 0 < s) (hn : 1 ≤ n) (hp : 0 ≤ p) (hp1 : p < 1) (he : 1 < n + p)
    (h : n = 1 ∨ ¬ Crosses n p s) (sep : List Char) :
    ∃ out M S E, format (.fin mu) (.fin s) (.fin (n + p)) sep = some (.ok out) ∧ Layout out (decide (mu < 0)) M S sep E ∧
      RoundsTo (place n p s) s (decVal S * 10 ^ scale E) ∧ ∃ s', Shape mu s' (sdevDigits n p s) M S E (place n p s) := by
  obtain ⟨s', h1, h2, h3, h4⟩ := ndigits_good hs hn hp hp1 h
  obtain ⟨out, M, S, E, cs, pl, h5, h6, h7, h8, h9⟩ := formatFin_shape (mu := mu) h1 h2.ne' (by omega) sep
  rw [abs_of_pos h2] at h7 h8
  obtain ⟨e, r⟩ := h4 cs h7
  rw [h8, e] at h9
  have v := h9.valS
  rw [abs_of_pos h2] at v
  exact ⟨out, M, S, E, by rw [format_fin hs.ne' he, h5]; rfl, h6, r _ v, s', h9⟩

/-- what is printed when it is not -/
theorem bad_shape {mu s p : ℝ} {n : ℕ} (hs : 0 < s) (hn : 2 ≤ n) (hp : 0 ≤ p) (hp1 : p < 1) (h : Crosses n p s) (sep : List Char) :
    ∃ out M S E y pl s', format (.fin mu) (.fin s) (.fin (n + p)) sep = some (.ok out) ∧ Layout out (decide (mu < 0)) M S sep E ∧
      RoundsTo (leadPos s - n + 1) s y ∧ 0 < y ∧ decVal S * 10 ^ scale E = y * 10 ^ (n - 1) ∧ Shape mu s' (n + 1 : ℕ) M S E pl := by
  obtain ⟨y, s', r, hy, e, h1, h2, -, h4⟩ := ndigits_cross hs hn hp hp1 h
  obtain ⟨out, M, S, E, cs, pl, h5, h6, -, -, h9⟩ := formatFin_shape (mu := mu) h1 h2.ne' (by omega) sep
  have v := h9.valS
  rw [abs_of_pos h2] at v
  have he : (1 : ℝ) < n + p := by
    have : (2 : ℝ) ≤ n := by exact_mod_cast hn
    linarith
  exact ⟨out, M, S, E, y, pl, s', by rw [format_fin hs.ne' he, h5]; rfl, h6, r, hy, by rw [roundsTo_eq v h4, e], h9⟩

/-- The mean gets a power of ten and has its last digit in the units, the same place as that of the uncertainty, which has more digits. -/
def MeanLosesDigit (n : ℕ) (p s mu : ℝ) : Prop := place n p s = 0 ∧ Carries 0 |mu| ∧ |mu| < 10 ^ ((sdevDigits n p s : ℤ) - 1)

/-- Part of C39: the printed numbers are the mean and the uncertainty rounded to the same place, that of the last digit of the
uncertainty.  The full statement would have no hypotheses `h` and `hl`, but it is false, see `C39_exact`. -/
theorem C39_partial {mu s p : ℝ} {n : ℕ} (hs : 0 < s) (hn : 1 ≤ n) (hp : 0 ≤ p) (hp1 : p < 1) (he : 1 < n + p)
    (h : n = 1 ∨ ¬ Crosses n p s) (hl : ¬ MeanLosesDigit n p s mu) (sep : List Char) :
    ∃ out, format (.fin mu) (.fin s) (.fin (n + p)) sep = some (.ok out) ∧ Reads mu s (place n p s) out sep := by
  obtain ⟨out, M, S, E, h1, h2, h3, s', h4⟩ := good_shape (mu := mu) hs hn hp hp1 he h sep
  exact ⟨out, h1, M, S, E, h2, h4.numM, h4.numS, h4.valM hl, h3, h4.decS⟩

/-- three digits for 12.34 ± 0.5 -/
example : ∃ out, format (.fin (1234 / 100)) (.fin (1 / 2)) (.fin ((3 : ℕ) + 0)) [';'] = some (.ok out) ∧
    Reads (1234 / 100) (1 / 2) (place 3 0 (1 / 2)) out [';'] := by
  refine C39_partial (by norm_num) (by norm_num) le_rfl (by norm_num) (by norm_num) (Or.inr ?_) ?_ _
  · rintro ⟨-, y, ⟨⟨m, rfl⟩, -, hm⟩, h⟩
    rcases Nat.eq_zero_or_pos m with rfl | hm0
    · rw [leadPos_unique (k := -1) (by norm_num) (by norm_num)] at hm
      norm_num at hm
    · have := (leadDigits_range (x := m * 10 ^ (leadPos (1 / 2 : ℝ) - (3 : ℕ) + 1)) (mul_pos (by exact_mod_cast hm0) (ten_pos _))).1
      rw [Real.rpow_zero] at h
      linarith
  · rintro ⟨-, h, -⟩
    rw [abs_of_pos (by norm_num), carries_iff (by norm_num), leadPos_unique (k := 1) (by norm_num) (by norm_num)] at h
    norm_num at h

theorem not_reads_lost {mu s p : ℝ} {n : ℕ} (hs : 0 < s) (hn : 1 ≤ n) (hp : 0 ≤ p) (hp1 : p < 1) (he : 1 < n + p)
    (h : n = 1 ∨ ¬ Crosses n p s) (hl : MeanLosesDigit n p s mu) (sep : List Char) :
    ∃ out, format (.fin mu) (.fin s) (.fin (n + p)) (' ' :: sep) = some (.ok out) ∧ ¬ Reads mu s (place n p s) out (' ' :: sep) := by
  obtain ⟨out, M, S, E, h1, h2, -, s', h4⟩ := good_shape (mu := mu) hs hn hp hp1 he h (' ' :: sep)
  obtain ⟨rfl, -, h5⟩ := h4.lost hl
  refine ⟨out, h1, ?_⟩
  rintro ⟨M', S', E', l', nM, nS, r, -, -⟩
  obtain ⟨-, rfl, rfl, rfl⟩ := layout_unique h4.numM h4.numS nM nS h2 l'
  obtain ⟨l1, ⟨j, hj, l2, -⟩, -⟩ := hl
  rw [l1] at r
  simp only [scale, zpow_zero, mul_one] at r
  have e := roundsTo_eq r h5
  have : decVal M = 0 := by linarith
  rw [this] at r
  obtain ⟨-, -, r⟩ := r
  have h10 : (10 : ℝ) ^ (1 : ℤ) ≤ 10 ^ j := ten_mono (by omega)
  norm_num at r l2 h10
  linarith

theorem not_reads_crosses {mu s p : ℝ} {n : ℕ} (hs : 0 < s) (hn : 2 ≤ n) (hp : 0 ≤ p) (hp1 : p < 1) (h : Crosses n p s) (sep : List Char) :
    ∃ out, format (.fin mu) (.fin s) (.fin (n + p)) (' ' :: sep) = some (.ok out) ∧ ¬ Reads mu s (place n p s) out (' ' :: sep) := by
  obtain ⟨out, M, S, E, y, pl, s', h1, h2, h3, hy, h4, h5⟩ := bad_shape (mu := mu) hs hn hp hp1 h (' ' :: sep)
  refine ⟨out, h1, ?_⟩
  rintro ⟨M', S', E', l', nM, nS, -, r, -⟩
  obtain ⟨-, rfl, rfl, rfl⟩ := layout_unique h5.numM h5.numS nM nS h2 l'
  rw [h4] at r
  have hd : n ≤ sdevDigits n p s := by
    unfold sdevDigits askedDigits
    split_ifs <;> omega
  have hpl : place n p s ≤ leadPos s := by
    unfold place
    split_ifs <;> omega
  have a1 : (10 : ℝ) ^ place n p s ≤ 10 ^ leadPos s := ten_mono hpl
  have a2 : (10 : ℝ) ^ (leadPos s - n + 1) ≤ 10 ^ leadPos s := ten_mono (by omega)
  have a3 := (leadPos_spec hs).1
  have a4 : (10 : ℝ) ≤ 10 ^ (n - 1) := by
    calc (10 : ℝ) = 10 ^ 1 := by norm_num
      _ ≤ 10 ^ (n - 1) := pow_le_pow_right₀ (by norm_num) (by omega)
  obtain ⟨-, r1, -⟩ := r
  obtain ⟨-, -, r2⟩ := h3
  nlinarith

/-- C39 exactly: with a separator beginning with a space, like the default one, the output reads back as the rounded numbers if and only if
rounding the uncertainty does not take it across the threshold (or one digit was asked for) and the mean does not lose a digit. -/
theorem C39_exact_partial {mu s p : ℝ} {n : ℕ} (hs : 0 < s) (hn : 1 ≤ n) (hp : 0 ≤ p) (hp1 : p < 1) (he : 1 < n + p) (sep : List Char) :
    ∃ out, format (.fin mu) (.fin s) (.fin (n + p)) (' ' :: sep) = some (.ok out) ∧
      (Reads mu s (place n p s) out (' ' :: sep) ↔ (n = 1 ∨ ¬ Crosses n p s) ∧ ¬ MeanLosesDigit n p s mu) := by
  by_cases h : n = 1 ∨ ¬ Crosses n p s
  · by_cases hl : MeanLosesDigit n p s mu
    · obtain ⟨out, h1, h2⟩ := not_reads_lost hs hn hp hp1 he h hl sep
      exact ⟨out, h1, by tauto⟩
    · obtain ⟨out, h1, h2⟩ := C39_partial hs hn hp hp1 he h hl (' ' :: sep)
      exact ⟨out, h1, by tauto⟩
  · have h' := h
    push Not at h'
    obtain ⟨out, h1, h2⟩ := not_reads_crosses (mu := mu) hs (by omega) hp hp1 h'.2 sep
    exact ⟨out, h1, by tauto⟩

example : ∃ out, format (.fin (-7)) (.fin 25) (.fin ((1 : ℕ) + 1 / 2)) [' ', ' '] = some (.ok out) ∧
    (Reads (-7) 25 (place 1 (1 / 2) 25) out [' ', ' '] ↔ ((1 : ℕ) = 1 ∨ ¬ Crosses 1 (1 / 2) 25) ∧ ¬ MeanLosesDigit 1 (1 / 2) 25 (-7)) :=
  C39_exact_partial (by norm_num) le_rfl (by norm_num) (by norm_num) (by norm_num) [' ']

/-! the default number of digits, 1.5 -/

theorem loses_default {s mu : ℝ} (hs : 0 < s) :
    MeanLosesDigit 1 (1 / 2) s mu ↔ (19 / 2 ≤ |mu| ∧ |mu| < 10) ∧ (19 / 2 ≤ s ∧ s < 10 * 10 ^ (1 / 2 : ℝ)) := by
  obtain ⟨q1, q2⟩ := sqrt_ten
  obtain ⟨d1, d2, d3⟩ := leadDigits_range hs
  constructor
  · rintro ⟨h1, ⟨j, hj, h2, -⟩, h3⟩
    have h10 : (10 : ℝ) ^ (1 : ℤ) ≤ 10 ^ j := ten_mono (by omega)
    norm_num at h10 h2
    have hd : sdevDigits 1 (1 / 2) s = 2 := by
      have : 1 ≤ sdevDigits 1 (1 / 2) s ∧ sdevDigits 1 (1 / 2) s ≤ 2 := by
        unfold sdevDigits askedDigits
        split_ifs <;> omega
      rcases (by omega : sdevDigits 1 (1 / 2) s = 1 ∨ sdevDigits 1 (1 / 2) s = 2) with h | h
      · rw [h] at h3
        norm_num at h3
        linarith
      · exact h
    rw [hd] at h3
    norm_num at h3
    refine ⟨⟨by linarith, h3⟩, ?_⟩
    unfold place at h1
    rw [hd] at h1
    split_ifs at h1 with hu
    · have hl : leadPos s = 0 := by push_cast at h1; omega
      rw [hl, zpow_zero, mul_one] at d3
      have hn := askedDigits_pos (le_refl 1) (1 / 2) s
      have : (10 : ℝ) ^ (1 - (askedDigits 1 (1 / 2) s : ℤ)) ≤ 10 ^ (0 : ℤ) := ten_mono (by omega)
      unfold RoundsUp at hu
      rw [zpow_zero] at this
      constructor <;> linarith
    · have hl : leadPos s = 1 := by push_cast at h1; omega
      rw [hl, zpow_one] at d3
      unfold sdevDigits at hd
      rw [if_neg hu] at hd
      unfold askedDigits at hd
      split_ifs at hd with hk
      · constructor <;> linarith
      · omega
  · rintro ⟨⟨h1, h2⟩, h3, h4⟩
    have hd : place 1 (1 / 2) s = 0 ∧ sdevDigits 1 (1 / 2) s = 2 := by
      by_cases h10 : s < 10
      · have hl : leadPos s = 0 := leadPos_unique (by norm_num; linarith) (by norm_num; exact h10)
        rw [hl, zpow_zero, mul_one] at d3
        have ha : askedDigits 1 (1 / 2) s = 1 := by rw [askedDigits, if_neg (by linarith)]
        have hu : RoundsUp 1 s := by
          unfold RoundsUp
          norm_num
          linarith
        have hd : sdevDigits 1 (1 / 2) s = 2 := by rw [sdevDigits, ha, if_pos hu, if_pos (by norm_num)]
        exact ⟨by rw [place, ha, if_pos hu, hd, hl]; norm_num, hd⟩
      · have hl : leadPos s = 1 := leadPos_unique (by norm_num; linarith) (by norm_num; linarith)
        rw [hl, zpow_one] at d3
        have ha : askedDigits 1 (1 / 2) s = 2 := by rw [askedDigits, if_pos (by linarith)]
        have hu : ¬ RoundsUp 2 s := by
          unfold RoundsUp
          norm_num
          linarith
        have hd : sdevDigits 1 (1 / 2) s = 2 := by rw [sdevDigits, ha, if_neg hu]
        exact ⟨by rw [place, ha, if_neg hu, hd, hl]; norm_num, hd⟩
    refine ⟨hd.1, ⟨1, by norm_num, by norm_num; linarith, by norm_num; exact h2⟩, ?_⟩
    rw [hd.2]
    norm_num
    exact h2

/-- C39 for the stream operator and the default arguments: right except when the absolute mean is from 9.5 to 10 and the uncertainty
from 9.5 to 31.6. -/
theorem C39_default_partial (x : UReal ℝ) (hs : 0 < x.s) : ∃ out, ofUReal x = some (.ok out) ∧
    (Reads x.n x.s (place 1 (1 / 2) x.s) out defaultSep ↔
      ¬ ((19 / 2 ≤ |x.n| ∧ |x.n| < 10) ∧ (19 / 2 ≤ x.s ∧ x.s < 10 * 10 ^ (1 / 2 : ℝ)))) := by
  obtain ⟨out, h1, h2⟩ := C39_exact_partial (mu := x.n) (n := 1) (p := 1 / 2) hs le_rfl (by norm_num) (by norm_num) (by norm_num) ['±', ' ']
  refine ⟨out, ?_, ?_⟩
  · rw [ofUReal, defaultSep, ← h1]
    norm_num
  · rw [defaultSep, h2, ← loses_default hs]
    simp

example : ∃ out, ofUReal (⟨3, 2, 5, [(3, 2)]⟩ : UReal ℝ) = some (.ok out) ∧ Reads 5 2 (place 1 (1 / 2) 2) out defaultSep := by
  have hs : (⟨3, 2, 5, [(3, 2)]⟩ : UReal ℝ).s = 2 := by
    show (if (3 : ℤ) ≥ 0 then |(2 : ℝ)| else _) = 2
    norm_num
  obtain ⟨out, e, h⟩ := C39_default_partial ⟨3, 2, 5, [(3, 2)]⟩ (by rw [hs]; norm_num)
  rw [hs] at h
  refine ⟨out, e, h.2 fun ⟨⟨h1, _⟩, _⟩ => ?_⟩
  norm_num [UReal.n] at h1

example : 0 < (⟨3, 2, 5, [(3, 2)]⟩ : UReal ℝ).s := by
  show 0 < (if (3 : ℤ) ≥ 0 then |(2 : ℝ)| else _)
  norm_num

/-- 9.6 ± 25 with the default arguments. -/
theorem nine_six : format (.fin (48 / 5)) (.fin 25) (.fin (3 / 2)) defaultSep = some (.ok ['1', ' ', '±', ' ', '2', '5']) := by
  obtain ⟨q1, q2⟩ := sqrt_ten
  have l25 : leadDigits 25 = 5 / 2 := by
    rw [leadDigits, leadPos_unique (k := 1) (by norm_num) (by norm_num)]; norm_num
  have nd : ndigits 25 (3 / 2) = some (2, 25) := by
    have := ndigits_max (s := 25) (n := 1) (p := 1 / 2) (by norm_num) (by norm_num) (by norm_num) (by rw [l25]; linarith)
    norm_num at this
    exact this
  have i25 : intMantissa 25 2 1 = 25 := intMantissa_eval 25 (by norm_num) (by norm_num) (by norm_num)
  have i96 : intMantissa (48 / 5) 1 0 = 10 := intMantissa_eval 10 (by norm_num) (by norm_num) (by norm_num)
  have s25 : intMantissaString 25 = ['2', '5'] := by simp [intMantissaString, digitsLoop, digitChar]
  have s10 : intMantissaString 10 = ['1', '0'] := by simp [intMantissaString, digitsLoop, digitChar]
  rw [format_fin (by norm_num) (by norm_num),
    formatFin_eval _ nd (sexp := 1) (exponent_eval 1 (by norm_num) (by norm_num)) (muexp := 0) (smant := ['2', '5']) (sexp' := 1)
      (mumant := ['1']) (muexp' := 1)
      (by rw [if_pos (by norm_num)]; exact exponent_eval 0 (by norm_num [abs_of_pos]) (by norm_num [abs_of_pos]))
      (by simp [mantissa, i25, s25]) (by simp [mantissa, i96, s10])]
  norm_num [insertDot, defaultSep]

/-- The full statement of C39 does not hold, even with the default arguments: 9.6 ± 25 prints as `1 ± 25`. -/
theorem C39_false : ¬ ∀ mu s : ℝ, 0 < s → ∃ out, format (.fin mu) (.fin s) (.fin (3 / 2)) defaultSep = some (.ok out) ∧
    Reads mu s (place 1 (1 / 2) s) out defaultSep := by
  intro h
  obtain ⟨q1, q2⟩ := sqrt_ten
  obtain ⟨out, h1, h2⟩ := h (48 / 5) 25 (by norm_num)
  have hl : MeanLosesDigit 1 (1 / 2) 25 (48 / 5) := by
    rw [loses_default (by norm_num)]
    refine ⟨⟨?_, ?_⟩, by norm_num, by linarith⟩ <;> norm_num [abs_of_pos]
  obtain ⟨out', h1', h2'⟩ := C39_exact_partial (mu := 48 / 5) (s := 25) (n := 1) (p := 1 / 2) (by norm_num) le_rfl (by norm_num) (by norm_num)
    (by norm_num) ['±', ' ']
  norm_num at h1'
  rw [defaultSep, h1'] at h1
  cases h1
  exact (h2'.1 h2).2 hl

example : format (.fin (48 / 5)) (.fin 25) (.fin (3 / 2)) defaultSep = some (.ok ['1', ' ', '±', ' ', '2', '5']) ∧ RoundsTo 0 |48 / 5| 10 :=
  ⟨nine_six, ⟨10, by norm_num⟩, by norm_num [abs_of_pos], by norm_num [abs_of_pos]⟩

/-- Nor does it with a mean of zero and a non-integer number of digits above 2: 9.99 with 2.5 digits prints as 100. -/
theorem C39_crosses_false : ¬ ∀ s p : ℝ, ∀ n : ℕ, 0 < s → 1 ≤ n → 0 ≤ p → p < 1 → 1 < n + p →
    ∃ out, format (.fin 0) (.fin s) (.fin (n + p)) defaultSep = some (.ok out) ∧ Reads 0 s (place n p s) out defaultSep := by
  intro h
  obtain ⟨q1, q2⟩ := sqrt_ten
  obtain ⟨out, h1, h2⟩ := h (999 / 100) (1 / 2) 2 (by norm_num) (by norm_num) (by norm_num) (by norm_num) (by norm_num)
  have hp0 : leadPos (999 / 100) = 0 := leadPos_unique (by norm_num) (by norm_num)
  have hc : Crosses 2 (1 / 2) (999 / 100) := by
    refine ⟨by rw [leadDigits, hp0]; norm_num; linarith, 10 ^ (1 : ℤ), ?_, by rw [leadDigits_pow]; linarith⟩
    rw [hp0]
    refine ⟨⟨100, by norm_num⟩, by norm_num, by norm_num⟩
  obtain ⟨out', h1', h2'⟩ := not_reads_crosses (mu := 0) (by norm_num) (le_refl 2) (by norm_num) (by norm_num) hc ['±', ' ']
  rw [defaultSep, h1'] at h1
  cases h1
  exact h2' h2

theorem nine_nine : format (.fin 0) (.fin (999 / 100)) (.fin (5 / 2)) defaultSep = some (.ok ['0', ' ', '±', ' ', '1', '0', '0']) := by
  obtain ⟨q1, q2⟩ := sqrt_ten
  have l0 : leadPos (999 / 100) = 0 := leadPos_unique (by norm_num) (by norm_num)
  have i1 : intMantissa (999 / 100) 2 0 = 100 := intMantissa_eval 100 (by norm_num) (by norm_num) (by norm_num)
  have n1 : naiveNdigits (999 / 100) (5 / 2) = 2 := by
    have := naive_eq (x := 999 / 100) (n := 2) (p := 1 / 2) (by norm_num) (by norm_num) (by norm_num)
    rw [askedDigits, leadDigits, l0, if_neg (by norm_num; linarith)] at this
    norm_num at this
    exact this
  have n2 : naiveNdigits 100 (5 / 2) = 3 := by
    have := naive_eq (x := 10 ^ (2 : ℤ)) (n := 2) (p := 1 / 2) (by norm_num) (by norm_num) (by norm_num)
    rw [askedDigits, leadDigits_pow, if_pos (by linarith)] at this
    norm_num at this
    exact this
  have nd : ndigits (999 / 100) (5 / 2) = some (3, 100) := by
    unfold ndigits
    simp only [n1]
    rw [exponent_eq (by norm_num), abs_of_pos (by norm_num), l0]
    norm_num [i1, n2]
  have i2 : intMantissa 100 3 2 = 100 := intMantissa_eval 100 (by norm_num) (by norm_num) (by norm_num)
  have i3 : intMantissa 0 (-1) (-2) = 0 := intMantissa_eval 0 (by norm_num) (by norm_num) (by norm_num)
  have s2 : intMantissaString 100 = ['1', '0', '0'] := by simp [intMantissaString, digitsLoop, digitChar]
  have s3 : intMantissaString 0 = ['0'] := by simp [intMantissaString, digitsLoop]
  rw [format_fin (by norm_num) (by norm_num),
    formatFin_eval _ nd (sexp := 2) (exponent_eval 2 (by norm_num) (by norm_num)) (muexp := -2) (smant := ['1', '0', '0']) (sexp' := 2)
      (mumant := ['0']) (muexp' := -2) (by norm_num) (by simp [mantissa, i2, s2]) (by simp [mantissa, i3, s3])]
  norm_num [insertDot, defaultSep]

example : ndigits (999 / 100) (5 / 2) ≠ some (2, 999 / 100) := by
  intro h
  obtain ⟨q1, q2⟩ := sqrt_ten
  have hp0 : leadPos (999 / 100) = 0 := leadPos_unique (by norm_num) (by norm_num)
  have hc : Crosses 2 (1 / 2) (999 / 100) := by
    refine ⟨by rw [leadDigits, hp0]; norm_num; linarith, 10 ^ (1 : ℤ), ?_, by rw [leadDigits_pow]; linarith⟩
    rw [hp0]
    refine ⟨⟨100, by norm_num⟩, by norm_num, by norm_num⟩
  obtain ⟨y, s', -, -, -, h', -⟩ := ndigits_cross (by norm_num) (le_refl 2) (by norm_num) (by norm_num) hc
  norm_num at h'
  rw [h] at h'
  cases h'

/-! ## C40 -/

/-- what is printed, whatever the digits -/
theorem any_shape {mu s r : ℝ} (hs : s ≠ 0) (hr : 1 < r) (sep : List Char) :
    ∃ out M S E nd s', format (.fin mu) (.fin s) (.fin r) sep = some (.ok out) ∧ Layout out (decide (mu < 0)) M S sep E ∧
      Shape mu s' nd M S E (scale E - decimals S) := by
  obtain ⟨nd, s', h1, h2, h3⟩ := ndigits_some s hs hr
  obtain ⟨out, M, S, E, cs, pl, h4, h5, -, -, h6⟩ := formatFin_shape (mu := mu) h1 h2 h3 sep
  exact ⟨out, M, S, E, nd, s', by rw [format_fin hs hr, h4]; rfl, h5, by rw [h6.decS]; exact h6⟩

/-- Part of C40, for all numbers and `errdig` above 1: mean and uncertainty have the same number of decimals, unless the mean is rounded up to a
power of ten at the place of the last digit of the uncertainty; then the mean has one decimal less, or neither has decimals.
The full statement would have equality in all cases. -/
theorem C40_partial {mu s r : ℝ} (hs : s ≠ 0) (hr : 1 < r) (sep : List Char) :
    ∃ out M S E, format (.fin mu) (.fin s) (.fin r) sep = some (.ok out) ∧ Layout out (decide (mu < 0)) M S sep E ∧ Numeral M ∧ Numeral S ∧
      (¬ Carries (scale E - decimals S) |mu| → decimals M = decimals S) ∧
      (Carries (scale E - decimals S) |mu| → decimals M + 1 = decimals S ∨ (decimals M = 0 ∧ decimals S = 0 ∧ E = none)) := by
  obtain ⟨out, M, S, E, nd, s', h1, h2, h3⟩ := any_shape (mu := mu) hs hr sep
  refine ⟨out, M, S, E, h1, h2, h3.numM, h3.numS, fun hc => ?_, fun hc => ?_⟩
  · have hl : ¬ LostDigit (scale E - decimals S) nd mu := fun hl => hc (hl.1 ▸ hl.2.1)
    have := h3.decM hl hc
    omega
  · by_cases hl : LostDigit (scale E - decimals S) nd mu
    · obtain ⟨rfl, hd, -⟩ := h3.lost hl
      have := hl.1
      simp only [scale] at this
      exact Or.inr ⟨hd, by omega, rfl⟩
    · have := h3.decC hl hc
      omega

example : ∃ out M S E, format (.fin (-1)) (.fin (1 / 3)) (.fin 2) [','] = some (.ok out) ∧ Layout out (decide ((-1 : ℝ) < 0)) M S [','] E ∧
    Numeral M ∧ Numeral S ∧ (¬ Carries (scale E - decimals S) |(-1 : ℝ)| → decimals M = decimals S) ∧
      (Carries (scale E - decimals S) |(-1 : ℝ)| → decimals M + 1 = decimals S ∨ (decimals M = 0 ∧ decimals S = 0 ∧ E = none)) :=
  C40_partial (by norm_num) (by norm_num) _

/-- The full statement is false, even with the default arguments: 9.996 ± 0.10 loses a decimal of the mean. -/
theorem C40_false : ¬ ∀ mu s : ℝ, 0 < s → ∃ out M S E, format (.fin mu) (.fin s) (.fin (3 / 2)) defaultSep = some (.ok out) ∧
    Layout out (decide (mu < 0)) M S defaultSep E ∧ Numeral M ∧ Numeral S ∧ decimals M = decimals S := by
  intro h
  obtain ⟨q1, q2⟩ := sqrt_ten
  obtain ⟨out, M, S, E, h1, h2, h3, h4, h5⟩ := h (9996 / 1000) (1 / 10) (by norm_num)
  obtain ⟨out', M', S', E', g1, g2, -, s', g3⟩ := good_shape (mu := 9996 / 1000) (s := 1 / 10) (n := 1) (p := 1 / 2) (by norm_num) le_rfl
    (by norm_num) (by norm_num) (by norm_num) (Or.inl rfl) defaultSep
  have e32 : (((1 : ℕ) : ℝ) + 1 / 2) = 3 / 2 := by norm_num
  rw [e32, h1] at g1
  cases g1
  obtain ⟨-, rfl, rfl, rfl⟩ := layout_unique h3 h4 g3.numM g3.numS h2 g2
  have lp : leadPos (1 / 10 : ℝ) = -1 := leadPos_unique (by norm_num) (by norm_num)
  have ld : leadDigits (1 / 10 : ℝ) = 1 := by rw [leadDigits, lp]; norm_num
  have ha : askedDigits 1 (1 / 2) (1 / 10) = 2 := by rw [askedDigits, ld, if_pos (by linarith)]
  have hu : ¬ RoundsUp 2 (1 / 10) := by
    rw [RoundsUp, ld]; norm_num
  have hp : place 1 (1 / 2) (1 / 10) = -2 := by
    rw [place, sdevDigits, ha, if_neg hu, if_neg hu, lp]; norm_num
  rw [hp] at g3
  have hl : ¬ LostDigit (-2) (sdevDigits 1 (1 / 2) (1 / 10)) (9996 / 1000) := fun h => by
    have := h.1
    omega
  have hc : Carries (-2) |(9996 / 1000 : ℝ)| := by
    refine ⟨1, by norm_num, ?_, ?_⟩ <;> norm_num [abs_of_pos]
  have := g3.decC hl hc
  have := g3.decS
  omega

theorem ten_point : format (.fin (2499 / 250)) (.fin (1 / 10)) (.fin (3 / 2)) defaultSep =
    some (.ok ['1', '0', '.', '0', ' ', '±', ' ', '0', '.', '1', '0']) := by
  obtain ⟨q1, q2⟩ := sqrt_ten
  have lp : leadPos (1 / 10 : ℝ) = -1 := leadPos_unique (by norm_num) (by norm_num)
  have nd : ndigits (1 / 10) (3 / 2) = some (2, 1 / 10) := by
    have := ndigits_max (s := 1 / 10) (n := 1) (p := 1 / 2) (by norm_num) (by norm_num) (by norm_num)
      (by rw [leadDigits, lp]; norm_num; linarith)
    norm_num at this
    norm_num
    exact this
  have i1 : intMantissa (1 / 10) 2 (-1) = 10 := intMantissa_eval 10 (by norm_num) (by norm_num) (by norm_num)
  have i2 : intMantissa (2499 / 250) 3 0 = 1000 := intMantissa_eval 1000 (by norm_num) (by norm_num) (by norm_num)
  have s1 : intMantissaString 10 = ['1', '0'] := by simp [intMantissaString, digitsLoop, digitChar]
  have s2 : intMantissaString 1000 = ['1', '0', '0', '0'] := by simp [intMantissaString, digitsLoop, digitChar]
  rw [format_fin (by norm_num) (by norm_num),
    formatFin_eval _ nd (sexp := -1) (exponent_eval (-1) (by norm_num [abs_of_pos]) (by norm_num [abs_of_pos])) (muexp := 0) (smant := ['1', '0'])
      (sexp' := -1) (mumant := ['1', '0', '0']) (muexp' := 1)
      (by rw [if_pos (by norm_num)]; exact exponent_eval 0 (by norm_num [abs_of_pos]) (by norm_num [abs_of_pos]))
      (by unfold mantissa; rw [i1]; simp [s1]) (by simp [mantissa, i2, s2])]
  norm_num [insertDot, defaultSep]
  rfl

/-! ## C41 -/

/-- the output starts with a minus sign, maybe after the parenthesis -/
def StartsMinus (out : List Char) : Prop := ∃ t, out = '-' :: t ∨ out = '(' :: '-' :: t

theorem startsMinus_iff {out M S sep : List Char} {neg : Bool} {E : Option ℤ} (h : Layout out neg M S sep E) (hM : Numeral M) :
    StartsMinus out ↔ neg = true := by
  obtain ⟨c, t, rfl, hc⟩ := numeral_first hM
  have hc1 : c ≠ '-' := by rintro rfl; exact absurd hc (by decide)
  have hc2 : c ≠ '(' := by rintro rfl; exact absurd hc (by decide)
  cases E with
  | none =>
    simp only [Layout] at h
    rw [h]
    cases neg <;> simp [StartsMinus, hc1, hc2]
  | some e =>
    obtain ⟨-, es, -, h⟩ := h
    rw [h]
    cases neg <;> simp [StartsMinus, hc1]

/-- Part of C41: with a finite mean and a finite non-zero uncertainty the minus sign is there exactly for a negative mean.
The full statement has no hypothesis on the uncertainty, but it is false, see `C41_lost`. -/
theorem C41_partial {mu s r : ℝ} (hs : s ≠ 0) (hr : 1 < r) (sep : List Char) :
    ∃ out, format (.fin mu) (.fin s) (.fin r) sep = some (.ok out) ∧ (StartsMinus out ↔ mu < 0) := by
  obtain ⟨out, M, S, E, nd, s', h1, h2, h3⟩ := any_shape (mu := mu) hs hr sep
  exact ⟨out, h1, by rw [startsMinus_iff h2 h3.numM]; simp⟩

example : ∃ out, format (.fin (-3)) (.fin 100) (.fin 2) [','] = some (.ok out) ∧ (StartsMinus out ↔ (-3 : ℝ) < 0) :=
  C41_partial (by norm_num) (by norm_num) _

/-- Part of C41: an infinite or NaN mean. -/
theorem C41_nonfinite_partial {mu s : FNum} (hmu : ∀ x, mu ≠ .fin x) {r : ℝ} (hr : 1 < r) (sep : List Char) :
    ∃ out, format mu s (.fin r) sep = some (.ok out) ∧ (StartsMinus out ↔ mu = .inf true) := by
  obtain ⟨b, hb⟩ := tostring_some s
  rw [format_plain hr sep (fun m _ h => absurd h (hmu m)), hb]
  cases mu with
  | nan => exact ⟨_, rfl, by simp [StartsMinus]⟩
  | inf neg => cases neg <;> exact ⟨_, rfl, by simp [StartsMinus]⟩
  | fin x => exact absurd rfl (hmu x)

example : ∃ out, format (.inf true) (.fin 1) (.fin 2) [','] = some (.ok out) ∧ (StartsMinus out ↔ FNum.inf true = .inf true) :=
  C41_nonfinite_partial (by rintro x ⟨⟩) (by norm_num) _

/-- With zero or non-finite uncertainty the sign of a finite mean is always lost. -/
theorem C41_lost (mu : ℝ) {s : FNum} (hs : ∀ t, s = .fin t → t = 0) {r : ℝ} (hr : 1 < r) (sep : List Char) :
    format (.fin (-mu)) s (.fin r) sep = format (.fin mu) s (.fin r) sep ∧
    ∃ out, format (.fin mu) s (.fin r) sep = some (.ok out) ∧ ¬ StartsMinus out := by
  have h1 := format_plain (mu := .fin mu) hr sep (fun m t _ h => hs t h)
  have h2 := format_plain (mu := .fin (-mu)) hr sep (fun m t _ h => hs t h)
  refine ⟨by rw [h1, h2, tostring_neg], ?_⟩
  obtain ⟨b, hb⟩ := tostring_some s
  rw [h1, hb]
  by_cases h0 : mu = 0
  · subst h0
    exact ⟨_, by rw [tostring, if_pos rfl]; rfl, by simp [StartsMinus]⟩
  · obtain ⟨out, M, E, g1, g2, g3, -⟩ := tostring_shape h0
    refine ⟨_, by rw [g1]; rfl, ?_⟩
    obtain ⟨c, t, rfl, hc⟩ := numeral_first g3
    have hc1 : c ≠ '-' := by rintro rfl; exact absurd hc (by decide)
    have hc2 : c ≠ '(' := by rintro rfl; exact absurd hc (by decide)
    cases E with
    | none =>
      simp only [Layout1] at g2
      rw [g2]
      simp [StartsMinus, hc1, hc2]
    | some e =>
      obtain ⟨-, es, -, g2⟩ := g2
      rw [g2]
      simp [StartsMinus, hc1, hc2]

example : format (.fin (-5)) (.inf false) (.fin 2) [] = format (.fin 5) (.inf false) (.fin 2) [] :=
  (C41_lost 5 (by rintro t ⟨⟩) (by norm_num) _).1

/-- So the full statement is false: -1 ± 0. -/
theorem C41_false : ¬ ∀ mu s : ℝ, ∃ out, format (.fin mu) (.fin s) (.fin (3 / 2)) defaultSep = some (.ok out) ∧ (StartsMinus out ↔ mu < 0) := by
  intro h
  obtain ⟨out, h1, h2⟩ := h (-1) 0
  obtain ⟨-, out', h1', h2'⟩ := C41_lost (-1) (s := .fin 0) (fun t h => by cases h; rfl) (r := 3 / 2) (by norm_num) defaultSep
  rw [h1] at h1'
  cases h1'
  exact h2' (h2.2 (by norm_num))

/-! ## C42 -/

/-- Part of C42: with `errdig = n + p` the uncertainty has the number of significant digits of the specification, `n + 1` if the leading digits are
below `10 ^ p` or become so by rounding up to a power of ten.  The full statement has no hypothesis `h`, see `C42_crosses`. -/
theorem C42_partial {mu s p : ℝ} {n : ℕ} (hs : 0 < s) (hn : 1 ≤ n) (hp : 0 ≤ p) (hp1 : p < 1) (he : 1 < n + p)
    (h : n = 1 ∨ ¬ Crosses n p s) (sep : List Char) :
    ∃ out M S E, format (.fin mu) (.fin s) (.fin (n + p)) sep = some (.ok out) ∧ Layout out (decide (mu < 0)) M S sep E ∧ Numeral M ∧ Numeral S ∧
      sigDigits S = sdevDigits n p s := by
  obtain ⟨out, M, S, E, h1, h2, -, s', h4⟩ := good_shape (mu := mu) hs hn hp hp1 he h sep
  exact ⟨out, M, S, E, h1, h2, h4.numM, h4.numS, by exact_mod_cast h4.sigS⟩

example : ∃ out M S E, format (.fin 4) (.fin (1 / 5)) (.fin ((1 : ℕ) + 1 / 2)) [','] = some (.ok out) ∧
    Layout out (decide ((4 : ℝ) < 0)) M S [','] E ∧ Numeral M ∧ Numeral S ∧ sigDigits S = sdevDigits 1 (1 / 2) (1 / 5) :=
  C42_partial (by norm_num) le_rfl (by norm_num) (by norm_num) (by norm_num) (Or.inl rfl) _

theorem sdev_default {s : ℝ} (hs : 0 < s) :
    sdevDigits 1 (1 / 2) s = if leadDigits s < 10 ^ (1 / 2 : ℝ) ∨ 19 / 2 ≤ leadDigits s then 2 else 1 := by
  obtain ⟨q1, q2⟩ := sqrt_ten
  unfold sdevDigits
  by_cases h : leadDigits s < 10 ^ (1 / 2 : ℝ)
  · have ha : askedDigits 1 (1 / 2) s = 2 := by rw [askedDigits, if_pos h]
    rw [ha, if_neg (by unfold RoundsUp; norm_num; linarith), if_pos (Or.inl h)]
  · have ha : askedDigits 1 (1 / 2) s = 1 := by rw [askedDigits, if_neg h]
    rw [ha]
    by_cases h' : 19 / 2 ≤ leadDigits s
    · rw [if_pos (by unfold RoundsUp; norm_num; linarith), if_pos (Or.inr h'), if_pos (by norm_num)]
    · rw [if_neg (by unfold RoundsUp; norm_num; linarith), if_neg (by tauto)]

/-- C42 for the stream operator and the default arguments: two digits if the leading digits of the uncertainty are below 3.16 or from 9.5 on, otherwise one. -/
theorem C42_default (x : UReal ℝ) (hs : 0 < x.s) : ∃ out M S E, ofUReal x = some (.ok out) ∧ Layout out (decide (x.n < 0)) M S defaultSep E ∧
    Numeral M ∧ Numeral S ∧ sigDigits S = if leadDigits x.s < 10 ^ (1 / 2 : ℝ) ∨ 19 / 2 ≤ leadDigits x.s then 2 else 1 := by
  obtain ⟨out, M, S, E, h1, h2⟩ := C42_partial (mu := x.n) (n := 1) (p := 1 / 2) hs le_rfl (by norm_num) (by norm_num) (by norm_num) (Or.inl rfl)
    defaultSep
  rw [sdev_default hs] at h2
  refine ⟨out, M, S, E, ?_, h2⟩
  rw [ofUReal, ← h1]
  norm_num

example := C42_default (⟨3, 2, 5, [(3, 2)]⟩ : UReal ℝ) (by
  show 0 < (if (3 : ℤ) ≥ 0 then |(2 : ℝ)| else _)
  norm_num)

example : 0 < (⟨3, -2, 5, [(3, 2)]⟩ : UReal ℝ).s := by
  show 0 < (if (3 : ℤ) ≥ 0 then |(-2 : ℝ)| else _)
  norm_num

/-- In any case there are `n` or `n + 1` significant digits. -/
theorem C42_range {mu s p : ℝ} {n : ℕ} (hs : 0 < s) (hn : 1 ≤ n) (hp : 0 ≤ p) (hp1 : p < 1) (he : 1 < n + p) (sep : List Char) :
    ∃ out M S E, format (.fin mu) (.fin s) (.fin (n + p)) sep = some (.ok out) ∧ Layout out (decide (mu < 0)) M S sep E ∧ Numeral M ∧ Numeral S ∧
      (sigDigits S = n ∨ sigDigits S = n + 1) := by
  by_cases h : n = 1 ∨ ¬ Crosses n p s
  · obtain ⟨out, M, S, E, h1, h2, h3, h4, h5⟩ := C42_partial (mu := mu) hs hn hp hp1 he h sep
    refine ⟨out, M, S, E, h1, h2, h3, h4, ?_⟩
    rw [h5]
    unfold sdevDigits askedDigits
    split_ifs <;> simp
  · push Not at h
    obtain ⟨out, M, S, E, y, pl, s', h1, h2, -, -, -, h5⟩ := bad_shape (mu := mu) hs (by omega) hp hp1 h.2 sep
    exact ⟨out, M, S, E, h1, h2, h5.numM, h5.numS, Or.inr (by exact_mod_cast h5.sigS)⟩

example : ∃ out M S E, format (.fin 4) (.fin 7) (.fin ((3 : ℕ) + 1 / 2)) [','] = some (.ok out) ∧
    Layout out (decide ((4 : ℝ) < 0)) M S [','] E ∧ Numeral M ∧ Numeral S ∧ (sigDigits S = 3 ∨ sigDigits S = 3 + 1) :=
  C42_range (by norm_num) (by norm_num) (by norm_num) (by norm_num) (by norm_num) _

/-- The other case: two or more digits asked for, and rounding takes the uncertainty across the threshold. There are `n + 1` digits and the
uncertainty printed is the rounded one times `10 ^ (n - 1)`. -/
theorem C42_crosses {mu s p : ℝ} {n : ℕ} (hs : 0 < s) (hn : 2 ≤ n) (hp : 0 ≤ p) (hp1 : p < 1) (h : Crosses n p s) (sep : List Char) :
    ∃ out M S E y, format (.fin mu) (.fin s) (.fin (n + p)) sep = some (.ok out) ∧ Layout out (decide (mu < 0)) M S sep E ∧ Numeral M ∧ Numeral S ∧
      sigDigits S = n + 1 ∧ RoundsTo (leadPos s - n + 1) s y ∧ 0 < y ∧ decVal S * 10 ^ scale E = y * 10 ^ (n - 1) := by
  obtain ⟨out, M, S, E, y, pl, s', h1, h2, h3, hy, h4, h5⟩ := bad_shape (mu := mu) hs hn hp hp1 h sep
  exact ⟨out, M, S, E, y, h1, h2, h5.numM, h5.numS, by exact_mod_cast h5.sigS, h3, hy, h4⟩

example : Crosses 2 (1 / 2) (999 / 100) := by
  obtain ⟨q1, q2⟩ := sqrt_ten
  have hp0 : leadPos (999 / 100) = 0 := leadPos_unique (by norm_num) (by norm_num)
  refine ⟨by rw [leadDigits, hp0]; norm_num; linarith, 10 ^ (1 : ℤ), ?_, by rw [leadDigits_pow]; linarith⟩
  rw [hp0]
  refine ⟨⟨100, by norm_num⟩, by norm_num, by norm_num⟩

/-- What C42 becomes without hypotheses: there are `n + 1` digits if the leading digits are below `10 ^ p`; or if rounding to `n`
digits gives the next power of ten and `p` is not 0; or if rounding to `n ≥ 2` digits crosses the threshold; otherwise `n`. -/
theorem C42_exact {mu s p : ℝ} {n : ℕ} (hs : 0 < s) (hn : 1 ≤ n) (hp : 0 ≤ p) (hp1 : p < 1) (he : 1 < n + p) (sep : List Char) :
    ∃ out M S E, format (.fin mu) (.fin s) (.fin (n + p)) sep = some (.ok out) ∧ Layout out (decide (mu < 0)) M S sep E ∧ Numeral M ∧ Numeral S ∧
      (sigDigits S = n ∨ sigDigits S = n + 1) ∧
      (sigDigits S = n + 1 ↔ leadDigits s < 10 ^ p ∨ 0 < p ∧ RoundsUp n s ∨ 2 ≤ n ∧ Crosses n p s) := by
  by_cases h : n = 1 ∨ ¬ Crosses n p s
  · obtain ⟨out, M, S, E, h1, h2, h3, h4, h5⟩ := C42_partial (mu := mu) hs hn hp hp1 he h sep
    refine ⟨out, M, S, E, h1, h2, h3, h4, ?_⟩
    have hno : ¬ (2 ≤ n ∧ Crosses n p s) := by rintro ⟨h6, h7⟩; rcases h with h | h; exacts [by omega, h h7]
    rw [h5]
    by_cases ha : leadDigits s < 10 ^ p
    · have hp0 : 0 < p := by
        rcases hp.lt_or_eq with h' | h'
        · exact h'
        · rw [← h', Real.rpow_zero] at ha
          exact absurd ha (not_lt.2 (leadDigits_range hs).1)
      have hA : askedDigits n p s = n + 1 := by rw [askedDigits, if_pos ha]
      rw [sdevDigits, hA]
      simp [ha, hp0]
    · have hA : askedDigits n p s = n := by rw [askedDigits, if_neg ha]
      rw [sdevDigits, hA]
      by_cases hu : RoundsUp n s <;> by_cases hp0 : 0 < p <;> simp [ha, hu, hp0, hno]
  · push Not at h
    obtain ⟨out, M, S, E, y, pl, s', h1, h2, -, -, -, h5⟩ := bad_shape (mu := mu) hs (by omega) hp hp1 h.2 sep
    have := h5.sigS
    have h6 : sigDigits S = n + 1 := by exact_mod_cast this
    exact ⟨out, M, S, E, h1, h2, h5.numM, h5.numS, Or.inr h6, by simp only [h6, true_iff]; exact Or.inr (Or.inr ⟨by omega, h.2⟩)⟩

example : ∃ out M S E, format (.fin 4) (.fin 7) (.fin ((3 : ℕ) + 1 / 2)) [','] = some (.ok out) ∧
    Layout out (decide ((4 : ℝ) < 0)) M S [','] E ∧ Numeral M ∧ Numeral S ∧ (sigDigits S = 3 ∨ sigDigits S = 3 + 1) ∧
    (sigDigits S = 3 + 1 ↔ leadDigits 7 < 10 ^ (1 / 2 : ℝ) ∨ (0 : ℝ) < 1 / 2 ∧ RoundsUp 3 7 ∨ 2 ≤ 3 ∧ Crosses 3 (1 / 2) 7) :=
  C42_exact (by norm_num) (by norm_num) (by norm_num) (by norm_num) (by norm_num) _

/-- The number of digits with the default `errdig`, for any way of reading the output as mean and uncertainty. -/
theorem default_digits {mu s : ℝ} (hs : 0 < s) {out M S : List Char} {E : Option ℤ}
    (h : format (.fin mu) (.fin s) (.fin (3 / 2)) defaultSep = some (.ok out)) (hl : Layout out (decide (mu < 0)) M S defaultSep E)
    (hM : Numeral M) (hS : Numeral S) : sigDigits S = if leadDigits s < 10 ^ (1 / 2 : ℝ) ∨ 19 / 2 ≤ leadDigits s then 2 else 1 := by
  obtain ⟨out', M', S', E', h1, h2, h3, h4, h5⟩ := C42_partial (mu := mu) (n := 1) (p := 1 / 2) hs le_rfl (by norm_num) (by norm_num) (by norm_num)
    (Or.inl rfl) defaultSep
  have e32 : (((1 : ℕ) : ℝ) + 1 / 2) = 3 / 2 := by norm_num
  rw [e32, h] at h1
  cases h1
  obtain ⟨-, rfl, rfl, rfl⟩ := layout_unique hM hS h3 h4 hl h2
  rw [h5, sdev_default hs]

/-- So neither reading of the full statement is true, already with the default arguments.  With the leading digits of the uncertainty itself it
is false for 9.6, printed as 10; with those of the uncertainty rounded to one digit it is false for 3.3, printed as 3. -/
theorem C42_false :
    (¬ ∀ mu s : ℝ, 0 < s → ∃ out M S E, format (.fin mu) (.fin s) (.fin (3 / 2)) defaultSep = some (.ok out) ∧
      Layout out (decide (mu < 0)) M S defaultSep E ∧ Numeral M ∧ Numeral S ∧ (sigDigits S = 2 ↔ leadDigits s < 10 ^ (1 / 2 : ℝ))) ∧
    (¬ ∀ mu s y : ℝ, 0 < s → RoundsTo (leadPos s) s y → ∃ out M S E, format (.fin mu) (.fin s) (.fin (3 / 2)) defaultSep = some (.ok out) ∧
      Layout out (decide (mu < 0)) M S defaultSep E ∧ Numeral M ∧ Numeral S ∧ (sigDigits S = 2 ↔ leadDigits y < 10 ^ (1 / 2 : ℝ))) := by
  obtain ⟨q1, q2⟩ := sqrt_ten
  constructor
  · intro h
    obtain ⟨out, M, S, E, h1, h2, h3, h4, h5⟩ := h 0 (96 / 10) (by norm_num)
    have hp0 : leadPos (96 / 10) = 0 := leadPos_unique (by norm_num) (by norm_num)
    have hd : leadDigits (96 / 10) = 96 / 10 := by rw [leadDigits, hp0]; norm_num
    have := default_digits (by norm_num) h1 h2 h3 h4
    rw [hd, if_pos (Or.inr (by norm_num))] at this
    rw [hd] at h5
    have := h5.1 this
    linarith
  · intro h
    have hp0 : leadPos (33 / 10) = 0 := leadPos_unique (by norm_num) (by norm_num)
    have hd : leadDigits (33 / 10) = 33 / 10 := by rw [leadDigits, hp0]; norm_num
    have hp3 : leadPos 3 = 0 := leadPos_unique (by norm_num) (by norm_num)
    have hd3 : leadDigits 3 = 3 := by rw [leadDigits, hp3]; norm_num
    obtain ⟨out, M, S, E, h1, h2, h3, h4, h5⟩ := h 0 (33 / 10) 3 (by norm_num) (by
      rw [hp0]; exact ⟨⟨3, by norm_num⟩, by norm_num, by norm_num⟩)
    have := default_digits (by norm_num) h1 h2 h3 h4
    rw [hd, if_neg (by push Not; exact ⟨by linarith, by norm_num⟩)] at this
    rw [hd3, this] at h5
    exact absurd (h5.2 (by linarith)) (by norm_num)

/-! ## C43 -/

/-- Part of C43: the exponent is not zero and has its sign (both in `Layout`), the larger mantissa is from 1 to 10, and the mantissas times the power
of ten are the rounded values.  What is missing is the uncertainty when rounding takes it across the threshold with two or more digits asked
for, where it is wrong by `C42_crosses`. -/
theorem C43_partial {mu s p : ℝ} {n : ℕ} (hs : 0 < s) (hn : 1 ≤ n) (hp : 0 ≤ p) (hp1 : p < 1) (he : 1 < n + p)
    (h : n = 1 ∨ ¬ Crosses n p s) (sep : List Char) :
    ∃ out M S E, format (.fin mu) (.fin s) (.fin (n + p)) sep = some (.ok out) ∧ Layout out (decide (mu < 0)) M S sep E ∧ Numeral M ∧ Numeral S ∧
      ∀ e, E = some e → e ≠ 0 ∧ 1 ≤ max (decVal M) (decVal S) ∧ max (decVal M) (decVal S) < 10 ∧
        RoundsTo (place n p s) |mu| (decVal M * 10 ^ e) ∧ RoundsTo (place n p s) s (decVal S * 10 ^ e) := by
  obtain ⟨out, M, S, E, h1, h2, h3, s', h4⟩ := good_shape (mu := mu) hs hn hp hp1 he h sep
  refine ⟨out, M, S, E, h1, h2, h4.numM, h4.numS, ?_⟩
  rintro e rfl
  have hl : ¬ LostDigit (place n p s) (sdevDigits n p s) mu := fun hl => by simpa using (h4.lost hl).1
  exact ⟨h2.1, (h4.norm e rfl).1, (h4.norm e rfl).2, h4.valM hl, h3⟩

example : ∃ out M S E, format (.fin 4567) (.fin 123) (.fin ((1 : ℕ) + 1 / 2)) [','] = some (.ok out) ∧
    Layout out (decide ((4567 : ℝ) < 0)) M S [','] E ∧ Numeral M ∧ Numeral S ∧
    ∀ e, E = some e → e ≠ 0 ∧ 1 ≤ max (decVal M) (decVal S) ∧ max (decVal M) (decVal S) < 10 ∧
      RoundsTo (place 1 (1 / 2) 123) |4567| (decVal M * 10 ^ e) ∧ RoundsTo (place 1 (1 / 2) 123) 123 (decVal S * 10 ^ e) :=
  C43_partial (by norm_num) le_rfl (by norm_num) (by norm_num) (by norm_num) (Or.inl rfl) _

/-- The same for the mean, and for the form of the exponent, without condition on the digits. -/
theorem C43_any {mu s r : ℝ} (hs : s ≠ 0) (hr : 1 < r) (sep : List Char) :
    ∃ out M S E, format (.fin mu) (.fin s) (.fin r) sep = some (.ok out) ∧ Layout out (decide (mu < 0)) M S sep E ∧ Numeral M ∧ Numeral S ∧
      ∀ e, E = some e → e ≠ 0 ∧ 1 ≤ max (decVal M) (decVal S) ∧ max (decVal M) (decVal S) < 10 ∧
        RoundsTo (e - decimals S) |mu| (decVal M * 10 ^ e) := by
  obtain ⟨out, M, S, E, nd, s', h1, h2, h4⟩ := any_shape (mu := mu) hs hr sep
  refine ⟨out, M, S, E, h1, h2, h4.numM, h4.numS, ?_⟩
  rintro e rfl
  have hl : ¬ LostDigit (scale (some e) - decimals S) nd mu := fun hl => by simpa using (h4.lost hl).1
  exact ⟨h2.1, (h4.norm e rfl).1, (h4.norm e rfl).2, h4.valM hl⟩

example : ∃ out M S E, format (.fin 4567) (.fin 999) (.fin (5 / 2)) [','] = some (.ok out) ∧
    Layout out (decide ((4567 : ℝ) < 0)) M S [','] E ∧ Numeral M ∧ Numeral S ∧
    ∀ e, E = some e → e ≠ 0 ∧ 1 ≤ max (decVal M) (decVal S) ∧ max (decVal M) (decVal S) < 10 ∧
      RoundsTo (e - decimals S) |4567| (decVal M * 10 ^ e) :=
  C43_any (by norm_num) (by norm_num) _

/-- Numbers without uncertainty: six significant digits of the absolute value, rounded, and the exponent like above. -/
theorem C43_tostring {x : ℝ} (hx : x ≠ 0) : ∃ out M E, tostring (.fin x) = some out ∧ Layout1 out M E ∧ Numeral M ∧ sigDigits M = 6 ∧
    RoundsTo (leadPos |x| - 5) |x| (decVal M * 10 ^ scale E) ∧ ∀ e, E = some e → e ≠ 0 ∧ 1 ≤ decVal M ∧ decVal M < 10 := by
  obtain ⟨out, M, E, h1, h2, h3, h4, h5, h6⟩ := tostring_shape hx
  refine ⟨out, M, E, h1, h2, h3, h4, h5, ?_⟩
  rintro e rfl
  exact ⟨h2.1, h6 e rfl⟩

example : ∃ out M E, tostring (.fin 1234567) = some out ∧ Layout1 out M E ∧ Numeral M ∧ sigDigits M = 6 ∧
    RoundsTo (leadPos |1234567| - 5) |1234567| (decVal M * 10 ^ scale E) ∧ ∀ e, E = some e → e ≠ 0 ∧ 1 ≤ decVal M ∧ decVal M < 10 :=
  C43_tostring (by norm_num)

/-! ## some lines of test/format.cpp -/

/-- test/format.cpp:58 -/
example : format (.fin 2500) (.fin 300) (.fin 2) [' ', 'p', 'm', ' '] =
    some (.ok ['(', '2', '.', '5', '0', ' ', 'p', 'm', ' ', '0', '.', '3', '0', ')', 'e', '+', '3']) := by
  have nd : ndigits 300 2 = some (2, 300) := by simpa using ndigits_int (s := 300) (by norm_num) (n := 2)
  have i1 : intMantissa 300 2 2 = 30 := intMantissa_eval 30 (by norm_num) (by norm_num) (by norm_num)
  have i2 : intMantissa 2500 3 3 = 250 := intMantissa_eval 250 (by norm_num) (by norm_num) (by norm_num)
  have s1 : intMantissaString 30 = ['3', '0'] := by simp [intMantissaString, digitsLoop, digitChar]
  have s2 : intMantissaString 250 = ['2', '5', '0'] := by simp [intMantissaString, digitsLoop, digitChar]
  have s3 : formatExp 3 = ['+', '3'] := by simp [formatExp, intMantissaString, digitsLoop, digitChar]
  rw [format_fin (by norm_num) (by norm_num),
    formatFin_eval _ nd (sexp := 2) (exponent_eval 2 (by norm_num) (by norm_num)) (muexp := 3) (smant := ['3', '0'])
      (sexp' := 2) (mumant := ['2', '5', '0']) (muexp' := 3)
      (by rw [if_pos (by norm_num)]; exact exponent_eval 3 (by norm_num [abs_of_pos]) (by norm_num [abs_of_pos]))
      (by simp [mantissa, i1, s1]) (by simp [mantissa, i2, s2])]
  norm_num [insertDot, s3]

/-- test/format.cpp:45 -/
example : format (.fin 0) (.fin (249 / 25000)) (.fin 2) [' ', 'p', 'm', ' '] =
    some (.ok ['(', '0', '.', '0', ' ', 'p', 'm', ' ', '1', '.', '0', ')', 'e', '-', '2']) := by
  have nd : ndigits (249 / 25000) 2 = some (2, 249 / 25000) := by simpa using ndigits_int (s := 249 / 25000) (by norm_num) (n := 2)
  have i1 : intMantissa (249 / 25000) 2 (-3) = 100 := intMantissa_eval 100 (by norm_num) (by norm_num) (by norm_num)
  have i2 : intMantissa 0 (-2) (-6) = 0 := intMantissa_eval 0 (by norm_num) (by norm_num) (by norm_num)
  have s1 : intMantissaString 100 = ['1', '0', '0'] := by simp [intMantissaString, digitsLoop, digitChar]
  have s2 : intMantissaString 0 = ['0'] := by simp [intMantissaString, digitsLoop]
  have s3 : formatExp (-2) = ['-', '2'] := by simp [formatExp, intMantissaString, digitsLoop, digitChar]
  rw [format_fin (by norm_num) (by norm_num),
    formatFin_eval _ nd (sexp := -3) (exponent_eval (-3) (by norm_num [abs_of_pos]) (by norm_num [abs_of_pos])) (muexp := -6) (smant := ['1', '0'])
      (sexp' := -2) (mumant := ['0']) (muexp' := -6) (by norm_num) (by simp [mantissa, i1, s1]) (by simp [mantissa, i2, s2])]
  norm_num [insertDot, s3]

/-- test/format.cpp:28 -/
example : format (.fin (1234567 / 100)) (.fin 0) (.fin 2) [' ', 'p', 'm', ' '] =
    some (.ok ['1', '2', '3', '4', '5', '.', '7', ' ', 'p', 'm', ' ', '0']) := by
  have i1 : intMantissa (1234567 / 100) 6 4 = 123457 := intMantissa_eval 123457 (by norm_num) (by norm_num) (by norm_num)
  have s1 : intMantissaString 123457 = ['1', '2', '3', '4', '5', '7'] := by simp [intMantissaString, digitsLoop, digitChar]
  have e1 : exponent (1234567 / 100) = some 4 := exponent_eval 4 (by norm_num [abs_of_pos]) (by norm_num [abs_of_pos])
  have t : tostring (.fin (1234567 / 100)) = some ['1', '2', '3', '4', '5', '.', '7'] := by
    simp only [tostring]
    rw [if_neg (by norm_num), e1]
    simp [mantissa, i1, s1, insertDot]
  rw [format_plain (by norm_num) _ (by rintro m t - ⟨⟩; rfl), t]
  simp [tostring]

end Unc.Props
