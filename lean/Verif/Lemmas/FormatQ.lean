import Verif.Lemmas.Format
import Mathlib.Data.Rat.Floor
import Mathlib.Analysis.SpecialFunctions.Pow.Real

/-! # Formatting of rational numbers can be computed

`Verif/Model/Format.lean` formats real numbers and cannot be run.  The functions here do the same computation on rational
numbers: the power of ten of the leading digit is found with `Int.log`, and the comparison of the fractional part of the logarithm
with a fraction `a / b` becomes `x ^ b < 10 ^ a`.  `format_rat` proves that they agree. -/

namespace Unc.FmtQ
open Fmt Spec

/-- the position of the leading digit -/
def lead (x : ℚ) : ℤ := Int.log 10 |x|

/-- `exponent` on rational numbers (uncertainties/io.hpp:51-57) -/
def exponentQ (x : ℚ) : Option ℤ := if x = 0 then none else some (lead x)

/-- `cround` on rational numbers (uncertainties/io.hpp:63) -/
def croundQ (x : ℚ) : ℤ := if 0 ≤ x then ⌊x + 1 / 2⌋ else -⌊-x + 1 / 2⌋

/-- `intMantissa` on rational numbers (uncertainties/io.hpp:59-64) -/
def intMantissaQ (x : ℚ) (n e : ℤ) : ℤ := croundQ (x * (10 : ℚ) ^ (n - 1 - e))

/-- `naive` on rational numbers (uncertainties/io.hpp:86-96) -/
def naiveQ (x n : ℚ) : ℤ :=
  let fr := n - ⌊n⌋
  ⌊n⌋ + if x ≠ 0 ∧ (|x| / (10 : ℚ) ^ lead x) ^ fr.den < 10 ^ fr.num.toNat then 1 else 0

/-- `ndigits` on rational numbers (uncertainties/io.hpp:98-112) -/
def ndigitsQ (x n : ℚ) : Option (ℤ × ℚ) :=
  let ndig := naiveQ x n
  (exponentQ x).map fun xexp =>
    let rounded_x := (intMantissaQ x ndig xexp : ℚ) * (10 : ℚ) ^ xexp
    if rounded_x > x then
      let rounded_ndig := naiveQ rounded_x n
      if rounded_ndig > ndig then (rounded_ndig, rounded_x) else (ndig, x)
    else (ndig, x)

/-- `mantissa` on rational numbers (uncertainties/io.hpp:114-124) -/
def mantissaQ (x : ℚ) (n e : ℤ) : Option (List Char × ℤ) :=
  let m := intMantissaQ x n e
  let s := intMantissaString m
  if (s.length : ℤ) = n ∨ (s.length : ℤ) = n + 1 ∨ (m = 0 ∧ n < 0) then
    if n ≥ 1 ∧ (s.length : ℤ) = n + 1 then some (s.dropLast, e + 1) else some (s, e)
  else none

/-- `tostring` on rational numbers (uncertainties/io.hpp:129-147) -/
def tostringQ (x : ℚ) : Option (List Char) :=
  if x = 0 then some ['0']
  else
    let n := 6
    (exponentQ x).bind fun e => (mantissaQ x n e).map fun (m, e) =>
      let use_exp := e ≥ n ∨ e < -1
      if use_exp then insertDot m n 0 ++ ('e' :: formatExp e) else insertDot m n e

/-- `formatFin` on rational numbers (uncertainties/io.hpp:164-188) -/
def formatFinQ (mu s errdig : ℚ) (sep : List Char) : Option (List Char) :=
  (ndigitsQ s errdig).bind fun (sndig, s) =>
  (exponentQ s).bind fun sexp =>
  (if mu ≠ 0 then exponentQ mu else some (sexp - sndig - 1)).bind fun muexp =>
  (mantissaQ s sndig sexp).bind fun (smant, sexp) =>
  let mundig := sndig + muexp - sexp
  (mantissaQ mu mundig muexp).map fun (mumant, muexp) =>
  let musign : List Char := if mu < 0 then ['-'] else []
  let base_exp := if mundig ≥ sndig then muexp else sexp
  if (mundig ≥ sndig ∧ (muexp ≥ mundig ∨ muexp < -1)) ∨ (¬ mundig ≥ sndig ∧ (sexp ≥ sndig ∨ sexp < -1)) then
    ['('] ++ musign ++ insertDot mumant mundig (muexp - base_exp) ++ sep ++ insertDot smant sndig (sexp - base_exp) ++ [')', 'e'] ++
      formatExp base_exp
  else musign ++ insertDot mumant mundig muexp ++ sep ++ insertDot smant sndig sexp

/-- `format` on rational numbers (uncertainties/io.hpp:150-189) -/
def formatQ (mu s errdig : ℚ) (sep : List Char) : Option (Except Exn (List Char)) :=
  if errdig ≤ 1 then some (.error .invalidArgument)
  else if s = 0 then (tostringQ mu).bind fun a => (tostringQ s).map fun b => .ok (a ++ sep ++ b)
  else (formatFinQ mu s errdig sep).map .ok

theorem log_cast (x : ℚ) : Int.log 10 (x : ℝ) = Int.log 10 x := by
  rcases le_or_gt x 0 with h | h
  · rw [Int.log_of_right_le_zero _ h, Int.log_of_right_le_zero _ (by exact_mod_cast h)]
  · have h1 := Int.zpow_log_le_self (b := 10) (by norm_num) h
    have h2 := Int.lt_zpow_succ_log_self (b := 10) (by norm_num) x
    have h' : (0 : ℝ) < x := by exact_mod_cast h
    refine le_antisymm ?_ ((Int.zpow_le_iff_le_log (by norm_num) h').1 ?_)
    · refine Int.lt_add_one_iff.1 ((Int.lt_zpow_iff_log_lt (by norm_num) h').1 ?_)
      have := (Rat.cast_lt (K := ℝ)).2 h2
      push_cast at this ⊢; exact this
    · have := (Rat.cast_le (K := ℝ)).2 h1
      push_cast at this ⊢; exact this

theorem floor_logb (x : ℚ) : ⌊Real.logb 10 |(x : ℝ)|⌋ = lead x := by
  have := Real.floor_logb_natCast (b := 10) (r := |(x : ℝ)|) (abs_nonneg _)
  rw [lead, ← log_cast, ← (by push_cast; rfl : ((10 : ℕ) : ℝ) = 10), this, Rat.cast_abs]

theorem exponent_rat (x : ℚ) : exponent (x : ℝ) = exponentQ x := by
  unfold exponent exponentQ
  by_cases h : x = 0
  · simp [h]
  · rw [if_neg h, if_neg (by exact_mod_cast h), floor_logb]

theorem cround_rat (x : ℚ) : cround (x : ℝ) = croundQ x := by
  unfold cround croundQ
  have e1 : ((x : ℝ) + 1 / 2) = ((x + 1 / 2 : ℚ) : ℝ) := by push_cast; ring
  have e2 : (-(x : ℝ) + 1 / 2) = ((-x + 1 / 2 : ℚ) : ℝ) := by push_cast; ring
  rw [e1, e2, Rat.floor_cast, Rat.floor_cast]
  by_cases h : 0 ≤ x
  · rw [if_pos h, if_pos (by exact_mod_cast h)]
  · rw [if_neg h, if_neg (by exact_mod_cast h)]

theorem intMantissa_rat (x : ℚ) (n e : ℤ) : intMantissa (x : ℝ) n e = intMantissaQ x n e := by
  unfold intMantissa intMantissaQ
  rw [← cround_rat]; push_cast; rfl

theorem mantissa_rat (x : ℚ) (n e : ℤ) : mantissa (x : ℝ) n e = mantissaQ x n e := by
  unfold mantissa mantissaQ
  rw [intMantissa_rat]

theorem naive_rat (x n : ℚ) : naiveNdigits (x : ℝ) (n : ℝ) = naiveQ x n := by
  unfold naiveNdigits naiveQ
  simp only [Rat.floor_cast]
  congr 1
  by_cases hx : x = 0
  · simp [hx]
  have hx' : (0 : ℝ) < |(x : ℝ)| := by positivity
  refine if_congr (and_congr (by norm_cast) ?_) rfl rfl
  have hl : leadPos |(x : ℝ)| = lead x := by rw [leadPos, lead, ← Rat.cast_abs, log_cast]
  have h0 : (0 : ℚ) ≤ n - ⌊n⌋ := by linarith [Int.floor_le n]
  have hf : ((n : ℝ) - ⌊n⌋) = ((n - ⌊n⌋ : ℚ) : ℝ) := by push_cast; ring
  rw [frac_log_lt hx', leadDigits, hl, hf]
  generalize n - ⌊n⌋ = fr at h0
  have hd : (0 : ℝ) < fr.den := by exact_mod_cast fr.den_pos
  have hn : ((fr.num.toNat : ℕ) : ℝ) = (fr.num : ℝ) := by exact_mod_cast Int.toNat_of_nonneg (Rat.num_nonneg.2 h0)
  have hp : ((10 : ℝ) ^ (fr : ℝ)) ^ fr.den = 10 ^ fr.num.toNat := by
    rw [← Real.rpow_natCast, ← Real.rpow_mul (by norm_num), ← Real.rpow_natCast, hn]
    congr 1
    rw [Rat.cast_def]; field_simp
  have hy : (0 : ℝ) ≤ |(x : ℝ)| / 10 ^ lead x := by positivity
  rw [← pow_lt_pow_iff_left₀ hy (by positivity) fr.den_pos.ne', hp, ← (Rat.cast_lt (K := ℝ))]
  push_cast; rfl

theorem ndigits_rat (x n : ℚ) : ndigits (x : ℝ) (n : ℝ) = (ndigitsQ x n).map fun p => (p.1, (p.2 : ℝ)) := by
  unfold ndigits ndigitsQ
  simp only [exponent_rat, naive_rat, intMantissa_rat, Option.map_map]
  congr 1; funext e
  have : ((intMantissaQ x (naiveQ x n) e : ℝ) * (10 : ℝ) ^ e) = ((intMantissaQ x (naiveQ x n) e * (10 : ℚ) ^ e : ℚ) : ℝ) := by push_cast; rfl
  simp only [this, naive_rat, Function.comp, gt_iff_lt, Rat.cast_lt]
  split_ifs <;> rfl

theorem tostring_rat (x : ℚ) : tostring (.fin (x : ℝ)) = tostringQ x := by
  simp only [tostring, tostringQ, exponent_rat, mantissa_rat]
  by_cases h : x = 0
  · simp [h]
  · rw [if_neg h, if_neg (by exact_mod_cast h)]

theorem formatFin_rat (mu s r : ℚ) (sep : List Char) : formatFin (mu : ℝ) s r sep = formatFinQ mu s r sep := by
  unfold formatFin formatFinQ
  rw [ndigits_rat, Option.bind_map]
  congr 1; funext p
  simp only [Function.comp, exponent_rat, mantissa_rat, Rat.cast_ne_zero, Rat.cast_lt_zero]
  refine congrArg _ (funext fun sexp => congrArg _ (funext fun muexp => congrArg _ (funext fun q => ?_)))
  refine congrArg (fun f => Option.map f _) (funext fun q' => ?_)
  obtain ⟨a, b⟩ := q; obtain ⟨c, d⟩ := q'
  refine if_congr ?_ rfl rfl
  split_ifs with h
  · simp [h]
  · simp [h]

/-- Formatting rational numbers gives the string computed by `formatQ`. -/
theorem format_rat (mu s r : ℚ) (sep : List Char) : format (.fin (mu : ℝ)) (.fin (s : ℝ)) (.fin (r : ℝ)) sep = formatQ mu s r sep := by
  unfold format formatQ
  simp only [errdigLow, tostring_rat, formatFin_rat]
  refine if_congr (by rw [← Rat.cast_one, Rat.cast_le]) rfl (if_congr (by norm_cast) rfl rfl)

end Unc.FmtQ
