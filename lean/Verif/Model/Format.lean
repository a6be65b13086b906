import Verif.Model.UReal
import Mathlib.Analysis.SpecialFunctions.Log.Base

/-!
# `io.hpp`: formatting

Strings are lists of characters.  Numbers are exact reals plus the non-finite values; `log10`, `pow`, `round`, `fmod` are the
mathematical functions, so the rounding errors of floating point numbers (and the use of `float` for the logarithm in
`naive_ndigits`) are not modelled, and `int`s do not overflow.  `none` is undefined behaviour or a failed assert.
-/

namespace Unc

/-- A floating point number as seen by `isnan`, `isinf`, `isfinite` (uncertainties/io.hpp:131-135, 160-161).  The sign of zero is
not modelled, the code does not look at it. -/
inductive FNum where
  /-- not a number -/
  | nan
  /-- infinity, negative if `neg` -/
  | inf (neg : Bool)
  /-- finite -/
  | fin (x : ℝ)

namespace Fmt

/-- `exponent(x)` (uncertainties/io.hpp:51-57).  For 0 the conversion of `-inf` to `int` is undefined. -/
noncomputable def exponent (x : ℝ) : Option ℤ := if x = 0 then none else some ⌊Real.logb 10 |x|⌋

/-- `std::round`: halfway cases away from zero (used in uncertainties/io.hpp:63). -/
noncomputable def cround (x : ℝ) : ℤ := if 0 ≤ x then ⌊x + 1 / 2⌋ else -⌊-x + 1 / 2⌋

/-- `int_mantissa(x, n, e)` (uncertainties/io.hpp:59-64). -/
noncomputable def intMantissa (x : ℝ) (n e : ℤ) : ℤ := cround (x * (10 : ℝ) ^ (n - 1 - e))

/-- `std::to_string(d)` for a digit (uncertainties/io.hpp:76). -/
def digitChar (d : ℕ) : Char := Char.ofNat (48 + d)

/-- The loop of `int_mantissa_string` (uncertainties/io.hpp:71-77): the digits in the order they are appended. -/
def digitsLoop (x : ℕ) : List Char :=
  if x ≥ 1 then digitChar (x % 10) :: digitsLoop (x / 10) else []
decreasing_by omega

/-- `int_mantissa_string(x)` for an integer (uncertainties/io.hpp:66-84), whose absolute value is taken at the start of the loop. -/
def intMantissaString (x : ℤ) : List Char :=
  let s := digitsLoop x.natAbs
  if s.length = 0 then ['0'] else s.reverse

/-- `naive_ndigits(x, n)` (uncertainties/io.hpp:86-96).  For `x = 0` the fractional part of the logarithm is NaN and the comparison
is false. -/
noncomputable def naiveNdigits (x n : ℝ) : ℤ :=
  let log10x := Real.logb 10 |x|
  let n_int := ⌊n⌋
  let n_frac := n - n_int
  let log10x_frac := log10x - ⌊log10x⌋
  n_int + if x ≠ 0 ∧ log10x_frac < n_frac then 1 else 0

/-- `ndigits(&x, n)`: the number of digits and the new value of `x` (uncertainties/io.hpp:98-112). -/
noncomputable def ndigits (x n : ℝ) : Option (ℤ × ℝ) :=
  let ndig := naiveNdigits x n
  (exponent x).map fun xexp =>
    let rounded_x := (intMantissa x ndig xexp : ℝ) * (10 : ℝ) ^ xexp
    if rounded_x > x then
      let rounded_ndig := naiveNdigits rounded_x n
      if rounded_ndig > ndig then (rounded_ndig, rounded_x) else (ndig, x)
    else (ndig, x)

/-- `mantissa(x, n, &e)`: the string and the new value of `e` (uncertainties/io.hpp:114-124). -/
noncomputable def mantissa (x : ℝ) (n e : ℤ) : Option (List Char × ℤ) :=
  let m := intMantissa x n e
  let s := intMantissaString m
  if (s.length : ℤ) = n ∨ (s.length : ℤ) = n + 1 ∨ (m = 0 ∧ n < 0) then
    if n ≥ 1 ∧ (s.length : ℤ) = n + 1 then some (s.dropLast, e + 1) else some (s, e)
  else none

/-- `insert_dot(&s, n, e)` (uncertainties/impl.hpp:48-59). -/
def insertDot (s : List Char) (n e : ℤ) : List Char :=
  let e := e + (s.length - n)
  let n : ℤ := s.length
  if e ≥ n - 1 then s
  else if e ≥ 0 then s.insertIdx (1 + e).toNat '.'
  else (List.replicate (-e).toNat '0' ++ s).insertIdx 1 '.'

/-- `format_exp(e)` (uncertainties/impl.hpp:61-63); `std::to_string` writes the decimal
digits, like `int_mantissa_string`. -/
def formatExp (e : ℤ) : List Char := (if e > 0 then '+' else '-') :: intMantissaString |e|

/-- `tostring(x)` (uncertainties/io.hpp:129-147). -/
noncomputable def tostring : FNum → Option (List Char)
  | .nan => some ['n', 'a', 'n']
  | .inf neg => some (if neg then ['-', 'i', 'n', 'f'] else ['i', 'n', 'f'])
  | .fin x =>
    if x = 0 then some ['0']
    else
      let n := 6
      (exponent x).bind fun e => (mantissa x n e).map fun (m, e) =>
        let use_exp := e ≥ n ∨ e < -1
        if use_exp then insertDot m n 0 ++ ('e' :: formatExp e) else insertDot m n e

/-- The part of `format` after the check of the arguments, both numbers finite and `s` not 0 (uncertainties/io.hpp:164-188). -/
noncomputable def formatFin (mu s errdig : ℝ) (sep : List Char) : Option (List Char) :=
  (ndigits s errdig).bind fun (sndig, s) =>
  (exponent s).bind fun sexp =>
  (if mu ≠ 0 then exponent mu else some (sexp - sndig - 1)).bind fun muexp =>
  (mantissa s sndig sexp).bind fun (smant, sexp) =>
  let mundig := sndig + muexp - sexp
  (mantissa mu mundig muexp).map fun (mumant, muexp) =>
  let musign : List Char := if mu < 0 then ['-'] else []
  let use_exp : Prop := if mundig ≥ sndig then muexp ≥ mundig ∨ muexp < -1 else sexp ≥ sndig ∨ sexp < -1
  let base_exp := if mundig ≥ sndig then muexp else sexp
  open Classical in
  if use_exp then
    ['('] ++ musign ++ insertDot mumant mundig (muexp - base_exp) ++ sep ++ insertDot smant sndig (sexp - base_exp) ++ [')', 'e'] ++
      formatExp base_exp
  else musign ++ insertDot mumant mundig muexp ++ sep ++ insertDot smant sndig sexp

/-- `errdig <= 1.0f` (uncertainties/io.hpp:155). -/
def errdigLow : FNum → Prop
  | .nan => False
  | .inf neg => neg = true
  | .fin r => r ≤ 1

/-- `format(x, errdig, sep)`, from `nom(x)` and `sdev(x)` (uncertainties/io.hpp:150-189).  A NaN or infinite `errdig`, if it gets to
`naive_ndigits`, is converted to `int`, which is undefined. -/
noncomputable def format (mu s errdig : FNum) (sep : List Char) : Option (Except Exn (List Char)) :=
  open Classical in
  if errdigLow errdig then some (.error .invalidArgument)
  else
    let plain := (tostring mu).bind fun a => (tostring s).map fun b => .ok (a ++ sep ++ b)
    match mu, s with
    | .fin m, .fin t =>
      if t = 0 then plain
      else match errdig with
        | .fin n => (formatFin m t n sep).map .ok
        | _ => none
    | _, _ => plain

/-- the default separator `" ± "` (uncertainties/core.hpp:97) -/
def defaultSep : List Char := [' ', '±', ' ']

/-- `x.format()` and `stream << x` for an `UReal` (uncertainties/io.hpp:197-200, uncertainties/ureal.hpp:454-456), with the default
arguments (uncertainties/core.hpp:95-97). -/
noncomputable def ofUReal (x : UReal ℝ) : Option (Except Exn (List Char)) :=
  format (.fin x.n) (.fin x.s) (.fin (3 / 2)) defaultSep

end Fmt
end Unc
