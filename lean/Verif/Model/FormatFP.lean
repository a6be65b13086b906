import Verif.Model.IEEE
import Verif.Model.Format

/-!
# Formatting of floating point numbers

`Verif/Model/Format.lean` computes with exact numbers.  Here the same functions compute with numbers of type `Ext f M`, that is with rounding, overflow,
infinities and NaN (`double` for `Dbl`), and the part written with `float` in the format `g`.  The functions on strings and integers are those of the exact model.

Simplifications: `log10` and `pow(10, k)` give the exact result rounded; `errdig` is finite and its integer part is in the range of `int`.
-/

namespace Unc

/-- the format of `float` (uncertainties/io.hpp:87) -/
noncomputable abbrev fltFmt : Fmt := ieee 24 (-126) (by norm_num) (by norm_num)

namespace FmtFP
open Ext
variable {f g : Fmt} {M : ℝ}

/-- a real number rounded to the type, infinite if too large (the operations of uncertainties/io.hpp:52-111) -/
noncomputable def ofReal (f : Fmt) (M : ℝ) (x : ℝ) : Ext f M := ofFP M (FP.round f x)

/-- `log10(abs(x))` (uncertainties/io.hpp:56, 90) -/
noncomputable def log10Abs : Ext f M → Ext f M
  | nan => nan
  | inf _ => inf false
  | fin a _ => if a.val = 0 then inf true else ofReal f M (Real.logb 10 |a.val|)

/-- `std::floor` (uncertainties/io.hpp:56, 71) -/
noncomputable def floorE : Ext f M → Ext f M
  | fin a _ => ofReal f M ⌊a.val⌋
  | x => x

/-- `std::round` (uncertainties/io.hpp:63) -/
noncomputable def roundE : Ext f M → Ext f M
  | fin a _ => ofReal f M (Fmt.cround a.val)
  | x => x

/-- conversion to `int`: undefined (`none`) for NaN, infinities and numbers out of range (uncertainties/io.hpp:56, 74) -/
noncomputable def toInt : Ext f M → Option ℤ
  | fin a _ =>
    let z := if 0 ≤ a.val then ⌊a.val⌋ else ⌈a.val⌉
    if -2147483648 ≤ z ∧ z ≤ 2147483647 then some z else none
  | _ => none

/-- `exponent(x)` (uncertainties/io.hpp:51-57) -/
noncomputable def exponent (x : Ext f M) : Option ℤ := toInt (floorE (log10Abs x))

/-- `pow(Real(10), k)` (uncertainties/io.hpp:63, 102) -/
noncomputable def pow10 (f : Fmt) (M : ℝ) (k : ℤ) : Ext f M := ofReal f M ((10 : ℝ) ^ k)

/-- `int_mantissa(x, n, e)` (uncertainties/io.hpp:59-64) -/
noncomputable def intMantissa (x : Ext f M) (n e : ℤ) : Ext f M := roundE (x * pow10 f M (n - 1 - e))

/-- `fmod(x, 10)` for `x >= 0`, NaN for an infinity (uncertainties/io.hpp:73) -/
noncomputable def fmod10 : Ext f M → Ext f M
  | fin a _ => ofReal f M (a.val - 10 * ⌊a.val / 10⌋)
  | _ => nan

/-- The loop of `int_mantissa_string` (uncertainties/io.hpp:71-77), with a limit on the number of iterations; `none` if the limit is reached, for the undefined
conversion to `int`, and if the assertion fails. -/
noncomputable def digitsLoop : ℕ → Ext f M → Option (List Char)
  | 0, _ => none
  | fuel + 1, x =>
    if CCmp.leb 1 x then
      (toInt (fmod10 x)).bind fun d =>
        if CCmp.eqb (ofReal f M d) (fmod10 x) then
          (digitsLoop fuel (floorE (x / ofReal f M 10))).map fun s => Fmt.digitChar d.toNat :: s
        else none
    else some []

/-- A limit for the loop which only an infinite loop can exceed: `x` does not increase and is an integer after the first iteration (uncertainties/io.hpp:71). -/
noncomputable def fuel : Ext f M → ℕ
  | fin a _ => ⌊|a.val|⌋₊ + 1
  | _ => 1

/-- `int_mantissa_string(x)` (uncertainties/io.hpp:66-84) -/
noncomputable def intMantissaString (x : Ext f M) : Option (List Char) :=
  (digitsLoop (fuel x) (CSqrt.abs x)).map fun s => if s.length = 0 then ['0'] else s.reverse

/-- `log10x - std::floor(log10x)`, in `float`; `none` is NaN, from an infinite or NaN logarithm (uncertainties/io.hpp:90, 94) -/
noncomputable def logFrac (g : Fmt) (x : Ext f M) : Option ℝ :=
  match log10Abs x with
  | fin a _ => some (g.rd (g.rd a.val - g.rd ⌊g.rd a.val⌋))
  | _ => none

/-- `naive_ndigits(x, n)` (uncertainties/io.hpp:86-96); the comparison with NaN is false -/
noncomputable def naiveNdigits (x : Ext f M) (n : FP g) : ℤ :=
  ⌊n.val⌋ + match logFrac g x with
    | some l => if l < g.rd (n.val - ⌊n.val⌋) then 1 else 0
    | none => 0

/-- `ndigits(&x, n)`: the number of digits and the new value of `x` (uncertainties/io.hpp:98-112) -/
noncomputable def ndigits (x : Ext f M) (n : FP g) : Option (ℤ × Ext f M) :=
  let ndig := naiveNdigits x n
  (exponent x).map fun xexp =>
    let rounded_x := intMantissa x ndig xexp * pow10 f M xexp
    if CCmp.ltb x rounded_x then
      let rounded_ndig := naiveNdigits rounded_x n
      if rounded_ndig > ndig then (rounded_ndig, rounded_x) else (ndig, x)
    else (ndig, x)

/-- `mantissa(x, n, &e)`: the string and the new value of `e`, `none` if the assertion fails (uncertainties/io.hpp:114-124) -/
noncomputable def mantissa (x : Ext f M) (n e : ℤ) : Option (List Char × ℤ) :=
  let m := intMantissa x n e
  (intMantissaString m).bind fun s =>
    if (s.length : ℤ) = n ∨ (s.length : ℤ) = n + 1 ∨ (CCmp.eqb m 0 ∧ n < 0) then
      if n ≥ 1 ∧ (s.length : ℤ) = n + 1 then some (s.dropLast, e + 1) else some (s, e)
    else none

/-- `tostring(x)` (uncertainties/io.hpp:129-147) -/
noncomputable def tostring : Ext f M → Option (List Char)
  | nan => some ['n', 'a', 'n']
  | inf neg => some (if neg then ['-', 'i', 'n', 'f'] else ['i', 'n', 'f'])
  | fin a h =>
    if CCmp.eqb (fin a h : Ext f M) 0 then some ['0']
    else
      let n := 6
      (exponent (fin a h)).bind fun e => (mantissa (fin a h) n e).map fun (m, e) =>
        let use_exp := e ≥ n ∨ e < -1
        if use_exp then Fmt.insertDot m n 0 ++ ('e' :: Fmt.formatExp e) else Fmt.insertDot m n e

/-- The part of `format` after the check of the arguments, both numbers finite and `s` not 0 (uncertainties/io.hpp:164-188). -/
noncomputable def formatFin (mu s : Ext f M) (errdig : FP g) (sep : List Char) : Option (List Char) :=
  (ndigits s errdig).bind fun (sndig, s) =>
  (exponent s).bind fun sexp =>
  (if CCmp.eqb mu 0 then some (sexp - sndig - 1) else exponent mu).bind fun muexp =>
  (mantissa s sndig sexp).bind fun (smant, sexp) =>
  let mundig := sndig + muexp - sexp
  (mantissa mu mundig muexp).map fun (mumant, muexp) =>
  let musign : List Char := if CCmp.ltb mu 0 then ['-'] else []
  let use_exp : Prop := if mundig ≥ sndig then muexp ≥ mundig ∨ muexp < -1 else sexp ≥ sndig ∨ sexp < -1
  let base_exp := if mundig ≥ sndig then muexp else sexp
  open Classical in
  if use_exp then
    ['('] ++ musign ++ Fmt.insertDot mumant mundig (muexp - base_exp) ++ sep ++ Fmt.insertDot smant sndig (sexp - base_exp) ++ [')', 'e'] ++
      Fmt.formatExp base_exp
  else musign ++ Fmt.insertDot mumant mundig muexp ++ sep ++ Fmt.insertDot smant sndig sexp

/-- `std::isfinite` (uncertainties/io.hpp:161) -/
def isFin : Ext f M → Bool
  | fin _ _ => true
  | _ => false

/-- `format(x, errdig, sep)`, from `nom(x)` and `sdev(x)` (uncertainties/io.hpp:150-189) -/
noncomputable def format (mu s : Ext f M) (errdig : FP g) (sep : List Char) : Option (Except Exn (List Char)) :=
  if CCmp.leb errdig 1 then some (.error .invalidArgument)
  else if !isFin mu || !isFin s || CCmp.eqb s 0 then
    (tostring mu).bind fun a => (tostring s).map fun b => .ok (a ++ sep ++ b)
  else (formatFin mu s errdig sep).map .ok

/-- `x.format()` and `stream << x` with the default arguments, for an `UReal` (uncertainties/io.hpp:197-200, uncertainties/ureal.hpp:454-456,
uncertainties/core.hpp:95-97); `1.5f` is a number of the type `float` -/
noncomputable def ofUReal (x : UReal (Ext f M)) : Option (Except Exn (List Char)) :=
  format x.n x.s (FP.round fltFmt (3 / 2)) Fmt.defaultSep

end FmtFP
end Unc
