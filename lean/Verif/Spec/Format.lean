import Mathlib.Data.Real.Basic
import Mathlib.Data.Int.Log
import Mathlib.Analysis.SpecialFunctions.Pow.Real

/-!
# Specification: decimal numerals and rounding (C38–C43)

How a string is read as a number, and what it means that a number is rounded to a decimal place.  Nothing here refers to the model.
-/

namespace Unc.Spec

/-- the value of a digit character -/
def digitVal (c : Char) : ℕ := c.toNat - '0'.toNat

/-- the natural number written by a string of digits -/
def natVal (cs : List Char) : ℕ := cs.foldl (fun a c => 10 * a + digitVal c) 0

/-- what comes before the point -/
def intPart (cs : List Char) : List Char := cs.takeWhile fun c => c != '.'

/-- what comes after the point -/
def fracPart (cs : List Char) : List Char := (cs.dropWhile fun c => c != '.').drop 1

/-- number of decimals -/
def decimals (cs : List Char) : ℕ := (fracPart cs).length

/-- A numeral: digits, at least one before the point, no needless leading zero; if there is a point, digits after it. -/
structure Numeral (cs : List Char) : Prop where
  digits : ∀ c ∈ intPart cs ++ fracPart cs, c.isDigit
  head : intPart cs = ['0'] ∨ ∃ c t, intPart cs = c :: t ∧ c ≠ '0'
  point : '.' ∈ cs → fracPart cs ≠ []

/-- the number a numeral stands for -/
noncomputable def decVal (cs : List Char) : ℝ := natVal (intPart cs ++ fracPart cs) / 10 ^ decimals cs

/-- the number of significant digits: those from the first non-zero one on -/
def sigDigits (cs : List Char) : ℕ := ((intPart cs ++ fracPart cs).dropWhile fun c => c == '0').length

/-- `y` is the non-negative number `x` rounded to a multiple of `10 ^ k`, halfway cases up. -/
def RoundsTo (k : ℤ) (x y : ℝ) : Prop :=
  (∃ m : ℕ, y = m * 10 ^ k) ∧ y - 10 ^ k / 2 ≤ x ∧ x < y + 10 ^ k / 2

/-- Rounding the positive number `x` at the place `k`, which `x` reaches, gives a power of ten greater than `x`, like 9.97 to 10.0. -/
def Carries (k : ℤ) (x : ℝ) : Prop := ∃ j : ℤ, k < j ∧ 10 ^ j - 10 ^ k / 2 ≤ x ∧ x < 10 ^ j

/-- an exponent with its sign -/
def expStr (cs : List Char) (e : ℤ) : Prop :=
  ∃ ds, cs = (if 0 < e then '+' else '-') :: ds ∧ ds ≠ [] ∧ (∀ c ∈ ds, c.isDigit) ∧ ds.head? ≠ some '0' ∧ natVal ds = e.natAbs

/-- The layout of a formatted number: sign of the mean, mean `M`, separator, uncertainty `S`, and maybe a common exponent. -/
def Layout (out : List Char) (neg : Bool) (M S sep : List Char) : Option ℤ → Prop
  | none => out = (if neg then ['-'] else []) ++ M ++ sep ++ S
  | some e => e ≠ 0 ∧ ∃ es, expStr es e ∧ out = ['('] ++ (if neg then ['-'] else []) ++ M ++ sep ++ S ++ [')', 'e'] ++ es

/-- The layout of a number without uncertainty: digits `M`, and maybe an exponent. -/
def Layout1 (out M : List Char) : Option ℤ → Prop
  | none => out = M
  | some e => e ≠ 0 ∧ ∃ es, expStr es e ∧ out = M ++ 'e' :: es

/-- the power of ten the layout multiplies by -/
def scale : Option ℤ → ℤ
  | none => 0
  | some e => e

/-! ### where the last digit of the uncertainty goes -/

/-- the position of the leading digit of `s > 0` -/
noncomputable def leadPos (s : ℝ) : ℤ := Int.log 10 s

/-- the leading digits of `s > 0`, as a number from 1 to 10 -/
noncomputable def leadDigits (s : ℝ) : ℝ := s / 10 ^ leadPos s

/-- the number of digits asked for by `errdig = n + p` for the number `s`: `n + 1` if the leading digits are below `10 ^ p` -/
noncomputable def askedDigits (n : ℕ) (p s : ℝ) : ℕ :=
  open Classical in if leadDigits s < 10 ^ p then n + 1 else n

/-- rounding `s` to `d` digits gives the next power of ten -/
def RoundsUp (d : ℕ) (s : ℝ) : Prop := 10 - 10 ^ (1 - d : ℤ) / 2 ≤ leadDigits s

/-- rounding `s` to `n` digits takes it across the threshold, so that one more digit would be asked for -/
def Crosses (n : ℕ) (p s : ℝ) : Prop := 10 ^ p ≤ leadDigits s ∧ ∃ y, RoundsTo (leadPos s - n + 1) s y ∧ leadDigits y < 10 ^ p

/-- The number of digits of the uncertainty: those asked for by `s` or, if it is rounded up to a power of ten, by that power. -/
noncomputable def sdevDigits (n : ℕ) (p s : ℝ) : ℕ :=
  open Classical in
  if RoundsUp (askedDigits n p s) s then (if 0 < p then n + 1 else n) else askedDigits n p s

/-- The place of the last digit of the uncertainty. -/
noncomputable def place (n : ℕ) (p s : ℝ) : ℤ :=
  open Classical in
  if RoundsUp (askedDigits n p s) s then leadPos s + 1 - sdevDigits n p s + 1 else leadPos s - sdevDigits n p s + 1

/-- `out` reads as the mean `mu` and the uncertainty `s`, both rounded to the place `k`, which is the place of the last digit of the
uncertainty. -/
def Reads (mu s : ℝ) (k : ℤ) (out sep : List Char) : Prop :=
  ∃ M S E, Layout out (decide (mu < 0)) M S sep E ∧ Numeral M ∧ Numeral S ∧
    RoundsTo k |mu| (decVal M * 10 ^ scale E) ∧ RoundsTo k s (decVal S * 10 ^ scale E) ∧ scale E - decimals S = k

end Unc.Spec
