import Verif.Model.UReal2
import Verif.Lemmas.FormatQ
import Mathlib.Algebra.Order.Ring.Rat

/-!
# The model against the test programs of the library

These are tests of the model, not proofs about the library: the expected values written by the author of the library in
`test/deriv2.cpp`, `test/indep.cpp`, `test/cast2.cpp`, `test/format.cpp` and `test/distr.cpp` are what the model computes, with exact rational numbers in place of
`double`.  Where a test program accepts a difference of 1e-8 the values here are equal.
-/

namespace Unc.Conform
open UReal2

/-- the moments in memory that nobody initialised, chosen so that using them shows -/
def junk : Moments ℚ := ⟨1001, 1002, 1003, 1004, 1005, 1006⟩

/-- `normal<utype>(mu, sigma)` -/
def nrm (i : VId) (mu sigma : ℚ) : UReal2 ℚ := ⟨⟨[(i, ⟨sigma, 0, ⟨0, 3, 0, 15, 0, 105⟩⟩)], []⟩, mu⟩

/-- the value of an expression, `none` if a step is undefined -/
abbrev V := Option (UReal2 ℚ)

/-- the operator of ureal2.hpp on values of expressions -/
instance : Add V := ⟨fun a b => a.bind fun a => b.bind fun b => add junk a b⟩
/-- the operator of ureal2.hpp on values of expressions -/
instance : Sub V := ⟨fun a b => a.bind fun a => b.bind fun b => sub junk a b⟩
/-- the operator of ureal2.hpp on values of expressions -/
instance : Mul V := ⟨fun a b => a.bind fun a => b.bind fun b => mul junk a b⟩
/-- the operator of ureal2.hpp on values of expressions -/
instance : Div V := ⟨fun a b => a.bind fun a => b.bind fun b => div junk a b⟩
/-- the operator of ureal2.hpp on values of expressions -/
instance : Neg V := ⟨fun a => a.bind fun a => neg junk a⟩

/-- the implicit conversion of a number (uncertainties/ureal2.hpp:572-575) -/
def num (c : ℚ) : V := some (const c)

/-- `checkgrad` (test/deriv2.cpp:18-29) -/
def gradIs (f x : V) (g : ℚ) : Bool :=
  match f, x with
  | some f, some x => match UReal2.grad junk f x with
    | .ok v => v == g
    | .error _ => false
  | _, _ => false

/-- `checkhess` (test/deriv2.cpp:31-43) -/
def hessIs (f x y : V) (h : ℚ) : Bool :=
  match f, x, y with
  | some f, some x, some y => match UReal2.hess junk f x y with
    | some (.ok v) => v == h
    | _ => false
  | _, _, _ => false

/-- `check(f, x, g, h)` (test/deriv2.cpp:45-51) -/
def check1 (f x : V) (g h : ℚ) : Bool := gradIs f x g && hessIs f x x h
/-- `check(f, x, y, …)` (test/deriv2.cpp:53-64) -/
def check2 (f x y : V) (gx gy hxx hyy hxy : ℚ) : Bool :=
  gradIs f x gx && gradIs f y gy && hessIs f x x hxx && hessIs f y y hyy && hessIs f x y hxy

/-- the variables `x[i]` (test/deriv2.cpp:68-71) -/
def x (i : ℕ) : V := some (nrm (i + 1) (i + 1) 1)
/-- their values (test/deriv2.cpp:72-75) -/
def xn (i : ℕ) : ℚ := i + 1

/-- the checks of test/deriv2.cpp:77-119 -/
def deriv2 : List Bool :=
  [check1 (x 0) (x 0) 1 0, check1 (x 1) (x 0) 0 0, check1 (-x 0) (x 0) (-1) 0, check1 (-x 0) (x 1) 0 0, check1 (-x 0) (-x 0) 1 0,
   check1 (x 0) (num 2 * x 0) (1 / 2) 0,
   check2 (x 0 + x 1) (x 0) (x 1) 1 1 0 0 0, check1 (x 0 + x 1) (x 2) 0 0,
   check2 (x 0 - x 1) (x 0) (x 1) 1 (-1) 0 0 0, check1 (x 0 - x 1) (x 2) 0 0,
   check2 (x 0 * x 1) (x 0) (x 1) (xn 1) (xn 0) 0 0 1, check1 (x 0 * x 1) (x 2) 0 0,
   check2 (x 0 / x 1) (x 0) (x 1) (1 / xn 1) (-xn 0 / (xn 1 * xn 1)) 0 (2 * xn 0 / (xn 1 * xn 1 * xn 1)) (-1 / (xn 1 * xn 1)),
   check1 (x 0 / x 1) (x 2) 0 0,
   let y := x 0 + x 1 * x 2 / -x 3
   check1 y (x 0) 1 0 && check1 y (x 1) (xn 2 / -xn 3) 0 && check1 y (x 2) (xn 1 / -xn 3) 0 &&
   check1 y (x 3) (xn 1 * xn 2 / (xn 3 * xn 3)) (-2 * xn 1 * xn 2 / (xn 3 * xn 3 * xn 3)) && check1 y (x 4) 0 0 &&
   hessIs y (x 0) (x 1) 0 && hessIs y (x 0) (x 2) 0 && hessIs y (x 0) (x 3) 0 && hessIs y (x 1) (x 2) (1 / -xn 3) &&
   hessIs y (x 1) (x 3) (xn 2 / (xn 3 * xn 3)) && hessIs y (x 2) (x 3) (xn 1 / (xn 3 * xn 3)),
   let y := x 0 + -x 1 * x 1 / x 0
   check1 y (-x 0) (-1 - xn 1 * xn 1 / (xn 0 * xn 0)) (-2 * xn 1 * xn 1 / (xn 0 * xn 0 * xn 0)) && check1 y (x 1) (-2 * xn 1 / xn 0) (-2 / xn 0)]

/-- `test/deriv2.cpp` -/
theorem deriv2_ok : ∀ b ∈ deriv2, b = true := by decide +kernel

/-- the moments as compared by `checkmn` (test/distr.cpp:40-62) -/
def mom (f : V) (n : ℕ) : Option ℚ := f.bind fun f => if n = 1 then (f.m 1).map (· + f.mu) else f.m n

/-- `check(x, {…})` (test/distr.cpp:64-70) -/
def momsAre (f : V) (l : List ℚ) : Bool := (List.range l.length).all fun i => mom f (i + 1) == l[i]?

/-- `checkcov` (test/distr.cpp:22-38) -/
def covIs (f g : V) (c : ℚ) : Bool :=
  match f, g with
  | some f, some g => UReal2.cov f g == some c && UReal2.cov g f == some c
  | _, _ => false

/-- `normal<utype>(0, 1)` -/
def n0 (i : ℕ) : V := some (nrm (i + 1) 0 1)
/-- a square -/
def sq (v : V) : V := v * v
/-- a sum of squares of independent normal variables -/
def sqs (l : List ℕ) : V := l.foldl (fun a i => a + sq (n0 i)) (num 0)
/-- `x` of test/distr.cpp:132-140 -/
def sharedL (i : ℕ) : V := if i > 0 then sqs (List.range (i - 1)) + num (1/2) * n0 50 * n0 50 else num 0
/-- `y` of test/distr.cpp:142-149 -/
def sharedR (i j : ℕ) : V :=
  let y := sqs ((List.range j).map (· + 100))
  if i > 0 then y + num (1/2) * n0 50 * n0 50 else y
/-- the checks of test/distr.cpp:150-154 -/
def shared (i j : ℕ) : Bool :=
  let x := sharedL i
  let y := sharedR i j
  let k : ℚ := i + j
  momsAre (x + y) [k, 2 * k, 8 * k, 12 * k * (k + 4)] &&
  momsAre (-(x + y)) [-k, 2 * k, -8 * k, 12 * k * (k + 4)] &&
  momsAre (num 2 * (x + y)) [2 * k, 4 * 2 * k, 8 * 8 * k, 16 * 12 * k * (k + 4)] &&
  covIs x y (if i > 0 then 1 / 2 else 0)

/-- `test/distr.cpp`, the loops "sum of normal squared is chisquare", the first rows and columns -/
theorem shared_ok : ∀ i ∈ List.range 4, ∀ j ∈ List.range 4, shared i j = true := by decide +kernel

/-- a uniform variable between `a` and `b` with standard deviation `sd` -/
def u01 (i : VId) (a b : ℚ) (sd : ℚ) : V := some ⟨⟨[(i, ⟨sd, 0, ⟨0, 9 / 5, 0, 27 / 7, 0, 9⟩⟩)], []⟩, (a + b) / 2⟩
/-- a chi-square with 2 degrees of freedom -/
def chi2 (i : VId) : V := some ⟨⟨[(i, ⟨2, 0, ⟨2, 9, 44, 265, 1854, 14833⟩⟩)], []⟩, 2⟩

/-- `test/distr.cpp`: "sum of normal is normal", "linear tests on normal", `chisquare(2)` and its sum, the sums with a nontrivial intersection -/
def linear : List Bool :=
  (List.range 5).map (fun i => (List.range 5).all fun j =>
    let v : ℚ := i * i + j * j
    momsAre (some (nrm 1 0 i) + some (nrm 2 0 j)) [0, v, 0, 3 * v * v]) ++
  (let x : V := some (nrm 1 1 1)
   [momsAre (x - x) [0, 0, 0, 0], momsAre (x + x) [2, 4, 0, 48], momsAre (num 2 * x) [2, 4, 0, 48], momsAre (x + num 2 * x) [3, 9, 0, 243],
    momsAre (-x) [-1, 1, 0, 3], covIs x x 1, covIs x (num 1) 0, covIs (x + x) (x - x) 0]) ++
  [momsAre (chi2 1) [2, 4, 16, 144], momsAre (chi2 1 + chi2 2) [4, 8, 32, 12 * 4 * 8],
   momsAre (sq (n0 0)) [1, 2, 8, 60], momsAre (u01 1 (-3) 3 (3 / 1)) [0, 9, 0, 729 / 5]] ++
  (let x : V := some (nrm 1 (-617 / 5000) (269 / 200))
   let y : V := some (nrm 2 (9 / 10) (3849 / 10000))
   let z : V := some (nrm 3 (1 / 10000) (77 / 100))
   [covIs (x + y) (y + z) ((3849 / 10000) ^ 2)] ++
    (List.range 4).map fun k => mom (x + y + (y + z)) (k + 1) == mom (x + num 2 * y + z) (k + 1))

theorem linear_ok : ∀ b ∈ linear, b = true := by decide +kernel

/-- `test/distr.cpp`, "covariance is bilinear" -/
def bilinear (x y : V) (vx vy c alpha beta : ℚ) : Bool :=
  covIs (x + num alpha * y) (y * num beta + x) (vx + (alpha + beta) * c + alpha * beta * vy)

theorem bilinear_ok : ∀ a ∈ List.range 5, ∀ b ∈ List.range 5,
    bilinear (some (nrm 1 (-23 / 10) (3 / 10))) (chi2 2) (9 / 100) 4 0 (-3 / 10 + 13 / 10 * a) (-34 / 10 + 12 / 10 * b) = true ∧
    bilinear (chi2 2) (chi2 2) 4 4 4 (-3 / 10 + 13 / 10 * a) (-34 / 10 + 12 / 10 * b) = true := by decide +kernel

/-- `UReal2(mu, s, moments)` -/
def vrb (i : VId) (mu s : ℚ) (m : Moments ℚ) : UReal2 ℚ := ⟨⟨[(i, ⟨s, 0, m⟩)], []⟩, mu⟩

/-- a row of the tables of test/distr.cpp:202-210 -/
structure Row where
  mu : ℚ
  sigma : ℚ
  mom : Moments ℚ
  coeff : ℚ

/-- the tables of test/distr.cpp:202-210, rounded -/
def rows : List Row := [
  ⟨1345/1000, 56/100, ⟨-42/100, 2306/1000, -24/10, 7714/1000, -1227/100, 3230/100⟩, 1⟩,
  ⟨-432/100, 88/100, ⟨5656/10000, 24/10, 323/100, 8857/1000, 1697/100, 416/10⟩, 124/100⟩,
  ⟨12/10, 233/100, ⟨239/1000, 1862/1000, 1043/1000, 431/100, 377/100, 1130/100⟩, -12355/10000⟩,
  ⟨1/2, 9/10, ⟨4056/10000, 3059/1000, 3909/1000, 17395/1000, 4052/100, 15698/100⟩, 98/100⟩]

/-- `r` (test/distr.cpp:229-234) -/
def rr (rows : List Row) : V :=
  let r := rows.zipIdx.foldl (fun r (p : Row × ℕ) => r + num p.1.coeff * some (vrb (p.2 + 1) p.1.mu p.1.sigma p.1.mom)) (num 0)
  r * r

/-- standardized moments 0 to 8 -/
def stdm (m : Moments ℚ) : ℕ → ℚ
  | 0 => 1
  | 1 => 0
  | 2 => 1
  | 3 => m.v3
  | 4 => m.v4
  | 5 => m.v5
  | 6 => m.v6
  | 7 => m.v7
  | _ => m.v8

/-- a sum -/
def summ (n : ℕ) (f : ℕ → ℚ) : ℚ := ((List.range n).map f).sum

/-- the raw moments of `coeff * v` -/
def zm (r : Row) (n : ℕ) : ℚ := r.coeff ^ n * summ (n + 1) fun k => n.choose k * (stdm r.mom k * r.sigma ^ k) * r.mu ^ (n - k)

/-- "compute moments of sum" (test/distr.cpp:257-271) -/
def sumMoms (rows : List Row) : List ℚ :=
  rows.foldl (fun m r => (List.range 9).map fun n => summ (n + 1) fun k => n.choose k * m.getD k 0 * zm r (n - k)) [1, 0, 0, 0, 0, 0, 0, 0, 0]

/-- "compute moments of square", "center moments around mean" (test/distr.cpp:273-290) -/
def expected (rows : List Row) : List ℚ :=
  let m := sumMoms rows
  let sm := fun i => m.getD (2 * i) 0
  let cm := fun n => summ (n + 1) fun k => n.choose k * sm k * (-sm 1) ^ (n - k)
  [sm 1, cm 2, cm 3, cm 4]


/-- `test/distr.cpp`, "test with arbitrary moments" (the moments rounded to a few digits): value, variance, third and fourth moment
of the square of a linear combination of four variables -/
theorem rr_ok : momsAre (rr rows) (expected rows) = true := by decide +kernel

/-- the rows of `test/format.cpp` with finite numbers: value, uncertainty, `errdig`, expected string -/
def formatRows : List (ℚ × ℚ × ℚ × String) :=
  [(1, 1 / 5, 3 / 2, "1.00 pm 0.20"),
   (1, 3 / 10, 3 / 2, "1.00 pm 0.30"),
   (1, 31 / 100, 3 / 2, "1.00 pm 0.31"),
   (1, 8 / 25, 3 / 2, "1.0 pm 0.3"),
   (-1, 17 / 50, 2, "-1.00 pm 0.34"),
   (0, 0, 2, "0 pm 0"),
   (123456, 0, 2, "123456 pm 0"),
   (61728 / 5, 0, 2, "12345.6 pm 0"),
   (1234567 / 100, 0, 2, "12345.7 pm 0"),
   (100000000, 0, 2, "1.00000e+8 pm 0"),
   (1 / 100, 0, 2, "1.00000e-2 pm 0"),
   (1 / 10, 0, 2, "0.100000 pm 0"),
   (1234599 / 100, 0, 2, "12346.0 pm 0"),
   (0, 1 / 1000, 2, "(0.0 pm 1.0)e-3"),
   (0, 1 / 100, 2, "(0.0 pm 1.0)e-2"),
   (0, 1 / 10, 2, "0.00 pm 0.10"),
   (0, 1, 2, "0.0 pm 1.0"),
   (0, 10, 2, "0 pm 10"),
   (0, 100, 2, "(0.0 pm 1.0)e+2"),
   (0, 1000, 2, "(0.0 pm 1.0)e+3"),
   (0, 49 / 2500, 2, "(0.0 pm 2.0)e-2"),
   (0, 49 / 250, 2, "0.00 pm 0.20"),
   (0, 49 / 25, 2, "0.0 pm 2.0"),
   (0, 98 / 5, 2, "0 pm 20"),
   (0, 196, 2, "(0.0 pm 2.0)e+2"),
   (0, 249 / 25000, 2, "(0.0 pm 1.0)e-2"),
   (0, 249 / 2500, 2, "0.00 pm 0.10"),
   (0, 249 / 250, 2, "0.0 pm 1.0"),
   (0, 249 / 25, 2, "0 pm 10"),
   (0, 498 / 5, 2, "(0.0 pm 1.0)e+2"),
   (1 / 40, 3, 2, "0.0 pm 3.0"),
   (1 / 40, 3 / 10, 2, "0.03 pm 0.30"),
   (1 / 40, 3 / 100, 2, "(2.5 pm 3.0)e-2"),
   (1 / 40, 3 / 1000, 2, "(2.50 pm 0.30)e-2"),
   (1 / 400, 3 / 1000, 2, "(2.5 pm 3.0)e-3"),
   (1 / 4, 3, 2, "0.3 pm 3.0"),
   (5 / 2, 3, 2, "2.5 pm 3.0"),
   (25, 3, 2, "25.0 pm 3.0"),
   (2500, 300, 2, "(2.50 pm 0.30)e+3"),
   (1, 99 / 100, 3 / 2, "1.0 pm 1.0")]

/-- the separator used in test/format.cpp -/
def sep : List Char := [' ', 'p', 'm', ' ']

theorem formatQ_ok : ∀ r ∈ formatRows, FmtQ.formatQ r.1 r.2.1 r.2.2.1 sep = some (.ok r.2.2.2.toList) := by decide +kernel

/-- `test/format.cpp`, finite numbers -/
theorem formatRows_ok : ∀ r ∈ formatRows, Fmt.format (.fin (r.1 : ℝ)) (.fin (r.2.1 : ℝ)) (.fin (r.2.2.1 : ℝ)) sep = some (.ok r.2.2.2.toList) :=
  fun r h => (FmtQ.format_rat _ _ _ _).trans (formatQ_ok r h)

theorem one_string : Fmt.tostring (.fin 1) = some ['1', '.', '0', '0', '0', '0', '0'] := by
  have := FmtQ.tostring_rat 1
  rw [Rat.cast_one] at this; rw [this]; decide +kernel

/-- `test/format.cpp`, the rows with infinities -/
theorem formatInf_ok : Fmt.format (.inf false) (.fin 1) (.fin 2) sep = some (.ok "inf pm 1.00000".toList) ∧
    Fmt.format (.inf true) (.fin 1) (.fin 2) sep = some (.ok "-inf pm 1.00000".toList) ∧
    Fmt.format (.fin 0) (.inf false) (.fin 2) sep = some (.ok "0 pm inf".toList) := by
  have h : ¬ ((2 : ℝ) ≤ 1) := by norm_num
  refine ⟨?_, ?_, ?_⟩ <;> simp only [Fmt.format, Fmt.errdigLow, h, if_false, one_string]
  · rfl
  · rfl
  · simp only [Fmt.tostring, if_true]; rfl

/-- `sqrt` for the squares of rational numbers, enough for `test/indep.cpp` -/
local instance : CSqrt ℚ := ⟨fun x => (Nat.sqrt x.num.toNat : ℚ) / (Nat.sqrt x.den : ℚ), fun x => |x|⟩

/-- `test/indep.cpp` -/
def indep : List Bool :=
  let x0 : UReal ℚ := UReal.default'
  let x1 : UReal ℚ := UReal.const 1
  match UReal.mk' 1 (1 : ℚ) (1 / 10), UReal.mk' 2 (2 / 5 : ℚ) (1 / 5) with
  | .ok x, .ok y =>
    let z := UReal.add x y
    let y' := UReal.add x x
    [x0.isindep == some true, x1.isindep == some true, x.isindep == some true, z.bind UReal.isindep == some false,
     z.bind UReal.indepid == some invalidId, y'.bind UReal.isindep == some true, y'.bind UReal.indepid == x.indepid,
     y'.map (UReal.corr x) == some 1]
  | _, _ => [false]

theorem indep_ok : ∀ b ∈ indep, b = true := by decide +kernel

/-- `check` (test/cast2.cpp:10-17) but for the text -/
def castIs (p : PropMode) (x : UReal2 ℚ) : Bool := x.s == some 2 && x.n p == some 3 && x.isindep && x.indepid == 1

/-- `test/cast2.cpp`: the conversions change neither the values nor the variable (a `double` with few digits is the same number in `float`) -/
def cast2 : List Bool :=
  let x := nrm 1 3 2
  let y := x.convert junk (fun a => a)
  let z := x.convert junk (fun a => a)
  [castIs .est x, castIs .mean y, castIs .est z, castIs .mean (x.convert junk fun a => a), castIs .est (z.convert junk fun a => a)]

theorem cast2_ok : ∀ b ∈ cast2, b = true := by decide +kernel

/-- `test/cast2.cpp:16`, the text (with the separator of test/format.cpp) -/
theorem cast2_text : FmtQ.formatQ 3 2 (3 / 2) sep = some (.ok "3.0 pm 2.0".toList) := by decide +kernel

end Unc.Conform
