import Verif.Spec.Units
import Verif.Spec.Float
import Verif.Spec.Second
import Verif.Model.Moments

/-!
# Specification of the rounding errors of second-order results

A calculation with the operators `-`, `+`, `-`, `*`, `/` and with functions is done three times: with rounded numbers, with exact numbers, and with exact numbers which are all taken as positive and only added and
multiplied, which gives the sums of the magnitudes of the terms.
-/

namespace Unc.Spec
variable {f : Fmt}

/-- the same object with its numbers replaced -/
def numbers {R S : Type*} (c : R → S) (x : UReal2 R) : UReal2 S :=
  ⟨⟨x.hg.diagmap.map fun p => (p.1, ⟨c p.2.grad, c p.2.hhess, ⟨c p.2.mom.v3, c p.2.mom.v4, c p.2.mom.v5, c p.2.mom.v6, c p.2.mom.v7, c p.2.mom.v8⟩⟩),
    x.hg.trimap.map fun p => (p.1, c p.2)⟩, c x.mu⟩

/-- 2 and 1/2 are numbers of the format -/
def HasHalf (f : Fmt) : Prop := f.rd 2 = 2 ∧ f.rd (1 / 2) = 1 / 2

/-- a bound of the relative error of `k` roundings -/
def relErr (u : ℝ) (k : ℕ) : ℝ := (1 + u) ^ k - 1

/-- the magnitude `S` is zero, or `k` roundings of it are less than `y` -/
def Apart (u : ℝ) (k : ℕ) (S y : ℝ) : Prop := S = 0 ∨ relErr u k * S < |y|

/-- a function of one argument: the function and its two derivatives as they are computed and given to `unary`, the exact ones, their magnitudes, the number of roundings -/
structure Fun1 (f : Fmt) where
  /-- computed -/
  F : FP f → FP f
  F1 : FP f → FP f
  F2 : FP f → FP f
  /-- exact -/
  g : ℝ → ℝ
  g1 : ℝ → ℝ
  g2 : ℝ → ℝ
  /-- magnitudes -/
  S : ℝ
  S1 : ℝ
  S2 : ℝ
  /-- roundings -/
  j : ℕ

/-- the computed number `F a` differs from `y` by at most `j` roundings of the magnitude `S`, for all arguments `a` with `P` -/
def Fits {α : Type*} (u : ℝ) (P : α → Prop) (j : ℕ) (F : α → FP f) (y S : ℝ) : Prop := |y| ≤ S ∧ ∀ a, P a → |(F a).val - y| ≤ relErr u j * S

/-- the arguments which differ from `t` by at most `e` -/
def Within (e t : ℝ) (s : FP f) : Prop := |s.val - t| ≤ e

/-- the same with two arguments -/
def Within2 (e e' t t' : ℝ) (s : FP f × FP f) : Prop := Within e t s.1 ∧ Within e' t' s.2

/-- the function and the derivatives; the second derivative is zero or distinguished from it -/
def Fun1.Good (u e t : ℝ) (h : Fun1 f) : Prop :=
  Fits u (Within e t) h.j h.F (h.g t) h.S ∧ Fits u (Within e t) h.j h.F1 (h.g1 t) h.S1 ∧ Fits u (Within e t) h.j h.F2 (h.g2 t) h.S2 ∧ Apart u h.j h.S2 (h.g2 t)

/-- the functions `C` of the library with rounded and with exact numbers call `unary` with these numbers -/
def Fun1.Computes (h : Fun1 f) (C : Moments (FP f) → UReal2 (FP f) → Option (UReal2 (FP f))) (C' : Moments ℝ → UReal2 ℝ → Option (UReal2 ℝ)) : Prop :=
  (∀ v x, C v x = UReal2.unary v x (h.F x.mu) (h.F1 x.mu) (h.F2 x.mu)) ∧ ∀ v x, C' v x = UReal2.unary v x (h.g x.mu) (h.g1 x.mu) (h.g2 x.mu)

/-- a function of two arguments: the function and its derivatives as they are computed and given to `binary`, the exact ones, their magnitudes, the number of roundings -/
structure Fun2 (f : Fmt) where
  /-- computed -/
  F : FP f → FP f → FP f
  Fx : FP f → FP f → FP f
  Fy : FP f → FP f → FP f
  Fxx : FP f → FP f → FP f
  Fyy : FP f → FP f → FP f
  Fxy : FP f → FP f → FP f
  /-- exact -/
  g : ℝ → ℝ → ℝ
  gx : ℝ → ℝ → ℝ
  gy : ℝ → ℝ → ℝ
  gxx : ℝ → ℝ → ℝ
  gyy : ℝ → ℝ → ℝ
  gxy : ℝ → ℝ → ℝ
  /-- magnitudes -/
  S : ℝ
  Sx : ℝ
  Sy : ℝ
  Sxx : ℝ
  Syy : ℝ
  Sxy : ℝ
  /-- roundings -/
  j : ℕ

/-- the function and the derivatives; each second derivative is zero or distinguished from it -/
def Fun2.Good (u e e' t t' : ℝ) (h : Fun2 f) : Prop :=
  (Fits u (Within2 e e' t t') h.j (fun s => h.F s.1 s.2) (h.g t t') h.S ∧ Fits u (Within2 e e' t t') h.j (fun s => h.Fx s.1 s.2) (h.gx t t') h.Sx ∧ Fits u (Within2 e e' t t') h.j (fun s => h.Fy s.1 s.2) (h.gy t t') h.Sy) ∧
  (Fits u (Within2 e e' t t') h.j (fun s => h.Fxx s.1 s.2) (h.gxx t t') h.Sxx ∧ Fits u (Within2 e e' t t') h.j (fun s => h.Fyy s.1 s.2) (h.gyy t t') h.Syy ∧ Fits u (Within2 e e' t t') h.j (fun s => h.Fxy s.1 s.2) (h.gxy t t') h.Sxy) ∧
  Apart u h.j h.Sxx (h.gxx t t') ∧ Apart u h.j h.Syy (h.gyy t t') ∧ Apart u h.j h.Sxy (h.gxy t t')

/-- the functions `C` of the library with rounded and with exact numbers call `binary` with these numbers -/
def Fun2.Computes (h : Fun2 f) (C : Moments (FP f) → UReal2 (FP f) → UReal2 (FP f) → Option (UReal2 (FP f))) (C' : Moments ℝ → UReal2 ℝ → UReal2 ℝ → Option (UReal2 ℝ)) : Prop :=
  (∀ v x y, C v x y = UReal2.binary v x y (h.F x.mu y.mu) (h.Fx x.mu y.mu) (h.Fy x.mu y.mu) (h.Fxx x.mu y.mu) (h.Fyy x.mu y.mu) (h.Fxy x.mu y.mu)) ∧
  ∀ v x y, C' v x y = UReal2.binary v x y (h.g x.mu y.mu) (h.gx x.mu y.mu) (h.gy x.mu y.mu) (h.gxx x.mu y.mu) (h.gyy x.mu y.mu) (h.gxy x.mu y.mu)

/-- calculations with the operators and with functions -/
inductive CalcF (f : Fmt) where
  | leaf (i : ℕ)
  | neg (a : CalcF f)
  | add (a b : CalcF f)
  | sub (a b : CalcF f)
  | mul (a b : CalcF f)
  | div (a b : CalcF f)
  | fun1 (h : Fun1 f) (a : CalcF f)
  | fun2 (h : Fun2 f) (a b : CalcF f)

namespace CalcF

/-- with the rounded numbers -/
noncomputable def run (v : Moments (FP f)) (env : ℕ → UReal2 (FP f)) : CalcF f → Option (UReal2 (FP f))
  | .leaf i => some (env i)
  | .neg a => (a.run v env).bind fun x => UReal2.neg v x
  | .add a b => (a.run v env).bind fun x => (b.run v env).bind fun y => UReal2.add v x y
  | .sub a b => (a.run v env).bind fun x => (b.run v env).bind fun y => UReal2.sub v x y
  | .mul a b => (a.run v env).bind fun x => (b.run v env).bind fun y => UReal2.mul v x y
  | .div a b => (a.run v env).bind fun x => (b.run v env).bind fun y => UReal2.div v x y
  | .fun1 h a => (a.run v env).bind fun x => UReal2.unary v x (h.F x.mu) (h.F1 x.mu) (h.F2 x.mu)
  | .fun2 h a b => (a.run v env).bind fun x => (b.run v env).bind fun y =>
    UReal2.binary v x y (h.F x.mu y.mu) (h.Fx x.mu y.mu) (h.Fy x.mu y.mu) (h.Fxx x.mu y.mu) (h.Fyy x.mu y.mu) (h.Fxy x.mu y.mu)

/-- with exact numbers -/
noncomputable def exact (v : Moments ℝ) (env : ℕ → UReal2 ℝ) : CalcF f → Option (UReal2 ℝ)
  | .leaf i => some (env i)
  | .neg a => (a.exact v env).bind fun x => UReal2.neg v x
  | .add a b => (a.exact v env).bind fun x => (b.exact v env).bind fun y => UReal2.add v x y
  | .sub a b => (a.exact v env).bind fun x => (b.exact v env).bind fun y => UReal2.sub v x y
  | .mul a b => (a.exact v env).bind fun x => (b.exact v env).bind fun y => UReal2.mul v x y
  | .div a b => (a.exact v env).bind fun x => (b.exact v env).bind fun y => UReal2.div v x y
  | .fun1 h a => (a.exact v env).bind fun x => UReal2.unary v x (h.g x.mu) (h.g1 x.mu) (h.g2 x.mu)
  | .fun2 h a b => (a.exact v env).bind fun x => (b.exact v env).bind fun y =>
    UReal2.binary v x y (h.g x.mu y.mu) (h.gx x.mu y.mu) (h.gy x.mu y.mu) (h.gxx x.mu y.mu) (h.gyy x.mu y.mu) (h.gxy x.mu y.mu)

/-- a bound of the number of roundings one after the other in each number of the result of a calculation -/
def rounds : CalcF f → ℕ
  | .leaf _ => 0
  | .neg a => a.rounds + 1
  | .add a b | .sub a b => max a.rounds b.rounds + 2
  | .mul a b => a.rounds + b.rounds + 5
  | .div a b => a.rounds + 8 * b.rounds + 16
  | .fun1 h a => 2 * a.rounds + h.j + 4
  | .fun2 h a b => 2 * max a.rounds b.rounds + h.j + 9

/-- the first order value of a calculation, from those of the variables -/
noncomputable def value (m : ℕ → ℝ) : CalcF f → ℝ
  | .leaf i => m i
  | .neg a => -a.value m
  | .add a b => a.value m + b.value m
  | .sub a b => a.value m - b.value m
  | .mul a b => a.value m * b.value m
  | .div a b => a.value m / b.value m
  | .fun1 h a => h.g (a.value m)
  | .fun2 h a b => h.g (a.value m) (b.value m)

/-- the sum of the magnitudes of the terms of the first order value; that of `1 / b` is the magnitude of `b` over the square of `b` -/
noncomputable def size (m : ℕ → ℝ) : CalcF f → ℝ
  | .leaf i => |m i|
  | .neg a => a.size m
  | .add a b | .sub a b => a.size m + b.size m
  | .mul a b => a.size m * b.size m
  | .div a b => a.size m * (b.size m / b.value m ^ 2)
  | .fun1 h _ => h.S
  | .fun2 h _ _ => h.S

/-- the divisors are known: the bound of the error of each is at most the half of it.  The numerators are zero without roundings or are distinguished from zero.  The functions are computed with
the stated errors. -/
def Safe (u : ℝ) (m : ℕ → ℝ) : CalcF f → Prop
  | .leaf _ => True
  | .neg a => a.Safe u m
  | .add a b | .sub a b | .mul a b => a.Safe u m ∧ b.Safe u m
  | .div a b => (a.Safe u m ∧ b.Safe u m) ∧ b.value m ≠ 0 ∧ relErr u b.rounds * b.size m ≤ |b.value m| / 2 ∧ Apart u a.rounds (a.size m) (a.value m)
  | .fun1 h a => a.Safe u m ∧ h.Good u (relErr u a.rounds * a.size m) (a.value m)
  | .fun2 h a b => (a.Safe u m ∧ b.Safe u m) ∧ h.Good u (relErr u a.rounds * a.size m) (relErr u b.rounds * b.size m) (a.value m) (b.value m)

/-- the calculation without signs, where `i` takes the place of `1 / b` in the derivatives of a quotient -/
noncomputable def sizes (v : Moments ℝ) (env : ℕ → UReal2 ℝ) : CalcF f → Option (UReal2 ℝ)
  | .leaf i => some (numbers (|·|) (env i))
  | .neg a => a.sizes v env
  | .add a b | .sub a b => (a.sizes v env).bind fun x => (b.sizes v env).bind fun y => UReal2.add v x y
  | .mul a b => (a.sizes v env).bind fun x => (b.sizes v env).bind fun y => UReal2.mul v x y
  | .div a b => (a.sizes v env).bind fun x => (b.sizes v env).bind fun y =>
    let i := y.mu / (b.value fun k => (env k).mu) ^ 2
    UReal2.binary v x y (x.mu * i) i (x.mu * i ^ 2) 0 (2 * x.mu * i ^ 3) (i ^ 2)
  | .fun1 h a => (a.sizes v env).bind fun x => UReal2.unary v x h.S h.S1 h.S2
  | .fun2 h a b => (a.sizes v env).bind fun x => (b.sizes v env).bind fun y => UReal2.binary v x y h.S h.Sx h.Sy h.Sxx h.Syy h.Sxy

end CalcF

/-- the magnitude of the terms of a central moment, from the moments about the first order value of the calculation without signs -/
def magnitude (z : UReal2 ℝ) : ℕ → Option ℝ
  | 1 => Mom.compute z.hg 1
  | 2 => (Mom.compute z.hg 1).bind fun a => (Mom.compute z.hg 2).map fun b => b + a ^ 2
  | 3 => (Mom.compute z.hg 1).bind fun a => (Mom.compute z.hg 2).bind fun b => (Mom.compute z.hg 3).map fun c => c + 3 * a * b + 4 * a ^ 3
  | 4 => (Mom.compute z.hg 1).bind fun a => (Mom.compute z.hg 2).bind fun b => (Mom.compute z.hg 3).bind fun c => (Mom.compute z.hg 4).map fun d =>
      d + 4 * a * c + 18 * a ^ 2 * b + 23 * a ^ 4
  | _ => none

/-- the magnitude of the terms of a covariance -/
def magnitudeCov (z w : UReal2 ℝ) : Option ℝ :=
  (Mom.c2 z.hg w.hg).bind fun c => (Mom.compute z.hg 1).bind fun a => (Mom.compute w.hg 1).map fun b => c + a * b

/-- the roundings in the computation of central moment `n` from the derivatives with respect to `N` variables and `T` pairs of them -/
def momRounds (N T : ℕ) : ℕ → ℕ
  | 1 => N
  | 2 => 7 + (3 * N + N.choose 2)
  | 3 => 12 + (4 * N + 6 * N ^ 2 + N ^ 3 + N * T + 9 * T + T ^ 2)
  | 4 => 17 + (5 * N + 10 * N ^ 2 + 4 * N ^ 3 + N ^ 4 + 30 * N * T + 2 * N ^ 2 * T + 27 * T + 3 * T ^ 2)
  | _ => 0

/-- the roundings in the computation of a covariance -/
def covRounds (N T N' : ℕ) : ℕ := 4 + 4 * N + T + N * N' + N'

end Unc.Spec
