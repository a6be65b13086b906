import Verif.Spec.AnyNode
import Verif.Spec.Diff2
import Verif.Model.Float

/-!
# Computations with functions which pass on numbers depending on the means only, second order and floating point
-/

namespace Unc.Spec
open Unc

/-- the second-order function gives numbers which depend on the first order mean of its argument to `unary` -/
def OfMu1 (g : UReal2 ℝ → Option (UReal2 ℝ)) : Prop :=
  ∃ (u : Moments ℝ) (F D DD : ℝ → ℝ), ∀ x, g x = UReal2.unary u x (F x.mu) (D x.mu) (DD x.mu)

/-- the second-order function gives numbers which depend on the first order means of its arguments to `binary` -/
def OfMu2 (g : UReal2 ℝ → UReal2 ℝ → Option (UReal2 ℝ)) : Prop :=
  ∃ (u : Moments ℝ) (F Dx Dy Dxx Dyy Dxy : ℝ → ℝ → ℝ), ∀ x y, g x y =
    UReal2.binary u x y (F x.mu y.mu) (Dx x.mu y.mu) (Dy x.mu y.mu) (Dxx x.mu y.mu) (Dyy x.mu y.mu) (Dxy x.mu y.mu)

/-- all functions of a computation are such, and it uses results which were computed before, when there are `n` values at the beginning -/
def NodesOfMu : List Node2 → ℕ → Prop
  | [], _ => True
  | .const _ :: t, n => NodesOfMu t (n + 1)
  | .un g _ a :: t, n => a < n ∧ OfMu1 g ∧ NodesOfMu t (n + 1)
  | .bin g _ a b :: t, n => a < n ∧ b < n ∧ OfMu2 g ∧ NodesOfMu t (n + 1)

/-- one step of a computation in floating point: the mean and the derivatives which the function gives to `unary` or `binary` -/
inductive NodeF (f : Fmt) where
  /-- a constant -/
  | const (c : FP f)
  /-- a function of one argument -/
  | un (F D : FP f → FP f) (a : ℕ)
  /-- a function of two arguments -/
  | bin (F Dx Dy : FP f → FP f → FP f) (a b : ℕ)

/-- the computation; `none` is undefined behaviour -/
noncomputable def evalNF {f : Fmt} : List (NodeF f) → List (UReal (FP f)) → Option (List (UReal (FP f)))
  | [], acc => some acc
  | .const c :: t, acc => evalNF t (acc ++ [UReal.const c])
  | .un F D a :: t, acc => let x := acc.getD a (UReal.const 0); evalNF t (acc ++ [UReal.unary x (F x.n) (D x.n)])
  | .bin F Dx Dy a b :: t, acc =>
    let x := acc.getD a (UReal.const 0)
    let y := acc.getD b (UReal.const 0)
    match UReal.binary x y (F x.n y.n) (Dx x.n y.n) (Dy x.n y.n) with
    | some z => evalNF t (acc ++ [z])
    | none => none

/-- every step increases with its arguments: the derivatives are not negative at the means `acc` computed so far -/
def Increasing {f : Fmt} : List (NodeF f) → List (FP f) → Prop
  | [], _ => True
  | .const c :: t, acc => Increasing t (acc ++ [c])
  | .un F D a :: t, acc => a < acc.length ∧ 0 ≤ (D (acc.getD a 0)).val ∧ Increasing t (acc ++ [F (acc.getD a 0)])
  | .bin F Dx Dy a b :: t, acc => a < acc.length ∧ b < acc.length ∧ 0 ≤ (Dx (acc.getD a 0) (acc.getD b 0)).val ∧
      0 ≤ (Dy (acc.getD a 0) (acc.getD b 0)).val ∧ Increasing t (acc ++ [F (acc.getD a 0) (acc.getD b 0)])

/-- the elementary variables in floating point -/
def elemsUp {f : Fmt} {n : ℕ} (ids : Fin n → ℤ) (mu s : Fin n → FP f) : List (UReal (FP f)) := List.ofFn fun i => ⟨ids i, s i, mu i, []⟩

end Unc.Spec
