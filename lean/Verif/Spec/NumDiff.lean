import Verif.Model.Float
import Verif.Spec.Float
import Mathlib.Analysis.Calculus.Deriv.Basic
import Mathlib.Data.Nat.Factorial.Basic

/-!
# What is assumed about a function whose derivatives are computed numerically
-/

namespace Unc.Spec
variable {f : Fmt}

/-- `g` has `n` derivatives for `|t| ≤ ρ`; `d k` is the `k`-th at 0, and the `n`-th is at most `B`. -/
def Smooth (n : ℕ) (g : ℝ → ℝ) (d : ℕ → ℝ) (B ρ : ℝ) : Prop :=
  ∃ D : ℕ → ℝ → ℝ, D 0 = g ∧ (∀ k < n, ∀ t, |t| ≤ ρ → HasDerivAt (D k) (D (k + 1) t) t) ∧ (∀ k < n, D k 0 = d k) ∧ ∀ t, |t| ≤ ρ → |D n t| ≤ B

/-- Within `ρ` of `a`, `I` is `F` with relative error at most `c`, `F` is at most `B0` and its slopes are at most `B1`. -/
structure Fits1 (I : FP f → FP f) (F : ℝ → ℝ) (c B0 B1 a ρ : ℝ) : Prop where
  err : ∀ y : FP f, |y.val - a| ≤ ρ → |(I y).val - F y.val| ≤ c * |F y.val|
  bound : ∀ t, |t - a| ≤ ρ → |F t| ≤ B0
  lip : ∀ s t, |s - a| ≤ ρ → |t - a| ≤ ρ → |F s - F t| ≤ B1 * |s - t|

/-- The same for two arguments, near `(a, b)`. -/
structure Fits2 (I : FP f → FP f → FP f) (F : ℝ → ℝ → ℝ) (c B0 B1 a b ρ : ℝ) : Prop where
  err : ∀ y z : FP f, |y.val - a| ≤ ρ → |z.val - b| ≤ ρ → |(I y z).val - F y.val z.val| ≤ c * |F y.val z.val|
  bound : ∀ s t, |s - a| ≤ ρ → |t - b| ≤ ρ → |F s t| ≤ B0
  lip : ∀ s t s' t', |s - a| ≤ ρ → |t - b| ≤ ρ → |s' - a| ≤ ρ → |t' - b| ≤ ρ → |F s t - F s' t'| ≤ B1 * (|s - s'| + |t - t'|)

end Unc.Spec
