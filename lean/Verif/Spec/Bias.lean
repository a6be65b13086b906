import Verif.Spec.Diff2
import Mathlib.MeasureTheory.Integral.Bochner.Basic

/-! # Specification: the mean of a function of uncertain variables, and unbiased estimates -/

namespace Unc.Spec
open MeasureTheory

/-- `F` is a polynomial of degree at most 2. -/
def Quadratic {n : ℕ} (F : (Fin n → ℝ) → ℝ) : Prop :=
  ∃ (c : ℝ) (b : Fin n → ℝ) (a : Fin n → Fin n → ℝ), ∀ y, F y = c + ∑ i, b i * y i + ∑ i, ∑ j, a i j * y i * y j

/-- Random variables with mean 0, variance 1, without correlation. -/
structure StdUncorr {n : ℕ} {Ω : Type*} [MeasurableSpace Ω] (P : Measure Ω) (X : Fin n → Ω → ℝ) : Prop where
  prob : IsProbabilityMeasure P
  int1 : ∀ i, Integrable (X i) P
  int2 : ∀ i j, Integrable (fun ω => X i ω * X j ω) P
  mean : ∀ i, ∫ ω, X i ω ∂P = 0
  cov : ∀ i j, ∫ ω, X i ω * X j ω ∂P = if i = j then 1 else 0

/-- The computation gives the function `F` at position `k`. -/
def Computes {n : ℕ} (p : List Node2) (k : ℕ) (F : (Fin n → ℝ) → ℝ) : Prop :=
  ∀ y : Fin n → ℝ, (evalR2 p (List.ofFn y)).getD k 0 = F y

end Unc.Spec
