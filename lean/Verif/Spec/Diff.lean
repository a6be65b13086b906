import Verif.Props.FirstOrder
import Mathlib.Analysis.Calculus.FDeriv.Prod
import Mathlib.Analysis.Calculus.Deriv.Basic

/-!
# Specification: propagating the true derivative

An implementation `g` on uncertain numbers of a real function `F` is right at a point when the result has mean `F a` and its
covariance with every other uncertain number `w` is the derivative of `F` times the covariance of the argument with `w`.
-/

namespace Unc.Spec
open Unc UReal Unc.Props

/-- `g` computes `F` and propagates its derivative, for all arguments with mean `a` -/
def Propagates1 (g : UReal ℝ → UReal ℝ) (F : ℝ → ℝ) (a : ℝ) : Prop :=
  ∃ d, HasDerivAt F d a ∧ ∀ x, Ok x → x.n = a →
    Ok (g x) ∧ (g x).n = F a ∧ ∀ w : UReal ℝ, w.Valid → cov (g x) w = d * cov x w

/-- `g` computes `F` without undefined behaviour and propagates its partial derivatives, for all arguments with means `a` and `b`,
correlated or not -/
def Propagates2 (g : UReal ℝ → UReal ℝ → Option (UReal ℝ)) (F : ℝ → ℝ → ℝ) (a b : ℝ) : Prop :=
  ∃ dx dy : ℝ, HasFDerivAt (fun p : ℝ × ℝ => F p.1 p.2)
      (dx • ContinuousLinearMap.fst ℝ ℝ ℝ + dy • ContinuousLinearMap.snd ℝ ℝ ℝ) (a, b) ∧
    ∀ x y, Ok x → Ok y → x.n = a → y.n = b →
      ∃ z, g x y = some z ∧ Ok z ∧ z.n = F a b ∧ ∀ w : UReal ℝ, w.Valid → cov z w = dx * cov x w + dy * cov y w

end Unc.Spec
