import Verif.Spec.Expr
import Verif.Spec.Diff2

/-! # Specification: the same computation with `UReal` and with `UReal2` (C37) -/

namespace Unc.Spec
open Unc

/-- one step of a computation, with the functions called for `UReal` and for `UReal2` -/
inductive Node12 where
  /-- a constant -/
  | const (c : ℝ)
  /-- a function of one argument: the two implementations, the real function, the argument -/
  | un (g1 : UReal ℝ → UReal ℝ) (g2 : UReal2 ℝ → Option (UReal2 ℝ)) (F : ℝ → ℝ) (a : ℕ)
  /-- a function of two arguments -/
  | bin (g1 : UReal ℝ → UReal ℝ → Option (UReal ℝ)) (g2 : UReal2 ℝ → UReal2 ℝ → Option (UReal2 ℝ)) (F : ℝ → ℝ → ℝ) (a b : ℕ)

/-- the step on `UReal` -/
def Node12.fst : Node12 → Node
  | .const c => .const c
  | .un g1 _ F a => .un g1 F a
  | .bin g1 _ F a b => .bin g1 F a b

/-- the step on `UReal2` -/
def Node12.snd : Node12 → Node2
  | .const c => .const c
  | .un _ g2 F a => .un g2 F a
  | .bin _ g2 F a b => .bin g2 F a b

/-- same mean (for `UReal2`: to first order) and same first derivatives with respect to every standardized variable -/
def Agree (x : UReal ℝ) (y : UReal2 ℝ) : Prop := x.n = y.mu ∧ ∀ j, x.coef j = y.hg.G j

end Unc.Spec
