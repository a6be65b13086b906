import Verif.Spec.Second
import Verif.Model.Num
import Mathlib.Analysis.Calculus.FDeriv.Prod
import Mathlib.Analysis.Calculus.Deriv.Basic

/-!
# Specification: first and second derivatives of real functions, and computations on `UReal2` (C35, C36)
-/

namespace Unc.Spec
open Unc Filter Topology Asymptotics

/-- `F` is differentiable around `a`, its derivative at `a` is `d`, and the derivative of its derivative at `a` is `dd`. -/
def Derivs1 (F : ℝ → ℝ) (a d dd : ℝ) : Prop :=
  ∃ D : ℝ → ℝ, (∀ᶠ t in 𝓝 a, HasDerivAt F (D t) t) ∧ HasDerivAt D dd a ∧ D a = d

/-- the linear function with the given coefficients -/
noncomputable def lin (p q : ℝ) : ℝ × ℝ →L[ℝ] ℝ := p • ContinuousLinearMap.fst ℝ ℝ ℝ + q • ContinuousLinearMap.snd ℝ ℝ ℝ

/-- `F` is differentiable around `(a, b)`, its partial derivatives at `(a, b)` are `dx`, `dy`, and are differentiable there with
partial derivatives `dxx`, `dxy` and `dxy`, `dyy`. -/
def Derivs2 (F : ℝ → ℝ → ℝ) (a b dx dy dxx dyy dxy : ℝ) : Prop :=
  ∃ Dx Dy : ℝ × ℝ → ℝ, (∀ᶠ p in 𝓝 (a, b), HasFDerivAt (fun p : ℝ × ℝ => F p.1 p.2) (lin (Dx p) (Dy p)) p) ∧
    HasFDerivAt Dx (lin dxx dxy) (a, b) ∧ HasFDerivAt Dy (lin dxy dyy) (a, b) ∧ Dx (a, b) = dx ∧ Dy (a, b) = dy

/-- `g` computes `F` and passes its true derivatives to `unary`, for all arguments with first order mean `a` -/
def Passes1 (g : UReal2 ℝ → Option (UReal2 ℝ)) (F : ℝ → ℝ) (a : ℝ) : Prop :=
  ∃ d dd, Derivs1 F a d dd ∧ ∀ x, Ok2 x → x.mu = a → ∃ u, g x = UReal2.unary u x (F a) d dd

/-- `g` computes `F` and passes its true derivatives to `binary`, for all arguments with first order means `a` and `b` -/
def Passes2 (g : UReal2 ℝ → UReal2 ℝ → Option (UReal2 ℝ)) (F : ℝ → ℝ → ℝ) (a b : ℝ) : Prop :=
  ∃ dx dy dxx dyy dxy, Derivs2 F a b dx dy dxx dyy dxy ∧
    ∀ x y, Ok2 x → Ok2 y → x.mu = a → y.mu = b → ∃ u, g x y = UReal2.binary u x y (F a b) dx dy dxx dyy dxy

/-! ### straight-line computations -/

/-- one step of a computation; arguments are positions of earlier results -/
inductive Node2 where
  /-- a constant -/
  | const (c : ℝ)
  /-- a function of one argument: implementation, real function, argument -/
  | un (g : UReal2 ℝ → Option (UReal2 ℝ)) (F : ℝ → ℝ) (a : ℕ)
  /-- a function of two arguments -/
  | bin (g : UReal2 ℝ → UReal2 ℝ → Option (UReal2 ℝ)) (F : ℝ → ℝ → ℝ) (a b : ℕ)

/-- the real numbers computed by each node, from the values of the variables -/
def evalR2 : List Node2 → List ℝ → List ℝ
  | [], acc => acc
  | .const c :: t, acc => evalR2 t (acc ++ [c])
  | .un _ F a :: t, acc => evalR2 t (acc ++ [F (acc.getD a 0)])
  | .bin _ F a b :: t, acc => evalR2 t (acc ++ [F (acc.getD a 0) (acc.getD b 0)])

/-- the same computation on `UReal2`; `none` is undefined behaviour -/
def evalU2 : List Node2 → List (UReal2 ℝ) → Option (List (UReal2 ℝ))
  | [], acc => some acc
  | .const c :: t, acc => evalU2 t (acc ++ [UReal2.const c])
  | .un g _ a :: t, acc =>
    match g (acc.getD a (UReal2.const 0)) with
    | some z => evalU2 t (acc ++ [z])
    | none => none
  | .bin g _ a b :: t, acc =>
    match g (acc.getD a (UReal2.const 0)) (acc.getD b (UReal2.const 0)) with
    | some z => evalU2 t (acc ++ [z])
    | none => none

/-- every node passes the true derivatives at the values it meets -/
def NodesRight2 : List Node2 → List ℝ → Prop
  | [], _ => True
  | .const c :: t, acc => NodesRight2 t (acc ++ [c])
  | .un g F a :: t, acc => a < acc.length ∧ Passes1 g F (acc.getD a 0) ∧ NodesRight2 t (acc ++ [F (acc.getD a 0)])
  | .bin g F a b :: t, acc => a < acc.length ∧ b < acc.length ∧ Passes2 g F (acc.getD a 0) (acc.getD b 0) ∧
      NodesRight2 t (acc ++ [F (acc.getD a 0) (acc.getD b 0)])

/-- an elementary variable with id `i`, mean `mu`, standard deviation `s` and any moments -/
def elem2 (i : VId) (mu s : ℝ) (m : Moments ℝ) : UReal2 ℝ := ⟨⟨[(i, ⟨s, 0, m⟩)], []⟩, mu⟩

/-- the real function computed by position `k` of the standardized variables: variable `i` has the value `mu i + s i * z i` -/
def fn2 {n : ℕ} (p : List Node2) (mu s : Fin n → ℝ) (k : ℕ) (z : Fin n → ℝ) : ℝ :=
  (evalR2 p (List.ofFn fun i => mu i + s i * z i)).getD k 0

/-- `F` has at 0 the second-order expansion stored in `x`: value, gradient and Hessian with respect to the variables `ids`. -/
def Expands {n : ℕ} (ids : Fin n → VId) (F : (Fin n → ℝ) → ℝ) (x : UReal2 ℝ) : Prop :=
  (fun z => F z - (x.mu + ∑ i, x.hg.G (ids i) * z i + ∑ i, ∑ j, x.hg.H (ids i) (ids j) * z i * z j))
    =o[𝓝 0] fun z => ‖z‖ ^ 2

/-- The same for a function of the variable `i` only. -/
def ExpandsAlong (i : VId) (F : ℝ → ℝ) (x : UReal2 ℝ) : Prop :=
  (fun t => F t - (x.mu + x.hg.G i * t + x.hg.H i i * t ^ 2)) =o[𝓝 0] fun t : ℝ => t ^ 2

/-- `x` depends on the variable `i` and on no other, with non-zero first derivative. -/
def OnlyOn (i : VId) (x : UReal2 ℝ) : Prop := x.hg.vars = {i} ∧ x.hg.G i ≠ 0

end Unc.Spec
