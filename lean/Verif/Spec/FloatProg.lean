import Verif.Model.Float
import Verif.Model.UReal
import Verif.Spec.Float
import Verif.Spec.Expr
import Mathlib.Topology.Order.Basic

/-!
# Computations in floating point, and the real function they stand for

Straight-line computations with the operators of the class and functions of one or two arguments, such as those of math.hpp.
-/

namespace Unc.Spec
open Unc UReal Filter Topology

/-- Finer and finer formats: the rounding errors tend to zero. -/
structure Finer (f : ℕ → Fmt) : Prop where
  acc : ∃ u : ℕ → ℝ, (∀ k, Acc (f k).rd (u k)) ∧ Tendsto u atTop (𝓝 0)

/-- one step; arguments are positions of earlier results -/
inductive FNode where
  /-- a number, rounded to the format -/
  | const (c : ℝ)
  | neg (a : ℕ)
  | add (a b : ℕ)
  | sub (a b : ℕ)
  | mul (a b : ℕ)
  | div (a b : ℕ)
  /-- a function of one argument of the library and the real function it stands for -/
  | call1 (g : ∀ f : Fmt, UReal (FP f) → UReal (FP f)) (F : ℝ → ℝ) (a : ℕ)
  /-- a function of two arguments of the library and the real function it stands for -/
  | call2 (g : ∀ f : Fmt, UReal (FP f) → UReal (FP f) → Option (UReal (FP f))) (F : ℝ → ℝ → ℝ) (a b : ℕ)

/-- The function of the library `g` calls `unary` with numbers which approach the function and its derivative at `a` when the precision increases. -/
def Fine1 (g : ∀ f : Fmt, UReal (FP f) → UReal (FP f)) (F : ℝ → ℝ) (a : ℝ) : Prop :=
  ∃ (D : ℝ) (m d : ∀ f : Fmt, FP f → FP f), HasDerivAt F D a ∧ (∀ f x, g f x = UReal.unary x (m f x.n) (d f x.n)) ∧
    ∀ (f : ℕ → Fmt) (x : ∀ k, FP (f k)), Finer f → Tendsto (fun k => (x k).val) atTop (𝓝 a) →
      Tendsto (fun k => (m (f k) (x k)).val) atTop (𝓝 (F a)) ∧ Tendsto (fun k => (d (f k) (x k)).val) atTop (𝓝 D)

/-- the same for two arguments -/
def Fine2 (g : ∀ f : Fmt, UReal (FP f) → UReal (FP f) → Option (UReal (FP f))) (F : ℝ → ℝ → ℝ) (a b : ℝ) : Prop :=
  ∃ (Dx Dy : ℝ) (m dx dy : ∀ f : Fmt, FP f → FP f → FP f),
    HasFDerivAt (fun p : ℝ × ℝ => F p.1 p.2) (Dx • ContinuousLinearMap.fst ℝ ℝ ℝ + Dy • ContinuousLinearMap.snd ℝ ℝ ℝ) (a, b) ∧
    (∀ f x y, g f x y = UReal.binary x y (m f x.n y.n) (dx f x.n y.n) (dy f x.n y.n)) ∧
    ∀ (f : ℕ → Fmt) (x y : ∀ k, FP (f k)), Finer f → Tendsto (fun k => (x k).val) atTop (𝓝 a) → Tendsto (fun k => (y k).val) atTop (𝓝 b) →
      Tendsto (fun k => (m (f k) (x k) (y k)).val) atTop (𝓝 (F a b)) ∧
      Tendsto (fun k => (dx (f k) (x k) (y k)).val) atTop (𝓝 Dx) ∧
      Tendsto (fun k => (dy (f k) (x k) (y k)).val) atTop (𝓝 Dy)

/-- the computation in the format `f`; `none` is undefined behaviour -/
noncomputable def evalF (f : Fmt) : List FNode → List (UReal (FP f)) → Option (List (UReal (FP f)))
  | [], acc => some acc
  | nd :: t, acc =>
    let arg := fun a => acc.getD a (UReal.const 0)
    (match nd with
      | .const c => some (UReal.const (FP.round f c))
      | .neg a => some (UReal.neg (arg a))
      | .add a b => UReal.add (arg a) (arg b)
      | .sub a b => UReal.sub (arg a) (arg b)
      | .mul a b => UReal.mul (arg a) (arg b)
      | .div a b => UReal.div (arg a) (arg b)
      | .call1 g _ a => some (g f (arg a))
      | .call2 g _ a b => g f (arg a) (arg b)).bind
      (fun z => evalF f t (acc ++ [z]))

/-- the real function of one step -/
noncomputable def FNode.real (nd : FNode) (arg : ℕ → ℝ) : ℝ :=
  match nd with
  | .const c => c
  | .neg a => -arg a
  | .add a b => arg a + arg b
  | .sub a b => arg a - arg b
  | .mul a b => arg a * arg b
  | .div a b => arg a / arg b
  | .call1 _ F a => F (arg a)
  | .call2 _ F a b => F (arg a) (arg b)

/-- the results with exact real numbers -/
noncomputable def evalE : List FNode → List ℝ → List ℝ
  | [], acc => acc
  | nd :: t, acc => evalE t (acc ++ [nd.real (fun a => acc.getD a 0)])

/-- the arguments exist, divisors are not zero, and the functions are differentiable and approached by the library, at the exact values -/
def Regular : List FNode → List ℝ → Prop
  | [], _ => True
  | nd :: t, acc =>
    let arg := fun a => acc.getD a 0
    (match nd with
      | .const _ => True
      | .neg a => a < acc.length
      | .add a b => a < acc.length ∧ b < acc.length
      | .sub a b => a < acc.length ∧ b < acc.length
      | .mul a b => a < acc.length ∧ b < acc.length
      | .div a b => a < acc.length ∧ b < acc.length ∧ arg b ≠ 0
      | .call1 g F a => a < acc.length ∧ Fine1 g F (arg a)
      | .call2 g F a b => a < acc.length ∧ b < acc.length ∧ Fine2 g F (arg a) (arg b)) ∧
      Regular t (acc ++ [nd.real arg])

/-- the elementary variables with means and standard deviations rounded to the format -/
noncomputable def elemsF {n : ℕ} (f : Fmt) (ids : Fin n → ℤ) (mu s : Fin n → ℝ) : List (UReal (FP f)) :=
  List.ofFn fun i => ⟨ids i, FP.round f (s i), FP.round f (mu i), []⟩

/-- the real function of the variables computed by position `k` -/
noncomputable def fnF {n : ℕ} (p : List FNode) (k : ℕ) (v : Fin n → ℝ) : ℝ := (evalE p (List.ofFn v)).getD k 0

end Unc.Spec
