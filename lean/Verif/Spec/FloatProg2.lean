import Verif.Spec.FloatProg
import Verif.Model.UReal2
import Verif.Model.FloatMath

/-!
# Second-order computations in floating point and with exact real numbers

Straight-line computations with the operators of `UReal2` and functions of one or two arguments, run twice: with the numbers of a format and with exact real numbers.
-/

namespace Unc.Spec
open Unc Filter Topology

/-- one step; arguments are positions of earlier results -/
inductive FNode2 where
  /-- a number, rounded to the format -/
  | const (c : ℝ)
  | neg (a : ℕ)
  | add (a b : ℕ)
  | sub (a b : ℕ)
  | mul (a b : ℕ)
  | div (a b : ℕ)
  /-- a function of one argument, in each format and with exact numbers -/
  | call1 (g : ∀ f : Fmt, Moments (FP f) → UReal2 (FP f) → Option (UReal2 (FP f))) (G : Moments ℝ → UReal2 ℝ → Option (UReal2 ℝ)) (a : ℕ)
  /-- a function of two arguments, in each format and with exact numbers -/
  | call2 (g : ∀ f : Fmt, Moments (FP f) → UReal2 (FP f) → UReal2 (FP f) → Option (UReal2 (FP f)))
      (G : Moments ℝ → UReal2 ℝ → UReal2 ℝ → Option (UReal2 ℝ)) (a b : ℕ)

/-- The function calls `unary` with numbers which approach the exact ones at `a` when the precision increases; the second derivative is not 0, or is 0 without any rounding
error. -/
def Near1 (g : ∀ f : Fmt, Moments (FP f) → UReal2 (FP f) → Option (UReal2 (FP f))) (G : Moments ℝ → UReal2 ℝ → Option (UReal2 ℝ)) (a : ℝ) : Prop :=
  ∃ (m d e : ∀ f : Fmt, FP f → FP f) (M D E : ℝ → ℝ), (∀ f u x, g f u x = UReal2.unary u x (m f x.mu) (d f x.mu) (e f x.mu)) ∧
    (∀ u X, G u X = UReal2.unary u X (M X.mu) (D X.mu) (E X.mu)) ∧ (E a ≠ 0 ∨ ∀ f x, (e f x).val = 0) ∧
    ∀ (f : ℕ → Fmt) (x : ∀ k, FP (f k)), Finer f → Tendsto (fun k => (x k).val) atTop (𝓝 a) →
      Tendsto (fun k => (m (f k) (x k)).val) atTop (𝓝 (M a)) ∧ Tendsto (fun k => (d (f k) (x k)).val) atTop (𝓝 (D a)) ∧
        Tendsto (fun k => (e (f k) (x k)).val) atTop (𝓝 (E a))

/-- the same for two arguments -/
def Near2 (g : ∀ f : Fmt, Moments (FP f) → UReal2 (FP f) → UReal2 (FP f) → Option (UReal2 (FP f)))
    (G : Moments ℝ → UReal2 ℝ → UReal2 ℝ → Option (UReal2 ℝ)) (a b : ℝ) : Prop :=
  ∃ (m dx dy exx eyy exy : ∀ f : Fmt, FP f → FP f → FP f) (M Dx Dy Exx Eyy Exy : ℝ → ℝ → ℝ),
    (∀ f u x y, g f u x y = UReal2.binary u x y (m f x.mu y.mu) (dx f x.mu y.mu) (dy f x.mu y.mu) (exx f x.mu y.mu) (eyy f x.mu y.mu) (exy f x.mu y.mu)) ∧
    (∀ u X Y, G u X Y = UReal2.binary u X Y (M X.mu Y.mu) (Dx X.mu Y.mu) (Dy X.mu Y.mu) (Exx X.mu Y.mu) (Eyy X.mu Y.mu) (Exy X.mu Y.mu)) ∧
    (Exx a b ≠ 0 ∨ ∀ f x y, (exx f x y).val = 0) ∧ (Eyy a b ≠ 0 ∨ ∀ f x y, (eyy f x y).val = 0) ∧ (Exy a b ≠ 0 ∨ ∀ f x y, (exy f x y).val = 0) ∧
    ∀ (f : ℕ → Fmt) (x y : ∀ k, FP (f k)), Finer f → Tendsto (fun k => (x k).val) atTop (𝓝 a) → Tendsto (fun k => (y k).val) atTop (𝓝 b) →
      Tendsto (fun k => (m (f k) (x k) (y k)).val) atTop (𝓝 (M a b)) ∧ Tendsto (fun k => (dx (f k) (x k) (y k)).val) atTop (𝓝 (Dx a b)) ∧
        Tendsto (fun k => (dy (f k) (x k) (y k)).val) atTop (𝓝 (Dy a b)) ∧ Tendsto (fun k => (exx (f k) (x k) (y k)).val) atTop (𝓝 (Exx a b)) ∧
        Tendsto (fun k => (eyy (f k) (x k) (y k)).val) atTop (𝓝 (Eyy a b)) ∧ Tendsto (fun k => (exy (f k) (x k) (y k)).val) atTop (𝓝 (Exy a b))

/-- the computation in the format `f`; `none` is undefined behaviour -/
noncomputable def evalF2 (f : Fmt) (u : Moments (FP f)) : List FNode2 → List (UReal2 (FP f)) → Option (List (UReal2 (FP f)))
  | [], acc => some acc
  | nd :: t, acc =>
    let arg := fun a => acc.getD a (UReal2.const 0)
    (match nd with
      | .const c => some (UReal2.const (FP.round f c))
      | .neg a => UReal2.neg u (arg a)
      | .add a b => UReal2.add u (arg a) (arg b)
      | .sub a b => UReal2.sub u (arg a) (arg b)
      | .mul a b => UReal2.mul u (arg a) (arg b)
      | .div a b => UReal2.div u (arg a) (arg b)
      | .call1 g _ a => g f u (arg a)
      | .call2 g _ a b => g f u (arg a) (arg b)).bind
      (fun z => evalF2 f u t (acc ++ [z]))

/-- one step with exact numbers -/
noncomputable def FNode2.exact (u : Moments ℝ) (nd : FNode2) (arg : ℕ → UReal2 ℝ) : Option (UReal2 ℝ) :=
  match nd with
  | .const c => some (UReal2.const c)
  | .neg a => UReal2.neg u (arg a)
  | .add a b => UReal2.add u (arg a) (arg b)
  | .sub a b => UReal2.sub u (arg a) (arg b)
  | .mul a b => UReal2.mul u (arg a) (arg b)
  | .div a b => UReal2.div u (arg a) (arg b)
  | .call1 _ G a => G u (arg a)
  | .call2 _ G a b => G u (arg a) (arg b)

/-- the computation with exact numbers -/
noncomputable def evalE2 (u : Moments ℝ) : List FNode2 → List (UReal2 ℝ) → Option (List (UReal2 ℝ))
  | [], acc => some acc
  | nd :: t, acc => (nd.exact u (fun a => acc.getD a (UReal2.const 0))).bind (fun z => evalE2 u t (acc ++ [z]))

/-- Divisors and dividends have mean not 0, and the functions are approached by the library, at the exact values. -/
def Regular2 (u : Moments ℝ) : List FNode2 → List (UReal2 ℝ) → Prop
  | [], _ => True
  | nd :: t, acc =>
    let arg := fun a => acc.getD a (UReal2.const 0)
    (match nd with
      | .div a b => (arg a).mu ≠ 0 ∧ (arg b).mu ≠ 0
      | .call1 g G a => Near1 g G (arg a).mu
      | .call2 g G a b => Near2 g G (arg a).mu (arg b).mu
      | _ => True) ∧
      ∀ z, nd.exact u arg = some z → Regular2 u t (acc ++ [z])

/-- the object with all its numbers rounded to the format -/
noncomputable def roundU2 (f : Fmt) (x : UReal2 ℝ) : UReal2 (FP f) :=
  let r := FP.round f
  ⟨⟨x.hg.diagmap.map fun p => (p.1, ⟨r p.2.grad, r p.2.hhess, ⟨r p.2.mom.v3, r p.2.mom.v4, r p.2.mom.v5, r p.2.mom.v6, r p.2.mom.v7, r p.2.mom.v8⟩⟩),
    x.hg.trimap.map fun p => (p.1, r p.2)⟩, r x.mu⟩

/-- A result exists in all formats which are fine enough, exists with exact numbers, and the former approach the latter. -/
def Approach {f : ℕ → Fmt} (a : ∀ k, Option (FP (f k))) (A : Option ℝ) : Prop :=
  ∃ (v : ∀ k, FP (f k)) (V : ℝ), (∀ᶠ k in atTop, a k = some (v k)) ∧ A = some V ∧ Tendsto (fun k => (v k).val) atTop (𝓝 V)

end Unc.Spec
