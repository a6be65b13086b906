import Verif.Spec.Range
import Mathlib.Algebra.BigOperators.Group.Finset.Basic

/-!
# Specification: calculations with integers

What a calculation with `+`, `-`, `*` (and the assignments) gives when the means and the uncertainties are integers, by the rules of sums and products: the mean, and for each
elementary variable the derivative times the uncertainty.  Beside each number its *size*: the same with absolute values and `+` in place of `-`.  Nothing here refers
to the algorithms of the library.
-/

namespace Unc.Spec

/-- a given value with integer mean and uncertainty; the id is 0 for constants -/
structure IVar where
  id : VId
  mean : ℤ
  dev : ℕ

/-- no divisions -/
def Calc.noDiv : Calc → Prop
  | .leaf _ => True
  | .un _ a => a.noDiv
  | .bin o a b => o.divides = false ∧ a.noDiv ∧ b.noDiv

/-- the mean (nothing is said about divisions) -/
def Calc.mean (g : ℕ → IVar) : Calc → ℤ
  | .leaf i => (g i).mean
  | .un .neg a => -a.mean g
  | .un .twice a => 2 * a.mean g
  | .un .cancel _ => 0
  | .un .square a => a.mean g * a.mean g
  | .bin .add a b | .bin .addTo a b => a.mean g + b.mean g
  | .bin .sub a b | .bin .subTo a b => a.mean g - b.mean g
  | .bin .mul a b | .bin .mulTo a b => a.mean g * b.mean g
  | .bin .div _ _ | .bin .divTo _ _ => 0

/-- its size -/
def Calc.meanSize (g : ℕ → IVar) : Calc → ℕ
  | .leaf i => (g i).mean.natAbs
  | .un .neg a => a.meanSize g
  | .un .twice a => 2 * a.meanSize g
  | .un .cancel _ => 0
  | .un .square a => a.meanSize g * a.meanSize g
  | .bin .add a b | .bin .addTo a b => a.meanSize g + b.meanSize g
  | .bin .sub a b | .bin .subTo a b => a.meanSize g + b.meanSize g
  | .bin .mul a b | .bin .mulTo a b => a.meanSize g * b.meanSize g
  | .bin .div _ _ | .bin .divTo _ _ => 0

/-- the derivative with respect to the variable `k`, times its uncertainty -/
def Calc.slope (g : ℕ → IVar) (k : VId) : Calc → ℤ
  | .leaf i => if 0 < (g i).id ∧ k = (g i).id then (g i).dev else 0
  | .un .neg a => -a.slope g k
  | .un .twice a => 2 * a.slope g k
  | .un .cancel _ => 0
  | .un .square a => 2 * a.mean g * a.slope g k
  | .bin .add a b | .bin .addTo a b => a.slope g k + b.slope g k
  | .bin .sub a b | .bin .subTo a b => a.slope g k - b.slope g k
  | .bin .mul a b | .bin .mulTo a b => b.mean g * a.slope g k + a.mean g * b.slope g k
  | .bin .div _ _ | .bin .divTo _ _ => 0

/-- its size -/
def Calc.slopeSize (g : ℕ → IVar) (k : VId) : Calc → ℕ
  | .leaf i => if 0 < (g i).id ∧ k = (g i).id then (g i).dev else 0
  | .un .neg a => a.slopeSize g k
  | .un .twice a => 2 * a.slopeSize g k
  | .un .cancel _ => 0
  | .un .square a => 2 * a.meanSize g * a.slopeSize g k
  | .bin .add a b | .bin .addTo a b => a.slopeSize g k + b.slopeSize g k
  | .bin .sub a b | .bin .subTo a b => a.slopeSize g k + b.slopeSize g k
  | .bin .mul a b | .bin .mulTo a b => b.meanSize g * a.slopeSize g k + a.meanSize g * b.slopeSize g k
  | .bin .div _ _ | .bin .divTo _ _ => 0

/-- the elementary variables in the calculation -/
def Calc.ids (g : ℕ → IVar) : Calc → Finset VId
  | .leaf i => if 0 < (g i).id then {(g i).id} else ∅
  | .un _ a => a.ids g
  | .bin _ a b => a.ids g ∪ b.ids g

/-- the covariance of two results -/
def covI (g : ℕ → IVar) (s t : Calc) : ℤ := ∑ k ∈ s.ids g, s.slope g k * t.slope g k

/-- its size -/
def covSize (g : ℕ → IVar) (s t : Calc) : ℕ := ∑ k ∈ s.ids g, s.slopeSize g k * t.slopeSize g k

/-- The value of the class is the given one. -/
structure Holds {f : Fmt} (x : UReal (FP f)) (v : IVar) : Prop where
  id : x.id = v.id
  nonneg : 0 ≤ v.id
  below : v.id < maxId
  mean : x.mu.val = v.mean
  dev : x.sdev.val = v.dev
  const : v.id = 0 → v.dev = 0
  sigma : x.sigma = []

/-- The integers up to `N` are numbers of the format: in `double` with `N = 2 ^ 53`, in `float` with `N = 2 ^ 24`. -/
def Ints (f : Fmt) (N : ℕ) : Prop := ∀ n : ℤ, n.natAbs ≤ N → f.rd n = n

end Unc.Spec
