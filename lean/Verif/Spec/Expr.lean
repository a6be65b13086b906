import Verif.Spec.Diff

/-!
# Specification: computations from elementary variables (C13)

A straight-line computation: every node refers to earlier nodes, so intermediate results can be used any number of times.  Each
node pairs a function on uncertain numbers with the real function it stands for.
-/

namespace Unc.Spec
open Unc UReal

/-- one step of a computation; arguments are positions of earlier results -/
inductive Node where
  /-- a constant -/
  | const (c : ℝ)
  /-- a function of one argument: implementation, real function, argument -/
  | un (g : UReal ℝ → UReal ℝ) (F : ℝ → ℝ) (a : ℕ)
  /-- a function of two arguments -/
  | bin (g : UReal ℝ → UReal ℝ → Option (UReal ℝ)) (F : ℝ → ℝ → ℝ) (a b : ℕ)

/-- the real function of the elementary variables computed by each node; positions `0 .. n-1` are the variables, in a list of
results so far -/
def evalR : List Node → List ℝ → List ℝ
  | [], acc => acc
  | .const c :: t, acc => evalR t (acc ++ [c])
  | .un _ F a :: t, acc => evalR t (acc ++ [F (acc.getD a 0)])
  | .bin _ F a b :: t, acc => evalR t (acc ++ [F (acc.getD a 0) (acc.getD b 0)])

/-- the same computation on uncertain numbers; `none` is undefined behaviour -/
def evalU : List Node → List (UReal ℝ) → Option (List (UReal ℝ))
  | [], acc => some acc
  | .const c :: t, acc => evalU t (acc ++ [UReal.const c])
  | .un g _ a :: t, acc => evalU t (acc ++ [g (acc.getD a (UReal.const 0))])
  | .bin g _ a b :: t, acc =>
    match g (acc.getD a (UReal.const 0)) (acc.getD b (UReal.const 0)) with
    | some z => evalU t (acc ++ [z])
    | none => none

/-- every node propagates its derivative at the values it meets when the variables have the values `acc` computed so far -/
def NodesRight : List Node → List ℝ → Prop
  | [], _ => True
  | .const c :: t, acc => NodesRight t (acc ++ [c])
  | .un g F a :: t, acc => a < acc.length ∧ Propagates1 g F (acc.getD a 0) ∧ NodesRight t (acc ++ [F (acc.getD a 0)])
  | .bin g F a b :: t, acc => a < acc.length ∧ b < acc.length ∧ Propagates2 g F (acc.getD a 0) (acc.getD b 0) ∧
      NodesRight t (acc ++ [F (acc.getD a 0) (acc.getD b 0)])

/-- the values of the variables as a list -/
def vars {n : ℕ} (v : Fin n → ℝ) : List ℝ := List.ofFn v

/-- the elementary variables: means `mu`, standard deviations `s`, ids `id` -/
def elems {n : ℕ} (ids : Fin n → ℤ) (mu s : Fin n → ℝ) : List (UReal ℝ) := List.ofFn fun i => ⟨ids i, s i, mu i, []⟩

/-- the real function computed by position `k` -/
def fn {n : ℕ} (p : List Node) (k : ℕ) (v : Fin n → ℝ) : ℝ := (evalR p (vars v)).getD k 0

end Unc.Spec
