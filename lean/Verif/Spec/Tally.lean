import Verif.Model.Moments

/-!
# Numbers which count the operations made to compute them

A `Tally R` is a number together with the number of additions, subtractions and multiplications spent on it.  The functions of the model
are written for any type with the operations, so they can be run on such numbers: the result shows both the value they compute and how
many operations the computation took.  An intermediate result which is used twice is charged twice; the functions in
`internal/moments.hpp` use each partial sum and each product once, so for them the count is the number of operations executed.
-/

namespace Unc.Spec

/-- a number and the operations spent on it -/
structure Tally (R : Type*) where
  val : R
  ops : ℕ

namespace Tally
variable {R : Type*}

/-- a number which is there without computing -/
def free (x : R) : Tally R := ⟨x, 0⟩

instance [Zero R] : Zero (Tally R) := ⟨⟨0, 0⟩⟩
instance [NatCast R] : NatCast (Tally R) := ⟨fun n => ⟨n, 0⟩⟩
instance [Add R] : Add (Tally R) := ⟨fun a b => ⟨a.val + b.val, a.ops + b.ops + 1⟩⟩
instance [Sub R] : Sub (Tally R) := ⟨fun a b => ⟨a.val - b.val, a.ops + b.ops + 1⟩⟩
instance [Mul R] : Mul (Tally R) := ⟨fun a b => ⟨a.val * b.val, a.ops + b.ops + 1⟩⟩

/-- a hessian and gradient whose numbers are there without computing -/
def start (hg : HessGrad R) : HessGrad (Tally R) where
  diagmap := hg.diagmap.map fun p => (p.1, ⟨free p.2.grad, free p.2.hhess, ⟨free p.2.mom.v3, free p.2.mom.v4, free p.2.mom.v5, free p.2.mom.v6, free p.2.mom.v7, free p.2.mom.v8⟩⟩)
  trimap := hg.trimap.map fun p => (p.1, free p.2)

end Tally
end Unc.Spec
