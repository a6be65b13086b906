import Verif.Model.Mixed

/-!
# Programs which move variables

The two classes declare no copy or move operations, so the implicit ones move member by member.  A `std::map` that was moved from contains an unspecified value; in the known
standard libraries it is empty, also after a move to itself.  Simplification: moving a `Real` copies it, as for the types `float` and `double`.
-/

namespace Unc

/-- A call of the library, or a move (implicit move assignments of `UReal`, uncertainties/ureal.hpp:288-294, and `UReal2`, uncertainties/ureal2.hpp:489-490). -/
inductive VStep (R : Type*) where
  /-- a library call -/
  | call (st : MStep R)
  /-- `r = std::move(a)` for `UReal`; `left` is what `a.sigma` contains afterwards -/
  | move1 (r a : Reg) (left : SMap VId R)
  /-- `r = std::move(a)` for `UReal2`; `left` is what `a.hg` contains afterwards -/
  | move2 (r a : Reg) (left : HessGrad R)

namespace Moves
variable {R : Type*}

/-- `r = std::move(a)` (uncertainties/ureal.hpp:288-294): `id`, `sdev` and `mu` are copied, the map is moved. -/
def move1 (w : MWorld R) (r a : Reg) (left : SMap VId R) : MWorld R :=
  { w with first := fun q => if q = a then { w.first a with sigma := left } else if q = r then w.first a else w.first q }

/-- `r = std::move(a)` (uncertainties/ureal2.hpp:489-490, uncertainties/internal/hessgrad.hpp:121-124): the two maps are moved, `mu` is copied. -/
def move2 (w : MWorld R) (r a : Reg) (left : HessGrad R) : MWorld R :=
  { w with second := fun q => if q = a then { w.second a with hg := left } else if q = r then w.second a else w.second q }

variable [Zero R] [One R] [Neg R] [Add R] [Mul R] [Div R] [NatCast R] [CCmp R] [CSqrt R]

/-- One call or move (see `VStep`). -/
def step (solve : (ℕ → ℕ → R) → Option (List R)) (w : MWorld R) : VStep R → Option (MWorld R × Out R)
  | .call st => w.step solve st
  | .move1 r a left => some (move1 w r a left, .done)
  | .move2 r a left => some (move2 w r a left, .done)

/-- A program with moves (no counterpart in /repo: a user program). -/
def run (solve : (ℕ → ℕ → R) → Option (List R)) (w : MWorld R) : List (VStep R) → Option (MWorld R × List (Out R))
  | [] => some (w, [])
  | st :: t => (step solve w st).bind fun (w', o) => (run solve w' t).map fun (w'', os) => (w'', o :: os)

end Moves
end Unc
