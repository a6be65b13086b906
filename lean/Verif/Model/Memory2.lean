import Verif.Model.Memory
import Verif.Model.World2

/-!
# Calls of `UReal2` which run out of memory

As `Verif/Model/Memory.lean`, for class `UReal2`: the allocations are the nodes of the two maps of `HessGrad`.  Simplifications: the strings of the exceptions thrown by the
library itself are not counted; `check_moments` uses matrices of fixed size and allocates nothing (uncertainties/internal/checkmoments.hpp:41).
-/

namespace Unc
namespace Memory
variable {R : Type*}

/-- A value returned by `unary` or `binary` is built in a new object, which needs one allocation for each element of its maps, and then moved into the variable
(uncertainties/ureal2.hpp:784-897: all of these only read their arguments). -/
def fresh2 (mem : ℕ) (w : World2 R) (r : Reg) (x : UReal2 R) : World2 R × Option (Out R) :=
  if x.hg.diagmap.length + x.hg.trimap.length ≤ mem then (w.set r x, some .done) else (w, none)

/-- `r = a` (implicit copy assignments of classes `UReal2`, uncertainties/ureal2.hpp:489-490, and `HessGrad`, uncertainties/internal/hessgrad.hpp:121-124): the members are
copied in the order `diagmap`, `trimap`, `mu`.  If copying a map fails, what it contains is not specified: any part of the elements to be copied (`keep` for the first map,
`keep2` for the second).  The reuse of the nodes of the overwritten maps by some standard libraries is not modelled. -/
def copy2 (mem : ℕ) (keep : VId → Bool) (keep2 : VId × VId → Bool) (w : World2 R) (r a : Reg) : World2 R × Option (Out R) :=
  let x := w.regs a
  let y := w.regs r
  if a = r ∨ x.hg.diagmap.length + x.hg.trimap.length ≤ mem then (w.set r x, some .done)
  else if x.hg.diagmap.length ≤ mem then (w.set r ⟨⟨x.hg.diagmap, x.hg.trimap.filter fun p => keep2 p.1⟩, y.mu⟩, none)
  else (w.set r ⟨⟨x.hg.diagmap.filter fun p => keep p.1, y.hg.trimap⟩, y.mu⟩, none)

/-- The last part of the constructors (uncertainties/ureal2.hpp:526-527, 562-563): the identifier is taken and then the only element is inserted.  The exceptions are thrown
before. -/
def finish2 (mem : ℕ) (w : World2 R) (r : Reg) (res : Except Exn (UReal2 R)) : World2 R × Option (Out R) :=
  match res with
  | .error e => (w, some (.threw e))
  | .ok x =>
    match mem with
    | 0 => ({ w with lastId := nextId w.lastId }, none)
    | _ + 1 => ({ w with lastId := nextId w.lastId }.set r x, some .done)

variable [Zero R] [One R] [Neg R] [Add R] [Mul R] [Div R] [NatCast R] [CCmp R] [CSqrt R]

/-- What a call meets: the storage it does not initialise, the allocations that succeed, and what remains in maps that could not be copied (no counterpart in /repo: the
environment of a call). -/
structure Env (R : Type*) where
  /-- uninitialised storage -/
  junk : Junk R
  /-- allocations that succeed -/
  mem : ℕ
  /-- elements kept of the first map -/
  keep : VId → Bool
  /-- elements kept of the second map -/
  keep2 : VId × VId → Bool

/-- One library call (see `World2.step`); the outer `none` is undefined behaviour or a failed assert, the inner one `std::bad_alloc`. -/
def step2 (solve : (ℕ → ℕ → R) → Option (List R)) (e : Env R) (w : World2 R) : Step2 R → Option (World2 R × Option (Out R))
  | .newCentral r n m t => (UReal2.mkCentral solve e.junk.mat e.junk.u (nextId w.lastId) n m t).map (finish2 e.mem w r)
  | .newStd r n s m t => (UReal2.mkStd solve e.junk.mat e.junk.u (nextId w.lastId) n s m t).map (finish2 e.mem w r)
  | .copy r a => some (copy2 e.mem e.keep e.keep2 w r a)
  | .unary r a f fx fxx => ((w.regs a).unary e.junk.u f fx fxx).map (fresh2 e.mem w r)
  | .binary r a b f fx fy fxx fyy fxy => ((w.regs a).binary e.junk.u (w.regs b) f fx fy fxx fyy fxy).map (fresh2 e.mem w r)
  | st => (w.step solve e.junk st).map fun p => (p.1, some p.2)

/-- A program which goes on after `std::bad_alloc` (no counterpart in /repo: a user program). -/
def run2 (solve : (ℕ → ℕ → R) → Option (List R)) (w : World2 R) : List (Step2 R × Env R) → Option (World2 R × List (Option (Out R)))
  | [] => some (w, [])
  | (st, e) :: t => (step2 solve e w st).bind fun (w', o) => (run2 solve w' t).map fun (w'', os) => (w'', o :: os)

end Memory
end Unc
