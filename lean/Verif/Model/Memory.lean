import Verif.Model.World

/-!
# Calls which run out of memory

The only allocations of `uncertainties/ureal.hpp` are the nodes of `std::map`.  Each call is given the number `mem` of allocations that succeed; the next one throws
`std::bad_alloc`.  Simplifications: the strings of the exceptions thrown by the library itself are not counted; assigning the value returned by a function moves the map and
does not allocate.
-/

namespace Unc
namespace Memory
variable {R : Type*}

/-- `Real &r = m[k]; r = f(r);` (uncertainties/ureal.hpp:754,763,766).  A node is allocated if the key is missing; if that fails nothing has happened, and the result is
`none`. -/
def put (mem : ℕ) (m : SMap VId R) (k : VId) (dflt : R) (f : R → R) : Option (SMap VId R × ℕ) :=
  match m.find? k with
  | some _ => some (m.upsert k dflt f, mem)
  | none =>
    match mem with
    | 0 => none
    | mem + 1 => some (m.upsert k dflt f, mem)

/-- The loop `for (const auto &it : x.sigma) this->sigma[it.first] += dx * it.second;` (uncertainties/ureal.hpp:765-767): the map when the loop ends, and the allocations
left, or `none` if it ended with the exception. -/
def addLoop [Zero R] [Add R] [Mul R] (dx : R) : List (VId × R) → SMap VId R → ℕ → SMap VId R × Option ℕ
  | [], z, mem => (z, some mem)
  | p :: t, z, mem =>
    match put mem z p.1 0 (fun v => v + dx * p.2) with
    | none => (z, none)
    | some (z, mem) => addLoop dx t z mem

/-- `if (x.id > 0) ... else if (x.id < 0) ...` (uncertainties/ureal.hpp:762-768). -/
def addInto [Zero R] [Add R] [Mul R] (mem : ℕ) (z : SMap VId R) (x : UReal R) (dx : R) : SMap VId R × Option ℕ :=
  if 0 < x.id then
    match put mem z x.id 0 (fun v => v + dx * x.sdev) with
    | none => (z, none)
    | some (z, mem) => (z, some mem)
  else if x.id < 0 then addLoop dx x.sigma z mem
  else (z, some mem)

/-- `this->binary_assign(x, mu, dt, dx)` when `&x != this` (uncertainties/ureal.hpp:752-771): what `*this` is when the call returns (`true`) or throws (`false`).  The
members are assigned in the order `sigma[id]`, `id`, `sigma`, `sdev`, `mu`. -/
def binaryAssign [Zero R] [One R] [Neg R] [Add R] [Mul R] [CCmp R] (mem : ℕ) (this x : UReal R) (mu dt dx : R) : UReal R × Bool :=
  match (if 0 < this.id then put mem this.sigma this.id 0 (fun _ => this.sdev) else some (this.sigma, mem)) with
  | none => (this, false)
  | some (sg, mem) =>
    let sg := if CCmp.eqb dt 1 then sg else sg.mapVal (fun v => v * dt)
    match addInto mem sg x dx with
    | (sg, none) => ({ id := invalidId, sigma := sg, sdev := this.sdev, mu := this.mu }, false)
    | (sg, some _) => ({ id := invalidId, sigma := sg, sdev := -1, mu := mu }, true)

/-- The value `x` is built in a new object, which needs one allocation for each element of its map, and then moved into the variable `r`
(uncertainties/ureal.hpp:464-468, 604-632, 645-696, 711-728: all of these only read their arguments).  The result `none` is `std::bad_alloc`. -/
def fresh (mem : ℕ) (w : World R) (r : Reg) (x : UReal R) : World R × Option (Out R) :=
  if x.sigma.length ≤ mem then (w.set r x, some .done) else (w, none)

/-- `r = a` (implicit copy assignment of class `UReal`, uncertainties/ureal.hpp:288-294): `id`, `sdev` and `mu` are copied, and then the map.  If copying the map fails,
what it contains is not specified: any part `keep` of the elements to be copied.
The reuse of the nodes of the overwritten map by some standard libraries is not modelled. -/
def copy (mem : ℕ) (keep : VId → Bool) (w : World R) (r a : Reg) : World R × Option (Out R) :=
  if (w.regs a).sigma.length ≤ mem ∨ a = r then (w.set r (w.regs a), some .done)
  else (w.set r { w.regs a with sigma := (w.regs a).sigma.filter fun p => keep p.1 }, none)

/-- One library call with `mem` allocations (see `World.step`); the outer `none` is undefined behaviour, the inner one `std::bad_alloc`.  Constructors, conversions from
numbers, aliased compound assignments, `s()` and `var` do not allocate (uncertainties/ureal.hpp:350-373, 744-751, 435-444, 551-559). -/
def step [Zero R] [One R] [Neg R] [Add R] [Mul R] [CCmp R] [CSqrt R] (mem : ℕ) (keep : VId → Bool) (w : World R) :
    Step R → Option (World R × Option (Out R))
  | .copy r a => some (copy mem keep w r a)
  | .unary r a mu dx => some (fresh mem w r ((w.regs a).unary mu dx))
  | .binary r a b mu dx dy => ((w.regs a).binary (w.regs b) mu dx dy).map (fresh mem w r)
  | .nary r xs mu => some (fresh mem w r (UReal.nary (xs.map fun p => (w.regs p.1, p.2)) mu))
  | .changeNom r a n => some (fresh mem w r ((w.regs a).changeNom n))
  | .assign r a mu dt dx =>
    if a = r then some (w.set r ((w.regs r).binaryAssignSelf mu dt dx), some .done)
    else
      match binaryAssign mem (w.regs r) (w.regs a) mu dt dx with
      | (z, true) => some (w.set r z, some .done)
      | (z, false) => some (w.set r z, none)
  | st => (w.step st).map fun p => (p.1, some p.2)

/-- A program which goes on after `std::bad_alloc` (no counterpart in /repo: a user program); each call comes with the allocations that succeed and with what remains in a
map that could not be copied. -/
def run [Zero R] [One R] [Neg R] [Add R] [Mul R] [CCmp R] [CSqrt R] (w : World R) :
    List (Step R × ℕ × (VId → Bool)) → Option (World R × List (Option (Out R)))
  | [] => some (w, [])
  | (st, mem, keep) :: t => (step mem keep w st).bind fun (w', o) => (run w' t).map fun (w'', os) => (w'', o :: os)

end Memory
end Unc
