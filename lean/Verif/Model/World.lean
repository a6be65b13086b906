import Verif.Model.UReal

/-!
# Programs over `UReal` variables, the id counter, and threads

A world is the value of the global counter `internal::last_id` plus the values of the program's
variables.  A step is one library call.  `none` is undefined behaviour.  Numbers passed to the calls are literals of the step: since
theorems quantify over all steps, they cover calls whose arguments were computed from earlier results.
-/

namespace Unc

/-- 32-bit two's complement wrap-around: `std::atomic<int>::operator++` wraps without undefined
behaviour (uncertainties/impl.hpp:46 with uncertainties/core.hpp:35,43). -/
def wrap32 (n : ℤ) : ℤ := (n + 2147483648) % 4294967296 - 2147483648

/-- `++internal::last_id`, atomic (uncertainties/ureal.hpp:351, uncertainties/ureal2.hpp:526,562). -/
def nextId (last : ℤ) : ℤ := wrap32 (last + 1)

/-- Program variables are named by a thread and a number; two threads never share a variable
(sharing one object between threads without synchronisation is a data race in C++, out of scope).
Models nothing in /repo beyond the fact that `internal::last_id` is the only shared state
(uncertainties/impl.hpp:46). -/
structure Reg where
  /-- owning thread -/
  thread : ℕ
  /-- variable name -/
  name : ℕ
  deriving DecidableEq, Repr

/-- State: global counter (uncertainties/impl.hpp:46) and variables; all variables start as `UReal()`
(uncertainties/ureal.hpp:371). -/
structure World (R : Type*) where
  /-- `internal::last_id` -/
  lastId : ℤ
  /-- values of the variables -/
  regs : Reg → UReal R

/-- Library calls (uncertainties/ureal.hpp:350-808).  Registers name the objects, so `assign r r` is the
aliased call.  Operators `+ - * /` and math functions are `unary`/`binary` calls, `op=` are `assign` calls. -/
inductive Step (R : Type*) where
  /-- `r = UReal(n, s)` -/
  | new (r : Reg) (n s : R)
  /-- `r = UReal(n)` -/
  | const (r : Reg) (n : R)
  /-- `r = a` -/
  | copy (r a : Reg)
  /-- `r = unary(a, mu, dx)` -/
  | unary (r a : Reg) (mu dx : R)
  /-- `r = binary(a, b, mu, dx, dy)` -/
  | binary (r a b : Reg) (mu dx dy : R)
  /-- `r = nary(...)` -/
  | nary (r : Reg) (xs : List (Reg × R)) (mu : R)
  /-- `r.binary_assign(a, mu, dt, dx)` -/
  | assign (r a : Reg) (mu dt dx : R)
  /-- `r = change_nom(a, n)` -/
  | changeNom (r a : Reg) (n : R)
  /-- non-const `r.s()` -/
  | readS (r : Reg)
  /-- non-const `var(r)` -/
  | readVar (r : Reg)

/-- What a call returns to the caller. -/
inductive Out (R : Type*) where
  /-- nothing -/
  | done
  /-- a number -/
  | num (v : R)
  /-- an exception -/
  | threw (e : Exn)

namespace World
variable {R : Type*}

/-- Assignment to a program variable (no counterpart in /repo; C++ assignment of class `UReal`,
uncertainties/ureal.hpp:288). -/
def set (w : World R) (r : Reg) (x : UReal R) : World R :=
  { w with regs := fun q => if q = r then x else w.regs q }

/-- One library call (cites: see `Step`, and the model functions in `Verif/Model/UReal.lean`).
`UReal(n, s)` increments the counter before checking `s < 0` (uncertainties/ureal.hpp:351-352). -/
def step [Zero R] [One R] [Neg R] [Add R] [Mul R] [CCmp R] [CSqrt R] (w : World R) : Step R → Option (World R × Out R)
  | .new r n s =>
    let w' := { w with lastId := nextId w.lastId }
    match UReal.mk' w'.lastId n s with
    | .ok x => some (w'.set r x, .done)
    | .error e => some (w', .threw e)
  | .const r n => some (w.set r (UReal.const n), .done)
  | .copy r a => some (w.set r (w.regs a), .done)
  | .unary r a mu dx => some (w.set r ((w.regs a).unary mu dx), .done)
  | .binary r a b mu dx dy =>
    ((w.regs a).binary (w.regs b) mu dx dy).map fun z => (w.set r z, .done)
  | .nary r xs mu => some (w.set r (UReal.nary (xs.map fun p => (w.regs p.1, p.2)) mu), .done)
  | .assign r a mu dt dx =>
    if a = r then some (w.set r ((w.regs r).binaryAssignSelf mu dt dx), .done)
    else some (w.set r ((w.regs r).binaryAssign (w.regs a) mu dt dx), .done)
  | .changeNom r a n => some (w.set r ((w.regs a).changeNom n), .done)
  | .readS r => some (w.set r (w.regs r).sCache.2, .num (w.regs r).sCache.1)
  | .readVar r => some (w.set r (w.regs r).varCache.2, .num (w.regs r).varCache.1)

/-- A sequence of calls, with the values returned (no counterpart in /repo: a user program). -/
def run [Zero R] [One R] [Neg R] [Add R] [Mul R] [CCmp R] [CSqrt R] (w : World R) : List (Step R) → Option (World R × List (Out R))
  | [] => some (w, [])
  | st :: t => (w.step st).bind fun (w', o) => (w'.run t).map fun (w'', os) => (w'', o :: os)

/-- Program start: counter 0 (uncertainties/impl.hpp:46), variables default-constructed. -/
def init [Zero R] : World R := ⟨0, fun _ => UReal.default'⟩

end World

/-- Number of constructions of elementary variables in a program (calls of
uncertainties/ureal.hpp:350). -/
def countNew {R : Type*} : List (Step R) → ℕ
  | [] => 0
  | .new _ _ _ :: t => countNew t + 1
  | _ :: t => countNew t

end Unc
