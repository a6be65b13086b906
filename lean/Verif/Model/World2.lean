import Verif.Model.CheckMoments
import Verif.Model.World

/-!
# Programs over `UReal2` variables

Like `Verif/Model/World.lean` for `UReal`.  `none` is undefined behaviour or a failed assert.
Every call carries the content of the storage which the library does not initialise: `u` for
moments, `junk` for the upper triangle of the matrix in `check_moments`.
-/

namespace Unc

/-- State: the counter shared with `UReal` (uncertainties/impl.hpp:46) and the variables, which start as
`UReal2()` (uncertainties/ureal2.hpp:580). -/
structure World2 (R : Type*) where
  /-- `internal::last_id` -/
  lastId : ℤ
  /-- values of the variables -/
  regs : Reg → UReal2 R

/-- Library calls on `UReal2` (uncertainties/ureal2.hpp:519-897).  Operators and math functions are
`unary`/`binary` calls. -/
inductive Step2 (R : Type*) where
  /-- `r = UReal2(n, moments, threshold)` -/
  | newCentral (r : Reg) (n : R) (moments : ℕ → R) (threshold : R)
  /-- `r = UReal2(n, s, std_moments, threshold)` -/
  | newStd (r : Reg) (n s : R) (moments : ℕ → R) (threshold : R)
  /-- `r = UReal2(n)` -/
  | const (r : Reg) (n : R)
  /-- `r = a` -/
  | copy (r a : Reg)
  /-- `r = unary(a, fx, dfdx, ddfdxdx)` -/
  | unary (r a : Reg) (fx dfdx ddfdxdx : R)
  /-- `r = binary(a, b, fxy, dfdx, dfdy, ddfdxdx, ddfdydy, ddfdxdy)` -/
  | binary (r a b : Reg) (fxy dfdx dfdy ddfdxdx ddfdydy ddfdxdy : R)
  /-- `++internal::last_id` by a constructor of `UReal` or by another thread
  (uncertainties/ureal.hpp:351) -/
  | otherNew

/-- Content of uninitialised storage met by a call (uncertainties/internal/hessgrad.hpp:49-51,
uncertainties/internal/checkmoments.hpp:96). -/
structure Junk (R : Type*) where
  /-- moments -/
  u : Moments R
  /-- upper triangle of the Hankel matrix -/
  mat : ℕ → ℕ → R

namespace World2
variable {R : Type*} [Zero R] [One R] [Neg R] [Add R] [Mul R] [Div R] [NatCast R] [CCmp R] [CSqrt R]

/-- Assignment to a variable (C++ assignment of class `UReal2`, uncertainties/ureal2.hpp:480). -/
def set {R : Type*} (w : World2 R) (r : Reg) (x : UReal2 R) : World2 R :=
  { w with regs := fun q => if q = r then x else w.regs q }

/-- End of a constructor call: on success the counter was incremented and the value is assigned
(uncertainties/ureal2.hpp:523-526, 554-562: the id is taken after the checks). -/
def finish {R : Type*} (w : World2 R) (r : Reg) (res : Except Exn (UReal2 R)) : World2 R × Out R :=
  match res with
  | .ok x => ({ w with lastId := nextId w.lastId }.set r x, .done)
  | .error e => (w, .threw e)

/-- One library call (see `Step2` and `Verif/Model/UReal2.lean`). -/
def step (solve : (ℕ → ℕ → R) → Option (List R)) (w : World2 R) (k : Junk R) :
    Step2 R → Option (World2 R × Out R)
  | .newCentral r n m t =>
    (UReal2.mkCentral solve k.mat k.u (nextId w.lastId) n m t).map (w.finish r)
  | .newStd r n s m t => (UReal2.mkStd solve k.mat k.u (nextId w.lastId) n s m t).map (w.finish r)
  | .const r n => some (w.set r (UReal2.const n), .done)
  | .copy r a => some (w.set r (w.regs a), .done)
  | .unary r a f fx fxx => ((w.regs a).unary k.u f fx fxx).map fun z => (w.set r z, .done)
  | .binary r a b f fx fy fxx fyy fxy =>
    ((w.regs a).binary k.u (w.regs b) f fx fy fxx fyy fxy).map fun z => (w.set r z, .done)
  | .otherNew => some ({ w with lastId := nextId w.lastId }, .done)

/-- A sequence of calls (no counterpart in /repo: a user program). -/
def run (solve : (ℕ → ℕ → R) → Option (List R)) (w : World2 R) :
    List (Step2 R × Junk R) → Option (World2 R × List (Out R))
  | [] => some (w, [])
  | (st, k) :: t => (w.step solve k st).bind fun (w', o) =>
      (w'.run solve t).map fun (w'', os) => (w'', o :: os)

/-- Program start (uncertainties/impl.hpp:46). -/
def init : World2 R := ⟨0, fun _ => UReal2.default'⟩

end World2

/-- Number of calls that may take an id (uncertainties/ureal2.hpp:519, 550). -/
def countNew2 {R : Type*} : List (Step2 R) → ℕ
  | [] => 0
  | .newCentral .. :: t => countNew2 t + 1
  | .newStd .. :: t => countNew2 t + 1
  | .otherNew :: t => countNew2 t + 1
  | _ :: t => countNew2 t

end Unc
