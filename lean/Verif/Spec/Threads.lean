import Verif.Spec.Program

/-!
# Threads

A concurrent execution is an interleaving of the calls of the threads (each call touches shared state only
through the atomic counter).  Variables of thread number 0 are shared and read-only during the concurrent phase.
-/

namespace Unc.Spec
open Unc

variable {R : Type*}

/-- The variable a call writes (caching reads write the cache). -/
def writes : Step R → Reg
  | .new r _ _ => r
  | .const r _ => r
  | .copy r _ => r
  | .unary r _ _ _ => r
  | .binary r _ _ _ _ _ => r
  | .nary r _ _ => r
  | .assign r _ _ _ _ => r
  | .changeNom r _ _ => r
  | .readS r => r
  | .readVar r => r

/-- The variables a call reads. -/
def reads : Step R → List Reg
  | .new _ _ _ => []
  | .const _ _ => []
  | .copy _ a => [a]
  | .unary _ a _ _ => [a]
  | .binary _ a b _ _ _ => [a, b]
  | .nary _ xs _ => xs.map Prod.fst
  | .assign r a _ _ _ => [r, a]
  | .changeNom _ a _ => [a]
  | .readS r => [r]
  | .readVar r => [r]

/-- The thread executing a call: the owner of the variable written. -/
def threadOf (st : Step R) : ℕ := (writes st).thread

/-- A race-free call: writes an own variable, reads own or shared ones. -/
def RaceFree (st : Step R) : Prop :=
  threadOf st ≠ 0 ∧ ∀ q ∈ reads st, q.thread = threadOf st ∨ q.thread = 0

/-- The calls of one thread, in program order. -/
def project (t : ℕ) (p : List (Step R)) : List (Step R) := p.filter (fun st => threadOf st = t)

/-- What one thread's calls returned. -/
def threadOuts (t : ℕ) (p : List (Step R)) (os : List (Out R)) : List (Out R) :=
  ((p.zip os).filter (fun q => threadOf q.1 = t)).map Prod.snd

end Unc.Spec
