import Verif.Spec.Threads
import Verif.Spec.Mixed

/-!
# Threads which use both classes, in any arithmetic

As in `Verif/Spec/Threads.lean`, a concurrent execution is an interleaving of the calls of the threads, and the variables of thread number 0 are shared
and read-only during the concurrent phase.
-/

namespace Unc.Spec
open Unc

variable {R : Type*}

/-- The variable a call on `UReal2` writes.  The increment of the counter by somebody else writes none. -/
def writes2 : Step2 R → Option Reg
  | .newCentral r _ _ _ => some r
  | .newStd r _ _ _ _ => some r
  | .const r _ => some r
  | .copy r _ => some r
  | .unary r _ _ _ _ => some r
  | .binary r _ _ _ _ _ _ _ _ => some r
  | .otherNew => none

/-- The variables a call on `UReal2` reads. -/
def reads2 : Step2 R → List Reg
  | .newCentral _ _ _ _ => []
  | .newStd _ _ _ _ _ => []
  | .const _ _ => []
  | .copy _ a => [a]
  | .unary _ a _ _ _ => [a]
  | .binary _ a b _ _ _ _ _ _ => [a, b]
  | .otherNew => []

/-- The thread executing a call: the owner of the variable written. -/
def threadOfM : MStep R → Option ℕ
  | .one st => some (threadOf st)
  | .two st _ => (writes2 st).map Reg.thread

/-- The variables a call reads, of the class it is for. -/
def readsM : MStep R → List Reg
  | .one st => reads st
  | .two st _ => reads2 st

/-- A race-free call: writes an own variable, reads own or shared ones. -/
def RaceFreeM (st : MStep R) : Prop :=
  ∀ t, threadOfM st = some t → t ≠ 0 ∧ ∀ q ∈ readsM st, q.thread = t ∨ q.thread = 0

/-- The call without the content of uninitialised storage it happens to meet. -/
def callOf : MStep R → Step R ⊕ Step2 R
  | .one st => .inl st
  | .two st _ => .inr st

/-- The calls of one thread, in program order. -/
def projectM (t : ℕ) (p : List (MStep R)) : List (Step R ⊕ Step2 R) := (p.filter fun st => decide (threadOfM st = some t)).map callOf

/-- What one thread's calls returned. -/
def threadOutsM (t : ℕ) (p : List (MStep R)) (os : List (Out R)) : List (Out R) :=
  ((p.zip os).filter fun q => decide (threadOfM q.1 = some t)).map Prod.snd

section
variable [Zero R] [One R] [Neg R] [Add R] [Sub R] [Mul R] [Div R] [NatCast R] [CCmp R] [CSqrt R]

/-- Every question about `UReal` variables for which `P` holds has the same answer in the two states.  The identifiers themselves may differ, but not
which of them are equal. -/
structure SameFirst (P : Reg → Prop) (w w' : MWorld R) : Prop where
  n : ∀ q, P q → (w.first q).n = (w'.first q).n
  s : ∀ q, P q → (w.first q).s = (w'.first q).s
  var : ∀ q, P q → UReal.var (w.first q) = UReal.var (w'.first q)
  isindep : ∀ q, P q → (w.first q).isindep = (w'.first q).isindep
  cov : ∀ q r, P q → P r → UReal.cov (w.first q) (w.first r) = UReal.cov (w'.first q) (w'.first r)
  corr : ∀ q r, P q → P r → UReal.corr (w.first q) (w.first r) = UReal.corr (w'.first q) (w'.first r)
  grad : ∀ q r, P q → P r → UReal.grad (w.first q) (w.first r) = UReal.grad (w'.first q) (w'.first r)
  indepid : ∀ q r, P q → P r → ((w.first q).indepid = (w.first r).indepid ↔ (w'.first q).indepid = (w'.first r).indepid)

/-- The same for `UReal2` variables. -/
structure SameSecond (P : Reg → Prop) (w w' : MWorld R) : Prop where
  first : ∀ q, P q → (w.second q).mu = (w'.second q).mu
  n : ∀ q p, P q → (w.second q).n p = (w'.second q).n p
  m : ∀ q k, P q → (w.second q).m k = (w'.second q).m k
  s : ∀ q, P q → (w.second q).s = (w'.second q).s
  skew : ∀ q, P q → (w.second q).skew = (w'.second q).skew
  kurt : ∀ q, P q → (w.second q).kurt = (w'.second q).kurt
  isindep : ∀ q, P q → (w.second q).isindep = (w'.second q).isindep
  cov : ∀ q r, P q → P r → UReal2.cov (w.second q) (w.second r) = UReal2.cov (w'.second q) (w'.second r)
  corr : ∀ q r, P q → P r → UReal2.corr (w.second q) (w.second r) = UReal2.corr (w'.second q) (w'.second r)
  grad : ∀ u q r, P q → P r → UReal2.grad u (w.second q) (w.second r) = UReal2.grad u (w'.second q) (w'.second r)
  hess : ∀ u q r l, P q → P r → P l → UReal2.hess u (w.second q) (w.second r) (w.second l) = UReal2.hess u (w'.second q) (w'.second r) (w'.second l)
  indepid : ∀ q r, P q → P r → ((w.second q).indepid = (w.second r).indepid ↔ (w'.second q).indepid = (w'.second r).indepid)

end
end Unc.Spec
