import Verif.Model.Num
import Verif.Model.Map

/-!
# Model of `uncertainties/ureal.hpp`

Function by function.  `none` results are undefined behaviour or failed asserts; `Except` results are
C++ exceptions.  The numeric operations carry no laws here.
-/

namespace Unc

/-- `using Id = int` (uncertainties/core.hpp:35).  Unbounded here; the 32-bit wrap-around of the
counter that generates ids is modelled in `Verif/Model/World.lean`. -/
notation "VId" => Int

/-- `invalid_id = -1` (uncertainties/core.hpp:40). -/
def invalidId : VId := -1

/-- `std::numeric_limits<Id>::max()` for 32-bit `int`, the end sentinel `maxid`
(uncertainties/ureal.hpp:672). -/
def maxId : VId := 2147483647

/-- The data members of class `UReal` (uncertainties/ureal.hpp:291-294). -/
structure UReal (R : Type*) where
  /-- `Id id {0}` -/
  id : VId
  /-- `Real sdev {0}` -/
  sdev : R
  /-- `Real mu {0}` -/
  mu : R
  /-- `std::map<Id, Real> sigma` -/
  sigma : SMap VId R
  deriving DecidableEq, Repr

/-- The C++ exceptions thrown by the library. -/
inductive Exn where
  /-- `std::invalid_argument` -/
  | invalidArgument
  /-- `std::runtime_error` -/
  | runtimeError
  deriving DecidableEq, Repr

namespace UReal
variable {R S : Type*}

/-- Private helper `s2()`: sum of squares of the stored coefficients (uncertainties/ureal.hpp:325-333). -/
def s2 [Zero R] [Add R] [Mul R] (x : UReal R) : R :=
  x.sigma.foldl (fun acc p => acc + p.2 * p.2) 0

/-- `UReal(n, s)` (uncertainties/ureal.hpp:350-355); the new value of `++internal::last_id` is the
argument `newId`.  Throws `std::invalid_argument` if `s < 0`. -/
def mk' [Zero R] [CCmp R] (newId : VId) (n s : R) : Except Exn (UReal R) :=
  if CCmp.ltb s 0 then .error .invalidArgument
  else .ok { id := newId, sdev := s, mu := n, sigma := [] }

/-- `UReal(n)` (uncertainties/ureal.hpp:362-364). -/
def const [Zero R] (n : R) : UReal R := { id := 0, sdev := 0, mu := n, sigma := [] }

/-- `UReal()` (uncertainties/ureal.hpp:371-373). -/
def default' [Zero R] : UReal R := { id := 0, sdev := 0, mu := 0, sigma := [] }

/-- `isindep()` (uncertainties/ureal.hpp:383-386); `none` is a failed assert. -/
def isindep (x : UReal R) : Option Bool :=
  if x.id < 0 ∨ x.sigma.length = 0 then some (decide (x.sigma.length ≤ 1)) else none

/-- `indepid()` (uncertainties/ureal.hpp:394-405); `none` is a failed assert. -/
def indepid (x : UReal R) : Option VId :=
  if x.id < 0 ∨ x.sigma.length = 0 then
    if x.id ≥ 0 then some x.id
    else match x.sigma with
      | [] => some 0
      | [(k, _)] => some k
      | _ => some invalidId
  else none

/-- `n()` (uncertainties/ureal.hpp:410-412). -/
def n (x : UReal R) : R := x.mu

/-- `s() const` (uncertainties/ureal.hpp:414-424). -/
def s [Zero R] [Add R] [Mul R] [CCmp R] [CSqrt R] (x : UReal R) : R :=
  if x.id ≥ 0 then CSqrt.abs x.sdev
  else if CCmp.leb 0 x.sdev then x.sdev
  else CSqrt.sqrt x.s2

/-- `s()` on a non-const variable: returns the value and the variable with the cache updated
(uncertainties/ureal.hpp:435-444). -/
def sCache [Zero R] [Add R] [Mul R] [CCmp R] [CSqrt R] (x : UReal R) : R × UReal R :=
  if x.id ≥ 0 then (CSqrt.abs x.sdev, x)
  else
    let x' := if CCmp.ltb x.sdev 0 then { x with sdev := CSqrt.sqrt x.s2 } else x
    (x'.sdev, x')

/-- `change_nom(x, n)` (uncertainties/ureal.hpp:464-468). -/
def changeNom (x : UReal R) (n : R) : UReal R := { x with mu := n }

/-- Conversion operator to `UReal<OtherReal>`, with `c` the numeric conversion
(uncertainties/ureal.hpp:481-490).  The loop `x.sigma[it.first] = it.second` over a sorted map. -/
def convert [Zero S] (c : R → S) (x : UReal R) : UReal S where
  id := x.id
  sdev := c x.sdev
  mu := c x.mu
  sigma := x.sigma.foldl (fun m p => SMap.upsert m p.1 0 (fun _ => c p.2)) []

/-- The loop of `cov` over two sorted maps (uncertainties/ureal.hpp:525-531); the arguments are the
iterators `xit`, `yit` and the accumulator `cov`. -/
def covLoop [Add R] [Mul R] : SMap VId R → SMap VId R → R → R
  | (xid, a) :: xt, (yid, b) :: yt, acc =>
    let acc := if xid = yid then acc + a * b else acc
    if xid < yid then covLoop xt ((yid, b) :: yt) acc
    else if yid < xid then covLoop ((xid, a) :: xt) yt acc
    else covLoop xt yt acc
  | _, _, acc => acc
termination_by xs ys => xs.length + ys.length

/-- `cov(x, y)` (uncertainties/ureal.hpp:495-534). -/
def cov [Zero R] [Add R] [Mul R] (x y : UReal R) : R :=
  if 0 < x.id ∧ 0 < y.id then
    (if x.id = y.id then 0 + x.sdev * y.sdev else 0)
  else if x.id < 0 ∧ 0 < y.id then
    match x.sigma.find? y.id with
    | some a => 0 + a * y.sdev
    | none => 0
  else if 0 < x.id ∧ y.id < 0 then
    match y.sigma.find? x.id with
    | some b => 0 + x.sdev * b
    | none => 0
  else if x.id < 0 ∧ y.id < 0 then covLoop x.sigma y.sigma 0
  else 0

/-- `var(const x)` (uncertainties/ureal.hpp:536-542). -/
def var [Zero R] [Add R] [Mul R] [CCmp R] (x : UReal R) : R :=
  if x.id ≥ 0 ∨ CCmp.leb 0 x.sdev = true then x.sdev * x.sdev else x.s2

/-- `var(x)` on a non-const variable, which caches (uncertainties/ureal.hpp:551-559). -/
def varCache [Zero R] [Add R] [Mul R] [CCmp R] [CSqrt R] (x : UReal R) : R × UReal R :=
  if x.id ≥ 0 then (x.sdev * x.sdev, x)
  else
    let x' := if CCmp.ltb x.sdev 0 then { x with sdev := CSqrt.sqrt x.s2 } else x
    (x'.sdev * x'.sdev, x')

/-- `corr(x, y)` (uncertainties/ureal.hpp:567-569). -/
def corr [Zero R] [Add R] [Mul R] [Div R] [CCmp R] [CSqrt R] (x y : UReal R) : R :=
  cov x y / (x.s * y.s)

/-- `this->grad(x)` (uncertainties/ureal.hpp:577-592).  The inner `none` is unreachable
(dereferencing `x.sigma.begin()` of an empty map). -/
def grad [Zero R] [Div R] (this x : UReal R) : Except Exn (Option R) :=
  if ¬ (0 < x.id ∨ x.sigma.length = 1) then .error .invalidArgument
  else
    -- (xid, xg): the id of `x` and its coefficient
    let xd : Option (VId × R) := if 0 < x.id then some (x.id, x.sdev) else x.sigma.head?
    match xd with
    | none => .ok none
    | some (xid, xg) =>
      match this.sigma.find? xid with
      | some v => .ok (some (v / xg))
      | none => .ok (some 0)

/-- `unary(x, mu, dx)` (uncertainties/ureal.hpp:604-632). -/
def unary [Zero R] [One R] [Neg R] [Mul R] (x : UReal R) (mu dx : R) : UReal R :=
  if 0 < x.id then { id := x.id, mu := mu, sdev := x.sdev * dx, sigma := [] }
  else if x.id < 0 then
    { id := x.id, mu := mu, sigma := x.sigma.mapVal (fun v => v * dx), sdev := -1 }
  else { id := x.id, mu := mu, sdev := 0, sigma := [] }

/-- The merge loop of `binary` (uncertainties/ureal.hpp:675-692); arguments: iterators `xit`, `yit` and
`z.sigma`.  `none` is undefined behaviour: dereferencing a past-the-end iterator, which happens when
a key equals the sentinel `maxid` standing for an exhausted side. -/
def mergeLoop [Zero R] [Add R] [Mul R] (dx dy : R) :
    SMap VId R → SMap VId R → SMap VId R → Option (SMap VId R)
  | [], [], z => some z
  | (xid, a) :: xt, [], z =>
    -- yid = maxid
    if xid ≤ maxId then
      let z := z.upsert xid 0 (fun _ => dx * a)
      if maxId ≤ xid then none        -- `*p += dy * yit->second` with yit == end
      else mergeLoop dx dy xt [] z
    else none                          -- yid <= xid: dereferences yit == end
  | [], (yid, b) :: yt, z =>
    -- xid = maxid
    if maxId ≤ yid then none           -- `*p = dx * xit->second` with xit == end
    else
      let z := z.upsert yid 0 (fun _ => 0)
      let z := z.upsert yid 0 (fun p => p + dy * b)
      mergeLoop dx dy [] yt z
  | (xid, a) :: xt, (yid, b) :: yt, z =>
    let z := if xid ≤ yid then z.upsert xid 0 (fun _ => dx * a) else z
    if yid ≤ xid then
      let z := if yid ≠ xid then z.upsert yid 0 (fun _ => 0) else z
      let z := z.upsert yid 0 (fun p => p + dy * b)
      if xid ≤ yid then mergeLoop dx dy xt yt z
      else mergeLoop dx dy ((xid, a) :: xt) yt z
    else mergeLoop dx dy xt ((yid, b) :: yt) z
termination_by xs ys => xs.length + ys.length

/-- `binary(x, y, mu, dx, dy)` (uncertainties/ureal.hpp:645-696); `none` is undefined behaviour. -/
def binary [Zero R] [One R] [Neg R] [Add R] [Mul R] (x y : UReal R) (mu dx dy : R) : Option (UReal R) :=
  let z : SMap VId R := []
  let z :=
    if 0 < x.id then z.upsert x.id 0 (fun _ => dx * x.sdev)
    else if x.id < 0 ∧ y.id ≥ 0 then
      x.sigma.foldl (fun z p => SMap.upsert z p.1 0 (fun _ => dx * p.2)) z
    else z
  let z :=
    if 0 < y.id then z.upsert y.id 0 (fun v => v + dy * y.sdev)
    else if y.id < 0 ∧ x.id ≥ 0 then
      y.sigma.foldl (fun z p => SMap.upsert z p.1 0 (fun v => v + dy * p.2)) z
    else z
  let z? := if x.id < 0 ∧ y.id < 0 then mergeLoop dx dy x.sigma y.sigma z else some z
  z?.map fun z => { id := invalidId, mu := mu, sigma := z, sdev := -1 }

/-- One iteration of the loop of `nary` on the map `z.sigma` (uncertainties/ureal.hpp:716-724).
Also the last part of `binary_assign` (uncertainties/ureal.hpp:762-768). -/
def addInto [Zero R] [Add R] [Mul R] (z : SMap VId R) (x : UReal R) (dx : R) : SMap VId R :=
  if 0 < x.id then z.upsert x.id 0 (fun v => v + dx * x.sdev)
  else if x.id < 0 then
    x.sigma.foldl (fun z p => SMap.upsert z p.1 0 (fun v => v + dx * p.2)) z
  else z

/-- `nary(xbegin, xend, mu, dxbegin)` (uncertainties/ureal.hpp:711-728); the two sequences are a list of
pairs (variable, derivative). -/
def nary [Zero R] [One R] [Neg R] [Add R] [Mul R] (xs : List (UReal R × R)) (mu : R) : UReal R :=
  { id := invalidId, mu := mu, sdev := -1,
    sigma := xs.foldl (fun z p => addInto z p.1 p.2) [] }

/-- `this->binary_assign(x, mu, dt, dx)` when `&x == this`
(uncertainties/ureal.hpp:744-751 and 771). -/
def binaryAssignSelf [Zero R] [Add R] [Mul R] [CCmp R] (this : UReal R) (mu dt dx : R) : UReal R :=
  let d := dt + dx
  { id := this.id
    sigma := this.sigma.mapVal (fun v => v * d)
    sdev := if CCmp.ltb 0 this.sdev = true ∨ 0 < this.id then this.sdev * d else this.sdev
    mu := mu }

/-- `this->binary_assign(x, mu, dt, dx)` when `&x != this`
(uncertainties/ureal.hpp:752-771). -/
def binaryAssign [Zero R] [One R] [Neg R] [Add R] [Mul R] [CCmp R]
    (this x : UReal R) (mu dt dx : R) : UReal R :=
  let sg := if 0 < this.id then this.sigma.upsert this.id 0 (fun _ => this.sdev) else this.sigma
  let sg := if CCmp.eqb dt 1 then sg else sg.mapVal (fun v => v * dt)
  { id := invalidId, sigma := addInto sg x dx, sdev := -1, mu := mu }

section ops
variable [Zero R] [One R] [Neg R] [Add R] [Sub R] [Mul R] [Div R] [CCmp R]

/-- unary `operator-` (uncertainties/ureal.hpp:778-780). -/
def neg (x : UReal R) : UReal R := unary x (-x.mu) (-1)

/-- `operator+` (uncertainties/ureal.hpp:781-783). -/
def add (x y : UReal R) : Option (UReal R) := binary x y (x.mu + y.mu) 1 1

/-- `operator-` (uncertainties/ureal.hpp:784-786). -/
def sub (x y : UReal R) : Option (UReal R) := binary x y (x.mu - y.mu) 1 (-1)

/-- `operator*` (uncertainties/ureal.hpp:787-789). -/
def mul (x y : UReal R) : Option (UReal R) := binary x y (x.mu * y.mu) y.mu x.mu

/-- `operator/` (uncertainties/ureal.hpp:790-794). -/
def div (x y : UReal R) : Option (UReal R) :=
  let inv_y := 1 / y.mu
  let mu := x.mu * inv_y
  binary x y mu inv_y (-mu * inv_y)

/-- `operator+=`, different objects (uncertainties/ureal.hpp:795-797). -/
def addAssign (t x : UReal R) : UReal R := binaryAssign t x (t.mu + x.mu) 1 1
/-- `operator+=` with the same object on both sides (uncertainties/ureal.hpp:795-797). -/
def addAssignSelf (t : UReal R) : UReal R := binaryAssignSelf t (t.mu + t.mu) 1 1
/-- `operator-=`, different objects (uncertainties/ureal.hpp:798-800). -/
def subAssign (t x : UReal R) : UReal R := binaryAssign t x (t.mu - x.mu) 1 (-1)
/-- `operator-=` with the same object on both sides (uncertainties/ureal.hpp:798-800). -/
def subAssignSelf (t : UReal R) : UReal R := binaryAssignSelf t (t.mu - t.mu) 1 (-1)
/-- `operator*=`, different objects (uncertainties/ureal.hpp:801-803). -/
def mulAssign (t x : UReal R) : UReal R := binaryAssign t x (t.mu * x.mu) x.mu t.mu
/-- `operator*=` with the same object on both sides (uncertainties/ureal.hpp:801-803). -/
def mulAssignSelf (t : UReal R) : UReal R := binaryAssignSelf t (t.mu * t.mu) t.mu t.mu
/-- `operator/=`, different objects (uncertainties/ureal.hpp:804-808). -/
def divAssign (t x : UReal R) : UReal R :=
  let inv_x := 1 / x.mu
  let mu := t.mu * inv_x
  binaryAssign t x mu inv_x (-mu * inv_x)
/-- `operator/=` with the same object on both sides (uncertainties/ureal.hpp:804-808). -/
def divAssignSelf (t : UReal R) : UReal R :=
  let inv_x := 1 / t.mu
  let mu := t.mu * inv_x
  binaryAssignSelf t mu inv_x (-mu * inv_x)
end ops

end UReal
end Unc
