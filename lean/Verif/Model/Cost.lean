import Verif.Model.UReal

/-!
# The number of coefficient writes

The functions of `Verif/Model/UReal.lean` which build the map of coefficients, with a counter of the assignments to coefficients (`=`, `+=`, `*=` on an element of
`sigma`, or on `sdev` of an elementary variable).  Each assignment costs at most one search in the `std::map`; the searches are logarithmic in its size and are not counted
separately.  The result of every function, counter aside, is proved to be the one of the model (`C65_erase`).
-/

namespace Unc
namespace Cost
variable {R : Type*}

/-- `Real &r = m[k]; r = f(r);` with the counter (uncertainties/ureal.hpp:487,655,658,662,665,680-689,719,722,754,763,766). -/
def put (z : SMap VId R × ℕ) (k : VId) (dflt : R) (f : R → R) : SMap VId R × ℕ := (z.1.upsert k dflt f, z.2 + 1)

/-- `unary(x, mu, dx)` (uncertainties/ureal.hpp:604-632). -/
def unary [Zero R] [One R] [Neg R] [Mul R] (x : UReal R) (mu dx : R) : UReal R × ℕ :=
  if 0 < x.id then ({ id := x.id, mu := mu, sdev := x.sdev * dx, sigma := [] }, 1)
  else if x.id < 0 then
    -- the map is copied and every element multiplied
    ({ id := x.id, mu := mu, sigma := x.sigma.mapVal (fun v => v * dx), sdev := -1 }, x.sigma.length)
  else ({ id := x.id, mu := mu, sdev := 0, sigma := [] }, 0)

/-- The merge loop of `binary` (uncertainties/ureal.hpp:675-692). -/
def mergeLoop [Zero R] [Add R] [Mul R] (dx dy : R) : SMap VId R → SMap VId R → SMap VId R × ℕ → Option (SMap VId R × ℕ)
  | [], [], z => some z
  | (xid, a) :: xt, [], z =>
    if xid ≤ maxId then
      let z := put z xid 0 (fun _ => dx * a)
      if maxId ≤ xid then none
      else mergeLoop dx dy xt [] z
    else none
  | [], (yid, b) :: yt, z =>
    if maxId ≤ yid then none
    else
      let z := put z yid 0 (fun _ => 0)
      let z := put z yid 0 (fun p => p + dy * b)
      mergeLoop dx dy [] yt z
  | (xid, a) :: xt, (yid, b) :: yt, z =>
    let z := if xid ≤ yid then put z xid 0 (fun _ => dx * a) else z
    if yid ≤ xid then
      let z := if yid ≠ xid then put z yid 0 (fun _ => 0) else z
      let z := put z yid 0 (fun p => p + dy * b)
      if xid ≤ yid then mergeLoop dx dy xt yt z
      else mergeLoop dx dy ((xid, a) :: xt) yt z
    else mergeLoop dx dy xt ((yid, b) :: yt) z
termination_by xs ys => xs.length + ys.length

/-- `binary(x, y, mu, dx, dy)` (uncertainties/ureal.hpp:645-696); `none` is undefined behaviour. -/
def binary [Zero R] [One R] [Neg R] [Add R] [Mul R] (x y : UReal R) (mu dx dy : R) : Option (UReal R × ℕ) :=
  let z : SMap VId R × ℕ := ([], 0)
  let z :=
    if 0 < x.id then put z x.id 0 (fun _ => dx * x.sdev)
    else if x.id < 0 ∧ y.id ≥ 0 then x.sigma.foldl (fun z p => put z p.1 0 (fun _ => dx * p.2)) z
    else z
  let z :=
    if 0 < y.id then put z y.id 0 (fun v => v + dy * y.sdev)
    else if y.id < 0 ∧ x.id ≥ 0 then y.sigma.foldl (fun z p => put z p.1 0 (fun v => v + dy * p.2)) z
    else z
  let z? := if x.id < 0 ∧ y.id < 0 then mergeLoop dx dy x.sigma y.sigma z else some z
  z?.map fun z => ({ id := invalidId, mu := mu, sigma := z.1, sdev := -1 }, z.2)

/-- One iteration of the loop of `nary` (uncertainties/ureal.hpp:716-724), also the last part of `binary_assign`
(uncertainties/ureal.hpp:762-768). -/
def addInto [Zero R] [Add R] [Mul R] (z : SMap VId R × ℕ) (x : UReal R) (dx : R) : SMap VId R × ℕ :=
  if 0 < x.id then put z x.id 0 (fun v => v + dx * x.sdev)
  else if x.id < 0 then x.sigma.foldl (fun z p => put z p.1 0 (fun v => v + dx * p.2)) z
  else z

/-- `nary(xbegin, xend, mu, dxbegin)` (uncertainties/ureal.hpp:711-728). -/
def nary [Zero R] [One R] [Neg R] [Add R] [Mul R] (xs : List (UReal R × R)) (mu : R) : UReal R × ℕ :=
  let z := xs.foldl (fun z p => addInto z p.1 p.2) ([], 0)
  ({ id := invalidId, mu := mu, sdev := -1, sigma := z.1 }, z.2)

/-- `this->binary_assign(x, mu, dt, dx)` when `&x != this` (uncertainties/ureal.hpp:752-771). -/
def binaryAssign [Zero R] [One R] [Neg R] [Add R] [Mul R] [CCmp R] (this x : UReal R) (mu dt dx : R) : UReal R × ℕ :=
  let z : SMap VId R × ℕ := (this.sigma, 0)
  let z := if 0 < this.id then put z this.id 0 (fun _ => this.sdev) else z
  let z := if CCmp.eqb dt 1 then z else (z.1.mapVal (fun v => v * dt), z.2 + z.1.length)
  let z := addInto z x dx
  ({ id := invalidId, sigma := z.1, sdev := -1, mu := mu }, z.2)

/-- `for (u : us) t = t + u;` from `t` (uncertainties/ureal.hpp:781-783, the loop in the documentation at 174-178): result and total number of writes; assigning the
temporary moves its map (implicit move assignment, uncertainties/ureal.hpp:288). -/
def sumLoop [Zero R] [One R] [Neg R] [Add R] [Mul R] : UReal R → List (UReal R) → Option (UReal R × ℕ)
  | t, [] => some (t, 0)
  | t, u :: us => (binary t u (t.mu + u.mu) 1 1).bind fun z => (sumLoop z.1 us).map fun r => (r.1, z.2 + r.2)

/-- `for (u : us) t += u;` from `t` (uncertainties/ureal.hpp:795-797, documentation at 186-188), `t` being none of the summands. -/
def accLoop [Zero R] [One R] [Neg R] [Add R] [Mul R] [CCmp R] : UReal R → List (UReal R) → UReal R × ℕ
  | t, [] => (t, 0)
  | t, u :: us =>
    let z := binaryAssign t u (t.mu + u.mu) 1 1
    let r := accLoop z.1 us
    (r.1, z.2 + r.2)

end Cost
end Unc
