import Verif.Model.HessGrad

/-!
# The interface of `HessGrad`, call by call

`Verif/Model/HessGrad.lean` has the member functions the propagation uses.  Here are the others, and a machine which makes any sequence of calls.
-/

namespace Unc
namespace HessGrad
variable {R : Type*}

/-- `diag(id)` of a constant object: `none` is the exception `std::out_of_range` of `std::map::at`
(uncertainties/internal/hessgrad.hpp:146-148). -/
def diagAt (hg : HessGrad R) (i : VId) : Option (Diag R) := SMap.find? hg.diagmap i

/-- `tri(minid, maxid)` of a constant object: the outer `none` is the failed assertion, the inner one `std::out_of_range`
(uncertainties/internal/hessgrad.hpp:173-176). -/
def triAt (hg : HessGrad R) (i j : VId) : Option (Option R) :=
  if i < j then some (SMap.find? hg.trimap (toLex (i, j))) else none

/-- A call of a public member function (uncertainties/internal/hessgrad.hpp:136-227).  The functions which return a reference which can be written to come
with what is done through the reference, and with what is found in storage which is not initialised. -/
inductive Call (R : Type*) where
  /-- `size()` -/
  | size
  /-- `diag(id)`, constant -/
  | diagAt (i : VId)
  /-- `diag(id)` -/
  | diag (u : Moments R) (i : VId) (f : Diag R → Diag R)
  /-- `diag_get(id)` -/
  | diagGet (u : Moments R) (i : VId)
  /-- `tri(minid, maxid)`, constant -/
  | triAt (i j : VId)
  /-- `tri(minid, maxid)` -/
  | tri (i j : VId) (f : R → R)
  /-- `tri_get(minid, maxid)` -/
  | triGet (i j : VId)
  /-- `tri_find(id1, id2)` -/
  | triFind (i j : VId)
  /-- `hhess(minid, maxid)` -/
  | hhess (u : Moments R) (i j : VId) (f : R → R)
  /-- `hhess_get(id1, id2)` -/
  | hhessGet (u : Moments R) (i j : VId)

/-- What a call returns (uncertainties/internal/hessgrad.hpp:136-227). -/
inductive Ret (R : Type*) where
  /-- nothing to see: the caller has written through the reference -/
  | done
  /-- an integer -/
  | nat (n : ℕ)
  /-- a `Diag` -/
  | diag (d : Diag R)
  /-- a number -/
  | num (x : R)
  /-- a pointer, null for `none` -/
  | ptr (p : Option R)
  /-- `std::out_of_range` -/
  | outOfRange

/-- one call: the object after it and the value returned, `none` if an assertion fails (uncertainties/internal/hessgrad.hpp:136-227) -/
def call [Zero R] (hg : HessGrad R) : Call R → Option (HessGrad R × Ret R)
  | .size => some (hg, .nat hg.size)
  | .diagAt i => some (hg, match hg.diagAt i with
    | some d => .diag d
    | none => .outOfRange)
  | .diag u i f => some (hg.modDiag u i f, .done)
  | .diagGet u i => some (hg, .diag (hg.diagGet u i))
  | .triAt i j => (hg.triAt i j).map fun r => (hg, match r with
    | some x => .num x
    | none => .outOfRange)
  | .tri i j f => (hg.modTri i j f).map fun hg => (hg, .done)
  | .triGet i j => (hg.triGet i j).map fun x => (hg, .num x)
  | .triFind i j => some (hg, .ptr (hg.triFind i j))
  | .hhess u i j f => (hg.modHhess u i j f).map fun hg => (hg, .done)
  | .hhessGet u i j => (hg.hhessGet u i j).map fun x => (hg, .num x)

/-- calls one after the other (uncertainties/internal/hessgrad.hpp:136-227) -/
def calls [Zero R] (hg : HessGrad R) : List (Call R) → Option (HessGrad R × List (Ret R))
  | [] => some (hg, [])
  | c :: l => (hg.call c).bind fun (hg, r) => (calls hg l).map fun (hg, rs) => (hg, r :: rs)

end HessGrad

/-- `it1 != it2`, for iterators over the same object (uncertainties/internal/hessgrad.hpp:390-393); two iterators into the same map are equal iff the suffixes
have the same length -/
def TriIt.ne {R : Type*} (a b : TriIt R) : Bool :=
  decide (a.diagmin.length ≠ b.diagmin.length) && decide (a.diagmax.length ≠ b.diagmax.length)

/-- `it1 != it2` (uncertainties/internal/hessgrad.hpp:510-513) -/
def HessIt.ne {R : Type*} (a b : HessIt R) : Bool :=
  decide (a.diagmin.length ≠ b.diagmin.length) && decide (a.diagmax.length ≠ b.diagmax.length)

/-- `ctend()` (uncertainties/internal/hessgrad.hpp:310-316, 402-404) -/
def TriIt.finish {R : Type*} : TriIt R := ⟨[], [], [], true⟩

/-- `chend()` (uncertainties/internal/hessgrad.hpp:443-449, 520-522) -/
def HessIt.finish {R : Type*} : HessIt R := ⟨[], [], [], true⟩

end Unc
