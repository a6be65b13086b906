import Verif.Model.UReal
import Mathlib.Data.Prod.Lex

/-!
# Model of `uncertainties/internal/hessgrad.hpp`

Sparse storage of the gradient and of *half* the second derivatives, and the two iterators over it.
A constant iterator into a map is the suffix of the association list that starts at the element it
points to; `end()` is `[]`.  `none` is a failed `assert`, the dereference or increment of an end
iterator, or a loop which does not stop within the fuel.
-/

namespace Unc

/-- `class Moments`: the standardized moments 3 to 8 of an elementary variable
(uncertainties/internal/hessgrad.hpp:44-95).  The `std::array<Real, 6>` is written as six fields. -/
structure Moments (R : Type*) where
  /-- `v<3>` -/
  v3 : R
  /-- `v<4>` -/
  v4 : R
  /-- `v<5>` -/
  v5 : R
  /-- `v<6>` -/
  v6 : R
  /-- `v<7>` -/
  v7 : R
  /-- `v<8>` -/
  v8 : R
  deriving DecidableEq, Repr

/-- `struct Diag` (uncertainties/internal/hessgrad.hpp:111-115). -/
structure Diag (R : Type*) where
  /-- first derivative -/
  grad : R
  /-- half second derivative -/
  hhess : R
  /-- standardized moments 3 to 8 -/
  mom : Moments R
  deriving DecidableEq, Repr

/-- Key type of the off-diagonal map, ordered lexicographically (`using IdPair = std::pair<Id, Id>`,
uncertainties/internal/hessgrad.hpp:117). -/
abbrev IdPair := VId ×ₗ VId

/-- `class HessGrad`: data members (uncertainties/internal/hessgrad.hpp:120-124). -/
structure HessGrad (R : Type*) where
  /-- gradient, diagonal of half the hessian, moments -/
  diagmap : SMap VId (Diag R)
  /-- off-diagonal elements of half the hessian -/
  trimap : SMap IdPair R
  deriving DecidableEq

/-- What the body of a loop sees of the current position of a `ConstTriIt` or `ConstHessIt`
(uncertainties/internal/hessgrad.hpp:344-387, 471-508): `id1()`, `id2()`, `diag1()`, `diag2()`, `*it`. -/
structure Ent (R : Type*) where
  /-- row id -/
  id1 : VId
  /-- column id -/
  id2 : VId
  /-- row diagonal -/
  d1 : Diag R
  /-- column diagonal -/
  d2 : Diag R
  /-- `*it` -/
  val : R
  deriving DecidableEq, Repr

namespace HessGrad
variable {R S : Type*}

/-- A default-constructed `HessGrad` (both maps empty), as in `UReal2()`
(uncertainties/internal/hessgrad.hpp:111-124, uncertainties/ureal2.hpp:580). -/
def empty : HessGrad R := ⟨[], []⟩

/-- A value-initialised `Diag`, the element which `diagmap[id]` inserts, and the static `zerodiag`
(uncertainties/internal/hessgrad.hpp:111-115, 132, 151-155, 551-552): `grad` and `hhess` are 0 by their
default member initialisers.  The moments are written by no constructor (`Moments() { ; }`, :49-51);
value initialisation and static initialisation zero them first.  The argument `u` stands for that
content, so that a theorem quantified over `u` shows that a result does not depend on it. -/
def newDiag [Zero R] (u : Moments R) : Diag R := ⟨0, 0, u⟩

/-- `size()` (uncertainties/internal/hessgrad.hpp:141-143). -/
def size (hg : HessGrad R) : ℕ := hg.diagmap.length

/-- `diag_get(id)` (uncertainties/internal/hessgrad.hpp:162-170). -/
def diagGet [Zero R] (u : Moments R) (hg : HessGrad R) (i : VId) : Diag R :=
  (SMap.find? hg.diagmap i).getD (newDiag u)

/-- `tri_find(id1, id2)`: pointer to the off-diagonal element, ids in any order
(uncertainties/internal/hessgrad.hpp:201-211). -/
def triFind (hg : HessGrad R) (i j : VId) : Option R :=
  SMap.find? hg.trimap (toLex (min i j, max i j))

/-- `tri_get(minid, maxid)` (uncertainties/internal/hessgrad.hpp:188-197); `none` is the failed
assertion `minid < maxid`. -/
def triGet [Zero R] (hg : HessGrad R) (i j : VId) : Option R :=
  if i < j then some ((SMap.find? hg.trimap (toLex (i, j))).getD 0) else none

/-- `hhess_get(id1, id2)` (uncertainties/internal/hessgrad.hpp:225-227). -/
def hhessGet [Zero R] (u : Moments R) (hg : HessGrad R) (i j : VId) : Option R :=
  if i ≠ j then hg.triGet (min i j) (max i j) else some (hg.diagGet u i).hhess

/-- `Diag &r = diag(id); f(r)`: the mutable accessor inserts a missing variable
(uncertainties/internal/hessgrad.hpp:153-155). -/
def modDiag [Zero R] (u : Moments R) (hg : HessGrad R) (i : VId) (f : Diag R → Diag R) : HessGrad R :=
  { hg with diagmap := SMap.upsert hg.diagmap i (newDiag u) f }

/-- `Real &r = tri(minid, maxid); r = f(r)` (uncertainties/internal/hessgrad.hpp:181-184). -/
def modTri [Zero R] (hg : HessGrad R) (i j : VId) (f : R → R) : Option (HessGrad R) :=
  if i < j then some { hg with trimap := SMap.upsert hg.trimap (toLex (i, j)) 0 f } else none

/-- `Real &r = hhess(minid, maxid); r = f(r)` (uncertainties/internal/hessgrad.hpp:219-221). -/
def modHhess [Zero R] (u : Moments R) (hg : HessGrad R) (i j : VId) (f : R → R) : Option (HessGrad R) :=
  if i ≠ j then hg.modTri i j f else some (hg.modDiag u i fun d => { d with hhess := f d.hhess })

end HessGrad

/-- `class ConstTriIt` (uncertainties/internal/hessgrad.hpp:260-267).  `diagend` and `triend` are `[]`. -/
structure TriIt (R : Type*) where
  /-- row iterator -/
  diagmin : SMap VId (Diag R)
  /-- column iterator -/
  diagmax : SMap VId (Diag R)
  /-- off-diagonal iterator -/
  tri : SMap IdPair R
  /-- `skipmissing` -/
  skip : Bool

/-- `for (; it != diagend and it->first < k; ++it) ;` followed by
`assert(it != diagend && it->first == k)` (uncertainties/internal/hessgrad.hpp:275-278, 465-466). -/
def seekDiag {R : Type*} (k : VId) : SMap VId (Diag R) → Option (SMap VId (Diag R))
  | [] => none
  | (i, d) :: t => if i < k then seekDiag k t else if i = k then some ((i, d) :: t) else none

namespace TriIt
variable {R : Type*}

/-- `update_diag()` (uncertainties/internal/hessgrad.hpp:273-283). -/
def updateDiag (it : TriIt R) : Option (TriIt R) :=
  match it.tri with
  | [] => some { it with diagmin := [], diagmax := [] }
  | (k, _) :: _ =>
    (seekDiag (ofLex k).1 it.diagmin).bind fun dm =>
      (seekDiag (ofLex k).2 dm).map fun dM => { it with diagmin := dm, diagmax := dM }

/-- Begin constructor (uncertainties/internal/hessgrad.hpp:292-306). -/
def start (diag : SMap VId (Diag R)) (tri : SMap IdPair R) (skip : Bool) : Option (TriIt R) :=
  if skip then updateDiag ⟨diag, diag, tri, skip⟩
  else match diag with
    | [] => some ⟨[], [], tri, skip⟩
    | _ :: [] => some ⟨[], [], tri, skip⟩
    | d :: d' :: t => some ⟨d :: d' :: t, d' :: t, tri, skip⟩

/-- `operator++` (uncertainties/internal/hessgrad.hpp:320-340). -/
def incr (it : TriIt R) : Option (TriIt R) :=
  if it.skip then
    match it.tri with
    | [] => none
    | _ :: t => updateDiag { it with tri := t }
  else
    match it.diagmin, it.diagmax with
    | _, [] => none
    | [], _ => none
    | _ :: dm, _ :: dM =>
      let dmin := if dM.isEmpty then dm else it.diagmin
      let dmax := if dM.isEmpty then dm.tail else dM
      match dmin, dmax with
      | (i, d) :: t, (j, e) :: u =>
        some { it with diagmin := (i, d) :: t, diagmax := (j, e) :: u,
                       tri := it.tri.dropWhile fun p => decide (p.1 < toLex (i, j)) }
      | _, _ => some { it with diagmin := [], diagmax := [] }

/-- `it != ctend()` (uncertainties/internal/hessgrad.hpp:390-393). -/
def notEnd (it : TriIt R) : Bool := !it.diagmin.isEmpty && !it.diagmax.isEmpty

/-- `id1()`, `id2()`, `diag1()`, `diag2()` and `*it` (uncertainties/internal/hessgrad.hpp:344-387). -/
def get [Zero R] (it : TriIt R) : Option (Ent R) :=
  match it.diagmin, it.diagmax with
  | (i, d) :: _, (j, e) :: _ =>
    if it.skip then
      match it.tri with
      | [] => none
      | (_, h) :: _ => some ⟨i, j, d, e, h⟩
    else
      match it.tri with
      | [] => some ⟨i, j, d, e, 0⟩
      | (k, h) :: _ => some ⟨i, j, d, e, if k = toLex (i, j) then h else 0⟩
  | _, _ => none

/-- `for (; it != tend; ++it)`: the entries seen by the loop body, in order.  The loops in the library
do not modify the maps while such an iterator walks over them. `fuel` bounds the number of
iterations (uncertainties/internal/moments.hpp:81, 156, 168, 308, 334, 438). -/
def loop [Zero R] : ℕ → TriIt R → Option (List (Ent R))
  | 0, _ => none
  | fuel + 1, it =>
    if it.notEnd then
      it.get.bind fun e => it.incr.bind fun it' => (loop fuel it').map fun es => e :: es
    else some []

end TriIt

/-- `class ConstHessIt` (uncertainties/internal/hessgrad.hpp:409-416). -/
structure HessIt (R : Type*) where
  /-- row iterator -/
  diagmin : SMap VId (Diag R)
  /-- column iterator -/
  diagmax : SMap VId (Diag R)
  /-- off-diagonal iterator -/
  tri : SMap IdPair R
  /-- `skipmissing` -/
  skip : Bool

namespace HessIt
variable {R : Type*}

/-- Begin constructor (uncertainties/internal/hessgrad.hpp:431-441). -/
def start (diag : SMap VId (Diag R)) (tri : SMap IdPair R) (skip : Bool) : HessIt R :=
  ⟨diag, diag, tri, skip⟩

/-- `operator++` (uncertainties/internal/hessgrad.hpp:452-469), asserts included.  Two iterators into
the same map are equal iff the suffixes have the same length. -/
def incr (it : HessIt R) : Option (HessIt R) :=
  match it.diagmin, it.diagmax with
  | [], _ => none
  | _, [] => none
  | (i, d) :: dm, _ :: dM =>
    -- the pair (diagmax, tri) after line 458
    let st : Option (SMap VId (Diag R) × SMap IdPair R) :=
      if it.diagmin.length = it.diagmax.length then some (dM, it.tri)
      else match it.tri with
        | [] => none
        | _ :: t => some (it.diagmax, t)
    st.bind fun st =>
      match st.2, st.1 with
      | [], _ => some { it with diagmin := dm, diagmax := dm, tri := [] }
      | _ :: _, [] => none
      | (k, h) :: t, (j, e) :: dM' =>
        if k < toLex (i, j) then none
        else if (ofLex k).1 > i then
          some { it with diagmin := dm, diagmax := dm, tri := (k, h) :: t }
        else if it.skip then
          (seekDiag (ofLex k).2 ((j, e) :: dM')).map fun dM'' =>
            { it with diagmin := (i, d) :: dm, diagmax := dM'', tri := (k, h) :: t }
        else some { it with diagmin := (i, d) :: dm, diagmax := (j, e) :: dM', tri := (k, h) :: t }

/-- `it != chend()` (uncertainties/internal/hessgrad.hpp:510-513). -/
def notEnd (it : HessIt R) : Bool := !it.diagmin.isEmpty && !it.diagmax.isEmpty

/-- `id1()`, `id2()`, `diag1()`, `diag2()` and `*it` (uncertainties/internal/hessgrad.hpp:471-508). -/
def get [Zero R] (it : HessIt R) : Option (Ent R) :=
  match it.diagmin, it.diagmax with
  | (i, d) :: _, (j, e) :: _ =>
    if it.diagmin.length = it.diagmax.length then some ⟨i, j, d, e, d.hhess⟩
    else match it.tri with
      | [] => if it.skip then none else some ⟨i, j, d, e, 0⟩
      | (k, h) :: _ =>
        if it.skip then some ⟨i, j, d, e, h⟩
        else some ⟨i, j, d, e, if k = toLex (i, j) then h else 0⟩
  | _, _ => none

/-- `for (; it != end; ++it)`: the entries seen by the loop body
(uncertainties/ureal2.hpp:793-795 and 834-838, 874-875). -/
def loop [Zero R] : ℕ → HessIt R → Option (List (Ent R))
  | 0, _ => none
  | fuel + 1, it =>
    if it.notEnd then
      it.get.bind fun e => it.incr.bind fun it' => (loop fuel it').map fun es => e :: es
    else some []

end HessIt

namespace HessGrad
variable {R S : Type*}

/-- A bound for the number of iterations of either iterator (no counterpart in /repo: the model's
loops carry fuel; the theorems show that it suffices, so the loops of
uncertainties/internal/hessgrad.hpp:260-514 stop). -/
def fuel (hg : HessGrad R) : ℕ :=
  hg.diagmap.length * hg.diagmap.length + hg.diagmap.length + hg.trimap.length + 1

/-- `ctbegin(skipzero)` … `ctend()` (uncertainties/internal/hessgrad.hpp:397-404). -/
def triEntries [Zero R] (hg : HessGrad R) (skip : Bool) : Option (List (Ent R)) :=
  (TriIt.start hg.diagmap hg.trimap skip).bind (TriIt.loop hg.fuel)

/-- `chbegin(skipzero)` … `chend()` (uncertainties/internal/hessgrad.hpp:516-522). -/
def hessEntries [Zero R] (hg : HessGrad R) (skip : Bool) : Option (List (Ent R)) :=
  HessIt.loop hg.fuel (HessIt.start hg.diagmap hg.trimap skip)

/-- `operator HessGrad<OtherReal>()` (uncertainties/internal/hessgrad.hpp:529-545), `f` being the
conversion of numbers. -/
def convert [Zero S] (u : Moments S) (f : R → S) (hg : HessGrad R) : HessGrad S :=
  { diagmap := hg.diagmap.foldl (fun z it => SMap.upsert z it.1 (newDiag u) fun _ =>
      ⟨f it.2.grad, f it.2.hhess,
        ⟨f it.2.mom.v3, f it.2.mom.v4, f it.2.mom.v5, f it.2.mom.v6, f it.2.mom.v7, f it.2.mom.v8⟩⟩) []
    trimap := hg.trimap.foldl (fun z it => SMap.upsert z it.1 0 fun _ => f it.2) [] }

end HessGrad
end Unc
