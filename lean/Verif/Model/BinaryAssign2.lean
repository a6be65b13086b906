import Verif.Model.UReal2

/-!
# `binary_assign` of `UReal2`

The function walks over the maps of `x` while it changes them, so the iterators of the other functions, lists of entries still to
visit, do not fit.  Here an iterator into a map is the key it points to: the iterators of a `std::map` stay valid when elements
are inserted, keep pointing to the same element, and see changed values and new elements.
-/

namespace Unc
variable {R : Type*}

/-- `++it` of a `std::map` iterator at key `k`: the element after `k` at the time of the call, `none` for `end()` (used in
uncertainties/internal/hessgrad.hpp:452-472). -/
def SMap.nextKey {K V : Type*} [LinearOrder K] (m : SMap K V) (k : K) : Option K :=
  (m.keys.filter fun k' => decide (k < k')).head?

/-- `class ConstHessIt` (uncertainties/internal/hessgrad.hpp:409-416) over a map that changes: the three inner iterators as keys,
`none` for the end iterators. -/
structure KeyIt where
  /-- row iterator -/
  diagmin : Option VId
  /-- column iterator -/
  diagmax : Option VId
  /-- off-diagonal iterator -/
  tri : Option IdPair
  /-- `skipmissing` -/
  skip : Bool

namespace KeyIt

/-- Begin constructor (uncertainties/internal/hessgrad.hpp:431-441). -/
def start (hg : HessGrad R) (skip : Bool) : KeyIt :=
  ⟨hg.diagmap.keys.head?, hg.diagmap.keys.head?, hg.trimap.keys.head?, skip⟩

/-- `for (; diagmax != diagend && diagmax->first < k; ++diagmax) ;` from key `j` on, then
`assert(diagmax != diagend && diagmax->first == k)` (uncertainties/internal/hessgrad.hpp:465-466). -/
def seek (hg : HessGrad R) (j k : VId) : Option VId :=
  match hg.diagmap.keys.filter fun i => decide (j ≤ i ∧ k ≤ i) with
  | [] => none
  | i :: _ => if i = k then some i else none

/-- `operator++` (uncertainties/internal/hessgrad.hpp:452-472), asserts included. -/
def incr (hg : HessGrad R) (it : KeyIt) : Option KeyIt :=
  match it.diagmin, it.diagmax with
  | some i, some j =>
    -- the pair (diagmax, tri) after line 458; `++tri` at the end is undefined
    let st : Option (Option VId × Option IdPair) :=
      if i = j then some (hg.diagmap.nextKey j, it.tri)
      else it.tri.map fun k => (some j, hg.trimap.nextKey k)
    st.bind fun st =>
      let next := hg.diagmap.nextKey i
      match st.2, st.1 with
      | none, _ => some { it with diagmin := next, diagmax := next, tri := none }
      | some _, none => none
      | some k, some j' =>
        if k < toLex (i, j') then none
        else if (ofLex k).1 > i then some { it with diagmin := next, diagmax := next, tri := some k }
        else if it.skip then
          (seek hg j' (ofLex k).2).map fun j'' => { it with diagmax := some j'', tri := some k }
        else some { it with diagmax := some j', tri := some k }
  | _, _ => none

/-- `it != chend()` (uncertainties/internal/hessgrad.hpp:510-513). -/
def notEnd (it : KeyIt) : Bool := it.diagmin.isSome && it.diagmax.isSome

/-- `id1()`, `id2()` (uncertainties/internal/hessgrad.hpp:485-493), the sentinel `pmaxid` at the end
(uncertainties/ureal2.hpp:921-922, 934-935). -/
def ids (it : KeyIt) : VId × VId :=
  match it.diagmin, it.diagmax with
  | some i, some j => (i, j)
  | _, _ => (maxId, maxId)

/-- `id1()`, `id2()`, `diag1()`, `diag2()` and `*it` with the maps as they are now
(uncertainties/internal/hessgrad.hpp:472-508). -/
def get [Zero R] (hg : HessGrad R) (it : KeyIt) : Option (Ent R) :=
  match it.diagmin, it.diagmax with
  | some i, some j =>
    (SMap.find? hg.diagmap i).bind fun d => (SMap.find? hg.diagmap j).bind fun e =>
      if i = j then some ⟨i, j, d, e, d.hhess⟩
      else match it.tri with
        | none => if it.skip then none else some ⟨i, j, d, e, 0⟩
        | some k =>
          (SMap.find? hg.trimap k).map fun h =>
            ⟨i, j, d, e, if it.skip then h else if k = toLex (i, j) then h else 0⟩
  | _, _ => none

end KeyIt

namespace UReal2
variable [Zero R] [One R] [Neg R] [Add R] [Sub R] [Mul R] [Div R] [NatCast R] [CCmp R]

/-- The block `if (idx <= idy)` of the loop of `binary_assign` (uncertainties/ureal2.hpp:940-949).  `*itx` is read after
`*hhess` has been changed, and may be the same element. -/
def assignX (u : Moments R) (dfdx hddfdxdx : R) (itx : KeyIt) (hg : HessGrad R) : Option (HessGrad R) :=
  let i := itx.ids.1
  let j := itx.ids.2
  -- `hhess(…)` inserts the element if it is missing
  (hg.modHhess u i j fun h => h).bind fun hg => (itx.get hg).bind fun e =>
  (hg.modHhess u i j fun h => h + hddfdxdx * e.d1.grad * e.d2.grad).bind fun hg => (itx.get hg).bind fun e =>
  (hg.modHhess u i j fun h => h + dfdx * e.val).bind fun hg =>
    if i = j then (itx.get hg).map fun e =>
      hg.modDiag u i fun d => { d with mom := e.d1.mom, grad := d.grad + dfdx * e.d1.grad }
    else some hg

/-- The block `if (idx != idy)` inside `if (idy <= idx)` (uncertainties/ureal2.hpp:952-958).  Unlike in `binary` the element is
not set to zero. -/
def assignYNew (u : Moments R) (hg : HessGrad R) (e : Ent R) : Option (HessGrad R) :=
  (hg.modHhess u e.id1 e.id2 fun h => h).map fun hg =>
    if e.id1 = e.id2 then hg.modDiag u e.id1 fun d => { d with mom := e.d1.mom } else hg

/-- The rest of the block `if (idy <= idx)` (uncertainties/ureal2.hpp:959-963).  The pointers `hhess` and `diag` point to the
elements of `x` at `idy`. -/
def assignY (u : Moments R) (dfdy hddfdydy : R) (hg : HessGrad R) (e : Ent R) : Option (HessGrad R) :=
  (hg.modHhess u e.id1 e.id2 fun h => h + hddfdydy * e.d1.grad * e.d2.grad + dfdy * e.val).map
    fun hg => if e.id1 = e.id2 then hg.modDiag u e.id1 fun d => { d with grad := d.grad + dfdy * e.d1.grad } else hg

/-- The `while` loop of `binary_assign` (uncertainties/ureal2.hpp:933-968).  `y` is assumed to be another object than `x`, so its
iterator is the list of entries still to visit.  `fuel` bounds the number of iterations; `none` stands for running out of it,
for a failed assert, and for an access through an end iterator. -/
def assignLoop (u : Moments R) (dfdx dfdy hddfdxdx hddfdydy : R) :
    ℕ → HessGrad R → KeyIt → List (Ent R) → Option (HessGrad R)
  | 0, _, _, _ => none
  | fuel + 1, hg, itx, ey =>
    match itx.notEnd, ey with
    | false, [] => some hg
    | true, [] =>
      if toLex itx.ids < toLex (maxId, maxId) then
        (assignX u dfdx hddfdxdx itx hg).bind fun hg => (itx.incr hg).bind fun itx =>
          assignLoop u dfdx dfdy hddfdxdx hddfdydy fuel hg itx []
      else none
    | false, e :: ty =>
      if toLex (e.id1, e.id2) < toLex (maxId, maxId) then
        (assignYNew u hg e).bind fun hg => (assignY u dfdy hddfdydy hg e).bind fun hg =>
          assignLoop u dfdx dfdy hddfdxdx hddfdydy fuel hg itx ty
      else none
    | true, e :: ty =>
      if toLex itx.ids < toLex (e.id1, e.id2) then
        (assignX u dfdx hddfdxdx itx hg).bind fun hg => (itx.incr hg).bind fun itx =>
          assignLoop u dfdx dfdy hddfdxdx hddfdydy fuel hg itx (e :: ty)
      else if toLex (e.id1, e.id2) < toLex itx.ids then
        (assignYNew u hg e).bind fun hg => (assignY u dfdy hddfdydy hg e).bind fun hg =>
          assignLoop u dfdx dfdy hddfdxdx hddfdydy fuel hg itx ty
      else
        (assignX u dfdx hddfdxdx itx hg).bind fun hg => (assignY u dfdy hddfdydy hg e).bind fun hg =>
          (itx.incr hg).bind fun itx => assignLoop u dfdx dfdy hddfdxdx hddfdydy fuel hg itx ty

/-- The body of the mixed-derivative loop (uncertainties/ureal2.hpp:976-982): `i`, `j` the keys of `iti`, `itj`, the gradients of
`x` read as they are now. -/
def assignMixedStep (u : Moments R) (hddfdxdy : R) (y : HessGrad R) (hg : HessGrad R) (i j : VId) : Option (HessGrad R) :=
  let dix := (hg.diagGet u i).grad
  let djx := (hg.diagGet u j).grad
  let diy := (y.diagGet u i).grad
  let djy := (y.diagGet u j).grad
  hg.modHhess u i j fun h => h + hddfdxdy * (dix * djy + djx * diy)

/-- The mixed-derivative loops (uncertainties/ureal2.hpp:971-985).  The variables of `x` do not change in these loops (the elements
accessed with `hhess(i, i)` exist), so the lists of keys are fixed before: `itj` starts from `iti`. -/
def assignMixed (u : Moments R) (hddfdxdy : R) (y : HessGrad R) : List VId → HessGrad R → Option (HessGrad R)
  | [], hg => some hg
  | i :: t, hg =>
    ((i :: t).foldlM (fun hg j => assignMixedStep u hddfdxdy y hg i j) hg).bind fun hg => assignMixed u hddfdxdy y t hg

/-- `binary_assign(x, y, fxy, dfdx, dfdy, ddfdxdx, ddfdydy, ddfdxdy)` (uncertainties/ureal2.hpp:906-986); the result is the new
value of `x`.  `x` and `y` are different objects. -/
def binaryAssign (u : Moments R) (x y : UReal2 R) (fxy dfdx dfdy ddfdxdx ddfdydy ddfdxdy : R) : Option (UReal2 R) :=
  let hddfdxdx := ddfdxdx / Mom.lit 2
  let hddfdydy := ddfdydy / Mom.lit 2
  let hddfdxdy := ddfdxdy / Mom.lit 2
  let fuel := (x.hg.fuel + y.hg.fuel) * (x.hg.fuel + y.hg.fuel)
  (y.hg.hessEntries (CCmp.eqb hddfdydy 0)).bind fun ey =>
  (assignLoop u dfdx dfdy hddfdxdx hddfdydy fuel x.hg (KeyIt.start x.hg (CCmp.eqb hddfdxdx 0)) ey).bind fun hg =>
  (if !CCmp.eqb hddfdxdy 0 then assignMixed u hddfdxdy y.hg hg.diagmap.keys hg else some hg).map fun hg => ⟨hg, fxy⟩

end UReal2
end Unc
