import Verif.Model.BinaryAssign2

/-!
# `binary_assign` of `UReal2` with the same object as both arguments

`binary_assign(x, x, …)`: the iterator over `y` goes over the maps which change.
-/

namespace Unc.UReal2
variable {R : Type*} [Zero R] [One R] [Neg R] [Add R] [Sub R] [Mul R] [Div R] [NatCast R] [CCmp R]

/-- The `while` loop of `binary_assign` (uncertainties/ureal2.hpp:933-968) when `y` is `x`.  The block for `y` (lines 951-964) is then
`assignX` with the numbers of `y`: what it reads is the changed `x`, the moments are assigned to themselves, and if the two
iterators are at the same pair the pointers `hhess` and `diag` point to the element it would find.  `fuel` as in `assignLoop`. -/
def assignSelfLoop (u : Moments R) (dfdx dfdy hddfdxdx hddfdydy : R) : ℕ → HessGrad R → KeyIt → KeyIt → Option (HessGrad R)
  | 0, _, _, _ => none
  | fuel + 1, hg, itx, ity =>
    if itx.notEnd || ity.notEnd then
      let idx : IdPair := toLex itx.ids
      let idy : IdPair := toLex ity.ids
      (if idx ≤ idy then assignX u dfdx hddfdxdx itx hg else some hg).bind fun hg =>
      (if idy ≤ idx then assignX u dfdy hddfdydy ity hg else some hg).bind fun hg =>
      (if idx ≤ idy then itx.incr hg else some itx).bind fun itx =>
      (if idy ≤ idx then ity.incr hg else some ity).bind fun ity =>
        assignSelfLoop u dfdx dfdy hddfdxdx hddfdydy fuel hg itx ity
    else some hg

/-- `binary_assign(x, x, fxy, dfdx, dfdy, ddfdxdx, ddfdydy, ddfdxdy)` (uncertainties/ureal2.hpp:906-986).  In the loops for the mixed
derivative (lines 971-985) the gradients of `y` are those the first loop left in `x`; these loops do not change them, so they are
passed as they are at the beginning. -/
def binaryAssignSelf (u : Moments R) (x : UReal2 R) (fxy dfdx dfdy ddfdxdx ddfdydy ddfdxdy : R) : Option (UReal2 R) :=
  let hddfdxdx := ddfdxdx / Mom.lit 2
  let hddfdydy := ddfdydy / Mom.lit 2
  let hddfdxdy := ddfdxdy / Mom.lit 2
  let fuel := x.hg.fuel + x.hg.fuel
  (assignSelfLoop u dfdx dfdy hddfdxdx hddfdydy fuel x.hg (KeyIt.start x.hg (CCmp.eqb hddfdxdx 0)) (KeyIt.start x.hg (CCmp.eqb hddfdydy 0))).bind fun hg =>
  (if !CCmp.eqb hddfdxdy 0 then assignMixed u hddfdxdy hg hg.diagmap.keys hg else some hg).map fun hg => ⟨hg, fxy⟩

end Unc.UReal2
