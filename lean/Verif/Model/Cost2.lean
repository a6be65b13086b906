import Verif.Model.UReal2
import Verif.Spec.Tally

/-!
# The number of operations of the propagation to second order

The functions of `Verif/Model/UReal2.lean` which compute the gradient and the hessian of a result, with a counter of the additions and multiplications
executed.  Each assigned value is computed with numbers which count the operations spent on them (`Verif/Spec/Tally.lean`), starting from numbers
that are there without computing, and the count is then added to the counter, also if the value is overwritten later.  Not counted: the at most three divisions by 2 at the beginning, the comparisons
and the searches in the maps.  The result of every function, counter aside, is the one of the model (`C91_erase`).
-/

namespace Unc
namespace Cost2
open Unc.Spec Tally
variable {R : Type*} [Zero R] [Add R] [Sub R] [Mul R] [NatCast R]

/-- `Real &r = hhess(i, j); r = f(r);` with the counter (uncertainties/ureal2.hpp:796-798,845-847,857-858,864-865). -/
def hhess (u : Moments R) (z : HessGrad R × ℕ) (i j : VId) (f : Tally R → Tally R) : Option (HessGrad R × ℕ) :=
  (z.1.modHhess u i j fun h => (f (free h)).val).map fun hg => (hg, z.2 + (f (free 0)).ops)

/-- `Diag &diag = diag(i); diag.mom = mom; diag.grad = f(diag.grad);` with the counter (uncertainties/ureal2.hpp:800-802,849-851). -/
def diag (u : Moments R) (z : HessGrad R × ℕ) (i : VId) (mom : Moments R → Moments R) (f : Tally R → Tally R) : HessGrad R × ℕ :=
  (z.1.modDiag u i fun d => { d with mom := mom d.mom, grad := (f (free d.grad)).val }, z.2 + (f (free 0)).ops)

/-- The body of the loop of `unary` and the block `if (idx <= idy)` of the loop of `binary` (uncertainties/ureal2.hpp:796-803,844-853). -/
def assignX (u : Moments R) (dfdx hddfdxdx : R) (z : HessGrad R × ℕ) (e : Ent R) : Option (HessGrad R × ℕ) :=
  (hhess u z e.id1 e.id2 fun _ => free hddfdxdx * free e.d1.grad * free e.d2.grad + free dfdx * free e.val).map fun z =>
    if e.id1 = e.id2 then diag u z e.id1 (fun _ => e.d1.mom) fun _ => free dfdx * free e.d1.grad else z

/-- The block `if (idx != idy)` inside `if (idy <= idx)` of the loop of `binary` (uncertainties/ureal2.hpp:856-863). -/
def newY (u : Moments R) (z : HessGrad R × ℕ) (e : Ent R) : Option (HessGrad R × ℕ) :=
  (hhess u z e.id1 e.id2 fun _ => 0).map fun z => if e.id1 = e.id2 then diag u z e.id1 (fun _ => e.d1.mom) fun g => g else z

/-- The rest of the block `if (idy <= idx)` (uncertainties/ureal2.hpp:864-868). -/
def addY (u : Moments R) (dfdy hddfdydy : R) (z : HessGrad R × ℕ) (e : Ent R) : Option (HessGrad R × ℕ) :=
  (hhess u z e.id1 e.id2 fun h => h + free hddfdydy * free e.d1.grad * free e.d2.grad + free dfdy * free e.val).map fun z =>
    if e.id1 = e.id2 then diag u z e.id1 (fun m => m) fun g => g + free dfdy * free e.d1.grad else z

variable [Div R] [CCmp R]

/-- `unary(x, fx, dfdx, ddfdxdx)` (uncertainties/ureal2.hpp:784-807). -/
def unary (u : Moments R) (x : UReal2 R) (fx dfdx ddfdxdx : R) : Option (UReal2 R × ℕ) :=
  let hddfdxdx := ddfdxdx / Mom.lit 2
  (x.hg.hessEntries (CCmp.eqb hddfdxdx 0)).bind fun es =>
    (es.foldlM (assignX u dfdx hddfdxdx) (HessGrad.empty, 0)).map fun z => (⟨z.1, fx⟩, z.2)

omit [Div R] [CCmp R] in
/-- The `while` loop of `binary` (uncertainties/ureal2.hpp:837-873). -/
def binaryLoop (u : Moments R) (dfdx dfdy hddfdxdx hddfdydy : R) :
    HessGrad R × ℕ → List (Ent R) → List (Ent R) → Option (HessGrad R × ℕ)
  | z, [], [] => some z
  | z, ex :: tx, [] =>
    if toLex (ex.id1, ex.id2) < toLex (maxId, maxId) then
      (assignX u dfdx hddfdxdx z ex).bind fun z => binaryLoop u dfdx dfdy hddfdxdx hddfdydy z tx []
    else none
  | z, [], ey :: ty =>
    if toLex (ey.id1, ey.id2) < toLex (maxId, maxId) then
      (newY u z ey).bind fun z => (addY u dfdy hddfdydy z ey).bind fun z =>
        binaryLoop u dfdx dfdy hddfdxdx hddfdydy z [] ty
    else none
  | z, ex :: tx, ey :: ty =>
    let idx : IdPair := toLex (ex.id1, ex.id2)
    let idy : IdPair := toLex (ey.id1, ey.id2)
    if idx < idy then
      (assignX u dfdx hddfdxdx z ex).bind fun z => binaryLoop u dfdx dfdy hddfdxdx hddfdydy z tx (ey :: ty)
    else if idy < idx then
      (newY u z ey).bind fun z => (addY u dfdy hddfdydy z ey).bind fun z =>
        binaryLoop u dfdx dfdy hddfdxdx hddfdydy z (ex :: tx) ty
    else
      (assignX u dfdx hddfdxdx z ex).bind fun z => (addY u dfdy hddfdydy z ey).bind fun z =>
        binaryLoop u dfdx dfdy hddfdxdx hddfdydy z tx ty
termination_by _ a b => a.length + b.length

omit [Div R] [CCmp R] in
/-- The body of the mixed-derivative loop of `binary` (uncertainties/ureal2.hpp:884-891). -/
def mixedStep (u : Moments R) (hddfdxdy : R) (z : HessGrad R × ℕ) (px py : VId × Diag R) : Option (HessGrad R × ℕ) :=
  let minid := min px.1 py.1
  let maxid := max px.1 py.1
  let addend : Tally R := free hddfdxdy * free px.2.grad * free py.2.grad
  if minid ≠ maxid then hhess u z minid maxid fun h => h + addend
  else hhess u z minid minid fun h => h + Mom.lit 2 * addend

/-- `binary(x, y, fxy, dfdx, dfdy, ddfdxdx, ddfdydy, ddfdxdy)` (uncertainties/ureal2.hpp:816-897). -/
def binary (u : Moments R) (x y : UReal2 R) (fxy dfdx dfdy ddfdxdx ddfdydy ddfdxdy : R) : Option (UReal2 R × ℕ) :=
  let hddfdxdx := ddfdxdx / Mom.lit 2
  let hddfdydy := ddfdydy / Mom.lit 2
  let hddfdxdy := ddfdxdy / Mom.lit 2
  (x.hg.hessEntries (CCmp.eqb hddfdxdx 0)).bind fun ex =>
  (y.hg.hessEntries (CCmp.eqb hddfdydy 0)).bind fun ey =>
  (binaryLoop u dfdx dfdy hddfdxdx hddfdydy (HessGrad.empty, 0) ex ey).bind fun z =>
  (if !CCmp.eqb hddfdxdy 0 then
    x.hg.diagmap.foldlM (fun z px => y.hg.diagmap.foldlM (fun z py => mixedStep u hddfdxdy z px py) z) z
   else some z).map fun z => (⟨z.1, fxy⟩, z.2)

/-- A loop `x = x + u;` over variables, as for `UReal` in the documentation (uncertainties/ureal.hpp:176-180), with the `operator+` of `UReal2` (uncertainties/ureal2.hpp:998-1003). -/
def sumLoop [One R] (u : Moments R) : UReal2 R → List (UReal2 R) → Option (UReal2 R × ℕ)
  | x, [] => some (x, 0)
  | x, v :: vs => (binary u x v (x.mu + v.mu) 1 1 0 0 0).bind fun z => (sumLoop u z.1 vs).map fun w => (w.1, z.2 + w.2)

/-- A loop `x = x * u;` over variables, with the `operator*` of `UReal2` (uncertainties/ureal2.hpp:1012-1020). -/
def mulLoop [One R] (u : Moments R) : UReal2 R → List (UReal2 R) → Option (UReal2 R × ℕ)
  | x, [] => some (x, 0)
  | x, v :: vs => (binary u x v (x.mu * v.mu) v.mu x.mu 0 0 1).bind fun z => (mulLoop u z.1 vs).map fun w => (w.1, z.2 + w.2)

end Cost2
end Unc
