import Verif.Model.Moments

/-!
# Model of `uncertainties/ureal2.hpp`

`none` results are failed asserts or undefined behaviour, `Except` results are C++ exceptions.  The content
`u` of moments which no constructor writes (see `HessGrad.newDiag`) is a parameter.
`binary_assign` is in `Verif/Model/BinaryAssign2.lean`, the constructors which check their
moments are in `Verif/Model/CheckMoments.lean`.
-/

namespace Unc

/-- `enum class Prop { est, mean }`, the propagation mode (uncertainties/core.hpp, used at
uncertainties/ureal2.hpp:44-46). -/
inductive PropMode where
  /-- `Prop::est` -/
  | est
  /-- `Prop::mean` -/
  | mean
  deriving DecidableEq, Repr

/-- Data members of class `UReal2` (uncertainties/ureal2.hpp:488-490). -/
structure UReal2 (R : Type*) where
  /-- `HessGrad hg` -/
  hg : HessGrad R
  /-- `Real mu {0}` -/
  mu : R
  deriving DecidableEq

namespace UReal2
variable {R S : Type*}

/-- `UReal2(n)` (uncertainties/ureal2.hpp:572-575). -/
def const (n : R) : UReal2 R := ⟨HessGrad.empty, n⟩

/-- `UReal2()` (uncertainties/ureal2.hpp:580-582). -/
def default' [Zero R] : UReal2 R := ⟨HessGrad.empty, 0⟩

/-- `isindep()` (uncertainties/ureal2.hpp:587-589). -/
def isindep (x : UReal2 R) : Bool := decide (x.hg.size ≤ 1)

/-- `indepid()` (uncertainties/ureal2.hpp:595-603). -/
def indepid (x : UReal2 R) : VId :=
  if !x.isindep then invalidId
  else match x.hg.diagmap with
    | [(i, _)] => i
    | _ => 0

section moments
variable [Zero R] [Add R] [Sub R] [Mul R] [NatCast R]

/-- The body of the loop of `m(n)`: `update_mom(mom, i, hg)` computes central moment `i + 1` from the
already computed ones (uncertainties/ureal2.hpp:55-76). The array is a list in order; `none` is a failed
assert or the read of an element which was not yet computed. -/
def updateMom (hg : HessGrad R) (mom : List R) : Option (List R) :=
  match mom with
  | [] => (Mom.compute hg 1).map fun m => [m]
  | [m1] => (Mom.compute hg 2).map fun m => [m1, m - m1 * m1]
  | [m1, m2] => (Mom.compute hg 3).map fun m => [m1, m2, m - m1 * (Mom.lit 3 * m2 + m1 * m1)]
  | [m1, m2, m3] => (Mom.compute hg 4).map fun m =>
      [m1, m2, m3, m - m1 * (Mom.lit 4 * m3 + m1 * (Mom.lit 6 * m2 + m1 * m1))]
  | _ => none

/-- The loop of `m(n)`: `n` calls of `update_mom` (uncertainties/ureal2.hpp:656-659). -/
def momArray (hg : HessGrad R) : ℕ → Option (List R)
  | 0 => some []
  | n + 1 => (momArray hg n).bind (updateMom hg)

/-- `m(n)` (uncertainties/ureal2.hpp:654-661). -/
def m (x : UReal2 R) (n : ℕ) : Option R :=
  if 1 ≤ n ∧ n ≤ 4 then (momArray x.hg n).bind fun l => l[n - 1]? else none

/-- `n()` (uncertainties/ureal2.hpp:619-621): `mu + propsign(prop) * m(1)`. -/
def n [Neg R] (p : PropMode) (x : UReal2 R) : Option R :=
  (x.m 1).map fun m1 =>
    match p with
    | .est => x.mu + -m1
    | .mean => x.mu + m1

/-- `var(x)` (uncertainties/ureal2.hpp:704-706). -/
def var (x : UReal2 R) : Option R := x.m 2

/-- `s()` (uncertainties/ureal2.hpp:626-629). -/
def s [CSqrt R] (x : UReal2 R) : Option R := (x.m 2).map CSqrt.sqrt

/-- `skew()` (uncertainties/ureal2.hpp:634-636). -/
def skew [CSqrt R] [Div R] (x : UReal2 R) : Option R :=
  (x.m 3).bind fun m3 => x.s.bind fun sd => (x.m 2).map fun m2 => m3 / (sd * m2)

/-- `kurt()` (uncertainties/ureal2.hpp:641-644). -/
def kurt [Div R] (x : UReal2 R) : Option R :=
  (x.m 2).bind fun s2 => (x.m 4).map fun m4 => m4 / (s2 * s2)

/-- `cov(x, y)` (uncertainties/ureal2.hpp:711-713). -/
def cov (x y : UReal2 R) : Option R :=
  (Mom.c2 x.hg y.hg).bind fun c => (x.m 1).bind fun a => (y.m 1).map fun b => c - a * b

/-- `corr(x, y)` (uncertainties/ureal2.hpp:718-720). -/
def corr [CSqrt R] [Div R] (x y : UReal2 R) : Option R :=
  (cov x y).bind fun c => x.s.bind fun a => y.s.map fun b => c / (a * b)

end moments

/-- Conversion of the number type or of the propagation mode (uncertainties/ureal2.hpp:680-699). -/
def convert [Zero S] (u : Moments S) (f : R → S) (x : UReal2 R) : UReal2 S := ⟨x.hg.convert u f, f x.mu⟩

section deriv
variable [Zero R] [One R] [Neg R] [Add R] [Sub R] [Mul R] [Div R] [NatCast R] [CCmp R]

/-- `this->grad(x)` (uncertainties/ureal2.hpp:729-738). -/
def grad (u : Moments R) (t x : UReal2 R) : Except Exn R :=
  match x.hg.diagmap with
  | [(i, d)] => .ok ((t.hg.diagGet u i).grad / d.grad)
  | _ => .error .invalidArgument

/-- `this->hess(x, y)` (uncertainties/ureal2.hpp:747-776); the outer `none` is a failed assert in
`hhess_get`. -/
def hess (u : Moments R) (t x y : UReal2 R) : Option (Except Exn R) :=
  match x.hg.diagmap, y.hg.diagmap with
  | [(idx, dx)], [(idy, dy)] =>
    if idx ≠ idy then
      (t.hg.hhessGet u idx idy).map fun h => .ok (Mom.lit 2 * h / (dx.grad * dy.grad))
    else
      let dxdv := dx.grad
      let dydv := dy.grad
      let ddxdvdv := Mom.lit 2 * dx.hhess
      let ddydvdv := Mom.lit 2 * dy.hhess
      if !CCmp.eqb dxdv dydv || !CCmp.eqb ddxdvdv ddydvdv then some (.error .invalidArgument)
      else
        let dfdv := (t.hg.diagGet u idx).grad
        (t.hg.hhessGet u idx idx).map fun h =>
          let ddfdvdv := Mom.lit 2 * h
          .ok ((ddfdvdv - (dfdv / dxdv) * ddxdvdv) / (dxdv * dxdv))
  | _, _ => some (.error .invalidArgument)

/-- The body of the loop of `unary` (uncertainties/ureal2.hpp:796-803). -/
def unaryStep (u : Moments R) (dfdx hddfdxdx : R) (res : HessGrad R) (e : Ent R) :
    Option (HessGrad R) :=
  (res.modHhess u e.id1 e.id2 fun _ => hddfdxdx * e.d1.grad * e.d2.grad + dfdx * e.val).map fun res =>
    if e.id1 = e.id2 then
      res.modDiag u e.id1 fun d => { d with mom := e.d1.mom, grad := dfdx * e.d1.grad }
    else res

/-- `unary(x, fx, dfdx, ddfdxdx)` (uncertainties/ureal2.hpp:784-807). -/
def unary (u : Moments R) (x : UReal2 R) (fx dfdx ddfdxdx : R) : Option (UReal2 R) :=
  let hddfdxdx := ddfdxdx / Mom.lit 2
  (x.hg.hessEntries (CCmp.eqb hddfdxdx 0)).bind fun es =>
    (es.foldlM (unaryStep u dfdx hddfdxdx) HessGrad.empty).map fun hg => ⟨hg, fx⟩

/-- The block `if (idx <= idy)` of the loop of `binary` (uncertainties/ureal2.hpp:844-853). -/
def binaryX (u : Moments R) (dfdx hddfdxdx : R) (res : HessGrad R) (e : Ent R) :
    Option (HessGrad R) :=
  (res.modHhess u e.id1 e.id2 fun _ => hddfdxdx * e.d1.grad * e.d2.grad + dfdx * e.val).map fun res =>
    if e.id1 = e.id2 then
      res.modDiag u e.id1 fun d => { d with mom := e.d1.mom, grad := dfdx * e.d1.grad }
    else res

/-- The block `if (idx != idy)` inside `if (idy <= idx)` of the loop of `binary`
(uncertainties/ureal2.hpp:856-863). -/
def binaryYNew (u : Moments R) (res : HessGrad R) (e : Ent R) : Option (HessGrad R) :=
  (res.modHhess u e.id1 e.id2 fun _ => 0).map fun res =>
    if e.id1 = e.id2 then res.modDiag u e.id1 fun d => { d with mom := e.d1.mom } else res

/-- The rest of the block `if (idy <= idx)` (uncertainties/ureal2.hpp:864-868).  The pointers `hhess` and
`diag` point to the elements at `idy`. -/
def binaryY (u : Moments R) (dfdy hddfdydy : R) (res : HessGrad R) (e : Ent R) :
    Option (HessGrad R) :=
  (res.modHhess u e.id1 e.id2 fun h => h + hddfdydy * e.d1.grad * e.d2.grad + dfdy * e.val).map
    fun res =>
      if e.id1 = e.id2 then res.modDiag u e.id1 fun d => { d with grad := d.grad + dfdy * e.d1.grad }
      else res

/-- The `while` loop of `binary` (uncertainties/ureal2.hpp:837-873).  The iterators are given by the
entries they have still to visit; `none` also stands for an access through an end iterator. -/
def binaryLoop (u : Moments R) (dfdx dfdy hddfdxdx hddfdydy : R) :
    HessGrad R → List (Ent R) → List (Ent R) → Option (HessGrad R)
  | res, [], [] => some res
  | res, ex :: tx, [] =>
    -- `idx <= pmaxid` always for `int` ids; `pmaxid <= idx` would access the end iterator of `y`
    if toLex (ex.id1, ex.id2) < toLex (maxId, maxId) then
      (binaryX u dfdx hddfdxdx res ex).bind fun res =>
        binaryLoop u dfdx dfdy hddfdxdx hddfdydy res tx []
    else none
  | res, [], ey :: ty =>
    if toLex (ey.id1, ey.id2) < toLex (maxId, maxId) then
      (binaryYNew u res ey).bind fun res => (binaryY u dfdy hddfdydy res ey).bind fun res =>
        binaryLoop u dfdx dfdy hddfdxdx hddfdydy res [] ty
    else none
  | res, ex :: tx, ey :: ty =>
    let idx : IdPair := toLex (ex.id1, ex.id2)
    let idy : IdPair := toLex (ey.id1, ey.id2)
    if idx < idy then
      (binaryX u dfdx hddfdxdx res ex).bind fun res =>
        binaryLoop u dfdx dfdy hddfdxdx hddfdydy res tx (ey :: ty)
    else if idy < idx then
      (binaryYNew u res ey).bind fun res => (binaryY u dfdy hddfdydy res ey).bind fun res =>
        binaryLoop u dfdx dfdy hddfdxdx hddfdydy res (ex :: tx) ty
    else
      (binaryX u dfdx hddfdxdx res ex).bind fun res => (binaryY u dfdy hddfdydy res ey).bind fun res =>
        binaryLoop u dfdx dfdy hddfdxdx hddfdydy res tx ty
termination_by _ a b => a.length + b.length

/-- The body of the mixed-derivative loop of `binary` (uncertainties/ureal2.hpp:884-891). -/
def mixedStep (u : Moments R) (hddfdxdy : R) (res : HessGrad R) (px py : VId × Diag R) :
    Option (HessGrad R) :=
  let minid := min px.1 py.1
  let maxid := max px.1 py.1
  let addend := hddfdxdy * px.2.grad * py.2.grad
  if minid ≠ maxid then res.modTri minid maxid fun h => h + addend
  else some (res.modDiag u minid fun d => { d with hhess := d.hhess + Mom.lit 2 * addend })

/-- The mixed-derivative loops of `binary` (uncertainties/ureal2.hpp:876-893). -/
def mixedLoop (u : Moments R) (hddfdxdy : R) (res : HessGrad R) (x y : SMap VId (Diag R)) :
    Option (HessGrad R) :=
  x.foldlM (fun res px => y.foldlM (fun res py => mixedStep u hddfdxdy res px py) res) res

/-- `binary(x, y, fxy, dfdx, dfdy, ddfdxdx, ddfdydy, ddfdxdy)` (uncertainties/ureal2.hpp:816-897). -/
def binary (u : Moments R) (x y : UReal2 R) (fxy dfdx dfdy ddfdxdx ddfdydy ddfdxdy : R) :
    Option (UReal2 R) :=
  let hddfdxdx := ddfdxdx / Mom.lit 2
  let hddfdydy := ddfdydy / Mom.lit 2
  let hddfdxdy := ddfdxdy / Mom.lit 2
  (x.hg.hessEntries (CCmp.eqb hddfdxdx 0)).bind fun ex =>
  (y.hg.hessEntries (CCmp.eqb hddfdydy 0)).bind fun ey =>
  (binaryLoop u dfdx dfdy hddfdxdx hddfdydy HessGrad.empty ex ey).bind fun hg =>
  (if !CCmp.eqb hddfdxdy 0 then mixedLoop u hddfdxdy hg x.hg.diagmap y.hg.diagmap
   else some hg).map fun hg => ⟨hg, fxy⟩

/-- unary `operator-` (uncertainties/ureal2.hpp:993-996). -/
def neg (u : Moments R) (x : UReal2 R) : Option (UReal2 R) := unary u x (-x.mu) (-1) 0

/-- `operator+` (uncertainties/ureal2.hpp:998-1003). -/
def add (u : Moments R) (x y : UReal2 R) : Option (UReal2 R) := binary u x y (x.mu + y.mu) 1 1 0 0 0

/-- binary `operator-` (uncertainties/ureal2.hpp:1005-1010). -/
def sub (u : Moments R) (x y : UReal2 R) : Option (UReal2 R) :=
  binary u x y (x.mu - y.mu) 1 (-1) 0 0 0

/-- `operator*` (uncertainties/ureal2.hpp:1012-1020). -/
def mul (u : Moments R) (x y : UReal2 R) : Option (UReal2 R) :=
  let xn := x.mu
  let yn := y.mu
  binary u x y (xn * yn) yn xn 0 0 1

/-- `operator/` (uncertainties/ureal2.hpp:1022-1032). -/
def div (u : Moments R) (x y : UReal2 R) : Option (UReal2 R) :=
  let xn := x.mu
  let yn := y.mu
  let invy := 1 / yn
  let invy2 := invy * invy
  binary u x y (xn / yn) invy (-xn * invy2) 0 (Mom.lit 2 * xn * invy2 * invy) (-invy2)

/-- `all(x, p)` (uncertainties/ureal2.hpp:1034-1053). -/
def all (x : UReal2 R) (p : R → Bool) : Option Bool :=
  if !p x.mu then some false
  else if x.hg.diagmap.any fun it => !p it.2.grad || !p it.2.hhess then some false
  else (x.hg.triEntries true).map fun es => es.all fun e => p e.val

end deriv
end UReal2
end Unc
