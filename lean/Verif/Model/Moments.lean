import Verif.Model.HessGrad

/-!
# Model of `uncertainties/internal/moments.hpp`

The addends are transcribed in order; `m += …` is a rebinding of the accumulator `m`.  Each loop is a
`foldl` of its body over the elements it visits.
-/

namespace Unc
namespace Mom
variable {R : Type*} [Zero R] [Add R] [Mul R] [NatCast R]

/-- An integer literal converted to `Real` (uncertainties/internal/moments.hpp:75 and following). -/
def lit (n : ℕ) : R := (n : R)

/-- `for (it = begin; it != end; ++it)` where the body also needs the elements after `it`, as in
`it2 = it; for (++it2; …)` (uncertainties/internal/moments.hpp:130-131, 143-144, 182-183, 293-294, 305-306,
430-431). -/
def forTails {α β : Type*} (f : β → α → List α → β) : β → List α → β
  | m, [] => m
  | m, a :: t => forTails f (f m a t) t

/-- `compute_m1` (uncertainties/internal/moments.hpp:41-51). -/
def m1 (hg : HessGrad R) : R :=
  hg.diagmap.foldl (fun m it =>
    let d := it.2
    let m := m + d.hhess
    m) 0

/-- `compute_m2`, body of cycle A (uncertainties/internal/moments.hpp:72-77). -/
def m2A (m : R) (d : Diag R) : R :=
  let m := m + d.grad * d.grad
  let m := m + lit 2 * d.grad * d.hhess * d.mom.v3
  let m := m + d.hhess * d.hhess * d.mom.v4
  m

/-- `compute_m2`, body of cycle B (uncertainties/internal/moments.hpp:81-86). -/
def m2B (m : R) (e : Ent R) : R :=
  let d1 := e.d1
  let d2 := e.d2
  let hhess := e.val
  let m := m + lit 2 * (d1.hhess * d2.hhess + lit 2 * hhess * hhess)
  m

/-- `compute_m2` (uncertainties/internal/moments.hpp:54-89). -/
def m2 (hg : HessGrad R) : Option R :=
  (hg.triEntries false).map fun es =>
    es.foldl m2B (hg.diagmap.foldl (fun m it => m2A m it.2) 0)

/-- `compute_m3`, cycle A without the inner loops (uncertainties/internal/moments.hpp:121-127). -/
def m3A (m : R) (d : Diag R) : R :=
  let grad := d.grad
  let hhess := d.hhess
  let mom := d.mom
  let m := m + grad * grad * grad * mom.v3
  let m := m + lit 3 * grad * grad * hhess * mom.v4
  let m := m + lit 3 * grad * hhess * hhess * mom.v5
  let m := m + hhess * hhess * hhess * mom.v6
  m

/-- `compute_m3`, cycle B without the inner loop (uncertainties/internal/moments.hpp:132-140). -/
def m3B (m : R) (d d' : Diag R) : R :=
  let grad := d.grad
  let hhess := d.hhess
  let mom := d.mom
  let grad2 := d'.grad
  let hhess2 := d'.hhess
  let mom2 := d'.mom
  let m := m + lit 3 * grad2 * grad2 * hhess
  let m := m + lit 3 * grad * grad * hhess2
  let m := m + lit 6 * grad * hhess * hhess2 * mom.v3
  let m := m + lit 6 * grad2 * hhess2 * hhess * mom2.v3
  let m := m + lit 3 * hhess * hhess * hhess2 * mom.v4
  let m := m + lit 3 * hhess2 * hhess2 * hhess * mom2.v4
  m

/-- `compute_m3`, cycle C (uncertainties/internal/moments.hpp:145-147). -/
def m3C (m : R) (d d' d'' : Diag R) : R :=
  let hhess := d.hhess
  let hhess2 := d'.hhess
  let hhess3 := d''.hhess
  let m := m + lit 6 * hhess * hhess2 * hhess3
  m

/-- `compute_m3`, cycle F (uncertainties/internal/moments.hpp:157-163). -/
def m3F (m : R) (it : VId × Diag R) (it2 : Ent R) : R :=
  let hhess := it.2.hhess
  if it2.id1 = it.1 ∨ it2.id2 = it.1 then m
  else
  let hhess2 := it2.val
  let m := m + lit (2 * 6) * hhess * hhess2 * hhess2
  m

/-- `compute_m3`, cycle D without the inner loop (uncertainties/internal/moments.hpp:168-179). -/
def m3D (m : R) (it : Ent R) : R :=
  let d1 := it.d1
  let d2 := it.d2
  let hhess := it.val
  let m := m + lit (2 * 6) * d1.grad * d2.grad * hhess
  let m := m + lit 12 * d2.grad * d1.hhess * hhess * d1.mom.v3
  let m := m + lit 12 * d1.grad * d2.hhess * hhess * d2.mom.v3
  let m := m + lit 12 * d1.grad * hhess * hhess * d1.mom.v3
  let m := m + lit 12 * d2.grad * hhess * hhess * d2.mom.v3
  let m := m + lit 12 * d1.hhess * hhess * hhess * d1.mom.v4
  let m := m + lit 12 * d2.hhess * hhess * hhess * d2.mom.v4
  let m := m + lit (2 * 4) * hhess * hhess * hhess * d1.mom.v3 * d2.mom.v3
  let m := m + lit (2 * 6) * d1.hhess * hhess * d2.hhess * d1.mom.v3 * d2.mom.v3
  m

/-- `compute_m3`, cycle E (uncertainties/internal/moments.hpp:183-190). -/
def m3E (hg : HessGrad R) (m : R) (it it2 : Ent R) : Option R :=
  let hhess := it.val
  let hhess2 := it2.val
  (hg.triGet it.id2 it2.id2).map fun hhess3 =>
  let m := m + lit (6 * 8) * hhess * hhess2 * hhess3
  m

/-- `compute_m3` (uncertainties/internal/moments.hpp:92-194). -/
def m3 (hg : HessGrad R) : Option R :=
  (hg.triEntries true).bind fun es =>
    let m := forTails (fun m it rest =>
        let m := m3A m it.2
        let m := forTails (fun m it2 rest2 =>
            let m := m3B m it.2 it2.2
            rest2.foldl (fun m it3 => m3C m it.2 it2.2 it3.2) m) m rest
        es.foldl (fun m it2 => m3F m it it2) m) 0 hg.diagmap
    forTails (fun m it rest =>
        m.bind fun m =>
          (rest.takeWhile fun it2 => decide (it2.id1 = it.id1)).foldlM
            (fun m it2 => m3E hg m it it2) (m3D m it)) (some m) es

/-- `compute_m4`, cycle A without the inner loops (uncertainties/internal/moments.hpp:267-272). -/
def m4A (m : R) (d : Diag R) : R :=
  let m := m + d.grad * d.grad * d.grad * d.grad * d.mom.v4
  let m := m + lit 4 * d.grad * d.grad * d.grad * d.hhess * d.mom.v5
  let m := m + lit 6 * d.grad * d.grad * d.hhess * d.hhess * d.mom.v6
  let m := m + lit 4 * d.grad * d.hhess * d.hhess * d.hhess * d.mom.v7
  let m := m + d.hhess * d.hhess * d.hhess * d.hhess * d.mom.v8
  m

/-- `compute_m4`, cycle B without the inner loop (uncertainties/internal/moments.hpp:279-290). -/
def m4B (m : R) (d d2 : Diag R) : R :=
  let m := m + lit 3 * d.grad * d.grad * d2.grad * d2.grad
  let m := m + lit 12 * d.grad * d2.grad * d2.grad * d.hhess * d.mom.v3
  let m := m + lit 4 * d.grad * d.grad * d.grad * d2.hhess * d.mom.v3
  let m := m + lit 6 * d2.grad * d2.grad * d.hhess * d.hhess * d.mom.v4
  let m := m + lit 12 * d.grad * d.grad * d.hhess * d2.hhess * d.mom.v4
  let m := m + lit 12 * d.grad * d2.grad * d.hhess * d2.hhess * d.mom.v3 * d2.mom.v3
  let m := m + lit 12 * d.grad * d.hhess * d.hhess * d2.hhess * d.mom.v5
  let m := m + lit 12 * d2.grad * d.hhess * d.hhess * d2.hhess * d.mom.v4 * d2.mom.v3
  let m := m + lit 4 * d.hhess * d.hhess * d.hhess * d2.hhess * d.mom.v6
  let m := m + lit 3 * d.hhess * d.hhess * d2.hhess * d2.hhess * d.mom.v4 * d2.mom.v4
  m

/-- `compute_m4`, cycle C without the inner loop (uncertainties/internal/moments.hpp:298-302). -/
def m4C (m : R) (d d2 d3 : Diag R) : R :=
  let m := m + lit 6 * d3.grad * d3.grad * d.hhess * d2.hhess
  let m := m + lit 6 * d2.grad * d2.grad * d.hhess * d3.hhess
  let m := m + lit (2 * 12) * d.grad * d.hhess * d2.hhess * d3.hhess * d.mom.v3
  let m := m + lit (2 * 6) * d.hhess * d.hhess * d2.hhess * d3.hhess * d.mom.v4
  m

/-- `compute_m4`, cycle D (uncertainties/internal/moments.hpp:310-311). -/
def m4D (m : R) (d d2 d3 d4 : Diag R) : R :=
  let m := m + lit (2 * 3) * d.hhess * d2.hhess * d3.hhess * d4.hhess
  m

/-- `compute_m4`, cycle F (uncertainties/internal/moments.hpp:317-337). -/
def m4F (m : R) (it : VId × Diag R) (it2 : Ent R) : R :=
  if it.1 = it2.id1 ∨ it.1 = it2.id2 then m
  else
  let d := it.2
  let dt1 := it2.d1
  let dt2 := it2.d2
  let hhess := it2.val
  let m := m + lit (2 * 24) * dt1.grad * dt2.grad * d.hhess * hhess
  let m := m + lit (2 * 12) * d.grad * d.grad * hhess * hhess
  let m := m + lit 48 * dt2.grad * dt1.hhess * hhess * d.hhess * dt1.mom.v3
  let m := m + lit 48 * dt1.grad * dt2.hhess * hhess * d.hhess * dt2.mom.v3
  let m := m + lit 48 * dt1.grad * hhess * hhess * d.hhess * dt1.mom.v3
  let m := m + lit 48 * dt2.grad * hhess * hhess * d.hhess * dt2.mom.v3
  let m := m + lit (2 * 24) * d.grad * d.hhess * hhess * hhess * d.mom.v3
  let m := m + lit 48 * dt1.hhess * hhess * hhess * d.hhess * dt1.mom.v4
  let m := m + lit 48 * dt2.hhess * hhess * hhess * d.hhess * dt2.mom.v4
  let m := m + lit (2 * 12) * d.hhess * d.hhess * hhess * hhess * d.mom.v4
  let m := m + lit (2 * 16) * hhess * hhess * hhess * d.hhess * dt1.mom.v3 * dt2.mom.v3
  let m := m + lit (2 * 24) * dt1.hhess * hhess * dt2.hhess * d.hhess * dt1.mom.v3 * dt2.mom.v3
  m

/-- `compute_m4`, cycle E without the inner loops (uncertainties/internal/moments.hpp:342-372). -/
def m4E (m : R) (it : Ent R) : R :=
  let d1 := it.d1
  let d2 := it.d2
  let hhess := it.val
  let m := m + lit 24 * d1.grad * d1.grad * d2.grad * hhess * d1.mom.v3
  let m := m + lit 24 * d2.grad * d2.grad * d1.grad * hhess * d2.mom.v3
  let m := m + lit 48 * d1.grad * d2.grad * d1.hhess * hhess * d1.mom.v4
  let m := m + lit 48 * d2.grad * d1.grad * d2.hhess * hhess * d2.mom.v4
  let m := m + lit 24 * d1.grad * d1.grad * hhess * hhess * d1.mom.v4
  let m := m + lit 24 * d2.grad * d2.grad * hhess * hhess * d2.mom.v4
  let m := m + lit 24 * d1.grad * d1.grad * d2.hhess * hhess * d1.mom.v3 * d2.mom.v3
  let m := m + lit 24 * d2.grad * d2.grad * d1.hhess * hhess * d2.mom.v3 * d1.mom.v3
  let m := m + lit (2 * 24) * d1.grad * d2.grad * hhess * hhess * d1.mom.v3 * d2.mom.v3
  let m := m + lit 24 * d2.grad * d1.hhess * d1.hhess * hhess * d1.mom.v5
  let m := m + lit 24 * d1.grad * d2.hhess * d2.hhess * hhess * d2.mom.v5
  let m := m + lit 48 * d1.grad * d1.hhess * hhess * hhess * d1.mom.v5
  let m := m + lit 48 * d2.grad * d2.hhess * hhess * hhess * d2.mom.v5
  let m := m + lit 48 * d2.grad * d1.hhess * hhess * hhess * d1.mom.v4 * d2.mom.v3
  let m := m + lit 48 * d1.grad * d2.hhess * hhess * hhess * d2.mom.v4 * d1.mom.v3
  let m := m + lit 32 * d1.grad * hhess * hhess * hhess * d1.mom.v4 * d2.mom.v3
  let m := m + lit 32 * d2.grad * hhess * hhess * hhess * d2.mom.v4 * d1.mom.v3
  let m := m + lit 48 * d1.grad * d1.hhess * hhess * d2.hhess * d1.mom.v4 * d2.mom.v3
  let m := m + lit 48 * d2.grad * d2.hhess * hhess * d1.hhess * d2.mom.v4 * d1.mom.v3
  let m := m + lit 24 * d1.hhess * d1.hhess * hhess * hhess * d1.mom.v6
  let m := m + lit 24 * d2.hhess * d2.hhess * hhess * hhess * d2.mom.v6
  let m := m + lit 32 * d1.hhess * hhess * hhess * hhess * d1.mom.v5 * d2.mom.v3
  let m := m + lit 32 * d2.hhess * hhess * hhess * hhess * d2.mom.v5 * d1.mom.v3
  let m := m + lit 24 * d1.hhess * d1.hhess * hhess * d2.hhess * d1.mom.v5 * d2.mom.v3
  let m := m + lit 24 * d2.hhess * d2.hhess * hhess * d1.hhess * d2.mom.v5 * d1.mom.v3
  let m := m + lit (2 * 8) * hhess * hhess * hhess * hhess * d1.mom.v4 * d2.mom.v4
  let m := m + lit (2 * 24) * d1.hhess * hhess * hhess * d2.hhess * d1.mom.v4 * d2.mom.v4
  m

/-- `compute_m4`, cycle G, block `if (hhess2_p)` (uncertainties/internal/moments.hpp:379-391). -/
def m4G2 (m : R) (it : Ent R) (d : Diag R) (hhess2 : R) : R :=
  let d1 := it.d1
  let d2 := it.d2
  let hhess := it.val
  let m := m + lit 48 * d2.grad * d.grad * hhess * hhess2
  let m := m + lit 96 * d2.grad * hhess * hhess2 * hhess2 * d1.mom.v3
  let m := m + lit 96 * d.grad * d2.hhess * hhess * hhess2 * d2.mom.v3
  let m := m + lit 48 * hhess * hhess * hhess2 * hhess2 * d1.mom.v4
  let m := m + lit 48 * d2.hhess * hhess * d.hhess * hhess2 * d2.mom.v3 * d.mom.v3
  let m := m + lit 96 * d2.hhess * hhess * hhess2 * hhess2 * d2.mom.v3 * d1.mom.v3
  m

/-- `compute_m4`, cycle G, block `if (hhess3_p)` (uncertainties/internal/moments.hpp:393-403). -/
def m4G3 (m : R) (it : Ent R) (d : Diag R) (hhess3 : R) : R :=
  let d1 := it.d1
  let d2 := it.d2
  let hhess := it.val
  let m := m + lit 48 * d1.grad * d.grad * hhess * hhess3
  let m := m + lit 96 * d1.grad * hhess * hhess3 * hhess3 * d2.mom.v3
  let m := m + lit 96 * d.grad * d1.hhess * hhess * hhess3 * d1.mom.v3
  let m := m + lit 48 * hhess * hhess * hhess3 * hhess3 * d2.mom.v4
  let m := m + lit 48 * d1.hhess * hhess * d.hhess * hhess3 * d1.mom.v3 * d.mom.v3
  let m := m + lit 96 * d1.hhess * hhess * hhess3 * hhess3 * d1.mom.v3 * d2.mom.v3
  m

/-- `compute_m4`, pseudo-cycle H without the inner loop (uncertainties/internal/moments.hpp:406-415). -/
def m4H (m : R) (it : Ent R) (hhess2 hhess3 : R) : R :=
  let d1 := it.d1
  let d2 := it.d2
  let hhess := it.val
  let m := m + lit 96 * d1.grad * hhess * hhess2 * hhess3 * d1.mom.v3
  let m := m + lit 96 * d2.grad * hhess * hhess3 * hhess2 * d2.mom.v3
  let m := m + lit 96 * d1.hhess * hhess * hhess2 * hhess3 * d1.mom.v4
  let m := m + lit 96 * d2.hhess * hhess * hhess3 * hhess2 * d2.mom.v4
  let m := m + lit 96 * hhess * hhess * hhess2 * hhess3 * d1.mom.v3 * d2.mom.v3
  let m := m + lit 96 * hhess * hhess * hhess3 * hhess2 * d2.mom.v3 * d1.mom.v3
  m

/-- `compute_m4`, cycle J (uncertainties/internal/moments.hpp:418-426). -/
def m4J (m : R) (it : Ent R) (k : VId) (hhess2 hhess3 : R) (it3 : VId × Diag R) : R :=
  let hhess := it.val
  if it3.1 = it.id1 ∨ it3.1 = it.id2 ∨ it3.1 = k then m
  else
  let d3 := it3.2
  let m := m + lit (2 * 32) * d3.hhess * hhess * hhess2 * hhess3
  m

/-- `compute_m4`, cycle L (uncertainties/internal/moments.hpp:430-439). -/
def m4L (m : R) (it : Ent R) (d : Diag R) (it3 : VId × Diag R) : R :=
  let hhess := it.val
  if it3.1 = it.id1 ∨ it3.1 = it.id2 then m
  else
  let d3 := it3.2
  let m := m + lit (2 * 2 * 12) * d.hhess * d3.hhess * hhess * hhess
  m

/-- `compute_m4`, the body of cycle G (uncertainties/internal/moments.hpp:375-440); `rest` are the
elements after `it2`. -/
def m4G (hg : HessGrad R) (m : R) (it : Ent R) (it2 : VId × Diag R)
    (rest : SMap VId (Diag R)) : R :=
  if it2.1 = it.id1 ∨ it2.1 = it.id2 then m
  else
  let d := it2.2
  let p2 := hg.triFind it.id1 it2.1
  let m := match p2 with
    | some hhess2 => m4G2 m it d hhess2
    | none => m
  let p3 := hg.triFind it.id2 it2.1
  let m := match p3 with
    | some hhess3 => m4G3 m it d hhess3
    | none => m
  let m := match p2, p3 with
    | some hhess2, some hhess3 =>
      hg.diagmap.foldl (fun m it3 => m4J m it it2.1 hhess2 hhess3 it3) (m4H m it hhess2 hhess3)
    | _, _ => m
  rest.foldl (fun m it3 => m4L m it d it3) m

/-- `compute_m4`, cycles I and K (uncertainties/internal/moments.hpp:445-471). -/
def m4I (hg : HessGrad R) (m : R) (it it2 : Ent R) : R :=
  if it.id1 = it2.id1 ∨ it.id1 = it2.id2 ∨ it.id2 = it2.id1 ∨ it.id2 = it2.id2 then m
  else
  let Hij := it.val
  let Hkl := it2.val
  let m := match hg.triFind it.id1 it2.id1 with
    | some Hik =>
      match hg.triFind it.id2 it2.id2 with
      | some Hjl =>
        let m := m + lit (2 * 48) * Hij * Hik * Hjl * Hkl
        m
      | none => m
    | none => m
  let m := match hg.triFind it.id1 it2.id2 with
    | some Hil =>
      match hg.triFind it.id2 it2.id1 with
      | some Hjk =>
        let m := m + lit (2 * 48) * Hij * Hjk * Hil * Hkl
        m
      | none => m
    | none => m
  let m := m + lit (2 * 2 * 12) * Hij * Hij * Hkl * Hkl
  m

/-- `compute_m4` (uncertainties/internal/moments.hpp:197-475). -/
def m4 (hg : HessGrad R) : Option R :=
  (hg.triEntries true).map fun es =>
    let m := hg.diagmap.foldl (fun m it =>
        let m := m4A m it.2
        let m := forTails (fun m it2 rest2 =>
            if it.1 = it2.1 then m
            else
            let m := m4B m it.2 it2.2
            forTails (fun m it3 rest3 =>
                if it.1 = it3.1 then m
                else
                let m := m4C m it.2 it2.2 it3.2
                rest3.foldl (fun m it4 =>
                  if it.1 = it4.1 then m
                  else m4D m it.2 it2.2 it3.2 it4.2) m) m rest2) m hg.diagmap
        es.foldl (fun m it2 => m4F m it it2) m) 0
    es.foldl (fun m it =>
        let m := m4E m it
        let m := forTails (fun m it2 rest => m4G hg m it it2 rest) m hg.diagmap
        es.foldl (fun m it2 => m4I hg m it it2) m) m

/-- `compute_mom(hg, n)` (uncertainties/internal/moments.hpp:478-492); `none` is the failed assertion
`n >= 1 and n <= 4`. -/
def compute (hg : HessGrad R) : ℕ → Option R
  | 1 => some (m1 hg)
  | 2 => m2 hg
  | 3 => m3 hg
  | 4 => m4 hg
  | _ => none

/-- `compute_c2`, cycle A (uncertainties/internal/moments.hpp:519-532). -/
def c2A : R → SMap VId (Diag R) → SMap VId (Diag R) → R
  | m, (ida, da) :: ta, (idb, db) :: tb =>
    if ida < idb then c2A m ta ((idb, db) :: tb)
    else if idb < ida then c2A m ((ida, da) :: ta) tb
    else
      let m := m + da.grad * db.grad
      let m := m + da.hhess * db.grad * da.mom.v3
      let m := m + da.grad * db.hhess * da.mom.v3
      let m := m + da.hhess * db.hhess * da.mom.v4
      c2A m ta tb
  | m, _, _ => m
termination_by _ a b => a.length + b.length

/-- `compute_c2`, cycle B (uncertainties/internal/moments.hpp:539-547); `id()` asserts `id1() < id2()`
(uncertainties/internal/hessgrad.hpp:372-375), which `none` stands for. -/
def c2B : R → List (Ent R) → List (Ent R) → Option R
  | m, ta :: la, tb :: lb =>
    if ¬ ta.id1 < ta.id2 ∨ ¬ tb.id1 < tb.id2 then none
    else
    let ida : IdPair := toLex (ta.id1, ta.id2)
    let idb : IdPair := toLex (tb.id1, tb.id2)
    if ida < idb then c2B m la (tb :: lb)
    else if idb < ida then c2B m (ta :: la) lb
    else
      let m := m + lit (2 * 2) * ta.val * tb.val
      c2B m la lb
  | m, _, _ => some m
termination_by _ a b => a.length + b.length

/-- `compute_c2`, cycle C (uncertainties/internal/moments.hpp:552-560). -/
def c2C (m : R) (a b : SMap VId (Diag R)) : R :=
  a.foldl (fun m ita => b.foldl (fun m itb =>
    if ita.1 ≠ itb.1 then
      let da := ita.2
      let db := itb.2
      let m := m + da.hhess * db.hhess
      m
    else m) m) m

/-- `compute_c2` (uncertainties/internal/moments.hpp:495-563).  In cycle B the two iterators are advanced
only until one ends; here each entry list is computed to its end first (the theorems show that this
computation succeeds). -/
def c2 (a b : HessGrad R) : Option R :=
  (a.triEntries true).bind fun ea => (b.triEntries true).bind fun eb =>
    (c2B (c2A 0 a.diagmap b.diagmap) ea eb).map fun m => c2C m a.diagmap b.diagmap

end Mom
end Unc
