import Verif.Model.UReal2

/-!
# Model of `uncertainties/internal/checkmoments.hpp` and of the constructors of `UReal2`

The eigenvalue solver of Eigen is a parameter `solve`: it gets the matrix written by `check_moments`
and returns the eigenvalues, or `none` if `info() != Success`.  The part of the matrix that
`check_moments` does not write is the parameter `junk`.  An outer `none` is a failed assert.
-/

namespace Unc
namespace Check
variable {R : Type*} [Zero R] [One R] [Neg R] [Div R] [NatCast R] [CCmp R]

/-- One iteration of the loop over the eigenvalues in `hamburger`; the state is `(max_nonneg, max_neg)`
(uncertainties/internal/checkmoments.hpp:67-74). -/
def eigStep (st : R × R) (a : R) : R × R :=
  if CCmp.ltb a 0 && CCmp.ltb a st.2 then (st.1, a)
  else if CCmp.leb 0 a && CCmp.ltb st.1 a then (a, st.2)
  else st

/-- `hamburger(M)` (uncertainties/internal/checkmoments.hpp:55-84) as a function of the result of the
eigenvalue solver. -/
def hamburger (eig : Option (List R)) : Except Exn R :=
  match eig with
  | none => .error .runtimeError
  | some v =>
    let st := v.foldl eigStep (-1, 1)
    if CCmp.ltb st.1 0 then .ok 1
    else if CCmp.ltb 0 st.2 then .ok 0
    else .ok (st.2 / st.1)

/-- The matrix filled by `check_moments` (uncertainties/internal/checkmoments.hpp:94-104); `offset` is
`n - 6`, `moments` the array.  Only the lower triangle is written; `junk` is the content of the rest. -/
def hkMatrix (offset : ℤ) (moments : ℕ → R) (junk : ℕ → ℕ → R) (i j : ℕ) : R :=
  if j ≤ i then
    let idx : ℤ := (i : ℤ) + (j : ℤ) - 3 + offset
    if 0 ≤ idx then moments idx.toNat else (((idx + offset).tmod 2).natAbs : R)
  else junk i j

/-- `check_moments_throw(moments, threshold)` (uncertainties/internal/checkmoments.hpp:114-154);
`none` is the failed `assert(threshold >= 0)`. -/
def checkThrow (solve : (ℕ → ℕ → R) → Option (List R)) (junk : ℕ → ℕ → R) (offset : ℤ)
    (moments : ℕ → R) (threshold : R) : Option (Except Exn Unit) :=
  if !CCmp.leb 0 threshold then none
  else
    match hamburger (solve (hkMatrix offset moments junk)) with
    | .error e => some (.error e)
    | .ok cond =>
      if CCmp.ltb cond (-threshold) || CCmp.ltb 0 cond then some (.error .invalidArgument)
      else some (.ok ())

/-- The check at the beginning of both constructors: `if (not (threshold < 0)) check_moments_throw(…)`
(uncertainties/ureal2.hpp:523-525, 559-561). -/
def ctorCheck (solve : (ℕ → ℕ → R) → Option (List R)) (junk : ℕ → ℕ → R) (offset : ℤ)
    (moments : ℕ → R) (threshold : R) : Option (Except Exn Unit) :=
  if !CCmp.ltb threshold 0 then checkThrow solve junk offset moments threshold else some (.ok ())

end Check

namespace UReal2
variable {R : Type*} [Zero R] [One R] [Neg R] [Mul R] [Div R] [NatCast R] [CCmp R] [CSqrt R]

/-- Six standardized moments from an array (uncertainties/internal/hessgrad.hpp:53-56, 85-87). -/
def momOfArray (a : ℕ → R) : Moments R := ⟨a 0, a 1, a 2, a 3, a 4, a 5⟩

/-- The standardized moments computed from central moments 2 to 8 in `moments`, with
`grad = sqrt(moments[0])` (uncertainties/ureal2.hpp:533-536). -/
def stdMoments (grad : R) (moments : ℕ → R) : Moments R :=
  let sn0 := moments 0
  let sn1 := sn0 * grad
  let sn2 := sn1 * grad
  let sn3 := sn2 * grad
  let sn4 := sn3 * grad
  let sn5 := sn4 * grad
  let sn6 := sn5 * grad
  ⟨moments 1 / sn1, moments 2 / sn2, moments 3 / sn3, moments 4 / sn4, moments 5 / sn5, moments 6 / sn6⟩

/-- Body of `UReal2(n, moments, threshold)` after the check, `moments` being central moments 2 to 8
(uncertainties/ureal2.hpp:526-540). -/
def buildCentral (u : Moments R) (id : VId) (n : R) (moments : ℕ → R) : UReal2 R :=
  let hg := HessGrad.empty.modDiag u id fun d =>
    let d := { d with grad := CSqrt.sqrt (moments 0) }
    let d := { d with hhess := 0 }
    if CCmp.ltb 0 d.grad then { d with mom := stdMoments d.grad moments }
    else { d with mom := ⟨0, 0, 0, 0, 0, 0⟩ }
  ⟨hg, n⟩

/-- `UReal2(n, moments, threshold)` (uncertainties/ureal2.hpp:519-540); `id` is the new id, which is
taken only if the check passes. -/
def mkCentral (solve : (ℕ → ℕ → R) → Option (List R)) (junk : ℕ → ℕ → R) (u : Moments R)
    (id : VId) (n : R) (moments : ℕ → R) (threshold : R) : Option (Except Exn (UReal2 R)) :=
  (Check.ctorCheck solve junk 1 moments threshold).map fun r => r.map fun _ => buildCentral u id n moments

/-- Body of `UReal2(n, s, std_moments, threshold)` after the checks
(uncertainties/ureal2.hpp:562-566). -/
def buildStd (u : Moments R) (id : VId) (n s : R) (moments : ℕ → R) : UReal2 R :=
  ⟨HessGrad.empty.modDiag u id fun d => { d with grad := s, hhess := 0, mom := momOfArray moments }, n⟩

/-- `UReal2(n, s, std_moments, threshold)` (uncertainties/ureal2.hpp:550-567). -/
def mkStd (solve : (ℕ → ℕ → R) → Option (List R)) (junk : ℕ → ℕ → R) (u : Moments R)
    (id : VId) (n s : R) (moments : ℕ → R) (threshold : R) : Option (Except Exn (UReal2 R)) :=
  if CCmp.ltb s 0 then some (.error .invalidArgument)
  else (Check.ctorCheck solve junk 0 moments threshold).map fun r => r.map fun _ => buildStd u id n s moments

end UReal2
end Unc
