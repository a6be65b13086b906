import Verif.Model.World

/-!
# Model of `uncertainties/ureals.hpp`

`Eigen::LDLT` is an external library: its result is an argument of the model (`Ldlt`), its documented contract
is stated separately in `Verif/Spec/Ldlt.lean`.  Output type: `UReal`.
-/

namespace Unc
namespace UReals
variable {R : Type*}

/-- What `Eigen::LDLT<Matrix>` gives back (members used at uncertainties/ureals.hpp:98-128). -/
structure Ldlt (n : ℕ) (R : Type*) where
  /-- `info() == Eigen::Success` -/
  success : Bool
  /-- `isPositive()` -/
  isPositive : Bool
  /-- `matrixL()` -/
  L : Fin n → Fin n → R
  /-- `vectorD()` -/
  D : Fin n → R
  /-- `transpositionsP().indices()` -/
  perm : Fin n → Fin n

/-- The size check (uncertainties/ureals.hpp:76). -/
def badSizes (n sz : ℕ) : Bool :=
  if n ≠ 0 then decide (sz % n ≠ 0) || decide (sz / n ≠ n) else decide (sz ≠ 0)

/-- The matrix given to Eigen: only the lower triangle is written, element `(i, j)`, `i ≥ j`, is `cov[i + n * j]`
(uncertainties/ureals.hpp:90-97).  The rest is uninitialised, here the argument `junk`. -/
def fillV {n : ℕ} (cov : ℕ → R) (junk : Fin n → Fin n → R) : Fin n → Fin n → R := fun i j =>
  if j ≤ i then cov (i + n * j) else junk i j

/-- The variables `x` (uncertainties/ureals.hpp:113-119): one construction each, starting from the value `last` of the
counter; `none` if the assert on line 116 fails.  The constructor cannot throw as the square root is not negative in exact
arithmetic; the exception branch is kept. -/
def mkX {n : ℕ} [Zero R] [CCmp R] [CSqrt R] (last : ℤ) (D : Fin n → R) : Option (Except Exn (Fin n → UReal R)) :=
  if ∀ i, CCmp.leb 0 (D i) = true then
    if ∀ i, CCmp.ltb (CSqrt.sqrt (D i)) 0 = false then
      some (.ok fun i => ⟨nextId^[i + 1] last, CSqrt.sqrt (D i), 0, []⟩)
    else some (.error .invalidArgument)
  else none

/-- One element of `out` before permutation (uncertainties/ureals.hpp:122-126): `y` starts as `UReal()`;
`y += L(i, j) * x[j]` for `j < i`, the number being converted to `UReal`; `y += x[i]`. -/
def mkOut {n : ℕ} [Zero R] [One R] [Neg R] [Add R] [Mul R] [CCmp R] (L : Fin n → Fin n → R) (x : Fin n → UReal R)
    (i : Fin n) : Option (UReal R) := do
  let y ← ((List.finRange n).filter (· < i)).foldlM
    (fun y j => (UReal.mul (UReal.const (L i j)) (x j)).map (UReal.addAssign y)) UReal.default'
  return UReal.addAssign y (x i)

/-- `swap(out[a], out[b])` (uncertainties/ureals.hpp:131). -/
def swapAt {α : Type*} {n : ℕ} (out : Fin n → α) (a b : Fin n) : Fin n → α := fun k =>
  if k = a then out b else if k = b then out a else out k

/-- The permutation loop, from the last index to the first (uncertainties/ureals.hpp:129-132). -/
def permute {α : Type*} {n : ℕ} (perm : Fin n → Fin n) (out : Fin n → α) : Fin n → α :=
  (List.finRange n).reverse.foldl (fun out i => swapAt out i (perm i)) out

/-- `ureals(mu, cov)` (uncertainties/ureals.hpp:71-137).  `n = mu.size()`, `sz = cov.size()`; `last` is the value of the id
counter; `eigen` is the decomposition routine.  Result: exception, or undefined behaviour/failed assert (`none`), or vector. -/
def ureals [Zero R] [One R] [Neg R] [Add R] [Mul R] [CCmp R] [CSqrt R] (last : ℤ) (n : ℕ) (mu : Fin n → R) (sz : ℕ)
    (cov : ℕ → R) (junk : Fin n → Fin n → R) (eigen : (Fin n → Fin n → R) → Ldlt n R) : Except Exn (Option (Fin n → UReal R)) :=
  if badSizes n sz then .error .invalidArgument
  else if n = 0 then .ok (some fun _ => UReal.default')
  else
    let ldlt := eigen (fillV cov junk)
    if ldlt.success = false then .error .runtimeError
    else if ldlt.isPositive = false then .error .runtimeError
    else match mkX last ldlt.D with
      | none => .ok none
      | some (.error e) => .error e
      | some (.ok x) =>
        if h : ∀ i, (mkOut ldlt.L x i).isSome then
          let out : Fin n → UReal R := fun i => (mkOut ldlt.L x i).get (h i)
          let out := permute ldlt.perm out
          .ok (some fun i => UReal.addAssign (out i) (UReal.const (mu i)))
        else .ok none

end UReals
end Unc
