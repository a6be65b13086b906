import Verif.Model.UReal

/-!
# Model of `uncertainties/stat.hpp`

Vectors are lists.  `std::size_t` is 64 bits: sizes and indices computed with `n * n`, `n * i + j` are reduced
modulo 2^64.  `none` is undefined behaviour (access out of bounds).
-/

namespace Unc
namespace Stat
variable {R : Type*}

/-- Unsigned 64-bit arithmetic wraps (type `Index`/`size_type`, uncertainties/stat.hpp:98,187). -/
def wrap64 (n : ℕ) : ℕ := n % 18446744073709551616

/-- `internal::outer(begin, end, matrix, op)`: the sequence of values written through the output iterator
(uncertainties/stat.hpp:84-94). -/
def outerSeq {α β : Type*} (x : List α) (op : α → α → β) : List β :=
  x.flatMap fun a => x.map fun b => op a b

/-- `internal::outer<OutVector>(x, op)` (uncertainties/stat.hpp:96-102): the buffer has `n * n` elements (wrapping);
writing beyond its end is undefined behaviour. -/
def outer {α β : Type*} (x : List α) (op : α → α → β) : Option (List β) :=
  if wrap64 (x.length * x.length) < (outerSeq x op).length then none else some (outerSeq x op)

/-- `cov_matrix(x)` (uncertainties/stat.hpp:130-136). -/
def covMatrix [Zero R] [Add R] [Mul R] (x : List (UReal R)) : Option (List R) := outer x UReal.cov

/-- `corr_matrix(x)` (uncertainties/stat.hpp:163-169). -/
def corrMatrix [Zero R] [Add R] [Mul R] [Div R] [CCmp R] [CSqrt R] (x : List (UReal R)) : Option (List R) :=
  outer x UReal.corr

/-- Assignment to an element of a vector, undefined behaviour out of bounds (`cov[...] = ...`, uncertainties/stat.hpp:199). -/
def setAt {α : Type*} (v : List α) (i : ℕ) (a : α) : Option (List α) :=
  if i < v.length then some (v.set i a) else none

/-- The body of the double loop of `corr2cov` (uncertainties/stat.hpp:199). -/
def corr2covBody [Mul R] (sigma corr : List R) (cov : List R) (i j : ℕ) : Option (List R) := do
  let si ← sigma[i]?
  let sj ← sigma[j]?
  let k := wrap64 (sigma.length * i + j)
  let c ← corr[k]?
  setAt cov k (si * sj * c)

/-- `corr2cov(sigma, corr)` (uncertainties/stat.hpp:186-203). -/
def corr2cov [Zero R] [Mul R] (sigma corr : List R) : Except Exn (Option (List R)) :=
  let n := sigma.length
  if corr.length ≠ wrap64 (n * n) then .error .invalidArgument
  else .ok ((List.range n).foldlM (fun cov i =>
    (List.range n).foldlM (fun cov j => corr2covBody sigma corr cov i j) cov)
    (List.replicate (wrap64 (n * n)) 0))

/-- `nom_vector(v)` (uncertainties/stat.hpp:213-220). -/
def nomVector (v : List (UReal R)) : List R := v.foldl (fun mu x => mu ++ [x.n]) []

end Stat
end Unc
