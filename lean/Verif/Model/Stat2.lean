import Verif.Model.Stat
import Verif.Model.UReal2

/-!
# Model of `uncertainties/stat.hpp` applied to second-order values

The templates are the same as for first-order values; `cov`, `corr`, `nom` of the elements can fail (`none`), in which case the
whole call fails.
-/

namespace Unc
namespace Stat
variable {R : Type*}

/-- All the elements, or failure (not in the sources: the elements are computed while `outer` runs, and an assertion failure in
one of them stops the program). -/
def allOf {α : Type*} : List (Option α) → Option (List α)
  | [] => some []
  | a :: t => a.bind fun a => (allOf t).map (a :: ·)

/-- `cov_matrix(x)` with elements of type `UReal2` (uncertainties/stat.hpp:130-136, uncertainties/ureal2.hpp:711-713). -/
def covMatrix2 [Zero R] [Add R] [Sub R] [Mul R] [NatCast R] (x : List (UReal2 R)) : Option (List R) := (outer x UReal2.cov).bind allOf

/-- `corr_matrix(x)` with elements of type `UReal2` (uncertainties/stat.hpp:163-169,
uncertainties/ureal2.hpp:718-720). -/
def corrMatrix2 [Zero R] [Add R] [Sub R] [Mul R] [NatCast R] [Div R] [CSqrt R] (x : List (UReal2 R)) : Option (List R) := (outer x UReal2.corr).bind allOf

/-- `nom_vector(v)` with elements of type `UReal2<prop, Real>` (uncertainties/stat.hpp:213-220,
uncertainties/ureal2.hpp:1072-1074). -/
def nomVector2 [Zero R] [Add R] [Sub R] [Mul R] [NatCast R] [Neg R] (p : PropMode) (v : List (UReal2 R)) : Option (List R) :=
  v.foldl (fun mu x => mu.bind fun mu => (x.n p).map fun n => mu ++ [n]) (some [])

end Stat
end Unc
