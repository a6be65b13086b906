import Mathlib.Order.Defs.LinearOrder
import Mathlib.Data.Finset.Basic
import Mathlib.Data.List.Pairwise
import Mathlib.Tactic.SplitIfs

/-!
# `std::map` as a strictly sorted association list

A constant iterator into a map that is not modified while iterating is a suffix of the list; the
past-the-end iterator is `[]`; `++it` is `tail`.
-/

namespace Unc

/-- Model of `std::map<K, V>` (used in uncertainties/ureal.hpp:294 and
uncertainties/internal/hessgrad.hpp:121-124): the list of key-value pairs in iteration order.
The representation invariant is `SMap.Sorted`. -/
abbrev SMap (K V : Type*) := List (K × V)

namespace SMap
variable {K V W : Type*}

/-- The keys in iteration order (model of iterating over a `std::map`,
e.g. uncertainties/ureal.hpp:328). -/
def keys (m : SMap K V) : List K := m.map Prod.fst

/-- The representation invariant of `std::map`: keys strictly increasing
(iteration order of `std::map`, relied upon in uncertainties/ureal.hpp:525-531, 675-692). -/
def Sorted [LT K] (m : SMap K V) : Prop := m.keys.Pairwise (· < ·)

/-- `m.find(k)`: the value stored at `k`, `none` for `m.end()`
(uncertainties/ureal.hpp:503,508,585). -/
def find? [DecidableEq K] : SMap K V → K → Option V
  | [], _ => none
  | (k', v) :: t, k => if k' = k then some v else find? t k

/-- `V &r = m[k]; r = f(r);` : `operator[]` inserts a value-initialised element (`dflt`) at
the sorted place if the key is missing, and the returned reference is then modified with `f`
(uncertainties/ureal.hpp:487,655,658,662,665,680-689,719,722,754,763,766). -/
def upsert [LinearOrder K] (m : SMap K V) (k : K) (dflt : V) (f : V → V) : SMap K V :=
  match m with
  | [] => [(k, f dflt)]
  | (k', v) :: t =>
    if k < k' then (k, f dflt) :: (k', v) :: t
    else if k' = k then (k', f v) :: t
    else (k', v) :: upsert t k dflt f

/-- `for (auto &it : m) it.second = f(it.second);`
(uncertainties/ureal.hpp:626-628, 746-748, 758-760). -/
def mapVal (f : V → W) (m : SMap K V) : SMap K W := m.map (fun p => (p.1, f p.2))

end SMap
end Unc
