import Verif.Model.UReal2
import Verif.Lemmas.Map

/-!
# Specification-side view of second-order values

What a `HessGrad` means: the set of elementary variables, the gradient, the symmetric matrix of half
second derivatives, the moments.  The definitions here read the maps; they share nothing with the
iterators and loops of the model.
-/

namespace Unc
namespace HessGrad
variable {R : Type*}

/-- Representation invariant: both maps are sorted, and every off-diagonal element belongs to a pair of
stored variables in increasing order. -/
structure Valid (hg : HessGrad R) : Prop where
  dsorted : SMap.Sorted hg.diagmap
  tsorted : SMap.Sorted hg.trimap
  tri : ∀ i j : VId, toLex (i, j) ∈ SMap.keys hg.trimap →
    i < j ∧ i ∈ SMap.keys hg.diagmap ∧ j ∈ SMap.keys hg.diagmap

/-- All ids are below the sentinel `numeric_limits<int>::max()`. -/
def Below (hg : HessGrad R) : Prop := ∀ i ∈ SMap.keys hg.diagmap, i < maxId

/-- The elementary variables the value depends on. -/
def vars (hg : HessGrad R) : Finset VId := (SMap.keys hg.diagmap).toFinset

/-- First derivative with respect to standardized variable `i`. -/
def G [Zero R] (hg : HessGrad R) (i : VId) : R :=
  match SMap.find? hg.diagmap i with
  | some d => d.grad
  | none => 0

/-- Half second derivative with respect to standardized variables `i`, `j`. -/
def H [Zero R] (hg : HessGrad R) (i j : VId) : R :=
  if i = j then
    match SMap.find? hg.diagmap i with
    | some d => d.hhess
    | none => 0
  else SMap.get hg.trimap (toLex (min i j, max i j))

/-- The stored moments of variable `i`. -/
def momOf (hg : HessGrad R) (i : VId) : Option (Moments R) :=
  (SMap.find? hg.diagmap i).map Diag.mom

end HessGrad

/-- The smallest stored variable after `a`. -/
def nextIn {V : Type*} (dm : SMap VId V) (a : VId) : Option VId :=
  ((SMap.keys dm).filter fun i => decide (a < i)).head?

/-- The entry shows the stored data of its pair of variables. -/
def Shows {R : Type*} [Zero R] (hg : HessGrad R) (e : Ent R) : Prop :=
  SMap.find? hg.diagmap e.id1 = some e.d1 ∧ SMap.find? hg.diagmap e.id2 = some e.d2 ∧ e.val = hg.H e.id1 e.id2

/-- `es` visits exactly the pairs in `P`, each once, in lexicographic order, and shows the stored data. -/
structure Visits {R : Type*} [Zero R] (hg : HessGrad R) (es : List (Ent R)) (P : VId → VId → Prop) : Prop where
  once : es.Pairwise fun e e' => e.id1 < e'.id1 ∨ (e.id1 = e'.id1 ∧ e.id2 < e'.id2)
  all : ∀ i j, (∃ e ∈ es, e.id1 = i ∧ e.id2 = j) ↔ P i j
  data : ∀ e ∈ es, Shows hg e

/-- A value which can be used safely. -/
structure Ok2 {R : Type*} (x : UReal2 R) : Prop where
  valid : x.hg.Valid
  below : x.hg.Below

end Unc
