import Verif.Lemmas.UReal2Ops
import Verif.Lemmas.UReal

/-!
# Order preserving changes of the identifiers

No function of the library does anything with identifiers but compare them, with each other, with zero and with the sentinel, so
a change of the identifiers which keeps their order goes through every function, whatever the arithmetic.
-/

namespace Unc
open SMap HessGrad

/-! ## maps -/

namespace SMap
variable {K L V W : Type*}

/-- the map with other keys -/
def mapKey (g : K → L) (m : SMap K V) : SMap L V := m.map fun p => (g p.1, p.2)

@[simp] theorem mapKey_nil (g : K → L) : mapKey g ([] : SMap K V) = [] := rfl
@[simp] theorem mapKey_cons (g : K → L) (k : K) (v : V) (t : SMap K V) : mapKey g ((k, v) :: t) = (g k, v) :: mapKey g t := rfl
@[simp] theorem length_mapKey (g : K → L) (m : SMap K V) : (mapKey g m).length = m.length := by simp [mapKey]
@[simp] theorem isEmpty_mapKey (g : K → L) (m : SMap K V) : (mapKey g m).isEmpty = m.isEmpty := by simp [mapKey]

theorem mapKey_tail (g : K → L) (m : SMap K V) : (mapKey g m).tail = mapKey g m.tail := by cases m <;> rfl

theorem upsert_mapKey [LinearOrder K] [LinearOrder L] {g : K → L} (hg : StrictMono g) (m : SMap K V) (k : K) (d : V) (f : V → V) :
    upsert (mapKey g m) (g k) d f = mapKey g (upsert m k d f) := by
  induction m with
  | nil => rfl
  | cons p t ih =>
    obtain ⟨k', v⟩ := p
    simp only [mapKey_cons, upsert, hg.lt_iff_lt, hg.injective.eq_iff]
    split_ifs <;> simp [ih]

theorem find?_mapKey [DecidableEq K] [DecidableEq L] {g : K → L} (hg : Function.Injective g) (m : SMap K V) (k : K) :
    find? (mapKey g m) (g k) = find? m k := by
  induction m with
  | nil => rfl
  | cons p t ih =>
    obtain ⟨k', v⟩ := p
    simp only [mapKey_cons, find?, hg.eq_iff, ih]

theorem mapVal_mapKey (g : K → L) (f : V → W) (m : SMap K V) : mapVal f (mapKey g m) = mapKey g (mapVal f m) := by
  simp [mapVal, mapKey]

theorem foldl_mapKey {β : Type*} (g : K → L) (F : β → L × V → β) (m : SMap K V) (b : β) :
    (mapKey g m).foldl F b = m.foldl (fun b p => F b (g p.1, p.2)) b := by
  rw [mapKey, List.foldl_map]

theorem upserts_mapKey [LinearOrder K] [LinearOrder L] {g : K → L} (hg : StrictMono g) (m z : SMap K V) (d : V) (f : V → V → V) :
    (mapKey g m).foldl (fun z p => upsert z p.1 d (f p.2)) (mapKey g z) = mapKey g (m.foldl (fun z p => upsert z p.1 d (f p.2)) z) := by
  induction m generalizing z with
  | nil => rfl
  | cons p t ih =>
    obtain ⟨k', v⟩ := p
    simp only [mapKey_cons, List.foldl_cons, upsert_mapKey hg, ih]

theorem mapKey_congr {g h : K → L} (m : SMap K V) (e : ∀ k ∈ keys m, g k = h k) : mapKey g m = mapKey h m := by
  refine List.map_congr_left fun p hp => ?_
  rw [e p.1 (List.mem_map_of_mem hp)]

end SMap

/-- A change of the identifiers: keeps the order, and the identifiers which do not stand for a variable. -/
structure Shift (ρ : ℤ → ℤ) : Prop where
  mono : StrictMono ρ
  zero : ∀ i, i ≤ 0 → ρ i = i

namespace Shift
variable {ρ : ℤ → ℤ}

theorem pos (h : Shift ρ) (i : ℤ) : 0 < ρ i ↔ 0 < i := by
  have := h.mono.lt_iff_lt (a := 0) (b := i)
  rwa [h.zero 0 le_rfl] at this

theorem neg (h : Shift ρ) (i : ℤ) : ρ i < 0 ↔ i < 0 := by
  have := h.mono.lt_iff_lt (a := i) (b := 0)
  rwa [h.zero 0 le_rfl] at this

theorem nonneg (h : Shift ρ) (i : ℤ) : ρ i ≥ 0 ↔ i ≥ 0 := by
  rw [ge_iff_le, ← not_lt, h.neg, not_lt]

theorem eq (h : Shift ρ) (i j : ℤ) : ρ i = ρ j ↔ i = j := h.mono.injective.eq_iff
theorem lt (h : Shift ρ) (i j : ℤ) : ρ i < ρ j ↔ i < j := h.mono.lt_iff_lt
theorem le (h : Shift ρ) (i j : ℤ) : ρ i ≤ ρ j ↔ i ≤ j := h.mono.le_iff_le

end Shift

/-! ## first order -/

namespace UReal
variable {R : Type*} {ρ : ℤ → ℤ}

/-- the value with other identifiers -/
def shift (ρ : ℤ → ℤ) (x : UReal R) : UReal R := ⟨ρ x.id, x.sdev, x.mu, mapKey ρ x.sigma⟩

theorem s2_shift [Zero R] [Add R] [Mul R] (x : UReal R) : (x.shift ρ).s2 = x.s2 := by
  simp only [s2, shift, foldl_mapKey]

theorem s_shift [Zero R] [Add R] [Mul R] [CCmp R] [CSqrt R] (h : Shift ρ) (x : UReal R) : (x.shift ρ).s = x.s := by
  unfold s
  rw [s2_shift]
  simp only [shift]
  by_cases hx : x.id ≥ 0 <;> by_cases hs : CCmp.leb 0 x.sdev = true <;> simp [h.nonneg, hx, hs]

theorem var_shift [Zero R] [Add R] [Mul R] [CCmp R] (h : Shift ρ) (x : UReal R) : var (x.shift ρ) = var x := by
  unfold var
  rw [s2_shift]
  simp only [shift, h.nonneg]

theorem sCache_shift [Zero R] [Add R] [Mul R] [CCmp R] [CSqrt R] (h : Shift ρ) (x : UReal R) :
    (x.shift ρ).sCache = (x.sCache.1, x.sCache.2.shift ρ) := by
  unfold sCache
  rw [s2_shift]
  simp only [shift]
  by_cases hx : x.id ≥ 0 <;> by_cases hs : CCmp.ltb x.sdev 0 = true <;> simp [h.nonneg, hx, hs]

theorem varCache_shift [Zero R] [Add R] [Mul R] [CCmp R] [CSqrt R] (h : Shift ρ) (x : UReal R) :
    (x.shift ρ).varCache = (x.varCache.1, x.varCache.2.shift ρ) := by
  unfold varCache
  rw [s2_shift]
  simp only [shift]
  by_cases hx : x.id ≥ 0 <;> by_cases hs : CCmp.ltb x.sdev 0 = true <;> simp [h.nonneg, hx, hs]

theorem isindep_shift (h : Shift ρ) (x : UReal R) : (x.shift ρ).isindep = x.isindep := by
  simp only [isindep, shift, h.neg, length_mapKey]

theorem covLoop_shift [Add R] [Mul R] (h : Shift ρ) (xs ys : SMap ℤ R) (acc : R) :
    covLoop (mapKey ρ xs) (mapKey ρ ys) acc = covLoop xs ys acc := by
  induction xs, ys, acc using covLoop.induct with
  | case1 acc xid a xt yid b yt acc' hlt ih =>
    rw [mapKey_cons, mapKey_cons, covLoop, covLoop]
    simp only [h.eq, h.lt, if_pos hlt]
    exact ih
  | case2 acc xid a xt yid b yt acc' hlt hlt' ih =>
    rw [mapKey_cons, mapKey_cons, covLoop, covLoop]
    simp only [h.eq, h.lt, if_neg hlt, if_pos hlt']
    exact ih
  | case3 acc xid a xt yid b yt acc' hlt hlt' ih =>
    rw [mapKey_cons, mapKey_cons, covLoop, covLoop]
    simp only [h.eq, h.lt, if_neg hlt, if_neg hlt']
    exact ih
  | case4 xs ys acc hne =>
    rcases xs with _ | ⟨⟨i, a⟩, xt⟩
    · simp [covLoop]
    · rcases ys with _ | ⟨⟨j, b⟩, yt⟩
      · simp [covLoop]
      · exact absurd rfl (hne i a xt j b yt rfl)

theorem cov_shift [Zero R] [Add R] [Mul R] (h : Shift ρ) (x y : UReal R) : cov (x.shift ρ) (y.shift ρ) = cov x y := by
  unfold cov
  simp only [shift, h.pos, h.neg, h.eq, covLoop_shift h, find?_mapKey h.mono.injective]

theorem corr_shift [Zero R] [Add R] [Mul R] [Div R] [CCmp R] [CSqrt R] (h : Shift ρ) (x y : UReal R) :
    corr (x.shift ρ) (y.shift ρ) = corr x y := by
  rw [corr, corr, cov_shift h, s_shift h, s_shift h]

theorem grad_shift [Zero R] [Div R] (h : Shift ρ) (x y : UReal R) : grad (x.shift ρ) (y.shift ρ) = grad x y := by
  have e : (y.shift ρ).sigma.head? = y.sigma.head?.map fun p => (ρ p.1, p.2) := by
    simp only [shift]; cases y.sigma <;> rfl
  unfold grad
  simp only [e]
  simp only [shift, h.pos, length_mapKey]
  by_cases hy : 0 < y.id
  · simp only [hy, true_or, not_true_eq_false, if_false, if_true, find?_mapKey h.mono.injective]
  · by_cases hl : y.sigma.length = 1
    · cases hs : y.sigma with
      | nil => simp [hs] at hl
      | cons p t => simp only [hy, hs ▸ hl, or_true, not_true_eq_false, if_false, List.head?_cons, Option.map_some, find?_mapKey h.mono.injective]
    · simp only [hy, hl, or_self, not_false_eq_true, if_true]

theorem unary_shift [Zero R] [One R] [Neg R] [Mul R] (h : Shift ρ) (x : UReal R) (mu dx : R) :
    unary (x.shift ρ) mu dx = (unary x mu dx).shift ρ := by
  unfold unary
  simp only [shift, h.pos, h.neg, mapVal_mapKey]
  split_ifs <;> rfl

theorem mergeLoop_shift [Zero R] [Add R] [Mul R] (h : Shift ρ) (dx dy : R) (xs ys z : SMap ℤ R)
    (hx : ∀ i ∈ keys xs, i < maxId ∧ ρ i < maxId) (hy : ∀ i ∈ keys ys, i < maxId ∧ ρ i < maxId) :
    mergeLoop dx dy (mapKey ρ xs) (mapKey ρ ys) (mapKey ρ z) = (mergeLoop dx dy xs ys z).map (mapKey ρ) := by
  induction hn : xs.length + ys.length using Nat.strong_induction_on generalizing xs ys z with
  | _ n ih =>
    rcases xs with _ | ⟨⟨i, a⟩, xt⟩ <;> rcases ys with _ | ⟨⟨j, b⟩, yt⟩
    · simp [mergeLoop]
    · obtain ⟨h1, h2⟩ := hy j (by simp)
      simp only [mapKey_cons, mapKey_nil]
      rw [mergeLoop, mergeLoop]
      simp only [not_le.2 h1, not_le.2 h2, if_false, upsert_mapKey h.mono]
      exact ih _ (by simp at hn ⊢; omega) [] yt _ hx (fun i hi => hy i (by simp [hi])) rfl
    · obtain ⟨h1, h2⟩ := hx i (by simp)
      simp only [mapKey_cons, mapKey_nil]
      rw [mergeLoop, mergeLoop]
      simp only [not_le.2 h1, not_le.2 h2, h1.le, h2.le, if_false, if_true, upsert_mapKey h.mono]
      exact ih _ (by simp at hn ⊢; omega) xt [] _ (fun i hi => hx i (by simp [hi])) hy rfl
    · have r1 := fun z => ih _ (by simp at hn ⊢; omega) xt yt z (fun i hi => hx i (by simp [hi])) (fun i hi => hy i (by simp [hi])) rfl
      have r2 := fun z => ih _ (by simp at hn ⊢; omega) ((i, a) :: xt) yt z hx (fun i hi => hy i (by simp [hi])) rfl
      have r3 := fun z => ih _ (by simp at hn ⊢; omega) xt ((j, b) :: yt) z (fun i hi => hx i (by simp [hi])) hy rfl
      simp only [mapKey_cons] at r1 r2 r3 ⊢
      rw [mergeLoop, mergeLoop]
      simp only [h.le, h.eq, ne_eq]
      split_ifs <;> simp only [upsert_mapKey h.mono, r1, r2, r3]

theorem binary_shift [Zero R] [One R] [Neg R] [Add R] [Mul R] (h : Shift ρ) (x y : UReal R) (mu dx dy : R)
    (hx : ∀ i ∈ keys x.sigma, i < maxId ∧ ρ i < maxId) (hy : ∀ i ∈ keys y.sigma, i < maxId ∧ ρ i < maxId) :
    binary (x.shift ρ) (y.shift ρ) mu dx dy = (binary x y mu dx dy).map (shift ρ) := by
  have e0 : ([] : SMap ℤ R) = mapKey ρ [] := rfl
  have hi : ρ invalidId = invalidId := h.zero _ (by simp [invalidId])
  have key : ∀ z : SMap ℤ R, (fun z => (⟨invalidId, -1, mu, z⟩ : UReal R)) (mapKey ρ z) = shift ρ ⟨invalidId, -1, mu, z⟩ := by
    intro z; simp [shift, hi]
  unfold binary
  simp only [shift, h.pos, h.neg, h.nonneg]
  have u1 : ∀ z : SMap ℤ R, (mapKey ρ x.sigma).foldl (fun z p => upsert z p.1 0 fun _ => dx * p.2) (mapKey ρ z) =
      mapKey ρ (x.sigma.foldl (fun z p => upsert z p.1 0 fun _ => dx * p.2) z) :=
    fun z => upserts_mapKey h.mono x.sigma z 0 fun p _ => dx * p
  have u2 : ∀ z : SMap ℤ R, (mapKey ρ y.sigma).foldl (fun z p => upsert z p.1 0 fun v => v + dy * p.2) (mapKey ρ z) =
      mapKey ρ (y.sigma.foldl (fun z p => upsert z p.1 0 fun v => v + dy * p.2) z) :=
    fun z => upserts_mapKey h.mono y.sigma z 0 fun p v => v + dy * p
  rw [e0]
  simp only [upsert_mapKey h.mono, u1, u2, ← apply_ite (mapKey ρ), mergeLoop_shift h dx dy _ _ _ hx hy]
  split_ifs <;> simp only [Option.map_map, Option.map_some, Function.comp_def, mapKey_nil, shift, hi]

theorem addInto_shift [Zero R] [Add R] [Mul R] (h : Shift ρ) (z : SMap ℤ R) (x : UReal R) (dx : R) :
    addInto (mapKey ρ z) (x.shift ρ) dx = mapKey ρ (addInto z x dx) := by
  have u2 : (mapKey ρ x.sigma).foldl (fun z p => upsert z p.1 0 fun v => v + dx * p.2) (mapKey ρ z) =
      mapKey ρ (x.sigma.foldl (fun z p => upsert z p.1 0 fun v => v + dx * p.2) z) :=
    upserts_mapKey h.mono x.sigma z 0 fun p v => v + dx * p
  unfold addInto
  simp only [shift, h.pos, h.neg, upsert_mapKey h.mono, u2]
  split_ifs <;> rfl

theorem nary_shift [Zero R] [One R] [Neg R] [Add R] [Mul R] (h : Shift ρ) (xs : List (UReal R × R)) (mu : R) :
    nary (xs.map fun p => (p.1.shift ρ, p.2)) mu = (nary xs mu).shift ρ := by
  have hi : ρ invalidId = invalidId := h.zero _ (by simp [invalidId])
  have key : ∀ z : SMap ℤ R, (xs.map fun p => (p.1.shift ρ, p.2)).foldl (fun z p => addInto z p.1 p.2) (mapKey ρ z) =
      mapKey ρ (xs.foldl (fun z p => addInto z p.1 p.2) z) := by
    induction xs with
    | nil => intro z; rfl
    | cons p t ih => intro z; simp only [List.map_cons, List.foldl_cons, addInto_shift h, ih]
  have := key []
  simp only [nary, shift, hi]
  rw [← this]
  rfl

theorem binaryAssignSelf_shift [Zero R] [Add R] [Mul R] [CCmp R] (h : Shift ρ) (x : UReal R) (mu dt dx : R) :
    binaryAssignSelf (x.shift ρ) mu dt dx = (binaryAssignSelf x mu dt dx).shift ρ := by
  simp only [binaryAssignSelf, shift, mapVal_mapKey, h.pos]

theorem binaryAssign_shift [Zero R] [One R] [Neg R] [Add R] [Mul R] [CCmp R] (h : Shift ρ) (x y : UReal R) (mu dt dx : R) :
    binaryAssign (x.shift ρ) (y.shift ρ) mu dt dx = (binaryAssign x y mu dt dx).shift ρ := by
  have hi : ρ invalidId = invalidId := h.zero _ (by simp [invalidId])
  have e : ∀ z : SMap ℤ R, addInto (mapKey ρ z) (y.shift ρ) dx = mapKey ρ (addInto z y dx) := fun z => addInto_shift h z y dx
  unfold binaryAssign
  simp only [shift] at e ⊢
  simp only [h.pos, upsert_mapKey h.mono, mapVal_mapKey, ← apply_ite (mapKey ρ), e, hi]

theorem changeNom_shift (x : UReal R) (n : R) : changeNom (x.shift ρ) n = (changeNom x n).shift ρ := rfl

theorem shift_congr {ρ' : ℤ → ℤ} (x : UReal R) (h : ρ x.id = ρ' x.id) (h' : ∀ i ∈ keys x.sigma, ρ i = ρ' i) : x.shift ρ = x.shift ρ' := by
  simp only [shift, h, mapKey_congr x.sigma h']

end UReal
end Unc
