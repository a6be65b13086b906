import Mathlib.Data.Finset.Powerset
import Mathlib.Data.Finset.Max
import Mathlib.Algebra.BigOperators.Ring.Finset
import Mathlib.Algebra.BigOperators.Group.Finset.Powerset
import Mathlib.Algebra.BigOperators.Intervals
import Mathlib.Tactic.Abel
import Mathlib.Tactic.Ring

/-!
# Sums over tuples of distinct elements, sums over increasing tuples
-/

namespace Unc
namespace Sums
open Finset
variable {σ M : Type*} [LinearOrder σ] [AddCommGroup M] (S : Finset σ)

/-- Sum over increasing pairs. -/
def S2 (f : σ → σ → M) : M := ∑ i ∈ S, ∑ j ∈ S, if i < j then f i j else 0
/-- Sum over increasing triples. -/
def S3 (f : σ → σ → σ → M) : M := ∑ i ∈ S, ∑ j ∈ S, ∑ k ∈ S, if i < j ∧ j < k then f i j k else 0
/-- Sum over increasing quadruples. -/
def S4 (f : σ → σ → σ → σ → M) : M :=
  ∑ i ∈ S, ∑ j ∈ S, ∑ k ∈ S, ∑ l ∈ S, if i < j ∧ j < k ∧ k < l then f i j k l else 0

/-- Sum over pairs of distinct elements. -/
def D2 (f : σ → σ → M) : M := ∑ i ∈ S, ∑ j ∈ S, if i ≠ j then f i j else 0
/-- Sum over triples of distinct elements. -/
def D3 (f : σ → σ → σ → M) : M :=
  ∑ i ∈ S, ∑ j ∈ S, ∑ k ∈ S, if i ≠ j ∧ k ≠ i ∧ k ≠ j then f i j k else 0
/-- Sum over quadruples of distinct elements. -/
def D4 (f : σ → σ → σ → σ → M) : M :=
  ∑ i ∈ S, ∑ j ∈ S, ∑ k ∈ S, ∑ l ∈ S,
    if (i ≠ j ∧ k ≠ i ∧ k ≠ j) ∧ l ≠ i ∧ l ≠ j ∧ l ≠ k then f i j k l else 0

theorem D2_eq (f : σ → σ → M) : D2 S f = S2 S fun a b => f a b + f b a := by
  have : ∀ i j, (if i ≠ j then f i j else 0) = (if i < j then f i j else 0) + (if j < i then f i j else 0) := by
    intro i j
    rcases lt_trichotomy i j with h | h | h
    · simp [h, h.ne, h.le]
    · subst h; simp
    · simp [h, h.ne', h.le]
  unfold D2 S2
  simp only [this, sum_add_distrib]
  rw [sum_comm (f := fun i j => if j < i then f i j else 0)]
  rw [← sum_add_distrib]
  refine sum_congr rfl fun i _ => ?_
  rw [← sum_add_distrib]
  refine sum_congr rfl fun j _ => ?_
  split_ifs <;> simp

theorem ins3 (g : σ → σ → σ → M) :
    (∑ i ∈ S, ∑ j ∈ S, ∑ k ∈ S, if i < j ∧ k ≠ i ∧ k ≠ j then g i j k else 0)
      = S3 S fun a b c => g a b c + g a c b + g b c a := by
  have : ∀ i j k, (if i < j ∧ k ≠ i ∧ k ≠ j then g i j k else 0)
      = (if i < j ∧ j < k then g i j k else 0) + (if i < k ∧ k < j then g i j k else 0)
        + (if k < i ∧ i < j then g i j k else 0) := by
    intro i j k
    by_cases hij : i < j
    · rcases lt_trichotomy k i with h | h | h
      · have hkj := h.trans hij
        simp [hij, h, h.ne, hkj.ne, hkj.not_gt, h.not_gt]
      · subst h; simp [hij, hij.not_gt]
      · rcases lt_trichotomy k j with h' | h' | h'
        · simp [hij, h, h.ne', h'.ne, h', h'.not_gt, h.not_gt]
        · subst h'; simp [h.not_gt]
        · simp [hij, h, h.ne', h'.ne', h', h'.not_gt, h.not_gt]
    · have h2 : ¬ (i < k ∧ k < j) := fun h => hij (h.1.trans h.2)
      simp [hij, h2]
  unfold S3
  simp only [this, sum_add_distrib]
  have e2 : (∑ i ∈ S, ∑ j ∈ S, ∑ k ∈ S, if i < k ∧ k < j then g i j k else 0)
      = ∑ a ∈ S, ∑ b ∈ S, ∑ c ∈ S, if a < b ∧ b < c then g a c b else 0 :=
    sum_congr rfl fun i _ => sum_comm
  have e3 : (∑ i ∈ S, ∑ j ∈ S, ∑ k ∈ S, if k < i ∧ i < j then g i j k else 0)
      = ∑ a ∈ S, ∑ b ∈ S, ∑ c ∈ S, if a < b ∧ b < c then g b c a else 0 := by
    rw [sum_comm (f := fun a b => ∑ c ∈ S, if a < b ∧ b < c then g b c a else 0)]
    exact sum_congr rfl fun i _ => sum_comm
  rw [e2, e3]
  simp only [← sum_add_distrib]
  refine sum_congr rfl fun a _ => sum_congr rfl fun b _ => sum_congr rfl fun c _ => ?_
  split_ifs <;> simp

theorem D3_eq (f : σ → σ → σ → M) : D3 S f = S3 S fun a b c =>
    f a b c + f b a c + (f a c b + f c a b) + (f b c a + f c b a) := by
  have h : D3 S f = D2 S fun i j => ∑ k ∈ S, if k ≠ i ∧ k ≠ j then f i j k else 0 := by
    unfold D3 D2
    refine sum_congr rfl fun i _ => sum_congr rfl fun j _ => ?_
    by_cases hij : i = j
    · simp [hij]
    · simp [hij]
  rw [h, D2_eq]
  have : S2 S (fun a b => (∑ k ∈ S, if k ≠ a ∧ k ≠ b then f a b k else 0)
      + ∑ k ∈ S, if k ≠ b ∧ k ≠ a then f b a k else 0)
      = ∑ i ∈ S, ∑ j ∈ S, ∑ k ∈ S, if i < j ∧ k ≠ i ∧ k ≠ j then f i j k + f j i k else 0 := by
    unfold S2
    refine sum_congr rfl fun i _ => sum_congr rfl fun j _ => ?_
    by_cases hij : i < j
    · rw [if_pos hij]
      dsimp only
      rw [← sum_add_distrib]
      refine sum_congr rfl fun k _ => ?_
      by_cases h1 : k = i <;> by_cases h2 : k = j <;> simp [hij, h1, h2]
    · simp [hij]
  rw [this, ins3]

theorem ins4 (g : σ → σ → σ → σ → M) :
    (∑ i ∈ S, ∑ j ∈ S, ∑ k ∈ S, ∑ l ∈ S,
      if (i < j ∧ j < k) ∧ l ≠ i ∧ l ≠ j ∧ l ≠ k then g i j k l else 0)
      = S4 S fun a b c d => g a b c d + g a b d c + g a c d b + g b c d a := by
  have : ∀ i j k l, (if (i < j ∧ j < k) ∧ l ≠ i ∧ l ≠ j ∧ l ≠ k then g i j k l else 0)
      = (if i < j ∧ j < k ∧ k < l then g i j k l else 0) + (if i < j ∧ j < l ∧ l < k then g i j k l else 0)
        + (if i < l ∧ l < j ∧ j < k then g i j k l else 0) + (if l < i ∧ i < j ∧ j < k then g i j k l else 0) := by
    intro i j k l
    by_cases h0 : i < j ∧ j < k
    · obtain ⟨hij, hjk⟩ := h0
      have hik := hij.trans hjk
      rcases lt_trichotomy l i with h | h | h
      · have a1 := h.trans hij
        have a2 := a1.trans hjk
        simp [hij, hjk, h, h.ne, a1.ne, a2.ne, a2.not_gt, a1.not_gt, h.not_gt]
      · subst h; simp [hij.not_gt, hik.not_gt]
      · rcases lt_trichotomy l j with h' | h' | h'
        · have a2 := h'.trans hjk
          simp [hij, hjk, h, h.ne', h'.ne, a2.ne, h', a2.not_gt, h'.not_gt, h.not_gt]
        · subst h'; simp [hjk.not_gt, h.not_gt]
        · rcases lt_trichotomy l k with h2 | h2 | h2
          · simp [hij, hjk, h, h.ne', h'.ne', h2.ne, h', h2, h2.not_gt, h'.not_gt, h.not_gt]
          · subst h2; simp [h'.not_gt, h.not_gt]
          · simp [hij, hjk, h.ne', h'.ne', h2.ne', h2, h2.not_gt, h'.not_gt, h.not_gt]
    · have h1 : ¬ (i < j ∧ j < k ∧ k < l) := fun h => h0 ⟨h.1, h.2.1⟩
      have h2 : ¬ (i < j ∧ j < l ∧ l < k) := fun h => h0 ⟨h.1, h.2.1.trans h.2.2⟩
      have h3 : ¬ (i < l ∧ l < j ∧ j < k) := fun h => h0 ⟨h.1.trans h.2.1, h.2.2⟩
      have h4 : ¬ (l < i ∧ i < j ∧ j < k) := fun h => h0 h.2
      rw [if_neg h1, if_neg h2, if_neg h3, if_neg h4, if_neg fun h => h0 h.1]
      simp
  unfold S4
  simp only [this, sum_add_distrib]
  have e2 : (∑ i ∈ S, ∑ j ∈ S, ∑ k ∈ S, ∑ l ∈ S, if i < j ∧ j < l ∧ l < k then g i j k l else 0)
      = ∑ a ∈ S, ∑ b ∈ S, ∑ c ∈ S, ∑ d ∈ S, if a < b ∧ b < c ∧ c < d then g a b d c else 0 :=
    sum_congr rfl fun i _ => sum_congr rfl fun j _ => sum_comm
  have e3 : (∑ i ∈ S, ∑ j ∈ S, ∑ k ∈ S, ∑ l ∈ S, if i < l ∧ l < j ∧ j < k then g i j k l else 0)
      = ∑ a ∈ S, ∑ b ∈ S, ∑ c ∈ S, ∑ d ∈ S, if a < b ∧ b < c ∧ c < d then g a c d b else 0 := by
    refine sum_congr rfl fun i _ => ?_
    rw [sum_comm (f := fun b c => ∑ d ∈ S, if i < b ∧ b < c ∧ c < d then g i c d b else 0)]
    exact sum_congr rfl fun j _ => sum_comm
  have e4 : (∑ i ∈ S, ∑ j ∈ S, ∑ k ∈ S, ∑ l ∈ S, if l < i ∧ i < j ∧ j < k then g i j k l else 0)
      = ∑ a ∈ S, ∑ b ∈ S, ∑ c ∈ S, ∑ d ∈ S, if a < b ∧ b < c ∧ c < d then g b c d a else 0 := by
    rw [sum_comm (f := fun a b => ∑ c ∈ S, ∑ d ∈ S, if a < b ∧ b < c ∧ c < d then g b c d a else 0)]
    refine sum_congr rfl fun i _ => ?_
    rw [sum_comm (f := fun a c => ∑ d ∈ S, if a < i ∧ i < c ∧ c < d then g i c d a else 0)]
    exact sum_congr rfl fun j _ => sum_comm
  rw [e2, e3, e4]
  simp only [← sum_add_distrib]
  refine sum_congr rfl fun a _ => sum_congr rfl fun b _ => sum_congr rfl fun c _ => sum_congr rfl fun d _ => ?_
  split_ifs <;> simp

/-- The sum of `f` over the six orders of the first three arguments. -/
def p6 (f : σ → σ → σ → σ → M) (a b c l : σ) : M :=
  f a b c l + f b a c l + (f a c b l + f c a b l) + (f b c a l + f c b a l)

theorem D4_eq (f : σ → σ → σ → σ → M) : D4 S f = S4 S fun a b c d =>
    p6 f a b c d + p6 f a b d c + p6 f a c d b + p6 f b c d a := by
  have h : D4 S f = D3 S fun i j k => ∑ l ∈ S, if l ≠ i ∧ l ≠ j ∧ l ≠ k then f i j k l else 0 := by
    unfold D4 D3
    refine sum_congr rfl fun i _ => sum_congr rfl fun j _ => sum_congr rfl fun k _ => ?_
    by_cases hij : i ≠ j ∧ k ≠ i ∧ k ≠ j
    · simp [hij]
    · simp only [hij, false_and, if_false, sum_const_zero]
  rw [h, D3_eq, ← ins4]
  unfold S3
  refine sum_congr rfl fun i _ => sum_congr rfl fun j _ => sum_congr rfl fun k _ => ?_
  by_cases hij : i < j ∧ j < k
  · simp only [hij, true_and, and_self, if_true, ← sum_add_distrib]
    refine sum_congr rfl fun l _ => ?_
    by_cases h1 : l = i <;> by_cases h2 : l = j <;> by_cases h3 : l = k <;> simp [h1, h2, h3, p6]
  · simp only [hij, false_and, if_false, sum_const_zero]

theorem pc1 (c : Finset σ → M) : ∑ T ∈ S.powersetCard 1, c T = ∑ a ∈ S, c {a} := by
  rw [powersetCard_one, sum_map]; rfl

theorem S2_insert (φ : σ → σ → M) {m : σ} (hm : ∀ x ∈ S, x < m) :
    S2 (insert m S) φ = S2 S φ + ∑ a ∈ S, φ a m := by
  have hmS : m ∉ S := fun h => lt_irrefl _ (hm m h)
  unfold S2
  rw [sum_insert hmS, sum_insert hmS]
  have h0 : ∀ j ∈ S, (if m < j then φ m j else 0) = 0 := fun j hj => if_neg (hm j hj).not_gt
  rw [sum_congr rfl h0, sum_const_zero, if_neg (lt_irrefl m), add_zero, zero_add, ← sum_add_distrib]
  refine sum_congr rfl fun i hi => ?_
  rw [sum_insert hmS, if_pos (hm i hi), add_comm]

theorem S3_insert (φ : σ → σ → σ → M) {m : σ} (hm : ∀ x ∈ S, x < m) :
    S3 (insert m S) φ = S3 S φ + S2 S fun a b => φ a b m := by
  have hmS : m ∉ S := fun h => lt_irrefl _ (hm m h)
  have hS3 : ∀ U : Finset σ, S3 U φ = S2 U fun i j => ∑ k ∈ U, if j < k then φ i j k else 0 := by
    intro U
    unfold S3 S2
    refine sum_congr rfl fun i _ => sum_congr rfl fun j _ => ?_
    by_cases h : i < j <;> simp [h]
  rw [hS3, S2_insert _ _ hm, hS3 S]
  have h1 : (∑ a ∈ S, ∑ k ∈ insert m S, if m < k then φ a m k else 0) = 0 := by
    refine sum_eq_zero fun a _ => sum_eq_zero fun k hk => ?_
    rcases mem_insert.1 hk with rfl | hk
    · simp
    · simp [(hm k hk).not_gt]
  rw [h1, add_zero]
  unfold S2
  rw [← sum_add_distrib]
  refine sum_congr rfl fun i hi => ?_
  rw [← sum_add_distrib]
  refine sum_congr rfl fun j hj => ?_
  dsimp only
  rw [sum_insert hmS, if_pos (hm j hj)]
  split_ifs
  · rw [add_comm]
  · simp

theorem S4_insert (φ : σ → σ → σ → σ → M) {m : σ} (hm : ∀ x ∈ S, x < m) :
    S4 (insert m S) φ = S4 S φ + S3 S fun a b c => φ a b c m := by
  have hmS : m ∉ S := fun h => lt_irrefl _ (hm m h)
  have hS4 : ∀ U : Finset σ, S4 U φ = S3 U fun i j k => ∑ l ∈ U, if k < l then φ i j k l else 0 := by
    intro U
    unfold S4 S3
    refine sum_congr rfl fun i _ => sum_congr rfl fun j _ => sum_congr rfl fun k _ => ?_
    by_cases h : i < j ∧ j < k
    · simp [h]
    · have h' : ∀ l, ¬ (i < j ∧ j < k ∧ k < l) := fun l h2 => h ⟨h2.1, h2.2.1⟩
      simp only [h, h', if_false, sum_const_zero]
  rw [hS4, S3_insert _ _ hm, hS4 S]
  have h1 : (S2 S fun a b => ∑ k ∈ insert m S, if m < k then φ a b m k else 0) = 0 := by
    unfold S2
    refine sum_eq_zero fun a _ => sum_eq_zero fun b _ => ?_
    dsimp only
    rw [sum_eq_zero fun k hk => ?_, ite_self]
    rcases mem_insert.1 hk with rfl | hk
    · simp
    · simp [(hm k hk).not_gt]
  rw [h1, add_zero]
  unfold S3
  rw [← sum_add_distrib]
  refine sum_congr rfl fun i hi => ?_
  rw [← sum_add_distrib]
  refine sum_congr rfl fun j hj => ?_
  rw [← sum_add_distrib]
  refine sum_congr rfl fun k hk => ?_
  dsimp only
  rw [sum_insert hmS, if_pos (hm k hk)]
  split_ifs
  · rw [add_comm]
  · simp

theorem pc_insert (c : Finset σ → M) (n : ℕ) {m : σ} (hm : m ∉ S) :
    ∑ T ∈ (insert m S).powersetCard (n + 1), c T
      = ∑ T ∈ S.powersetCard (n + 1), c T + ∑ T ∈ S.powersetCard n, c (insert m T) := by
  rw [powersetCard_succ_insert hm, sum_union, sum_image]
  · intro T hT U hU h
    have hT' : m ∉ T := fun h => hm ((mem_powersetCard.1 hT).1 h)
    have hU' : m ∉ U := fun h => hm ((mem_powersetCard.1 hU).1 h)
    have := congrArg (fun u => erase u m) h
    simpa [hT', hU'] using this
  · rw [disjoint_left]
    intro T hT hT'
    obtain ⟨U, -, rfl⟩ := mem_image.1 hT'
    exact hm ((mem_powersetCard.1 hT).1 (mem_insert_self _ _))

theorem pc2 (c : Finset σ → M) : ∑ T ∈ S.powersetCard 2, c T = S2 S fun a b => c (insert b {a}) := by
  induction S using Finset.induction_on_max with
  | empty => rw [powersetCard_eq_empty.2 (by simp)]; simp [S2]
  | insert m S hm ih =>
    have hmS : m ∉ S := fun h => lt_irrefl _ (hm m h)
    rw [pc_insert _ _ _ hmS, S2_insert _ _ hm, ih, pc1]

theorem pc3 (c : Finset σ → M) :
    ∑ T ∈ S.powersetCard 3, c T = S3 S fun x y z => c (insert z (insert y {x})) := by
  induction S using Finset.induction_on_max with
  | empty => rw [powersetCard_eq_empty.2 (by simp)]; simp [S3]
  | insert m S hm ih =>
    have hmS : m ∉ S := fun h => lt_irrefl _ (hm m h)
    rw [pc_insert _ _ _ hmS, S3_insert _ _ hm, ih, pc2]

theorem pc4 (c : Finset σ → M) :
    ∑ T ∈ S.powersetCard 4, c T = S4 S fun x y z w => c (insert w (insert z (insert y {x}))) := by
  induction S using Finset.induction_on_max with
  | empty => rw [powersetCard_eq_empty.2 (by simp)]; simp [S4]
  | insert m S hm ih =>
    have hmS : m ∉ S := fun h => lt_irrefl _ (hm m h)
    rw [pc_insert _ _ _ hmS, S4_insert _ _ hm, ih, pc3]

/-- A sum over all subsets of a function which vanishes on subsets with more than four elements. -/
theorem powerset4 (c : Finset σ → M) (h : ∀ T, 4 < T.card → c T = 0) :
    ∑ T ∈ S.powerset, c T = c ∅ + (∑ a ∈ S, c {a}) + (S2 S fun a b => c (insert b {a}))
      + (S3 S fun x y z => c (insert z (insert y {x})))
      + S4 S fun x y z w => c (insert w (insert z (insert y {x}))) := by
  rw [← pc1, ← pc2, ← pc3, ← pc4]
  have h0 : ∑ T ∈ S.powersetCard 0, c T = c ∅ := by simp
  rw [← h0, sum_powerset]
  have hz : ∀ j, 4 < j → ∑ T ∈ S.powersetCard j, c T = 0 := fun j hj =>
    sum_eq_zero fun T hT => h T ((mem_powersetCard.1 hT).2 ▸ hj)
  have hz' : ∀ j, S.card < j → ∑ T ∈ S.powersetCard j, c T = 0 := fun j hj => by
    rw [powersetCard_eq_empty.2 hj, sum_empty]
  have : ∑ j ∈ range (S.card + 1), ∑ T ∈ S.powersetCard j, c T
      = ∑ j ∈ range 5, ∑ T ∈ S.powersetCard j, c T := by
    rcases Nat.le_total (S.card + 1) 5 with hle | hle
    · exact sum_subset (fun x hx => mem_range.2 ((mem_range.1 hx).trans_le hle))
        fun x _ hx => hz' x (by rw [mem_range] at hx; omega)
    · symm
      exact sum_subset (fun x hx => mem_range.2 ((mem_range.1 hx).trans_le hle))
        fun x _ hx => hz x (by rw [mem_range] at hx; omega)
  rw [this]
  simp only [sum_range_succ, range_zero, sum_empty, zero_add]

end Sums
end Unc
