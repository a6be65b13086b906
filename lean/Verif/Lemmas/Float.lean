import Verif.Model.Float
import Verif.Spec.Float
import Verif.Lemmas.URealArith
import Mathlib.Tactic.Positivity
import Mathlib.Tactic.GCongr

/-!
# Rounding errors of sums of products, and `cov` as such a sum
-/

namespace Unc
open Spec UReal
variable {R S : Type*}

/-! ### `cov` and `s2` as sums over lists -/

namespace UReal

/-- the values of the common keys -/
def pairs (xs ys : SMap ℤ R) : List (R × R) := xs.filterMap (fun p => (SMap.find? ys p.1).map (fun b => (p.2, b)))

/-- the sum of products in the order of the list -/
def dot [Add R] [Mul R] (l : List (R × R)) (acc : R) : R := l.foldl (fun acc p => acc + p.1 * p.2) acc

/-- the stored coefficients -/
def repr' (x : UReal R) : SMap ℤ R := if 0 < x.id then [(x.id, x.sdev)] else if x.id < 0 then x.sigma else []

theorem repr_sorted [Zero R] {x : UReal R} (hx : x.WF) : x.repr'.Sorted := by
  unfold repr'
  split_ifs
  · simp [SMap.sorted_cons]
  · exact hx.sorted
  · simp

theorem repr_keys (x : UReal R) : x.repr'.keys.toFinset = x.deps := by
  unfold repr' deps
  split_ifs <;> simp

theorem covLoop_pairs [Add R] [Mul R] (xs ys : SMap ℤ R) (hx : xs.Sorted) (hy : ys.Sorted) (acc : R) :
    covLoop xs ys acc = dot (pairs xs ys) acc := by
  fun_induction covLoop xs ys acc with
  | case1 xid a xt yid b yt acc acc' h ih =>
    have hacc : acc' = acc := by simp [acc', h.ne]
    have h0 : SMap.find? ((yid, b) :: yt) xid = none := SMap.find?_eq_none.2 (fun hm => by
      rcases List.mem_cons.1 hm with h' | h'
      · simp at h'; omega
      · have := (SMap.sorted_cons.1 hy).1 xid h'; simp at this; omega)
    rw [ih hx.tail hy, hacc, pairs, pairs, List.filterMap_cons]
    simp [h0]
  | case2 xid a xt yid b yt acc acc' h1 h2 ih =>
    have hacc : acc' = acc := by simp [acc', h2.ne']
    rw [ih hx hy.tail, hacc]
    congr 1
    refine List.filterMap_congr (fun p hp => ?_)
    have hp' : p.1 ∈ SMap.keys ((xid, a) :: xt) := List.mem_map_of_mem hp
    have : yid ≠ p.1 := by
      rintro rfl
      rcases List.mem_cons.1 hp' with h' | h'
      · simp at h'; omega
      · have := (SMap.sorted_cons.1 hx).1 _ h'; simp at this; omega
    simp [SMap.find?, this]
  | case3 xid a xt yid b yt acc acc' h1 h2 ih =>
    have he : xid = yid := by omega
    subst he
    have hacc : acc' = acc + a * b := by simp [acc']
    rw [ih hx.tail hy.tail, hacc, pairs, pairs, List.filterMap_cons]
    simp only [SMap.find?, if_true, Option.map_some]
    rw [dot, dot, List.foldl_cons]
    congr 1
    refine List.filterMap_congr (fun p hp => ?_)
    have : xid ≠ p.1 := fun h => ((SMap.sorted_cons.1 hx).1 p.1 (List.mem_map_of_mem hp)).ne h
    simp [this]
  | case4 xs ys acc h =>
    rcases xs with _ | ⟨p, xt⟩
    · simp [pairs, dot]
    · rcases ys with _ | ⟨q, yt⟩
      · simp [pairs, dot, SMap.find?]
      · exact absurd rfl (h p.1 p.2 xt q.1 q.2 yt rfl)

theorem pairs_length (xs ys : SMap ℤ R) (hx : xs.Sorted) :
    (pairs xs ys).length = (xs.keys.toFinset ∩ ys.keys.toFinset).card := by
  induction xs with
  | nil => simp [pairs]
  | cons p t ih =>
    have hk : p.1 ∉ (SMap.keys t).toFinset := by
      simp only [List.mem_toFinset]; exact fun h => ((SMap.sorted_cons.1 hx).1 _ h).false
    have ih := ih hx.tail
    rw [pairs, List.filterMap_cons]
    simp only [SMap.keys_cons, List.toFinset_cons]
    cases h : SMap.find? ys p.1 with
    | none =>
      have : p.1 ∉ ys.keys.toFinset := by simpa using SMap.find?_eq_none.1 h
      rw [Finset.insert_inter_of_notMem this]
      exact ih
    | some b =>
      have : p.1 ∈ ys.keys.toFinset := by
        have : (SMap.find? ys p.1).isSome := by rw [h]; rfl
        simpa using SMap.find?_isSome.1 this
      rw [Finset.insert_inter_of_mem this, Finset.card_insert_of_notMem (fun hm => hk (Finset.mem_inter.1 hm).1), ← ih]
      simp [pairs]

theorem pairs_map (g : R → S) (xs ys : SMap ℤ R) :
    pairs (xs.mapVal g) (ys.mapVal g) = (pairs xs ys).map (fun p => (g p.1, g p.2)) := by
  simp only [pairs, SMap.mapVal, List.filterMap_map, List.map_filterMap]
  refine List.filterMap_congr (fun p _ => ?_)
  have : SMap.find? (List.map (fun p => (p.1, g p.2)) ys) p.1 = (SMap.find? ys p.1).map g := SMap.find?_mapVal
  simp only [Function.comp, this, Option.map_map]
  rfl

/-- `cov` is the sum of the products of the coefficients of the common variables, in the order of the ids. -/
theorem cov_dot [Zero R] [Add R] [Mul R] {x y : UReal R} (hx : x.WF) (hy : y.WF) :
    cov x y = dot (pairs x.repr' y.repr') 0 := by
  unfold cov repr'
  rcases lt_trichotomy x.id 0 with hx0 | hx0 | hx0 <;> rcases lt_trichotomy y.id 0 with hy0 | hy0 | hy0
  · simp only [hx0, hy0, not_lt.2 hx0.le, not_lt.2 hy0.le, false_and, and_false, if_false, and_self, if_true]
    exact covLoop_pairs _ _ hx.sorted hy.sorted _
  · simp [hy0, pairs, dot, SMap.find?]
  · simp only [hx0, hy0, not_lt.2 hx0.le, not_lt.2 hy0.le, false_and, and_false, if_false, and_self, if_true]
    have e := covLoop_pairs x.sigma [(y.id, y.sdev)] hx.sorted (by simp [SMap.sorted_cons]) (0 : R)
    rw [← e]
    clear e
    have hs := hx.sorted
    generalize x.sigma = xs at hs
    induction xs with
    | nil => simp [covLoop, SMap.find?]
    | cons p t ih =>
      obtain ⟨k, a⟩ := p
      rw [covLoop, SMap.find?]
      rcases lt_trichotomy k y.id with h | h | h
      · simp only [h.ne, h, if_false, if_true]
        exact ih hs.tail
      · simp [h, covLoop]
      · simp only [h.ne', h, h.not_gt, if_false, if_true]
        have : SMap.find? t y.id = none := SMap.find?_eq_none.2 (fun hm => by
          have := (SMap.sorted_cons.1 hs).1 _ hm; simp at this; omega)
        simp [this, covLoop]
  · simp [hx0, pairs, dot]
  · simp [hx0, pairs, dot]
  · simp [hx0, pairs, dot]
  · simp only [hx0, hy0, not_lt.2 hx0.le, not_lt.2 hy0.le, false_and, and_false, if_false, and_self, if_true]
    simp only [pairs, dot, List.filterMap_cons, List.filterMap_nil]
    cases SMap.find? y.sigma x.id <;> simp
  · simp [hy0, pairs, dot, SMap.find?]
  · simp only [hx0, hy0, and_self, if_true, pairs, dot, List.filterMap_cons, List.filterMap_nil, SMap.find?]
    by_cases h : x.id = y.id <;> simp [h, eq_comm]

theorem pairs_self (xs : SMap ℤ R) (hx : xs.Sorted) : pairs xs xs = xs.map (fun p => (p.2, p.2)) := by
  rw [pairs, ← List.filterMap_eq_map]
  refine List.filterMap_congr (fun p hp => ?_)
  rw [SMap.find?_of_mem hx (show (p.1, p.2) ∈ xs from hp)]
  rfl

theorem s2_dot [Zero R] [Add R] [Mul R] {x : UReal R} (hx : x.WF) : x.s2 = dot (pairs x.sigma x.sigma) 0 := by
  rw [pairs_self _ hx.sorted, s2, dot, List.foldl_map]

/-- apply a function to all the numbers -/
def mapU (g : R → S) (x : UReal R) : UReal S := ⟨x.id, g x.sdev, g x.mu, x.sigma.mapVal g⟩

theorem wf_mapU [Zero R] [Zero S] {g : R → S} (g0 : g 0 = 0) {x : UReal R} (hx : x.WF) : (mapU g x).WF :=
  ⟨fun h => by simp only [mapU] at h ⊢; rw [hx.zero_sdev h, g0], fun h => by simp only [mapU] at h ⊢; rw [hx.nil h]; rfl,
    by simpa [mapU] using hx.sorted, by simpa [mapU] using hx.pos⟩

theorem deps_mapU (g : R → S) (x : UReal R) : (mapU g x).deps = x.deps := by
  unfold deps mapU; simp

theorem coef_mapU [Zero R] [Zero S] {g : R → S} (g0 : g 0 = 0) (x : UReal R) (i : ℤ) : (mapU g x).coef i = g (x.coef i) := by
  unfold coef mapU
  dsimp only
  split_ifs
  · rfl
  · exact g0.symm
  · exact SMap.get_mapVal g0
  · exact g0.symm

theorem repr_mapU (g : R → S) (x : UReal R) : (mapU g x).repr' = x.repr'.mapVal g := by
  unfold repr' mapU
  dsimp only
  split_ifs <;> simp

end UReal

/-! ### rounding errors -/

namespace FP
variable {f : Fmt} {u : ℝ}

theorem rd_le (hu : Acc f.rd u) (x : ℝ) : |f.rd x| ≤ (1 + u) * |x| := by
  have h := hu.err x
  have h2 : |f.rd x| ≤ |f.rd x - x| + |x| := by
    have := abs_add_le (f.rd x - x) x
    simpa using this
  linarith

theorem rd_bounds (hu : Acc f.rd u) {x : ℝ} (hx : 0 ≤ x) : (1 - u) * x ≤ f.rd x ∧ f.rd x ≤ (1 + u) * x := by
  have h := abs_le.1 (hu.err x)
  rw [abs_of_nonneg hx] at h
  constructor <;> linarith [h.1, h.2]

theorem dot_nonneg (l : List (FP f × FP f)) (h : ∀ p ∈ l, p.1 = p.2) {acc : FP f} (ha : 0 ≤ acc.val) : 0 ≤ (dot l acc).val := by
  induction l generalizing acc with
  | nil => exact ha
  | cons p t ih =>
    rw [dot, List.foldl_cons]
    refine ih (fun q hq => h q (List.mem_cons_of_mem _ hq)) ?_
    rw [val_add, val_mul, h p List.mem_cons_self]
    exact f.rd_nonneg (add_nonneg ha (f.rd_nonneg (mul_self_nonneg _)))

/-- the exact sum -/
noncomputable def sumV (l : List (FP f × FP f)) : ℝ := (l.map (fun p => p.1.val * p.2.val)).sum
/-- the sum of the absolute values -/
noncomputable def absV (l : List (FP f × FP f)) : ℝ := (l.map (fun p => |p.1.val * p.2.val|)).sum

theorem absV_nonneg (l : List (FP f × FP f)) : 0 ≤ absV l := List.sum_nonneg (by
  intro a ha
  obtain ⟨p, _, rfl⟩ := List.mem_map.1 ha
  exact abs_nonneg _)

theorem sumV_le (l : List (FP f × FP f)) : |sumV l| ≤ absV l := by
  induction l with
  | nil => simp [sumV, absV]
  | cons p t ih =>
    simp only [sumV, absV, List.map_cons, List.sum_cons] at ih ⊢
    exact (abs_add_le _ _).trans (add_le_add le_rfl ih)

theorem one_le_pow' (hu : Acc f.rd u) (n : ℕ) : 1 ≤ (1 + u) ^ n := one_le_pow₀ (by linarith [hu.nonneg])

/-- The error of a sum of products. -/
theorem dot_err (hu : Acc f.rd u) (l : List (FP f × FP f)) :
    |(dot l 0).val - sumV l| ≤ ((1 + u) ^ l.length - 1) * absV l := by
  have u0 := hu.nonneg
  induction l using List.reverseRecOn with
  | nil => simp [dot, sumV, absV]
  | append_singleton l p ih =>
    have e1 : (dot (l ++ [p]) 0).val = f.rd ((dot l 0).val + f.rd (p.1.val * p.2.val)) := by
      simp only [dot, List.foldl_append, List.foldl_cons, List.foldl_nil]; rfl
    have e2 : sumV (l ++ [p]) = sumV l + p.1.val * p.2.val := by simp [sumV]
    have e3 : absV (l ++ [p]) = absV l + |p.1.val * p.2.val| := by simp [absV]
    rw [e1, e2, e3, List.length_append, List.length_singleton]
    have T0 := absV_nonneg l
    have ST := sumV_le l
    generalize hd : (dot l 0).val = d at ih ⊢
    generalize sumV l = S at ih ST ⊢
    generalize absV l = T at ih ST T0 ⊢
    generalize p.1.val * p.2.val = m
    have hm := hu.err m
    have M0 := abs_nonneg m
    rcases Nat.eq_zero_or_pos l.length with h0 | h0
    · have hl := List.length_eq_zero_iff.1 h0
      rw [h0] at ih ⊢
      rw [hl] at hd
      have hd0 : d = 0 := hd.symm
      subst hd0
      simp only [pow_zero, sub_self, zero_mul] at ih
      have hS : S = 0 := by have := abs_nonpos_iff.1 ih; linarith
      rw [zero_add, f.idem, hS, zero_add, zero_add, pow_one]
      calc |f.rd m - m| ≤ u * |m| := hm
        _ ≤ (1 + u - 1) * (T + |m|) := by nlinarith
    · have hr := hu.err (d + f.rd m)
      have A : 1 + u ≤ (1 + u) ^ l.length := by
        calc 1 + u = (1 + u) ^ 1 := (pow_one _).symm
          _ ≤ _ := pow_le_pow_right₀ (by linarith) h0
      rw [pow_succ]
      generalize (1 + u) ^ l.length = E at ih A ⊢
      have z1 : |d + f.rd m - (S + m)| ≤ (E - 1) * T + u * |m| := by
        have : d + f.rd m - (S + m) = (d - S) + (f.rd m - m) := by ring
        rw [this]
        exact (abs_add_le _ _).trans (add_le_add ih hm)
      have z2 : |d + f.rd m| ≤ E * T + (1 + u) * |m| := by
        have h1 := abs_add_le (d + f.rd m - (S + m)) (S + m)
        have h2 := abs_add_le S m
        rw [sub_add_cancel] at h1
        linarith
      have z3 : |f.rd (d + f.rd m) - (S + m)| ≤ |f.rd (d + f.rd m) - (d + f.rd m)| + |d + f.rd m - (S + m)| := by
        have := abs_add_le (f.rd (d + f.rd m) - (d + f.rd m)) (d + f.rd m - (S + m))
        simpa using this
      have z4 : u * |d + f.rd m| ≤ u * (E * T + (1 + u) * |m|) := mul_le_mul_of_nonneg_left z2 u0
      have z5 : (1 + u) * (1 + u) * |m| ≤ E * (1 + u) * |m| := by
        refine mul_le_mul_of_nonneg_right ?_ M0
        exact mul_le_mul_of_nonneg_right A (by linarith)
      nlinarith

/-- A sum of squares has a relative error. -/
theorem dot_sq (hu : Acc f.rd u) (l : List (FP f × FP f)) (h : ∀ p ∈ l, p.1 = p.2) :
    (1 - u) ^ l.length * sumV l ≤ (dot l 0).val ∧ (dot l 0).val ≤ (1 + u) ^ l.length * sumV l := by
  have u0 := hu.nonneg
  have u1 := hu.lt
  have habs : ∀ l : List (FP f × FP f), (∀ p ∈ l, p.1 = p.2) → absV l = sumV l := by
    intro l h
    unfold absV sumV
    congr 1
    refine List.map_congr_left (fun p hp => ?_)
    rw [h p hp, abs_of_nonneg (mul_self_nonneg _)]
  constructor
  · induction l using List.reverseRecOn with
    | nil => simp [dot, sumV]
    | append_singleton l p ih =>
      have ih := ih (fun q hq => h q (by simp [hq]))
      have e1 : (dot (l ++ [p]) 0).val = f.rd ((dot l 0).val + f.rd (p.1.val * p.2.val)) := by
        simp only [dot, List.foldl_append, List.foldl_cons, List.foldl_nil]; rfl
      have e2 : sumV (l ++ [p]) = sumV l + p.1.val * p.2.val := by simp [sumV]
      have hp : 0 ≤ p.1.val * p.2.val := by rw [h p (by simp)]; exact mul_self_nonneg _
      have hd : 0 ≤ (dot l 0).val := dot_nonneg l (fun q hq => h q (by simp [hq])) le_rfl
      have hS : 0 ≤ sumV l := by rw [← habs l (fun q hq => h q (by simp [hq]))]; exact absV_nonneg l
      rw [e1, e2, List.length_append, List.length_singleton]
      generalize hdd : (dot l 0).val = d at ih hd ⊢
      generalize sumV l = S at ih hS ⊢
      generalize p.1.val * p.2.val = m at hp ⊢
      have r1 := (rd_bounds hu hp).1
      rcases Nat.eq_zero_or_pos l.length with h0 | h0
      · have hl := List.length_eq_zero_iff.1 h0
        rw [hl] at hdd
        have hd0 : d = 0 := hdd.symm
        rw [h0, pow_zero, one_mul, hd0] at ih
        have : S = 0 := le_antisymm ih hS
        simp only [hd0, this, h0, zero_add, f.idem, pow_one]
        exact r1
      · have r2 := (rd_bounds hu (add_nonneg hd (f.rd_nonneg hp))).1
        have A : (1 - u) ^ l.length ≤ 1 - u := by
          calc (1 - u) ^ l.length ≤ (1 - u) ^ 1 := pow_le_pow_of_le_one (by linarith) (by linarith) h0
            _ = _ := pow_one _
        rw [pow_succ]
        generalize (1 - u) ^ l.length = E at ih A ⊢
        refine le_trans ?_ r2
        have : E * (S + m) ≤ d + f.rd m := by
          have := mul_le_mul_of_nonneg_right A hp
          linarith
        calc E * (1 - u) * (S + m) = (1 - u) * (E * (S + m)) := by ring
          _ ≤ _ := mul_le_mul_of_nonneg_left this (by linarith)
  · have := abs_le.1 (dot_err hu l)
    rw [habs l h] at this
    linarith [this.2]

/-! ### the exact linear form -/

/-- the linear form with the stored numbers as coefficients -/
noncomputable def exactL (x : UReal (FP f)) : LinForm ℝ := ⟨x.mu.val, x.deps, fun i => (x.coef i).val⟩

theorem supported_exactL (x : UReal (FP f)) : (exactL x).Supported := fun i hi => by
  change (x.coef i).val = 0
  rw [coef_of_not_mem hi]; rfl

theorem dot_real (l : List (ℝ × ℝ)) : dot l 0 = (l.map (fun p => p.1 * p.2)).sum := by
  have : ∀ a, dot l a = a + (l.map (fun p => p.1 * p.2)).sum := by
    induction l with
    | nil => intro a; simp [dot]
    | cons p t ih =>
      intro a
      rw [dot, List.foldl_cons, List.map_cons, List.sum_cons, ← add_assoc]
      exact ih _
  rw [this, zero_add]

theorem toLin_mapU (x : UReal (FP f)) : (mapU val x).toLin = exactL x := by
  simp only [toLin, exactL, deps_mapU]
  congr 1
  ext i
  exact coef_mapU rfl x i

theorem sumV_pairs {x y : UReal (FP f)} (hx : x.WF) (hy : y.WF) : sumV (pairs x.repr' y.repr') = (exactL x).cov (exactL y) := by
  rw [← toLin_mapU, ← toLin_mapU, ← cov_eq (wf_mapU rfl hx) (wf_mapU rfl hy), cov_dot (wf_mapU rfl hx) (wf_mapU rfl hy),
    repr_mapU, repr_mapU, pairs_map, dot_real, List.map_map]
  rfl

theorem absV_pairs {x y : UReal (FP f)} (hx : x.WF) (hy : y.WF) : absV (pairs x.repr' y.repr') = absCov (exactL x) (exactL y) := by
  have g0 : |(0 : FP f).val| = 0 := by simp
  have e := cov_eq (wf_mapU (g := fun a : FP f => |a.val|) g0 hx) (wf_mapU (g := fun a : FP f => |a.val|) g0 hy)
  rw [cov_dot (wf_mapU (g := fun a : FP f => |a.val|) g0 hx) (wf_mapU (g := fun a : FP f => |a.val|) g0 hy), repr_mapU, repr_mapU, pairs_map, dot_real, List.map_map] at e
  have e1 : absV (pairs x.repr' y.repr') = (List.map ((fun p : ℝ × ℝ => p.1 * p.2) ∘ fun p : FP f × FP f => (|p.1.val|, |p.2.val|)) (pairs x.repr' y.repr')).sum := by
    unfold absV
    congr 1
    refine List.map_congr_left (fun p _ => ?_)
    simp [abs_mul]
  rw [e1, e]
  simp only [LinForm.cov, absCov, toLin, deps_mapU, exactL]
  refine Finset.sum_congr rfl (fun i _ => ?_)
  rw [coef_mapU (g := fun a : FP f => |a.val|) g0, coef_mapU (g := fun a : FP f => |a.val|) g0, abs_mul]

theorem pairs_self_eq (xs : SMap ℤ R) (hx : xs.Sorted) : ∀ p ∈ pairs xs xs, p.1 = p.2 := by
  rw [pairs_self xs hx]
  intro p hp
  obtain ⟨q, _, rfl⟩ := List.mem_map.1 hp
  rfl

theorem length_self {x : UReal R} [Zero R] (hx : x.WF) : (pairs x.repr' x.repr').length = x.deps.card := by
  rw [pairs_length _ _ (repr_sorted hx), repr_keys, Finset.inter_self]

/-- `s2` of a dependent value -/
theorem s2_bounds (hu : Acc f.rd u) {x : UReal (FP f)} (hx : x.WF) (h : x.id < 0) :
    (1 - u) ^ x.deps.card * (exactL x).var ≤ x.s2.val ∧ x.s2.val ≤ (1 + u) ^ x.deps.card * (exactL x).var := by
  have er : x.repr' = x.sigma := by unfold repr'; rw [if_neg (by omega), if_pos h]
  have := dot_sq hu (pairs x.repr' x.repr') (pairs_self_eq _ (repr_sorted hx))
  rw [length_self hx, sumV_pairs hx hx, LinForm.cov_self, er, ← s2_dot hx] at this
  exact this

theorem s2_nonneg (x : UReal (FP f)) : 0 ≤ x.s2.val := by
  unfold s2
  have : ∀ (l : SMap ℤ (FP f)) (a : FP f), 0 ≤ a.val → 0 ≤ (l.foldl (fun acc p => acc + p.2 * p.2) a).val := by
    intro l
    induction l with
    | nil => intro a ha; exact ha
    | cons p t ih =>
      intro a ha
      rw [List.foldl_cons]
      refine ih _ ?_
      rw [val_add, val_mul]
      exact f.rd_nonneg (add_nonneg ha (f.rd_nonneg (mul_self_nonneg _)))
  exact this _ _ le_rfl

end FP
end Unc
