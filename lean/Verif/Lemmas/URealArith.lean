import Verif.Lemmas.UReal

/-!
# The `UReal` operations in exact arithmetic are the operations on linear forms
-/

set_option linter.unusedSectionVars false

namespace Unc.UReal
open Unc.Spec

section ring
variable {R : Type*} [CommRing R]

theorem toLin_const (n : R) : (const n).toLin = LinForm.const n := by
  simp [toLin, const, LinForm.const, deps]; funext i; simp [coef]

theorem coef_unary {x : UReal R} (mu dx : R) (i : ℤ) : (unary x mu dx).coef i = dx * x.coef i := by
  unfold unary
  by_cases h1 : 0 < x.id
  · simp only [h1, if_true, coef]
    split_ifs
    · ring
    · ring
  · by_cases h2 : x.id < 0
    · simp only [h1, h2, if_true, if_false, coef]
      rw [SMap.get_mapVal (by simp)]; ring
    · simp [h1, h2, coef]

theorem toLin_unary (x : UReal R) (mu dx : R) : (unary x mu dx).toLin = x.toLin.scale mu dx := by
  have h1 : (unary x mu dx).mu = mu := by unfold unary; split_ifs <;> rfl
  simp only [toLin, LinForm.scale, deps_unary, h1]
  congr 1; funext i; exact coef_unary mu dx i

theorem binary_toLin {x y : UReal R} (hx : x.WF) (hy : y.WF) (bx : x.Below maxId) (by' : y.Below maxId)
    (mu dx dy : R) :
    ∃ z, binary x y mu dx dy = some z ∧ z.WF ∧ z.toLin = x.toLin.comb y.toLin mu dx dy ∧ z.sdev = -1 ∧ z.id = -1 := by
  obtain ⟨z, e, hz, hd, hm, hid, hs, hc⟩ := binary_spec hx hy bx by' mu dx dy
  refine ⟨z, e, hz, ?_, hs, hid⟩
  simp only [toLin, LinForm.comb, hm, hd]
  congr 1; funext j
  rw [hc j, coef_eq_lookup, coef_eq_lookup]
  cases x.lookup j <;> cases y.lookup j <;> simp

theorem get_naryFold {xs : List (UReal R × R)} (hx : ∀ p ∈ xs, p.1.WF) (z : SMap ℤ R) (hz : z.Sorted) (j : ℤ) :
    SMap.get (xs.foldl (fun z p => addInto z p.1 p.2) z) j = z.get j + (xs.map (fun p => p.2 * p.1.coef j)).sum := by
  induction xs generalizing z with
  | nil => simp
  | cons p t ih =>
    simp only [List.foldl_cons, List.map_cons, List.sum_cons]
    rw [ih (fun q hq => hx q (by simp [hq])) _ (sorted_addInto hz _ _), get_addInto hz (hx p (by simp)), coef_eq_lookup]
    cases p.1.lookup j <;> simp [add_assoc]

theorem coef_nary {xs : List (UReal R × R)} (hx : ∀ p ∈ xs, p.1.WF) (mu : R) (j : ℤ) :
    (nary xs mu).coef j = (xs.map (fun p => p.2 * p.1.coef j)).sum := by
  have : (nary xs mu).coef j = SMap.get (nary xs mu).sigma j := by simp [coef, nary, invalidId]
  rw [this]
  have h := get_naryFold hx [] SMap.sorted_nil j
  simpa [nary] using h

theorem get_covLoop (xs ys : SMap ℤ R) (hx : xs.Sorted) (hy : ys.Sorted) (acc : R) :
    covLoop xs ys acc = acc + ∑ i ∈ xs.keys.toFinset, xs.get i * ys.get i := by
  fun_induction covLoop xs ys acc with
  | case1 xid a xt yid b yt acc acc' h ih =>
    have hacc : acc' = acc := by simp [acc', h.ne]
    have hx' := SMap.sorted_cons.1 hx
    have hk : xid ∉ (SMap.keys xt).toFinset := by
      simp only [List.mem_toFinset]; exact fun h => (hx'.1 xid h).false
    rw [ih hx'.2 hy, hacc]
    simp only [SMap.keys_cons, List.toFinset_cons]
    rw [Finset.sum_insert hk]
    have h0 : SMap.get ((yid, b) :: yt) xid = 0 := SMap.get_of_not_mem (fun hm => by
      rcases List.mem_cons.1 hm with h' | h'
      · simp at h'; omega
      · have := (SMap.sorted_cons.1 hy).1 xid h'; simp at this; omega)
    rw [h0, mul_zero, zero_add]
    congr 1
    refine Finset.sum_congr rfl (fun i hi => ?_)
    have : xid ≠ i := fun h => hk (h ▸ hi)
    simp [SMap.get_cons (xid, a), this]
  | case2 xid a xt yid b yt acc acc' h1 h2 ih =>
    have hacc : acc' = acc := by simp [acc', h2.ne']
    rw [ih hx hy.tail, hacc]
    congr 1
    refine Finset.sum_congr rfl (fun i hi => ?_)
    have : yid ≠ i := by
      rintro rfl
      rw [List.mem_toFinset] at hi
      rcases List.mem_cons.1 hi with h' | h'
      · simp at h'; omega
      · have := (SMap.sorted_cons.1 hx).1 _ h'; simp at this; omega
    rw [SMap.get_cons (yid, b)]; simp [this]
  | case3 xid a xt yid b yt acc acc' h1 h2 ih =>
    have he : xid = yid := by omega
    subst he
    have hacc : acc' = acc + a * b := by simp [acc']
    have hx' := SMap.sorted_cons.1 hx
    have hk : xid ∉ (SMap.keys xt).toFinset := by
      simp only [List.mem_toFinset]; exact fun h => (hx'.1 xid h).false
    rw [ih hx'.2 hy.tail, hacc]
    simp only [SMap.keys_cons, List.toFinset_cons]
    rw [Finset.sum_insert hk, SMap.get_cons (xid, a), SMap.get_cons (xid, b), add_assoc]
    simp only [if_true]
    congr 2
    refine Finset.sum_congr rfl (fun i hi => ?_)
    have : xid ≠ i := fun h => hk (h ▸ hi)
    simp [SMap.get_cons (xid, a), SMap.get_cons (xid, b), this]
  | case4 xs ys acc h =>
    rcases xs with _ | ⟨p, xt⟩
    · simp
    · rcases ys with _ | ⟨q, yt⟩
      · simp
      · exact absurd rfl (h p.1 p.2 xt q.1 q.2 yt rfl)

/-- `cov` is the inner product of the coefficients. -/
theorem cov_eq {x y : UReal R} (hx : x.WF) (hy : y.WF) : cov x y = x.toLin.cov y.toLin := by
  unfold cov
  rcases lt_trichotomy x.id 0 with hx0 | hx0 | hx0 <;> rcases lt_trichotomy y.id 0 with hy0 | hy0 | hy0
  · -- both dependent
    have a1 := not_lt.2 hx0.le; have a2 := not_lt.2 hy0.le
    simp only [hx0, hy0, a1, a2, false_and, and_false, if_false, and_self, if_true]
    rw [get_covLoop _ _ hx.sorted hy.sorted, zero_add,
      LinForm.cov_eq_sum (supported x) x.sigma.keys.toFinset (by simp [toLin, deps, hx0, a1])]
    refine Finset.sum_congr rfl (fun i _ => by simp [toLin, coef, hx0, hy0, a1, a2])
  · simp [hy0]
    rw [LinForm.cov_eq_sum' (supported y) ∅ (by simp [toLin, deps, hy0])]; simp
  · have a1 := not_lt.2 hx0.le; have a2 := not_lt.2 hy0.le
    simp only [hx0, hy0, a1, a2, false_and, and_false, if_false, and_self, if_true]
    rw [LinForm.cov_eq_sum' (supported y) {y.id} (by simp [toLin, deps, hy0])]
    simp only [Finset.sum_singleton, toLin, coef, hx0, hy0, a1, if_true, if_false, SMap.get]
    cases x.sigma.find? y.id <;> simp
  · simp [hx0]
    rw [LinForm.cov_eq_sum (supported x) ∅ (by simp [toLin, deps, hx0])]; simp
  · simp [hx0]
    rw [LinForm.cov_eq_sum (supported x) ∅ (by simp [toLin, deps, hx0])]; simp
  · simp [hx0]
    rw [LinForm.cov_eq_sum (supported x) ∅ (by simp [toLin, deps, hx0])]; simp
  · have a1 := not_lt.2 hx0.le; have a2 := not_lt.2 hy0.le
    simp only [hx0, hy0, a1, a2, false_and, and_false, if_false, and_self, if_true]
    rw [LinForm.cov_eq_sum (supported x) {x.id} (by simp [toLin, deps, hx0])]
    simp only [Finset.sum_singleton, toLin, coef, hx0, hy0, a2, if_true, if_false, SMap.get]
    cases y.sigma.find? x.id <;> simp
  · simp [hy0]
    rw [LinForm.cov_eq_sum' (supported y) ∅ (by simp [toLin, deps, hy0])]; simp
  · simp only [hx0, hy0, and_self, if_true]
    rw [LinForm.cov_eq_sum (supported x) {x.id} (by simp [toLin, deps, hx0])]
    simp only [Finset.sum_singleton, toLin, coef, hx0, hy0, if_true]
    split_ifs <;> simp

theorem s2_eq {x : UReal R} (hx : x.WF) (h : x.id < 0) : x.s2 = x.toLin.var := by
  unfold s2
  rw [SMap.foldl_add_eq x.sigma (fun p => p.2 * p.2) 0, zero_add,
    SMap.sum_map_eq x.sigma hx.sorted (fun _ v => v * v)]
  simp [LinForm.var, toLin, deps, coef, h, not_lt.2 h.le]

end ring

section ordered
variable {R : Type*} [CommRing R] [LinearOrder R] [IsStrictOrderedRing R]

theorem var_eq {x : UReal R} (hx : x.Valid) : var x = x.toLin.var := by
  unfold var
  rcases lt_trichotomy x.id 0 with h | h | h
  · simp only [ge_iff_le, not_le.2 h, false_or, leb_iff]
    split_ifs with h1
    · rw [hx.cache h h1, s2_eq hx.wf h]
    · exact s2_eq hx.wf h
  · simp [h, hx.wf.zero_sdev h, LinForm.var, toLin, deps]
  · simp [h.le, LinForm.var, toLin, deps, h, coef]

theorem valid_of_uncached {x : UReal R} (hx : x.WF) (h : x.sdev = -1) : x.Valid :=
  ⟨hx, fun _ h' => by rw [h] at h'; exact absurd h' (by simp)⟩

theorem valid_of_nonneg_id {x : UReal R} (hx : x.WF) (h : 0 ≤ x.id) : x.Valid :=
  ⟨hx, fun h' => absurd h' (not_lt.2 h)⟩

theorem valid_const (n : R) : (const n).Valid := valid_of_nonneg_id (wf_const n) le_rfl
theorem valid_default : (default' : UReal R).Valid := valid_of_nonneg_id wf_default le_rfl

theorem valid_mk' {k : ℤ} {n s : R} {x : UReal R} (hk : 0 < k) (h : mk' k n s = .ok x) : x.Valid := by
  refine valid_of_nonneg_id (wf_mk' hk.ne' h) ?_
  unfold mk' at h; split_ifs at h; cases h; exact hk.le

theorem valid_changeNom {x : UReal R} (hx : x.Valid) (n : R) : (x.changeNom n).Valid :=
  ⟨wf_changeNom hx.wf n, hx.cache⟩

theorem valid_unary {x : UReal R} (hx : x.Valid) (mu dx : R) : (unary x mu dx).Valid := by
  by_cases h : x.id < 0
  · exact valid_of_uncached (wf_unary hx.wf mu dx) (by simp [unary, h, not_lt.2 h.le])
  · refine valid_of_nonneg_id (wf_unary hx.wf mu dx) ?_
    unfold unary; split_ifs <;> simp <;> omega

theorem valid_nary {xs : List (UReal R × R)} (hx : ∀ p ∈ xs, p.1.WF) (mu : R) : (nary xs mu).Valid :=
  valid_of_uncached (wf_nary hx mu) rfl

theorem valid_binaryAssign {t x : UReal R} (ht : t.WF) (hx : x.WF) (mu dt dx : R) :
    (binaryAssign t x mu dt dx).Valid := valid_of_uncached (wf_binaryAssign ht hx mu dt dx) rfl

theorem toLin_binaryAssign {t x : UReal R} (ht : t.WF) (hx : x.WF) (mu dt dx : R) :
    (binaryAssign t x mu dt dx).toLin = t.toLin.comb x.toLin mu dt dx := by
  have hspill : ∀ j, (spill t dt).get j = dt * t.coef j := by
    intro j
    have h0 : SMap.get (if 0 < t.id then t.sigma.upsert t.id 0 (fun _ => t.sdev) else t.sigma) j = t.coef j := by
      unfold coef
      split_ifs with h1 h2 h3
      · rw [SMap.get_upsert ht.sorted]; simp [h2]
      · rw [SMap.get_upsert ht.sorted]; simp [h2, ht.nil h1.le]
      · rfl
      · rw [ht.nil (by omega)]; simp
    unfold spill
    generalize (if 0 < t.id then t.sigma.upsert t.id 0 (fun _ => t.sdev) else t.sigma) = sg at h0 ⊢
    dsimp only
    split_ifs with h1
    · rw [h0]; rw [eqb_iff] at h1; simp [h1]
    · rw [SMap.get_mapVal (by simp), h0, mul_comm]
  have hd := deps_binaryAssign ht (x := x) mu dt dx
  simp only [toLin, LinForm.comb, hd]
  congr 1
  funext j
  have : (binaryAssign t x mu dt dx).coef j = SMap.get (addInto (spill t dt) x dx) j := by
    simp [coef, binaryAssign, invalidId, spill]
  rw [this, get_addInto (sorted_spill ht dt) hx, hspill, coef_eq_lookup (x := x)]
  cases x.lookup j <;> simp

theorem toLin_binaryAssignSelf {t : UReal R} (ht : t.WF) (mu dt dx : R) :
    (binaryAssignSelf t mu dt dx).toLin = t.toLin.comb t.toLin mu dt dx := by
  simp only [toLin, LinForm.comb, deps_binaryAssignSelf, Finset.union_self]
  congr 1
  funext j
  simp only [binaryAssignSelf, coef]
  by_cases h1 : 0 < t.id
  · simp only [h1, or_true, if_true]
    split_ifs <;> ring
  · by_cases h2 : t.id < 0
    · simp only [h1, h2, if_true, if_false]
      rw [SMap.get_mapVal (by simp)]; ring
    · simp [h1, h2]

theorem valid_binaryAssignSelf {t : UReal R} (ht : t.Valid) (mu dt dx : R) :
    (binaryAssignSelf t mu dt dx).Valid := by
  have hwf : (binaryAssignSelf t mu dt dx).WF :=
    wf_binaryAssignSelf ht.wf mu dt dx (fun _ => by simp [CCmp.ltb])
  refine ⟨hwf, ?_⟩
  intro h h0
  have hid : t.id < 0 := h
  rw [s2_eq hwf h, toLin_binaryAssignSelf ht.wf]
  have hsd : (binaryAssignSelf t mu dt dx).sdev = if 0 < t.sdev then t.sdev * (dt + dx) else t.sdev := by
    simp [binaryAssignSelf, not_lt.2 hid.le]
  have hv : (t.toLin.comb t.toLin mu dt dx).var = (dt + dx) * (dt + dx) * t.toLin.var := by
    simp only [LinForm.var, LinForm.comb, Finset.union_self, Finset.mul_sum]
    refine Finset.sum_congr rfl (fun i _ => by ring)
  rw [hv, ← s2_eq ht.wf hid]
  rw [hsd] at h0 ⊢
  split_ifs at h0 ⊢ with h1
  · rw [← ht.cache hid h1.le]; ring
  · have h0' : t.sdev = 0 := le_antisymm (not_lt.1 h1) h0
    rw [← ht.cache hid h0, h0']; ring

theorem toLin_changeNom (x : UReal R) (n : R) : (x.changeNom n).toLin = ⟨n, x.toLin.deps, x.toLin.coef⟩ := rfl

end ordered

section real

theorem varL_nonneg (a : LinForm ℝ) : 0 ≤ a.var := Finset.sum_nonneg (fun _ _ => mul_self_nonneg _)

theorem s_eq {x : UReal ℝ} (hx : x.Valid) : x.s = Real.sqrt x.toLin.var := by
  unfold s
  rcases lt_trichotomy x.id 0 with h | h | h
  · simp only [ge_iff_le, not_le.2 h, if_false, leb_iff]
    split_ifs with h1
    · rw [← s2_eq hx.wf h, ← hx.cache h h1, Real.sqrt_mul_self h1]
    · rw [csqrt_real, s2_eq hx.wf h]
  · simp [h, hx.wf.zero_sdev h, LinForm.var, toLin, deps]
  · simp [h.le, LinForm.var, toLin, deps, h, coef, Real.sqrt_mul_self_eq_abs]

theorem sCache_spec {x : UReal ℝ} (hx : x.Valid) :
    x.sCache.1 = x.s ∧ x.sCache.2.Valid ∧ x.sCache.2.toLin = x.toLin := by
  have hwf := wf_sCache hx.wf
  by_cases h1 : x.id ≥ 0
  · simp [sCache, s, h1, hx]
  · by_cases h2 : x.sdev < 0
    · have e : x.sCache = (Real.sqrt x.s2, { x with sdev := Real.sqrt x.s2 }) := by
        simp [sCache, h1, h2]
      have hs : x.s = Real.sqrt x.s2 := by simp [s, h1, h2]
      rw [e] at hwf ⊢
      refine ⟨hs.symm, ⟨hwf, fun _ _ => ?_⟩, ?_⟩
      · have : 0 ≤ x.s2 := by rw [s2_eq hx.wf (by omega)]; exact varL_nonneg _
        exact Real.mul_self_sqrt this
      · have h3 : ¬ (0 < x.id) := by omega
        simp only [toLin, deps, h3, if_false]; congr 1
        funext i; simp [coef, h3]
    · have e : x.sCache = (x.sdev, x) := by simp [sCache, h1, h2]
      rw [e]
      refine ⟨?_, hx, rfl⟩
      simp [s, h1, not_lt.1 h2]

theorem varCache_spec {x : UReal ℝ} (hx : x.Valid) :
    x.varCache.1 = x.var ∧ x.varCache.2.Valid ∧ x.varCache.2.toLin = x.toLin := by
  by_cases h1 : x.id ≥ 0
  · simp [varCache, var, h1, hx]
  · have e : x.varCache.2 = x.sCache.2 := by simp [varCache, sCache, h1]
    rw [e]
    refine ⟨?_, (sCache_spec hx).2⟩
    rw [var_eq hx]
    have e1 : x.varCache.1 = x.sCache.1 * x.sCache.1 := by simp [varCache, sCache, h1]
    rw [e1, (sCache_spec hx).1, s_eq hx, Real.mul_self_sqrt (varL_nonneg _)]

end real
end Unc.UReal
