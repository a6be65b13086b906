import Verif.Props.Float
import Verif.Lemmas.UReal2Ops

/-!
# C62: which identities are exact in floating point

Equalities of whole objects, for every format (any monotone odd rounding which does not change the numbers of the format), without any hypothesis on the
accuracy.
-/

namespace Unc.Props
open Unc.Spec UReal FP
variable {f : Fmt}

/-! ## laws of the operations -/

theorem fp_mul_comm (a b : FP f) : a * b = b * a := FP.ext (by rw [val_mul, val_mul, mul_comm])
theorem fp_add_comm (a b : FP f) : a + b = b + a := FP.ext (by rw [val_add, val_add, add_comm])
theorem fp_neg_one_mul (a : FP f) : -1 * a = -a := FP.ext (by rw [val_mul, val_neg, val_one, neg_one_mul, f.odd, a.rep]; rfl)
theorem fp_mul_neg_one (a : FP f) : a * -1 = -a := by rw [fp_mul_comm, fp_neg_one_mul]
theorem fp_add_neg (a : FP f) : a + -a = 0 := FP.ext (by rw [val_add, val_neg, add_neg_cancel, f.rd_zero]; rfl)
theorem fp_neg_neg (a : FP f) : - -a = a := FP.ext (by simp)
theorem fp_zero_mul (a : FP f) : 0 * a = 0 := FP.ext (by rw [val_mul, val_zero, zero_mul, f.rd_zero])
theorem fp_neg_add (a b : FP f) : -(a + b) = -a + -b := FP.ext (by
  rw [val_neg, val_add, val_add, val_neg, val_neg, ← f.odd]; congr 1; ring)
theorem fp_neg_sub (a b : FP f) : -(a - b) = b - a := FP.ext (by rw [val_neg, val_sub, val_sub, ← f.odd]; congr 1; ring)
theorem fp_neg_zero : (-0 : FP f) = 0 := FP.ext (by simp)
theorem fp_div_one (a : FP f) : a / 1 = a := FP.ext (by rw [val_div, val_one, div_one, a.rep])

/-! ## equality of objects -/

theorem ureal_ext {R : Type*} [Zero R] {x y : UReal R} (hx : x.WF) (hy : y.WF) (h1 : x.id < 0) (h2 : y.id = x.id) (hm : x.mu = y.mu) (hs : x.sdev = y.sdev)
    (hd : x.deps = y.deps) (hc : ∀ i, x.coef i = y.coef i) : x = y := by
  have h1' : y.id < 0 := by omega
  have e : x.sigma = y.sigma := by
    refine smap_ext hx.sorted hy.sorted (fun k => ?_)
    have c := hc k
    simp only [coef, h1, h1', not_lt.2 h1.le, not_lt.2 h1'.le, if_true, if_false, SMap.get] at c
    have d : k ∈ x.deps ↔ k ∈ y.deps := by rw [hd]
    simp only [deps, h1, h1', not_lt.2 h1.le, not_lt.2 h1'.le, if_true, if_false, List.mem_toFinset, ← SMap.find?_isSome] at d
    cases hfx : SMap.find? x.sigma k <;> cases hfy : SMap.find? y.sigma k <;> simp_all
  cases x; cases y
  simp_all

/-- the coefficients of the result of `binary` -/
theorem binary_coef {x y : UReal (FP f)} (hx : x.WF) (hy : y.WF) (bx : x.Below maxId) (by' : y.Below maxId) (mu dx dy : FP f) :
    ∃ z, binary x y mu dx dy = some z ∧ z.WF ∧ z.deps = x.deps ∪ y.deps ∧ z.mu = mu ∧ z.id = -1 ∧ z.sdev = -1 ∧
      ∀ i, z.coef i = dx * x.coef i + dy * y.coef i := by
  obtain ⟨z, hz, wz, dz, mz, iz, sz, cz⟩ := binary_spec hx hy bx by' mu dx dy
  refine ⟨z, hz, wz, dz, mz, iz, sz, fun i => ?_⟩
  rw [cz i, coef_eq_lookup, coef_eq_lookup]
  cases x.lookup i <;> cases y.lookup i <;> simp [fp_mul_comm _ 0, fp_zero_mul, fp_zero_add, fp_add_zero]

/-- two calls of `binary` with the same result -/
theorem binary_congr {x y x' y' : UReal (FP f)} (hx : x.WF) (hy : y.WF) (hx' : x'.WF) (hy' : y'.WF) (bx : x.Below maxId) (by' : y.Below maxId)
    (bx' : x'.Below maxId) (by'' : y'.Below maxId) {mu dx dy mu' dx' dy' : FP f} (hm : mu = mu') (hd : x.deps ∪ y.deps = x'.deps ∪ y'.deps)
    (hc : ∀ i, dx * x.coef i + dy * y.coef i = dx' * x'.coef i + dy' * y'.coef i) : binary x y mu dx dy = binary x' y' mu' dx' dy' := by
  obtain ⟨z, hz, wz, dz, mz, iz, sz, cz⟩ := binary_coef hx hy bx by' mu dx dy
  obtain ⟨z', hz', wz', dz', mz', iz', sz', cz'⟩ := binary_coef hx' hy' bx' by'' mu' dx' dy'
  rw [hz, hz']
  congr 1
  refine ureal_ext wz wz' (by omega) (by omega) (by rw [mz, mz', hm]) (by rw [sz, sz']) (by rw [dz, dz', hd]) (fun i => ?_)
  rw [cz i, cz' i, hc i]

/-! ## the identities -/

section
variable {x y : UReal (FP f)} (hx : x.WF) (hy : y.WF) (bx : x.Below maxId) (by' : y.Below maxId)

theorem covLoop_comm (xs ys : SMap ℤ (FP f)) (acc : FP f) : covLoop xs ys acc = covLoop ys xs acc := by
  fun_induction covLoop xs ys acc with
  | case1 xid a xt yid b yt acc acc' h ih =>
    have hacc : acc' = acc := by simp [acc', h.ne]
    rw [ih, hacc]
    conv_rhs => rw [covLoop]
    simp [h, h.ne', h.not_gt]
  | case2 xid a xt yid b yt acc acc' h1 h2 ih =>
    have hacc : acc' = acc := by simp [acc', h2.ne']
    rw [ih, hacc]
    conv_rhs => rw [covLoop]
    simp [h2, h2.ne]
  | case3 xid a xt yid b yt acc acc' h1 h2 ih =>
    have he : xid = yid := by omega
    subst he
    rw [ih]
    conv_rhs => rw [covLoop]
    simp [acc', fp_mul_comm a b]
  | case4 xs ys acc h =>
    rcases xs with _ | ⟨p, xt⟩
    · rcases ys with _ | ⟨q, yt⟩ <;> simp [covLoop]
    · rcases ys with _ | ⟨q, yt⟩
      · simp [covLoop]
      · exact absurd rfl (h p.1 p.2 xt q.1 q.2 yt rfl)

/-- **C62**: the covariance and the correlation are exactly symmetric. -/
theorem C62_cov_comm (x y : UReal (FP f)) : cov x y = cov y x ∧ corr x y = corr y x := by
  have key : cov x y = cov y x := by
    unfold cov
    rcases lt_trichotomy x.id 0 with hx0 | hx0 | hx0 <;> rcases lt_trichotomy y.id 0 with hy0 | hy0 | hy0
    · simp only [hx0, hy0, not_lt.2 hx0.le, not_lt.2 hy0.le, false_and, and_false, if_false, and_self, if_true]
      exact covLoop_comm _ _ _
    · simp [hy0]
    · simp only [hx0, hy0, not_lt.2 hx0.le, not_lt.2 hy0.le, false_and, and_false, if_false, and_self, if_true]
      cases SMap.find? x.sigma y.id <;> simp [fp_mul_comm]
    · simp [hx0]
    · simp [hx0, hy0]
    · simp [hx0]
    · simp only [hx0, hy0, not_lt.2 hx0.le, not_lt.2 hy0.le, false_and, and_false, if_false, and_self, if_true]
      cases SMap.find? y.sigma x.id <;> simp [fp_mul_comm]
    · simp [hy0]
    · simp only [hx0, hy0, and_self, if_true, fp_mul_comm x.sdev, eq_comm]
  exact ⟨key, by rw [corr, corr, key, fp_mul_comm]⟩

include hx hy bx by' in
/-- **C62**: sum and product are exactly commutative. -/
theorem C62_comm : add x y = add y x ∧ mul x y = mul y x := by
  constructor
  · exact binary_congr hx hy hy hx bx by' by' bx (fp_add_comm _ _) (Finset.union_comm _ _) (fun i => fp_add_comm _ _)
  · exact binary_congr hx hy hy hx bx by' by' bx (fp_mul_comm _ _) (Finset.union_comm _ _) (fun i => fp_add_comm _ _)

/-- an object which is exactly the number zero -/
def IsZero (z : UReal (FP f)) : Prop := z.mu = 0 ∧ (∀ i, z.coef i = 0) ∧ z.s = 0 ∧ z.var = 0 ∧ ∀ w : UReal (FP f), w.WF → cov z w = 0 ∧ cov w z = 0

theorem dot_zero (l : List (FP f × FP f)) (h : ∀ p ∈ l, p.1 = 0) : dot l 0 = 0 := by
  induction l with
  | nil => rfl
  | cons p t ih =>
    rw [dot, List.foldl_cons, h p List.mem_cons_self, fp_zero_mul, fp_add_zero]
    exact ih (fun q hq => h q (List.mem_cons_of_mem _ hq))

theorem isZero_of {z : UReal (FP f)} (hz : z.WF) (h1 : z.id = -1) (h2 : z.sdev = -1) (hm : z.mu = 0) (hc : ∀ i, z.coef i = 0) : IsZero z := by
  have hz0 : ∀ p ∈ z.repr', p.2 = 0 := by
    intro p hp
    have e : z.repr' = z.sigma := by unfold repr'; rw [h1]; rfl
    rw [e] at hp
    have := hc p.1
    rw [coef, h1, if_neg (by norm_num), if_pos (by norm_num), SMap.get, SMap.find?_of_mem hz.sorted (show (p.1, p.2) ∈ z.sigma from hp)] at this
    exact this
  have hp : ∀ w : UReal (FP f), w.WF → cov z w = 0 := by
    intro w hw
    rw [cov_dot hz hw]
    refine dot_zero _ (fun p hp => ?_)
    obtain ⟨q, hq, e⟩ := List.mem_filterMap.1 hp
    obtain ⟨b, -, rfl⟩ := Option.map_eq_some_iff.1 e
    exact hz0 q hq
  have h2' : z.s2 = 0 := by
    have := hp z hz
    have e : z.repr' = z.sigma := by unfold repr'; rw [h1]; rfl
    rwa [cov_dot hz hz, e, ← s2_dot hz] at this
  refine ⟨hm, hc, ?_, ?_, fun w hw => ⟨hp w hw, by rw [(C62_cov_comm w z).1]; exact hp w hw⟩⟩
  · refine FP.ext ?_
    rw [s_uncached (by omega) (by rw [h2]; simp), h2']; simp [f.rd_zero]
  · unfold UReal.var
    rw [if_neg, h2']
    rw [h1, h2]
    simp

include hx bx in
/-- **C62**: `x - x` is exactly zero, with uncertainty exactly zero and no covariance with anything. -/
theorem C62_sub_self : ∃ z, sub x x = some z ∧ IsZero z := by
  obtain ⟨z, hz, wz, -, mz, iz, sz, cz⟩ := binary_coef hx hx bx bx (x.mu - x.mu) 1 (-1)
  refine ⟨z, hz, isZero_of wz iz sz (mz.trans (FP.ext (by rw [val_sub, sub_self, f.rd_zero]; rfl))) (fun i => ?_)⟩
  rw [cz i, fp_one_mul, fp_neg_one_mul, fp_add_neg]

/-- **C62**: `-(-x)` has the numbers of `x`. -/
theorem C62_neg_neg (x : UReal (FP f)) : (neg (neg x)).mu = x.mu ∧ (∀ i, (neg (neg x)).coef i = x.coef i) ∧ (neg (neg x)).id = x.id := by
  have key : ∀ (x : UReal (FP f)) i, (neg x).coef i = -x.coef i := by
    intro x i
    have z : (0 : FP f) * -1 = 0 := fp_zero_mul _
    unfold neg unary
    rcases lt_trichotomy x.id 0 with h | h | h
    · have e : SMap.get (x.sigma.mapVal (fun v => v * -1)) i = SMap.get x.sigma i * -1 := SMap.get_mapVal z
      simp only [coef, not_lt.2 h.le, h, if_false, if_true, e]
      exact fp_mul_neg_one _
    · simp [coef, h, fp_neg_zero]
    · simp only [coef, h, if_true]
      split_ifs
      · exact fp_mul_neg_one _
      · exact fp_neg_zero.symm
  have hid : ∀ x : UReal (FP f), (neg x).id = x.id := by
    intro x; unfold neg unary; split_ifs <;> rfl
  have hmu : ∀ x : UReal (FP f), (neg x).mu = -x.mu := by
    intro x; unfold neg unary; split_ifs <;> rfl
  exact ⟨by rw [hmu, hmu, fp_neg_neg], fun i => by rw [key, key, fp_neg_neg], by rw [hid, hid]⟩

include hx hy bx by' in
/-- **C62**: `x - y` and `-(y - x)` are exactly equal. -/
theorem C62_sub_neg : sub x y = (sub y x).map neg := by
  obtain ⟨z, hz, wz, dz, mz, iz, sz, cz⟩ := binary_coef hx hy bx by' (x.mu - y.mu) 1 (-1)
  obtain ⟨z', hz', wz', dz', mz', iz', sz', cz'⟩ := binary_coef hy hx by' bx (y.mu - x.mu) 1 (-1)
  rw [sub, sub, hz, hz', Option.map_some]
  congr 1
  have hid : (neg z').id = -1 := by rw [neg, unary, if_neg (by omega), if_pos (by omega)]; exact iz'
  have hsd : (neg z').sdev = -1 := by rw [neg, unary, if_neg (by omega), if_pos (by omega)]
  have hmu : (neg z').mu = -z'.mu := by unfold neg unary; split_ifs <;> rfl
  refine ureal_ext wz (wf_unary wz' _ _) (by omega) (by rw [hid, iz]) ?_ (by rw [sz, hsd]) ?_ (fun i => ?_)
  · rw [mz, hmu, mz', fp_neg_sub]
  · rw [dz, neg, deps_unary, dz', Finset.union_comm]
  · have e : (neg z').coef i = -z'.coef i := by
      have e1 : SMap.get (z'.sigma.mapVal (fun v => v * -1)) i = SMap.get z'.sigma i * -1 := SMap.get_mapVal (fp_zero_mul _)
      rw [neg, unary, if_neg (by omega), if_pos (by omega), coef, coef, iz']
      simp only [show ¬ (0 : ℤ) < -1 by norm_num, show (-1 : ℤ) < 0 by norm_num, if_false, if_true, e1]
      exact fp_mul_neg_one _
    rw [cz i, e, cz' i, fp_one_mul, fp_one_mul, fp_neg_one_mul, fp_neg_one_mul, fp_neg_add, fp_neg_neg, fp_add_comm]

include hx bx in
/-- **C62**: adding 0, multiplying by 1 and dividing by 1 change nothing. -/
theorem C62_units : (∃ z, add x (const 0) = some z ∧ z.mu = x.mu ∧ z.deps = x.deps ∧ ∀ i, z.coef i = x.coef i) ∧
    (∃ z, mul x (const 1) = some z ∧ z.mu = x.mu ∧ z.deps = x.deps ∧ ∀ i, z.coef i = x.coef i) ∧
    (∃ z, div x (const 1) = some z ∧ z.mu = x.mu ∧ z.deps = x.deps ∧ ∀ i, z.coef i = x.coef i) := by
  have bc : ∀ a : FP f, (const a).Below maxId := by intro a i hi; simp [deps, const] at hi
  have cc : ∀ (a : FP f) i, (const a).coef i = 0 := by intro a i; simp [coef, const]
  have dc : ∀ a : FP f, (const a).deps = ∅ := by intro a; simp [deps, const]
  have m0 : ∀ a : FP f, a * 0 = 0 := fun a => by rw [fp_mul_comm, fp_zero_mul]
  refine ⟨?_, ?_, ?_⟩
  · obtain ⟨z, hz, -, dz, mz, -, -, cz⟩ := binary_coef hx (wf_const 0) bx (bc 0) (x.mu + (const (0 : FP f)).mu) 1 1
    refine ⟨z, hz, mz.trans (fp_add_zero _), by rw [dz, dc, Finset.union_empty], fun i => ?_⟩
    rw [cz i, cc, m0, fp_add_zero, fp_one_mul]
  · obtain ⟨z, hz, -, dz, mz, -, -, cz⟩ := binary_coef hx (wf_const 1) bx (bc 1) (x.mu * (const (1 : FP f)).mu) (const (1 : FP f)).mu x.mu
    refine ⟨z, hz, mz.trans (fp_mul_one _), by rw [dz, dc, Finset.union_empty], fun i => ?_⟩
    rw [cz i, cc, m0, fp_add_zero]
    exact fp_one_mul _
  · obtain ⟨z, hz, -, dz, mz, -, -, cz⟩ := binary_coef hx (wf_const 1) bx (bc 1) (x.mu * (1 / (const (1 : FP f)).mu)) (1 / (const (1 : FP f)).mu)
      (-(x.mu * (1 / (const (1 : FP f)).mu)) * (1 / (const (1 : FP f)).mu))
    have h1 : (1 : FP f) / (const (1 : FP f)).mu = 1 := fp_div_one 1
    refine ⟨z, hz, mz.trans (by rw [h1]; exact fp_mul_one _), by rw [dz, dc, Finset.union_empty], fun i => ?_⟩
    rw [cz i, cc, m0, fp_add_zero, h1]
    exact fp_one_mul _

/-- what `binary_assign` computes -/
theorem binaryAssign_coef {t x : UReal (FP f)} (ht : t.WF) (hx : x.WF) (mu dt dx : FP f) (i : ℤ) :
    (binaryAssign t x mu dt dx).coef i = dt * t.coef i + dx * x.coef i := by
  have hspill : (spill t dt).get i = dt * t.coef i := by
    have h0 : SMap.get (if 0 < t.id then t.sigma.upsert t.id 0 (fun _ => t.sdev) else t.sigma) i = t.coef i := by
      unfold coef
      split_ifs with h1 h2 h3
      · rw [SMap.get_upsert ht.sorted]; simp [h2]
      · rw [SMap.get_upsert ht.sorted]; simp [h2, ht.nil h1.le]
      · rfl
      · rw [ht.nil (by omega)]; simp
    unfold spill
    generalize (if 0 < t.id then t.sigma.upsert t.id 0 (fun _ => t.sdev) else t.sigma) = sg at h0 ⊢
    dsimp only
    split_ifs with h1
    · rw [h0]
      have : dt = 1 := FP.ext (by simpa using h1)
      rw [this, fp_one_mul]
    · rw [SMap.get_mapVal (f := fun v => v * dt) (fp_zero_mul _), h0, fp_mul_comm]
  have : (binaryAssign t x mu dt dx).coef i = SMap.get (addInto (spill t dt) x dx) i := by
    simp [coef, binaryAssign, invalidId, spill]
  rw [this, get_addInto (sorted_spill ht dt) hx, hspill, coef_eq_lookup (x := x)]
  cases x.lookup i <;> simp [fp_mul_comm _ 0, fp_zero_mul, fp_add_zero]

theorem assign_binary {t x : UReal (FP f)} (ht : t.WF) (hx : x.WF) (bt : t.Below maxId) (bx : x.Below maxId) (mu dt dx : FP f) :
    some (binaryAssign t x mu dt dx) = binary t x mu dt dx := by
  obtain ⟨z, hz, wz, dz, mz, iz, sz, cz⟩ := binary_coef ht hx bt bx mu dt dx
  rw [hz]
  congr 1
  refine ureal_ext (wf_binaryAssign ht hx _ _ _) wz (by simp [binaryAssign, invalidId]) (by simp [iz, binaryAssign, invalidId]) (by rw [mz]; rfl)
    (by rw [sz]; rfl) (by rw [dz, deps_binaryAssign ht]) (fun i => ?_)
  rw [cz i, binaryAssign_coef ht hx]

include hx hy bx by' in
/-- **C62**: the assignments `+= -= *= /=` give exactly the object of the operators, for different objects. -/
theorem C62_assign : some (addAssign x y) = add x y ∧ some (subAssign x y) = sub x y ∧ some (mulAssign x y) = mul x y ∧ some (divAssign x y) = div x y :=
  ⟨assign_binary hx hy bx by' _ _ _, assign_binary hx hy bx by' _ _ _, assign_binary hx hy bx by' _ _ _, assign_binary hx hy bx by' _ _ _⟩

end

/-! ## what fails -/

/-- the number `m / 2 ^ k` of the format `double` -/
theorem rep_double {x : ℝ} (e N : ℤ) (h1 : (2 : ℝ) ^ e ≤ x) (h2 : x < 2 ^ (e + 1)) (h : x = N * 2 ^ (e - (53 : ℕ) + 1)) : binary64.rd x = x := by
  have hq := two_zpow_pos (e - (53 : ℕ) + 1)
  rw [bits_val _ e N h1 h2 (by rw [h, sub_mul]; exact sub_le_self _ (by positivity)) (by rw [h, add_mul]; exact lt_add_of_pos_right _ (by positivity)), ← h]

/-- 49 as a `double` -/
noncomputable def fp49 : FP binary64 := ⟨49, rep_double 5 (49 * 2 ^ 47) (by norm_num) (by norm_num) (by norm_num)⟩

theorem inv49 : (1 / fp49).val = 5882252574524729 / 2 ^ 58 := by
  change binary64.rd (1 / 49) = _
  rw [bits_val _ (-6) 5882252574524729 (by norm_num) (by norm_num) (by norm_num) (by norm_num)]
  norm_num

theorem mean49 : (fp49 * (1 / fp49)).val = 1 - 1 / 2 ^ 53 := by
  rw [val_mul, inv49]
  change binary64.rd (49 * _) = _
  rw [bits_val _ (-1) (2 ^ 53 - 1) (by norm_num) (by norm_num) (by norm_num) (by norm_num)]
  norm_num

/-- **C62**, what fails: in `double` the quotient of two numbers without uncertainty is not the rounded quotient: `UReal(49) / UReal(49)` is not 1. -/
theorem C62_div_false : ∃ z, div (const fp49) (const fp49) = some z ∧ z.mu.val = 1 - 1 / 2 ^ 53 ∧ (fp49 / fp49).val = 1 := by
  obtain ⟨z, hz, -, -, mz, -, -, -⟩ := binary_coef (wf_const fp49) (wf_const fp49) (fun i hi => by simp [deps, const] at hi)
    (fun i hi => by simp [deps, const] at hi) (fp49 * (1 / fp49)) (1 / fp49) (-(fp49 * (1 / fp49)) * (1 / fp49))
  refine ⟨z, hz, by rw [mz, mean49], ?_⟩
  change binary64.rd (49 / 49) = 1
  norm_num
  exact binary64.one

/-- **C62**, what is true: the mean of a quotient is two roundings away from the quotient. -/
theorem C62_div_partial {u : ℝ} (hu : Acc f.rd u) {x y : UReal (FP f)} (hx : x.WF) (hy : y.WF) (bx : x.Below maxId) (by' : y.Below maxId) (h0 : y.mu.val ≠ 0) :
    ∃ z, div x y = some z ∧ |z.mu.val - x.mu.val / y.mu.val| ≤ ((1 + u) ^ 2 - 1) * |x.mu.val / y.mu.val| := by
  have u0 := hu.nonneg
  obtain ⟨z, hz, -, -, mz, -, -, -⟩ := binary_coef hx hy bx by' (x.mu * (1 / y.mu)) (1 / y.mu) (-(x.mu * (1 / y.mu)) * (1 / y.mu))
  refine ⟨z, hz, ?_⟩
  rw [mz, val_mul, val_div, val_one]
  have a := hu.err (1 / y.mu.val)
  generalize f.rd (1 / y.mu.val) = q at a ⊢
  have b := hu.err (x.mu.val * q)
  generalize f.rd (x.mu.val * q) = m at b ⊢
  have c : |x.mu.val * q - x.mu.val / y.mu.val| ≤ u * |x.mu.val / y.mu.val| := by
    have e : x.mu.val * q - x.mu.val / y.mu.val = x.mu.val * (q - 1 / y.mu.val) := by ring
    have e2 : x.mu.val / y.mu.val = x.mu.val * (1 / y.mu.val) := by ring
    rw [e, e2, abs_mul, abs_mul]
    have := mul_le_mul_of_nonneg_left a (abs_nonneg x.mu.val)
    linarith
  generalize x.mu.val * q = w at b c
  generalize x.mu.val / y.mu.val = v at c ⊢
  have d := abs_add_le (m - w) (w - v)
  have e := abs_add_le (w - v) v
  rw [sub_add_sub_cancel] at d
  rw [sub_add_cancel] at e
  have g : u * |w| ≤ u * ((1 + u) * |v|) := mul_le_mul_of_nonneg_left (by linarith) u0
  nlinarith

/-- 1 followed by 60 zeros in base two -/
noncomputable def fpBig : FP binary64 := ⟨2 ^ 60, rep_double 60 (2 ^ 52) (by norm_num) (by norm_num) (by norm_num)⟩

theorem big_add : (1 : FP binary64) + fpBig = fpBig := FP.ext (by
  rw [val_add]
  change binary64.rd (1 + 2 ^ 60) = 2 ^ 60
  rw [bits_val _ 60 (2 ^ 52) (by norm_num) (by norm_num) (by norm_num) (by norm_num)]
  norm_num)

/-- **C62**, what fails: the sum is not associative, neither the means nor the uncertainties: with `x = 1 ± 1`, `y = 2⁶⁰ x`, `(x + y) - y` is `0 ± 0` and
`x + (y - y)` is `1 ± 1`. -/
theorem C62_assoc_false : ∃ v w z t : UReal (FP binary64),
    add ⟨1, 1, 1, []⟩ ⟨1, fpBig, fpBig, []⟩ = some v ∧ sub v ⟨1, fpBig, fpBig, []⟩ = some w ∧
    sub (⟨1, fpBig, fpBig, []⟩ : UReal (FP binary64)) ⟨1, fpBig, fpBig, []⟩ = some z ∧ add ⟨1, 1, 1, []⟩ z = some t ∧
    w.mu = 0 ∧ w.coef 1 = 0 ∧ t.mu = 1 ∧ t.coef 1 = 1 := by
  have hsub : fpBig - fpBig = 0 := FP.ext (by rw [val_sub, sub_self, binary64.rd_zero]; rfl)
  refine ⟨⟨-1, -1, fpBig, [(1, fpBig)]⟩, ⟨-1, -1, 0, [(1, 0)]⟩, ⟨-1, -1, 0, [(1, 0)]⟩, ⟨-1, -1, 1, [(1, 1)]⟩, ?_, ?_, ?_, ?_, rfl, ?_, rfl, ?_⟩
  · simp [add, binary, SMap.upsert, fp_one_mul, big_add, invalidId]
  · simp [sub, binary, SMap.upsert, fp_one_mul, fp_neg_one_mul, fp_add_neg, hsub, invalidId]
  · simp [sub, binary, SMap.upsert, fp_one_mul, fp_neg_one_mul, fp_add_neg, hsub, invalidId]
  · simp [add, binary, SMap.upsert, fp_one_mul, fp_add_zero, invalidId]
  · simp [coef, SMap.get, SMap.find?]
  · simp [coef, SMap.get, SMap.find?]

/-! ## examples -/

example : ∃ z, sub (exThree binary64) (exThree binary64) = some z ∧ IsZero z :=
  C62_sub_self (exThree_wf _) (by intro i hi; simp [deps, exThree] at hi; rcases hi with h | h | h <;> subst h <;> decide)

example : mul (exThree binary64) ⟨2, fp49, fpBig, []⟩ = mul ⟨2, fp49, fpBig, []⟩ (exThree binary64) :=
  (C62_comm (exThree_wf _) ⟨by simp, fun _ => rfl, by simp, by simp⟩
    (by intro i hi; simp [deps, exThree] at hi; rcases hi with h | h | h <;> subst h <;> decide)
    (by intro i hi; simp [deps] at hi; subst hi; decide)).2

example : ∃ z, div (const fp49) (⟨2, 1, fp49, []⟩ : UReal (FP binary64)) = some z ∧
    |z.mu.val - fp49.val / fp49.val| ≤ ((1 + (1 / 2) ^ 53) ^ 2 - 1) * |fp49.val / fp49.val| :=
  C62_div_partial acc_double (wf_const fp49) ⟨by simp, fun _ => rfl, by simp, by simp⟩ (fun i hi => by simp [deps, const] at hi)
    (by intro i hi; simp [deps] at hi; subst hi; decide) (by simp [fp49])

example : some (divAssign (exThree binary64) ⟨2, fp49, fpBig, []⟩) = div (exThree binary64) ⟨2, fp49, fpBig, []⟩ :=
  (C62_assign (exThree_wf _) ⟨by simp, fun _ => rfl, by simp, by simp⟩
    (by intro i hi; simp [deps, exThree] at hi; rcases hi with h | h | h <;> subst h <;> decide)
    (by intro i hi; simp [deps] at hi; subst hi; decide)).2.2.2

example : cov (exThree binary64) ⟨2, fp49, fpBig, []⟩ = cov ⟨2, fp49, fpBig, []⟩ (exThree binary64) := (C62_cov_comm _ _).1

example : (neg (neg (exThree binary64))).coef 2 = (exThree binary64).coef 2 := (C62_neg_neg _).2.1 2

example : sub (exThree binary64) ⟨2, fp49, fpBig, []⟩ = (sub ⟨2, fp49, fpBig, []⟩ (exThree binary64)).map neg :=
  C62_sub_neg (exThree_wf _) ⟨by simp, fun _ => rfl, by simp, by simp⟩
    (by intro i hi; simp [deps, exThree] at hi; rcases hi with h | h | h <;> subst h <;> decide)
    (by intro i hi; simp [deps] at hi; subst hi; decide)

example := C62_units (exThree_wf binary64)
  (by intro i hi; simp [deps, exThree] at hi; rcases hi with h | h | h <;> subst h <;> decide)

end Unc.Props
