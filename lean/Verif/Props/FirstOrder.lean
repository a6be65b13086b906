import Verif.Lemmas.World
import Mathlib.Tactic.NormNum
import Mathlib.Tactic.FieldSimp
import Mathlib.Tactic.Positivity
import Mathlib.Tactic.FinCases

/-!
# Properties of the first-order type `UReal` (C01-C06, C16, C47)

`Valid` are the class invariants (every value a program can build satisfies them, see
`reachable_valid` in `Verif/Props/Programs.lean`); `Below maxId` says that no id is the largest `int`.
-/

namespace Unc.Props
open Unc Unc.Spec UReal

/-! Concrete values used to show that hypotheses can be met: `ex1` is elementary, `ex2` and `ex3` depend on
several variables (`ex3` with a cached uncertainty), `ex0` is a constant. -/

/-- elementary variable 1 with mean 5 and uncertainty 3 -/
def ex1 : UReal ℝ := ⟨1, 3, 5, []⟩
/-- depends on variables 1 and 2 -/
def ex2 : UReal ℝ := ⟨-1, -1, 7, [(1, 2), (2, -4)]⟩
/-- depends on variables 1 and 3, uncertainty 5 cached -/
def ex3 : UReal ℝ := ⟨-1, 5, -2, [(1, 3), (3, 4)]⟩
/-- a constant -/
def ex0 : UReal ℝ := UReal.const 2

theorem valid_ex1 : ex1.Valid := valid_of_nonneg_id
  ⟨by simp [ex1], by simp [ex1], by simp [ex1], by simp [ex1]⟩ (by simp [ex1])
theorem valid_ex2 : ex2.Valid :=
  ⟨⟨by simp [ex2], by simp [ex2], by simp [ex2, SMap.Sorted], by simp [ex2]⟩,
    fun _ h => by simp only [ex2] at h; norm_num at h⟩
theorem valid_ex3 : ex3.Valid :=
  ⟨⟨by simp [ex3], by simp [ex3], by simp [ex3, SMap.Sorted], by simp [ex3]⟩,
    fun _ _ => by simp [ex3, s2]; norm_num⟩
theorem below_ex1 : ex1.Below maxId := by simp [Below, ex1, deps, maxId]
theorem below_ex2 : ex2.Below maxId := by simp [Below, ex2, deps, maxId]
theorem below_ex3 : ex3.Below maxId := by simp [Below, ex3, deps, maxId]

section
variable {R : Type*} [CommRing R] [LinearOrder R] [IsStrictOrderedRing R]

/-! ## C01 -/

/-- **C01** `binary`: no undefined behaviour, requested mean, covariance with every observer is the linear
combination. -/
theorem C01_binary_linear {x y : UReal R} (hx : x.Valid) (hy : y.Valid)
    (bx : x.Below maxId) (by' : y.Below maxId) (mu dx dy : R) :
    ∃ z, binary x y mu dx dy = some z ∧ z.Valid ∧ z.n = mu ∧
      ∀ w : UReal R, w.Valid → cov z w = dx * cov x w + dy * cov y w := by
  obtain ⟨z, e, hz, hl, hs, -⟩ := binary_toLin hx.wf hy.wf bx by' mu dx dy
  refine ⟨z, e, valid_of_uncached hz hs, congrArg LinForm.mean hl, fun w hw => ?_⟩
  rw [cov_eq hz hw.wf, hl, LinForm.cov_comb (supported w), cov_eq hx.wf hw.wf, cov_eq hy.wf hw.wf]

/-- **C01** `unary`. -/
theorem C01_unary_linear {x : UReal R} (hx : x.Valid) (mu dx : R) :
    (unary x mu dx).Valid ∧ (unary x mu dx).n = mu ∧
      ∀ w : UReal R, w.Valid → cov (unary x mu dx) w = dx * cov x w := by
  refine ⟨valid_unary hx mu dx, congrArg LinForm.mean (toLin_unary x mu dx), fun w hw => ?_⟩
  rw [cov_eq (wf_unary hx.wf mu dx) hw.wf, toLin_unary, LinForm.cov_scale, cov_eq hx.wf hw.wf]

/-- The variance of the result, from the covariances of the operands (C01 and C02 together). -/
theorem C01_binary_var {x y : UReal R} (hx : x.Valid) (hy : y.Valid)
    (bx : x.Below maxId) (by' : y.Below maxId) (mu dx dy : R) :
    ∃ z, binary x y mu dx dy = some z ∧
      var z = dx ^ 2 * var x + 2 * dx * dy * cov x y + dy ^ 2 * var y := by
  obtain ⟨z, e, hz, hl, hs, -⟩ := binary_toLin hx.wf hy.wf bx by' mu dx dy
  refine ⟨z, e, ?_⟩
  rw [var_eq (valid_of_uncached hz hs), hl, ← LinForm.cov_self,
    LinForm.cov_comb ((supported x).comb (supported y) mu dx dy),
    LinForm.cov_comm x.toLin, LinForm.cov_comm y.toLin,
    LinForm.cov_comb (supported x), LinForm.cov_comb (supported y),
    var_eq hx, var_eq hy, cov_eq hx.wf hy.wf, LinForm.cov_self, LinForm.cov_self,
    LinForm.cov_comm y.toLin x.toLin]
  ring

example : ∃ z, binary ex2 ex3 1 10 100 = some z ∧ var z = 10 ^ 2 * 20 + 2 * 10 * 100 * 6 + 100 ^ 2 * 25 := by
  obtain ⟨z, e, h⟩ := C01_binary_var valid_ex2 valid_ex3 below_ex2 below_ex3 1 10 100
  refine ⟨z, e, h.trans ?_⟩
  have h1 : ¬ (0 : ℝ) ≤ -1 := by norm_num
  have h2 : (0 : ℝ) ≤ 5 := by norm_num
  simp [var, cov, ex2, ex3, s2, covLoop, h1]; norm_num

end

/-- C01 at work: operands share variable 1 only, one of them with a cached uncertainty. -/
example : ∃ z, binary ex2 ex3 1 10 100 = some z ∧ cov z ex1 = 10 * (2 * 3) + 100 * (3 * 3) := by
  obtain ⟨z, e, -, -, h⟩ := C01_binary_linear valid_ex2 valid_ex3 below_ex2 below_ex3 1 10 100
  refine ⟨z, e, ?_⟩
  rw [h ex1 valid_ex1]
  simp [cov, ex1, ex2, ex3, SMap.find?]

/-! ## C02 -/
section
variable {R : Type*} [CommRing R] [LinearOrder R] [IsStrictOrderedRing R]

/-- **C02** symmetry. -/
theorem C02_cov_symm {x y : UReal R} (hx : x.Valid) (hy : y.Valid) : cov x y = cov y x := by
  rw [cov_eq hx.wf hy.wf, cov_eq hy.wf hx.wf, LinForm.cov_comm]

/-- **C02** `cov(x, x) == var(x)`. -/
theorem C02_cov_self {x : UReal R} (hx : x.Valid) : cov x x = var x := by
  rw [cov_eq hx.wf hx.wf, var_eq hx, LinForm.cov_self]

example : cov ex2 ex2 = 20 := by
  rw [C02_cov_self valid_ex2]
  have h1 : ¬ (0 : ℝ) ≤ -1 := by norm_num
  simp [var, ex2, s2, h1]; norm_num

/-- **C02** positive semidefiniteness for every finite family of variables. -/
theorem C02_psd {ι : Type*} [Fintype ι] (x : ι → UReal R) (hx : ∀ i, (x i).Valid) (a : ι → R) :
    0 ≤ ∑ i, ∑ j, a i * a j * cov (x i) (x j) := by
  classical
  let S : Finset ℤ := Finset.univ.biUnion (fun i => (x i).deps)
  have hS : ∀ i, (x i).toLin.deps ⊆ S := fun i => Finset.subset_biUnion_of_mem (fun i => (x i).deps) (Finset.mem_univ i)
  have h : ∑ i, ∑ j, a i * a j * cov (x i) (x j) = ∑ k ∈ S, (∑ i, a i * (x i).coef k) ^ 2 := by
    calc ∑ i, ∑ j, a i * a j * cov (x i) (x j)
        = ∑ i, ∑ j, ∑ k ∈ S, (a i * (x i).coef k) * (a j * (x j).coef k) := by
          refine Finset.sum_congr rfl (fun i _ => Finset.sum_congr rfl (fun j _ => ?_))
          rw [cov_eq (hx i).wf (hx j).wf, LinForm.cov_eq_sum (supported (x i)) S (hS i), Finset.mul_sum]
          refine Finset.sum_congr rfl (fun k _ => ?_)
          simp only [toLin]; ring
      _ = ∑ k ∈ S, ∑ i, ∑ j, (a i * (x i).coef k) * (a j * (x j).coef k) := by
          rw [Finset.sum_comm (s := S)]
          exact Finset.sum_congr rfl (fun i _ => Finset.sum_comm)
      _ = _ := by
          refine Finset.sum_congr rfl (fun k _ => ?_)
          rw [sq, Finset.sum_mul_sum]
  rw [h]
  exact Finset.sum_nonneg (fun k _ => sq_nonneg _)

end

/-- **C02** the standard deviation is the non-negative square root of the variance. -/
theorem C02_s_sq {x : UReal ℝ} (hx : x.Valid) : 0 ≤ x.s ∧ x.s * x.s = var x := by
  rw [s_eq hx, var_eq hx]
  exact ⟨Real.sqrt_nonneg _, Real.mul_self_sqrt (varL_nonneg _)⟩

/-- **C02** symmetry needs no arithmetic law but commutativity of the product (true for IEEE numbers). -/
theorem C02_cov_symm_noarith {R : Type*} [Zero R] [Add R] [Mul R] (hcomm : ∀ a b : R, a * b = b * a)
    (x y : UReal R) : cov x y = cov y x := by
  have hl : ∀ (xs ys : SMap ℤ R) (acc : R), covLoop xs ys acc = covLoop ys xs acc := by
    intro xs ys acc
    fun_induction covLoop xs ys acc with
    | case1 xid a xt yid b yt acc acc' h ih =>
      rw [ih]
      conv_rhs => rw [covLoop]
      simp only [h.ne', not_lt.2 h.le, h, if_false, if_true]
      simp [acc', h.ne]
    | case2 xid a xt yid b yt acc acc' h1 h2 ih =>
      rw [ih]
      conv_rhs => rw [covLoop]
      simp only [h2.ne, h2, if_false, if_true]
      simp [acc', h2.ne']
    | case3 xid a xt yid b yt acc acc' h1 h2 ih =>
      have : xid = yid := by omega
      subst this
      rw [ih]
      conv_rhs => rw [covLoop]
      simp [acc', hcomm a b]
    | case4 xs ys acc h =>
      rcases xs with _ | ⟨p, xt⟩
      · rcases ys with _ | ⟨q, yt⟩ <;> simp [covLoop]
      · rcases ys with _ | ⟨q, yt⟩
        · simp [covLoop]
        · exact absurd rfl (h p.1 p.2 xt q.1 q.2 yt rfl)
  unfold cov
  rcases lt_trichotomy x.id 0 with hx0 | hx0 | hx0 <;> rcases lt_trichotomy y.id 0 with hy0 | hy0 | hy0
  · simp [hx0, hy0, not_lt.2 hx0.le, not_lt.2 hy0.le, hl]
  · simp [hy0]
  · simp only [hx0, hy0, not_lt.2 hx0.le, not_lt.2 hy0.le, false_and, and_false, and_self, if_true, if_false]
    cases x.sigma.find? y.id <;> simp [hcomm]
  · simp [hx0]
  · simp [hx0]
  · simp [hx0]
  · simp only [hx0, hy0, not_lt.2 hx0.le, not_lt.2 hy0.le, false_and, and_false, and_self, if_true, if_false]
    cases y.sigma.find? x.id <;> simp [hcomm]
  · simp [hy0]
  · simp only [hx0, hy0, and_self, if_true, eq_comm, hcomm x.sdev y.sdev]

example : cov (⟨-1, -1, 7, [(1, 2), (2, -4)]⟩ : UReal ℤ) ⟨-1, 5, -2, [(1, 3), (3, 4)]⟩ = cov ⟨-1, 5, -2, [(1, 3), (3, 4)]⟩ ⟨-1, -1, 7, [(1, 2), (2, -4)]⟩ :=
  C02_cov_symm_noarith mul_comm _ _

example : cov ex2 ex3 = cov ex3 ex2 ∧ cov ex2 ex3 = 6 := by
  refine ⟨C02_cov_symm valid_ex2 valid_ex3, ?_⟩
  simp [cov, ex2, ex3, covLoop]; norm_num

example : ex2.s * ex2.s = 20 := by
  rw [(C02_s_sq valid_ex2).2]
  have : ¬ (0 : ℝ) ≤ -1 := by norm_num
  simp [var, ex2, s2, this]; norm_num

/-- a family of three correlated variables, non-trivial coefficients -/
example : 0 ≤ ∑ i, ∑ j, (![1, -2, 3] : Fin 3 → ℝ) i * ![1, -2, 3] j * cov (![ex1, ex2, ex3] i) (![ex1, ex2, ex3] j) :=
  C02_psd ![ex1, ex2, ex3] (by intro i; fin_cases i; exacts [valid_ex1, valid_ex2, valid_ex3]) _

/-! ## C03 -/

/-- **C03** correlation is bounded by one. -/
theorem C03_corr_le_one {x y : UReal ℝ} (hx : x.Valid) (hy : y.Valid) (hxs : x.s ≠ 0) (hys : y.s ≠ 0) :
    |corr x y| ≤ 1 := by
  have h1 := C02_s_sq hx
  have h2 := C02_s_sq hy
  have px : 0 < x.s := lt_of_le_of_ne h1.1 (Ne.symm hxs)
  have py : 0 < y.s := lt_of_le_of_ne h2.1 (Ne.symm hys)
  have hcs : cov x y ^ 2 ≤ (x.s * y.s) ^ 2 := by
    have e : (x.s * y.s) ^ 2 = var x * var y := by rw [← h1.2, ← h2.2]; ring
    let S := x.deps ∪ y.deps
    have ex : var x = ∑ k ∈ S, x.coef k ^ 2 := by
      rw [← C02_cov_self hx, cov_eq hx.wf hx.wf, LinForm.cov_eq_sum (supported x) S Finset.subset_union_left]
      exact Finset.sum_congr rfl (fun k _ => by simp only [toLin]; ring)
    have ey : var y = ∑ k ∈ S, y.coef k ^ 2 := by
      rw [← C02_cov_self hy, cov_eq hy.wf hy.wf, LinForm.cov_eq_sum (supported y) S Finset.subset_union_right]
      exact Finset.sum_congr rfl (fun k _ => by simp only [toLin]; ring)
    have ec : cov x y = ∑ k ∈ S, x.coef k * y.coef k := by
      rw [cov_eq hx.wf hy.wf, LinForm.cov_eq_sum (supported x) S Finset.subset_union_left]; rfl
    rw [e, ex, ey, ec]
    exact Finset.sum_mul_sq_le_sq_mul_sq S _ _
  have pp : 0 < x.s * y.s := mul_pos px py
  unfold corr
  rw [abs_div, abs_of_pos pp, div_le_one pp]
  exact abs_le_of_sq_le_sq hcs pp.le

example : |corr ex2 ex3| ≤ 1 := by
  refine C03_corr_le_one valid_ex2 valid_ex3 ?_ ?_
  · intro h
    have := (C02_s_sq valid_ex2).2
    have h1 : ¬ (0 : ℝ) ≤ -1 := by norm_num
    rw [h] at this; simp [var, ex2, s2, h1] at this; norm_num at this
  · simp [s, ex3]

/-! ## C04 -/

/-- What a user can observe: mean, uncertainty, covariance with every variable. -/
def ObsEq (x y : UReal ℝ) : Prop :=
  x.n = y.n ∧ x.s = y.s ∧ var x = var y ∧ ∀ w : UReal ℝ, w.Valid → cov x w = cov y w

theorem obsEq_of_equiv {x y : UReal ℝ} (hx : x.Valid) (hy : y.Valid) (hn : x.n = y.n)
    (hc : ∀ i, x.coef i = y.coef i) : ObsEq x y := by
  have hcov : ∀ w : UReal ℝ, w.Valid → cov x w = cov y w := by
    intro w hw
    rw [cov_eq hx.wf hw.wf, cov_eq hy.wf hw.wf, LinForm.cov_eq_sum' (supported w) _ subset_rfl,
      LinForm.cov_eq_sum' (supported w) _ subset_rfl]
    exact Finset.sum_congr rfl (fun i _ => by simp only [toLin, hc])
  have hvar : var x = var y := by
    rw [← C02_cov_self hx, ← C02_cov_self hy, hcov x hx, C02_cov_symm hy hx, hcov y hy]
  refine ⟨hn, ?_, hvar, hcov⟩
  have h1 := C02_s_sq hx
  have h2 := C02_s_sq hy
  have : x.s * x.s = y.s * y.s := by rw [h1.2, h2.2, hvar]
  exact (mul_self_inj h1.1 h2.1).1 this

/-- Values a program can hold: class invariants and ids below the sentinel. -/
structure Ok (x : UReal ℝ) : Prop where
  valid : x.Valid
  below : x.Below maxId

theorem ok_ex1 : Ok ex1 := ⟨valid_ex1, below_ex1⟩
theorem ok_ex2 : Ok ex2 := ⟨valid_ex2, below_ex2⟩
theorem ok_ex3 : Ok ex3 := ⟨valid_ex3, below_ex3⟩

theorem binary_ok {x y : UReal ℝ} (hx : Ok x) (hy : Ok y) (mu dx dy : ℝ) :
    ∃ z, binary x y mu dx dy = some z ∧ Ok z ∧ z.mu = mu ∧ ∀ i, z.coef i = dx * x.coef i + dy * y.coef i := by
  obtain ⟨z, e, hz, hl, hs, -⟩ := binary_toLin hx.valid.wf hy.valid.wf hx.below hy.below mu dx dy
  refine ⟨z, e, ⟨valid_of_uncached hz hs, ?_⟩, congrArg LinForm.mean hl, fun i => congrFun (congrArg LinForm.coef hl) i⟩
  intro i hi
  have : i ∈ (x.toLin.comb y.toLin mu dx dy).deps := hl ▸ hi
  rcases Finset.mem_union.1 this with h | h
  · exact hx.below i h
  · exact hy.below i h

theorem neg_ok {x : UReal ℝ} (hx : Ok x) : Ok (neg x) ∧ (neg x).mu = -x.mu ∧ ∀ i, (neg x).coef i = - x.coef i := by
  refine ⟨⟨valid_unary hx.valid _ _, ?_⟩, congrArg LinForm.mean (toLin_unary x _ _), fun i => ?_⟩
  · intro i hi; exact hx.below i (by rwa [neg, deps_unary] at hi)
  · rw [neg, coef_unary]; ring

/-- Two expressions are observationally equal and neither hits undefined behaviour. -/
def SameValue (a b : Option (UReal ℝ)) : Prop := ∃ x y, a = some x ∧ b = some y ∧ ObsEq x y

/-- **C04** `x + y` and `y + x`. -/
theorem C04_add_comm {x y : UReal ℝ} (hx : Ok x) (hy : Ok y) : SameValue (add x y) (add y x) := by
  obtain ⟨a, ea, oa, ma, ca⟩ := binary_ok hx hy (x.mu + y.mu) 1 1
  obtain ⟨b, eb, ob, mb, cb⟩ := binary_ok hy hx (y.mu + x.mu) 1 1
  exact ⟨a, b, ea, eb, obsEq_of_equiv oa.valid ob.valid (by simp [UReal.n, ma, mb, add_comm])
    (fun i => by rw [ca, cb]; ring)⟩

example : SameValue (add ex2 ex3) (add ex3 ex2) := C04_add_comm ok_ex2 ok_ex3

/-- **C04** `(x + y) + z` and `x + (y + z)`. -/
theorem C04_add_assoc {x y z : UReal ℝ} (hx : Ok x) (hy : Ok y) (hz : Ok z) :
    SameValue ((add x y).bind (add · z)) ((add y z).bind (add x ·)) := by
  obtain ⟨a, ea, oa, ma, ca⟩ := binary_ok hx hy (x.mu + y.mu) 1 1
  obtain ⟨b, eb, ob, mb, cb⟩ := binary_ok hy hz (y.mu + z.mu) 1 1
  obtain ⟨c, ec, oc, mc, cc⟩ := binary_ok oa hz (a.mu + z.mu) 1 1
  obtain ⟨d, ed, od, md, cd⟩ := binary_ok hx ob (x.mu + b.mu) 1 1
  refine ⟨c, d, by simp [add, ea, ec], by simp [add, eb, ed], obsEq_of_equiv oc.valid od.valid ?_ ?_⟩
  · simp only [UReal.n, mc, md, ma, mb]; ring
  · intro i; rw [cc, cd, ca, cb]; ring

example : SameValue ((add ex1 ex2).bind (add · ex3)) ((add ex2 ex3).bind (add ex1 ·)) := C04_add_assoc ok_ex1 ok_ex2 ok_ex3

/-- **C04** `x * y` and `y * x`. -/
theorem C04_mul_comm {x y : UReal ℝ} (hx : Ok x) (hy : Ok y) : SameValue (mul x y) (mul y x) := by
  obtain ⟨a, ea, oa, ma, ca⟩ := binary_ok hx hy (x.mu * y.mu) y.mu x.mu
  obtain ⟨b, eb, ob, mb, cb⟩ := binary_ok hy hx (y.mu * x.mu) x.mu y.mu
  exact ⟨a, b, ea, eb, obsEq_of_equiv oa.valid ob.valid (by simp [UReal.n, ma, mb, mul_comm])
    (fun i => by rw [ca, cb]; ring)⟩

example : SameValue (mul ex2 ex3) (mul ex3 ex2) := C04_mul_comm ok_ex2 ok_ex3

/-- **C04** `(x * y) * z` and `x * (y * z)`. -/
theorem C04_mul_assoc {x y z : UReal ℝ} (hx : Ok x) (hy : Ok y) (hz : Ok z) :
    SameValue ((mul x y).bind (mul · z)) ((mul y z).bind (mul x ·)) := by
  obtain ⟨a, ea, oa, ma, ca⟩ := binary_ok hx hy (x.mu * y.mu) y.mu x.mu
  obtain ⟨b, eb, ob, mb, cb⟩ := binary_ok hy hz (y.mu * z.mu) z.mu y.mu
  obtain ⟨c, ec, oc, mc, cc⟩ := binary_ok oa hz (a.mu * z.mu) z.mu a.mu
  obtain ⟨d, ed, od, md, cd⟩ := binary_ok hx ob (x.mu * b.mu) b.mu x.mu
  refine ⟨c, d, by simp [mul, ea, ec], by simp [mul, eb, ed], obsEq_of_equiv oc.valid od.valid ?_ ?_⟩
  · simp only [UReal.n, mc, md, ma, mb]; ring
  · intro i; rw [cc, cd, ca, cb, ma, mb]; ring

example : SameValue ((mul ex1 ex2).bind (mul · ex3)) ((mul ex2 ex3).bind (mul ex1 ·)) := C04_mul_assoc ok_ex1 ok_ex2 ok_ex3

/-- **C04** `x * (y + z)` and `x * y + x * z`. -/
theorem C04_distrib {x y z : UReal ℝ} (hx : Ok x) (hy : Ok y) (hz : Ok z) :
    SameValue ((add y z).bind (mul x ·)) ((mul x y).bind fun p => (mul x z).bind (add p ·)) := by
  obtain ⟨a, ea, oa, ma, ca⟩ := binary_ok hy hz (y.mu + z.mu) 1 1
  obtain ⟨b, eb, ob, mb, cb⟩ := binary_ok hx oa (x.mu * a.mu) a.mu x.mu
  obtain ⟨c, ec, oc, mc, cc⟩ := binary_ok hx hy (x.mu * y.mu) y.mu x.mu
  obtain ⟨d, ed, od, md, cd⟩ := binary_ok hx hz (x.mu * z.mu) z.mu x.mu
  obtain ⟨f, ef, of, mf, cf⟩ := binary_ok oc od (c.mu + d.mu) 1 1
  refine ⟨b, f, by simp [add, mul, ea, eb], by simp [add, mul, ec, ed, ef], obsEq_of_equiv ob.valid of.valid ?_ ?_⟩
  · simp only [UReal.n, mb, ma, mf, mc, md]; ring
  · intro i; rw [cb, ca, cf, cc, cd, ma]; ring

/-- **C04** `x - x` is indistinguishable from the constant 0. -/
theorem C04_sub_self {x : UReal ℝ} (hx : Ok x) : SameValue (sub x x) (some (UReal.const 0)) := by
  obtain ⟨a, ea, oa, ma, ca⟩ := binary_ok hx hx (x.mu - x.mu) 1 (-1)
  refine ⟨a, _, ea, rfl, obsEq_of_equiv oa.valid (valid_const 0) ?_ ?_⟩
  · simp [UReal.n, ma, UReal.const]
  · intro i; rw [ca, show (UReal.const 0 : UReal ℝ).coef i = 0 by simp [coef, UReal.const]]; ring

example : SameValue (sub ex3 ex3) (some (UReal.const 0)) := C04_sub_self ok_ex3

/-- **C04** `x - y` and `x + (-y)`. -/
theorem C04_sub_eq_add_neg {x y : UReal ℝ} (hx : Ok x) (hy : Ok y) : SameValue (sub x y) (add x (neg y)) := by
  obtain ⟨on, mn, cn⟩ := neg_ok hy
  obtain ⟨a, ea, oa, ma, ca⟩ := binary_ok hx hy (x.mu - y.mu) 1 (-1)
  obtain ⟨b, eb, ob, mb, cb⟩ := binary_ok hx on (x.mu + (neg y).mu) 1 1
  refine ⟨a, b, ea, eb, obsEq_of_equiv oa.valid ob.valid ?_ ?_⟩
  · simp only [UReal.n, ma, mb, mn]; ring
  · intro i; rw [ca, cb, cn]; ring

example : SameValue (sub ex2 ex3) (add ex2 (neg ex3)) := C04_sub_eq_add_neg ok_ex2 ok_ex3

/-- **C04** `(x / y) * y` is `x` when the mean of `y` is not zero. -/
theorem C04_div_mul_cancel {x y : UReal ℝ} (hx : Ok x) (hy : Ok y) (h : y.n ≠ 0) :
    SameValue ((div x y).bind (mul · y)) (some x) := by
  have h' : y.mu ≠ 0 := h
  obtain ⟨a, ea, oa, ma, ca⟩ := binary_ok hx hy (x.mu * (1 / y.mu)) (1 / y.mu) (-(x.mu * (1 / y.mu)) * (1 / y.mu))
  obtain ⟨b, eb, ob, mb, cb⟩ := binary_ok oa hy (a.mu * y.mu) y.mu a.mu
  refine ⟨b, x, by simp only [div, ea, Option.bind_some, mul, eb], rfl, obsEq_of_equiv ob.valid hx.valid ?_ ?_⟩
  · simp only [UReal.n, mb, ma]; field_simp
  · intro i; rw [cb, ca, ma]; field_simp; ring

/-- **C04** `x / x` is indistinguishable from the constant 1 when the mean of `x` is not zero. -/
theorem C04_div_self {x : UReal ℝ} (hx : Ok x) (h : x.n ≠ 0) : SameValue (div x x) (some (UReal.const 1)) := by
  have h' : x.mu ≠ 0 := h
  obtain ⟨a, ea, oa, ma, ca⟩ := binary_ok hx hx (x.mu * (1 / x.mu)) (1 / x.mu) (-(x.mu * (1 / x.mu)) * (1 / x.mu))
  refine ⟨a, _, by simp only [div, ea], rfl, obsEq_of_equiv oa.valid (valid_const 1) ?_ ?_⟩
  · simp only [UReal.n, ma, UReal.const]; field_simp
  · intro i; rw [ca, show (UReal.const 1 : UReal ℝ).coef i = 0 by simp [coef, UReal.const]]; field_simp; ring

example : SameValue (div ex3 ex3) (some (UReal.const 1)) := C04_div_self ok_ex3 (by simp [ex3, UReal.n])

/-- **C04** `(x + y) - y` is `x`. -/
theorem C04_add_sub_cancel {x y : UReal ℝ} (hx : Ok x) (hy : Ok y) :
    SameValue ((add x y).bind (sub · y)) (some x) := by
  obtain ⟨a, ea, oa, ma, ca⟩ := binary_ok hx hy (x.mu + y.mu) 1 1
  obtain ⟨b, eb, ob, mb, cb⟩ := binary_ok oa hy (a.mu - y.mu) 1 (-1)
  refine ⟨b, x, by simp [add, sub, ea, eb], rfl, obsEq_of_equiv ob.valid hx.valid ?_ ?_⟩
  · simp only [UReal.n, mb, ma]; ring
  · intro i; rw [cb, ca]; ring

example : SameValue ((add ex2 ex3).bind (sub · ex3)) (some ex2) := C04_add_sub_cancel ok_ex2 ok_ex3

example : SameValue ((add ex2 ex3).bind (mul ex1 ·)) ((mul ex1 ex2).bind fun p => (mul ex1 ex3).bind (add p ·)) :=
  C04_distrib ok_ex1 ok_ex2 ok_ex3
example : SameValue ((div ex2 ex3).bind (mul · ex3)) (some ex2) :=
  C04_div_mul_cancel ok_ex2 ok_ex3 (by simp [ex3, UReal.n])

/-! ## C05 -/

/-- **C05** `x.binary_assign(y, ...)` on different objects agrees with `binary(x, y, ...)`. -/
theorem C05_assign_eq_binary {x y : UReal ℝ} (hx : Ok x) (hy : Ok y) (mu dt dx : ℝ) :
    (binaryAssign x y mu dt dx).Valid ∧
    ∃ z, binary x y mu dt dx = some z ∧ ObsEq (binaryAssign x y mu dt dx) z := by
  obtain ⟨z, e, oz, mz, cz⟩ := binary_ok hx hy mu dt dx
  have hv := valid_binaryAssign hx.valid.wf hy.valid.wf mu dt dx
  refine ⟨hv, z, e, obsEq_of_equiv hv oz.valid (by simp [UReal.n, mz, binaryAssign]) (fun i => ?_)⟩
  rw [cz]
  exact congrFun (congrArg LinForm.coef (toLin_binaryAssign hx.valid.wf hy.valid.wf mu dt dx)) i

example : ∃ z, binary ex2 ex3 1 10 100 = some z ∧ ObsEq (binaryAssign ex2 ex3 1 10 100) z := (C05_assign_eq_binary ok_ex2 ok_ex3 1 10 100).2

/-- **C05** `x.binary_assign(x, ...)` with the same object agrees with `binary(x, x, ...)`. -/
theorem C05_assign_self_eq_binary {x : UReal ℝ} (hx : Ok x) (mu dt dx : ℝ) :
    (binaryAssignSelf x mu dt dx).Valid ∧
    ∃ z, binary x x mu dt dx = some z ∧ ObsEq (binaryAssignSelf x mu dt dx) z := by
  obtain ⟨z, e, oz, mz, cz⟩ := binary_ok hx hx mu dt dx
  have hv := valid_binaryAssignSelf hx.valid mu dt dx
  refine ⟨hv, z, e, obsEq_of_equiv hv oz.valid (by simp [UReal.n, mz, binaryAssignSelf]) (fun i => ?_)⟩
  rw [cz]
  exact congrFun (congrArg LinForm.coef (toLin_binaryAssignSelf hx.valid.wf mu dt dx)) i

/-- **C05** the four compound operators on different objects. -/
theorem C05_compound_ops {x y : UReal ℝ} (hx : Ok x) (hy : Ok y) :
    (∃ z, add x y = some z ∧ ObsEq (addAssign x y) z) ∧ (∃ z, sub x y = some z ∧ ObsEq (subAssign x y) z) ∧
    (∃ z, mul x y = some z ∧ ObsEq (mulAssign x y) z) ∧ (∃ z, div x y = some z ∧ ObsEq (divAssign x y) z) :=
  ⟨(C05_assign_eq_binary hx hy _ _ _).2, (C05_assign_eq_binary hx hy _ _ _).2,
    (C05_assign_eq_binary hx hy _ _ _).2, (C05_assign_eq_binary hx hy _ _ _).2⟩

example : ∃ z, div ex2 ex3 = some z ∧ ObsEq (divAssign ex2 ex3) z := (C05_compound_ops ok_ex2 ok_ex3).2.2.2

/-- **C05** the four compound operators with the same object on both sides. -/
theorem C05_compound_ops_self {x : UReal ℝ} (hx : Ok x) :
    (∃ z, add x x = some z ∧ ObsEq (addAssignSelf x) z) ∧ (∃ z, sub x x = some z ∧ ObsEq (subAssignSelf x) z) ∧
    (∃ z, mul x x = some z ∧ ObsEq (mulAssignSelf x) z) ∧ (∃ z, div x x = some z ∧ ObsEq (divAssignSelf x) z) :=
  ⟨(C05_assign_self_eq_binary hx _ _ _).2, (C05_assign_self_eq_binary hx _ _ _).2,
    (C05_assign_self_eq_binary hx _ _ _).2, (C05_assign_self_eq_binary hx _ _ _).2⟩

/-- the aliased product of a variable with a cached uncertainty and negative mean -/
example : ∃ z, mul ex3 ex3 = some z ∧ ObsEq (mulAssignSelf ex3) z := (C05_compound_ops_self ok_ex3).2.2.1
example : (mulAssignSelf ex3).s = 20 := by
  rw [mulAssignSelf, s_eq (C05_assign_self_eq_binary ok_ex3 _ _ _).1, toLin_binaryAssignSelf valid_ex3.wf]
  simp [LinForm.comb, LinForm.var, toLin, ex3, deps, coef, SMap.get, SMap.find?]
  rw [show (-(2 * 3) + -(2 * 3)) * (-(2 * 3) + -(2 * 3)) + (-(2 * 4) + -(2 * 4)) * (-(2 * 4) + -(2 * 4)) = (20 : ℝ) ^ 2 by norm_num]
  exact Real.sqrt_sq (by norm_num)

/-! ## C06 -/

theorem coefSum_perm {xs ys : List (UReal ℝ × ℝ)} (h : xs.Perm ys) (i : ℤ) :
    (xs.map (fun p => p.2 * p.1.coef i)).sum = (ys.map (fun p => p.2 * p.1.coef i)).sum :=
  (h.map _).sum_eq

/-- **C06** `nary` gives the requested mean and the sum of the single contributions to every covariance. -/
theorem C06_nary_linear {xs : List (UReal ℝ × ℝ)} (hx : ∀ p ∈ xs, p.1.Valid) (mu : ℝ) :
    (nary xs mu).Valid ∧ (nary xs mu).n = mu ∧
    ∀ w : UReal ℝ, w.Valid → cov (nary xs mu) w = (xs.map fun p => p.2 * cov p.1 w).sum := by
  have hv := valid_nary (fun p hp => (hx p hp).wf) mu
  refine ⟨hv, rfl, fun w hw => ?_⟩
  rw [cov_eq hv.wf hw.wf, LinForm.cov_eq_sum' (supported w) _ subset_rfl]
  have h1 : ∀ i, (nary xs mu).toLin.coef i = (xs.map (fun p => p.2 * p.1.coef i)).sum :=
    fun i => coef_nary (fun p hp => (hx p hp).wf) mu i
  simp only [h1]
  have h2 : (xs.map fun p => p.2 * cov p.1 w) =
      xs.map fun p => ∑ i ∈ w.toLin.deps, p.2 * p.1.coef i * w.toLin.coef i := by
    refine List.map_congr_left (fun p hp => ?_)
    rw [cov_eq (hx p hp).wf hw.wf, LinForm.cov_eq_sum' (supported w) _ subset_rfl, Finset.mul_sum]
    exact Finset.sum_congr rfl (fun i _ => by simp only [toLin]; ring)
  rw [h2]
  clear h1 h2 hv hx
  induction xs with
  | nil => simp
  | cons p t ih => simp only [List.map_cons, List.sum_cons, ← ih, ← Finset.sum_add_distrib, add_mul]

/-- **C06** the order of the arguments of `nary` does not matter. -/
theorem C06_nary_perm {xs ys : List (UReal ℝ × ℝ)} (h : xs.Perm ys) (hx : ∀ p ∈ xs, p.1.Valid) (mu : ℝ) :
    ObsEq (nary xs mu) (nary ys mu) := by
  have hy : ∀ p ∈ ys, p.1.Valid := fun p hp => hx p (h.mem_iff.2 hp)
  refine obsEq_of_equiv (valid_nary (fun p hp => (hx p hp).wf) mu) (valid_nary (fun p hp => (hy p hp).wf) mu) rfl ?_
  intro i
  rw [coef_nary (fun p hp => (hx p hp).wf), coef_nary (fun p hp => (hy p hp).wf), coefSum_perm h]

example : ObsEq (nary [(ex1, 2), (ex3, 5), (ex2, -1)] 11) (nary [(ex3, 5), (ex1, 2), (ex2, -1)] 11) :=
  C06_nary_perm (List.Perm.swap _ _ _) (by
    intro p hp; simp at hp
    rcases hp with rfl | rfl | rfl
    exacts [valid_ex1, valid_ex3, valid_ex2]) _

/-- **C06** `nary` with two arguments is `binary`. -/
theorem C06_nary_two {x y : UReal ℝ} (hx : Ok x) (hy : Ok y) (mu dx dy : ℝ) :
    ∃ z, binary x y mu dx dy = some z ∧ ObsEq (nary [(x, dx), (y, dy)] mu) z := by
  obtain ⟨z, e, oz, mz, cz⟩ := binary_ok hx hy mu dx dy
  have hw : ∀ p ∈ [(x, dx), (y, dy)], p.1.WF := by
    intro p hp; simp at hp; rcases hp with rfl | rfl
    exacts [hx.valid.wf, hy.valid.wf]
  refine ⟨z, e, obsEq_of_equiv (valid_nary hw mu) oz.valid (by simp [UReal.n, mz, nary]) (fun i => ?_)⟩
  rw [cz, coef_nary hw]; simp

example : ∃ z, binary ex2 ex3 1 10 100 = some z ∧ ObsEq (nary [(ex2, 10), (ex3, 100)] 1) z := C06_nary_two ok_ex2 ok_ex3 1 10 100

/-- **C06** adding one more argument to `nary` is a `binary` with derivative 1 on the partial result. -/
theorem C06_nary_snoc {xs : List (UReal ℝ × ℝ)} {y : UReal ℝ} (hx : ∀ p ∈ xs, Ok p.1) (hy : Ok y) (m mu dy : ℝ) :
    ∃ z, binary (nary xs m) y mu 1 dy = some z ∧ ObsEq (nary (xs ++ [(y, dy)]) mu) z := by
  have hw : ∀ p ∈ xs, p.1.WF := fun p hp => (hx p hp).valid.wf
  have on : Ok (nary xs m) := by
    refine ⟨valid_nary hw m, fun i hi => ?_⟩
    obtain ⟨p, hp, h⟩ := mem_deps_nary.1 hi
    exact (hx p hp).below i h
  obtain ⟨z, e, oz, mz, cz⟩ := binary_ok on hy mu 1 dy
  have hw' : ∀ p ∈ xs ++ [(y, dy)], p.1.WF := by
    intro p hp
    rcases List.mem_append.1 hp with h | h
    · exact hw p h
    · simp at h; subst h; exact hy.valid.wf
  refine ⟨z, e, obsEq_of_equiv (valid_nary hw' mu) oz.valid (by simp [UReal.n, mz, nary]) (fun i => ?_)⟩
  rw [cz, coef_nary hw', coef_nary hw]; simp

example : ∃ z, binary (nary [(ex1, 2), (ex2, 10)] 3) ex3 4 1 100 = some z ∧ ObsEq (nary ([(ex1, 2), (ex2, 10)] ++ [(ex3, 100)]) 4) z :=
  C06_nary_snoc (by intro p hp; simp at hp; rcases hp with rfl | rfl; exacts [ok_ex1, ok_ex2]) ok_ex3 3 4 100

/-- a repeated variable, a dependent one and a constant -/
example : cov (nary [(ex1, 2), (ex3, 5), (ex1, -1), (ex0, 7)] 11) ex1 = 2 * 9 + (5 * 9 + (-1 * 9 + 0)) := by
  have h : ∀ p ∈ [(ex1, (2:ℝ)), (ex3, 5), (ex1, -1), (ex0, 7)], p.1.Valid := by
    intro p hp; simp at hp
    rcases hp with rfl | rfl | rfl | rfl
    exacts [valid_ex1, valid_ex3, valid_ex1, valid_const 2]
  rw [(C06_nary_linear h 11).2.2 ex1 valid_ex1]
  simp [cov, ex1, ex3, ex0, UReal.const, SMap.find?]; norm_num

/-! ## C16 -/

/-- **C16** `change_nom` changes the mean and nothing else. -/
theorem C16_change_nom {x : UReal ℝ} (hx : x.Valid) (n : ℝ) :
    (x.changeNom n).Valid ∧ (x.changeNom n).n = n ∧ (x.changeNom n).s = x.s ∧
    (x.changeNom n).isindep = x.isindep ∧ (x.changeNom n).indepid = x.indepid ∧
    (∀ w : UReal ℝ, cov (x.changeNom n) w = cov x w) ∧ (∀ w : UReal ℝ, cov w (x.changeNom n) = cov w x) :=
  ⟨valid_changeNom hx n, rfl, rfl, rfl, rfl, fun _ => rfl, fun _ => rfl⟩

theorem convert_eq {R S : Type*} [Zero R] [Zero S] (c : R → S) {x : UReal R} (hx : x.WF) :
    x.convert c = ⟨x.id, c x.sdev, c x.mu, x.sigma.mapVal c⟩ := by
  simp only [convert, SMap.foldl_upsert_copy c x.sigma hx.sorted]

/-- **C16** conversion to another numeric type keeps ids and dependencies (any types, any conversion). -/
theorem C16_convert_structure {R S : Type*} [Zero R] [Zero S] (c : R → S) {x : UReal R} (hx : x.WF) :
    (x.convert c).deps = x.deps ∧ (x.convert c).isindep = x.isindep ∧ (x.convert c).indepid = x.indepid ∧
    (x.convert c).n = c x.n := by
  rw [convert_eq c hx]
  refine ⟨by simp [deps], ?_, ?_, rfl⟩
  · simp [isindep, SMap.mapVal]
  · simp only [indepid, SMap.mapVal, List.length_map]
    rcases x.sigma with _ | ⟨p, _ | ⟨q, t⟩⟩ <;> rfl

example : (ex3.convert Int.floor).deps = {1, 3} ∧ (ex3.convert Int.floor).n = -2 := by
  refine ⟨(C16_convert_structure _ valid_ex3.wf).1.trans (by simp [ex3, deps]), (C16_convert_structure _ valid_ex3.wf).2.2.2.trans ?_⟩
  simp only [ex3, UReal.n]
  rw [show (-2 : ℝ) = ((-2 : ℤ) : ℝ) by norm_num, Int.floor_intCast]

/-- **C16** an exact conversion (order-preserving ring homomorphism) converts mean, variance and every covariance. -/
theorem C16_convert_exact {R S : Type*} [CommRing R] [LinearOrder R] [IsStrictOrderedRing R]
    [CommRing S] [LinearOrder S] [IsStrictOrderedRing S] (c : R →+* S) (hc : StrictMono c)
    {x y : UReal R} (hx : x.Valid) (hy : y.Valid) :
    (x.convert c).Valid ∧ (x.convert c).n = c x.n ∧ var (x.convert c) = c (var x) ∧
    cov (x.convert c) (y.convert c) = c (cov x y) := by
  have hcoef : ∀ {x : UReal R}, x.Valid → ∀ i, (x.convert c).coef i = c (x.coef i) := by
    intro x hx i
    rw [convert_eq c hx.wf]
    simp only [coef]
    split_ifs
    · rfl
    · simp
    · exact SMap.get_mapVal (map_zero c)
    · simp
  have hwf : ∀ {x : UReal R}, x.Valid → (x.convert c).WF := by
    intro x hx
    rw [convert_eq c hx.wf]
    exact ⟨fun h => by simp [hx.wf.zero_sdev h], fun h => by simp [hx.wf.nil h], by simpa using hx.wf.sorted,
      by simpa using hx.wf.pos⟩
  have hdeps : ∀ {x : UReal R}, x.Valid → (x.convert c).deps = x.deps := fun hx => (C16_convert_structure c hx.wf).1
  have hs2 : ∀ {x : UReal R}, x.Valid → (x.convert c).toLin.var = c x.toLin.var := by
    intro x hx
    simp only [LinForm.var, toLin, hdeps hx, hcoef hx, map_sum, map_mul]
  have hvalid : (x.convert c).Valid := by
    refine ⟨hwf hx, fun h h0 => ?_⟩
    have hid : x.id < 0 := by rw [convert_eq c hx.wf] at h; exact h
    rw [s2_eq (hwf hx) h, hs2 hx, ← s2_eq hx.wf hid]
    have e : (x.convert c).sdev = c x.sdev := rfl
    rw [e] at h0 ⊢
    have h0' : 0 ≤ x.sdev := by
      by_contra hn
      have := hc (not_le.1 hn)
      rw [map_zero] at this
      exact absurd h0 (not_le.2 this)
    rw [← hx.cache hid h0', map_mul]
  refine ⟨hvalid, rfl, ?_, ?_⟩
  · rw [var_eq hvalid, var_eq hx, hs2 hx]
  · rw [cov_eq (hwf hx) (hwf hy), cov_eq hx.wf hy.wf]
    simp only [LinForm.cov, toLin, hdeps hx, hdeps hy, hcoef hx, hcoef hy, map_sum, map_mul]

example : (ex3.changeNom 100).s = 5 ∧ (ex3.changeNom 100).n = 100 := by
  obtain ⟨-, h1, h2, -⟩ := C16_change_nom valid_ex3 100
  refine ⟨?_, h1⟩
  rw [h2]; simp [s, ex3]

/-- conversion from exact rationals to reals -/
example (x : UReal ℚ) (hx : x.Valid) : cov (x.convert (algebraMap ℚ ℝ)) (x.convert (algebraMap ℚ ℝ)) = ((cov x x : ℚ) : ℝ) :=
  (C16_convert_exact (algebraMap ℚ ℝ) (fun _ _ h => by simpa using h) hx hx).2.2.2

/-! ## C47 -/

/-- **C47** a value without uncertainty, in whatever representation, has zero covariance with everything. -/
theorem C47_cov_zero {x : UReal ℝ} (hx : x.Valid) (h : x.s = 0) (w : UReal ℝ) (hw : w.Valid) : cov x w = 0 := by
  have h0 : x.toLin.var = 0 := by
    have := (C02_s_sq hx).2
    rw [h, mul_zero, var_eq hx] at this; exact this.symm
  rw [cov_eq hx.wf hw.wf, LinForm.cov_eq_sum (supported x) _ subset_rfl]
  refine Finset.sum_eq_zero (fun i hi => ?_)
  have := (Finset.sum_eq_zero_iff_of_nonneg (fun i _ => mul_self_nonneg _)).1 h0 i hi
  rw [mul_self_eq_zero.1 this, zero_mul]

/-- a value that depends on variables 1 and 4 with coefficients zero, as `0 * x` gives -/
example : cov (⟨-1, -1, 3, [(1, 0), (4, 0)]⟩ : UReal ℝ) ex2 = 0 :=
  C47_cov_zero ⟨⟨by simp, by simp, by simp [SMap.Sorted], by simp⟩, fun _ h => by norm_num at h⟩
    (by have h1 : ¬ (0 : ℝ) ≤ -1 := by norm_num
        simp [s, s2, h1]) ex2 valid_ex2

/-- **C47** adding a value without uncertainty only shifts the mean; multiplying by it scales. -/
theorem C47_add_mul_const {x c : UReal ℝ} (hx : Ok x) (hc : Ok c) (h : c.s = 0) :
    (∃ z, add x c = some z ∧ z.n = x.n + c.n ∧ z.s = x.s ∧ ∀ w : UReal ℝ, w.Valid → cov z w = cov x w) ∧
    (∃ z, mul x c = some z ∧ z.n = x.n * c.n ∧ z.s = |c.n| * x.s ∧ ∀ w : UReal ℝ, w.Valid → cov z w = c.n * cov x w) := by
  constructor
  · obtain ⟨z, e, hz, hn, hcov⟩ := C01_binary_linear hx.valid hc.valid hx.below hc.below (x.mu + c.mu) 1 1
    have hcov' : ∀ w : UReal ℝ, w.Valid → cov z w = cov x w := by
      intro w hw; rw [hcov w hw, C47_cov_zero hc.valid h w hw]; ring
    refine ⟨z, e, hn, ?_, hcov'⟩
    have hv : var z = var x := by
      rw [← C02_cov_self hz, hcov' z hz, C02_cov_symm hx.valid hz, hcov' x hx.valid, C02_cov_self hx.valid]
    have h1 := C02_s_sq hz; have h2 := C02_s_sq hx.valid
    exact (mul_self_inj h1.1 h2.1).1 (by rw [h1.2, h2.2, hv])
  · obtain ⟨z, e, hz, hn, hcov⟩ := C01_binary_linear hx.valid hc.valid hx.below hc.below (x.mu * c.mu) c.mu x.mu
    have hcov' : ∀ w : UReal ℝ, w.Valid → cov z w = c.n * cov x w := by
      intro w hw; rw [hcov w hw, C47_cov_zero hc.valid h w hw, mul_zero, add_zero]; rfl
    refine ⟨z, e, hn, ?_, hcov'⟩
    have hv : var z = c.n * c.n * var x := by
      rw [← C02_cov_self hz, hcov' z hz, C02_cov_symm hx.valid hz, hcov' x hx.valid, C02_cov_self hx.valid]; ring
    have h1 := C02_s_sq hz; have h2 := C02_s_sq hx.valid
    refine (mul_self_inj h1.1 (mul_nonneg (abs_nonneg _) h2.1)).1 ?_
    rw [h1.2, hv, ← h2.2]
    calc c.n * c.n * (x.s * x.s) = |c.n| * |c.n| * (x.s * x.s) := by rw [abs_mul_abs_self]
      _ = _ := by ring

example : ∃ z, mul ex3 ⟨-1, -1, 3, [(1, 0), (4, 0)]⟩ = some z ∧ z.n = -6 ∧ z.s = 15 := by
  obtain ⟨-, z, e, h1, h2, -⟩ := C47_add_mul_const (c := ⟨-1, -1, 3, [(1, 0), (4, 0)]⟩) ok_ex3
    ⟨⟨⟨by simp, by simp, by simp [SMap.Sorted], by simp⟩, fun _ h => by norm_num at h⟩, by simp [Below, deps, maxId]⟩
    (by have h1 : ¬ (0 : ℝ) ≤ -1 := by norm_num
        simp [s, s2, h1])
  refine ⟨z, e, h1.trans (by simp [ex3, UReal.n]; norm_num), h2.trans ?_⟩
  have h5 : (0 : ℝ) ≤ 5 := by norm_num
  simp [ex3, s, UReal.n]; norm_num

/-- three representations of "no uncertainty": constant, elementary with s = 0, cancelled combination -/
example : (UReal.const 2 : UReal ℝ).s = 0 ∧ (⟨4, 0, 2, []⟩ : UReal ℝ).s = 0 ∧ (⟨-1, -1, 2, [(1, 0), (2, 0)]⟩ : UReal ℝ).s = 0 := by
  have : ¬ (0 : ℝ) ≤ -1 := by norm_num
  simp [s, UReal.const, s2, this]

end Unc.Props
