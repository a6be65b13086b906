import Verif.Spec.Distr
import Verif.Model.Distr
import Mathlib.Probability.Moments.MGFAnalytic
import Mathlib.MeasureTheory.Integral.IntervalIntegral.FundThmCalculus
import Mathlib.Analysis.SpecialFunctions.Integrals.Basic
import Mathlib.Analysis.Calculus.Deriv.Polynomial
import Mathlib.Tactic.Ring
import Mathlib.Tactic.FieldSimp
import Mathlib.Tactic.LinearCombination

/-!
# Moments of the normal, uniform and chi-square distributions
-/

namespace Unc.Dist
open MeasureTheory ProbabilityTheory Polynomial

/-- Derivatives of `exp (t^2/2)` divided by it. -/
noncomputable def P : ℕ → ℝ[X]
  | 0 => 1
  | n + 1 => derivative (P n) + X * P n

theorem P_deriv (n : ℕ) : derivative (P (n + 1)) = (n + 1 : ℝ[X]) * P n := by
  induction n with
  | zero => simp [P]
  | succ n ih =>
    rw [P, derivative_add, derivative_mul, ih]
    simp only [derivative_X, derivative_mul, derivative_add, derivative_natCast, derivative_one]
    rw [show P (n + 1) = derivative (P n) + X * P n from rfl]
    push_cast
    ring

theorem mgf_iter (n : ℕ) (t : ℝ) :
    iteratedDeriv n (fun t : ℝ => Real.exp (t ^ 2 / 2)) t = (P n).eval t * Real.exp (t ^ 2 / 2) := by
  induction n generalizing t with
  | zero => simp [P]
  | succ n ih =>
    rw [iteratedDeriv_succ, show iteratedDeriv n (fun t : ℝ => Real.exp (t ^ 2 / 2))
      = fun t => (P n).eval t * Real.exp (t ^ 2 / 2) from funext ih]
    have h1 : HasDerivAt (fun t => (P n).eval t) ((derivative (P n)).eval t) t := (P n).hasDerivAt t
    have h2 : HasDerivAt (fun t : ℝ => Real.exp (t ^ 2 / 2)) (Real.exp (t ^ 2 / 2) * t) t := by
      have h3 : HasDerivAt (fun t : ℝ => t ^ 2 / 2) t t := by
        simpa using (hasDerivAt_pow 2 t).div_const 2
      exact h3.exp
    rw [(h1.fun_mul h2).deriv]
    simp [P]
    ring

/-- Standard normal. -/
noncomputable abbrev γ : Measure ℝ := gaussianReal 0 1

theorem gauss_int (n : ℕ) : Integrable (fun x : ℝ => x ^ n) γ := by
  have h := (memLp_id_gaussianReal' (μ := 0) (v := 1) (n : ENNReal) (by simp)).integrable_norm_pow'
  refine (integrable_norm_iff ?_).1 ?_
  · exact (measurable_id.pow_const n).aestronglyMeasurable
  · simpa [norm_pow] using h

theorem gauss_mom (n : ℕ) : ∫ x, x ^ n ∂γ = (P n).eval 0 := by
  have h := iteratedDeriv_mgf_zero (X := id) (μ := γ) (by simp [integrableExpSet_id_gaussianReal]) n
  rw [mgf_id_gaussianReal] at h
  have e : (fun t : ℝ => Real.exp (0 * t + ((1 : NNReal) : ℝ) * t ^ 2 / 2)) = fun t : ℝ => Real.exp (t ^ 2 / 2) := by
    funext t; simp
  rw [e, mgf_iter] at h
  simp at h
  rw [← h]

theorem gauss_zero : ∫ x, x ^ 0 ∂γ = 1 := by rw [gauss_mom]; simp [P]
theorem gauss_one : ∫ x, x ^ 1 ∂γ = 0 := by rw [gauss_mom]; simp [P]
theorem gauss_succ (n : ℕ) : ∫ x, x ^ (n + 2) ∂γ = (n + 1) * ∫ x, x ^ n ∂γ := by
  rw [gauss_mom, gauss_mom, P, P_deriv]
  simp

/-- Odd moments vanish, the even ones are double factorials. -/
theorem gauss_even (j : ℕ) : ∫ x, x ^ (2 * j) ∂γ = ∏ i ∈ Finset.range j, (2 * (i : ℝ) + 1) := by
  induction j with
  | zero => simp
  | succ j ih =>
    rw [show 2 * (j + 1) = 2 * j + 2 by ring, gauss_succ, ih, Finset.prod_range_succ]
    push_cast
    ring

/-! ## Uniform -/

theorem unif_prob {a b : ℝ} (h : a < b) : IsProbabilityMeasure (uniformLaw a b) := by
  refine cond_isProbabilityMeasure_of_finite ?_ ?_ <;> simp [Real.volume_Icc, h]

theorem unif_integral {a b : ℝ} (h : a < b) (f : ℝ → ℝ) :
    ∫ x, f x ∂uniformLaw a b = (b - a)⁻¹ * ∫ x in a..b, f x := by
  rw [uniformLaw, ProbabilityTheory.cond, integral_smul_measure, intervalIntegral.integral_of_le h.le,
    integral_Icc_eq_integral_Ioc, Real.volume_Icc, ENNReal.toReal_inv, ENNReal.toReal_ofReal (by linarith), smul_eq_mul]

theorem unif_int {a b : ℝ} (h : a < b) (n : ℕ) : Integrable (fun x : ℝ => x ^ n) (uniformLaw a b) := by
  rw [uniformLaw, ProbabilityTheory.cond]
  refine Integrable.smul_measure ?_ (by simp [Real.volume_Icc, h])
  exact (continuous_pow n).continuousOn.integrableOn_Icc

theorem unif_pow {a b : ℝ} (h : a < b) (c : ℝ) (n : ℕ) :
    ∫ x, (x - c) ^ n ∂uniformLaw a b = ((b - c) ^ (n + 1) - (a - c) ^ (n + 1)) / ((n + 1) * (b - a)) := by
  rw [unif_integral h, intervalIntegral.integral_comp_sub_right (fun x => x ^ n) c, integral_pow]
  have : b - a ≠ 0 := by linarith [sub_pos.2 h]
  field_simp

theorem unif_dist {a b : ℝ} (h : a < b) : Distribution (uniformLaw a b) := ⟨unif_prob h, fun k _ => unif_int h k⟩

theorem unif_mean {a b : ℝ} (h : a < b) : dMean (uniformLaw a b) = (b + a) / 2 := by
  have := unif_pow h 0 1
  simp only [sub_zero, pow_one] at this
  rw [dMean, this]
  have : b - a ≠ 0 := by linarith [sub_pos.2 h]
  field_simp
  push_cast
  ring

theorem unif_central {a b : ℝ} (h : a < b) (n : ℕ) :
    dCentral (uniformLaw a b) n = ((b - a) / 2) ^ n * (1 + (-1) ^ n) / (2 * (n + 1)) := by
  have h0 : b - a ≠ 0 := by linarith [sub_pos.2 h]
  have h1 : (n : ℝ) + 1 ≠ 0 := by positivity
  rw [dCentral, unif_mean h, unif_pow h, show b - (b + a) / 2 = (b - a) / 2 by ring,
    show a - (b + a) / 2 = -((b - a) / 2) by ring, neg_pow ((b - a) / 2) (n + 1), pow_succ, pow_succ (-1 : ℝ)]
  field_simp
  ring

/-! ## Normal -/

theorem norm_dist (μ : ℝ) (v : NNReal) : Distribution (gaussianReal μ v) := by
  refine ⟨inferInstance, fun n _ => ?_⟩
  have h := (memLp_id_gaussianReal' (μ := μ) (v := v) (n : ENNReal) (by simp)).integrable_norm_pow'
  refine (integrable_norm_iff ?_).1 ?_
  · exact (measurable_id.pow_const n).aestronglyMeasurable
  · simpa [norm_pow] using h

theorem norm_mean (μ : ℝ) (v : NNReal) : dMean (gaussianReal μ v) = μ := integral_id_gaussianReal

/-- Central moments by standardization. -/
theorem norm_central (μ : ℝ) {σ : ℝ} (v : NNReal) (hv : (v : ℝ) = σ ^ 2) (n : ℕ) :
    dCentral (gaussianReal μ v) n = σ ^ n * ∫ x, x ^ n ∂γ := by
  have e : gaussianReal μ v = γ.map fun x => σ * x + μ := by
    have h1 : γ.map (fun x => σ * x) = gaussianReal 0 v := by
      rw [gaussianReal_map_const_mul]
      congr 1
      · simp
      · ext; simp [hv]
    have h2 := gaussianReal_map_add_const (μ := 0) (v := v) μ
    rw [← h1, Measure.map_map (by fun_prop) (by fun_prop)] at h2
    rw [zero_add] at h2
    exact h2.symm
  rw [dCentral, norm_mean, e, integral_map (by fun_prop) (by fun_prop), ← integral_const_mul]
  refine integral_congr_ae (Filter.Eventually.of_forall fun x => ?_)
  dsimp only
  rw [add_sub_cancel_right, mul_pow]

/-! ## Chi-square -/

section chi
variable (k : ℕ)

noncomputable abbrev π : Measure (Fin k → ℝ) := Measure.pi fun _ : Fin k => γ

theorem chi_coord (i : Fin k) (n : ℕ) : Integrable (fun x : Fin k → ℝ => (x i ^ 2) ^ n) (π k) ∧
    ∫ x, (x i ^ 2) ^ n ∂π k = ∏ j ∈ Finset.range n, (2 * (j : ℝ) + 1) := by
  have hp := measurePreserving_eval (fun _ : Fin k => γ) i
  constructor
  · have := hp.integrable_comp_of_integrable (gauss_int (2 * n))
    simpa [Function.comp_def, pow_mul] using this
  · rw [← gauss_even, ← hp.map_eq, integral_map (measurable_pi_apply i).aemeasurable (by fun_prop)]
    simp [pow_mul]

theorem chi_step (c : ℝ) (n : ℕ) (hn : n ≤ 8) :
    ∑ m ∈ Finset.range (n + 1), (∏ j ∈ Finset.range m, (c + 2 * (j : ℝ))) * (∏ j ∈ Finset.range (n - m), (2 * (j : ℝ) + 1))
      * (n.choose m) = ∏ j ∈ Finset.range n, (c + 1 + 2 * (j : ℝ)) := by
  interval_cases n <;> simp [Finset.sum_range_succ, Finset.prod_range_succ, Nat.choose] <;> ring

theorem chi_sum (s : Finset (Fin k)) (n : ℕ) (hn : n ≤ 8) : Integrable (fun x : Fin k → ℝ => (∑ i ∈ s, x i ^ 2) ^ n) (π k) ∧
    ∫ x, (∑ i ∈ s, x i ^ 2) ^ n ∂π k = ∏ j ∈ Finset.range n, ((s.card : ℝ) + 2 * (j : ℝ)) := by
  induction s using Finset.induction_on generalizing n with
  | empty =>
    rcases n with - | n
    · simp
    · simp [Finset.prod_range_succ']
  | insert a s ha ih =>
    have hind : iIndepFun (fun (i : Fin k) (x : Fin k → ℝ) => x i ^ 2) (π k) :=
      iIndepFun_pi (X := fun _ (x : ℝ) => x ^ 2) fun i => (measurable_id.pow_const 2).aemeasurable
    have hi := hind.indepFun_finset_sum_of_notMem (fun i => by fun_prop) ha
    have hpow : ∀ m l : ℕ, IndepFun (fun x : Fin k → ℝ => (∑ i ∈ s, x i ^ 2) ^ m) (fun x => (x a ^ 2) ^ l) (π k) := by
      intro m l
      have := hi.comp (measurable_id.pow_const m) (measurable_id.pow_const l)
      simpa [Function.comp_def, Finset.sum_apply] using this
    have hexp : ∀ x : Fin k → ℝ, (∑ i ∈ insert a s, x i ^ 2) ^ n
        = ∑ m ∈ Finset.range (n + 1), (∑ i ∈ s, x i ^ 2) ^ m * (x a ^ 2) ^ (n - m) * (n.choose m) := by
      intro x
      rw [Finset.sum_insert ha, add_comm, add_pow]
    have hint : ∀ m ∈ Finset.range (n + 1), Integrable (fun x : Fin k → ℝ =>
        (∑ i ∈ s, x i ^ 2) ^ m * (x a ^ 2) ^ (n - m) * (n.choose m)) (π k) := by
      intro m hm
      have hm' : m ≤ 8 := by have := Finset.mem_range.1 hm; omega
      exact ((hpow m (n - m)).integrable_mul (ih m hm').1 (chi_coord k a (n - m)).1).mul_const _
    simp only [hexp]
    refine ⟨integrable_finset_sum _ hint, ?_⟩
    rw [integral_finset_sum _ hint, Finset.card_insert_of_notMem ha]
    push_cast
    rw [← chi_step _ n hn]
    refine Finset.sum_congr rfl fun m hm => ?_
    have hm' : m ≤ 8 := by have := Finset.mem_range.1 hm; omega
    rw [integral_mul_const, (hpow m (n - m)).integral_fun_mul_eq_mul_integral (ih m hm').1.aestronglyMeasurable
      (chi_coord k a (n - m)).1.aestronglyMeasurable, (ih m hm').2, (chi_coord k a (n - m)).2]

theorem chi_dist : Distribution (chiSquareLaw k) := by
  have hm : Measurable fun x : Fin k → ℝ => ∑ i, x i ^ 2 := by fun_prop
  refine ⟨Measure.isProbabilityMeasure_map hm.aemeasurable, fun n hn => ?_⟩
  rw [chiSquareLaw, integrable_map_measure (by fun_prop) hm.aemeasurable]
  exact (chi_sum k Finset.univ n hn).1

theorem chi_raw (n : ℕ) (hn : n ≤ 8) :
    ∫ x, x ^ n ∂chiSquareLaw k = ∏ j ∈ Finset.range n, ((k : ℝ) + 2 * (j : ℝ)) := by
  have hm : Measurable fun x : Fin k → ℝ => ∑ i, x i ^ 2 := by fun_prop
  rw [chiSquareLaw, integral_map hm.aemeasurable (by fun_prop)]
  simpa using (chi_sum k Finset.univ n hn).2

theorem chi_mean : dMean (chiSquareLaw k) = k := by
  have := chi_raw k 1 (by norm_num)
  simpa [dMean] using this

end chi

/-- Central moments from raw moments. -/
theorem central_expand {ν : Measure ℝ} (h : Distribution ν) (n : ℕ) (hn : n ≤ 8) :
    dCentral ν n = ∑ m ∈ Finset.range (n + 1), (∫ x, x ^ m ∂ν) * (-dMean ν) ^ (n - m) * (n.choose m) := by
  have hexp : ∀ x : ℝ, (x - dMean ν) ^ n
      = ∑ m ∈ Finset.range (n + 1), x ^ m * (-dMean ν) ^ (n - m) * (n.choose m) := by
    intro x
    rw [sub_eq_add_neg, add_pow]
  simp only [dCentral, hexp]
  rw [integral_finset_sum _ fun m hm => ?_]
  · simp only [integral_mul_const]
  · have hm' : m ≤ 8 := by have := Finset.mem_range.1 hm; omega
    exact ((h.int m hm').mul_const _).mul_const _

theorem chi_central (k : ℕ) : let K : ℝ := k
    dCentral (chiSquareLaw k) 2 = 2 * K ∧ dCentral (chiSquareLaw k) 3 = 8 * K ∧
    dCentral (chiSquareLaw k) 4 = 12 * K ^ 2 + 48 * K ∧ dCentral (chiSquareLaw k) 5 = 160 * K ^ 2 + 384 * K ∧
    dCentral (chiSquareLaw k) 6 = 120 * K ^ 3 + 2080 * K ^ 2 + 3840 * K ∧
    dCentral (chiSquareLaw k) 7 = 3360 * K ^ 3 + 29568 * K ^ 2 + 46080 * K ∧
    dCentral (chiSquareLaw k) 8 = 1680 * K ^ 4 + 76160 * K ^ 3 + 467712 * K ^ 2 + 645120 * K := by
  have hr : ∀ n, n ≤ 8 → dCentral (chiSquareLaw k) n = ∑ m ∈ Finset.range (n + 1),
      (∏ j ∈ Finset.range m, ((k : ℝ) + 2 * (j : ℝ))) * (-(k : ℝ)) ^ (n - m) * (n.choose m) := by
    intro n hn
    rw [central_expand (chi_dist k) n hn, chi_mean]
    refine Finset.sum_congr rfl fun m hm => ?_
    rw [chi_raw k m (by have := Finset.mem_range.1 hm; omega)]
  refine ⟨?_, ?_, ?_, ?_, ?_, ?_, ?_⟩ <;> rw [hr _ (by norm_num)] <;>
    simp [Finset.sum_range_succ, Finset.prod_range_succ, Nat.choose] <;> ring

end Unc.Dist
