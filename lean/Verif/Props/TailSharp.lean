import Verif.Props.Tail

/-!
# C100: the bounds cannot be improved
-/

namespace Unc.Props
open Unc Unc.Spec MeasureTheory ProbabilityTheory UReal

section points
variable {k : ℕ} (w a : Fin k → ℝ)

/-- the distribution with value `a i` with probability `w i` -/
noncomputable def points : Measure ℝ := ∑ i, ENNReal.ofReal (w i) • Measure.dirac (a i)

variable {w}

theorem points_integrable (f : ℝ → ℝ) : Integrable f (points w a) := by
  rw [points, integrable_finset_sum_measure]
  exact fun i _ => (integrable_dirac (by simp)).smul_measure (by simp)

theorem points_integral (h0 : ∀ i, 0 ≤ w i) (f : ℝ → ℝ) : ∫ x, f x ∂points w a = ∑ i, w i * f (a i) := by
  rw [points, integral_finset_sum_measure fun i _ => (integrable_dirac (by simp)).smul_measure (by simp)]
  exact Finset.sum_congr rfl fun i _ => by rw [integral_smul_measure, integral_dirac, ENNReal.toReal_ofReal (h0 i), smul_eq_mul]

theorem points_prob (h0 : ∀ i, 0 ≤ w i) (h1 : ∑ i, w i = 1) : IsProbabilityMeasure (points w a) := by
  constructor
  simp only [points, Measure.coe_finset_sum, Finset.sum_apply, Measure.smul_apply, measure_univ, smul_eq_mul, mul_one]
  rw [← ENNReal.ofReal_sum_of_nonneg fun i _ => h0 i, h1, ENNReal.ofReal_one]

theorem points_real (h0 : ∀ i, 0 ≤ w i) (S : Set ℝ) [DecidablePred (· ∈ S)] : (points w a).real S = ∑ i, w i * if a i ∈ S then 1 else 0 := by
  rw [Measure.real, points]
  simp only [Measure.coe_finset_sum, Finset.sum_apply, Measure.smul_apply, Measure.dirac_apply, smul_eq_mul]
  rw [ENNReal.toReal_sum fun i _ => by by_cases h : a i ∈ S <;> simp [h]]
  exact Finset.sum_congr rfl fun i _ => by by_cases h : a i ∈ S <;> simp [h, ENNReal.toReal_ofReal (h0 i)]

/-- with mean 0 and variance 1 it is a possible distribution of an error -/
theorem points_errors (h0 : ∀ i, 0 ≤ w i) (h1 : ∑ i, w i = 1) (hm : ∑ i, w i * a i = 0) (hv : ∑ i, w i * a i ^ 2 = 1) : Errors (points w a) (fun (_ : Fin 1) (x : ℝ) => x) := by
  have := points_prob a h0 h1
  have hmean : ∫ x, x ∂points w a = 0 := by rw [points_integral a h0 fun x => x, hm]
  refine ⟨iIndepFun.of_subsingleton, fun _ => measurable_id, fun _ => ?_, fun _ => hmean, fun _ => ?_⟩
  · exact (memLp_two_iff_integrable_sq measurable_id.aestronglyMeasurable).2 (points_integrable a _)
  · rw [variance_eq_integral (X := fun x : ℝ => x) measurable_id.aemeasurable, hmean]
    simp only [sub_zero]
    rw [points_integral a h0 fun x => x ^ 2, hv]

end points

/-- **C100** The bounds cannot be improved: for each `c` there is a distribution of the error, with mean 0 and variance 1, for which a variable with mean `m` and uncertainty `s` is
`c * s` away from `m` with probability `1 / c ^ 2` (`c ≥ 1`), and another one for which it is above `m + c * s` or equal with probability `1 / (1 + c ^ 2)`. -/
theorem C100_sharp (m : ℝ) {s c : ℝ} (hs : 0 < s) (hc : 0 < c) : ∃ x, evalU [] (elems ![1] ![m] ![s]) = some [x] ∧
    (1 ≤ c → ∃ P : Measure ℝ, Errors P (fun (_ : Fin 1) (z : ℝ) => z) ∧ P.real {z | c * x.s ≤ |fn [] 0 (quantity ![m] ![s] (fun _ z => z) z) - x.n|} = 1 / c ^ 2) ∧
    ∃ P : Measure ℝ, Errors P (fun (_ : Fin 1) (z : ℝ) => z) ∧ P.real {z | x.n + c * x.s ≤ fn [] 0 (quantity ![m] ![s] (fun _ z => z) z)} = 1 / (1 + c ^ 2) := by
  refine ⟨⟨1, s, m, []⟩, by simp [evalU, elems, List.ofFn_succ], ?_⟩
  have es : (⟨1, s, m, []⟩ : UReal ℝ).s = s := by simp [UReal.s, CSqrt.abs, abs_of_pos hs]
  have en : (⟨1, s, m, []⟩ : UReal ℝ).n = m := rfl
  have ef : ∀ z : ℝ, fn [] 0 (quantity ![m] ![s] (fun _ z => z) z) = m + s * z := fun z => by simp [fn, evalR, Spec.vars, quantity]
  simp only [es, en, ef]
  classical
  constructor
  · intro h1
    have hc2 : 1 ≤ c ^ 2 := one_le_pow₀ h1
    have h0 : ∀ i, 0 ≤ (![1 / (2 * c ^ 2), 1 / (2 * c ^ 2), 1 - 1 / c ^ 2] : Fin 3 → ℝ) i := by
      intro i
      fin_cases i
      · show 0 ≤ 1 / (2 * c ^ 2); positivity
      · show 0 ≤ 1 / (2 * c ^ 2); positivity
      · show 0 ≤ 1 - 1 / c ^ 2
        rw [sub_nonneg, div_le_one (by positivity)]; exact hc2
    refine ⟨points ![1 / (2 * c ^ 2), 1 / (2 * c ^ 2), 1 - 1 / c ^ 2] ![c, -c, 0], points_errors _ h0 ?_ ?_ ?_, ?_⟩
    · simp [Fin.sum_univ_three]; field_simp; ring
    · simp [Fin.sum_univ_three]
    · simp [Fin.sum_univ_three]; field_simp; norm_num
    · rw [points_real _ h0]
      have e1 : c * s ≤ |m + s * c - m| := by rw [show m + s * c - m = c * s by ring]; exact le_abs_self _
      have e2 : c * s ≤ |m + s * -c - m| := by rw [show m + s * -c - m = -(c * s) by ring, abs_neg]; exact le_abs_self _
      have e3 : ¬ c * s ≤ |m + s * 0 - m| := by
        rw [show m + s * 0 - m = 0 by ring, abs_zero, not_le]; positivity
      simp only [Fin.sum_univ_three, Set.mem_setOf_eq, Matrix.cons_val_zero, Matrix.cons_val_one, Matrix.cons_val, e1, e2, e3, if_true, if_false]
      field_simp; norm_num
  · have h0 : ∀ i, 0 ≤ (![1 / (1 + c ^ 2), c ^ 2 / (1 + c ^ 2)] : Fin 2 → ℝ) i := by
      intro i
      fin_cases i
      · show 0 ≤ 1 / (1 + c ^ 2); positivity
      · show 0 ≤ c ^ 2 / (1 + c ^ 2); positivity
    refine ⟨points ![1 / (1 + c ^ 2), c ^ 2 / (1 + c ^ 2)] ![c, -1 / c], points_errors _ h0 ?_ ?_ ?_, ?_⟩
    · simp [Fin.sum_univ_two]; field_simp
    · simp [Fin.sum_univ_two]; field_simp; ring
    · simp [Fin.sum_univ_two]; field_simp; ring
    · rw [points_real _ h0]
      have e1 : m + c * s ≤ m + s * c := by rw [mul_comm]
      have e2 : ¬ m + c * s ≤ m + s * (-1 / c) := by
        have : s * (-1 / c) < 0 := mul_neg_of_pos_of_neg hs (div_neg_of_neg_of_pos (by norm_num) hc)
        have := mul_pos hc hs
        rw [not_le]; linarith
      simp only [Fin.sum_univ_two, Set.mem_setOf_eq, Matrix.cons_val_zero, Matrix.cons_val_one, e1, e2, if_true, if_false]
      ring

/-- twice the uncertainty -/
example := C100_sharp 5 (s := 1 / 10) (c := 2) (by norm_num) (by norm_num)

end Unc.Props
