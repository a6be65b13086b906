import Verif.Props.Cont

/-!
# C98: the correlation has no limit where the uncertainties vanish
-/

namespace Unc.Props
open Unc Unc.Spec Unc.Cont SMap UReal Filter Topology

/-- `x + y` -/
noncomputable def sumProg : List Node := [.bin UReal.add (fun s t => s + t) 0 1]

/-- `corr(x, x + y)` -/
noncomputable def corrSum (d : Data 2) : Option ℝ :=
  (result1 sumProg ![1, 2] 0 d).bind fun x => (result1 sumProg ![1, 2] 2 d).map fun y => corr x y

/-- **C98** The correlation of `x` and `x + y`, independent variables with uncertainties `a` and `b`, is `a / sqrt(a² + b²)`: it is the same for all uncertainties in the same proportion. -/
theorem C98_corr_sum (mu : Fin 2 → ℝ) {a b : ℝ} (ha : 0 < a) : corrSum (mu, ![a, b]) = some (a / Real.sqrt (a ^ 2 + b ^ 2)) := by
  have e : corrSum (mu, ![a, b]) = some (a * a / (|a| * Real.sqrt (a * a + b * b))) := by
    simp [corrSum, result1, sumProg, evalU, elems, List.ofFn_succ, add, binary, SMap.upsert, invalidId, corr, cov, UReal.s, UReal.s2, SMap.find?, CCmp.leb, CSqrt.abs, CSqrt.sqrt]
    rw [if_neg (by norm_num)]
  rw [e, abs_of_pos ha, mul_div_mul_left _ _ ha.ne', sq, sq]

/-- **C98** The restriction to uncertainties which are not 0 is needed: whatever the means, the correlation of `x` and `x + y` has no limit as the two uncertainties tend to 0 from above, so no value at 0 would make it continuous. -/
theorem C98_corr_nolimit (mu : Fin 2 → ℝ) (L : ℝ) :
    ¬ ∀ ε > 0, ∃ δ > 0, ∀ a b : ℝ, 0 < a → a < δ → 0 < b → b < δ → ∃ r, corrSum (mu, ![a, b]) = some r ∧ |r - L| < ε := by
  intro h
  obtain ⟨δ, hδ, H⟩ := h (1 / 10) (by norm_num)
  have key : ∀ p q c : ℝ, 0 < p → p ≤ 4 → 0 < q → q ≤ 4 → 0 < c → p ^ 2 + q ^ 2 = c ^ 2 → |p / c - L| < 1 / 10 := by
    intro p q c hp hp' hq hq' hc hpq
    obtain ⟨r, hr, hL⟩ := H (p * (δ / 5)) (q * (δ / 5)) (by positivity) (by nlinarith) (by positivity) (by nlinarith)
    rw [C98_corr_sum mu (by positivity)] at hr
    have e : p * (δ / 5) / Real.sqrt ((p * (δ / 5)) ^ 2 + (q * (δ / 5)) ^ 2) = p / c := by
      rw [show (p * (δ / 5)) ^ 2 + (q * (δ / 5)) ^ 2 = (c * (δ / 5)) ^ 2 by rw [mul_pow c, ← hpq]; ring, Real.sqrt_sq (by positivity)]
      exact mul_div_mul_right _ _ (by positivity)
    rw [e] at hr
    cases hr
    exact hL
  have h1 := abs_lt.1 (key 3 4 5 (by norm_num) (by norm_num) (by norm_num) (by norm_num) (by norm_num) (by norm_num))
  have h2 := abs_lt.1 (key 4 3 5 (by norm_num) (by norm_num) (by norm_num) (by norm_num) (by norm_num) (by norm_num))
  norm_num at h1 h2
  linarith [h1.1, h1.2, h2.1, h2.2]

/-- two choices of small uncertainties -/
example (mu : Fin 2 → ℝ) : corrSum (mu, ![3 / 1000, 4 / 1000]) = some (3 / 5) ∧ corrSum (mu, ![4 / 1000, 3 / 1000]) = some (4 / 5) := by
  have h : Real.sqrt ((3 / 1000) ^ 2 + (4 / 1000) ^ 2) = 5 / 1000 := by
    rw [show ((3 : ℝ) / 1000) ^ 2 + (4 / 1000) ^ 2 = (5 / 1000) ^ 2 by norm_num, Real.sqrt_sq (by norm_num)]
  rw [C98_corr_sum mu (by norm_num), C98_corr_sum mu (by norm_num), add_comm (((4 : ℝ) / 1000) ^ 2), h]
  norm_num

end Unc.Props
