import Verif.Props.Error2Ratio
import Verif.Props.Precision

/-!
# C96: skewness, kurtosis and correlation of second-order values after a conversion
-/

namespace Unc.Props
open Unc.Spec HessGrad SMap Mom FP

variable {f g : Fmt} {v : ℝ}

/-- a moment after the conversion -/
theorem conv_moment (hv : Acc g.rd v) (u : Moments (FP g)) {x : UReal2 (FP f)} (hx : Ok2 x) {n : ℕ} (hn : 1 ≤ n ∧ n ≤ 4) {W b : ℝ} (hW : magnitude (numbers (fun a => |a.val|) x) n = some W)
    (hb : relErr v (n + 2 + momRounds x.hg.diagmap.length x.hg.trimap.length n) * W ≤ b) :
    ∃ a A, (x.convert u (FP.conv g)).m n = some a ∧ (numbers FP.val x).m n = some A ∧ |a.val - A| ≤ b := by
  obtain ⟨a, A, W', k1, k2, k3, -, k4⟩ := C96_moments_partial hv u hx hn
  rw [hW, Option.some_inj] at k3
  subst k3
  exact ⟨a, A, k1, k2, k4.trans hb⟩

/-- **C96** `kurt()` after the conversion: with a relative error of the variance of at most `θ < 1`, and an error of the fourth moment of at most `η` times the square of the variance, as in C80_kurt. -/
theorem C96_kurt_partial (hv : Acc g.rd v) (u : Moments (FP g)) {x : UReal2 (FP f)} (hx : Ok2 x) {V W W4 θ η : ℝ} (hV : (numbers FP.val x).var = some V) (V0 : 0 < V)
    (hW : magnitude (numbers (fun a => |a.val|) x) 2 = some W) (hθ : relErr v (4 + momRounds x.hg.diagmap.length x.hg.trimap.length 2) * W ≤ θ * V) (θ1 : θ < 1)
    (hW4 : magnitude (numbers (fun a => |a.val|) x) 4 = some W4) (hη : relErr v (6 + momRounds x.hg.diagmap.length x.hg.trimap.length 4) * W4 ≤ η * V ^ 2) :
    ∃ k K, (x.convert u (FP.conv g)).kurt = some k ∧ (numbers FP.val x).kurt = some K ∧ |k.val - K| ≤ (|K| + η) * ((1 + v) / ((1 - θ) ^ 2 * (1 - v))) - |K| := by
  obtain ⟨a, A, h1, h2, h3⟩ := conv_moment hv u hx (by decide) hW hθ
  obtain ⟨b, B, h4, h5, h6⟩ := conv_moment hv u hx (by decide) hW4 hη
  rw [UReal2.var, h2, Option.some_inj] at hV
  subst hV
  refine ⟨b / (a * a), B / (A * A), by simp [UReal2.kurt, h1, h4], by simp [UReal2.kurt, h2, h5], ?_⟩
  have n := WithinFactor.start V0 h3 θ1
  rw [val_div, val_mul, pow_two]
  exact ((n.mul n).rd hv).quot hv (by rwa [← pow_two])

/-- **C96** `skew()` after the conversion: the same with the product of the variance and the standard deviation. -/
theorem C96_skew_partial (hv : Acc g.rd v) (u : Moments (FP g)) {x : UReal2 (FP f)} (hx : Ok2 x) {V W W3 θ η : ℝ} (hV : (numbers FP.val x).var = some V) (V0 : 0 < V)
    (hW : magnitude (numbers (fun a => |a.val|) x) 2 = some W) (hθ : relErr v (4 + momRounds x.hg.diagmap.length x.hg.trimap.length 2) * W ≤ θ * V) (θ1 : θ < 1)
    (hW3 : magnitude (numbers (fun a => |a.val|) x) 3 = some W3) (hη : relErr v (5 + momRounds x.hg.diagmap.length x.hg.trimap.length 3) * W3 ≤ η * (Real.sqrt V * V)) :
    ∃ k K, (x.convert u (FP.conv g)).skew = some k ∧ (numbers FP.val x).skew = some K ∧
      |k.val - K| ≤ (|K| + η) * ((1 + v) / (Real.sqrt (1 - θ) * (1 - v) * (1 - θ) * (1 - v))) - |K| := by
  obtain ⟨a, A, h1, h2, h3⟩ := conv_moment hv u hx (by decide) hW hθ
  obtain ⟨b, B, h4, h5, h6⟩ := conv_moment hv u hx (by decide) hW3 hη
  rw [UReal2.var, h2, Option.some_inj] at hV
  subst hV
  refine ⟨b / (CSqrt.sqrt a * a), B / (Real.sqrt A * A), by simp [UReal2.skew, UReal2.s, h1, h4], by simp [UReal2.skew, UReal2.s, h2, h5], ?_⟩
  have n := WithinFactor.start V0 h3 θ1
  rw [val_div, val_mul, val_sqrt]
  exact (((n.sqrt.rd hv).mul n).rd hv).quot hv h6

/-- **C96** `corr(x, y)` of two converted values: the same with the product of both standard deviations. -/
theorem C96_corr2_partial (hv : Acc g.rd v) (u : Moments (FP g)) {x y : UReal2 (FP f)} (hx : Ok2 x) (hy : Ok2 y) {V W V' W' C θ θ' η : ℝ} (hV : (numbers FP.val x).var = some V) (V0 : 0 < V)
    (hW : magnitude (numbers (fun a => |a.val|) x) 2 = some W) (hθ : relErr v (4 + momRounds x.hg.diagmap.length x.hg.trimap.length 2) * W ≤ θ * V) (θ1 : θ < 1)
    (hV' : (numbers FP.val y).var = some V') (V0' : 0 < V') (hW' : magnitude (numbers (fun a => |a.val|) y) 2 = some W')
    (hθ' : relErr v (4 + momRounds y.hg.diagmap.length y.hg.trimap.length 2) * W' ≤ θ' * V') (θ1' : θ' < 1)
    (hC : magnitudeCov (numbers (fun a => |a.val|) x) (numbers (fun a => |a.val|) y) = some C)
    (hη : relErr v (3 + covRounds x.hg.diagmap.length x.hg.trimap.length y.hg.diagmap.length) * C ≤ η * (Real.sqrt V * Real.sqrt V')) :
    ∃ k K, UReal2.corr (x.convert u (FP.conv g)) (y.convert u (FP.conv g)) = some k ∧ UReal2.corr (numbers FP.val x) (numbers FP.val y) = some K ∧
      |k.val - K| ≤ (|K| + η) * ((1 + v) / (Real.sqrt (1 - θ) * (1 - v) * (Real.sqrt (1 - θ') * (1 - v)) * (1 - v))) - |K| := by
  obtain ⟨a, A, h1, h2, h3⟩ := conv_moment hv u hx (by decide) hW hθ
  obtain ⟨a', A', h1', h2', h3'⟩ := conv_moment hv u hy (by decide) hW' hθ'
  obtain ⟨b, B, D, h4, h5, h6, -, h7⟩ := C96_cov2_partial hv u hx hy
  rw [hC, Option.some_inj] at h6
  subst h6
  rw [UReal2.var, h2, Option.some_inj] at hV
  subst hV
  rw [UReal2.var, h2', Option.some_inj] at hV'
  subst hV'
  refine ⟨b / (CSqrt.sqrt a * CSqrt.sqrt a'), B / (Real.sqrt A * Real.sqrt A'), by simp [UReal2.corr, UReal2.s, h1, h1', h4], by simp [UReal2.corr, UReal2.s, h2, h2', h5], ?_⟩
  have n := WithinFactor.start V0 h3 θ1
  have n' := WithinFactor.start V0' h3' θ1'
  rw [val_div, val_mul, val_sqrt, val_sqrt]
  exact (((n.sqrt.rd hv).mul (n'.sqrt.rd hv)).rd hv).quot hv (h7.trans hη)

/-! ## examples: from the precision of `double` to that of `float` -/

theorem vars6_conv (n : ℕ) (hn : n ≤ 4) : relErr ((1 / 2) ^ 24) (n + 2 + momRounds (vars6 0).hg.diagmap.length (vars6 0).hg.trimap.length n) ≤ 5 / 10 ^ 6 := by
  interval_cases n <;> simp only [vars6, momRounds, relErr] <;> norm_num

/-- the kurtosis of a variable with kurtosis 1/3 -/
example (u : Moments (FP (bits 24 (by norm_num)))) : ∃ k K, ((vars6 0).convert u (FP.conv _)).kurt = some k ∧ (numbers FP.val (vars6 0)).kurt = some K ∧
    |k.val - K| ≤ (|K| + 5 / 10 ^ 6) * ((1 + (1 / 2) ^ 24) / ((1 - 5 / 10 ^ 6) ^ 2 * (1 - (1 / 2) ^ 24))) - |K| := by
  have t := third_near
  refine C96_kurt_partial (acc_bits 24 (by norm_num)) u (vars6_ok 0) vars6_var (pow_pos (by linarith) 2) vars6_mag.1
    (mul_le_mul_of_nonneg_right (vars6_conv 2 (by decide)) (by positivity)) (by norm_num) vars6_mag.2.2 ?_
  have t0 : 0 ≤ third.val := by linarith
  refine mul_le_mul (vars6_conv 4 (by decide)) ?_ (by positivity) (by norm_num)
  rw [show third.val ^ 5 = third.val * (third.val ^ 2) ^ 2 by ring]
  exact mul_le_of_le_one_left (by positivity) (by linarith)

/-- the skewness of a variable with skewness 1/3 -/
example (u : Moments (FP (bits 24 (by norm_num)))) : ∃ k K, ((vars6 0).convert u (FP.conv _)).skew = some k ∧ (numbers FP.val (vars6 0)).skew = some K ∧
    |k.val - K| ≤ (|K| + 5 / 10 ^ 6) * ((1 + (1 / 2) ^ 24) / (Real.sqrt (1 - 5 / 10 ^ 6) * (1 - (1 / 2) ^ 24) * (1 - 5 / 10 ^ 6) * (1 - (1 / 2) ^ 24))) - |K| := by
  have t := third_near
  have t0 : 0 ≤ third.val := by linarith
  refine C96_skew_partial (acc_bits 24 (by norm_num)) u (vars6_ok 0) vars6_var (pow_pos (by linarith) 2) vars6_mag.1
    (mul_le_mul_of_nonneg_right (vars6_conv 2 (by decide)) (by positivity)) (by norm_num) vars6_mag.2.1 ?_
  rw [Real.sqrt_sq t0]
  refine mul_le_mul (vars6_conv 3 (by decide)) ?_ (by positivity) (by norm_num)
  rw [show third.val ^ 4 = third.val * (third.val * third.val ^ 2) by ring]
  exact mul_le_of_le_one_left (by positivity) (by linarith)

/-- the correlation of a variable with the sum of it and of another one is `1 / √2` -/
example (u : Moments (FP (bits 24 (by norm_num)))) : ∃ k K, UReal2.corr ((vars6 0).convert u (FP.conv _)) ((vars6 1).convert u (FP.conv _)) = some k ∧
    UReal2.corr (numbers FP.val (vars6 0)) (numbers FP.val (vars6 1)) = some K ∧
    |k.val - K| ≤ (|K| + 5 / 10 ^ 6) * ((1 + (1 / 2) ^ 24) / (Real.sqrt (1 - 5 / 10 ^ 6) * (1 - (1 / 2) ^ 24) * (Real.sqrt (1 - 5 / 10 ^ 6) * (1 - (1 / 2) ^ 24)) * (1 - (1 / 2) ^ 24))) - |K| := by
  have t := third_near
  have t0 : 0 < third.val := by linarith
  have V' : (numbers FP.val (vars6 1)).var = some (2 * third.val ^ 2) := by
    rw [vars6_one _ rfl]
    simp [UReal2.var, UReal2.m, UReal2.momArray, UReal2.updateMom, two_vars]
  have W' : magnitude (numbers (fun a => |a.val|) (vars6 1)) 2 = some (2 * third.val ^ 2) := by
    rw [vars6_one _ (by simp)]
    simp [magnitude, two_vars]
  have C : magnitudeCov (numbers (fun a => |a.val|) (vars6 0)) (numbers (fun a => |a.val|) (vars6 1)) = some (third.val ^ 2) := by
    rw [vars6_zero _ (by simp), vars6_one _ (by simp)]
    simp [magnitudeCov, two_vars, one_var]
  have e' : relErr ((1 / 2) ^ 24) (4 + momRounds (vars6 1).hg.diagmap.length (vars6 1).hg.trimap.length 2) ≤ 5 / 10 ^ 6 := by
    simp only [vars6, momRounds, relErr]; norm_num [Nat.choose]
  have e'' : relErr ((1 / 2) ^ 24) (3 + covRounds (vars6 0).hg.diagmap.length (vars6 0).hg.trimap.length (vars6 1).hg.diagmap.length) ≤ 5 / 10 ^ 6 := by
    simp only [vars6, covRounds, relErr]; norm_num
  refine C96_corr2_partial (acc_bits 24 (by norm_num)) u (vars6_ok 0) (vars6_ok 1) vars6_var (by positivity) vars6_mag.1
    (mul_le_mul_of_nonneg_right (vars6_conv 2 (by decide)) (by positivity)) (by norm_num) V' (by positivity) W'
    (mul_le_mul_of_nonneg_right e' (by positivity)) (by norm_num) C ?_
  refine mul_le_mul e'' ?_ (by positivity) (by norm_num)
  rw [Real.sqrt_sq t0.le, pow_two]
  refine mul_le_mul_of_nonneg_left (Real.le_sqrt_of_sq_le ?_) t0.le
  nlinarith

end Unc.Props
