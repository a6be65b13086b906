import Verif.Lemmas.WithinFactor
import Verif.Props.Error2

/-!
# C80: rounding errors of the ratios of moments
-/

namespace Unc.Props
open Unc.Spec HessGrad SMap Mom FP

variable {f : Fmt} {u : ℝ}

/-- a moment of a calculation -/
theorem moment_err (hu : Acc f.rd u) (hh : HasHalf f) {env : ℕ → UReal2 (FP f)} (henv : ∀ i, Ok2 (env i)) {c : CalcF f} (hc : c.Safe u fun i => (env i).mu.val) {v : Moments (FP f)} {v' v'' : Moments ℝ}
    {x : UReal2 (FP f)} {y z : UReal2 ℝ} (hx : c.run v env = some x) (hy : c.exact v' (fun i => numbers FP.val (env i)) = some y)
    (hz : c.sizes v'' (fun i => numbers FP.val (env i)) = some z) {n : ℕ} (hn : 1 ≤ n ∧ n ≤ 4) {W b : ℝ} (hW : magnitude z n = some W)
    (hb : relErr u (n * c.rounds + momRounds x.hg.diagmap.length x.hg.trimap.length n) * W ≤ b) : ∃ a A, x.m n = some a ∧ y.m n = some A ∧ |a.val - A| ≤ b := by
  obtain ⟨x', y', z', h1, h2, h3, -, h4⟩ := C80_moments hu hh henv hc
  have e1 := h1 v
  have e2 := h2 v'
  have e3 := h3 v''
  rw [hx, Option.some_inj] at e1
  rw [hy, Option.some_inj] at e2
  rw [hz, Option.some_inj] at e3
  subst e1; subst e2; subst e3
  obtain ⟨a, A, W', k1, k2, k3, -, k4⟩ := h4 n hn
  rw [hW, Option.some_inj] at k3
  subst k3
  exact ⟨a, A, k1, k2, k4.trans hb⟩

/-- **C80** `kurt()`: with a relative error of the variance of at most `θ < 1`, and an error of the fourth moment of at most `η` times the square of the variance, the factors which come from
the denominator and from the roundings of the product and of the quotient are at most `(1 + u) / ((1 - θ)² (1 - u))`. -/
theorem C80_kurt (hu : Acc f.rd u) (hh : HasHalf f) {env : ℕ → UReal2 (FP f)} (henv : ∀ i, Ok2 (env i)) {c : CalcF f} (hc : c.Safe u fun i => (env i).mu.val) {v : Moments (FP f)} {v' v'' : Moments ℝ}
    {x : UReal2 (FP f)} {y z : UReal2 ℝ} (hx : c.run v env = some x) (hy : c.exact v' (fun i => numbers FP.val (env i)) = some y)
    (hz : c.sizes v'' (fun i => numbers FP.val (env i)) = some z) {V W W4 θ η : ℝ} (hV : y.var = some V) (V0 : 0 < V) (hW : magnitude z 2 = some W)
    (hθ : relErr u (2 * c.rounds + momRounds x.hg.diagmap.length x.hg.trimap.length 2) * W ≤ θ * V) (θ1 : θ < 1) (hW4 : magnitude z 4 = some W4)
    (hη : relErr u (4 * c.rounds + momRounds x.hg.diagmap.length x.hg.trimap.length 4) * W4 ≤ η * V ^ 2) :
    ∃ k K, x.kurt = some k ∧ y.kurt = some K ∧ |k.val - K| ≤ (|K| + η) * ((1 + u) / ((1 - θ) ^ 2 * (1 - u))) - |K| := by
  obtain ⟨a, A, h1, h2, h3⟩ := moment_err hu hh henv hc hx hy hz (by decide) hW hθ
  obtain ⟨b, B, h4, h5, h6⟩ := moment_err hu hh henv hc hx hy hz (by decide) hW4 hη
  rw [UReal2.var, h2, Option.some_inj] at hV
  subst hV
  refine ⟨b / (a * a), B / (A * A), by simp [UReal2.kurt, h1, h4], by simp [UReal2.kurt, h2, h5], ?_⟩
  have n := WithinFactor.start V0 h3 θ1
  rw [val_div, val_mul, pow_two]
  exact ((n.mul n).rd hu).quot hu (by rwa [← pow_two])

/-- **C80** `skew()`: the same with the product of the variance and the standard deviation. -/
theorem C80_skew (hu : Acc f.rd u) (hh : HasHalf f) {env : ℕ → UReal2 (FP f)} (henv : ∀ i, Ok2 (env i)) {c : CalcF f} (hc : c.Safe u fun i => (env i).mu.val) {v : Moments (FP f)} {v' v'' : Moments ℝ}
    {x : UReal2 (FP f)} {y z : UReal2 ℝ} (hx : c.run v env = some x) (hy : c.exact v' (fun i => numbers FP.val (env i)) = some y)
    (hz : c.sizes v'' (fun i => numbers FP.val (env i)) = some z) {V W W3 θ η : ℝ} (hV : y.var = some V) (V0 : 0 < V) (hW : magnitude z 2 = some W)
    (hθ : relErr u (2 * c.rounds + momRounds x.hg.diagmap.length x.hg.trimap.length 2) * W ≤ θ * V) (θ1 : θ < 1) (hW3 : magnitude z 3 = some W3)
    (hη : relErr u (3 * c.rounds + momRounds x.hg.diagmap.length x.hg.trimap.length 3) * W3 ≤ η * (Real.sqrt V * V)) :
    ∃ k K, x.skew = some k ∧ y.skew = some K ∧ |k.val - K| ≤ (|K| + η) * ((1 + u) / (Real.sqrt (1 - θ) * (1 - u) * (1 - θ) * (1 - u))) - |K| := by
  obtain ⟨a, A, h1, h2, h3⟩ := moment_err hu hh henv hc hx hy hz (by decide) hW hθ
  obtain ⟨b, B, h4, h5, h6⟩ := moment_err hu hh henv hc hx hy hz (by decide) hW3 hη
  rw [UReal2.var, h2, Option.some_inj] at hV
  subst hV
  refine ⟨b / (CSqrt.sqrt a * a), B / (Real.sqrt A * A), by simp [UReal2.skew, UReal2.s, h1, h4], by simp [UReal2.skew, UReal2.s, h2, h5], ?_⟩
  have n := WithinFactor.start V0 h3 θ1
  rw [val_div, val_mul, val_sqrt]
  exact (((n.sqrt.rd hu).mul n).rd hu).quot hu h6

/-- **C80** `corr(x, y)`: the same with the product of both standard deviations. -/
theorem C80_corr (hu : Acc f.rd u) (hh : HasHalf f) {env : ℕ → UReal2 (FP f)} (henv : ∀ i, Ok2 (env i)) {c c' : CalcF f} (hc : c.Safe u fun i => (env i).mu.val) (hc' : c'.Safe u fun i => (env i).mu.val) {v : Moments (FP f)}
    {v' v'' : Moments ℝ} {x x' : UReal2 (FP f)} {y z y' z' : UReal2 ℝ} (hx : c.run v env = some x) (hy : c.exact v' (fun i => numbers FP.val (env i)) = some y)
    (hz : c.sizes v'' (fun i => numbers FP.val (env i)) = some z) (hx' : c'.run v env = some x') (hy' : c'.exact v' (fun i => numbers FP.val (env i)) = some y')
    (hz' : c'.sizes v'' (fun i => numbers FP.val (env i)) = some z') {V W V' W' C θ θ' η : ℝ} (hV : y.var = some V) (V0 : 0 < V) (hW : magnitude z 2 = some W)
    (hθ : relErr u (2 * c.rounds + momRounds x.hg.diagmap.length x.hg.trimap.length 2) * W ≤ θ * V) (θ1 : θ < 1) (hV' : y'.var = some V') (V0' : 0 < V') (hW' : magnitude z' 2 = some W')
    (hθ' : relErr u (2 * c'.rounds + momRounds x'.hg.diagmap.length x'.hg.trimap.length 2) * W' ≤ θ' * V') (θ1' : θ' < 1) (hC : magnitudeCov z z' = some C)
    (hη : relErr u (c.rounds + c'.rounds + covRounds x.hg.diagmap.length x.hg.trimap.length x'.hg.diagmap.length) * C ≤ η * (Real.sqrt V * Real.sqrt V')) :
    ∃ k K, UReal2.corr x x' = some k ∧ UReal2.corr y y' = some K ∧
      |k.val - K| ≤ (|K| + η) * ((1 + u) / (Real.sqrt (1 - θ) * (1 - u) * (Real.sqrt (1 - θ') * (1 - u)) * (1 - u))) - |K| := by
  obtain ⟨a, A, h1, h2, h3⟩ := moment_err hu hh henv hc hx hy hz (by decide) hW hθ
  obtain ⟨a', A', h1', h2', h3'⟩ := moment_err hu hh henv hc' hx' hy' hz' (by decide) hW' hθ'
  obtain ⟨b, B, D, h4, h5, h6, -, h7⟩ := C80_cov hu hh henv hc hc' hx hy hz hx' hy' hz'
  rw [hC, Option.some_inj] at h6
  subst h6
  rw [UReal2.var, h2, Option.some_inj] at hV
  subst hV
  rw [UReal2.var, h2', Option.some_inj] at hV'
  subst hV'
  refine ⟨b / (CSqrt.sqrt a * CSqrt.sqrt a'), B / (Real.sqrt A * Real.sqrt A'), by simp [UReal2.corr, UReal2.s, h1, h1', h4], by simp [UReal2.corr, UReal2.s, h2, h2', h5], ?_⟩
  have n := WithinFactor.start V0 h3 θ1
  have n' := WithinFactor.start V0' h3' θ1'
  rw [val_div, val_mul, val_sqrt, val_sqrt]
  exact (((n.sqrt.rd hu).mul (n'.sqrt.rd hu)).rd hu).quot hu (h7.trans hη)

/-- a variable with mean 1/3, standard deviation 1/3, skewness 1/3 and so on, and the sum of it and of another one -/
noncomputable def vars6 : ℕ → UReal2 (FP binary64) := fun i =>
  let d : Diag (FP binary64) := ⟨third, 0, ⟨third, third, third, third, third, third⟩⟩
  if i = 0 then ⟨⟨[(1, d)], []⟩, third⟩ else ⟨⟨[(1, d), (2, d)], []⟩, third⟩

theorem vars6_ok (i : ℕ) : Ok2 (vars6 i) := by
  unfold vars6
  split_ifs with h
  · exact ⟨⟨List.pairwise_singleton _ _, .nil, by simp⟩, by simp [HessGrad.Below, SMap.keys, maxId]⟩
  · exact ⟨⟨by simp [SMap.Sorted], .nil, by simp⟩, by simp [HessGrad.Below, SMap.keys, maxId]⟩

theorem vars6_zero (c : FP binary64 → ℝ) (h : c 0 = 0) :
    numbers c (vars6 0) = ⟨⟨[(1, ⟨c third, 0, ⟨c third, c third, c third, c third, c third, c third⟩⟩)], []⟩, c third⟩ := by
  simp [numbers, vars6, h]

/-- the moments of a variable -/
theorem one_var (g : ℝ) (m : Moments ℝ) : Mom.compute (⟨[(1, ⟨g, 0, m⟩)], []⟩ : HessGrad ℝ) 1 = some 0 ∧ Mom.compute (⟨[(1, ⟨g, 0, m⟩)], []⟩ : HessGrad ℝ) 2 = some (g ^ 2) ∧
    Mom.compute (⟨[(1, ⟨g, 0, m⟩)], []⟩ : HessGrad ℝ) 3 = some (g ^ 3 * m.v3) ∧ Mom.compute (⟨[(1, ⟨g, 0, m⟩)], []⟩ : HessGrad ℝ) 4 = some (g ^ 4 * m.v4) := by
  have ent : ∀ d : Diag ℝ, HessGrad.triEntries ⟨[(1, d)], []⟩ false = some [] := fun d => rfl
  have ent' : ∀ d : Diag ℝ, HessGrad.triEntries ⟨[(1, d)], []⟩ true = some [] := fun d => rfl
  refine ⟨by simp [Mom.compute, Mom.m1], by simp [Mom.compute, Mom.m2, Mom.m2A, ent, pow_two], ?_, ?_⟩
  · simp [Mom.compute, Mom.m3, ent, ent', forTails, Mom.m3A]; left; ring
  · simp [Mom.compute, Mom.m4, ent, ent', forTails, Mom.m4A]; left; ring

theorem two_vars (g : ℝ) (m : Moments ℝ) : Mom.compute (⟨[(1, ⟨g, 0, m⟩), (2, ⟨g, 0, m⟩)], []⟩ : HessGrad ℝ) 1 = some 0 ∧
    Mom.compute (⟨[(1, ⟨g, 0, m⟩), (2, ⟨g, 0, m⟩)], []⟩ : HessGrad ℝ) 2 = some (2 * g ^ 2) ∧
    Mom.c2 (⟨[(1, ⟨g, 0, m⟩)], []⟩ : HessGrad ℝ) ⟨[(1, ⟨g, 0, m⟩), (2, ⟨g, 0, m⟩)], []⟩ = some (g ^ 2) := by
  have ent : ∀ d e : Diag ℝ, HessGrad.triEntries ⟨[(1, d), (2, e)], []⟩ false = some [{ id1 := 1, id2 := 2, d1 := d, d2 := e, val := 0 }] := fun d e => rfl
  have ent' : ∀ d : Diag ℝ, HessGrad.triEntries ⟨[(1, d)], []⟩ true = some [] := fun d => rfl
  have ent'' : ∀ d e : Diag ℝ, HessGrad.triEntries ⟨[(1, d), (2, e)], []⟩ true = some [] := fun d e => rfl
  refine ⟨by simp [Mom.compute, Mom.m1], ?_, ?_⟩
  · simp [Mom.compute, Mom.m2, Mom.m2A, Mom.m2B, ent]
    ring
  · simp [Mom.c2, ent', ent'', Mom.c2A, Mom.c2B, Mom.c2C]
    ring

theorem vars6_one (c : FP binary64 → ℝ) (h : c 0 = 0) : numbers c (vars6 1) =
    ⟨⟨[(1, ⟨c third, 0, ⟨c third, c third, c third, c third, c third, c third⟩⟩), (2, ⟨c third, 0, ⟨c third, c third, c third, c third, c third, c third⟩⟩)], []⟩, c third⟩ := by
  simp [numbers, vars6, h]

theorem vars6_var : (numbers FP.val (vars6 0)).var = some (third.val ^ 2) := by
  rw [vars6_zero _ rfl]
  simp [UReal2.var, UReal2.m, UReal2.momArray, UReal2.updateMom, one_var]

theorem vars6_mag : magnitude (numbers (fun a => |a.val|) (vars6 0)) 2 = some (third.val ^ 2) ∧ magnitude (numbers (fun a => |a.val|) (vars6 0)) 3 = some (third.val ^ 4) ∧
    magnitude (numbers (fun a => |a.val|) (vars6 0)) 4 = some (third.val ^ 5) := by
  have t0 : 0 < third.val := by linarith [third_near.1]
  rw [vars6_zero _ (by simp)]
  simp [magnitude, one_var, abs_of_pos t0]
  constructor <;> ring

theorem vars6_err (n : ℕ) (hn : n ≤ 4) : relErr ((1 / 2) ^ 53) (n * (CalcF.leaf 0 : CalcF binary64).rounds + momRounds (vars6 0).hg.diagmap.length (vars6 0).hg.trimap.length n) ≤ 5 / 10 ^ 15 := by
  interval_cases n <;> simp only [vars6, CalcF.rounds, momRounds, relErr] <;> norm_num

/-- the kurtosis of a variable with kurtosis 1/3 -/
example : ∃ k K, (vars6 0).kurt = some k ∧ (numbers FP.val (vars6 0)).kurt = some K ∧ |k.val - K| ≤ (|K| + 5 / 10 ^ 15) * ((1 + (1 / 2) ^ 53) / ((1 - 5 / 10 ^ 15) ^ 2 * (1 - (1 / 2) ^ 53))) - |K| := by
  have t := third_near
  refine C80_kurt (c := .leaf 0) acc_double (C80_half _) vars6_ok trivial (v := ⟨0, 0, 0, 0, 0, 0⟩) (v' := ⟨0, 0, 0, 0, 0, 0⟩) (v'' := ⟨0, 0, 0, 0, 0, 0⟩) rfl rfl rfl vars6_var
    (pow_pos (by linarith) 2) vars6_mag.1 (mul_le_mul_of_nonneg_right (vars6_err 2 (by decide)) (by positivity)) (by norm_num) vars6_mag.2.2 ?_
  have t0 : 0 ≤ third.val := by linarith
  refine mul_le_mul (vars6_err 4 (by decide)) ?_ (by positivity) (by norm_num)
  rw [show third.val ^ 5 = third.val * (third.val ^ 2) ^ 2 by ring]
  exact mul_le_of_le_one_left (by positivity) (by linarith)

/-- the skewness of a variable with skewness 1/3 -/
example : ∃ k K, (vars6 0).skew = some k ∧ (numbers FP.val (vars6 0)).skew = some K ∧
    |k.val - K| ≤ (|K| + 5 / 10 ^ 15) * ((1 + (1 / 2) ^ 53) / (Real.sqrt (1 - 5 / 10 ^ 15) * (1 - (1 / 2) ^ 53) * (1 - 5 / 10 ^ 15) * (1 - (1 / 2) ^ 53))) - |K| := by
  have t := third_near
  have t0 : 0 ≤ third.val := by linarith
  refine C80_skew (c := .leaf 0) acc_double (C80_half _) vars6_ok trivial (v := ⟨0, 0, 0, 0, 0, 0⟩) (v' := ⟨0, 0, 0, 0, 0, 0⟩) (v'' := ⟨0, 0, 0, 0, 0, 0⟩) rfl rfl rfl vars6_var
    (pow_pos (by linarith) 2) vars6_mag.1 (mul_le_mul_of_nonneg_right (vars6_err 2 (by decide)) (by positivity)) (by norm_num) vars6_mag.2.1 ?_
  rw [Real.sqrt_sq t0]
  refine mul_le_mul (vars6_err 3 (by decide)) ?_ (by positivity) (by norm_num)
  rw [show third.val ^ 4 = third.val * (third.val * third.val ^ 2) by ring]
  exact mul_le_of_le_one_left (by positivity) (by linarith)

/-- the correlation of a variable with the sum of it and of another one is `1 / √2` -/
example : ∃ k K, UReal2.corr (vars6 0) (vars6 1) = some k ∧ UReal2.corr (numbers FP.val (vars6 0)) (numbers FP.val (vars6 1)) = some K ∧
    |k.val - K| ≤ (|K| + 5 / 10 ^ 15) * ((1 + (1 / 2) ^ 53) / (Real.sqrt (1 - 5 / 10 ^ 15) * (1 - (1 / 2) ^ 53) * (Real.sqrt (1 - 5 / 10 ^ 15) * (1 - (1 / 2) ^ 53)) * (1 - (1 / 2) ^ 53))) - |K| := by
  have t := third_near
  have t0 : 0 < third.val := by linarith
  have V' : (numbers FP.val (vars6 1)).var = some (2 * third.val ^ 2) := by
    rw [vars6_one _ rfl]
    simp [UReal2.var, UReal2.m, UReal2.momArray, UReal2.updateMom, two_vars]
  have W' : magnitude (numbers (fun a => |a.val|) (vars6 1)) 2 = some (2 * third.val ^ 2) := by
    rw [vars6_one _ (by simp)]
    simp [magnitude, two_vars]
  have C : magnitudeCov (numbers (fun a => |a.val|) (vars6 0)) (numbers (fun a => |a.val|) (vars6 1)) = some (third.val ^ 2) := by
    rw [vars6_zero _ (by simp), vars6_one _ (by simp)]
    simp [magnitudeCov, two_vars, one_var]
  have e' : relErr ((1 / 2) ^ 53) (2 * (CalcF.leaf 1 : CalcF binary64).rounds + momRounds (vars6 1).hg.diagmap.length (vars6 1).hg.trimap.length 2) ≤ 5 / 10 ^ 15 := by
    simp only [vars6, CalcF.rounds, momRounds, relErr]; norm_num [Nat.choose]
  have e'' : relErr ((1 / 2) ^ 53) ((CalcF.leaf 0 : CalcF binary64).rounds + (CalcF.leaf 1 : CalcF binary64).rounds + covRounds (vars6 0).hg.diagmap.length (vars6 0).hg.trimap.length (vars6 1).hg.diagmap.length) ≤ 5 / 10 ^ 15 := by
    simp only [vars6, CalcF.rounds, covRounds, relErr]; norm_num
  refine C80_corr (c := .leaf 0) (c' := .leaf 1) acc_double (C80_half _) vars6_ok trivial trivial (v := ⟨0, 0, 0, 0, 0, 0⟩) (v' := ⟨0, 0, 0, 0, 0, 0⟩) (v'' := ⟨0, 0, 0, 0, 0, 0⟩) rfl rfl rfl rfl rfl rfl
    vars6_var (by positivity) vars6_mag.1 (mul_le_mul_of_nonneg_right (vars6_err 2 (by decide)) (by positivity)) (by norm_num) V' (by positivity) W'
    (mul_le_mul_of_nonneg_right e' (by positivity)) (by norm_num) C ?_
  refine mul_le_mul e'' ?_ (by positivity) (by norm_num)
  rw [Real.sqrt_sq t0.le, pow_two]
  refine mul_le_mul_of_nonneg_left (Real.le_sqrt_of_sq_le ?_) t0.le
  nlinarith

end Unc.Props
