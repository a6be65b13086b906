import Verif.Props.ContSteady

/-!
# C98: the remaining functions of math.hpp
-/

namespace Unc.Props
open Unc Unc.Spec Filter Topology HessGrad Mom
variable {u : Moments ℝ}

/-- **C98** The remaining functions of math.hpp of one variable. -/
theorem C98_functions_rest (a : ℝ) : (0 < a → SteadyStep1 (UMath2.cbrt u) cbrtR a) ∧ (-1 < a → a < 1 → a ≠ 0 → SteadyStep1 (UMath2.asin u) Real.arcsin a) ∧
    (-1 < a → a < 1 → a ≠ 0 → SteadyStep1 (UMath2.acos u) Real.arccos a) ∧ (a ≠ 0 → SteadyStep1 (UMath2.asinh u) Real.arsinh a) ∧
    (1 < a → SteadyStep1 (UMath2.acosh u) Real.arcosh a) ∧ (-1 < a → a < 1 → a ≠ 0 → SteadyStep1 (UMath2.atanh u) Real.artanh a) ∧
    (a ≠ 0 → SteadyStep1 (UMath2.erf u) erfR a) ∧ (a ≠ 0 → SteadyStep1 (UMath2.erfc u) (fun t => 1 - erfR t) a) := by
  have ci : -1 < a → a < 1 → ContinuousAt (fun t : ℝ => 1 / (1 - t * t)) a := fun h1 h2 => continuousAt_const.div (by fun_prop) (by nlinarith)
  have pi : -1 < a → a < 1 → 0 < 1 / (1 - a * a) := fun h1 h2 => one_div_pos.2 (by nlinarith)
  have cx : ContinuousAt (fun t : ℝ => (UMath.erfCoeff : ℝ) * Real.exp (-t * t)) a := by fun_prop
  have px : (UMath.erfCoeff : ℝ) * Real.exp (-a * a) ≠ 0 := mul_ne_zero erfCoeff_ne (Real.exp_pos _).ne'
  refine ⟨fun h => ?_, fun h1 h2 h0 => ?_, fun h1 h2 h0 => ?_, fun h0 => ?_, fun h => ?_, fun h1 h2 h0 => ?_, fun h0 => ?_, fun h0 => ?_⟩
  · have c0 : cbrtR a ≠ 0 := cbrt_ne h
    have c : ContinuousAt cbrtR a := (cbrt_pos h).continuousAt
    have i : ContinuousAt (fun t => 1 / (cbrtR t * cbrtR t)) a := continuousAt_const.div (c.mul c) (mul_ne_zero c0 c0)
    have h9 : (lit 9 : ℝ) * a ≠ 0 := mul_ne_zero (by norm_num [lit]) h.ne'
    exact ⟨u, fun t => 1 / (cbrtR t * cbrtR t) / lit 3, fun t => -lit 2 / (lit 9 * t) * (1 / (cbrtR t * cbrtR t)), Eventually.of_forall fun t x hx => by subst hx; rfl, c, i.div_const _,
      (continuousAt_const.div (continuousAt_const.mul continuousAt_id) h9).mul i,
      Or.inl (mul_ne_zero (div_ne_zero (by norm_num [lit]) h9) (one_div_ne_zero (mul_ne_zero c0 c0)))⟩
  · exact ⟨u, fun t => Real.sqrt (1 / (1 - t * t)), fun t => t * Real.sqrt (1 / (1 - t * t)) * (1 / (1 - t * t)), Eventually.of_forall fun t x hx => by subst hx; rfl,
      Real.continuous_arcsin.continuousAt, (ci h1 h2).sqrt, (continuousAt_id.mul (ci h1 h2).sqrt).mul (ci h1 h2),
      Or.inl (mul_ne_zero (mul_ne_zero h0 (Real.sqrt_pos.2 (pi h1 h2)).ne') (pi h1 h2).ne')⟩
  · exact ⟨u, fun t => -Real.sqrt (1 / (1 - t * t)), fun t => -t * Real.sqrt (1 / (1 - t * t)) * (1 / (1 - t * t)), Eventually.of_forall fun t x hx => by subst hx; rfl,
      Real.continuous_arccos.continuousAt, (ci h1 h2).sqrt.neg, (continuousAt_id.neg.mul (ci h1 h2).sqrt).mul (ci h1 h2),
      Or.inl (mul_ne_zero (mul_ne_zero (neg_ne_zero.2 h0) (Real.sqrt_pos.2 (pi h1 h2)).ne') (pi h1 h2).ne')⟩
  · have c : ContinuousAt (fun t : ℝ => 1 / (1 + t * t)) a := continuousAt_const.div (by fun_prop) (by nlinarith)
    have p : 0 < 1 / (1 + a * a) := one_div_pos.2 (by nlinarith)
    exact ⟨u, fun t => Real.sqrt (1 / (1 + t * t)), fun t => -t * (1 / (1 + t * t)) * Real.sqrt (1 / (1 + t * t)), Eventually.of_forall fun t x hx => by subst hx; rfl,
      Real.continuous_arsinh.continuousAt, c.sqrt, (continuousAt_id.neg.mul c).mul c.sqrt, Or.inl (mul_ne_zero (mul_ne_zero (neg_ne_zero.2 h0) p.ne') (Real.sqrt_pos.2 p).ne')⟩
  · have c : ContinuousAt (fun t : ℝ => 1 / (t * t - 1)) a := continuousAt_const.div (by fun_prop) (by nlinarith)
    have p : 0 < 1 / (a * a - 1) := one_div_pos.2 (by nlinarith)
    exact ⟨u, fun t => Real.sqrt (1 / (t * t - 1)), fun t => -t * (1 / (t * t - 1)) * Real.sqrt (1 / (t * t - 1)), Eventually.of_forall fun t x hx => by subst hx; rfl,
      (Real.hasDerivAt_arcosh h).continuousAt, c.sqrt, (continuousAt_id.neg.mul c).mul c.sqrt, Or.inl (mul_ne_zero (mul_ne_zero (neg_ne_zero.2 (by linarith)) p.ne') (Real.sqrt_pos.2 p).ne')⟩
  · exact ⟨u, fun t => 1 / (1 - t * t), fun t => lit 2 * t * (1 / (1 - t * t)) * (1 / (1 - t * t)), Eventually.of_forall fun t x hx => by subst hx; rfl,
      (hasDerivAt_artanh' h1 h2).continuousAt, ci h1 h2, ((continuousAt_const.mul continuousAt_id).mul (ci h1 h2)).mul (ci h1 h2),
      Or.inl (mul_ne_zero (mul_ne_zero (mul_ne_zero (by norm_num [lit]) h0) (pi h1 h2).ne') (pi h1 h2).ne')⟩
  · exact ⟨u, fun t => UMath.erfCoeff * Real.exp (-t * t), fun t => -lit 2 * t * (UMath.erfCoeff * Real.exp (-t * t)), Eventually.of_forall fun t x hx => by subst hx; rfl,
      (erf_deriv a).continuousAt, cx, (continuousAt_const.mul continuousAt_id).mul cx, Or.inl (mul_ne_zero (mul_ne_zero (by norm_num [lit]) h0) px)⟩
  · exact ⟨u, fun t => -(UMath.erfCoeff * Real.exp (-t * t)), fun t => lit 2 * t * (UMath.erfCoeff * Real.exp (-t * t)), Eventually.of_forall fun t x hx => by subst hx; rfl,
      continuousAt_const.sub (erf_deriv a).continuousAt, cx.neg, (continuousAt_const.mul continuousAt_id).mul cx, Or.inl (mul_ne_zero (mul_ne_zero (by norm_num [lit]) h0) px)⟩

example : SteadyStep1 (UMath2.asin exN) Real.arcsin (1 / 2) := (C98_functions_rest (1 / 2)).2.1 (by norm_num) (by norm_num) (by norm_num)
example : SteadyStep1 (UMath2.erf exN) erfR (-2) := (C98_functions_rest (-2)).2.2.2.2.2.2.1 (by norm_num)

theorem max_near {s t : ℝ} (h : s ≠ t) : ∀ᶠ p in 𝓝 (s, t), (max p.1 p.2 = p.1 ↔ max s t = s) ∧ (min p.1 p.2 = p.1 ↔ min s t = s) := by
  rcases lt_or_gt_of_ne h with h | h
  · have : ∀ᶠ p : ℝ × ℝ in 𝓝 (s, t), p.1 < p.2 := continuousAt_fst.eventually_lt continuousAt_snd h
    filter_upwards [this] with p hp
    simp [max_eq_left_iff, min_eq_left_iff, not_le.2 hp, not_le.2 h, hp.le, h.le, hp.ne, hp.ne', h.ne, h.ne']
  · have : ∀ᶠ p : ℝ × ℝ in 𝓝 (s, t), p.2 < p.1 := continuousAt_snd.eventually_lt continuousAt_fst h
    filter_upwards [this] with p hp
    simp [max_eq_left_iff, min_eq_left_iff, not_le.2 hp, not_le.2 h, hp.le, h.le, hp.ne, hp.ne', h.ne, h.ne']

/-- **C98** The remaining functions of two variables.  `fmod` and `remainder` where the quotient does not change. -/
theorem C98_functions_rest_two {a b : ℝ} : (a ≠ b → SteadyStep2 (UMath2.fmax u) max (a, b)) ∧ (a ≠ b → SteadyStep2 (UMath2.fmin u) min (a, b)) ∧
    (b ≠ 0 → (|a / b| < 1 ∨ ∀ n : ℤ, a / b ≠ n) → SteadyStep2 (UMath2.fmod u) CMath.fmod (a, b)) ∧
    (b ≠ 0 → (∀ n : ℤ, a / b + 1 / 2 ≠ n) → SteadyStep2 (UMath2.remainder u) CMath.remainder (a, b)) ∧
    (a ≠ 0 → b ≠ 0 → a * a ≠ b * b → SteadyStep2 (UMath2.atan2 u) CMath.atan2 (a, b)) := by
  have cq : b ≠ 0 → ContinuousAt (fun p : ℝ × ℝ => p.1 / p.2) (a, b) := fun hb => continuousAt_fst.div continuousAt_snd hb
  refine ⟨fun h => ?_, fun h => ?_, fun hb h => ?_, fun hb h => ?_, fun ha hb hab => ?_⟩
  · refine ⟨u, fun _ => if max a b = a then 1 else 0, fun _ => if max a b = a then 0 else 1, fun _ => 0, fun _ => 0, fun _ => 0, ?_, by fun_prop, continuousAt_const, continuousAt_const,
      steady_const _ _, steady_const _ _, steady_const _ _⟩
    filter_upwards [max_near h] with p hp x y hx hy
    rw [← hx, ← hy] at hp ⊢
    have : (CCmp.eqb (max x.mu y.mu) x.mu = true) ↔ max a b = a := (eqb_iff _ _).trans hp.1
    show UReal2.binary u x y (max x.mu y.mu) (if CCmp.eqb (max x.mu y.mu) x.mu then 1 else 0) (if CCmp.eqb (max x.mu y.mu) x.mu then 0 else 1) 0 0 0 = _
    simp only [this]
  · refine ⟨u, fun _ => if min a b = a then 1 else 0, fun _ => if min a b = a then 0 else 1, fun _ => 0, fun _ => 0, fun _ => 0, ?_, by fun_prop, continuousAt_const, continuousAt_const,
      steady_const _ _, steady_const _ _, steady_const _ _⟩
    filter_upwards [max_near h] with p hp x y hx hy
    rw [← hx, ← hy] at hp ⊢
    have : (CCmp.eqb (min x.mu y.mu) x.mu = true) ↔ min a b = a := (eqb_iff _ _).trans hp.2
    show UReal2.binary u x y (min x.mu y.mu) (if CCmp.eqb (min x.mu y.mu) x.mu then 1 else 0) (if CCmp.eqb (min x.mu y.mu) x.mu then 0 else 1) 0 0 0 = _
    simp only [this]
  · refine ⟨u, fun _ => 1, fun p => -CMath.trunc (p.1 / p.2), fun _ => 0, fun _ => 0, fun _ => 0, Eventually.of_forall fun t x y hx hy => by obtain ⟨s, t⟩ := t; cases hx; cases hy; rfl,
      (partials_of_prop (C14_fmod hb h) (M := CMath.fmod) (Dx := fun _ _ => 1) (Dy := fun s t => -CMath.trunc (s / t)) (fun _ _ => rfl)).1.continuousAt, continuousAt_const, ?_,
      steady_const _ _, steady_const _ _, steady_const _ _⟩
    have : ContinuousAt (CMath.trunc : ℝ → ℝ) (a / b) := continuousAt_const.congr ((trunc_eventually h).mono fun t ht => ht.symm)
    exact (ContinuousAt.comp (f := fun p : ℝ × ℝ => p.1 / p.2) (x := (a, b)) this (cq hb)).neg
  · refine ⟨u, fun _ => 1, fun p => -CMath.round (p.1 / p.2), fun _ => 0, fun _ => 0, fun _ => 0, Eventually.of_forall fun t x y hx hy => by obtain ⟨s, t⟩ := t; cases hx; cases hy; rfl,
      (partials_of_prop (C14_remainder hb h).1 (M := CMath.remainder) (Dx := fun _ _ => 1) (Dy := fun s t => -CMath.round (s / t)) (fun _ _ => rfl)).1.continuousAt, continuousAt_const, ?_,
      steady_const _ _, steady_const _ _, steady_const _ _⟩
    have : ContinuousAt (CMath.round : ℝ → ℝ) (a / b) := continuousAt_const.congr ((round_away_eventually h).mono fun t ht => ht.symm)
    exact (ContinuousAt.comp (f := fun p : ℝ × ℝ => p.1 / p.2) (x := (a, b)) this (cq hb)).neg
  · have hp : a * a + b * b ≠ 0 := (add_pos (mul_self_pos.2 ha) (mul_self_pos.2 hb)).ne'
    have hi := one_div_ne_zero hp
    have ct : ContinuousAt (fun t : ℝ × ℝ => Complex.arg ⟨t.2, t.1⟩) (a, b) := by
      have hm : (⟨b, a⟩ : ℂ) ∈ Complex.slitPlane := Or.inr ha
      have hc : Continuous fun p : ℝ × ℝ => (⟨p.2, p.1⟩ : ℂ) := by
        have : (fun p : ℝ × ℝ => (⟨p.2, p.1⟩ : ℂ)) = fun p => (p.2 : ℂ) + p.1 * Complex.I := by
          funext p; apply Complex.ext <;> simp
        rw [this]; fun_prop
      exact ContinuousAt.comp (f := fun p : ℝ × ℝ => (⟨p.2, p.1⟩ : ℂ)) (g := Complex.arg) (x := (a, b)) (Complex.continuousAt_arg hm) hc.continuousAt
    have ci : ContinuousAt (fun t : ℝ × ℝ => 1 / (t.1 * t.1 + t.2 * t.2)) (a, b) := continuousAt_const.div (by fun_prop) hp
    have cx : ContinuousAt (fun t : ℝ × ℝ => t.1 * (1 / (t.1 * t.1 + t.2 * t.2))) (a, b) := continuousAt_fst.mul ci
    have cy : ContinuousAt (fun t : ℝ × ℝ => t.2 * (1 / (t.1 * t.1 + t.2 * t.2))) (a, b) := continuousAt_snd.mul ci
    have c2 := (continuousAt_const (y := (lit 2 : ℝ))).mul cx |>.mul cy
    have h2 : (lit 2 : ℝ) * (a * (1 / (a * a + b * b))) * (b * (1 / (a * a + b * b))) ≠ 0 :=
      mul_ne_zero (mul_ne_zero (by norm_num [lit]) (mul_ne_zero ha hi)) (mul_ne_zero hb hi)
    exact ⟨u, fun t => t.2 * (1 / (t.1 * t.1 + t.2 * t.2)), fun t => -(t.1 * (1 / (t.1 * t.1 + t.2 * t.2))),
      fun t => -(lit 2 * (t.1 * (1 / (t.1 * t.1 + t.2 * t.2))) * (t.2 * (1 / (t.1 * t.1 + t.2 * t.2)))),
      fun t => lit 2 * (t.1 * (1 / (t.1 * t.1 + t.2 * t.2))) * (t.2 * (1 / (t.1 * t.1 + t.2 * t.2))),
      fun t => (t.1 * t.1 - t.2 * t.2) * (1 / (t.1 * t.1 + t.2 * t.2)) * (1 / (t.1 * t.1 + t.2 * t.2)),
      Eventually.of_forall fun t x y hx hy => by obtain ⟨s, t⟩ := t; cases hx; cases hy; rfl, ct, cy, cx.neg, ⟨c2.neg, Or.inl (neg_ne_zero.2 h2)⟩, ⟨c2, Or.inl h2⟩,
      ⟨(ContinuousAt.mul (by fun_prop) ci).mul ci, Or.inl (mul_ne_zero (mul_ne_zero (sub_ne_zero.2 hab) hi) hi)⟩⟩

example : SteadyStep2 (UMath2.atan2 exN) CMath.atan2 (7, -2) := C98_functions_rest_two.2.2.2.2 (by norm_num) (by norm_num) (by norm_num)
example : SteadyStep2 (UMath2.fmax exN) max (7, -2) := C98_functions_rest_two.1 (by norm_num)
example : SteadyStep2 (UMath2.fmod exN) CMath.fmod (1, 2) := C98_functions_rest_two.2.2.1 (by norm_num) (Or.inl (by norm_num [abs_of_pos]))

end Unc.Props
