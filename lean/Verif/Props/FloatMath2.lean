import Verif.Props.FloatConv2
import Verif.Model.Math2

/-!
# C66 for the functions of math.hpp on second-order variables, with correctly rounded `<cmath>` functions

`Near1` and `Near2` (`Verif/Spec/FloatProg2.lean`) are the hypotheses of `C66_converges` on the functions called.  The exact counterpart of each function is the same
function with exact real numbers, whose meaning is the subject of C20.
-/

namespace Unc.Props
open Unc.Spec FP Filter Topology Mom

theorem log2_ne : (CMath.log (lit 2) : ℝ) ≠ 0 := (Real.log_pos (by norm_num [lit])).ne'
theorem log10_ne : (CMath.log (lit 10) : ℝ) ≠ 0 := (Real.log_pos (by norm_num [lit])).ne'

theorem conv_log2 {f : ℕ → Fmt} (hf : Finer f) : Conv (fun k => (CMath.log (lit 2) : FP (f k))) (CMath.log (lit 2)) :=
  (conv_nat hf 2).fn hf (Real.continuousAt_log (by norm_num [lit]))

theorem conv_log10 {f : ℕ → Fmt} (hf : Finer f) : Conv (fun k => (CMath.log (lit 10) : FP (f k))) (CMath.log (lit 10)) :=
  (conv_nat hf 10).fn hf (Real.continuousAt_log (by norm_num [lit]))

theorem cbrt_ne {a : ℝ} (h : 0 < a) : (CMath.cbrt a : ℝ) ≠ 0 := by
  show cbrtR a ≠ 0
  have := Real.rpow_pos_of_pos h (1 / 3)
  simp only [cbrtR, h.le, if_true]
  exact this.ne'

theorem tanh_ne {a : ℝ} (h : a ≠ 0) : Real.tanh a ≠ 0 := by
  rw [Real.tanh_eq_sinh_div_cosh]
  exact div_ne_zero (Real.sinh_ne_zero.2 h) (Real.cosh_pos a).ne'

theorem one_sub_tanh_ne (a : ℝ) : 1 - Real.tanh a * Real.tanh a ≠ 0 := by
  have hc := Real.cosh_pos a
  have := Real.cosh_sq a
  rw [Real.tanh_eq_sinh_div_cosh]
  have : 1 - Real.sinh a / Real.cosh a * (Real.sinh a / Real.cosh a) = 1 / Real.cosh a ^ 2 := by
    field_simp; linarith
  rw [this]; positivity

theorem erfCoeff_ne : (UMath.erfCoeff : ℝ) ≠ 0 := by
  have hpi : (CMath.atan2 (0 : ℝ) (-1)) = Real.pi := by
    have : (⟨-1, 0⟩ : ℂ) = -1 := by apply Complex.ext <;> simp
    simp [CMath.atan2, this, Complex.arg_neg_one]
  show ((2 : ℕ) : ℝ) / Real.sqrt (CMath.atan2 (0 : ℝ) (-1)) ≠ 0
  rw [hpi]
  exact div_ne_zero (by norm_num [lit]) (Real.sqrt_pos.2 Real.pi_pos).ne'

theorem C66_exp (a : ℝ) : Near1 (fun _ => UMath2.exp) UMath2.exp a :=
  ⟨fun _ x => CMath.exp x, fun _ x => CMath.exp x, fun _ x => CMath.exp x,
    fun x => CMath.exp x, fun x => CMath.exp x, fun x => CMath.exp x, fun _ _ _ => rfl, fun _ _ => rfl, Or.inl (Real.exp_pos a).ne', fun _ _ hf hx => by
      have hx : Conv _ a := hx
      exact ⟨hx.fn hf Real.continuous_exp.continuousAt, hx.fn hf Real.continuous_exp.continuousAt, hx.fn hf Real.continuous_exp.continuousAt⟩⟩

example := C66_exp 3

theorem C66_exp2 (a : ℝ) : Near1 (fun _ => UMath2.exp2) UMath2.exp2 a :=
  ⟨fun _ x => CMath.exp2 x, fun _ x => CMath.log (lit 2) * CMath.exp2 x, fun _ x => CMath.log (lit 2) * CMath.log (lit 2) * CMath.exp2 x,
    fun x => CMath.exp2 x, fun x => CMath.log (lit 2) * CMath.exp2 x, fun x => CMath.log (lit 2) * CMath.log (lit 2) * CMath.exp2 x, fun _ _ _ => rfl, fun _ _ => rfl, Or.inl (mul_ne_zero (mul_ne_zero log2_ne log2_ne) (Real.rpow_pos_of_pos two_pos a).ne'), fun _ _ hf hx => by
      have hx : Conv _ a := hx
      have h : Conv (fun k => CMath.exp2 (_ : FP _)) (CMath.exp2 a) := hx.fn hf (Real.continuous_const_rpow (by norm_num [lit])).continuousAt
      have l := conv_log2 hf
      exact ⟨h, l.mul hf h, (l.mul hf l).mul hf h⟩⟩

example := C66_exp2 (-3 / 2)

theorem C66_expm1 (a : ℝ) : Near1 (fun _ => UMath2.expm1) UMath2.expm1 a :=
  ⟨fun _ x => CMath.expm1 x, fun _ x => CMath.exp x, fun _ x => CMath.exp x,
    fun x => CMath.expm1 x, fun x => CMath.exp x, fun x => CMath.exp x, fun _ _ _ => rfl, fun _ _ => rfl, Or.inl (Real.exp_pos a).ne', fun _ _ hf hx => by
      have hx : Conv _ a := hx
      exact ⟨hx.fn hf (F := fun t => Real.exp t - 1) (Real.continuous_exp.sub continuous_const).continuousAt, hx.fn hf Real.continuous_exp.continuousAt, hx.fn hf Real.continuous_exp.continuousAt⟩⟩

example := C66_expm1 (1 / 4)

theorem C66_log {a : ℝ} (h : 0 < a) : Near1 (fun _ => UMath2.log) UMath2.log a :=
  ⟨fun _ x => CMath.log x, fun _ x => 1 / x, fun _ x => -1 / (x * x),
    fun x => CMath.log x, fun x => 1 / x, fun x => -1 / (x * x), fun _ _ _ => rfl, fun _ _ => rfl, Or.inl (div_ne_zero (by norm_num [lit]) (mul_ne_zero h.ne' h.ne')), fun _ _ hf hx => by
      have hx : Conv _ a := hx
      exact ⟨hx.fn hf (Real.continuousAt_log h.ne'), conv_one.div hf hx h.ne', conv_one.neg.div hf (hx.mul hf hx) (mul_ne_zero h.ne' h.ne')⟩⟩

example := C66_log (a := 2) (by norm_num)

theorem C66_log10 {a : ℝ} (h : 0 < a) : Near1 (fun _ => UMath2.log10) UMath2.log10 a :=
  ⟨fun _ x => CMath.log10 x, fun _ x => (1 / CMath.log (lit 10)) / x, fun _ x => -(1 / CMath.log (lit 10)) / (x * x),
    fun x => CMath.log10 x, fun x => (1 / CMath.log (lit 10)) / x, fun x => -(1 / CMath.log (lit 10)) / (x * x), fun _ _ _ => rfl, fun _ _ => rfl, Or.inl (div_ne_zero (neg_ne_zero.2 (one_div_ne_zero log10_ne)) (mul_ne_zero h.ne' h.ne')), fun _ _ hf hx => by
      have hx : Conv _ a := hx
      have c := conv_one.div hf (conv_log10 hf) log10_ne
      exact ⟨hx.fn hf ((Real.continuousAt_log h.ne').div_const _), c.div hf hx h.ne', c.neg.div hf (hx.mul hf hx) (mul_ne_zero h.ne' h.ne')⟩⟩

example := C66_log10 (a := 2) (by norm_num)

theorem C66_log2 {a : ℝ} (h : 0 < a) : Near1 (fun _ => UMath2.log2) UMath2.log2 a :=
  ⟨fun _ x => CMath.log2 x, fun _ x => (1 / CMath.log (lit 2)) / x, fun _ x => -(1 / CMath.log (lit 2)) / (x * x),
    fun x => CMath.log2 x, fun x => (1 / CMath.log (lit 2)) / x, fun x => -(1 / CMath.log (lit 2)) / (x * x), fun _ _ _ => rfl, fun _ _ => rfl, Or.inl (div_ne_zero (neg_ne_zero.2 (one_div_ne_zero log2_ne)) (mul_ne_zero h.ne' h.ne')), fun _ _ hf hx => by
      have hx : Conv _ a := hx
      have c := conv_one.div hf (conv_log2 hf) log2_ne
      exact ⟨hx.fn hf ((Real.continuousAt_log h.ne').div_const _), c.div hf hx h.ne', c.neg.div hf (hx.mul hf hx) (mul_ne_zero h.ne' h.ne')⟩⟩

example := C66_log2 (a := 3) (by norm_num)

theorem C66_log1p {a : ℝ} (h : -1 < a) : Near1 (fun _ => UMath2.log1p) UMath2.log1p a :=
  ⟨fun _ x => CMath.log1p x, fun _ x => 1 / (1 + x), fun _ x => -(1 / (1 + x)) * (1 / (1 + x)),
    fun x => CMath.log1p x, fun x => 1 / (1 + x), fun x => -(1 / (1 + x)) * (1 / (1 + x)), fun _ _ _ => rfl, fun _ _ => rfl, (by
      have : 1 + a ≠ 0 := by linarith
      exact Or.inl (mul_ne_zero (neg_ne_zero.2 (one_div_ne_zero this)) (one_div_ne_zero this))), fun _ _ hf hx => by
      have hx : Conv _ a := hx
      have h0 : 1 + a ≠ 0 := by linarith
      have c := conv_one.div hf (conv_one.add hf hx) h0
      exact ⟨hx.fn hf (F := fun t => Real.log (1 + t)) ((continuousAt_const.add continuousAt_id).log h0), c, c.neg.mul hf c⟩⟩

example := C66_log1p (a := -1 / 2) (by norm_num)

theorem C66_sqrt {a : ℝ} (h : 0 < a) : Near1 (fun _ => UMath2.sqrt) UMath2.sqrt a :=
  ⟨fun _ x => CSqrt.sqrt x, fun _ x => 1 / (lit 2 * CSqrt.sqrt x), fun _ x => -1 / (lit 4 * x * CSqrt.sqrt x),
    fun x => CSqrt.sqrt x, fun x => 1 / (lit 2 * CSqrt.sqrt x), fun x => -1 / (lit 4 * x * CSqrt.sqrt x), fun _ _ _ => rfl, fun _ _ => rfl, Or.inl (div_ne_zero (by norm_num [lit]) (mul_ne_zero (mul_ne_zero (by norm_num [lit]) h.ne') (Real.sqrt_pos.2 h).ne')), fun _ _ hf hx => by
      have hx : Conv _ a := hx
      have s := hx.sqrt hf
      exact ⟨s, conv_one.div hf ((conv_nat hf 2).mul hf s) (mul_ne_zero (by norm_num [lit]) (Real.sqrt_pos.2 h).ne'),
        conv_one.neg.div hf (((conv_nat hf 4).mul hf hx).mul hf s) (mul_ne_zero (mul_ne_zero (by norm_num [lit]) h.ne') (Real.sqrt_pos.2 h).ne')⟩⟩

example := C66_sqrt (a := 2) (by norm_num)

theorem C66_cbrt {a : ℝ} (h : 0 < a) : Near1 (fun _ => UMath2.cbrt) UMath2.cbrt a :=
  ⟨fun _ x => CMath.cbrt x, fun _ x => (1 / (CMath.cbrt x * CMath.cbrt x)) / lit 3, fun _ x => -lit 2 / (lit 9 * x) * (1 / (CMath.cbrt x * CMath.cbrt x)),
    fun x => CMath.cbrt x, fun x => (1 / (CMath.cbrt x * CMath.cbrt x)) / lit 3, fun x => -lit 2 / (lit 9 * x) * (1 / (CMath.cbrt x * CMath.cbrt x)), fun _ _ _ => rfl, fun _ _ => rfl, (by
      have c0 := cbrt_ne h
      exact Or.inl (mul_ne_zero (div_ne_zero (by norm_num [lit]) (mul_ne_zero (by norm_num [lit]) h.ne')) (one_div_ne_zero (mul_ne_zero c0 c0)))), fun _ _ hf hx => by
      have hx : Conv _ a := hx
      have c0 := cbrt_ne h
      have c : Conv (fun k => CMath.cbrt (_ : FP _)) (CMath.cbrt a) := hx.fn hf (cbrt_pos h).continuousAt
      have i := conv_one.div hf (c.mul hf c) (mul_ne_zero c0 c0)
      exact ⟨c, i.div hf (conv_nat hf 3) (by norm_num [lit]), ((conv_nat hf 2).neg.div hf ((conv_nat hf 9).mul hf hx) (mul_ne_zero (by norm_num [lit]) h.ne')).mul hf i⟩⟩

example := C66_cbrt (a := 8) (by norm_num)

theorem C66_sin {a : ℝ} (h : Real.sin a ≠ 0) : Near1 (fun _ => UMath2.sin) UMath2.sin a :=
  ⟨fun _ x => CMath.sin x, fun _ x => CMath.cos x, fun _ x => -CMath.sin x,
    fun x => CMath.sin x, fun x => CMath.cos x, fun x => -CMath.sin x, fun _ _ _ => rfl, fun _ _ => rfl, Or.inl (neg_ne_zero.2 h), fun _ _ hf hx => by
      have hx : Conv _ a := hx
      exact ⟨hx.fn hf Real.continuous_sin.continuousAt, hx.fn hf Real.continuous_cos.continuousAt, (hx.fn hf Real.continuous_sin.continuousAt).neg⟩⟩

example := C66_sin (a := 1) ((Real.sin_pos_of_pos_of_le_one one_pos le_rfl).ne')

theorem C66_cos {a : ℝ} (h : Real.cos a ≠ 0) : Near1 (fun _ => UMath2.cos) UMath2.cos a :=
  ⟨fun _ x => CMath.cos x, fun _ x => -CMath.sin x, fun _ x => -CMath.cos x,
    fun x => CMath.cos x, fun x => -CMath.sin x, fun x => -CMath.cos x, fun _ _ _ => rfl, fun _ _ => rfl, Or.inl (neg_ne_zero.2 h), fun _ _ hf hx => by
      have hx : Conv _ a := hx
      exact ⟨hx.fn hf Real.continuous_cos.continuousAt, (hx.fn hf Real.continuous_sin.continuousAt).neg, (hx.fn hf Real.continuous_cos.continuousAt).neg⟩⟩

example := C66_cos (a := 1) ((Real.cos_pos_of_le_one (by norm_num)).ne')

theorem C66_tan {a : ℝ} (h : Real.cos a ≠ 0) (h' : Real.sin a ≠ 0) : Near1 (fun _ => UMath2.tan) UMath2.tan a :=
  ⟨fun _ x => CMath.tan x, fun _ x => 1 + CMath.tan x * CMath.tan x, fun _ x => lit 2 * CMath.tan x * (1 + CMath.tan x * CMath.tan x),
    fun x => CMath.tan x, fun x => 1 + CMath.tan x * CMath.tan x, fun x => lit 2 * CMath.tan x * (1 + CMath.tan x * CMath.tan x), fun _ _ _ => rfl, fun _ _ => rfl, (by
      have t0 : Real.tan a ≠ 0 := by rw [Real.tan_eq_sin_div_cos]; exact div_ne_zero h' h
      exact Or.inl (mul_ne_zero (mul_ne_zero (by norm_num [lit]) t0) (by show (1 : ℝ) + Real.tan a * Real.tan a ≠ 0; nlinarith [mul_self_nonneg (Real.tan a)]))), fun _ _ hf hx => by
      have hx : Conv _ a := hx
      have t : Conv (fun k => CMath.tan (_ : FP _)) (CMath.tan a) := hx.fn hf (Real.continuousAt_tan.2 h)
      have u := conv_one.add hf (t.mul hf t)
      exact ⟨t, u, ((conv_nat hf 2).mul hf t).mul hf u⟩⟩

example := C66_tan (a := 1) ((Real.cos_pos_of_le_one (by norm_num)).ne') ((Real.sin_pos_of_pos_of_le_one one_pos le_rfl).ne')

theorem C66_asin {a : ℝ} (h1 : -1 < a) (h2 : a < 1) (h0 : a ≠ 0) : Near1 (fun _ => UMath2.asin) UMath2.asin a :=
  ⟨fun _ x => CMath.asin x, fun _ x => CSqrt.sqrt (1 / (1 - x * x)), fun _ x => x * CSqrt.sqrt (1 / (1 - x * x)) * (1 / (1 - x * x)),
    fun x => CMath.asin x, fun x => CSqrt.sqrt (1 / (1 - x * x)), fun x => x * CSqrt.sqrt (1 / (1 - x * x)) * (1 / (1 - x * x)), fun _ _ _ => rfl, fun _ _ => rfl, (by
      have p : 0 < 1 / (1 - a * a) := one_div_pos.2 (by nlinarith)
      exact Or.inl (mul_ne_zero (mul_ne_zero h0 (Real.sqrt_pos.2 p).ne') p.ne')), fun _ _ hf hx => by
      have hx : Conv _ a := hx
      have p : 1 - a * a ≠ 0 := by nlinarith
      have i := conv_one.div hf (conv_one.sub hf (hx.mul hf hx)) p
      exact ⟨hx.fn hf Real.continuous_arcsin.continuousAt, i.sqrt hf, (hx.mul hf (i.sqrt hf)).mul hf i⟩⟩

example := C66_asin (a := 1 / 2) (by norm_num) (by norm_num) (by norm_num)

theorem C66_acos {a : ℝ} (h1 : -1 < a) (h2 : a < 1) (h0 : a ≠ 0) : Near1 (fun _ => UMath2.acos) UMath2.acos a :=
  ⟨fun _ x => CMath.acos x, fun _ x => -CSqrt.sqrt (1 / (1 - x * x)), fun _ x => -x * CSqrt.sqrt (1 / (1 - x * x)) * (1 / (1 - x * x)),
    fun x => CMath.acos x, fun x => -CSqrt.sqrt (1 / (1 - x * x)), fun x => -x * CSqrt.sqrt (1 / (1 - x * x)) * (1 / (1 - x * x)), fun _ _ _ => rfl, fun _ _ => rfl, (by
      have p : 0 < 1 / (1 - a * a) := one_div_pos.2 (by nlinarith)
      exact Or.inl (mul_ne_zero (mul_ne_zero (neg_ne_zero.2 h0) (Real.sqrt_pos.2 p).ne') p.ne')), fun _ _ hf hx => by
      have hx : Conv _ a := hx
      have p : 1 - a * a ≠ 0 := by nlinarith
      have i := conv_one.div hf (conv_one.sub hf (hx.mul hf hx)) p
      exact ⟨hx.fn hf Real.continuous_arccos.continuousAt, (i.sqrt hf).neg, (hx.neg.mul hf (i.sqrt hf)).mul hf i⟩⟩

example := C66_acos (a := -1 / 2) (by norm_num) (by norm_num) (by norm_num)

theorem C66_atan {a : ℝ} (h0 : a ≠ 0) : Near1 (fun _ => UMath2.atan) UMath2.atan a :=
  ⟨fun _ x => CMath.atan x, fun _ x => (1 / (1 + x * x)), fun _ x => -lit 2 * x * (1 / (1 + x * x)) * (1 / (1 + x * x)),
    fun x => CMath.atan x, fun x => (1 / (1 + x * x)), fun x => -lit 2 * x * (1 / (1 + x * x)) * (1 / (1 + x * x)), fun _ _ _ => rfl, fun _ _ => rfl, (by
      have p : 0 < 1 / (1 + a * a) := one_div_pos.2 (by nlinarith)
      exact Or.inl (mul_ne_zero (mul_ne_zero (mul_ne_zero (by norm_num [lit]) h0) p.ne') p.ne')), fun _ _ hf hx => by
      have hx : Conv _ a := hx
      have p : 1 + a * a ≠ 0 := by nlinarith
      have i := conv_one.div hf (conv_one.add hf (hx.mul hf hx)) p
      exact ⟨hx.fn hf Real.continuous_arctan.continuousAt, i, (((conv_nat hf 2).neg.mul hf hx).mul hf i).mul hf i⟩⟩

example := C66_atan (a := 2) (by norm_num)

theorem C66_sinh {a : ℝ} (h0 : a ≠ 0) : Near1 (fun _ => UMath2.sinh) UMath2.sinh a :=
  ⟨fun _ x => CMath.sinh x, fun _ x => CMath.cosh x, fun _ x => CMath.sinh x,
    fun x => CMath.sinh x, fun x => CMath.cosh x, fun x => CMath.sinh x, fun _ _ _ => rfl, fun _ _ => rfl, Or.inl (Real.sinh_ne_zero.2 h0), fun _ _ hf hx => by
      have hx : Conv _ a := hx
      exact ⟨hx.fn hf Real.continuous_sinh.continuousAt, hx.fn hf Real.continuous_cosh.continuousAt, hx.fn hf Real.continuous_sinh.continuousAt⟩⟩

example := C66_sinh (a := 2) (by norm_num)

theorem C66_cosh (a : ℝ) : Near1 (fun _ => UMath2.cosh) UMath2.cosh a :=
  ⟨fun _ x => CMath.cosh x, fun _ x => CMath.sinh x, fun _ x => CMath.cosh x,
    fun x => CMath.cosh x, fun x => CMath.sinh x, fun x => CMath.cosh x, fun _ _ _ => rfl, fun _ _ => rfl, Or.inl (Real.cosh_pos a).ne', fun _ _ hf hx => by
      have hx : Conv _ a := hx
      exact ⟨hx.fn hf Real.continuous_cosh.continuousAt, hx.fn hf Real.continuous_sinh.continuousAt, hx.fn hf Real.continuous_cosh.continuousAt⟩⟩

example := C66_cosh 2

theorem C66_tanh {a : ℝ} (h0 : a ≠ 0) : Near1 (fun _ => UMath2.tanh) UMath2.tanh a :=
  ⟨fun _ x => CMath.tanh x, fun _ x => 1 - CMath.tanh x * CMath.tanh x, fun _ x => -lit 2 * CMath.tanh x * (1 - CMath.tanh x * CMath.tanh x),
    fun x => CMath.tanh x, fun x => 1 - CMath.tanh x * CMath.tanh x, fun x => -lit 2 * CMath.tanh x * (1 - CMath.tanh x * CMath.tanh x), fun _ _ _ => rfl, fun _ _ => rfl, Or.inl (mul_ne_zero (mul_ne_zero (by norm_num [lit]) (tanh_ne h0)) (one_sub_tanh_ne a)), fun _ _ hf hx => by
      have hx : Conv _ a := hx
      have t : Conv (fun k => CMath.tanh (_ : FP _)) (CMath.tanh a) := hx.fn hf (hasDerivAt_tanh' a).continuousAt
      have u := conv_one.sub hf (t.mul hf t)
      exact ⟨t, u, ((conv_nat hf 2).neg.mul hf t).mul hf u⟩⟩

example := C66_tanh (a := 2) (by norm_num)

theorem C66_asinh {a : ℝ} (h0 : a ≠ 0) : Near1 (fun _ => UMath2.asinh) UMath2.asinh a :=
  ⟨fun _ x => CMath.asinh x, fun _ x => CSqrt.sqrt (1 / (1 + x * x)), fun _ x => -x * (1 / (1 + x * x)) * CSqrt.sqrt (1 / (1 + x * x)),
    fun x => CMath.asinh x, fun x => CSqrt.sqrt (1 / (1 + x * x)), fun x => -x * (1 / (1 + x * x)) * CSqrt.sqrt (1 / (1 + x * x)), fun _ _ _ => rfl, fun _ _ => rfl, (by
      have p : 0 < 1 / (1 + a * a) := one_div_pos.2 (by nlinarith)
      exact Or.inl (mul_ne_zero (mul_ne_zero (neg_ne_zero.2 h0) p.ne') (Real.sqrt_pos.2 p).ne')), fun _ _ hf hx => by
      have hx : Conv _ a := hx
      have p : 1 + a * a ≠ 0 := by nlinarith
      have i := conv_one.div hf (conv_one.add hf (hx.mul hf hx)) p
      exact ⟨hx.fn hf Real.continuous_arsinh.continuousAt, i.sqrt hf, (hx.neg.mul hf i).mul hf (i.sqrt hf)⟩⟩

example := C66_asinh (a := 2) (by norm_num)

theorem C66_acosh {a : ℝ} (h : 1 < a) : Near1 (fun _ => UMath2.acosh) UMath2.acosh a :=
  ⟨fun _ x => CMath.acosh x, fun _ x => CSqrt.sqrt (1 / (x * x - 1)), fun _ x => -x * (1 / (x * x - 1)) * CSqrt.sqrt (1 / (x * x - 1)),
    fun x => CMath.acosh x, fun x => CSqrt.sqrt (1 / (x * x - 1)), fun x => -x * (1 / (x * x - 1)) * CSqrt.sqrt (1 / (x * x - 1)), fun _ _ _ => rfl, fun _ _ => rfl, (by
      have p : 0 < 1 / (a * a - 1) := one_div_pos.2 (by nlinarith)
      exact Or.inl (mul_ne_zero (mul_ne_zero (neg_ne_zero.2 (by linarith)) p.ne') (Real.sqrt_pos.2 p).ne')), fun _ _ hf hx => by
      have hx : Conv _ a := hx
      have p : a * a - 1 ≠ 0 := by nlinarith
      have i := conv_one.div hf ((hx.mul hf hx).sub hf conv_one) p
      exact ⟨hx.fn hf (Real.hasDerivAt_arcosh h).continuousAt, i.sqrt hf, (hx.neg.mul hf i).mul hf (i.sqrt hf)⟩⟩

example := C66_acosh (a := 3 / 2) (by norm_num)

theorem C66_atanh {a : ℝ} (h1 : -1 < a) (h2 : a < 1) (h0 : a ≠ 0) : Near1 (fun _ => UMath2.atanh) UMath2.atanh a :=
  ⟨fun _ x => CMath.atanh x, fun _ x => (1 / (1 - x * x)), fun _ x => lit 2 * x * (1 / (1 - x * x)) * (1 / (1 - x * x)),
    fun x => CMath.atanh x, fun x => (1 / (1 - x * x)), fun x => lit 2 * x * (1 / (1 - x * x)) * (1 / (1 - x * x)), fun _ _ _ => rfl, fun _ _ => rfl, (by
      have p : 0 < 1 / (1 - a * a) := one_div_pos.2 (by nlinarith)
      exact Or.inl (mul_ne_zero (mul_ne_zero (mul_ne_zero (by norm_num [lit]) h0) p.ne') p.ne')), fun _ _ hf hx => by
      have hx : Conv _ a := hx
      have p : 1 - a * a ≠ 0 := by nlinarith
      have i := conv_one.div hf (conv_one.sub hf (hx.mul hf hx)) p
      exact ⟨hx.fn hf (hasDerivAt_artanh' h1 h2).continuousAt, i, (((conv_nat hf 2).mul hf hx).mul hf i).mul hf i⟩⟩

example := C66_atanh (a := 1 / 2) (by norm_num) (by norm_num) (by norm_num)

theorem C66_erf {a : ℝ} (h0 : a ≠ 0) : Near1 (fun _ => UMath2.erf) UMath2.erf a :=
  ⟨fun _ x => CMath.erf x, fun _ x => (UMath.erfCoeff * CMath.exp (-x * x)), fun _ x => -lit 2 * x * (UMath.erfCoeff * CMath.exp (-x * x)),
    fun x => CMath.erf x, fun x => (UMath.erfCoeff * CMath.exp (-x * x)), fun x => -lit 2 * x * (UMath.erfCoeff * CMath.exp (-x * x)), fun _ _ _ => rfl, fun _ _ => rfl, Or.inl (mul_ne_zero (mul_ne_zero (by norm_num [lit]) h0) (mul_ne_zero erfCoeff_ne (Real.exp_pos _).ne')), fun _ _ hf hx => by
      have hx : Conv _ a := hx
      have c := (conv_erfCoeff hf).mul hf ((hx.neg.mul hf hx).fn hf Real.continuous_exp.continuousAt)
      exact ⟨hx.fn hf (erf_deriv a).continuousAt, c, ((conv_nat hf 2).neg.mul hf hx).mul hf c⟩⟩

example := C66_erf (a := 2) (by norm_num)

theorem C66_erfc {a : ℝ} (h0 : a ≠ 0) : Near1 (fun _ => UMath2.erfc) UMath2.erfc a :=
  ⟨fun _ x => CMath.erfc x, fun _ x => -(UMath.erfCoeff * CMath.exp (-x * x)), fun _ x => lit 2 * x * (UMath.erfCoeff * CMath.exp (-x * x)),
    fun x => CMath.erfc x, fun x => -(UMath.erfCoeff * CMath.exp (-x * x)), fun x => lit 2 * x * (UMath.erfCoeff * CMath.exp (-x * x)), fun _ _ _ => rfl, fun _ _ => rfl, Or.inl (mul_ne_zero (mul_ne_zero (by norm_num [lit]) h0) (mul_ne_zero erfCoeff_ne (Real.exp_pos _).ne')), fun _ _ hf hx => by
      have hx : Conv _ a := hx
      have c := (conv_erfCoeff hf).mul hf ((hx.neg.mul hf hx).fn hf Real.continuous_exp.continuousAt)
      exact ⟨hx.fn hf ((erf_deriv a).const_sub 1).continuousAt, c.neg, ((conv_nat hf 2).mul hf hx).mul hf c⟩⟩

example := C66_erfc (a := 2) (by norm_num)

theorem C66_abs {a : ℝ} (h : a ≠ 0) : Near1 (fun _ => UMath2.abs) UMath2.abs a :=
  ⟨fun _ x => CSqrt.abs x, fun _ x => if CCmp.leb 0 x then 1 else -1, fun _ _ => 0,
    fun x => CSqrt.abs x, fun x => if CCmp.leb 0 x then 1 else -1, fun _ => 0, fun _ _ _ => rfl, fun _ _ => rfl, Or.inr fun _ _ => rfl, fun _ _ hf hx =>
      ⟨Tendsto.abs hx, conv_sgn h hx, conv_zero⟩⟩

example := C66_abs (a := -3) (by norm_num)

/-! ## functions of two arguments -/

theorem C66_fmod {a b : ℝ} (hb : b ≠ 0) (h : |a / b| < 1 ∨ ∀ n : ℤ, a / b ≠ n) : Near2 (fun _ => UMath2.fmod) UMath2.fmod a b :=
  ⟨fun _ x y => CMath.fmod x y, fun _ x y => 1, fun _ x y => -CMath.trunc (x / y), fun _ x y => 0, fun _ x y => 0, fun _ x y => 0,
    fun x y => CMath.fmod x y, fun x y => 1, fun x y => -CMath.trunc (x / y), fun x y => 0, fun x y => 0, fun x y => 0,
    fun _ _ _ _ => rfl, fun _ _ _ => rfl,
    Or.inr fun _ _ _ => rfl,
    Or.inr fun _ _ _ => rfl,
    Or.inr fun _ _ _ => rfl, fun _ _ _ hf hx hy => by
      have hx : Conv _ a := hx
      have hy : Conv _ b := hy
      exact ⟨Conv.fn2 hf hx hy (F := CMath.fmod) (partials_of_prop (C14_fmod hb h) (M := CMath.fmod) (Dx := fun _ _ => 1) (Dy := fun s t => -CMath.trunc (s / t))
        (fun _ _ => rfl)).1.continuousAt, conv_one, (conv_locally hf (hx.div hf hy hb) (trunc_eventually h)).neg, conv_zero, conv_zero, conv_zero⟩⟩

example := C66_fmod (a := 7) (b := -2) (by norm_num) (Or.inr fun n h => by
    have : (7 : ℤ) = -2 * n := by
      have : (7 : ℝ) = -2 * n := by rw [← h]; norm_num
      exact_mod_cast this
    omega)

theorem C66_remainder {a b : ℝ} (hb : b ≠ 0) (h : ∀ n : ℤ, a / b + 1 / 2 ≠ n) : Near2 (fun _ => UMath2.remainder) UMath2.remainder a b :=
  ⟨fun _ x y => CMath.remainder x y, fun _ x y => 1, fun _ x y => -CMath.round (x / y), fun _ x y => 0, fun _ x y => 0, fun _ x y => 0,
    fun x y => CMath.remainder x y, fun x y => 1, fun x y => -CMath.round (x / y), fun x y => 0, fun x y => 0, fun x y => 0,
    fun _ _ _ _ => rfl, fun _ _ _ => rfl,
    Or.inr fun _ _ _ => rfl,
    Or.inr fun _ _ _ => rfl,
    Or.inr fun _ _ _ => rfl, fun _ _ _ hf hx hy => by
      have hx : Conv _ a := hx
      have hy : Conv _ b := hy
      exact ⟨Conv.fn2 hf hx hy (F := CMath.remainder) (partials_of_prop (C14_remainder hb h).1 (M := CMath.remainder) (Dx := fun _ _ => 1)
        (Dy := fun s t => -CMath.round (s / t)) (fun _ _ => rfl)).1.continuousAt, conv_one, (conv_locally hf (hx.div hf hy hb) (round_away_eventually h)).neg,
        conv_zero, conv_zero, conv_zero⟩⟩

example := C66_remainder (a := 7) (b := 5) (by norm_num) (fun n h => by
    have : (19 : ℤ) = 10 * n := by
      have : (19 : ℝ) = 10 * n := by rw [← h]; norm_num
      exact_mod_cast this
    omega)

theorem C66_fmax {a b : ℝ} (h : a ≠ b) : Near2 (fun _ => UMath2.fmax) UMath2.fmax a b :=
  ⟨fun _ x y => CMath.fmax x y, fun _ x y => if CCmp.eqb (CMath.fmax x y) x then 1 else 0, fun _ x y => if CCmp.eqb (CMath.fmax x y) x then 0 else 1, fun _ x y => 0, fun _ x y => 0, fun _ x y => 0,
    fun x y => CMath.fmax x y, fun x y => if CCmp.eqb (CMath.fmax x y) x then 1 else 0, fun x y => if CCmp.eqb (CMath.fmax x y) x then 0 else 1, fun x y => 0, fun x y => 0, fun x y => 0,
    fun _ _ _ _ => rfl, fun _ _ _ => rfl,
    Or.inr fun _ _ _ => rfl,
    Or.inr fun _ _ _ => rfl,
    Or.inr fun _ _ _ => rfl, fun _ _ _ hf hx hy => by
      have hx : Conv _ a := hx
      have hy : Conv _ b := hy
      obtain ⟨c1, c2, c3⟩ := conv_fmax hf h hx hy
      exact ⟨c1, c2, c3, conv_zero, conv_zero, conv_zero⟩⟩

example := C66_fmax (a := 7) (b := -2) (by norm_num)

theorem C66_fmin {a b : ℝ} (h : a ≠ b) : Near2 (fun _ => UMath2.fmin) UMath2.fmin a b :=
  ⟨fun _ x y => CMath.fmin x y, fun _ x y => if CCmp.eqb (CMath.fmin x y) x then 1 else 0, fun _ x y => if CCmp.eqb (CMath.fmin x y) x then 0 else 1, fun _ x y => 0, fun _ x y => 0, fun _ x y => 0,
    fun x y => CMath.fmin x y, fun x y => if CCmp.eqb (CMath.fmin x y) x then 1 else 0, fun x y => if CCmp.eqb (CMath.fmin x y) x then 0 else 1, fun x y => 0, fun x y => 0, fun x y => 0,
    fun _ _ _ _ => rfl, fun _ _ _ => rfl,
    Or.inr fun _ _ _ => rfl,
    Or.inr fun _ _ _ => rfl,
    Or.inr fun _ _ _ => rfl, fun _ _ _ hf hx hy => by
      have hx : Conv _ a := hx
      have hy : Conv _ b := hy
      obtain ⟨c1, c2, c3⟩ := conv_fmin hf h hx hy
      exact ⟨c1, c2, c3, conv_zero, conv_zero, conv_zero⟩⟩

example := C66_fmin (a := 7) (b := -2) (by norm_num)

theorem C66_pow {a b : ℝ} (h : 0 < a) (h1 : a ≠ 1) (hb : b ≠ 0) (hb' : b ≠ 1) (hl : 1 + b * Real.log a ≠ 0) : Near2 (fun _ => UMath2.pow) UMath2.pow a b :=
  ⟨fun _ x y => CMath.pow x y, fun _ x y => CMath.pow x y * (1 / x) * y, fun _ x y => CMath.pow x y * CMath.log x, fun _ x y => CMath.pow x y * (1 / x) * y * (1 / x) * (y - 1), fun _ x y => CMath.pow x y * CMath.log x * CMath.log x, fun _ x y => CMath.pow x y * (1 / x) + CMath.pow x y * (1 / x) * y * CMath.log x,
    fun x y => CMath.pow x y, fun x y => CMath.pow x y * (1 / x) * y, fun x y => CMath.pow x y * CMath.log x, fun x y => CMath.pow x y * (1 / x) * y * (1 / x) * (y - 1), fun x y => CMath.pow x y * CMath.log x * CMath.log x, fun x y => CMath.pow x y * (1 / x) + CMath.pow x y * (1 / x) * y * CMath.log x,
    fun _ _ _ _ => rfl, fun _ _ _ => rfl,
    Or.inl (mul_ne_zero (mul_ne_zero (mul_ne_zero (mul_ne_zero (Real.rpow_pos_of_pos h b).ne' (one_div_ne_zero h.ne')) hb) (one_div_ne_zero h.ne')) (sub_ne_zero.2 hb')),
    Or.inl (mul_ne_zero (mul_ne_zero (Real.rpow_pos_of_pos h b).ne' (Real.log_ne_zero_of_pos_of_ne_one h h1)) (Real.log_ne_zero_of_pos_of_ne_one h h1)),
    (by
      refine Or.inl ?_
      have e : a ^ b * (1 / a) + a ^ b * (1 / a) * b * Real.log a = a ^ b * (1 / a) * (1 + b * Real.log a) := by ring
      show a ^ b * (1 / a) + a ^ b * (1 / a) * b * Real.log a ≠ 0
      rw [e]
      exact mul_ne_zero (mul_ne_zero (Real.rpow_pos_of_pos h b).ne' (one_div_ne_zero h.ne')) hl), fun _ _ _ hf hx hy => by
      have hx : Conv _ a := hx
      have hy : Conv _ b := hy
      have p : Conv (fun k => CMath.pow (_ : FP _) (_ : FP _)) (CMath.pow a b) := Conv.fn2 hf hx hy (F := fun s t => s ^ t) (Real.continuousAt_rpow (a, b) (Or.inl h.ne'))
      have l : Conv (fun k => CMath.log (_ : FP _)) (CMath.log a) := hx.fn hf (Real.continuousAt_log h.ne')
      have i := conv_one.div hf hx h.ne'
      have pi := p.mul hf i
      have piy := pi.mul hf hy
      exact ⟨p, piy, p.mul hf l, (piy.mul hf i).mul hf (hy.sub hf conv_one), (p.mul hf l).mul hf l, pi.add hf (piy.mul hf l)⟩⟩

example := C66_pow (a := 1 / 2) (b := -2) (by norm_num) (by norm_num) (by norm_num) (by norm_num) (by
  have := Real.log_neg (show (0 : ℝ) < 1 / 2 by norm_num) (by norm_num)
  intro h; nlinarith)

theorem C66_hypot {a b : ℝ} (ha : a ≠ 0) (hb : b ≠ 0) : Near2 (fun _ => UMath2.hypot) UMath2.hypot a b :=
  ⟨fun _ x y => CMath.hypot x y, fun _ x y => x * (1 / CMath.hypot x y), fun _ x y => y * (1 / CMath.hypot x y), fun _ x y => (1 / CMath.hypot x y) * (1 - x * (1 / CMath.hypot x y) * (x * (1 / CMath.hypot x y))), fun _ x y => (1 / CMath.hypot x y) * (1 - y * (1 / CMath.hypot x y) * (y * (1 / CMath.hypot x y))), fun _ x y => -(x * (1 / CMath.hypot x y)) * (y * (1 / CMath.hypot x y)) * (1 / CMath.hypot x y),
    fun x y => CMath.hypot x y, fun x y => x * (1 / CMath.hypot x y), fun x y => y * (1 / CMath.hypot x y), fun x y => (1 / CMath.hypot x y) * (1 - x * (1 / CMath.hypot x y) * (x * (1 / CMath.hypot x y))), fun x y => (1 / CMath.hypot x y) * (1 - y * (1 / CMath.hypot x y) * (y * (1 / CMath.hypot x y))), fun x y => -(x * (1 / CMath.hypot x y)) * (y * (1 / CMath.hypot x y)) * (1 / CMath.hypot x y),
    fun _ _ _ _ => rfl, fun _ _ _ => rfl,
    (by
      have hp : 0 < Real.sqrt (a ^ 2 + b ^ 2) := Real.sqrt_pos.2 (by positivity)
      have hs : Real.sqrt (a ^ 2 + b ^ 2) ^ 2 = a ^ 2 + b ^ 2 := Real.sq_sqrt (by positivity)
      refine Or.inl (mul_ne_zero (one_div_ne_zero hp.ne') ?_)
      show 1 - a * (1 / Real.sqrt (a ^ 2 + b ^ 2)) * (a * (1 / Real.sqrt (a ^ 2 + b ^ 2))) ≠ 0
      have : 1 - a * (1 / Real.sqrt (a ^ 2 + b ^ 2)) * (a * (1 / Real.sqrt (a ^ 2 + b ^ 2))) = b ^ 2 / Real.sqrt (a ^ 2 + b ^ 2) ^ 2 := by
        field_simp; linarith
      rw [this]; positivity),
    (by
      have hp : 0 < Real.sqrt (a ^ 2 + b ^ 2) := Real.sqrt_pos.2 (by positivity)
      have hs : Real.sqrt (a ^ 2 + b ^ 2) ^ 2 = a ^ 2 + b ^ 2 := Real.sq_sqrt (by positivity)
      refine Or.inl (mul_ne_zero (one_div_ne_zero hp.ne') ?_)
      show 1 - b * (1 / Real.sqrt (a ^ 2 + b ^ 2)) * (b * (1 / Real.sqrt (a ^ 2 + b ^ 2))) ≠ 0
      have : 1 - b * (1 / Real.sqrt (a ^ 2 + b ^ 2)) * (b * (1 / Real.sqrt (a ^ 2 + b ^ 2))) = a ^ 2 / Real.sqrt (a ^ 2 + b ^ 2) ^ 2 := by
        field_simp; linarith
      rw [this]; positivity),
    (by
      have hp : 0 < Real.sqrt (a ^ 2 + b ^ 2) := Real.sqrt_pos.2 (by positivity)
      exact Or.inl (mul_ne_zero (mul_ne_zero (neg_ne_zero.2 (mul_ne_zero ha (one_div_ne_zero hp.ne'))) (mul_ne_zero hb (one_div_ne_zero hp.ne'))) (one_div_ne_zero hp.ne'))), fun _ _ _ hf hx hy => by
      have hx : Conv _ a := hx
      have hy : Conv _ b := hy
      have p : Conv (fun k => CMath.hypot (_ : FP _) (_ : FP _)) (CMath.hypot a b) := Conv.fn2 hf hx hy (F := fun s t => Real.sqrt (s ^ 2 + t ^ 2))
        (Continuous.continuousAt (by fun_prop))
      have hp : CMath.hypot a b ≠ 0 := (Real.sqrt_pos.2 (by positivity : 0 < a ^ 2 + b ^ 2)).ne'
      have i := conv_one.div hf p hp
      have xi := hx.mul hf i
      have yi := hy.mul hf i
      exact ⟨p, xi, yi, i.mul hf (conv_one.sub hf (xi.mul hf xi)), i.mul hf (conv_one.sub hf (yi.mul hf yi)), (xi.neg.mul hf yi).mul hf i⟩⟩

example := C66_hypot (a := 7) (b := -2) (by norm_num) (by norm_num)

theorem C66_atan2 {a b : ℝ} (ha : a ≠ 0) (hb : b ≠ 0) (hab : a * a ≠ b * b) : Near2 (fun _ => UMath2.atan2) UMath2.atan2 a b :=
  ⟨fun _ x y => CMath.atan2 x y, fun _ x y => (y * (1 / (x * x + y * y))), fun _ x y => -(x * (1 / (x * x + y * y))), fun _ x y => -(lit 2 * (x * (1 / (x * x + y * y))) * (y * (1 / (x * x + y * y)))), fun _ x y => lit 2 * (x * (1 / (x * x + y * y))) * (y * (1 / (x * x + y * y))), fun _ x y => (x * x - y * y) * (1 / (x * x + y * y)) * (1 / (x * x + y * y)),
    fun x y => CMath.atan2 x y, fun x y => (y * (1 / (x * x + y * y))), fun x y => -(x * (1 / (x * x + y * y))), fun x y => -(lit 2 * (x * (1 / (x * x + y * y))) * (y * (1 / (x * x + y * y)))), fun x y => lit 2 * (x * (1 / (x * x + y * y))) * (y * (1 / (x * x + y * y))), fun x y => (x * x - y * y) * (1 / (x * x + y * y)) * (1 / (x * x + y * y)),
    fun _ _ _ _ => rfl, fun _ _ _ => rfl,
    (by
      have hp : 0 < a * a + b * b := add_pos (mul_self_pos.2 ha) (mul_self_pos.2 hb)
      exact Or.inl (neg_ne_zero.2 (mul_ne_zero (mul_ne_zero (by norm_num [lit]) (mul_ne_zero ha (one_div_ne_zero hp.ne'))) (mul_ne_zero hb (one_div_ne_zero hp.ne'))))),
    (by
      have hp : 0 < a * a + b * b := add_pos (mul_self_pos.2 ha) (mul_self_pos.2 hb)
      exact Or.inl (mul_ne_zero (mul_ne_zero (by norm_num [lit]) (mul_ne_zero ha (one_div_ne_zero hp.ne'))) (mul_ne_zero hb (one_div_ne_zero hp.ne')))),
    (by
      have hp : 0 < a * a + b * b := add_pos (mul_self_pos.2 ha) (mul_self_pos.2 hb)
      exact Or.inl (mul_ne_zero (mul_ne_zero (sub_ne_zero.2 hab) (one_div_ne_zero hp.ne')) (one_div_ne_zero hp.ne'))), fun _ _ _ hf hx hy => by
      have hx : Conv _ a := hx
      have hy : Conv _ b := hy
      have hp : a * a + b * b ≠ 0 := (add_pos (mul_self_pos.2 ha) (mul_self_pos.2 hb)).ne'
      have t : Conv (fun k => CMath.atan2 (_ : FP _) (_ : FP _)) (CMath.atan2 a b) := Conv.fn2 hf hx hy (F := fun s t => Complex.arg ⟨t, s⟩) (by
        have hm : (⟨b, a⟩ : ℂ) ∈ Complex.slitPlane := Or.inr ha
        have hc : Continuous fun p : ℝ × ℝ => (⟨p.2, p.1⟩ : ℂ) := by
          have : (fun p : ℝ × ℝ => (⟨p.2, p.1⟩ : ℂ)) = fun p => (p.2 : ℂ) + p.1 * Complex.I := by
            funext p; apply Complex.ext <;> simp
          rw [this]; fun_prop
        exact ContinuousAt.comp (f := fun p : ℝ × ℝ => (⟨p.2, p.1⟩ : ℂ)) (g := Complex.arg) (x := (a, b)) (Complex.continuousAt_arg hm) hc.continuousAt)
      have x2 := hx.mul hf hx
      have y2 := hy.mul hf hy
      have i := conv_one.div hf (x2.add hf y2) hp
      have xi := hx.mul hf i
      have yi := hy.mul hf i
      have c := ((conv_nat hf 2).mul hf xi).mul hf yi
      exact ⟨t, yi, xi.neg, c.neg, c, ((x2.sub hf y2).mul hf i).mul hf i⟩⟩

example := C66_atan2 (a := 7) (b := -2) (by norm_num) (by norm_num) (by norm_num)

end Unc.Props
