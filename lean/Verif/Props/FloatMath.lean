import Verif.Model.FloatMath
import Verif.Props.FloatConv

/-!
# C63 for the functions of math.hpp: with correctly rounded `<cmath>` functions, the numbers passed to `unary` and `binary` approach value and derivatives

`Fine1` and `Fine2` (`Verif/Spec/FloatProg.lean`) are the hypotheses of `C63_converges` on the functions called.
-/

namespace Unc.Props
open Unc.Spec UReal FP Filter Topology

section
variable {f : ℕ → Fmt}

theorem Conv.fn (hf : Finer f) {x : ∀ k, FP (f k)} {a : ℝ} (hx : Conv x a) {F : ℝ → ℝ} (hF : ContinuousAt F a) :
    Conv (fun k => FP.round (f k) (F (x k).val)) (F a) := conv_rd hf (hF.tendsto.comp hx)

theorem Conv.fn2 (hf : Finer f) {x y : ∀ k, FP (f k)} {a b : ℝ} (hx : Conv x a) (hy : Conv y b) {F : ℝ → ℝ → ℝ}
    (hF : ContinuousAt (fun p : ℝ × ℝ => F p.1 p.2) (a, b)) : Conv (fun k => FP.round (f k) (F (x k).val (y k).val)) (F a b) :=
  conv_rd hf (hF.tendsto.comp (Tendsto.prodMk_nhds hx hy))

theorem conv_nat (hf : Finer f) (n : ℕ) : Conv (fun k => ((n : ℕ) : FP (f k))) n := conv_round hf n

theorem Conv.sqrt (hf : Finer f) {x : ∀ k, FP (f k)} {a : ℝ} (hx : Conv x a) : Conv (fun k => CSqrt.sqrt (x k)) (Real.sqrt a) :=
  conv_rd hf (Tendsto.sqrt hx)

theorem Conv.congr' {x y : ∀ k, FP (f k)} {a : ℝ} (hx : Conv x a) (h : ∀ᶠ k in atTop, x k = y k) : Conv y a :=
  Tendsto.congr' (h.mono fun k hk => by rw [hk]) hx

end

theorem ok_unit (a : ℝ) : Ok (⟨1, 1, a, []⟩ : UReal ℝ) :=
  ⟨valid_of_nonneg_id ⟨by simp, by simp, by simp, by simp⟩ (by simp), by simp [Below, UReal.deps, maxId]⟩

/-- the derivative that is propagated with exact numbers -/
theorem deriv_of_prop {g : UReal ℝ → UReal ℝ} {F M D : ℝ → ℝ} {a : ℝ} (hp : Propagates1 g F a) (hg : ∀ x, g x = unary x (M x.n) (D x.n)) :
    HasDerivAt F (D a) a ∧ M a = F a := by
  obtain ⟨d, hd, h⟩ := hp
  obtain ⟨-, h2, h3⟩ := h ⟨1, 1, a, []⟩ (ok_unit a) rfl
  have h4 := h3 ⟨1, 1, a, []⟩ (ok_unit a).valid
  rw [hg] at h2 h4
  rw [UReal.n, mu_unary] at h2
  simp [cov, unary, UReal.n] at h4
  exact ⟨h4 ▸ hd, h2⟩

theorem fine1_of {F M D : ℝ → ℝ} {a : ℝ} {gR : UReal ℝ → UReal ℝ} (hp : Propagates1 gR F a) {g : ∀ f : Fmt, UReal (FP f) → UReal (FP f)}
    {m d : ∀ f : Fmt, FP f → FP f} (hg : ∀ f x, g f x = unary x (m f x.n) (d f x.n)) (hR : ∀ x, gR x = unary x (M x.n) (D x.n))
    (hc : ∀ (f : ℕ → Fmt) (x : ∀ k, FP (f k)), Finer f → Conv x a → Conv (fun k => m _ (x k)) (M a) ∧ Conv (fun k => d _ (x k)) (D a)) : Fine1 g F a := by
  obtain ⟨h1, h2⟩ := deriv_of_prop hp hR
  exact ⟨D a, m, d, h1, hg, fun f x hf hx => by rw [← h2]; exact hc f x hf hx⟩

theorem partials_of_prop {g : UReal ℝ → UReal ℝ → Option (UReal ℝ)} {F M Dx Dy : ℝ → ℝ → ℝ} {a b : ℝ} (hp : Propagates2 g F a b)
    (hg : ∀ x y, g x y = binary x y (M x.n y.n) (Dx x.n y.n) (Dy x.n y.n)) :
    HasFDerivAt (fun p : ℝ × ℝ => F p.1 p.2) (Dx a b • ContinuousLinearMap.fst ℝ ℝ ℝ + Dy a b • ContinuousLinearMap.snd ℝ ℝ ℝ) (a, b) ∧ M a b = F a b := by
  obtain ⟨dx, dy, hd, h⟩ := hp
  have hc : ∀ c : ℝ, Ok (UReal.const c) := fun c => ⟨valid_const _, by simp [Below, deps, UReal.const]⟩
  have key : ∀ x y : UReal ℝ, Ok x → Ok y → x.n = a → y.n = b → M a b = F a b ∧ ∀ w : UReal ℝ, w.Valid → Dx a b * cov x w + Dy a b * cov y w = dx * cov x w + dy * cov y w := by
    intro x y hx hy h1 h2
    obtain ⟨z, e, -, hm, hcv⟩ := h x y hx hy h1 h2
    obtain ⟨z', e', -, hm', hcv'⟩ := C01_binary_linear hx.valid hy.valid hx.below hy.below (M a b) (Dx a b) (Dy a b)
    rw [hg, h1, h2] at e
    rw [e] at e'
    cases e'
    exact ⟨hm'.symm.trans hm, fun w hw => (hcv' w hw).symm.trans (hcv w hw)⟩
  obtain ⟨k1, k2⟩ := key _ _ (ok_unit a) (hc b) rfl rfl
  obtain ⟨-, k3⟩ := key _ _ (hc a) (ok_unit b) rfl rfl
  have e1 := k2 _ (ok_unit a).valid
  have e2 := k3 _ (ok_unit a).valid
  simp [cov, UReal.const] at e1 e2
  exact ⟨by rw [e1, e2]; exact hd, k1⟩

theorem fine2_of {F M Dx Dy : ℝ → ℝ → ℝ} {a b : ℝ} {gR : UReal ℝ → UReal ℝ → Option (UReal ℝ)} (hp : Propagates2 gR F a b)
    {g : ∀ f : Fmt, UReal (FP f) → UReal (FP f) → Option (UReal (FP f))} {m dx dy : ∀ f : Fmt, FP f → FP f → FP f}
    (hg : ∀ f x y, g f x y = binary x y (m f x.n y.n) (dx f x.n y.n) (dy f x.n y.n))
    (hR : ∀ x y, gR x y = binary x y (M x.n y.n) (Dx x.n y.n) (Dy x.n y.n))
    (hc : ∀ (f : ℕ → Fmt) (x y : ∀ k, FP (f k)), Finer f → Conv x a → Conv y b →
      Conv (fun k => m _ (x k) (y k)) (M a b) ∧ Conv (fun k => dx _ (x k) (y k)) (Dx a b) ∧ Conv (fun k => dy _ (x k) (y k)) (Dy a b)) : Fine2 g F a b := by
  obtain ⟨h1, h2⟩ := partials_of_prop hp hR
  exact ⟨_, _, m, dx, dy, h1, hg, fun f x y hf hx hy => by rw [← h2]; exact hc f x y hf hx hy⟩

/-! ## functions of one argument -/

theorem conv_sgn {f : ℕ → Fmt} {x : ∀ k, FP (f k)} {a : ℝ} (h : a ≠ 0) (hx : Conv x a) :
    Conv (f := f) (fun k => if CCmp.leb 0 (x k) then 1 else -1) (if CCmp.leb 0 a then 1 else -1) := by
  rcases lt_or_gt_of_ne h with h | h
  · have e : ∀ᶠ k in atTop, (-1 : FP (f k)) = if CCmp.leb 0 (x k) then 1 else -1 := by
      filter_upwards [Tendsto.eventually_lt_const h hx] with k hk
      rw [if_neg]; simpa using hk
    have : ¬ (CCmp.leb 0 a = true) := by simpa using h
    simp only [if_neg this]
    exact conv_one.neg.congr' e
  · have e : ∀ᶠ k in atTop, (1 : FP (f k)) = if CCmp.leb 0 (x k) then 1 else -1 := by
      filter_upwards [Tendsto.eventually_const_lt h hx] with k hk
      rw [if_pos]; simpa using hk.le
    have : CCmp.leb 0 a = true := by simpa using h.le
    simp only [if_pos this]
    exact conv_one.congr' e

theorem C63_abs {a : ℝ} (h : a ≠ 0) : Fine1 (fun _ => UMath.abs) (fun t => |t|) a :=
  fine1_of (m := fun f x => CSqrt.abs x) (d := fun f x => if CCmp.leb 0 x then 1 else -1) (M := fun x => CSqrt.abs x) (D := fun x => if CCmp.leb 0 x then 1 else -1)
    (C14_abs h) (fun _ _ => rfl) (fun _ => rfl) (fun f x hf hx => ⟨Tendsto.abs hx, conv_sgn h hx⟩)

example := C63_abs (a := -3) (by norm_num)

theorem C63_exp (a : ℝ) : Fine1 (fun _ => UMath.exp) Real.exp a :=
  fine1_of (m := fun f x => CMath.exp x) (d := fun f x => CMath.exp x) (M := fun x => CMath.exp x) (D := fun x => CMath.exp x)
    (C14_exp a) (fun _ _ => rfl) (fun _ => rfl) fun _ _ hf hx =>
    ⟨hx.fn hf Real.continuous_exp.continuousAt, hx.fn hf Real.continuous_exp.continuousAt⟩

example := C63_exp 3

theorem C63_exp2 (a : ℝ) : Fine1 (fun _ => UMath.exp2) (fun t => (2 : ℝ) ^ t) a :=
  fine1_of (m := fun f x => CMath.exp2 x) (d := fun f x => CMath.log ((2 : ℕ) : FP f) * CMath.exp2 x) (M := fun x => CMath.exp2 x) (D := fun x => CMath.log ((2 : ℕ) : ℝ) * CMath.exp2 x)
    (C14_exp2 a) (fun _ _ => rfl) (fun _ => rfl) fun f x hf hx => by
    have h : Conv (fun k => CMath.exp2 (x k)) (CMath.exp2 a) := hx.fn hf (Real.continuous_const_rpow (by norm_num)).continuousAt
    exact ⟨h, Conv.mul hf ((conv_nat hf 2).fn hf (Real.continuousAt_log (by norm_num))) h⟩

example := C63_exp2 (-3 / 2)

theorem C63_expm1 (a : ℝ) : Fine1 (fun _ => UMath.expm1) (fun t => Real.exp t - 1) a :=
  fine1_of (m := fun f x => CMath.expm1 x) (d := fun f x => CMath.exp x) (M := fun x => CMath.expm1 x) (D := fun x => CMath.exp x)
    (C14_expm1 a) (fun _ _ => rfl) (fun _ => rfl) fun _ _ hf hx =>
    ⟨hx.fn hf (F := fun t => Real.exp t - 1) (Real.continuous_exp.sub continuous_const).continuousAt, hx.fn hf Real.continuous_exp.continuousAt⟩

example := C63_expm1 (1 / 4)

theorem C63_log {a : ℝ} (h : 0 < a) : Fine1 (fun _ => UMath.log) Real.log a :=
  fine1_of (m := fun f x => CMath.log x) (d := fun f x => 1 / x) (M := fun x => CMath.log x) (D := fun x => 1 / x)
    (C14_log h) (fun _ _ => rfl) (fun _ => rfl) fun _ _ hf hx =>
    ⟨hx.fn hf (Real.continuousAt_log h.ne'), conv_one.div hf hx h.ne'⟩

example := C63_log (a := 2) (by norm_num)

theorem C63_log10 {a : ℝ} (h : 0 < a) : Fine1 (fun _ => UMath.log10) (Real.logb 10) a :=
  fine1_of (m := fun f x => CMath.log10 x) (d := fun f x => 1 / (x * CMath.log ((10 : ℕ) : FP f))) (M := fun x => CMath.log10 x) (D := fun x => 1 / (x * CMath.log ((10 : ℕ) : ℝ)))
    (C14_log10 h) (fun _ _ => rfl) (fun _ => rfl) fun _ _ hf hx =>
    ⟨hx.fn hf ((Real.continuousAt_log h.ne').div_const _), conv_one.div hf (hx.mul hf ((conv_nat hf 10).fn hf (Real.continuousAt_log (by norm_num))))
      (mul_ne_zero h.ne' (Real.log_pos (by norm_num : (1 : ℝ) < ((10 : ℕ) : ℝ))).ne')⟩

example := C63_log10 (a := 2) (by norm_num)

theorem C63_log2 {a : ℝ} (h : 0 < a) : Fine1 (fun _ => UMath.log2) (Real.logb 2) a :=
  fine1_of (m := fun f x => CMath.log2 x) (d := fun f x => 1 / (x * CMath.log ((2 : ℕ) : FP f))) (M := fun x => CMath.log2 x) (D := fun x => 1 / (x * CMath.log ((2 : ℕ) : ℝ)))
    (C14_log2 h) (fun _ _ => rfl) (fun _ => rfl) fun _ _ hf hx =>
    ⟨hx.fn hf ((Real.continuousAt_log h.ne').div_const _), conv_one.div hf (hx.mul hf ((conv_nat hf 2).fn hf (Real.continuousAt_log (by norm_num))))
      (mul_ne_zero h.ne' (Real.log_pos (by norm_num : (1 : ℝ) < ((2 : ℕ) : ℝ))).ne')⟩

example := C63_log2 (a := 3) (by norm_num)

theorem C63_log1p {a : ℝ} (h : -1 < a) : Fine1 (fun _ => UMath.log1p) (fun t => Real.log (1 + t)) a :=
  fine1_of (m := fun f x => CMath.log1p x) (d := fun f x => 1 / (1 + x)) (M := fun x => CMath.log1p x) (D := fun x => 1 / (1 + x))
    (C14_log1p h) (fun _ _ => rfl) (fun _ => rfl) fun _ _ hf hx =>
    ⟨hx.fn hf (F := fun t => Real.log (1 + t)) ((continuousAt_const.add continuousAt_id).log (by show (1 + a) ≠ 0; linarith)), conv_one.div hf (conv_one.add hf hx) (by linarith)⟩

example := C63_log1p (a := -1 / 2) (by norm_num)

theorem C63_sqrt {a : ℝ} (h : 0 < a) : Fine1 (fun _ => UMath.sqrt) Real.sqrt a :=
  fine1_of (m := fun f x => CSqrt.sqrt x) (d := fun f x => 1 / (((2 : ℕ) : FP f) * CSqrt.sqrt x)) (M := fun x => CSqrt.sqrt x) (D := fun x => 1 / (((2 : ℕ) : ℝ) * CSqrt.sqrt x))
    (C14_sqrt h) (fun _ _ => rfl) (fun _ => rfl) fun _ _ hf hx =>
    ⟨hx.sqrt hf, conv_one.div hf ((conv_nat hf 2).mul hf (hx.sqrt hf)) (mul_ne_zero (by norm_num) (Real.sqrt_pos.2 h).ne')⟩

example := C63_sqrt (a := 2) (by norm_num)

theorem C63_cbrt {a : ℝ} (h : 0 < a) : Fine1 (fun _ => UMath.cbrt) cbrtR a :=
  fine1_of (m := fun f x => CMath.cbrt x) (d := fun f x => CMath.pow x (-((2 : ℕ) : FP f) / ((3 : ℕ) : FP f)) / ((3 : ℕ) : FP f)) (M := fun x => CMath.cbrt x) (D := fun x => CMath.pow x (-((2 : ℕ) : ℝ) / ((3 : ℕ) : ℝ)) / ((3 : ℕ) : ℝ))
    (C14_cbrt_partial h).1 (fun _ _ => rfl) (fun _ => rfl) fun f x hf hx => by
    refine ⟨hx.fn hf (cbrt_pos h).continuousAt, Conv.div hf ?_ (conv_nat hf 3) (by norm_num)⟩
    refine Conv.fn2 hf hx ((conv_nat hf 2).neg.div hf (conv_nat hf 3) (by norm_num)) (F := fun s t => s ^ t) ?_
    exact Real.continuousAt_rpow (a, _) (Or.inl h.ne')

example := C63_cbrt (a := 8) (by norm_num)

theorem C63_sin (a : ℝ) : Fine1 (fun _ => UMath.sin) Real.sin a :=
  fine1_of (m := fun f x => CMath.sin x) (d := fun f x => CMath.cos x) (M := fun x => CMath.sin x) (D := fun x => CMath.cos x)
    (C14_sin a) (fun _ _ => rfl) (fun _ => rfl) fun _ _ hf hx =>
    ⟨hx.fn hf Real.continuous_sin.continuousAt, hx.fn hf Real.continuous_cos.continuousAt⟩

example := C63_sin 2

theorem C63_cos (a : ℝ) : Fine1 (fun _ => UMath.cos) Real.cos a :=
  fine1_of (m := fun f x => CMath.cos x) (d := fun f x => -CMath.sin x) (M := fun x => CMath.cos x) (D := fun x => -CMath.sin x)
    (C14_cos a) (fun _ _ => rfl) (fun _ => rfl) fun _ _ hf hx =>
    ⟨hx.fn hf Real.continuous_cos.continuousAt, (hx.fn hf Real.continuous_sin.continuousAt).neg⟩

example := C63_cos 2

theorem C63_tan {a : ℝ} (h : Real.cos a ≠ 0) : Fine1 (fun _ => UMath.tan) Real.tan a :=
  fine1_of (m := fun f x => CMath.tan x) (d := fun f x => 1 + CMath.tan x * CMath.tan x) (M := fun x => CMath.tan x) (D := fun x => 1 + CMath.tan x * CMath.tan x)
    (C14_tan h) (fun _ _ => rfl) (fun _ => rfl) fun f x hf hx => by
    have t : Conv (fun k => CMath.tan (x k)) (CMath.tan a) := hx.fn hf (Real.continuousAt_tan.2 h)
    exact ⟨t, conv_one.add hf (t.mul hf t)⟩

example := C63_tan (a := 1) ((Real.cos_pos_of_le_one (by norm_num)).ne')

theorem C63_asin {a : ℝ} (h1 : -1 < a) (h2 : a < 1) : Fine1 (fun _ => UMath.asin) Real.arcsin a :=
  fine1_of (m := fun f x => CMath.asin x) (d := fun f x => 1 / CSqrt.sqrt (1 - x * x)) (M := fun x => CMath.asin x) (D := fun x => 1 / CSqrt.sqrt (1 - x * x))
    (C14_asin h1 h2) (fun _ _ => rfl) (fun _ => rfl) fun _ _ hf hx =>
    ⟨hx.fn hf Real.continuous_arcsin.continuousAt, conv_one.div hf ((conv_one.sub hf (hx.mul hf hx)).sqrt hf) (Real.sqrt_pos.2 (by nlinarith)).ne'⟩

example := C63_asin (a := 1 / 2) (by norm_num) (by norm_num)

theorem C63_acos {a : ℝ} (h1 : -1 < a) (h2 : a < 1) : Fine1 (fun _ => UMath.acos) Real.arccos a :=
  fine1_of (m := fun f x => CMath.acos x) (d := fun f x => -1 / CSqrt.sqrt (1 - x * x)) (M := fun x => CMath.acos x) (D := fun x => -1 / CSqrt.sqrt (1 - x * x))
    (C14_acos h1 h2) (fun _ _ => rfl) (fun _ => rfl) fun _ _ hf hx =>
    ⟨hx.fn hf Real.continuous_arccos.continuousAt, conv_one.neg.div hf ((conv_one.sub hf (hx.mul hf hx)).sqrt hf) (Real.sqrt_pos.2 (by nlinarith)).ne'⟩

example := C63_acos (a := -1 / 2) (by norm_num) (by norm_num)

theorem C63_atan (a : ℝ) : Fine1 (fun _ => UMath.atan) Real.arctan a :=
  fine1_of (m := fun f x => CMath.atan x) (d := fun f x => 1 / (1 + x * x)) (M := fun x => CMath.atan x) (D := fun x => 1 / (1 + x * x))
    (C14_atan a) (fun _ _ => rfl) (fun _ => rfl) fun _ _ hf hx =>
    ⟨hx.fn hf Real.continuous_arctan.continuousAt, conv_one.div hf (conv_one.add hf (hx.mul hf hx)) (by nlinarith)⟩

example := C63_atan (-3)

theorem C63_sinh (a : ℝ) : Fine1 (fun _ => UMath.sinh) Real.sinh a :=
  fine1_of (m := fun f x => CMath.sinh x) (d := fun f x => CMath.cosh x) (M := fun x => CMath.sinh x) (D := fun x => CMath.cosh x)
    (C14_sinh a) (fun _ _ => rfl) (fun _ => rfl) fun _ _ hf hx =>
    ⟨hx.fn hf Real.continuous_sinh.continuousAt, hx.fn hf Real.continuous_cosh.continuousAt⟩

example := C63_sinh 2

theorem C63_cosh (a : ℝ) : Fine1 (fun _ => UMath.cosh) Real.cosh a :=
  fine1_of (m := fun f x => CMath.cosh x) (d := fun f x => CMath.sinh x) (M := fun x => CMath.cosh x) (D := fun x => CMath.sinh x)
    (C14_cosh a) (fun _ _ => rfl) (fun _ => rfl) fun _ _ hf hx =>
    ⟨hx.fn hf Real.continuous_cosh.continuousAt, hx.fn hf Real.continuous_sinh.continuousAt⟩

example := C63_cosh 2

theorem C63_tanh (a : ℝ) : Fine1 (fun _ => UMath.tanh) Real.tanh a :=
  fine1_of (m := fun f x => CMath.tanh x) (d := fun f x => 1 - CMath.tanh x * CMath.tanh x) (M := fun x => CMath.tanh x) (D := fun x => 1 - CMath.tanh x * CMath.tanh x)
    (C14_tanh a) (fun _ _ => rfl) (fun _ => rfl) fun f x hf hx => by
    have t : Conv (fun k => CMath.tanh (x k)) (CMath.tanh a) := hx.fn hf (hasDerivAt_tanh' a).continuousAt
    exact ⟨t, conv_one.sub hf (t.mul hf t)⟩

example := C63_tanh 2

theorem C63_asinh (a : ℝ) : Fine1 (fun _ => UMath.asinh) Real.arsinh a :=
  fine1_of (m := fun f x => CMath.asinh x) (d := fun f x => 1 / CSqrt.sqrt (x * x + 1)) (M := fun x => CMath.asinh x) (D := fun x => 1 / CSqrt.sqrt (x * x + 1))
    (C14_asinh a) (fun _ _ => rfl) (fun _ => rfl) fun _ _ hf hx =>
    ⟨hx.fn hf Real.continuous_arsinh.continuousAt, conv_one.div hf (((hx.mul hf hx).add hf conv_one).sqrt hf) (Real.sqrt_pos.2 (by nlinarith)).ne'⟩

example := C63_asinh (-2)

theorem C63_acosh {a : ℝ} (h : 1 < a) : Fine1 (fun _ => UMath.acosh) Real.arcosh a :=
  fine1_of (m := fun f x => CMath.acosh x) (d := fun f x => 1 / CSqrt.sqrt (x * x - 1)) (M := fun x => CMath.acosh x) (D := fun x => 1 / CSqrt.sqrt (x * x - 1))
    (C14_acosh h) (fun _ _ => rfl) (fun _ => rfl) fun _ _ hf hx =>
    ⟨hx.fn hf (Real.hasDerivAt_arcosh h).continuousAt, conv_one.div hf (((hx.mul hf hx).sub hf conv_one).sqrt hf) (Real.sqrt_pos.2 (by nlinarith)).ne'⟩

example := C63_acosh (a := 3 / 2) (by norm_num)

theorem C63_atanh {a : ℝ} (h1 : -1 < a) (h2 : a < 1) : Fine1 (fun _ => UMath.atanh) Real.artanh a :=
  fine1_of (m := fun f x => CMath.atanh x) (d := fun f x => 1 / (1 - x * x)) (M := fun x => CMath.atanh x) (D := fun x => 1 / (1 - x * x))
    (C14_atanh h1 h2) (fun _ _ => rfl) (fun _ => rfl) fun _ _ hf hx =>
    ⟨hx.fn hf (hasDerivAt_artanh' h1 h2).continuousAt, conv_one.div hf (conv_one.sub hf (hx.mul hf hx)) (by nlinarith)⟩

example := C63_atanh (a := 1 / 2) (by norm_num) (by norm_num)

theorem conv_erfCoeff {f : ℕ → Fmt} (hf : Finer f) : Conv (fun k => (UMath.erfCoeff : FP (f k))) (UMath.erfCoeff : ℝ) := by
  have hpi : (CMath.atan2 (0 : ℝ) (-1)) = Real.pi := by
    have : (⟨-1, 0⟩ : ℂ) = -1 := by apply Complex.ext <;> simp
    simp [CMath.atan2, this, Complex.arg_neg_one]
  refine (conv_nat hf 2).div hf (Conv.sqrt hf (conv_round hf (CMath.atan2 (0 : ℝ) (-1)))) ?_
  rw [hpi]
  exact (Real.sqrt_pos.2 Real.pi_pos).ne'

theorem C63_erf (a : ℝ) : Fine1 (fun _ => UMath.erf) (fun x => 2 / Real.sqrt Real.pi * ∫ t in (0 : ℝ)..x, Real.exp (-t ^ 2)) a :=
  fine1_of (m := fun f x => CMath.erf x) (d := fun f x => UMath.erfCoeff * CMath.exp (-x * x)) (M := fun x => CMath.erf x) (D := fun x => UMath.erfCoeff * CMath.exp (-x * x))
    (C14_erf a) (fun _ _ => rfl) (fun _ => rfl) fun _ _ hf hx =>
    ⟨hx.fn hf (erf_deriv a).continuousAt, (conv_erfCoeff hf).mul hf ((hx.neg.mul hf hx).fn hf Real.continuous_exp.continuousAt)⟩

example := C63_erf (1 / 3)

theorem C63_erfc (a : ℝ) : Fine1 (fun _ => UMath.erfc) (fun x => 1 - 2 / Real.sqrt Real.pi * ∫ t in (0 : ℝ)..x, Real.exp (-t ^ 2)) a :=
  fine1_of (m := fun f x => CMath.erfc x) (d := fun f x => -UMath.erfCoeff * CMath.exp (-x * x)) (M := fun x => CMath.erfc x) (D := fun x => -UMath.erfCoeff * CMath.exp (-x * x))
    (C14_erfc a) (fun _ _ => rfl) (fun _ => rfl) fun _ _ hf hx =>
    ⟨hx.fn hf ((erf_deriv a).const_sub 1).continuousAt, (conv_erfCoeff hf).neg.mul hf ((hx.neg.mul hf hx).fn hf Real.continuous_exp.continuousAt)⟩

example := C63_erfc (1 / 3)

/-! ## functions of two arguments -/

theorem conv_locally {f : ℕ → Fmt} (hf : Finer f) {x : ∀ k, FP (f k)} {q c : ℝ} (hx : Conv x q) {F : ℝ → ℝ} (h : ∀ᶠ t in 𝓝 q, F t = c) :
    Conv (fun k => FP.round (f k) (F (x k).val)) c :=
  conv_rd hf (tendsto_const_nhds.congr' ((Tendsto.eventually hx h).mono fun _ e => e.symm))

theorem C63_fmod {a b : ℝ} (hb : b ≠ 0) (h : |a / b| < 1 ∨ ∀ n : ℤ, a / b ≠ n) :
    Fine2 (fun _ => UMath.fmod) (fun s t => s - (if 0 ≤ s / t then (⌊s / t⌋ : ℝ) else ⌈s / t⌉) * t) a b := by
  refine fine2_of (m := fun f x y => CMath.fmod x y) (dx := fun f x y => 1) (dy := fun f x y => -CMath.trunc (x / y)) (M := fun x y => CMath.fmod x y) (Dx := fun x y => 1)
    (Dy := fun x y => -CMath.trunc (x / y))
    (C14_fmod hb h) (fun _ _ _ => rfl) (fun _ _ => rfl) fun f x y hf hx hy => ⟨?_, conv_one, (conv_locally hf (hx.div hf hy hb) (trunc_eventually h)).neg⟩
  exact Conv.fn2 hf hx hy (F := CMath.fmod) (partials_of_prop (C14_fmod hb h) (M := CMath.fmod) (Dx := fun _ _ => 1) (Dy := fun s t => -CMath.trunc (s / t))
    (fun _ _ => rfl)).1.continuousAt

example := C63_fmod (a := 7) (b := -2) (by norm_num) (Or.inr fun n h => by
    have : (7 : ℤ) = -2 * n := by
      have : (7 : ℝ) = -2 * n := by rw [← h]; norm_num
      exact_mod_cast this
    omega)

theorem round_away_eventually {q : ℝ} (h : ∀ n : ℤ, q + 1 / 2 ≠ n) : ∀ᶠ x in 𝓝 q, roundAwayR x = roundAwayR q := by
  have h1 : (⌊q + 1 / 2⌋ : ℝ) < q + 1 / 2 := lt_of_le_of_ne (Int.floor_le _) (h _).symm
  have h2 := Int.lt_floor_add_one (q + 1 / 2)
  filter_upwards [Ioo_mem_nhds (a := (⌊q + 1 / 2⌋ : ℝ) - 1 / 2) (b := ⌊q + 1 / 2⌋ + 1 / 2) (by linarith) (by linarith)] with x hx
  have hfl : ⌊x + 1 / 2⌋ = ⌊q + 1 / 2⌋ := Int.floor_eq_iff.2 ⟨by linarith [hx.1], by linarith [hx.2]⟩
  have hx' : ∀ n : ℤ, x + 1 / 2 ≠ n := by
    intro n hn
    have a : ⌊q + 1 / 2⌋ < n := by exact_mod_cast (by linarith [hx.1] : (⌊q + 1 / 2⌋ : ℝ) < n)
    have b : n < ⌊q + 1 / 2⌋ + 1 := by exact_mod_cast (by linarith [hx.2] : (n : ℝ) < ⌊q + 1 / 2⌋ + 1)
    omega
  rw [(round_eq hx').2, (round_eq h).2, hfl]

theorem C63_remainder {a b : ℝ} (hb : b ≠ 0) (h : ∀ n : ℤ, a / b + 1 / 2 ≠ n) :
    Fine2 (fun _ => UMath.remainder) (fun s t => s - roundEvenR (s / t) * t) a b := by
  refine fine2_of (m := fun f x y => CMath.remainder x y) (dx := fun f x y => 1) (dy := fun f x y => -CMath.round (x / y)) (M := fun x y => CMath.remainder x y) (Dx := fun x y => 1)
    (Dy := fun x y => -CMath.round (x / y))
    (C14_remainder hb h).1 (fun _ _ _ => rfl) (fun _ _ => rfl) fun f x y hf hx hy => ⟨?_, conv_one, (conv_locally hf (hx.div hf hy hb) ?_).neg⟩
  · exact Conv.fn2 hf hx hy (F := CMath.remainder) (partials_of_prop (C14_remainder hb h).1 (M := CMath.remainder) (Dx := fun _ _ => 1)
      (Dy := fun s t => -CMath.round (s / t)) (fun _ _ => rfl)).1.continuousAt
  · exact round_away_eventually h

example := C63_remainder (a := 7) (b := 5) (by norm_num) (fun n h => by
    have : (19 : ℤ) = 10 * n := by
      have : (19 : ℝ) = 10 * n := by rw [← h]; norm_num
      exact_mod_cast this
    omega)

theorem round_val {f : Fmt} (x : FP f) : FP.round f x.val = x := FP.ext x.rep

/-- one argument is eventually the larger one, and is returned exactly -/
theorem eventually_ite {f : ℕ → Fmt} {x y : ∀ k, FP (f k)} {a b : ℝ} (hx : Conv x a) (hy : Conv y b) (h : a < b) : ∀ᶠ k in atTop, (x k).val < (y k).val :=
  Tendsto.eventually_lt hx hy h

theorem conv_fmax {f : ℕ → Fmt} (hf : Finer f) {x y : ∀ k, FP (f k)} {a b : ℝ} (h : a ≠ b) (hx : Conv x a) (hy : Conv y b) :
    Conv (fun k => CMath.fmax (x k) (y k)) (CMath.fmax a b) ∧
      Conv (f := f) (fun k => if CCmp.eqb (CMath.fmax (x k) (y k)) (x k) then 1 else 0) (if CCmp.eqb (CMath.fmax a b) a then 1 else 0) ∧
      Conv (f := f) (fun k => if CCmp.eqb (CMath.fmax (x k) (y k)) (x k) then 0 else 1) (if CCmp.eqb (CMath.fmax a b) a then 0 else 1) := by
  rcases lt_or_gt_of_ne h with h | h
  · have e : ∀ᶠ k in atTop, CMath.fmax (x k) (y k) = y k := by
      filter_upwards [eventually_ite hx hy h] with k hk
      exact (congrArg (FP.round (f k)) (max_eq_right hk.le)).trans (round_val _)
    have hM : CMath.fmax a b = b := max_eq_right h.le
    refine ⟨?_, ?_, ?_⟩
    · simp only [hM]; exact Conv.congr' hy (e.mono fun _ hk => hk.symm)
    · simp only [hM]
      rw [if_neg (by simp [CCmp.eqb, h.ne'])]
      refine Conv.congr' conv_zero ?_
      filter_upwards [e, eventually_ite hx hy h] with k hk' hk
      rw [hk', if_neg (by simp [CCmp.eqb, hk.ne'])]
    · simp only [hM]
      rw [if_neg (by simp [CCmp.eqb, h.ne'])]
      refine Conv.congr' conv_one ?_
      filter_upwards [e, eventually_ite hx hy h] with k hk' hk
      rw [hk', if_neg (by simp [CCmp.eqb, hk.ne'])]
  · have e : ∀ᶠ k in atTop, CMath.fmax (x k) (y k) = x k := by
      filter_upwards [eventually_ite hy hx h] with k hk
      exact (congrArg (FP.round (f k)) (max_eq_left hk.le)).trans (round_val _)
    have hM : CMath.fmax a b = a := max_eq_left h.le
    refine ⟨?_, ?_, ?_⟩
    · simp only [hM]; exact Conv.congr' hx (e.mono fun _ hk => hk.symm)
    · simp only [hM]
      rw [if_pos (by simp [CCmp.eqb])]
      refine Conv.congr' conv_one ?_
      filter_upwards [e, eventually_ite hy hx h] with k hk' hk
      rw [hk', if_pos (by simp [CCmp.eqb])]
    · simp only [hM]
      rw [if_pos (by simp [CCmp.eqb])]
      refine Conv.congr' conv_zero ?_
      filter_upwards [e, eventually_ite hy hx h] with k hk' hk
      rw [hk', if_pos (by simp [CCmp.eqb])]

theorem C63_fmax {a b : ℝ} (h : a ≠ b) : Fine2 (fun _ => UMath.fmax) max a b := by
  refine fine2_of (m := fun f x y => CMath.fmax x y) (dx := fun f x y => if CCmp.eqb (CMath.fmax x y) x then 1 else 0) (dy := fun f x y => if CCmp.eqb (CMath.fmax x y) x then 0 else 1) (M := fun x y => CMath.fmax x y) (Dx := fun x y => if CCmp.eqb (CMath.fmax x y) x then 1 else 0)
    (Dy := fun x y => if CCmp.eqb (CMath.fmax x y) x then 0 else 1)
    (C14_fmax h) (fun _ _ _ => rfl) (fun _ _ => rfl) fun f x y hf hx hy => conv_fmax hf h hx hy

example := C63_fmax (a := 7) (b := -2) (by norm_num)

theorem conv_fmin {f : ℕ → Fmt} (hf : Finer f) {x y : ∀ k, FP (f k)} {a b : ℝ} (h : a ≠ b) (hx : Conv x a) (hy : Conv y b) :
    Conv (fun k => CMath.fmin (x k) (y k)) (CMath.fmin a b) ∧
      Conv (f := f) (fun k => if CCmp.eqb (CMath.fmin (x k) (y k)) (x k) then 1 else 0) (if CCmp.eqb (CMath.fmin a b) a then 1 else 0) ∧
      Conv (f := f) (fun k => if CCmp.eqb (CMath.fmin (x k) (y k)) (x k) then 0 else 1) (if CCmp.eqb (CMath.fmin a b) a then 0 else 1) := by
  rcases lt_or_gt_of_ne h with h | h
  · have e : ∀ᶠ k in atTop, CMath.fmin (x k) (y k) = x k := by
      filter_upwards [eventually_ite hx hy h] with k hk
      exact (congrArg (FP.round (f k)) (min_eq_left hk.le)).trans (round_val _)
    have hM : CMath.fmin a b = a := min_eq_left h.le
    refine ⟨?_, ?_, ?_⟩
    · simp only [hM]; exact Conv.congr' hx (e.mono fun _ hk => hk.symm)
    · simp only [hM]
      rw [if_pos (by simp [CCmp.eqb])]
      refine Conv.congr' conv_one ?_
      filter_upwards [e, eventually_ite hx hy h] with k hk' hk
      rw [hk', if_pos (by simp [CCmp.eqb])]
    · simp only [hM]
      rw [if_pos (by simp [CCmp.eqb])]
      refine Conv.congr' conv_zero ?_
      filter_upwards [e, eventually_ite hx hy h] with k hk' hk
      rw [hk', if_pos (by simp [CCmp.eqb])]
  · have e : ∀ᶠ k in atTop, CMath.fmin (x k) (y k) = y k := by
      filter_upwards [eventually_ite hy hx h] with k hk
      exact (congrArg (FP.round (f k)) (min_eq_right hk.le)).trans (round_val _)
    have hM : CMath.fmin a b = b := min_eq_right h.le
    refine ⟨?_, ?_, ?_⟩
    · simp only [hM]; exact Conv.congr' hy (e.mono fun _ hk => hk.symm)
    · simp only [hM]
      rw [if_neg (by simp [CCmp.eqb, h.ne])]
      refine Conv.congr' conv_zero ?_
      filter_upwards [e, eventually_ite hy hx h] with k hk' hk
      rw [hk', if_neg (by simp [CCmp.eqb, hk.ne])]
    · simp only [hM]
      rw [if_neg (by simp [CCmp.eqb, h.ne])]
      refine Conv.congr' conv_one ?_
      filter_upwards [e, eventually_ite hy hx h] with k hk' hk
      rw [hk', if_neg (by simp [CCmp.eqb, hk.ne])]

theorem C63_fmin {a b : ℝ} (h : a ≠ b) : Fine2 (fun _ => UMath.fmin) min a b := by
  refine fine2_of (m := fun f x y => CMath.fmin x y) (dx := fun f x y => if CCmp.eqb (CMath.fmin x y) x then 1 else 0) (dy := fun f x y => if CCmp.eqb (CMath.fmin x y) x then 0 else 1) (M := fun x y => CMath.fmin x y) (Dx := fun x y => if CCmp.eqb (CMath.fmin x y) x then 1 else 0)
    (Dy := fun x y => if CCmp.eqb (CMath.fmin x y) x then 0 else 1)
    (C14_fmin h) (fun _ _ _ => rfl) (fun _ _ => rfl) fun f x y hf hx hy => conv_fmin hf h hx hy

example := C63_fmin (a := 7) (b := -2) (by norm_num)

theorem C63_pow {a b : ℝ} (h : 0 < a) : Fine2 (fun _ => UMath.pow) (fun s t => s ^ t) a b :=
  fine2_of (m := fun f x y => CMath.pow x y) (dx := fun f x y => CMath.pow x y * y / x) (dy := fun f x y => CMath.pow x y * CMath.log x) (M := fun x y => CMath.pow x y) (Dx := fun x y => CMath.pow x y * y / x)
    (Dy := fun x y => CMath.pow x y * CMath.log x)
    (C14_pow h) (fun _ _ _ => rfl) (fun _ _ => rfl) fun f x y hf hx hy => by
    have p : Conv (fun k => CMath.pow (x k) (y k)) (CMath.pow a b) := Conv.fn2 hf hx hy (F := fun s t => s ^ t) (Real.continuousAt_rpow (a, b) (Or.inl h.ne'))
    exact ⟨p, (p.mul hf hy).div hf hx h.ne', p.mul hf (hx.fn hf (Real.continuousAt_log h.ne'))⟩

example := C63_pow (a := 1 / 2) (b := -2) (by norm_num)

theorem C63_hypot {a b : ℝ} (h : a ≠ 0 ∨ b ≠ 0) : Fine2 (fun _ => UMath.hypot) (fun s t => Real.sqrt (s ^ 2 + t ^ 2)) a b :=
  fine2_of (m := fun f x y => CMath.hypot x y) (dx := fun f x y => x / CMath.hypot x y) (dy := fun f x y => y / CMath.hypot x y) (M := fun x y => CMath.hypot x y) (Dx := fun x y => x / CMath.hypot x y)
    (Dy := fun x y => y / CMath.hypot x y)
    (C14_hypot h) (fun _ _ _ => rfl) (fun _ _ => rfl) fun f x y hf hx hy => by
    have p : Conv (fun k => CMath.hypot (x k) (y k)) (CMath.hypot a b) := Conv.fn2 hf hx hy (F := fun s t => Real.sqrt (s ^ 2 + t ^ 2))
      (Continuous.continuousAt (by fun_prop))
    have h0 : CMath.hypot a b ≠ 0 := by
      refine (Real.sqrt_pos.2 ?_).ne'
      rcases h with h | h <;> positivity
    exact ⟨p, hx.div hf p h0, hy.div hf p h0⟩

example := C63_hypot (a := 7) (b := 0) (Or.inl (by norm_num))

/-! ## the hypotheses are met -/

/-- `fmax(hypot(exp(x), sin(y)), x) - fmod(y, x)`, and the power `pow(hypot(exp(x), sin(y)), y)` -/
noncomputable def exProgM : List FNode :=
  [.call1 (fun _ => UMath.exp) Real.exp 0, .call1 (fun _ => UMath.sin) Real.sin 1,
    .call2 (fun _ => UMath.hypot) (fun s t => Real.sqrt (s ^ 2 + t ^ 2)) 2 3, .call2 (fun _ => UMath.fmax) max 4 0,
    .call2 (fun _ => UMath.fmod) (fun s t => s - (if 0 ≤ s / t then (⌊s / t⌋ : ℝ) else ⌈s / t⌉) * t) 1 0, .sub 5 6,
    .call2 (fun _ => UMath.pow) (fun s t => s ^ t) 4 1]

theorem exProgM_regular : Regular exProgM (List.ofFn ![2, 3]) := by
  have h0 : (2 : ℝ) < Real.sqrt (Real.exp 2 ^ 2 + Real.sin 3 ^ 2) := by
    refine Real.lt_sqrt_of_sq_lt ?_
    have := Real.add_one_lt_exp (show (2 : ℝ) ≠ 0 by norm_num)
    nlinarith [sq_nonneg (Real.sin 3)]
  have hq : ∀ n : ℤ, (3 : ℝ) / 2 ≠ n := fun n hn => by
    have : (3 : ℤ) = 2 * n := by
      have : (3 : ℝ) = 2 * n := by rw [← hn]; norm_num
      exact_mod_cast this
    omega
  simp only [exProgM, Regular, FNode.real, List.ofFn_succ, List.ofFn_zero]
  refine ⟨⟨by simp, C63_exp _⟩, ⟨by simp, C63_sin _⟩, ⟨by simp, by simp, C63_hypot (Or.inl ?_)⟩, ⟨by simp, by simp, C63_fmax ?_⟩,
    ⟨by simp, by simp, C63_fmod ?_ (Or.inr ?_)⟩, ⟨by simp, by simp⟩, ⟨by simp, by simp, C63_pow ?_⟩, trivial⟩
  · simp
  · simpa using h0.ne'
  · simp
  · simpa using hq
  · simpa using lt_trans two_pos h0

example : ∃ out : ∀ k, List (UReal (FP (bits (k + 1) (by omega)))), (∀ k, evalF _ exProgM (elemsF _ ![1, 2] ![2, 3] ![1 / 3, 1 / 7]) = some (out k)) ∧
    Tendsto (fun k => ((out k).getD 3 (UReal.const 0)).s.val) atTop (𝓝 (|Real.cos 3| / 7)) := by
  obtain ⟨out, h1, h2⟩ := C63_converges finer_bits (ids := ![1, 2]) (by intro i j h; fin_cases i <;> fin_cases j <;> simp_all) (by intro i; fin_cases i <;> simp)
    (by intro i; fin_cases i <;> simp [maxId]) ![2, 3] ![1 / 3, 1 / 7] exProgM exProgM_regular
  refine ⟨out, fun k => (h1 k).1, ?_⟩
  have := (h2 3 (by simp [exProgM])).2.2.2.1
  have hd : HasFDerivAt (fnF exProgM 3) (Real.cos 3 • ContinuousLinearMap.proj (R := ℝ) (φ := fun _ : Fin 2 => ℝ) 1) ![2, 3] := by
    have e : fnF exProgM 3 = fun v : Fin 2 → ℝ => Real.sin (v 1) := by
      funext v; simp [fnF, exProgM, evalE, FNode.real]
    rw [e]
    exact (Real.hasDerivAt_sin 3).comp_hasFDerivAt (![2, 3] : Fin 2 → ℝ) (ContinuousLinearMap.proj (R := ℝ) (φ := fun _ : Fin 2 => ℝ) 1).hasFDerivAt
  rw [hd.fderiv] at this
  have e : ∑ i, ((Real.cos 3 • ContinuousLinearMap.proj (R := ℝ) (φ := fun _ : Fin 2 => ℝ) 1) (Pi.single i 1)) ^ 2 * (![1 / 3, 1 / 7] : Fin 2 → ℝ) i ^ 2 =
      (Real.cos 3 / 7) ^ 2 := by
    simp [Fin.sum_univ_two]; ring
  rw [e, Real.sqrt_sq_eq_abs, abs_div] at this
  simpa using this

end Unc.Props
