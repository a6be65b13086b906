import Verif.Props.Math
import Mathlib.Analysis.Calculus.Deriv.Slope

/-! # `functions.hpp`, first-order part (C20) -/

namespace Unc.Props
open Unc Unc.Spec UReal Filter Topology

/-- **C20** `uunary(f, df)` propagates the derivative it is given. -/
theorem C20_uunary {f df : ℝ → ℝ} {a : ℝ} (h : HasDerivAt f (df a) a) : Propagates1 (UFun.uunary f df) f a :=
  propagates1_of (D := df) _ (fun _ => rfl) h

example : Propagates1 (UFun.uunary Real.sin Real.cos) Real.sin 2 := C20_uunary (Real.hasDerivAt_sin 2)

/-- **C20** `ubinary(f, dfdx, dfdy)`. -/
theorem C20_ubinary {f dx dy : ℝ → ℝ → ℝ} {a b : ℝ}
    (h : HasFDerivAt (fun p : ℝ × ℝ => f p.1 p.2) (dx a b • ContinuousLinearMap.fst ℝ ℝ ℝ + dy a b • ContinuousLinearMap.snd ℝ ℝ ℝ) (a, b)) :
    Propagates2 (UFun.ubinary f dx dy) f a b :=
  propagates2_of (Dx := dx) (Dy := dy) _ (fun _ _ => rfl) h

example : Propagates2 (UFun.ubinary (fun s t => s * t) (fun _ t => t) (fun s _ => s)) (fun s t => s * t) 3 5 :=
  C20_ubinary (by
    have := (hasFDerivAt_fst (𝕜 := ℝ) (p := ((3 : ℝ), (5 : ℝ)))).mul (hasFDerivAt_snd (𝕜 := ℝ) (p := ((3 : ℝ), (5 : ℝ))))
    refine this.congr_fderiv ?_
    simp only [add_comm])

/-- **C20** the forward difference is exact for affine functions, for any non-zero step. -/
theorem C20_uunary_num_affine (c b a : ℝ) {h : ℝ} (hh : h ≠ 0) :
    Propagates1 (UFun.uunaryNum (fun t => c * t + b) h) (fun t => c * t + b) a := by
  refine propagates1_of (F := fun t => c * t + b) (D := fun t => (c * (t + h) + b - (c * t + b)) / h) _ (fun _ => rfl) ?_
  refine (((hasDerivAt_id a).const_mul c).add_const b).congr_deriv ?_
  field_simp; ring

example := C20_uunary_num_affine 3 (-1) 2 (h := 1 / 1024) (by norm_num)

/-- **C20** same for two arguments. -/
theorem C20_ubinary_num_affine (c d b : ℝ) (a a' : ℝ) {h : ℝ} (hh : h ≠ 0) :
    Propagates2 (UFun.ubinaryNum (fun s t => c * s + d * t + b) h) (fun s t => c * s + d * t + b) a a' := by
  refine propagates2_of (F := fun s t => c * s + d * t + b) (Dx := fun s t => (c * (s + h) + d * t + b - (c * s + d * t + b)) / h)
    (Dy := fun s t => (c * s + d * (t + h) + b - (c * s + d * t + b)) / h) _ (fun _ _ => rfl) ?_
  have h1 := (((hasFDerivAt_fst (𝕜 := ℝ) (p := (a, a'))).const_mul c).add ((hasFDerivAt_snd (𝕜 := ℝ) (p := (a, a'))).const_mul d)).add_const b
  refine h1.congr_fderiv ?_
  have e1 : (c * (a + h) + d * a' + b - (c * a + d * a' + b)) / h = c := by field_simp; ring
  have e2 : (c * a + d * (a' + h) + b - (c * a + d * a' + b)) / h = d := by field_simp; ring
  rw [e1, e2]

example := C20_ubinary_num_affine 3 (-1) 2 5 7 (h := 1 / 1024) (by norm_num)

theorem slope_tendsto {f : ℝ → ℝ} {d a : ℝ} (hf : HasDerivAt f d a) :
    Tendsto (fun h => (f (a + h) - f a) / h) (𝓝[≠] 0) (𝓝 d) := by
  have := hf.tendsto_slope_zero
  simpa [div_eq_inv_mul] using this

/-- **C20** as the step tends to 0 the propagated covariances tend to those of the true derivative. -/
theorem C20_uunary_num_tendsto {f : ℝ → ℝ} {d : ℝ} {x : UReal ℝ} (hx : x.Valid) (hf : HasDerivAt f d x.n) {w : UReal ℝ} (hw : w.Valid) :
    (∀ h, (UFun.uunaryNum f h x).n = f x.n) ∧
      Tendsto (fun h => cov (UFun.uunaryNum f h x) w) (𝓝[≠] 0) (𝓝 (d * cov x w)) := by
  refine ⟨fun h => (C01_unary_linear hx _ _).2.1, ?_⟩
  have : (fun h => cov (UFun.uunaryNum f h x) w) = fun h => (f (x.n + h) - f x.n) / h * cov x w := by
    funext h
    exact (C01_unary_linear hx _ _).2.2 w hw
  rw [this]
  exact (slope_tendsto hf).mul_const _

/-- **C20** same for two arguments, which only needs the partial derivatives to exist. -/
theorem C20_ubinary_num_tendsto {f : ℝ → ℝ → ℝ} {dx dy : ℝ} {x y : UReal ℝ} (hx : Ok x) (hy : Ok y)
    (hfx : HasDerivAt (fun s => f s y.n) dx x.n) (hfy : HasDerivAt (fun t => f x.n t) dy y.n) {w : UReal ℝ} (hw : w.Valid) :
    ∃ z : ℝ → UReal ℝ, (∀ h, UFun.ubinaryNum f h x y = some (z h) ∧ (z h).n = f x.n y.n) ∧
      Tendsto (fun h => cov (z h) w) (𝓝[≠] 0) (𝓝 (dx * cov x w + dy * cov y w)) := by
  have key : ∀ h, ∃ z, UFun.ubinaryNum f h x y = some z ∧ z.n = f x.n y.n ∧
      cov z w = (f (x.n + h) y.n - f x.n y.n) / h * cov x w + (f x.n (y.n + h) - f x.n y.n) / h * cov y w := by
    intro h
    obtain ⟨z, e, -, hm, hc⟩ := C01_binary_linear hx.valid hy.valid hx.below hy.below (f x.n y.n)
      ((f (x.n + h) y.n - f x.n y.n) / h) ((f x.n (y.n + h) - f x.n y.n) / h)
    exact ⟨z, e, hm, hc w hw⟩
  choose z h1 h2 h3 using key
  refine ⟨z, fun h => ⟨h1 h, h2 h⟩, ?_⟩
  simp only [h3]
  exact ((slope_tendsto hfx).mul_const _).add ((slope_tendsto hfy).mul_const _)

/-- **C20** `default_step(k)` is `eps` to the power `2^-k`. -/
theorem C20_default_step {eps : ℝ} (he : 0 ≤ eps) (k : ℕ) : UFun.defaultStep eps k = eps ^ ((1 / 2 : ℝ) ^ k) := by
  induction k with
  | zero => simp [UFun.defaultStep]
  | succ k ih =>
    simp only [UFun.defaultStep, ih, csqrt_real, Real.sqrt_eq_rpow]
    rw [← Real.rpow_mul he, pow_succ]

/-- The forward difference of the square is not exact: with step 1 the derivative of t² at 5 comes out as 11. -/
example : cov (UFun.uunaryNum (fun t => t ^ 2) 1 ex1) ex1 = 11 * 9 := by
  have := (C01_unary_linear valid_ex1 ((fun t : ℝ => t ^ 2) ex1.n) (((fun t : ℝ => t ^ 2) (ex1.n + 1) - (fun t : ℝ => t ^ 2) ex1.n) / 1)).2.2 ex1 valid_ex1
  rw [show UFun.uunaryNum (fun t : ℝ => t ^ 2) 1 ex1 = unary ex1 _ _ from rfl, this]
  simp [cov, ex1, UReal.n]; norm_num

/-- and it tends to 10 (times the variance 9) -/
example : Tendsto (fun h => cov (UFun.uunaryNum (fun t => t ^ 2) h ex1) ex1) (𝓝[≠] 0) (𝓝 (10 * cov ex1 ex1)) := by
  refine (C20_uunary_num_tendsto valid_ex1 ?_ valid_ex1).2
  have := hasDerivAt_pow 2 ex1.n
  simp only [ex1, UReal.n] at this ⊢
  norm_num at this ⊢
  exact this

/-- a function of two correlated arguments -/
example : ∃ z : ℝ → UReal ℝ, (∀ h, UFun.ubinaryNum (fun s t => s * t) h ex2 ex3 = some (z h) ∧ (z h).n = ex2.n * ex3.n) ∧
    Tendsto (fun h => cov (z h) ex1) (𝓝[≠] 0) (𝓝 (ex3.n * cov ex2 ex1 + ex2.n * cov ex3 ex1)) :=
  C20_ubinary_num_tendsto ⟨valid_ex2, below_ex2⟩ ⟨valid_ex3, below_ex3⟩
    (by simpa using (hasDerivAt_id ex2.n).mul_const ex3.n) (by simpa using (hasDerivAt_id ex3.n).const_mul ex2.n) valid_ex1

example : UFun.defaultStep (1 / 16 : ℝ) 2 = 1 / 2 := by
  rw [C20_default_step (by norm_num), show (1 / 16 : ℝ) = (1 / 2) ^ (4 : ℝ) by norm_num, ← Real.rpow_mul (by norm_num)]
  norm_num

end Unc.Props
