import Verif.Lemmas.NumDiff
import Verif.Lemmas.Units1
import Verif.Props.FloatNum
import Verif.Props.FloatExact
import Verif.Model.Math2
import Mathlib.Analysis.Complex.ExponentialBounds

/-!
# C86: how exact the numerical derivatives are (`uunary(f, step)`, `ubinary(f, step)`, `uunary2`, `ubinary2`)

C64 says that the derivatives approach the exact ones as the format gets finer.  Here are bounds on the errors in a given format and with a given step, and for
`double` with the default step.
-/

namespace Unc.Props
open Unc.Spec UReal FP NumDiff

section
variable {f : Fmt} {u : ℝ} {I : FP f → FP f} {F : ℝ → ℝ} {J : FP f → FP f → FP f} {G : ℝ → ℝ → ℝ} {c B0 B1 ρ : ℝ}

/-- **C86**: `uunary(f, step)` passes to `unary` a mean with the relative error of `f` and a derivative whose error has three parts: the errors of `f` divided by the step, the
rounding of `mu + step` and the terms of second order. -/
theorem C86_forward (ha : Acc f.rd u) (hu : u ≤ 1 / 8) (x : UReal (FP f)) {st : FP f} (hst : 0 < st.val) (hc : 0 ≤ c) (hB : 0 ≤ B1)
    (hI : Fits1 I F c B0 B1 x.n.val ρ) (hρ : st.val + u * (|x.n.val| + st.val) ≤ ρ) {d : ℕ → ℝ} {B2 : ℝ} (hF : Smooth 2 (fun t => F (x.n.val + t)) d B2 st.val) :
    ∃ m e : FP f, UFun.uunaryNum I st x = unary x m e ∧ |m.val - F x.n.val| ≤ c * |F x.n.val| ∧
      |e.val - d 1| ≤ (1 + 4 * u) * ((2 * c * B0 + B1 * (u * (|x.n.val| + st.val)) + B2 * st.val ^ 2 / 2) / st.val) + 4 * u * |d 1| := by
  refine ⟨_, _, rfl, hI.err _ ?_, forward_fp ha hu hst hc hB hI hρ hF⟩
  have := mul_nonneg ha.nonneg (add_nonneg (abs_nonneg x.n.val) hst.le)
  rw [sub_self, abs_zero]; linarith

/-- **C86** for `ubinary(f, step)`. -/
theorem C86_forward2 (ha : Acc f.rd u) (hu : u ≤ 1 / 8) (x y : UReal (FP f)) {st : FP f} (hst : 0 < st.val) (hc : 0 ≤ c) (hB : 0 ≤ B1)
    (hJ : Fits2 J G c B0 B1 x.n.val y.n.val ρ) (hρ : st.val + u * (|x.n.val| + st.val) ≤ ρ) (hρ' : st.val + u * (|y.n.val| + st.val) ≤ ρ)
    {dx dy : ℕ → ℝ} {Bx By : ℝ} (hx : Smooth 2 (fun t => G (x.n.val + t) y.n.val) dx Bx st.val) (hy : Smooth 2 (fun t => G x.n.val (y.n.val + t)) dy By st.val) :
    ∃ m ex ey : FP f, UFun.ubinaryNum J st x y = binary x y m ex ey ∧ |m.val - G x.n.val y.n.val| ≤ c * |G x.n.val y.n.val| ∧
      |ex.val - dx 1| ≤ (1 + 4 * u) * ((2 * c * B0 + B1 * (u * (|x.n.val| + st.val)) + Bx * st.val ^ 2 / 2) / st.val) + 4 * u * |dx 1| ∧
      |ey.val - dy 1| ≤ (1 + 4 * u) * ((2 * c * B0 + B1 * (u * (|y.n.val| + st.val)) + By * st.val ^ 2 / 2) / st.val) + 4 * u * |dy 1| := by
  have hρ0 : 0 ≤ ρ := by
    have := mul_nonneg ha.nonneg (add_nonneg (abs_nonneg x.n.val) hst.le)
    linarith
  refine ⟨_, _, _, rfl, hJ.err _ _ (by simpa using hρ0) (by simpa using hρ0), ?_, ?_⟩
  · exact forward_fp ha hu hst hc hB (near2_left hJ hρ0 (z := y.n) rfl) hρ hx
  · exact forward_fp ha hu hst hc hB (near2_right hJ hρ0 (y := x.n) rfl) hρ' hy

/-- **C86** for `uunary2(f, step)`: both derivatives with central differences. -/
theorem C86_central (ha : Acc f.rd u) (hu : u ≤ 1 / 8) (h2 : TwoScaled f) (mo : Moments (FP f)) (x : UReal2 (FP f)) {st : FP f} (hst : 0 < st.val) (hc : 0 ≤ c) (hB : 0 ≤ B1)
    (hI : Fits1 I F c B0 B1 x.mu.val ρ) (hρ : st.val + u * (|x.mu.val| + st.val) ≤ ρ) {d d' : ℕ → ℝ} {B3 B4 : ℝ}
    (hF : Smooth 3 (fun t => F (x.mu.val + t)) d B3 st.val) (hF' : Smooth 4 (fun t => F (x.mu.val + t)) d' B4 st.val) :
    ∃ m e e' : FP f, UFun2.uunary2Num mo I st x = UReal2.unary mo x m e e' ∧ |m.val - F x.mu.val| ≤ c * |F x.mu.val| ∧
      |e.val - d 1| ≤ (1 + 4 * u) * ((2 * c * B0 + 2 * B1 * (u * (|x.mu.val| + st.val)) + B3 * st.val ^ 3 / 3) / (2 * st.val)) + 4 * u * |d 1| ∧
      |e'.val - d' 2| ≤ (1 + 4 * u) * ((4 * c * B0 + 2 * u * ((1 + c) * B0) + 2 * B1 * (u * (|x.mu.val| + st.val)) + B4 * st.val ^ 4 / 12) / st.val ^ 2) +
        4 * u * |d' 2| := by
  refine ⟨_, _, _, rfl, hI.err _ ?_, central_fp ha hu h2 hst hc hB hI hρ hF, second_fp ha hu h2 hst hc hB hI hρ hF'⟩
  have := mul_nonneg ha.nonneg (add_nonneg (abs_nonneg x.mu.val) hst.le)
  rw [sub_self, abs_zero]; linarith

/-- **C86** for `uunary2(f, dfdx, step)`: the second derivative is the forward difference of the first, given as a function. -/
theorem C86_fwd (ha : Acc f.rd u) (hu : u ≤ 1 / 8) (mo : Moments (FP f)) (x : UReal2 (FP f)) {st : FP f} (hst : 0 < st.val) (hc : 0 ≤ c) (hB : 0 ≤ B1) (I0 : FP f → FP f)
    (hI : Fits1 I F c B0 B1 x.mu.val ρ) (hρ : st.val + u * (|x.mu.val| + st.val) ≤ ρ) {d : ℕ → ℝ} {B2 : ℝ} (hF : Smooth 2 (fun t => F (x.mu.val + t)) d B2 st.val) :
    ∃ e e' : FP f, UFun2.uunary2Fwd mo I0 I st x = UReal2.unary mo x (I0 x.mu) e e' ∧ |e.val - F x.mu.val| ≤ c * |F x.mu.val| ∧
      |e'.val - d 1| ≤ (1 + 4 * u) * ((2 * c * B0 + B1 * (u * (|x.mu.val| + st.val)) + B2 * st.val ^ 2 / 2) / st.val) + 4 * u * |d 1| := by
  refine ⟨_, _, rfl, hI.err _ ?_, forward_fp ha hu hst hc hB hI hρ hF⟩
  have := mul_nonneg ha.nonneg (add_nonneg (abs_nonneg x.mu.val) hst.le)
  rw [sub_self, abs_zero]; linarith

/-- **C86** for `ubinary2(f, dfdx, dfdy, step)`.  `G` and `H` are the derivatives in the first and second argument. -/
theorem C86_fwd2 (ha : Acc f.rd u) (hu : u ≤ 1 / 8) (mo : Moments (FP f)) (x y : UReal2 (FP f)) {st : FP f} (hst : 0 < st.val) (hc : 0 ≤ c) (hB : 0 ≤ B1)
    (J0 : FP f → FP f → FP f) {K : FP f → FP f → FP f} {H : ℝ → ℝ → ℝ} (hJ : Fits2 J G c B0 B1 x.mu.val y.mu.val ρ) (hK : Fits2 K H c B0 B1 x.mu.val y.mu.val ρ)
    (hρ : st.val + u * (|x.mu.val| + st.val) ≤ ρ) (hρ' : st.val + u * (|y.mu.val| + st.val) ≤ ρ) {dx dy dm : ℕ → ℝ} {B2 : ℝ}
    (hx : Smooth 2 (fun t => G (x.mu.val + t) y.mu.val) dx B2 st.val) (hy : Smooth 2 (fun t => H x.mu.val (y.mu.val + t)) dy B2 st.val)
    (hm : Smooth 2 (fun t => G x.mu.val (y.mu.val + t)) dm B2 st.val) :
    ∃ ex ey exx eyy exy : FP f, UFun2.ubinary2Fwd mo J0 J K st x y = UReal2.binary mo x y (J0 x.mu y.mu) ex ey exx eyy exy ∧
      |ex.val - G x.mu.val y.mu.val| ≤ c * |G x.mu.val y.mu.val| ∧ |ey.val - H x.mu.val y.mu.val| ≤ c * |H x.mu.val y.mu.val| ∧
      |exx.val - dx 1| ≤ (1 + 4 * u) * ((2 * c * B0 + B1 * (u * (|x.mu.val| + st.val)) + B2 * st.val ^ 2 / 2) / st.val) + 4 * u * |dx 1| ∧
      |eyy.val - dy 1| ≤ (1 + 4 * u) * ((2 * c * B0 + B1 * (u * (|y.mu.val| + st.val)) + B2 * st.val ^ 2 / 2) / st.val) + 4 * u * |dy 1| ∧
      |exy.val - dm 1| ≤ (1 + 4 * u) * ((2 * c * B0 + B1 * (u * (|y.mu.val| + st.val)) + B2 * st.val ^ 2 / 2) / st.val) + 4 * u * |dm 1| := by
  have hρ0 : 0 ≤ ρ := by
    have := mul_nonneg ha.nonneg (add_nonneg (abs_nonneg x.mu.val) hst.le)
    linarith
  refine ⟨_, _, _, _, _, rfl, hJ.err _ _ (by simpa using hρ0) (by simpa using hρ0), hK.err _ _ (by simpa using hρ0) (by simpa using hρ0), ?_, ?_, ?_⟩
  · exact forward_fp ha hu hst hc hB (near2_left hJ hρ0 (z := y.mu) rfl) hρ hx
  · exact forward_fp ha hu hst hc hB (near2_right hK hρ0 (y := x.mu) rfl) hρ' hy
  · exact forward_fp ha hu hst hc hB (near2_right hJ hρ0 (y := x.mu) rfl) hρ' hm

/-- **C86** for `ubinary2(f, step)`.  The mixed derivative `s` is defined by the second derivative along the diagonal, `d² G(x + t, y + t) / dt² = Gxx + 2 s + Gyy`. -/
theorem C86_central2 (ha : Acc f.rd u) (hu : u ≤ 1 / 8) (h2 : TwoScaled f) (mo : Moments (FP f)) (x y : UReal2 (FP f)) {st : FP f} (hst : 0 < st.val) (hc : 0 ≤ c) (hB0 : 0 ≤ B0)
    (hB : 0 ≤ B1) (hJ : Fits2 J G c B0 B1 x.mu.val y.mu.val ρ) (hρ : st.val + u * (|x.mu.val| + st.val) ≤ ρ) (hρ' : st.val + u * (|y.mu.val| + st.val) ≤ ρ)
    {px py dx dy dd : ℕ → ℝ} {B3 Bx By Bd s : ℝ} (hpx : Smooth 3 (fun t => G (x.mu.val + t) y.mu.val) px B3 st.val) (hpy : Smooth 3 (fun t => G x.mu.val (y.mu.val + t)) py B3 st.val)
    (hx : Smooth 4 (fun t => G (x.mu.val + t) y.mu.val) dx Bx st.val) (hy : Smooth 4 (fun t => G x.mu.val (y.mu.val + t)) dy By st.val)
    (hd : Smooth 4 (fun t => G (x.mu.val + t) (y.mu.val + t)) dd Bd st.val) (hs : dd 2 = dx 2 + 2 * s + dy 2) :
    ∃ m ex ey exx eyy exy : FP f, UFun2.ubinary2Num mo J st x y = UReal2.binary mo x y m ex ey exx eyy exy ∧ |m.val - G x.mu.val y.mu.val| ≤ c * |G x.mu.val y.mu.val| ∧
      |ex.val - px 1| ≤ (1 + 4 * u) * ((2 * c * B0 + 2 * B1 * (u * (|x.mu.val| + st.val)) + B3 * st.val ^ 3 / 3) / (2 * st.val)) + 4 * u * |px 1| ∧
      |ey.val - py 1| ≤ (1 + 4 * u) * ((2 * c * B0 + 2 * B1 * (u * (|y.mu.val| + st.val)) + B3 * st.val ^ 3 / 3) / (2 * st.val)) + 4 * u * |py 1| ∧
      |exx.val - dx 2| ≤ (1 + 4 * u) * ((4 * c * B0 + 2 * u * ((1 + c) * B0) + 2 * B1 * (u * (|x.mu.val| + st.val)) + Bx * st.val ^ 4 / 12) / st.val ^ 2) + 4 * u * |dx 2| ∧
      |eyy.val - dy 2| ≤ (1 + 4 * u) * ((4 * c * B0 + 2 * u * ((1 + c) * B0) + 2 * B1 * (u * (|y.mu.val| + st.val)) + By * st.val ^ 4 / 12) / st.val ^ 2) + 4 * u * |dy 2| ∧
      |exy.val - s| ≤ (1 + 4 * u) * ((8 * c * B0 + 18 * u * ((1 + c) * B0) + 4 * B1 * (u * (|x.mu.val| + st.val) + u * (|y.mu.val| + st.val)) +
        (Bd + Bx + By) * st.val ^ 4 / 12) / (2 * st.val ^ 2)) + 4 * u * |s| := by
  have hρ0 : 0 ≤ ρ := by
    have := mul_nonneg ha.nonneg (add_nonneg (abs_nonneg x.mu.val) hst.le)
    linarith
  have hl := near2_left hJ hρ0 (z := y.mu) rfl
  have hr := near2_right hJ hρ0 (y := x.mu) rfl
  exact ⟨_, _, _, _, _, _, rfl, hJ.err _ _ (by simpa using hρ0) (by simpa using hρ0), central_fp ha hu h2 hst hc hB hl hρ hpx, central_fp ha hu h2 hst hc hB hr hρ' hpy,
    second_fp ha hu h2 hst hc hB hl hρ hx, second_fp ha hu h2 hst hc hB hr hρ' hy, mixed_fp ha hu h2 hst hc hB0 hB hJ hρ hρ' hx hy hd hs⟩

end

/-! ## `double` with the default step -/

/-- the default step of second order in `double` -/
noncomputable def stepD2 : FP binary64 := UFun.defaultStep (epsFP 53 (by norm_num)) 2

theorem stepD2_val : stepD2.val = 1 / 2 ^ 13 := by
  have h2 : Real.sqrt (1 / 2 ^ 26) = 1 / 2 ^ 13 := by
    rw [show (1 / 2 ^ 26 : ℝ) = (1 / 2 ^ 13) ^ 2 by norm_num, Real.sqrt_sq (by norm_num)]
  show binary64.rd (Real.sqrt stepD.val) = _
  rw [stepD_val, h2, bits_val _ (-13) (2 ^ 52) (by norm_num) (by norm_num) (by norm_num) (by norm_num)]
  norm_num

section
variable {I : FP binary64 → FP binary64} {F : ℝ → ℝ} {J : FP binary64 → FP binary64 → FP binary64} {G : ℝ → ℝ → ℝ} {c B0 B1 ρ : ℝ}

theorem smooth_nonneg {n : ℕ} {g : ℝ → ℝ} {d : ℕ → ℝ} {B h : ℝ} (hg : Smooth n g d B h) (hh : 0 ≤ h) : 0 ≤ B := by
  obtain ⟨D, -, -, -, h3⟩ := hg
  exact (abs_nonneg _).trans (h3 0 (by simpa using hh))

theorem near1_nonneg {f : Fmt} {I : FP f → FP f} {a : ℝ} (h : Fits1 I F c B0 B1 a ρ) (hρ : 0 ≤ ρ) : 0 ≤ B0 := (abs_nonneg _).trans (h.bound a (by simpa using hρ))

theorem forward_double {n : FP binary64} (hc : 0 ≤ c) (hc' : c ≤ 1 / 2 ^ 52) (hB : 0 ≤ B1) (hI : Fits1 I F c B0 B1 n.val ρ)
    (hρ : 1 / 2 ^ 26 + 1 / 2 ^ 53 * (|n.val| + 1 / 2 ^ 26) ≤ ρ) {d : ℕ → ℝ} {B2 : ℝ} (hF : Smooth 2 (fun t => F (n.val + t)) d B2 (1 / 2 ^ 26)) :
    |((I (n + stepD) - I n) / stepD).val - d 1| ≤ 1 / 2 ^ 24 * B0 + 1 / 2 ^ 26 * (|n.val| + 1) * B1 + 1 / 2 ^ 26 * B2 + 1 / 2 ^ 51 * |d 1| := by
  have hs := stepD_val
  have h0 : 0 ≤ B0 := near1_nonneg hI (by
    have := abs_nonneg n.val
    linarith)
  have hb2 := smooth_nonneg hF (by norm_num)
  have := forward_fp acc_double (by norm_num) (st := stepD) (by rw [hs]; norm_num) hc hB hI (by rw [hs]; norm_num at hρ ⊢; linarith) (by rw [hs]; exact hF)
  rw [hs] at this
  refine this.trans ?_
  have a0 := abs_nonneg n.val
  have cB : c * B0 ≤ 1 / 2 ^ 52 * B0 := mul_le_mul_of_nonneg_right hc' h0
  have aB : 0 ≤ |n.val| * B1 := mul_nonneg a0 hB
  have d0 := abs_nonneg (d 1)
  norm_num at *
  nlinarith

/-- **C86**: `uunary(f)` in `double` with the default step `2⁻²⁶`, for a function correct to 1 ulp.  `B0`, `B1`, `B2` bound the function and its derivatives near the mean: the error of
the derivative is about `2⁻²⁴` in units of these. -/
theorem C86_forward_double (hc : 0 ≤ c) (hc' : c ≤ 1 / 2 ^ 52) (hB : 0 ≤ B1) (x : UReal (FP binary64)) (hI : Fits1 I F c B0 B1 x.n.val ρ)
    (hρ : 1 / 2 ^ 26 + 1 / 2 ^ 53 * (|x.n.val| + 1 / 2 ^ 26) ≤ ρ) {d : ℕ → ℝ} {B2 : ℝ} (hF : Smooth 2 (fun t => F (x.n.val + t)) d B2 (1 / 2 ^ 26)) :
    ∀ i, |((UFun.uunaryNum I stepD x).coef i).val - d 1 * (x.coef i).val| ≤
      (1 / 2 ^ 23 * B0 + 1 / 2 ^ 25 * (|x.n.val| + 1) * B1 + 1 / 2 ^ 25 * B2 + 1 / 2 ^ 50 * |d 1|) * |(x.coef i).val| := by
  intro i
  have h := forward_double hc hc' hB hI hρ hF
  have e : (UFun.uunaryNum I stepD x).coef i = x.coef i * ((I (x.n + stepD) - I x.n) / stepD) := fp_coef_unary x _ _ i
  rw [e, val_mul]
  have h0 : 0 ≤ B0 := near1_nonneg hI (by
    have := abs_nonneg x.n.val
    linarith)
  have hb2 := smooth_nonneg hF (by norm_num)
  generalize ((I (x.n + stepD) - I x.n) / stepD).val = q at *
  generalize (x.coef i).val = k at *
  have a0 := abs_nonneg x.n.val
  have aB : 0 ≤ (|x.n.val| + 1) * B1 := mul_nonneg (by linarith) hB
  have d0 := abs_nonneg (d 1)
  generalize hE : 1 / 2 ^ 24 * B0 + 1 / 2 ^ 26 * (|x.n.val| + 1) * B1 + 1 / 2 ^ 26 * B2 + 1 / 2 ^ 51 * |d 1| = E at h
  have hE0 : 0 ≤ E := (abs_nonneg _).trans h
  have q1 : |q| ≤ |d 1| + E := by have := abs_sub_abs_le_abs_sub q (d 1); linarith
  have r := acc_double.err (k * q)
  have t1 := abs_sub_le (binary64.rd (k * q)) (k * q) (d 1 * k)
  have t2 : |k * q - d 1 * k| = |q - d 1| * |k| := by rw [← abs_mul]; congr 1; ring
  have t3 : |k * q| ≤ (|d 1| + E) * |k| := by rw [abs_mul, mul_comm]; exact mul_le_mul_of_nonneg_right q1 (abs_nonneg _)
  have t4 := mul_le_mul_of_nonneg_right h (abs_nonneg k)
  have t5 : |binary64.rd (k * q) - d 1 * k| ≤ ((1 / 2) ^ 53 * (|d 1| + E) + E) * |k| := by
    have := mul_le_mul_of_nonneg_left t3 (show (0 : ℝ) ≤ (1 / 2) ^ 53 by norm_num)
    rw [t2] at t1
    linarith
  refine t5.trans (mul_le_mul_of_nonneg_right ?_ (abs_nonneg _))
  rw [← hE]
  norm_num
  nlinarith

theorem central_double {n : FP binary64} (hc : 0 ≤ c) (hc' : c ≤ 1 / 2 ^ 52) (hB : 0 ≤ B1) (hI : Fits1 I F c B0 B1 n.val ρ)
    (hρ : 1 / 2 ^ 13 + 1 / 2 ^ 53 * (|n.val| + 1 / 2 ^ 13) ≤ ρ) {d d' : ℕ → ℝ} {B3 B4 : ℝ} (hF : Smooth 3 (fun t => F (n.val + t)) d B3 (1 / 2 ^ 13))
    (hF' : Smooth 4 (fun t => F (n.val + t)) d' B4 (1 / 2 ^ 13)) :
    |((I (n + stepD2) - I (n - stepD2)) / (Mom.lit 2 * stepD2)).val - d 1| ≤ 1 / 2 ^ 38 * B0 + 1 / 2 ^ 39 * (|n.val| + 1) * B1 + 1 / 2 ^ 28 * B3 + 1 / 2 ^ 51 * |d 1| ∧
    |((I (n + stepD2) + I (n - stepD2) - Mom.lit 2 * I n) / (stepD2 * stepD2)).val - d' 2| ≤
      1 / 2 ^ 23 * B0 + 1 / 2 ^ 25 * (|n.val| + 1) * B1 + 1 / 2 ^ 29 * B4 + 1 / 2 ^ 51 * |d' 2| := by
  have hs := stepD2_val
  have h0 : 0 ≤ B0 := near1_nonneg hI (by
    have := abs_nonneg n.val
    linarith)
  have hb3 := smooth_nonneg hF (by norm_num)
  have hb4 := smooth_nonneg hF' (by norm_num)
  have hst : 0 < stepD2.val := by rw [hs]; norm_num
  have hρ2 : stepD2.val + (1 / 2) ^ 53 * (|n.val| + stepD2.val) ≤ ρ := by rw [hs]; norm_num at hρ ⊢; linarith
  have t1 := central_fp acc_double (by norm_num) (bits_two _) hst hc hB hI hρ2 (by rw [hs]; exact hF)
  have t2 := second_fp acc_double (by norm_num) (bits_two _) hst hc hB hI hρ2 (by rw [hs]; exact hF')
  rw [hs] at t1 t2
  have a0 := abs_nonneg n.val
  have cB : c * B0 ≤ 1 / 2 ^ 52 * B0 := mul_le_mul_of_nonneg_right hc' h0
  have aB : 0 ≤ |n.val| * B1 := mul_nonneg a0 hB
  have d0 := abs_nonneg (d 1)
  have d0' := abs_nonneg (d' 2)
  refine ⟨t1.trans ?_, t2.trans ?_⟩
  · clear t1 t2
    norm_num at *
    nlinarith
  · clear t1 t2
    norm_num at *
    nlinarith

/-- **C86**: `uunary2(f)` in `double` with the default step `2⁻¹³`.  The first derivative has errors of about `2⁻²⁸`, mostly from the third derivative; the second about `2⁻²³`, mostly
from the errors of `f`. -/
theorem C86_central_double (hc : 0 ≤ c) (hc' : c ≤ 1 / 2 ^ 52) (hB : 0 ≤ B1) (mo : Moments (FP binary64)) (x : UReal2 (FP binary64)) (hI : Fits1 I F c B0 B1 x.mu.val ρ)
    (hρ : 1 / 2 ^ 13 + 1 / 2 ^ 53 * (|x.mu.val| + 1 / 2 ^ 13) ≤ ρ) {d d' : ℕ → ℝ} {B3 B4 : ℝ} (hF : Smooth 3 (fun t => F (x.mu.val + t)) d B3 (1 / 2 ^ 13))
    (hF' : Smooth 4 (fun t => F (x.mu.val + t)) d' B4 (1 / 2 ^ 13)) :
    ∃ m e e' : FP binary64, UFun2.uunary2Num mo I stepD2 x = UReal2.unary mo x m e e' ∧ |m.val - F x.mu.val| ≤ c * |F x.mu.val| ∧
      |e.val - d 1| ≤ 1 / 2 ^ 38 * B0 + 1 / 2 ^ 39 * (|x.mu.val| + 1) * B1 + 1 / 2 ^ 28 * B3 + 1 / 2 ^ 51 * |d 1| ∧
      |e'.val - d' 2| ≤ 1 / 2 ^ 23 * B0 + 1 / 2 ^ 25 * (|x.mu.val| + 1) * B1 + 1 / 2 ^ 29 * B4 + 1 / 2 ^ 51 * |d' 2| := by
  refine ⟨_, _, _, rfl, hI.err _ ?_, central_double hc hc' hB hI hρ hF hF'⟩
  have := abs_nonneg x.mu.val
  rw [sub_self, abs_zero]; linarith

end

/-! ## what fails -/

/-- **C86**, the bounds are needed: the errors are relative to the function, not to its change.  `F(t) = 2⁶⁰ + t`, correctly rounded, has derivative 1, but in `double` with the default
step the derivative at 1 is found to be 0 and the result has no uncertainty. -/
theorem C86_offset_false : ∃ I : FP binary64 → FP binary64, (∀ y, I y = FP.round binary64 (2 ^ 60 + y.val)) ∧
    ((UFun.uunaryNum I stepD ⟨1, 1, 1, []⟩).coef 1).val = 0 ∧ (UFun.uunaryNum I stepD ⟨1, 1, 1, []⟩).s.val = 0 := by
  have k : ∀ t : ℝ, 0 ≤ t → t ≤ 2 → binary64.rd (2 ^ 60 + t) = 2 ^ 60 := fun t h1 h2 => by
    rw [bits_val _ 60 (2 ^ 52) (by norm_num; linarith) (by norm_num; linarith) (by norm_num; linarith) (by norm_num; linarith)]
    norm_num
  have h1 : ((1 : FP binary64) + stepD).val ≤ 2 ∧ 0 ≤ ((1 : FP binary64) + stepD).val := by
    have e := acc_double.err ((1 : FP binary64).val + stepD.val)
    rw [val_add, stepD_val, val_one] at *
    rw [abs_of_pos (by norm_num : (0 : ℝ) < 1 + 1 / 2 ^ 26), abs_le] at e
    norm_num at e ⊢
    constructor <;> linarith [e.1, e.2]
  refine ⟨fun y => FP.round binary64 (2 ^ 60 + y.val), fun _ => rfl, ?_⟩
  have e : UFun.uunaryNum (fun y => FP.round binary64 (2 ^ 60 + y.val)) stepD ⟨1, 1, 1, []⟩ = (⟨1, 0, FP.round binary64 (2 ^ 60 + 1), []⟩ : UReal (FP binary64)) := by
    have q : (FP.round binary64 (2 ^ 60 + ((1 : FP binary64) + stepD).val) - FP.round binary64 (2 ^ 60 + (1 : FP binary64).val)) / stepD = 0 := by
      apply FP.ext
      rw [val_div, val_sub]
      show binary64.rd (binary64.rd (binary64.rd (2 ^ 60 + ((1 : FP binary64) + stepD).val) - binary64.rd (2 ^ 60 + (1 : FP binary64).val)) / stepD.val) = _
      rw [k _ h1.2 h1.1, k _ (by rw [val_one]; norm_num) (by rw [val_one]; norm_num), sub_self, Fmt.rd_zero, zero_div, Fmt.rd_zero, val_zero]
    unfold UFun.uunaryNum
    simp only [UReal.n]
    rw [q]
    simp [UReal.unary, fp_mul_comm _ 0, fp_zero_mul, val_one]
  rw [e]
  constructor
  · simp [UReal.coef]
  · simp [UReal.s, CSqrt.abs]

/-! ## examples -/

section

theorem smooth_exp (n : ℕ) (a h : ℝ) : Smooth n (fun t => Real.exp (a + t)) (fun _ => Real.exp a) (Real.exp (a + h)) h := by
  refine ⟨fun _ t => Real.exp (a + t), rfl, fun _ _ t _ => ?_, fun _ _ => by simp, fun t ht => ?_⟩
  · have := (Real.hasDerivAt_exp (a + t)).comp t ((hasDerivAt_id t).const_add a)
    rw [mul_one] at this
    exact this
  · rw [abs_of_pos (Real.exp_pos _)]
    exact Real.exp_le_exp.2 (by linarith [le_abs_self t])

theorem smooth_quad {n : ℕ} (hn : 3 ≤ n) (p q r h : ℝ) : Smooth n (fun t => p + q * t + r * t ^ 2) (fun k => if k = 0 then p else if k = 1 then q else if k = 2 then 2 * r else 0) 0 h := by
  refine ⟨fun k t => if k = 0 then p + q * t + r * t ^ 2 else if k = 1 then q + 2 * r * t else if k = 2 then 2 * r else 0, rfl, fun k _ t _ => ?_, fun k _ => ?_, fun t _ => ?_⟩
  · rcases k with _ | _ | _ | k
    · have := (((hasDerivAt_id t).const_mul q).const_add p).add ((hasDerivAt_pow 2 t).const_mul r)
      convert! this using 1
      simp; ring
    · have := ((hasDerivAt_id t).const_mul (2 * r)).const_add q
      simpa using this
    · simpa using hasDerivAt_const t (2 * r)
    · simpa using hasDerivAt_const t (0 : ℝ)
  · rcases k with _ | _ | _ | k <;> simp
  · have h0 : n ≠ 0 := by omega
    have h1 : n ≠ 1 := by omega
    have h2 : n ≠ 2 := by omega
    simp [h0, h1, h2]

theorem smooth_lin {n : ℕ} (hn : 2 ≤ n) (p q h : ℝ) : Smooth n (fun t => p + q * t) (fun k => if k = 0 then p else if k = 1 then q else 0) 0 h := by
  refine ⟨fun k t => if k = 0 then p + q * t else if k = 1 then q else 0, rfl, fun k _ t _ => ?_, fun k _ => ?_, fun t _ => ?_⟩
  · rcases k with _ | _ | k
    · simpa using ((hasDerivAt_id t).const_mul q).const_add p
    · simpa using hasDerivAt_const t q
    · simpa using hasDerivAt_const t (0 : ℝ)
  · rcases k with _ | _ | k <;> simp
  · have h0 : n ≠ 0 := by omega
    have h1 : n ≠ 1 := by omega
    simp [h0, h1]

/-- the exponential, correctly rounded, within 1 of 0 -/
theorem near_exp : Fits1 (f := binary64) (fun y => FP.round binary64 (Real.exp y.val)) Real.exp ((1 / 2) ^ 53) 3 3 0 1 := by
  have b : ∀ t : ℝ, |t - 0| ≤ 1 → Real.exp t ≤ 3 := fun t ht => by
    rw [sub_zero, abs_le] at ht
    exact (Real.exp_le_exp.2 ht.2).trans Real.exp_one_lt_three.le
  have l : ∀ s t : ℝ, |s - 0| ≤ 1 → t ≤ s → Real.exp s - Real.exp t ≤ 3 * (s - t) := fun s t hs hts => by
    have h1 := Real.add_one_le_exp (t - s)
    have h2 : Real.exp t = Real.exp s * Real.exp (t - s) := by rw [← Real.exp_add]; congr 1; ring
    have h3 := Real.exp_pos s
    have h4 := b s hs
    rw [h2]
    nlinarith
  refine ⟨fun y _ => acc_double.err _, fun t ht => by rw [abs_of_pos (Real.exp_pos t)]; exact b t ht, fun s t hs ht => ?_⟩
  rcases le_total t s with h | h
  · rw [abs_of_nonneg (sub_nonneg.2 (Real.exp_le_exp.2 h)), abs_of_nonneg (sub_nonneg.2 h)]
    exact l s t hs h
  · rw [abs_sub_comm, abs_sub_comm s t, abs_of_nonneg (sub_nonneg.2 (Real.exp_le_exp.2 h)), abs_of_nonneg (sub_nonneg.2 h)]
    exact l t s ht h

/-- 3 and 5 as `double`s -/
noncomputable def numThree : FP binary64 := ⟨3, rep_double 1 (3 * 2 ^ 51) (by norm_num) (by norm_num) (by norm_num)⟩
noncomputable def numFive : FP binary64 := ⟨5, rep_double 2 (5 * 2 ^ 50) (by norm_num) (by norm_num) (by norm_num)⟩

/-- the product near 3 and 5 -/
theorem near_mul : Fits2 (f := binary64) (fun y z => y * z) (fun s t => s * t) ((1 / 2) ^ 53) 24 6 3 5 1 := by
  refine ⟨fun y z _ _ => by rw [val_mul]; exact acc_double.err _, fun s t hs ht => ?_, fun s t s' t' hs ht hs' ht' => ?_⟩
  · rw [abs_mul]
    have h1 : |s| ≤ 4 := by rw [abs_le] at *; constructor <;> linarith [hs.1, hs.2]
    have h2 : |t| ≤ 6 := by rw [abs_le] at *; constructor <;> linarith [ht.1, ht.2]
    calc |s| * |t| ≤ 4 * 6 := mul_le_mul h1 h2 (abs_nonneg _) (by norm_num)
      _ = 24 := by norm_num
  · have h1 : |s'| ≤ 6 := by rw [abs_le] at *; constructor <;> linarith [hs'.1, hs'.2]
    have h2 : |t| ≤ 6 := by rw [abs_le] at *; constructor <;> linarith [ht.1, ht.2]
    have e : s * t - s' * t' = (s - s') * t + s' * (t - t') := by ring
    rw [e]
    refine (abs_add_le _ _).trans ?_
    rw [abs_mul, abs_mul]
    nlinarith [abs_nonneg (s - s'), abs_nonneg (t - t')]

/-- its derivatives -/
theorem near_dx : Fits2 (f := binary64) (fun _ z => z) (fun _ t => t) 0 6 1 3 5 1 := by
  refine ⟨fun y z _ _ => by simp, fun s t hs ht => ?_, fun s t s' t' _ _ _ _ => ?_⟩
  · rw [abs_le] at *; constructor <;> linarith [ht.1, ht.2]
  · linarith [abs_nonneg (s - s')]
theorem near_dy : Fits2 (f := binary64) (fun y _ => y) (fun s _ => s) 0 6 1 3 5 1 := by
  refine ⟨fun y z _ _ => by simp, fun s t hs ht => ?_, fun s t s' t' _ _ _ _ => ?_⟩
  · rw [abs_le] at *; constructor <;> linarith [hs.1, hs.2]
  · linarith [abs_nonneg (t - t')]

/-- `uunary(exp)` of 0 ± 1: the uncertainty is 1 up to `2⁻²⁰` -/
example : |((UFun.uunaryNum (fun y => FP.round binary64 (Real.exp y.val)) stepD ⟨1, 1, 0, []⟩).coef 1).val - 1| ≤ 1 / 2 ^ 20 := by
  have h := C86_forward_double (c := (1 / 2) ^ 53) (by norm_num) (by norm_num) (by norm_num) ⟨1, 1, 0, []⟩ near_exp
    (by show 1 / 2 ^ 26 + 1 / 2 ^ 53 * (|(0 : ℝ)| + 1 / 2 ^ 26) ≤ (1 : ℝ); norm_num) (smooth_exp 2 0 (1 / 2 ^ 26)) 1
  have e1 : ((⟨1, 1, 0, []⟩ : UReal (FP binary64)).coef 1).val = 1 := by simp [UReal.coef]
  have e2 : (⟨1, 1, 0, []⟩ : UReal (FP binary64)).n.val = 0 := rfl
  rw [e1, e2] at h
  have b : Real.exp (0 + 1 / 2 ^ 26) ≤ 3 :=
    (Real.exp_le_exp.2 (show _ ≤ (1 : ℝ) by norm_num)).trans Real.exp_one_lt_three.le
  simp only [Real.exp_zero, abs_one, abs_zero, mul_one] at h
  refine h.trans ?_
  norm_num at b ⊢
  linarith

/-- the general bound for it -/
example : ∃ m e : FP binary64, UFun.uunaryNum (fun y => FP.round binary64 (Real.exp y.val)) stepD ⟨1, 1, 0, []⟩ = unary ⟨1, 1, 0, []⟩ m e ∧ |m.val - 1| ≤ (1 / 2) ^ 53 := by
  obtain ⟨m, e, h, hm, -⟩ := C86_forward acc_double (by norm_num) ⟨1, 1, 0, []⟩ (st := stepD) (by rw [stepD_val]; norm_num) (by norm_num) (by norm_num) near_exp
    (by rw [stepD_val]; show 1 / 2 ^ 26 + (1 / 2) ^ 53 * (|(0 : ℝ)| + 1 / 2 ^ 26) ≤ (1 : ℝ); norm_num) (smooth_exp 2 0 stepD.val)
  refine ⟨m, e, h, ?_⟩
  have e2 : (⟨1, 1, 0, []⟩ : UReal (FP binary64)).n.val = 0 := rfl
  rw [e2, Real.exp_zero, abs_one, mul_one] at hm
  exact hm

/-- `ubinary` of the product of 3 and 5 -/
example : ∃ m ex ey : FP binary64, UFun.ubinaryNum (fun y z => y * z) stepD ⟨1, 1, numThree, []⟩ ⟨2, 1, numFive, []⟩ = binary ⟨1, 1, numThree, []⟩ ⟨2, 1, numFive, []⟩ m ex ey ∧
    |ex.val - 5| ≤ 1 / 2 ^ 20 ∧ |ey.val - 3| ≤ 1 / 2 ^ 20 := by
  have hx : Smooth 2 (fun t => (numThree.val + t) * numFive.val) (fun k => if k = 0 then 15 else if k = 1 then 5 else 0) 0 stepD.val := by
    convert! smooth_lin (n := 2) (by norm_num) 15 5 stepD.val using 2
    show (3 + _) * (5 : ℝ) = _; ring
  have hy : Smooth 2 (fun t => numThree.val * (numFive.val + t)) (fun k => if k = 0 then 15 else if k = 1 then 3 else 0) 0 stepD.val := by
    convert! smooth_lin (n := 2) (by norm_num) 15 3 stepD.val using 2
    show (3 : ℝ) * (5 + _) = _; ring
  have hs := stepD_val
  obtain ⟨m, ex, ey, h, -, h1, h2⟩ := C86_forward2 acc_double (by norm_num) ⟨1, 1, numThree, []⟩ ⟨2, 1, numFive, []⟩ (st := stepD) (by rw [hs]; norm_num) (by norm_num) (by norm_num) near_mul
    (by rw [hs]; show 1 / 2 ^ 26 + (1 / 2) ^ 53 * (|(3 : ℝ)| + 1 / 2 ^ 26) ≤ (1 : ℝ); norm_num [abs_of_pos])
    (by rw [hs]; show 1 / 2 ^ 26 + (1 / 2) ^ 53 * (|(5 : ℝ)| + 1 / 2 ^ 26) ≤ (1 : ℝ); norm_num [abs_of_pos]) hx hy
  refine ⟨m, ex, ey, h, ?_, ?_⟩
  · have e : (⟨1, 1, numThree, []⟩ : UReal (FP binary64)).n.val = 3 := rfl
    rw [e, hs] at h1
    simp only [one_ne_zero, if_false, if_true] at h1
    refine h1.trans ?_
    norm_num [abs_of_pos]
  · have e : (⟨2, 1, numFive, []⟩ : UReal (FP binary64)).n.val = 5 := rfl
    rw [e, hs] at h2
    simp only [one_ne_zero, if_false, if_true] at h2
    refine h2.trans ?_
    norm_num [abs_of_pos]

/-- `uunary2(exp)` of 0: both derivatives are 1 -/
example (mo : Moments (FP binary64)) (hg : HessGrad (FP binary64)) : ∃ m e e' : FP binary64,
    UFun2.uunary2Num mo (fun y => FP.round binary64 (Real.exp y.val)) stepD2 ⟨hg, 0⟩ = UReal2.unary mo ⟨hg, 0⟩ m e e' ∧ |e.val - 1| ≤ 1 / 2 ^ 26 ∧ |e'.val - 1| ≤ 1 / 2 ^ 20 := by
  obtain ⟨m, e, e', h, -, h1, h2⟩ := C86_central_double (c := (1 / 2) ^ 53) (by norm_num) (by norm_num) (by norm_num) mo ⟨hg, 0⟩ near_exp
    (by show 1 / 2 ^ 13 + 1 / 2 ^ 53 * (|(0 : ℝ)| + 1 / 2 ^ 13) ≤ (1 : ℝ); norm_num) (smooth_exp 3 0 (1 / 2 ^ 13)) (smooth_exp 4 0 (1 / 2 ^ 13))
  have b : Real.exp (0 + 1 / 2 ^ 13) ≤ 3 :=
    (Real.exp_le_exp.2 (show _ ≤ (1 : ℝ) by norm_num)).trans Real.exp_one_lt_three.le
  have e2 : (⟨hg, 0⟩ : UReal2 (FP binary64)).mu.val = 0 := rfl
  rw [e2] at h1 h2
  simp only [Real.exp_zero, abs_one, abs_zero, mul_one] at h1 h2
  refine ⟨m, e, e', h, h1.trans ?_, h2.trans ?_⟩ <;> norm_num at b ⊢ <;> linarith

/-- the same with the general theorem, and `uunary2(exp, exp)` -/
example (mo : Moments (FP binary64)) (hg : HessGrad (FP binary64)) : (∃ m e e' : FP binary64,
    UFun2.uunary2Num mo (fun y => FP.round binary64 (Real.exp y.val)) stepD2 ⟨hg, 0⟩ = UReal2.unary mo ⟨hg, 0⟩ m e e' ∧ |m.val - 1| ≤ (1 / 2) ^ 53) ∧
    ∃ e e' : FP binary64, UFun2.uunary2Fwd mo (fun y => FP.round binary64 (Real.exp y.val)) (fun y => FP.round binary64 (Real.exp y.val)) stepD ⟨hg, 0⟩ =
      UReal2.unary mo ⟨hg, 0⟩ (FP.round binary64 (Real.exp 0)) e e' ∧ |e.val - 1| ≤ (1 / 2) ^ 53 := by
  obtain ⟨m, e, e', h, h1, -, -⟩ := C86_central acc_double (by norm_num) (bits_two _) mo ⟨hg, 0⟩ (st := stepD2) (by rw [stepD2_val]; norm_num) (by norm_num) (by norm_num) near_exp
    (by rw [stepD2_val]; show 1 / 2 ^ 13 + (1 / 2) ^ 53 * (|(0 : ℝ)| + 1 / 2 ^ 13) ≤ (1 : ℝ); norm_num) (smooth_exp 3 0 stepD2.val) (smooth_exp 4 0 stepD2.val)
  obtain ⟨d, d', k, k1, -⟩ := C86_fwd acc_double (by norm_num) mo ⟨hg, 0⟩ (st := stepD) (by rw [stepD_val]; norm_num) (by norm_num) (by norm_num)
    (fun y => FP.round binary64 (Real.exp y.val)) near_exp
    (by rw [stepD_val]; show 1 / 2 ^ 26 + (1 / 2) ^ 53 * (|(0 : ℝ)| + 1 / 2 ^ 26) ≤ (1 : ℝ); norm_num) (smooth_exp 2 0 stepD.val)
  have e2 : (⟨hg, 0⟩ : UReal2 (FP binary64)).mu.val = 0 := rfl
  rw [e2, Real.exp_zero, abs_one, mul_one] at h1 k1
  exact ⟨⟨m, e, e', h, h1⟩, d, d', k, k1⟩

/-- `ubinary2` of the product of 3 and 5: the mixed derivative is 1, the second derivatives are 0 -/
example (mo : Moments (FP binary64)) (hg hg' : HessGrad (FP binary64)) : ∃ m ex ey exx eyy exy : FP binary64,
    UFun2.ubinary2Num mo (fun y z => y * z) stepD2 ⟨hg, numThree⟩ ⟨hg', numFive⟩ = UReal2.binary mo ⟨hg, numThree⟩ ⟨hg', numFive⟩ m ex ey exx eyy exy ∧
    |ex.val - 5| ≤ 1 / 2 ^ 30 ∧ |exx.val - 0| ≤ 1 / 2 ^ 15 ∧ |exy.val - 1| ≤ 1 / 2 ^ 15 := by
  have hx : ∀ n, 2 ≤ n → Smooth n (fun t => (numThree.val + t) * numFive.val) (fun k => if k = 0 then 15 else if k = 1 then 5 else 0) 0 stepD2.val := fun n hn => by
    convert! smooth_lin (n := n) hn 15 5 stepD2.val using 2
    show (3 + _) * (5 : ℝ) = _; ring
  have hy : ∀ n, 2 ≤ n → Smooth n (fun t => numThree.val * (numFive.val + t)) (fun k => if k = 0 then 15 else if k = 1 then 3 else 0) 0 stepD2.val := fun n hn => by
    convert! smooth_lin (n := n) hn 15 3 stepD2.val using 2
    show (3 : ℝ) * (5 + _) = _; ring
  have hd : Smooth 4 (fun t => (numThree.val + t) * (numFive.val + t)) (fun k => if k = 0 then 15 else if k = 1 then 8 else if k = 2 then 2 * 1 else 0) 0 stepD2.val := by
    convert! smooth_quad (n := 4) (by norm_num) 15 8 1 stepD2.val using 2
    show (3 + _) * (5 + _ : ℝ) = _; ring
  have hs := stepD2_val
  obtain ⟨m, ex, ey, exx, eyy, exy, h, -, h1, -, h2, -, h3⟩ := C86_central2 acc_double (by norm_num) (bits_two _) mo ⟨hg, numThree⟩ ⟨hg', numFive⟩ (st := stepD2)
    (by rw [hs]; norm_num) (by norm_num) (by norm_num) (by norm_num) near_mul
    (by rw [hs]; show 1 / 2 ^ 13 + (1 / 2) ^ 53 * (|(3 : ℝ)| + 1 / 2 ^ 13) ≤ (1 : ℝ); norm_num [abs_of_pos])
    (by rw [hs]; show 1 / 2 ^ 13 + (1 / 2) ^ 53 * (|(5 : ℝ)| + 1 / 2 ^ 13) ≤ (1 : ℝ); norm_num [abs_of_pos])
    (hx 3 (by norm_num)) (hy 3 (by norm_num)) (hx 4 (by norm_num)) (hy 4 (by norm_num)) hd (s := 1) (by norm_num)
  have e : (⟨hg, numThree⟩ : UReal2 (FP binary64)).mu.val = 3 := rfl
  have e' : (⟨hg', numFive⟩ : UReal2 (FP binary64)).mu.val = 5 := rfl
  rw [e, hs] at h1 h2 h3
  rw [e'] at h3
  simp only [one_ne_zero, two_ne_zero, OfNat.ofNat_ne_one, if_false, if_true] at h1 h2 h3
  refine ⟨m, ex, ey, exx, eyy, exy, h, h1.trans ?_, h2.trans ?_, h3.trans ?_⟩ <;> norm_num [abs_of_pos]

/-- the product with its first derivatives -/
example (mo : Moments (FP binary64)) (hg hg' : HessGrad (FP binary64)) : ∃ ex ey exx eyy exy : FP binary64,
    UFun2.ubinary2Fwd mo (fun y z => y * z) (fun _ z => z) (fun y _ => y) stepD ⟨hg, numThree⟩ ⟨hg', numFive⟩ =
      UReal2.binary mo ⟨hg, numThree⟩ ⟨hg', numFive⟩ (numThree * numFive) ex ey exx eyy exy ∧ |ex.val - 5| ≤ 0 ∧ |exy.val - 1| ≤ 1 / 2 ^ 22 := by
  have hc : ∀ v : ℝ, Smooth 2 (fun _ => v) (fun k => if k = 0 then v else if k = 1 then 0 else 0) 0 stepD.val := fun v => by
    convert! smooth_lin (n := 2) (by norm_num) v 0 stepD.val using 2
    ring
  have hm : Smooth 2 (fun t => numFive.val + t) (fun k => if k = 0 then 5 else if k = 1 then 1 else 0) 0 stepD.val := by
    convert! smooth_lin (n := 2) (by norm_num) 5 1 stepD.val using 2
    show (5 : ℝ) + _ = _; ring
  have hs := stepD_val
  obtain ⟨ex, ey, exx, eyy, exy, h, h1, -, -, -, h2⟩ := C86_fwd2 acc_double (by norm_num) mo ⟨hg, numThree⟩ ⟨hg', numFive⟩ (st := stepD)
    (by rw [hs]; norm_num) (by norm_num) (by norm_num) (fun y z => y * z) near_dx near_dy
    (by rw [hs]; show 1 / 2 ^ 26 + (1 / 2) ^ 53 * (|(3 : ℝ)| + 1 / 2 ^ 26) ≤ (1 : ℝ); norm_num [abs_of_pos])
    (by rw [hs]; show 1 / 2 ^ 26 + (1 / 2) ^ 53 * (|(5 : ℝ)| + 1 / 2 ^ 26) ≤ (1 : ℝ); norm_num [abs_of_pos])
    (hc _) (hc _) hm
  have e' : (⟨hg', numFive⟩ : UReal2 (FP binary64)).mu.val = 5 := rfl
  rw [zero_mul] at h1
  rw [e', hs] at h2
  simp only [one_ne_zero, if_false, if_true] at h2
  exact ⟨ex, ey, exx, eyy, exy, h, h1, h2.trans (by norm_num [abs_of_pos])⟩

end
end Unc.Props
