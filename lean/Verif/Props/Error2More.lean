import Verif.Spec.Error2More
import Verif.Props.Error2Fun
import Verif.Props.Math
import Mathlib.Analysis.Calculus.MeanValue

/-!
# C80: rounding errors of the other functions of one argument
-/

namespace Unc.Props
open Unc.Spec HessGrad SMap Mom FP Tr

variable {f : Fmt} {u : ℝ} {α : Type*} {P : α → Prop}

/-- a correctly rounded function of a computed number -/
theorem Fits_comp (hu : Acc f.rd u) {k : ℕ} {g : ℝ → ℝ} {h : FP f → FP f} {F : α → FP f} {y S L : ℝ} (hh : ∀ x, (h x).val = f.rd (g x.val)) (hF : Fits u P k F y S) (hL : Lip (relErr u k * S) y L g) :
    Fits u P (k + 1) (fun a => h (F a)) (g y) (|g y| + L * S) :=
  C80_function hu (fun a _ => hh (F a)) (mul_nonneg hL.1 ((abs_nonneg _).trans hF.1)) fun a ha => (hL.2 _ (hF.2 a ha)).trans (by
    have := mul_le_mul_of_nonneg_left (hF.2 a ha) hL.1
    linarith)

/-- **C80** The change of a function is bounded by its derivative. -/
theorem C80_lip {e t L : ℝ} {g g' : ℝ → ℝ} (L0 : 0 ≤ L) (hg : ∀ s, |s - t| ≤ e → HasDerivAt g (g' s) s) (hb : ∀ s, |s - t| ≤ e → |g' s| ≤ L) : Lip e t L g := by
  refine ⟨L0, fun s hs => ?_⟩
  have e0 : 0 ≤ e := (abs_nonneg _).trans hs
  have hm : ∀ x, x ∈ Set.Icc (t - e) (t + e) ↔ |x - t| ≤ e := fun x => by rw [abs_le, Set.mem_Icc]; constructor <;> rintro ⟨h1, h2⟩ <;> constructor <;> linarith
  exact (convex_Icc (t - e) (t + e)).norm_image_sub_le_of_norm_hasDerivWithin_le (f := g) (f' := g') (C := L) (fun x hx => (hg x ((hm x).1 hx)).hasDerivWithinAt) (fun x hx => hb x ((hm x).1 hx))
    ((hm t).2 (by simpa using e0)) ((hm s).2 hs)

/-- the square root -/
theorem lip_sqrt {e t : ℝ} (t0 : 0 < t) : Lip e t (1 / Real.sqrt t) Real.sqrt := by
  have r0 := Real.sqrt_pos.2 t0
  refine ⟨by positivity, fun s _ => ?_⟩
  rw [div_mul_eq_mul_div, one_mul, le_div_iff₀ r0]
  have rr := Real.mul_self_sqrt t0.le
  rcases le_or_gt 0 s with h | h
  · have e : (Real.sqrt s - Real.sqrt t) * (Real.sqrt s + Real.sqrt t) = s - t := by nlinarith [Real.mul_self_sqrt h]
    rw [← e, abs_mul, abs_of_nonneg (add_nonneg (Real.sqrt_nonneg s) r0.le)]
    exact mul_le_mul_of_nonneg_left (by linarith [Real.sqrt_nonneg s]) (abs_nonneg _)
  · rw [Real.sqrt_eq_zero_of_nonpos h.le, zero_sub, abs_neg, abs_of_pos r0, rr, abs_of_neg (by linarith)]
    linarith

/-- the logarithm -/
theorem lip_log {e t : ℝ} (t0 : 0 < t) (he : e ≤ t / 2) : Lip e t (2 / t) Real.log := by
  refine C80_lip (g' := fun s => s⁻¹) (by positivity) (fun s hs => ?_) (fun s hs => ?_)
  · have := (abs_le.1 hs).1
    exact Real.hasDerivAt_log (by linarith)
  · have := (abs_le.1 hs).1
    have s0 : 0 < s := by linarith
    rw [abs_of_pos (inv_pos.2 s0), inv_eq_one_div, div_le_div_iff₀ s0 t0]
    linarith

/-- the logarithm of an integer -/
theorem Fits_log (hu : Acc f.rd u) (hh : u ≤ 1 / 2) {n : ℕ} (n0 : 0 < n) : Fits u P 2 (fun _ => CMath.log (lit n : FP f)) (Real.log n) (Real.log n + 2) := by
  have n1 : (0 : ℝ) < n := by exact_mod_cast n0
  have := Fits_comp hu (P := P) (h := fun x => CMath.log x) (g := Real.log) (fun _ => rfl) (Fits_lit hu n) (lip_log n1 (by rw [relErr, pow_one, add_sub_cancel_left]; nlinarith))
  rw [div_mul_cancel₀ _ n1.ne', abs_of_nonneg (Real.log_natCast_nonneg n)] at this
  exact this

/-- two thirds of the theorems -/
theorem fits_lip' (hu : Acc f.rd u) {k : ℕ} {g : ℝ → ℝ} {F : FP f → FP f} {t w L : ℝ} (hF : ∀ x, (F x).val = f.rd (g x.val)) (hw : |t| ≤ w) (hL : Lip (relErr u k * w) t L g) :
    Fits u (Within (relErr u k * w) t) (k + 1) F (g t) (|g t| + L * w) := Fits_comp hu hF (fits_arg hw) hL

/-- **C80** `abs`, away from zero -/
theorem C80_abs (hu : Acc f.rd u) {k : ℕ} {t w : ℝ} (hw : |t| ≤ w) (h : relErr u k * w < |t|) :
    (absFun f w k).Computes UMath2.abs UMath2.abs ∧ (absFun f w k).Good u (relErr u k * w) t := by
  have w0 := (abs_nonneg _).trans hw
  have e0 := mul_nonneg (relErr_nonneg hu k) w0
  refine ⟨⟨fun _ _ => rfl, fun v x => ?_⟩, ⟨by rwa [show (absFun f w k).g t = |t| from rfl, abs_abs], fun a ha => (abs_abs_sub_abs_le a.val t).trans ha⟩, ⟨?_, fun a ha => ?_⟩, ⟨?_, fun a ha => ?_⟩, Or.inl rfl⟩
  · show UReal2.unary v x |x.mu| (if CCmp.leb 0 x.mu = true then 1 else -1) 0 = UReal2.unary v x |x.mu| (if 0 ≤ x.mu then 1 else -1) 0
    by_cases hx : 0 ≤ x.mu <;> simp [hx]
  · show |if 0 ≤ t then (1 : ℝ) else -1| ≤ 1
    split <;> simp
  · show |(if CCmp.leb 0 a = true then (1 : FP f) else -1).val - (if 0 ≤ t then (1 : ℝ) else -1)| ≤ _
    have ha := abs_le.1 (show |a.val - t| ≤ relErr u k * w from ha)
    have hc : CCmp.leb 0 a = true ↔ 0 ≤ a.val := by simp [CCmp.leb]
    have e : (if CCmp.leb 0 a = true then (1 : FP f) else -1).val = if 0 ≤ t then (1 : ℝ) else -1 := by
      rcases le_or_gt 0 t with ht | ht
      · rw [abs_of_nonneg ht] at h
        rw [if_pos (hc.2 (by linarith)), if_pos ht, FP.val_one]
      · rw [abs_of_neg ht] at h
        rw [if_neg (fun h' => by have := hc.1 h'; linarith), if_neg (by linarith), FP.val_neg, FP.val_one]
    rw [e, sub_self, abs_zero]
    exact mul_nonneg (relErr_nonneg hu _) one_pos.le
  · show |(0 : ℝ)| ≤ 0
    simp
  · show |(0 : FP f).val - 0| ≤ _ * (0 : ℝ)
    simp

/-- **C80** `exp2` -/
theorem C80_exp2 (hu : Acc f.rd u) (hh : u ≤ 1 / 2) {k : ℕ} {t w L : ℝ} (hw : |t| ≤ w) (hL : Lip (relErr u k * w) t L (fun s => (2 : ℝ) ^ s))
    (ha : Apart u (k + 7) (exp2Fun f t w L k).S2 ((exp2Fun f t w L k).g2 t)) :
    (exp2Fun f t w L k).Computes UMath2.exp2 UMath2.exp2 ∧ (exp2Fun f t w L k).Good u (relErr u k * w) t := by
  have F := fits_lip' hu (f := f) (F := fun x => CMath.exp2 x) (g := fun s => (2 : ℝ) ^ s) (fun _ => rfl) hw hL
  rw [abs_of_pos (Real.rpow_pos_of_pos two_pos t)] at F
  have C := Fits_log hu (P := Within (f := f) (relErr u k * w) t) hh (n := 2) two_pos
  rw [Nat.cast_ofNat] at C
  have G := Fits_mul hu C F
  have H := Fits_mul hu (Fits_mul hu C C) F
  refine ⟨⟨fun _ _ => rfl, fun v x => ?_⟩, Fits_mono hu F ?_, Fits_mono hu G ?_, Fits_mono hu H ?_, ha⟩
  · show UReal2.unary v x ((2 : ℝ) ^ x.mu) (Real.log ((2 : ℕ) : ℝ) * (2 : ℝ) ^ x.mu) (Real.log ((2 : ℕ) : ℝ) * Real.log ((2 : ℕ) : ℝ) * (2 : ℝ) ^ x.mu) = _
    rw [Nat.cast_ofNat]; rfl
  all_goals
    show _ ≤ k + 7
    omega

/-- **C80** `expm1` -/
theorem C80_expm1 (hu : Acc f.rd u) {k : ℕ} {t w L : ℝ} (hw : |t| ≤ w) (hL : Lip (relErr u k * w) t L Real.exp) (ha : Apart u (k + 1) (expm1Fun f t w L k).S2 (Real.exp t)) :
    (expm1Fun f t w L k).Computes UMath2.expm1 UMath2.expm1 ∧ (expm1Fun f t w L k).Good u (relErr u k * w) t := by
  have F := fits_lip' hu (f := f) (F := fun x => CMath.exp x) (g := Real.exp) (fun _ => rfl) hw hL
  have G := fits_lip' hu (f := f) (F := fun x => CMath.expm1 x) (g := fun s => Real.exp s - 1) (L := L) (fun _ => rfl) hw ⟨hL.1, fun s hs => by
    simpa using hL.2 s hs⟩
  rw [abs_of_pos (Real.exp_pos t)] at F
  exact ⟨⟨fun _ _ => rfl, fun _ _ => rfl⟩, G, F, F, ha⟩

/-- logarithms to the base `b` -/
theorem logb_good (hu : Acc f.rd u) {k b : ℕ} {t w L : ℝ} {F : FP f → FP f} (hF : ∀ x, (F x).val = f.rd (Real.logb b x.val)) (hb : 2 ≤ b) (hh : u ≤ 1 / 2) (hc : relErr u 2 * (Real.log b + 2) ≤ Real.log b / 2)
    (hw : |t| ≤ w) (t0 : t ≠ 0) (h : relErr u (2 * k + 1) * w ^ 2 ≤ t ^ 2 / 2) (hL : Lip (relErr u k * w) t L (Real.logb b)) (ha : Apart u (4 * k + 8) (logbFun f F b t w L k).S2 ((logbFun f F b t w L k).g2 t)) :
    (logbFun f F b t w L k).Good u (relErr u k * w) t := by
  have w0 := (abs_nonneg _).trans hw
  have p : (0 : ℝ) < Real.log b := Real.log_pos (by exact_mod_cast hb)
  have A := fits_arg (f := f) (u := u) (k := k) hw
  have F := fits_lip' hu hF hw hL
  have C := Fits_div hu (Fits_one (P := Within (f := f) (relErr u k * w) t) (u := u)) (Fits_log hu (P := Within (f := f) (relErr u k * w) t) hh (n := b) (by omega)) p.ne' (by rwa [abs_of_pos p])
  rw [one_mul] at C
  have h1 : relErr u k * w ≤ |t| / 2 := half_of_sq (abs_pos.2 t0) hw (relErr_nonneg hu k) (by
    rw [sq_abs]
    exact (mul_le_mul_of_nonneg_right (relErr_mono hu (by omega)) (sq_nonneg _)).trans h)
  have D := Fits_div hu C A t0 h1
  have Q := Fits_div hu (Fits_neg C) (Fits_mul hu A A) (mul_ne_zero t0 t0) (by
    rw [abs_of_nonneg (mul_self_nonneg t), ← pow_two, ← pow_two, show k + k + 1 = 2 * k + 1 by ring]; exact h)
  refine ⟨Fits_mono hu F ?_, Fits_mono hu D ?_, Fits_mono hu Q ?_, ha⟩
  all_goals
    show _ ≤ 4 * k + 8
    omega

/-- **C80** `log10` -/
theorem C80_log10 (hu : Acc f.rd u) {k : ℕ} {t w L : ℝ} (hh : u ≤ 1 / 2) (hc : relErr u 2 * (Real.log (10 : ℕ) + 2) ≤ Real.log (10 : ℕ) / 2)
    (hw : |t| ≤ w) (t0 : t ≠ 0) (h : relErr u (2 * k + 1) * w ^ 2 ≤ t ^ 2 / 2) (hL : Lip (relErr u k * w) t L (Real.logb (10 : ℕ)))
    (ha : Apart u (4 * k + 8) (logbFun f CMath.log10 10 t w L k).S2 ((logbFun f CMath.log10 10 t w L k).g2 t)) :
    (logbFun f CMath.log10 10 t w L k).Computes UMath2.log10 UMath2.log10 ∧ (logbFun f CMath.log10 10 t w L k).Good u (relErr u k * w) t := by
  refine ⟨⟨fun _ _ => rfl, fun v x => ?_⟩, logb_good hu (fun x => ?_) (by norm_num) hh hc hw t0 h hL ha⟩
  · show UReal2.unary v x (Real.logb 10 x.mu) (1 / Real.log ((10 : ℕ) : ℝ) / x.mu) (-(1 / Real.log ((10 : ℕ) : ℝ)) / (x.mu * x.mu)) = UReal2.unary v x (Real.logb ((10 : ℕ) : ℝ) x.mu) _ _
    rw [Nat.cast_ofNat]; rfl
  · rw [Nat.cast_ofNat]; rfl

/-- **C80** `log2` -/
theorem C80_log2 (hu : Acc f.rd u) {k : ℕ} {t w L : ℝ} (hh : u ≤ 1 / 2) (hc : relErr u 2 * (Real.log (2 : ℕ) + 2) ≤ Real.log (2 : ℕ) / 2)
    (hw : |t| ≤ w) (t0 : t ≠ 0) (h : relErr u (2 * k + 1) * w ^ 2 ≤ t ^ 2 / 2) (hL : Lip (relErr u k * w) t L (Real.logb (2 : ℕ)))
    (ha : Apart u (4 * k + 8) (logbFun f CMath.log2 2 t w L k).S2 ((logbFun f CMath.log2 2 t w L k).g2 t)) :
    (logbFun f CMath.log2 2 t w L k).Computes UMath2.log2 UMath2.log2 ∧ (logbFun f CMath.log2 2 t w L k).Good u (relErr u k * w) t := by
  refine ⟨⟨fun _ _ => rfl, fun v x => ?_⟩, logb_good hu (fun x => ?_) (by norm_num) hh hc hw t0 h hL ha⟩
  · show UReal2.unary v x (Real.logb 2 x.mu) (1 / Real.log ((2 : ℕ) : ℝ) / x.mu) (-(1 / Real.log ((2 : ℕ) : ℝ)) / (x.mu * x.mu)) = UReal2.unary v x (Real.logb ((2 : ℕ) : ℝ) x.mu) _ _
    rw [Nat.cast_ofNat]; rfl
  · rw [Nat.cast_ofNat]; rfl

/-- **C80** `log1p` -/
theorem C80_log1p (hu : Acc f.rd u) {k : ℕ} {t w L : ℝ} (hw : |t| ≤ w) (t0 : 1 + t ≠ 0) (h : relErr u (k + 1) * (1 + w) ≤ |1 + t| / 2) (hL : Lip (relErr u k * w) t L (fun s => Real.log (1 + s)))
    (ha : Apart u (4 * k + 7) (log1pFun f t w L k).S2 ((log1pFun f t w L k).g2 t)) :
    (log1pFun f t w L k).Computes UMath2.log1p UMath2.log1p ∧ (log1pFun f t w L k).Good u (relErr u k * w) t := by
  have F := fits_lip' hu (f := f) (F := fun x => CMath.log1p x) (g := fun s => Real.log (1 + s)) (fun _ => rfl) hw hL
  have A := Fits_mono hu (Fits_add hu (Fits_one (P := Within (f := f) (relErr u k * w) t) (u := u)) (fits_arg (f := f) (u := u) (k := k) hw)) (show max 0 k + 1 ≤ k + 1 by omega)
  have I := Fits_div hu (Fits_one (P := Within (f := f) (relErr u k * w) t) (u := u)) A t0 h
  rw [one_mul] at I
  have Q := Fits_mul hu (Fits_neg I) I
  refine ⟨⟨fun _ _ => rfl, fun _ _ => rfl⟩, Fits_mono hu F ?_, Fits_mono hu I ?_, Fits_mono hu Q ?_, ha⟩
  all_goals
    show _ ≤ 4 * k + 7
    omega

/-- **C80** `cbrt` -/
theorem C80_cbrt (hu : Acc f.rd u) {k : ℕ} {t w L : ℝ} (hh : u ≤ 1 / 2) (hw : |t| ≤ w) (t0 : t ≠ 0) (h : relErr u (k + 2) * w ≤ |t| / 2) (hL : Lip (relErr u k * w) t L cbrtR)
    (hc : relErr u (2 * k + 3) * ((|cbrtR t| + L * w) * (|cbrtR t| + L * w)) ≤ cbrtR t * cbrtR t / 2)
    (ha : Apart u (6 * k + 14) (cbrtFun f t w L k).S2 ((cbrtFun f t w L k).g2 t)) :
    (cbrtFun f t w L k).Computes UMath2.cbrt UMath2.cbrt ∧ (cbrtFun f t w L k).Good u (relErr u k * w) t := by
  have F := fits_lip' hu (f := f) (F := fun x => CMath.cbrt x) (g := cbrtR) (fun _ => rfl) hw hL
  have c0 : cbrtR t ≠ 0 := fun h => t0 (by rw [← cbrt_cube t, h]; norm_num)
  have CC := Fits_mul hu F F
  have I := Fits_div hu (Fits_one (P := Within (f := f) (relErr u k * w) t) (u := u)) CC (mul_ne_zero c0 c0) (by
    rw [abs_of_nonneg (mul_self_nonneg (cbrtR t)), show k + 1 + (k + 1) + 1 = 2 * k + 3 by ring]; exact hc)
  rw [one_mul] at I
  have D := Fits_div hu I (Fits_lit hu 3) (by norm_num) (by rw [relErr, pow_one, add_sub_cancel_left]; norm_num; linarith)
  have N := Fits_mul hu (Fits_lit (P := Within (f := f) (relErr u k * w) t) hu 9) (fits_arg (f := f) (u := u) (k := k) hw)
  have E := Fits_div hu (Fits_neg (Fits_lit (P := Within (f := f) (relErr u k * w) t) hu 2)) N (by simpa using t0) (by
    rw [abs_mul, show 1 + k + 1 = k + 2 by ring, Nat.cast_ofNat, abs_of_pos (by norm_num : (0 : ℝ) < 9)]
    linarith)
  have Q := Fits_mul hu E I
  rw [Nat.cast_ofNat] at D
  simp only [Nat.cast_ofNat] at Q
  refine ⟨⟨fun _ _ => rfl, fun v x => ?_⟩, Fits_mono hu F ?_, Fits_mono hu D ?_, Fits_mono hu Q ?_, ha⟩
  · show UReal2.unary v x (cbrtR x.mu) (1 / (cbrtR x.mu * cbrtR x.mu) / ((3 : ℕ) : ℝ)) (-((2 : ℕ) : ℝ) / (((9 : ℕ) : ℝ) * x.mu) * (1 / (cbrtR x.mu * cbrtR x.mu))) = _
    rw [Nat.cast_ofNat, Nat.cast_ofNat, Nat.cast_ofNat]; rfl
  all_goals
    show _ ≤ 6 * k + 14
    omega

/-- **C80** `tan` -/
theorem C80_tan (hu : Acc f.rd u) {k : ℕ} {t w L : ℝ} (hw : |t| ≤ w) (hL : Lip (relErr u k * w) t L Real.tan) (ha : Apart u (3 * k + 8) (tanFun f t w L k).S2 ((tanFun f t w L k).g2 t)) :
    (tanFun f t w L k).Computes UMath2.tan UMath2.tan ∧ (tanFun f t w L k).Good u (relErr u k * w) t := by
  have F := fits_lip' hu (f := f) (F := fun x => CMath.tan x) (g := Real.tan) (fun _ => rfl) hw hL
  have D := Fits_add hu (Fits_one (P := Within (f := f) (relErr u k * w) t) (u := u)) (Fits_mul hu F F)
  have Q := Fits_mul hu (Fits_mul hu (Fits_lit (P := Within (f := f) (relErr u k * w) t) hu 2) F) D
  rw [Nat.cast_ofNat] at Q
  refine ⟨⟨fun _ _ => rfl, fun v x => ?_⟩, Fits_mono hu F ?_, Fits_mono hu D ?_, Fits_mono hu Q ?_, ha⟩
  · show UReal2.unary v x (Real.tan x.mu) (1 + Real.tan x.mu * Real.tan x.mu) (((2 : ℕ) : ℝ) * Real.tan x.mu * (1 + Real.tan x.mu * Real.tan x.mu)) = _
    rw [Nat.cast_ofNat]; rfl
  all_goals
    show _ ≤ 3 * k + 8
    omega

/-- **C80** `tanh` -/
theorem C80_tanh (hu : Acc f.rd u) {k : ℕ} {t w L : ℝ} (hw : |t| ≤ w) (hL : Lip (relErr u k * w) t L Real.tanh) (ha : Apart u (3 * k + 8) (tanhFun f t w L k).S2 ((tanhFun f t w L k).g2 t)) :
    (tanhFun f t w L k).Computes UMath2.tanh UMath2.tanh ∧ (tanhFun f t w L k).Good u (relErr u k * w) t := by
  have F := fits_lip' hu (f := f) (F := fun x => CMath.tanh x) (g := Real.tanh) (fun _ => rfl) hw hL
  have D := Fits_sub hu (Fits_one (P := Within (f := f) (relErr u k * w) t) (u := u)) (Fits_mul hu F F)
  have Q := Fits_mul hu (Fits_mul hu (Fits_neg (Fits_lit (P := Within (f := f) (relErr u k * w) t) hu 2)) F) D
  rw [Nat.cast_ofNat] at Q
  refine ⟨⟨fun _ _ => rfl, fun v x => ?_⟩, Fits_mono hu F ?_, Fits_mono hu D ?_, Fits_mono hu Q ?_, ha⟩
  · show UReal2.unary v x (Real.tanh x.mu) (1 - Real.tanh x.mu * Real.tanh x.mu) (-((2 : ℕ) : ℝ) * Real.tanh x.mu * (1 - Real.tanh x.mu * Real.tanh x.mu)) = _
    rw [Nat.cast_ofNat]; rfl
  all_goals
    show _ ≤ 3 * k + 8
    omega

/-- **C80** `sinh` -/
theorem C80_sinh (hu : Acc f.rd u) {k : ℕ} {t w L : ℝ} (hw : |t| ≤ w) (hL : Lip (relErr u k * w) t L Real.sinh) (hL' : Lip (relErr u k * w) t L Real.cosh) (ha : Apart u (k + 1) (sinhFun f t w L k).S2 (Real.sinh t)) :
    (sinhFun f t w L k).Computes UMath2.sinh UMath2.sinh ∧ (sinhFun f t w L k).Good u (relErr u k * w) t :=
  have F := fits_lip' hu (f := f) (F := fun x => CMath.sinh x) (g := Real.sinh) (fun _ => rfl) hw hL
  ⟨⟨fun _ _ => rfl, fun _ _ => rfl⟩, F, fits_lip' hu (f := f) (F := fun x => CMath.cosh x) (g := Real.cosh) (fun _ => rfl) hw hL', F, ha⟩

/-- **C80** `cosh` -/
theorem C80_cosh (hu : Acc f.rd u) {k : ℕ} {t w L : ℝ} (hw : |t| ≤ w) (hL : Lip (relErr u k * w) t L Real.sinh) (hL' : Lip (relErr u k * w) t L Real.cosh) (ha : Apart u (k + 1) (coshFun f t w L k).S2 (Real.cosh t)) :
    (coshFun f t w L k).Computes UMath2.cosh UMath2.cosh ∧ (coshFun f t w L k).Good u (relErr u k * w) t :=
  have F := fits_lip' hu (f := f) (F := fun x => CMath.cosh x) (g := Real.cosh) (fun _ => rfl) hw hL'
  ⟨⟨fun _ _ => rfl, fun _ _ => rfl⟩, F, fits_lip' hu (f := f) (F := fun x => CMath.sinh x) (g := Real.sinh) (fun _ => rfl) hw hL, F, ha⟩

/-- `1 / (1 - x * x)` -/
theorem fits_1mxx (hu : Acc f.rd u) {k : ℕ} {t w : ℝ} (hw : |t| ≤ w) (t0 : 0 < 1 - t * t) (h : relErr u (2 * k + 2) * (1 + w * w) ≤ (1 - t * t) / 2) :
    Fits (f := f) u (Within (relErr u k * w) t) (4 * k + 5) (fun x => 1 / (1 - x * x)) (1 / (1 - t * t)) ((1 + w * w) / (1 - t * t) ^ 2) := by
  have A := fits_arg (f := f) (u := u) (k := k) hw
  have B := Fits_mono hu (Fits_sub hu (Fits_one (P := Within (f := f) (relErr u k * w) t) (u := u)) (Fits_mul hu A A)) (show max 0 (k + k + 1) + 1 ≤ 2 * k + 2 by omega)
  have I := Fits_div hu (Fits_one (P := Within (f := f) (relErr u k * w) t) (u := u)) B t0.ne' (by rwa [abs_of_pos t0])
  rw [one_mul] at I
  exact Fits_mono hu I (by omega)

/-- `1 / (1 + x * x)` -/
theorem fits_1pxx (hu : Acc f.rd u) {k : ℕ} {t w : ℝ} (hw : |t| ≤ w) (h : relErr u (2 * k + 2) * (1 + w * w) ≤ (1 + t * t) / 2) :
    Fits (f := f) u (Within (relErr u k * w) t) (4 * k + 5) (fun x => 1 / (1 + x * x)) (1 / (1 + t * t)) ((1 + w * w) / (1 + t * t) ^ 2) := by
  have t0 : 0 < 1 + t * t := by nlinarith [mul_self_nonneg t]
  have A := fits_arg (f := f) (u := u) (k := k) hw
  have B := Fits_mono hu (Fits_add hu (Fits_one (P := Within (f := f) (relErr u k * w) t) (u := u)) (Fits_mul hu A A)) (show max 0 (k + k + 1) + 1 ≤ 2 * k + 2 by omega)
  have I := Fits_div hu (Fits_one (P := Within (f := f) (relErr u k * w) t) (u := u)) B t0.ne' (by rwa [abs_of_pos t0])
  rw [one_mul] at I
  exact Fits_mono hu I (by omega)

/-- `1 / (x * x - 1)` -/
theorem fits_xxm1 (hu : Acc f.rd u) {k : ℕ} {t w : ℝ} (hw : |t| ≤ w) (t0 : 0 < t * t - 1) (h : relErr u (2 * k + 2) * (w * w + 1) ≤ (t * t - 1) / 2) :
    Fits (f := f) u (Within (relErr u k * w) t) (4 * k + 5) (fun x => 1 / (x * x - 1)) (1 / (t * t - 1)) ((w * w + 1) / (t * t - 1) ^ 2) := by
  have A := fits_arg (f := f) (u := u) (k := k) hw
  have B := Fits_mono hu (Fits_sub hu (Fits_mul hu A A) (Fits_one (P := Within (f := f) (relErr u k * w) t) (u := u))) (show max (k + k + 1) 0 + 1 ≤ 2 * k + 2 by omega)
  have I := Fits_div hu (Fits_one (P := Within (f := f) (relErr u k * w) t) (u := u)) B t0.ne' (by rwa [abs_of_pos t0])
  rw [one_mul] at I
  exact Fits_mono hu I (by omega)

/-- the square root of a computed number -/
theorem Fits_sqrt (hu : Acc f.rd u) {k : ℕ} {F : α → FP f} {y S : ℝ} (y0 : 0 < y) (h : Fits u P k F y S) :
    Fits u P (k + 1) (fun a => CSqrt.sqrt (F a)) (Real.sqrt y) (Real.sqrt y + 1 / Real.sqrt y * S) := by
  have := Fits_comp hu (h := fun x => CSqrt.sqrt x) (g := Real.sqrt) (fun _ => rfl) h (lip_sqrt y0)
  rwa [abs_of_pos (Real.sqrt_pos.2 y0)] at this

/-- **C80** `asin` -/
theorem C80_asin (hu : Acc f.rd u) {k : ℕ} {t w L : ℝ} (hw : |t| ≤ w) (t0 : 0 < 1 - t * t) (h : relErr u (2 * k + 2) * (1 + w * w) ≤ (1 - t * t) / 2) (hL : Lip (relErr u k * w) t L Real.arcsin)
    (ha : Apart u (9 * k + 13) (asinFun f t w L k).S2 ((asinFun f t w L k).g2 t)) :
    (asinFun f t w L k).Computes UMath2.asin UMath2.asin ∧ (asinFun f t w L k).Good u (relErr u k * w) t := by
  have F := fits_lip' hu (f := f) (F := fun x => CMath.asin x) (g := Real.arcsin) (fun _ => rfl) hw hL
  have I := fits_1mxx (f := f) hu hw t0 h
  have R := Fits_sqrt hu (one_div_pos.2 t0) I
  have Q := Fits_mul hu (Fits_mul hu (fits_arg (f := f) (u := u) (k := k) hw) R) I
  refine ⟨⟨fun _ _ => rfl, fun _ _ => rfl⟩, Fits_mono hu F ?_, Fits_mono hu R ?_, Fits_mono hu Q ?_, ha⟩
  all_goals
    show _ ≤ 9 * k + 13
    omega

/-- **C80** `acos` -/
theorem C80_acos (hu : Acc f.rd u) {k : ℕ} {t w L : ℝ} (hw : |t| ≤ w) (t0 : 0 < 1 - t * t) (h : relErr u (2 * k + 2) * (1 + w * w) ≤ (1 - t * t) / 2) (hL : Lip (relErr u k * w) t L Real.arccos)
    (ha : Apart u (9 * k + 13) (acosFun f t w L k).S2 ((acosFun f t w L k).g2 t)) :
    (acosFun f t w L k).Computes UMath2.acos UMath2.acos ∧ (acosFun f t w L k).Good u (relErr u k * w) t := by
  have F := fits_lip' hu (f := f) (F := fun x => CMath.acos x) (g := Real.arccos) (fun _ => rfl) hw hL
  have I := fits_1mxx (f := f) hu hw t0 h
  have R := Fits_sqrt hu (one_div_pos.2 t0) I
  have Q := Fits_mul hu (Fits_mul hu (Fits_neg (fits_arg (f := f) (u := u) (k := k) hw)) R) I
  refine ⟨⟨fun _ _ => rfl, fun _ _ => rfl⟩, Fits_mono hu F ?_, Fits_mono hu (Fits_neg R) ?_, Fits_mono hu Q ?_, ha⟩
  all_goals
    show _ ≤ 9 * k + 13
    omega

/-- **C80** `atan` -/
theorem C80_atan (hu : Acc f.rd u) {k : ℕ} {t w : ℝ} (hw : |t| ≤ w) (h : relErr u (2 * k + 2) * (1 + w * w) ≤ (1 + t * t) / 2) (ha : Apart u (9 * k + 14) (atanFun f t w k).S2 ((atanFun f t w k).g2 t)) :
    (atanFun f t w k).Computes UMath2.atan UMath2.atan ∧ (atanFun f t w k).Good u (relErr u k * w) t := by
  have F := fits_lip' hu (f := f) (F := fun x => CMath.atan x) (g := Real.arctan) (L := 1) (k := k) (fun _ => rfl) hw (C80_lip (g' := fun s => 1 / (1 + s ^ 2)) one_pos.le (fun s _ => Real.hasDerivAt_arctan s) (fun s _ => by
    rw [abs_of_pos (by positivity), div_le_one (by positivity)]; nlinarith [sq_nonneg s]))
  rw [one_mul] at F
  have I := fits_1pxx (f := f) hu hw h
  have Q := Fits_mul hu (Fits_mul hu (Fits_mul hu (Fits_neg (Fits_lit (P := Within (f := f) (relErr u k * w) t) hu 2)) (fits_arg (f := f) (u := u) (k := k) hw)) I) I
  rw [Nat.cast_ofNat] at Q
  refine ⟨⟨fun _ _ => rfl, fun v x => ?_⟩, Fits_mono hu F ?_, Fits_mono hu I ?_, Fits_mono hu Q ?_, ha⟩
  · show UReal2.unary v x (Real.arctan x.mu) (1 / (1 + x.mu * x.mu)) (-((2 : ℕ) : ℝ) * x.mu * (1 / (1 + x.mu * x.mu)) * (1 / (1 + x.mu * x.mu))) = _
    rw [Nat.cast_ofNat]; rfl
  all_goals
    show _ ≤ 9 * k + 14
    omega

/-- **C80** `asinh` -/
theorem C80_asinh (hu : Acc f.rd u) {k : ℕ} {t w L : ℝ} (hw : |t| ≤ w) (h : relErr u (2 * k + 2) * (1 + w * w) ≤ (1 + t * t) / 2) (hL : Lip (relErr u k * w) t L Real.arsinh)
    (ha : Apart u (9 * k + 13) (asinhFun f t w L k).S2 ((asinhFun f t w L k).g2 t)) :
    (asinhFun f t w L k).Computes UMath2.asinh UMath2.asinh ∧ (asinhFun f t w L k).Good u (relErr u k * w) t := by
  have F := fits_lip' hu (f := f) (F := fun x => CMath.asinh x) (g := Real.arsinh) (fun _ => rfl) hw hL
  have I := fits_1pxx (f := f) hu hw h
  have R := Fits_sqrt hu (one_div_pos.2 (by nlinarith [mul_self_nonneg t])) I
  have Q := Fits_mul hu (Fits_mul hu (Fits_neg (fits_arg (f := f) (u := u) (k := k) hw)) I) R
  refine ⟨⟨fun _ _ => rfl, fun _ _ => rfl⟩, Fits_mono hu F ?_, Fits_mono hu R ?_, Fits_mono hu Q ?_, ha⟩
  all_goals
    show _ ≤ 9 * k + 13
    omega

/-- **C80** `acosh` -/
theorem C80_acosh (hu : Acc f.rd u) {k : ℕ} {t w L : ℝ} (hw : |t| ≤ w) (t0 : 1 < t) (h : relErr u (2 * k + 2) * (w * w + 1) ≤ (t * t - 1) / 2) (hL : Lip (relErr u k * w) t L Real.arcosh)
    (ha : Apart u (9 * k + 13) (acoshFun f t w L k).S2 ((acoshFun f t w L k).g2 t)) :
    (acoshFun f t w L k).Computes UMath2.acosh UMath2.acosh ∧ (acoshFun f t w L k).Good u (relErr u k * w) t := by
  have t1 : 0 < t * t - 1 := by nlinarith
  have F := fits_lip' hu (f := f) (F := fun x => CMath.acosh x) (g := Real.arcosh) (fun _ => rfl) hw hL
  have I := fits_xxm1 (f := f) hu hw t1 h
  have R := Fits_sqrt hu (one_div_pos.2 t1) I
  have Q := Fits_mul hu (Fits_mul hu (Fits_neg (fits_arg (f := f) (u := u) (k := k) hw)) I) R
  refine ⟨⟨fun _ _ => rfl, fun _ _ => rfl⟩, Fits_mono hu F ?_, Fits_mono hu R ?_, Fits_mono hu Q ?_, ha⟩
  all_goals
    show _ ≤ 9 * k + 13
    omega

/-- **C80** `atanh` -/
theorem C80_atanh (hu : Acc f.rd u) {k : ℕ} {t w L : ℝ} (hw : |t| ≤ w) (t0 : 0 < 1 - t * t) (h : relErr u (2 * k + 2) * (1 + w * w) ≤ (1 - t * t) / 2) (hL : Lip (relErr u k * w) t L Real.artanh)
    (ha : Apart u (9 * k + 14) (atanhFun f t w L k).S2 ((atanhFun f t w L k).g2 t)) :
    (atanhFun f t w L k).Computes UMath2.atanh UMath2.atanh ∧ (atanhFun f t w L k).Good u (relErr u k * w) t := by
  have F := fits_lip' hu (f := f) (F := fun x => CMath.atanh x) (g := Real.artanh) (fun _ => rfl) hw hL
  have I := fits_1mxx (f := f) hu hw t0 h
  have Q := Fits_mul hu (Fits_mul hu (Fits_mul hu (Fits_lit (P := Within (f := f) (relErr u k * w) t) hu 2) (fits_arg (f := f) (u := u) (k := k) hw)) I) I
  rw [Nat.cast_ofNat] at Q
  refine ⟨⟨fun _ _ => rfl, fun v x => ?_⟩, Fits_mono hu F ?_, Fits_mono hu I ?_, Fits_mono hu Q ?_, ha⟩
  · show UReal2.unary v x (Real.artanh x.mu) (1 / (1 - x.mu * x.mu)) (((2 : ℕ) : ℝ) * x.mu * (1 / (1 - x.mu * x.mu)) * (1 / (1 - x.mu * x.mu))) = _
    rw [Nat.cast_ofNat]; rfl
  all_goals
    show _ ≤ 9 * k + 14
    omega

/-- the coefficient of `erf` -/
theorem Fits_erfCoeff (hu : Acc f.rd u) (h2 : relErr u 2 ≤ 1 / 4) : Fits (f := f) u P 6 (fun _ => UMath.erfCoeff) (2 / Real.sqrt Real.pi) (4 / Real.sqrt Real.pi) := by
  have p := Real.pi_pos
  have r0 := Real.sqrt_pos.2 p
  have A : Fits (f := f) u P 1 (fun _ => CMath.atan2 (0 : FP f) (-1)) Real.pi Real.pi := by
    refine ⟨(abs_of_pos p).le, fun _ _ => ?_⟩
    have e : (CMath.atan2 (0 : FP f) (-1)).val = f.rd Real.pi := by
      show f.rd (Complex.arg ⟨-1, 0⟩) = _
      rw [show (⟨-1, 0⟩ : ℂ) = -1 from Complex.ext (by simp) (by simp), Complex.arg_neg_one]
    rw [e, relErr, pow_one, add_sub_cancel_left]
    have := hu.err Real.pi
    rwa [abs_of_pos p] at this
  have R := Fits_sqrt hu p A
  have rr := Real.mul_self_sqrt p.le
  have e : Real.sqrt Real.pi + 1 / Real.sqrt Real.pi * Real.pi = 2 * Real.sqrt Real.pi := by
    field_simp
    nlinarith
  rw [e] at R
  have D := Fits_div hu (Fits_lit (P := P) hu 2) R r0.ne' (by rw [abs_of_pos r0]; nlinarith)
  rw [Nat.cast_ofNat, show 2 * (2 * Real.sqrt Real.pi / Real.sqrt Real.pi ^ 2) = 4 / Real.sqrt Real.pi by field_simp; ring] at D
  exact D

/-- the coefficient times the exponential -/
theorem fits_cexx (hu : Acc f.rd u) {k : ℕ} {t w M : ℝ} (h2 : relErr u 2 ≤ 1 / 4) (hw : |t| ≤ w) (hM : Lip (relErr u (2 * k + 1) * (w * w)) (-t * t) M Real.exp) :
    Fits (f := f) u (Within (relErr u k * w) t) (2 * k + 9) (fun x => UMath.erfCoeff * CMath.exp (-x * x)) (2 / Real.sqrt Real.pi * Real.exp (-t * t)) (4 / Real.sqrt Real.pi * (Real.exp (-t * t) + M * (w * w))) := by
  have A := fits_arg (f := f) (u := u) (k := k) hw
  have B := Fits_mono hu (Fits_mul hu (Fits_neg A) A) (show k + k + 1 ≤ 2 * k + 1 by omega)
  have E := Fits_comp hu (h := fun x => CMath.exp x) (g := Real.exp) (fun _ => rfl) B hM
  rw [abs_of_pos (Real.exp_pos _)] at E
  exact Fits_mono hu (Fits_mul hu (Fits_erfCoeff hu h2) E) (by omega)

/-- **C80** `erf` -/
theorem C80_erf (hu : Acc f.rd u) {k : ℕ} {t w L M : ℝ} (h2 : relErr u 2 ≤ 1 / 4) (hw : |t| ≤ w) (hM : Lip (relErr u (2 * k + 1) * (w * w)) (-t * t) M Real.exp) (hL : Lip (relErr u k * w) t L erfR)
    (ha : Apart u (3 * k + 12) (erfFun f t w L M k).S2 ((erfFun f t w L M k).g2 t)) :
    (erfFun f t w L M k).Computes UMath2.erf UMath2.erf ∧ (erfFun f t w L M k).Good u (relErr u k * w) t := by
  have F := fits_lip' hu (f := f) (F := fun x => CMath.erf x) (g := erfR) (fun _ => rfl) hw hL
  have C := fits_cexx (f := f) hu h2 hw hM
  have Q := Fits_mul hu (Fits_mul hu (Fits_neg (Fits_lit (P := Within (f := f) (relErr u k * w) t) hu 2)) (fits_arg (f := f) (u := u) (k := k) hw)) C
  rw [Nat.cast_ofNat] at Q
  refine ⟨⟨fun _ _ => rfl, fun v x => ?_⟩, Fits_mono hu F ?_, Fits_mono hu C ?_, Fits_mono hu Q ?_, ha⟩
  · show UReal2.unary v x (erfR x.mu) (UMath.erfCoeff * Real.exp (-x.mu * x.mu)) (-((2 : ℕ) : ℝ) * x.mu * (UMath.erfCoeff * Real.exp (-x.mu * x.mu))) = _
    rw [erfCoeff_eq, Nat.cast_ofNat]; rfl
  all_goals
    show _ ≤ 3 * k + 12
    omega

/-- **C80** `erfc` -/
theorem C80_erfc (hu : Acc f.rd u) {k : ℕ} {t w L M : ℝ} (h2 : relErr u 2 ≤ 1 / 4) (hw : |t| ≤ w) (hM : Lip (relErr u (2 * k + 1) * (w * w)) (-t * t) M Real.exp) (hL : Lip (relErr u k * w) t L erfR)
    (ha : Apart u (3 * k + 12) (erfcFun f t w L M k).S2 ((erfcFun f t w L M k).g2 t)) :
    (erfcFun f t w L M k).Computes UMath2.erfc UMath2.erfc ∧ (erfcFun f t w L M k).Good u (relErr u k * w) t := by
  have F := fits_lip' hu (f := f) (F := fun x => CMath.erfc x) (g := fun s => 1 - erfR s) (L := L) (fun _ => rfl) hw ⟨hL.1, fun s hs => by
    rw [show 1 - erfR s - (1 - erfR t) = -(erfR s - erfR t) by ring, abs_neg]; exact hL.2 s hs⟩
  have C := fits_cexx (f := f) hu h2 hw hM
  have Q := Fits_mul hu (Fits_mul hu (Fits_lit (P := Within (f := f) (relErr u k * w) t) hu 2) (fits_arg (f := f) (u := u) (k := k) hw)) C
  rw [Nat.cast_ofNat] at Q
  refine ⟨⟨fun _ _ => rfl, fun v x => ?_⟩, Fits_mono hu F ?_, Fits_mono hu (Fits_neg C) ?_, Fits_mono hu Q ?_, ha⟩
  · show UReal2.unary v x (1 - erfR x.mu) (-(UMath.erfCoeff * Real.exp (-x.mu * x.mu))) (((2 : ℕ) : ℝ) * x.mu * (UMath.erfCoeff * Real.exp (-x.mu * x.mu))) = _
    rw [erfCoeff_eq, Nat.cast_ofNat]; rfl
  all_goals
    show _ ≤ 3 * k + 12
    omega

/-- an argument without error -/
theorem lip_exact {t w : ℝ} {g : ℝ → ℝ} : Lip (relErr u 0 * w) t 0 g := ⟨le_rfl, fun s hs => by
  have : s = t := by
    rw [relErr, pow_zero, sub_self, zero_mul] at hs
    exact sub_eq_zero.1 (abs_nonpos_iff.1 hs)
  rw [this]; simp⟩

theorem relErr_20 {j : ℕ} (h : j ≤ 77) : relErr ((1 / 2) ^ 53) j < 1 / 1000 := (relErr_mono acc_double h).trans_lt (by rw [relErr]; norm_num)

example := C80_abs acc_double (k := 7) (t := -2) (w := 5) (by norm_num) (by
  have := relErr_20 (j := 7) (by decide)
  rw [abs_neg, abs_two]; linarith)

example : Lip (1 / 8) 1 3 (fun s => s ^ 2) := C80_lip (g' := fun s => 2 * s) (by norm_num) (fun s _ => by simpa using hasDerivAt_pow 2 s) (fun s hs => by
  rw [abs_le] at hs ⊢; constructor <;> linarith)

example := C80_exp2 acc_double (by norm_num) (k := 0) (t := 1) (w := 1) (L := 0) (by simp) lip_exact (Or.inr (by
  have := relErr_20 (j := 0 + 7) (by decide)
  have l1 := Real.log_two_gt_d9
  have l2 := Real.log_two_lt_d9
  show relErr _ (0 + 7) * ((Real.log 2 + 2) * (Real.log 2 + 2) * ((2 : ℝ) ^ (1 : ℝ) + 0 * 1)) < |Real.log 2 * Real.log 2 * (2 : ℝ) ^ (1 : ℝ)|
  rw [Real.rpow_one, abs_of_pos (by positivity)]
  have b : (Real.log 2 + 2) * (Real.log 2 + 2) * (2 + 0 * 1) ≤ 18 := by nlinarith
  have := mul_le_mul_of_nonneg_left b (relErr_nonneg acc_double (0 + 7))
  nlinarith))

example := C80_expm1 acc_double (k := 0) (t := Real.log 2) (w := 1) (L := 0) (by
  rw [abs_of_pos (Real.log_pos (by norm_num))]; linarith [Real.log_two_lt_d9]) lip_exact (Or.inr (by
  have := relErr_20 (j := 0 + 1) (by decide)
  show relErr _ (0 + 1) * (Real.exp (Real.log 2) + 0 * 1) < |Real.exp (Real.log 2)|
  rw [Real.exp_log two_pos, abs_two]; linarith))

theorem logb_apart {b k j : ℕ} {F : FP binary64 → FP binary64} {L : ℝ} (hj : j ≤ 77) (hb : 2 ≤ b) : Apart ((1 / 2) ^ 53) j (logbFun binary64 F b 2 2 L k).S2 ((logbFun binary64 F b 2 2 L k).g2 2) := by
  have e := relErr_20 hj
  have e0 := relErr_nonneg acc_double j
  have l2 : Real.log 2 ≤ Real.log b := Real.log_le_log two_pos (by exact_mod_cast hb)
  have l1 := Real.log_two_gt_d9
  refine Or.inr ?_
  show relErr _ j * ((Real.log b + 2) / Real.log b ^ 2 * (2 * 2 / (2 * 2) ^ 2)) < |-(1 / Real.log b) / (2 * 2)|
  obtain ⟨l, hl⟩ : ∃ l, l = Real.log b := ⟨_, rfl⟩
  rw [← hl] at l2 ⊢
  have p : 0 < l := by linarith
  rw [neg_div, abs_neg, abs_of_pos (by positivity), show relErr ((1 / 2) ^ 53) j * ((l + 2) / l ^ 2 * (2 * 2 / (2 * 2) ^ 2)) = relErr ((1 / 2) ^ 53) j * (l + 2) / (4 * l ^ 2) by rw [show (2 * 2 / (2 * 2) ^ 2 : ℝ) = 1 / 4 by norm_num]; field_simp,
    show 1 / l / (2 * 2) = l / (4 * l ^ 2) by field_simp; norm_num]
  refine div_lt_div_of_pos_right ?_ (by positivity)
  nlinarith

theorem log_bound {b : ℕ} (hb : 2 ≤ b) : relErr ((1 / 2) ^ 53) 2 * (Real.log b + 2) ≤ Real.log b / 2 := by
  have l : Real.log 2 ≤ Real.log b := Real.log_le_log two_pos (by exact_mod_cast hb)
  have l1 := Real.log_two_gt_d9
  have e := relErr_20 (j := 2) (by decide)
  have e0 := relErr_nonneg acc_double 2
  nlinarith

example := C80_log10 acc_double (k := 0) (t := 2) (w := 2) (L := 0) (by norm_num) (log_bound (by norm_num)) (by simp) two_ne_zero (by have := relErr_20 (j := 2 * 0 + 1) (by decide); linarith) lip_exact (logb_apart (by decide) (by norm_num))
example := C80_log2 acc_double (k := 0) (t := 2) (w := 2) (L := 0) (by norm_num) (log_bound (by norm_num)) (by simp) two_ne_zero (by have := relErr_20 (j := 2 * 0 + 1) (by decide); linarith) lip_exact (logb_apart (by decide) (by norm_num))

example := C80_log1p acc_double (k := 0) (t := 1) (w := 1) (L := 0) (by simp) (by norm_num) (by
  have := relErr_20 (j := 0 + 1) (by decide)
  rw [abs_of_pos (by norm_num)]; linarith) lip_exact (Or.inr (by
  have := relErr_20 (j := 4 * 0 + 7) (by decide)
  show relErr _ (4 * 0 + 7) * ((1 + 1) / (1 + 1) ^ 2 * ((1 + 1) / (1 + 1) ^ 2)) < |-(1 / (1 + 1)) * (1 / (1 + 1) : ℝ)|
  norm_num at *; linarith))

theorem cbrtR_8 : cbrtR 8 = 2 := by
  have : (8 : ℝ) = 2 ^ (3 : ℝ) := by norm_num
  rw [cbrtR, if_pos (by norm_num), this, ← Real.rpow_mul (by norm_num)]
  norm_num

example := C80_cbrt acc_double (k := 0) (t := 8) (w := 8) (L := 0) (by norm_num) (by simp) (by norm_num) (by
  have := relErr_20 (j := 0 + 2) (by decide)
  rw [abs_of_pos (by norm_num)]; linarith) lip_exact (by
  have := relErr_20 (j := 2 * 0 + 3) (by decide)
  rw [cbrtR_8, abs_two]; linarith) (Or.inr (by
  have := relErr_20 (j := 6 * 0 + 14) (by decide)
  show relErr _ (6 * 0 + 14) * (2 * (9 * 8 / (9 * 8) ^ 2) * ((|cbrtR 8| + 0 * 8) * (|cbrtR 8| + 0 * 8) / (cbrtR 8 * cbrtR 8) ^ 2)) < |-2 / (9 * 8) * (1 / (cbrtR 8 * cbrtR 8))|
  rw [cbrtR_8, abs_two]
  norm_num at *; linarith))

example := C80_tan acc_double (k := 0) (t := Real.pi / 4) (w := Real.pi / 4) (L := 0) (abs_of_pos (by positivity)).le lip_exact (Or.inr (by
  have := relErr_20 (j := 3 * 0 + 8) (by decide)
  show relErr _ (3 * 0 + 8) * (2 * (|Real.tan (Real.pi / 4)| + 0 * (Real.pi / 4)) * (1 + (|Real.tan (Real.pi / 4)| + 0 * (Real.pi / 4)) * (|Real.tan (Real.pi / 4)| + 0 * (Real.pi / 4)))) <
    |2 * Real.tan (Real.pi / 4) * (1 + Real.tan (Real.pi / 4) * Real.tan (Real.pi / 4))|
  rw [Real.tan_pi_div_four, abs_one, zero_mul]
  norm_num at *; linarith))

theorem hyp_log2 : Real.sinh (Real.log 2) = 3 / 4 ∧ Real.cosh (Real.log 2) = 5 / 4 ∧ Real.tanh (Real.log 2) = 3 / 5 := by
  have s : Real.sinh (Real.log 2) = 3 / 4 := by rw [Real.sinh_log two_pos]; norm_num
  have c : Real.cosh (Real.log 2) = 5 / 4 := by rw [Real.cosh_log two_pos]; norm_num
  exact ⟨s, c, by rw [Real.tanh_eq_sinh_div_cosh, s, c]; norm_num⟩

theorem abs_log2 : |Real.log 2| ≤ 1 := by
  rw [abs_of_pos (Real.log_pos (by norm_num))]; linarith [Real.log_two_lt_d9]

example := C80_tanh acc_double (k := 0) (t := Real.log 2) (w := 1) (L := 0) abs_log2 lip_exact (Or.inr (by
  have := relErr_20 (j := 3 * 0 + 8) (by decide)
  show relErr _ (3 * 0 + 8) * (2 * (|Real.tanh (Real.log 2)| + 0 * 1) * (1 + (|Real.tanh (Real.log 2)| + 0 * 1) * (|Real.tanh (Real.log 2)| + 0 * 1))) <
    |-2 * Real.tanh (Real.log 2) * (1 - Real.tanh (Real.log 2) * Real.tanh (Real.log 2))|
  rw [hyp_log2.2.2, abs_of_pos (by norm_num : (0 : ℝ) < 3 / 5)]
  norm_num [abs_of_pos] at *; linarith))

example := C80_sinh acc_double (k := 0) (t := Real.log 2) (w := 1) (L := 0) abs_log2 lip_exact lip_exact (Or.inr (by
  have := relErr_20 (j := 0 + 1) (by decide)
  show relErr _ (0 + 1) * (|Real.sinh (Real.log 2)| + 0 * 1) < |Real.sinh (Real.log 2)|
  rw [hyp_log2.1, abs_of_pos (by norm_num : (0 : ℝ) < 3 / 4)]; linarith))

example := C80_cosh acc_double (k := 0) (t := Real.log 2) (w := 1) (L := 0) abs_log2 lip_exact lip_exact (Or.inr (by
  have := relErr_20 (j := 0 + 1) (by decide)
  show relErr _ (0 + 1) * (|Real.cosh (Real.log 2)| + 0 * 1) < |Real.cosh (Real.log 2)|
  rw [hyp_log2.2.1, abs_of_pos (by norm_num : (0 : ℝ) < 5 / 4)]; linarith))

theorem sqrt_of {a b : ℝ} (hb : 0 ≤ b) (h : b * b = a) : Real.sqrt a = b := by rw [← h, Real.sqrt_mul_self hb]

theorem asin_apart : relErr ((1 / 2) ^ 53) (9 * 0 + 13) * (3 / 5 * (Real.sqrt (1 / (1 - 3 / 5 * (3 / 5))) + 1 / Real.sqrt (1 / (1 - 3 / 5 * (3 / 5))) * ((1 + 3 / 5 * (3 / 5)) / (1 - 3 / 5 * (3 / 5)) ^ 2)) *
    ((1 + 3 / 5 * (3 / 5)) / (1 - 3 / 5 * (3 / 5)) ^ 2)) < 3 / 5 * Real.sqrt (1 / (1 - 3 / 5 * (3 / 5))) * (1 / (1 - 3 / 5 * (3 / 5))) := by
  have := relErr_20 (j := 9 * 0 + 13) (by decide)
  rw [sqrt_of (a := 1 / (1 - 3 / 5 * (3 / 5))) (b := 5 / 4) (by norm_num) (by norm_num)]
  norm_num at *; linarith

example := C80_asin acc_double (k := 0) (t := 3 / 5) (w := 3 / 5) (L := 0) (by norm_num [abs_of_pos]) (by norm_num) (by have := relErr_20 (j := 2 * 0 + 2) (by decide); linarith) lip_exact (Or.inr (asin_apart.trans_le (le_abs_self _)))
example := C80_acos acc_double (k := 0) (t := 3 / 5) (w := 3 / 5) (L := 0) (by norm_num [abs_of_pos]) (by norm_num) (by have := relErr_20 (j := 2 * 0 + 2) (by decide); linarith) lip_exact (Or.inr (asin_apart.trans_le (by
  show _ ≤ |-(3 / 5) * Real.sqrt (1 / (1 - 3 / 5 * (3 / 5))) * (1 / (1 - 3 / 5 * (3 / 5)))|
  rw [neg_mul, neg_mul, abs_neg]; exact le_abs_self _)))

example := C80_atan acc_double (k := 7) (t := 1) (w := 2) (by simp) (by have := relErr_20 (j := 2 * 7 + 2) (by decide); linarith) (Or.inr (by
  have := relErr_20 (j := 9 * 7 + 14) (by decide)
  show relErr _ (9 * 7 + 14) * (2 * 2 * ((1 + 2 * 2) / (1 + 1 * 1) ^ 2) * ((1 + 2 * 2) / (1 + 1 * 1) ^ 2)) < |-2 * 1 * (1 / (1 + 1 * 1)) * (1 / (1 + 1 * 1) : ℝ)|
  norm_num [abs_of_pos] at *; linarith))

example := C80_asinh acc_double (k := 0) (t := 3 / 4) (w := 3 / 4) (L := 0) (by norm_num [abs_of_pos]) (by have := relErr_20 (j := 2 * 0 + 2) (by decide); linarith) lip_exact (Or.inr (by
  have := relErr_20 (j := 9 * 0 + 13) (by decide)
  show relErr _ (9 * 0 + 13) * (3 / 4 * ((1 + 3 / 4 * (3 / 4)) / (1 + 3 / 4 * (3 / 4)) ^ 2) * (Real.sqrt (1 / (1 + 3 / 4 * (3 / 4))) + 1 / Real.sqrt (1 / (1 + 3 / 4 * (3 / 4))) * ((1 + 3 / 4 * (3 / 4)) / (1 + 3 / 4 * (3 / 4)) ^ 2))) <
    |-(3 / 4) * (1 / (1 + 3 / 4 * (3 / 4))) * Real.sqrt (1 / (1 + 3 / 4 * (3 / 4)))|
  rw [sqrt_of (a := 1 / (1 + 3 / 4 * (3 / 4))) (b := 4 / 5) (by norm_num) (by norm_num)]
  norm_num [abs_of_pos] at *; linarith))

example := C80_acosh acc_double (k := 0) (t := 5 / 3) (w := 5 / 3) (L := 0) (by norm_num [abs_of_pos]) (by norm_num) (by have := relErr_20 (j := 2 * 0 + 2) (by decide); linarith) lip_exact (Or.inr (by
  have := relErr_20 (j := 9 * 0 + 13) (by decide)
  show relErr _ (9 * 0 + 13) * (5 / 3 * ((5 / 3 * (5 / 3) + 1) / (5 / 3 * (5 / 3) - 1) ^ 2) * (Real.sqrt (1 / (5 / 3 * (5 / 3) - 1)) + 1 / Real.sqrt (1 / (5 / 3 * (5 / 3) - 1)) * ((5 / 3 * (5 / 3) + 1) / (5 / 3 * (5 / 3) - 1) ^ 2))) <
    |-(5 / 3) * (1 / (5 / 3 * (5 / 3) - 1)) * Real.sqrt (1 / (5 / 3 * (5 / 3) - 1))|
  rw [sqrt_of (a := 1 / (5 / 3 * (5 / 3) - 1)) (b := 3 / 4) (by norm_num) (by norm_num)]
  norm_num [abs_of_pos] at *; linarith))

example := C80_atanh acc_double (k := 0) (t := 3 / 5) (w := 3 / 5) (L := 0) (by norm_num [abs_of_pos]) (by norm_num) (by have := relErr_20 (j := 2 * 0 + 2) (by decide); linarith) lip_exact (Or.inr (by
  have := relErr_20 (j := 9 * 0 + 14) (by decide)
  show relErr _ (9 * 0 + 14) * (2 * (3 / 5) * ((1 + 3 / 5 * (3 / 5)) / (1 - 3 / 5 * (3 / 5)) ^ 2) * ((1 + 3 / 5 * (3 / 5)) / (1 - 3 / 5 * (3 / 5)) ^ 2)) < |2 * (3 / 5) * (1 / (1 - 3 / 5 * (3 / 5))) * (1 / (1 - 3 / 5 * (3 / 5)) : ℝ)|
  norm_num [abs_of_pos] at *; linarith))

/-- `exp` near `-1/4` -/
theorem lip_exp_quarter : Lip (relErr ((1 / 2) ^ 53) (2 * 0 + 1) * (1 / 2 * (1 / 2))) (-(1 / 2) * (1 / 2)) 1 Real.exp :=
  C80_lip (g' := Real.exp) one_pos.le (fun s _ => Real.hasDerivAt_exp s) fun s hs => by
    have := relErr_20 (j := 2 * 0 + 1) (by decide)
    rw [abs_of_pos (Real.exp_pos s)]
    exact Real.exp_le_one_iff.2 (by have := (abs_le.1 hs).2; linarith)

theorem erf_apart : relErr ((1 / 2) ^ 53) (3 * 0 + 12) * (2 * (1 / 2) * (4 / Real.sqrt Real.pi * (Real.exp (-(1 / 2) * (1 / 2)) + 1 * (1 / 2 * (1 / 2))))) <
    2 * (1 / 2) * (2 / Real.sqrt Real.pi * Real.exp (-(1 / 2) * (1 / 2))) := by
  have e := relErr_20 (j := 3 * 0 + 12) (by decide)
  have e0 := relErr_nonneg acc_double (3 * 0 + 12)
  have E : 3 / 4 ≤ Real.exp (-(1 / 2) * (1 / 2)) := by
    have := Real.add_one_le_exp (-(1 / 2) * (1 / 2) : ℝ)
    linarith
  have r : 0 < 2 / Real.sqrt Real.pi := div_pos two_pos (Real.sqrt_pos.2 Real.pi_pos)
  rw [show 4 / Real.sqrt Real.pi = 2 * (2 / Real.sqrt Real.pi) by ring]
  have : relErr ((1 / 2) ^ 53) (3 * 0 + 12) * (2 * (Real.exp (-(1 / 2) * (1 / 2)) + 1 / 4)) < Real.exp (-(1 / 2) * (1 / 2)) := by nlinarith
  have := mul_lt_mul_of_pos_left this r
  linarith

example := C80_erf acc_double (k := 0) (t := 1 / 2) (w := 1 / 2) (L := 0) (M := 1) (relErr_20 (by decide) |>.le.trans (by norm_num)) (by norm_num [abs_of_pos]) lip_exp_quarter lip_exact (Or.inr (erf_apart.trans_le (by
  show _ ≤ |-2 * (1 / 2) * (2 / Real.sqrt Real.pi * Real.exp (-(1 / 2) * (1 / 2)))|
  rw [neg_mul (2 : ℝ), neg_mul (2 * (1 / 2) : ℝ), abs_neg]; exact le_abs_self _)))
example := C80_erfc acc_double (k := 0) (t := 1 / 2) (w := 1 / 2) (L := 0) (M := 1) (relErr_20 (by decide) |>.le.trans (by norm_num)) (by norm_num [abs_of_pos]) lip_exp_quarter lip_exact (Or.inr (erf_apart.trans_le (le_abs_self _)))

end Unc.Props
