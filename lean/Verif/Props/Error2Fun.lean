import Verif.Spec.Error2Fun
import Verif.Model.FloatMath
import Verif.Props.Error2
import Mathlib.Analysis.SpecialFunctions.Trigonometric.Bounds
import Mathlib.Analysis.Complex.Norm
import Mathlib.Analysis.Complex.ExponentialBounds

/-!
# C80: rounding errors of functions
-/

namespace Unc.Props
open Unc.Spec HessGrad SMap Mom FP Tr

variable {f : Fmt} {u : ℝ} {α : Type*} {P : α → Prop}

theorem relErr_mono (hu : Acc f.rd u) {k l : ℕ} (h : k ≤ l) : relErr u k ≤ relErr u l :=
  sub_le_sub_right (pow_le_pow_right₀ (by linarith [hu.nonneg]) h) 1

theorem relErr_nonneg (hu : Acc f.rd u) (k : ℕ) : 0 ≤ relErr u k := by
  have := relErr_mono hu (Nat.zero_le k)
  simpa [relErr] using this

/-- fewer roundings are also at most more roundings -/
theorem Fits_mono (hu : Acc f.rd u) {j k : ℕ} {F : α → FP f} {y S : ℝ} (h : Fits u P j F y S) (hk : j ≤ k) : Fits u P k F y S :=
  ⟨h.1, fun a ha => (h.2 a ha).trans (mul_le_mul_of_nonneg_right (relErr_mono hu hk) ((abs_nonneg _).trans h.1))⟩

/-- a number of the format -/
theorem Fits_const (r : FP f) : Fits u P 0 (fun _ => r) r.val |r.val| := ⟨le_rfl, fun a _ => by simp [relErr]⟩

theorem Fits_one : Fits u P 0 (fun _ => (1 : FP f)) 1 1 := by
  have := Fits_const (P := P) (u := u) (1 : FP f)
  simpa using this

/-- an integer -/
theorem Fits_lit (hu : Acc f.rd u) (n : ℕ) : Fits u P 1 (fun _ => (lit n : FP f)) n n :=
  ⟨by simp, fun _ _ => (lit n : Tr f u hu).err (few_lit n)⟩

theorem Fits_neg {j : ℕ} {F : α → FP f} {y S : ℝ} (h : Fits u P j F y S) : Fits u P j (fun a => -F a) (-y) S :=
  ⟨by rw [abs_neg]; exact h.1, fun a ha => by rw [FP.val_neg, show -(F a).val - -y = -((F a).val - y) by ring, abs_neg]; exact h.2 a ha⟩

theorem Fits_add (hu : Acc f.rd u) {j k : ℕ} {F G : α → FP f} {y S z T : ℝ} (h : Fits u P j F y S) (h' : Fits u P k G z T) : Fits u P (max j k + 1) (fun a => F a + G a) (y + z) (S + T) :=
  ⟨(abs_add_le _ _).trans (add_le_add h.1 h'.1), fun a ha =>
    (Tr.of hu _ _ _ _ h.1 (h.2 a ha) + Tr.of hu _ _ _ _ h'.1 (h'.2 a ha)).err (((few_of _ _).mono (le_max_left _ _)).add ((few_of _ _).mono (le_max_right _ _)))⟩

theorem Fits_sub (hu : Acc f.rd u) {j k : ℕ} {F G : α → FP f} {y S z T : ℝ} (h : Fits u P j F y S) (h' : Fits u P k G z T) : Fits u P (max j k + 1) (fun a => F a - G a) (y - z) (S + T) :=
  ⟨by rw [sub_eq_add_neg]; exact (abs_add_le _ _).trans (add_le_add h.1 (by rw [abs_neg]; exact h'.1)), fun a ha =>
    (Tr.of hu _ _ _ _ h.1 (h.2 a ha) - Tr.of hu _ _ _ _ h'.1 (h'.2 a ha)).err (((few_of _ _).mono (le_max_left _ _)).sub ((few_of _ _).mono (le_max_right _ _)))⟩

theorem Fits_mul (hu : Acc f.rd u) {j k : ℕ} {F G : α → FP f} {y S z T : ℝ} (h : Fits u P j F y S) (h' : Fits u P k G z T) : Fits u P (j + k + 1) (fun a => F a * G a) (y * z) (S * T) :=
  ⟨by rw [abs_mul]; exact mul_le_mul h.1 h'.1 (abs_nonneg _) ((abs_nonneg _).trans h.1), fun a ha =>
    (Tr.of hu _ _ _ _ h.1 (h.2 a ha) * Tr.of hu _ _ _ _ h'.1 (h'.2 a ha)).err ((few_of _ _).mul (few_of _ _))⟩

/-- the quotient -/
theorem Fits_div (hu : Acc f.rd u) {j k : ℕ} {F G : α → FP f} {y S z T : ℝ} (h : Fits u P j F y S) (h' : Fits u P k G z T) (z0 : z ≠ 0) (hz : relErr u k * T ≤ |z| / 2) :
    Fits u P (j + 2 * k + 1) (fun a => F a / G a) (y / z) (S * (T / z ^ 2)) := by
  refine ⟨?_, fun a ha => (Tr.quot (Tr.of hu _ _ _ _ h.1 (h.2 a ha)) (Tr.of hu _ _ _ _ h'.1 (h'.2 a ha)) j k (few_of _ _) (few_of _ _) z0 hz).err (cle_some le_rfl)⟩
  rw [div_eq_mul_one_div, abs_mul]
  refine mul_le_mul h.1 ?_ (abs_nonneg _) ((abs_nonneg _).trans h.1)
  have zp := abs_pos.2 z0
  rw [abs_div, abs_one, ← sq_abs z, div_le_div_iff₀ zp (by positivity)]
  nlinarith [h'.1]

/-- **C80** A correctly rounded function of arguments with errors: the change of the function with the argument counts with the magnitude of this change. -/
theorem C80_function (hu : Acc f.rd u) {k : ℕ} {G : α → ℝ} {F : α → FP f} {y D : ℝ} (hF : ∀ a, P a → (F a).val = f.rd (G a)) (D0 : 0 ≤ D) (hD : ∀ a, P a → |G a - y| ≤ relErr u k * D) :
    Fits u P (k + 1) F y (|y| + D) := by
  refine ⟨by linarith, fun a ha => ?_⟩
  rw [hF a ha]
  refine rough_rd hu (by linarith) ((hD a ha).trans ?_)
  exact mul_le_mul_of_nonneg_left (by linarith [abs_nonneg y]) (relErr_nonneg hu k)

/-- the sine of an argument near zero, whose error is large compared with it -/
example := C80_function acc_double (P := Within (1 / 1000) 0) (k := 7) (G := fun x => Real.sin x.val) (F := fun x => CMath.sin x) (y := 0) (D := 10 ^ 15) (fun _ _ => rfl) (by norm_num) (by
  intro a ha
  have ha : |a.val - 0| ≤ 1 / 1000 := ha
  have := Real.abs_sin_sub_sin_le a.val 0
  rw [Real.sin_zero] at this
  have e : 1 / 1000 ≤ relErr ((1 / 2) ^ 53) 7 * 10 ^ 15 := by rw [relErr]; norm_num
  linarith)

/-- a function of one argument with a bound of its derivative -/
theorem fits_lip (hu : Acc f.rd u) {k : ℕ} {g : ℝ → ℝ} {F : FP f → FP f} {t w L : ℝ} (hF : ∀ x, (F x).val = f.rd (g x.val)) (L0 : 0 ≤ L) (w0 : 0 ≤ w)
    (hL : ∀ s, |s - t| ≤ relErr u k * w → |g s - g t| ≤ L * |s - t|) : Fits u (Within (relErr u k * w) t) (k + 1) F (g t) (|g t| + L * w) :=
  C80_function hu (fun a _ => hF a) (mul_nonneg L0 w0) fun a ha => (hL _ ha).trans (by
    have := mul_le_mul_of_nonneg_left (show |a.val - t| ≤ relErr u k * w from ha) L0
    linarith)

/-- the argument -/
theorem fits_arg {k : ℕ} {t w : ℝ} (h : |t| ≤ w) : Fits u (Within (f := f) (relErr u k * w) t) k (fun x => x) t w := ⟨h, fun _ ha => ha⟩

/-- **C80** `exp` -/
theorem C80_exp (hu : Acc f.rd u) {k : ℕ} {t w : ℝ} (w0 : 0 ≤ w) (h : relErr u (k + 1) * (1 + Real.exp (relErr u k * w) * w) < 1) :
    (expFun f u t w k).Computes UMath2.exp UMath2.exp ∧ (expFun f u t w k).Good u (relErr u k * w) t := by
  have F : Fits (f := f) u (Within (relErr u k * w) t) (k + 1) (fun x => CMath.exp x) (Real.exp t) (Real.exp t + Real.exp (t + relErr u k * w) * w) := by
    have := fits_lip hu (f := f) (k := k) (g := Real.exp) (F := fun x => CMath.exp x) (t := t) (w := w) (L := Real.exp (t + relErr u k * w)) (fun _ => rfl) (Real.exp_pos _).le w0 ?_
    · rwa [abs_of_pos (Real.exp_pos t)] at this
    · intro s hs
      have hs' := abs_le.1 hs
      have e0 : 0 ≤ relErr u k * w := (abs_nonneg _).trans hs
      have key : ∀ a b : ℝ, a ≤ b → b ≤ t + relErr u k * w → Real.exp b - Real.exp a ≤ Real.exp (t + relErr u k * w) * (b - a) := by
        intro a b hab hb
        have h1 : Real.exp b - Real.exp a ≤ Real.exp b * (b - a) := by
          have := Real.add_one_le_exp (a - b)
          have h2 : Real.exp a = Real.exp b * Real.exp (a - b) := by rw [← Real.exp_add]; congr 1; ring
          rw [h2]
          nlinarith [Real.exp_pos b]
        exact h1.trans (mul_le_mul_of_nonneg_right (Real.exp_le_exp.2 hb) (by linarith))
      rcases le_total s t with hst | hst
      · rw [abs_sub_comm, abs_sub_comm s t, abs_of_nonneg (sub_nonneg.2 (Real.exp_le_exp.2 hst)), abs_of_nonneg (by linarith)]
        exact key s t hst (by linarith)
      · rw [abs_of_nonneg (sub_nonneg.2 (Real.exp_le_exp.2 hst)), abs_of_nonneg (by linarith)]
        exact key t s hst (by linarith)
  refine ⟨⟨fun _ _ => rfl, fun _ _ => rfl⟩, F, F, F, Or.inr ?_⟩
  show relErr u (k + 1) * (Real.exp t + Real.exp (t + relErr u k * w) * w) < |Real.exp t|
  rw [abs_of_pos (Real.exp_pos t), Real.exp_add]
  have := mul_lt_mul_of_pos_left h (Real.exp_pos t)
  linarith

example := C80_exp acc_double (k := 7) (t := 2) (w := 3 / 1000) (by norm_num) (by
  have e : relErr ((1 / 2) ^ 53) (7 + 1) ≤ 1 / 8 := by rw [relErr]; norm_num
  have e' : relErr ((1 / 2) ^ 53) 7 * (3 / 1000) ≤ 1 := by rw [relErr]; norm_num
  have := Real.exp_le_exp.2 e'
  have := Real.exp_one_lt_three
  have e0 := relErr_nonneg acc_double (7 + 1)
  nlinarith [Real.exp_pos (relErr ((1 / 2) ^ 53) 7 * (3 / 1000))])

theorem abs_sin_sub (s t : ℝ) : |Real.sin s - Real.sin t| ≤ 1 * |s - t| := by
  rw [one_mul]; exact Real.abs_sin_sub_sin_le s t

theorem abs_cos_sub (s t : ℝ) : |Real.cos s - Real.cos t| ≤ 1 * |s - t| := by
  rw [one_mul]; exact Real.abs_cos_sub_cos_le s t

/-- **C80** `sin` -/
theorem C80_sin (hu : Acc f.rd u) {k : ℕ} {t w : ℝ} (w0 : 0 ≤ w) (h : relErr u (k + 1) * (|Real.sin t| + w) < |Real.sin t|) :
    (sinFun f t w k).Computes UMath2.sin UMath2.sin ∧ (sinFun f t w k).Good u (relErr u k * w) t := by
  have F := fits_lip hu (f := f) (k := k) (g := Real.sin) (F := fun x => CMath.sin x) (t := t) (w := w) (L := 1) (fun _ => rfl) one_pos.le w0 fun s _ => abs_sin_sub s t
  have G := fits_lip hu (f := f) (k := k) (g := Real.cos) (F := fun x => CMath.cos x) (t := t) (w := w) (L := 1) (fun _ => rfl) one_pos.le w0 fun s _ => abs_cos_sub s t
  rw [one_mul] at F G
  refine ⟨⟨fun _ _ => rfl, fun _ _ => rfl⟩, F, G, Fits_neg F, Or.inr ?_⟩
  show relErr u (k + 1) * (|Real.sin t| + w) < |-Real.sin t|
  rwa [abs_neg]

example := C80_sin acc_double (k := 7) (t := Real.pi / 2) (w := 2) (by norm_num) (by
  have e : relErr ((1 / 2) ^ 53) (7 + 1) < 1 / 8 := by rw [relErr]; norm_num
  rw [Real.sin_pi_div_two, abs_one]; linarith)

/-- **C80** `cos` -/
theorem C80_cos (hu : Acc f.rd u) {k : ℕ} {t w : ℝ} (w0 : 0 ≤ w) (h : relErr u (k + 1) * (|Real.cos t| + w) < |Real.cos t|) :
    (cosFun f t w k).Computes UMath2.cos UMath2.cos ∧ (cosFun f t w k).Good u (relErr u k * w) t := by
  have F := fits_lip hu (f := f) (k := k) (g := Real.sin) (F := fun x => CMath.sin x) (t := t) (w := w) (L := 1) (fun _ => rfl) one_pos.le w0 fun s _ => abs_sin_sub s t
  have G := fits_lip hu (f := f) (k := k) (g := Real.cos) (F := fun x => CMath.cos x) (t := t) (w := w) (L := 1) (fun _ => rfl) one_pos.le w0 fun s _ => abs_cos_sub s t
  rw [one_mul] at F G
  refine ⟨⟨fun _ _ => rfl, fun _ _ => rfl⟩, G, Fits_neg F, Fits_neg G, Or.inr ?_⟩
  show relErr u (k + 1) * (|Real.cos t| + w) < |-Real.cos t|
  rwa [abs_neg]

example := C80_cos acc_double (k := 7) (t := 0) (w := 1 / 3) (by norm_num) (by
  have e : relErr ((1 / 2) ^ 53) (7 + 1) < 1 / 8 := by rw [relErr]; norm_num
  rw [Real.cos_zero, abs_one]; linarith)

/-- the error is at most half of the value -/
theorem half_of_sq {E t w : ℝ} (t0 : 0 < t) (hw : t ≤ w) (E0 : 0 ≤ E) (h : E * w ^ 2 ≤ t ^ 2 / 2) : E * w ≤ t / 2 := by
  refine le_of_mul_le_mul_right ?_ t0
  have := mul_le_mul_of_nonneg_left hw (mul_nonneg E0 (t0.le.trans hw))
  nlinarith

/-- **C80** `log` -/
theorem C80_log (hu : Acc f.rd u) {k : ℕ} {t w : ℝ} (t0 : 0 < t) (hw : t ≤ w) (h : relErr u (4 * k + 3) * w ^ 2 ≤ t ^ 2 / 2) :
    (logFun f t w k).Computes UMath2.log UMath2.log ∧ (logFun f t w k).Good u (relErr u k * w) t := by
  have w0 : 0 < w := lt_of_lt_of_le t0 hw
  have hk : ∀ j, j ≤ 4 * k + 3 → relErr u j * w ^ 2 ≤ t ^ 2 / 2 := fun j hj => (mul_le_mul_of_nonneg_right (relErr_mono hu hj) (sq_nonneg _)).trans h
  have e1 : relErr u k * w ≤ t / 2 := half_of_sq t0 hw (relErr_nonneg hu k) (hk k (by omega))
  have A := fits_arg (f := f) (u := u) (k := k) (t := t) (w := w) (by rwa [abs_of_pos t0])
  have F := fits_lip hu (f := f) (k := k) (g := Real.log) (F := fun x => CMath.log x) (t := t) (w := w) (L := 2 / t) (fun _ => rfl) (by positivity) w0.le (by
    intro s hs
    have hs' := abs_le.1 hs
    have s0 : t / 2 ≤ s := by linarith
    have sp : 0 < s := by linarith
    have key : ∀ a b : ℝ, t / 2 ≤ a → a ≤ b → Real.log b - Real.log a ≤ 2 / t * (b - a) := by
      intro a b ha hab
      have ap : 0 < a := by linarith
      have bp : 0 < b := by linarith
      rw [← Real.log_div bp.ne' ap.ne']
      refine (Real.log_le_sub_one_of_pos (div_pos bp ap)).trans ?_
      rw [show b / a - 1 = 1 / a * (b - a) by field_simp]
      refine mul_le_mul_of_nonneg_right ?_ (by linarith)
      rw [div_le_div_iff₀ ap t0]
      linarith
    rcases le_total s t with hst | hst
    · rw [abs_sub_comm, abs_sub_comm s t, abs_of_nonneg (sub_nonneg.2 (Real.log_le_log sp hst)), abs_of_nonneg (by linarith)]
      exact key s t s0 hst
    · rw [abs_of_nonneg (sub_nonneg.2 (Real.log_le_log t0 hst)), abs_of_nonneg (by linarith)]
      exact key t s (by linarith) hst)
  have D := Fits_div hu (Fits_one (P := Within (f := f) (relErr u k * w) t) (u := u)) A t0.ne' (by rwa [abs_of_pos t0])
  have Q := Fits_div hu (Fits_neg (Fits_one (P := Within (f := f) (relErr u k * w) t) (u := u))) (Fits_mul hu A A) (mul_pos t0 t0).ne' (by
    rw [abs_of_pos (mul_pos t0 t0), ← pow_two, ← pow_two]; exact hk _ (by omega))
  rw [one_mul] at D Q
  refine ⟨⟨fun _ _ => rfl, fun _ _ => rfl⟩, Fits_mono hu F (by show k + 1 ≤ 4 * k + 3; omega), Fits_mono hu D (by show 0 + 2 * k + 1 ≤ 4 * k + 3; omega), ?_, Or.inr ?_⟩
  · have e : (logFun f t w k).S2 = w * w / (t * t) ^ 2 := by
      show w ^ 2 / t ^ 4 = _
      ring
    rw [e]
    exact Fits_mono hu Q (by show 0 + 2 * (k + k + 1) + 1 ≤ 4 * k + 3; omega)
  · show relErr u (4 * k + 3) * (w ^ 2 / t ^ 4) < |-1 / (t * t)|
    rw [abs_div, abs_neg, abs_one, abs_of_pos (mul_pos t0 t0), mul_div_assoc', div_lt_div_iff₀ (by positivity) (by positivity)]
    have := mul_le_mul_of_nonneg_right h (mul_pos t0 t0).le
    have p : 0 < t ^ 4 := by positivity
    nlinarith

example := C80_log acc_double (k := 7) (t := 2) (w := 5) (by norm_num) (by norm_num) (by
  have e : relErr ((1 / 2) ^ 53) (4 * 7 + 3) < 1 / 100 := by rw [relErr]; norm_num
  linarith)

/-- **C80** `sqrt` -/
theorem C80_sqrt (hu : Acc f.rd u) {k : ℕ} {t w : ℝ} (t0 : 0 < t) (hw : t ≤ w) (h : relErr u (4 * k + 9) * w ^ 2 ≤ t ^ 2 / 4) :
    (sqrtFun f t w k).Computes UMath2.sqrt UMath2.sqrt ∧ (sqrtFun f t w k).Good u (relErr u k * w) t := by
  have w0 : 0 < w := lt_of_lt_of_le t0 hw
  have hk : ∀ j, j ≤ 4 * k + 9 → relErr u j * w ^ 2 ≤ t ^ 2 / 4 := fun j hj => (mul_le_mul_of_nonneg_right (relErr_mono hu hj) (sq_nonneg _)).trans h
  have r0 : 0 < Real.sqrt t := Real.sqrt_pos.2 t0
  have rr : Real.sqrt t * Real.sqrt t = t := Real.mul_self_sqrt t0.le
  set S := Real.sqrt t + w / Real.sqrt t with hS
  have S1 : S * Real.sqrt t = t + w := by rw [hS, add_mul, rr, div_mul_cancel₀ _ r0.ne']
  have S0 : 0 < S := by positivity
  have A := fits_arg (f := f) (u := u) (k := k) (t := t) (w := w) (by rwa [abs_of_pos t0])
  have e1 : relErr u k * w ≤ t / 2 := half_of_sq t0 hw (relErr_nonneg hu k) ((hk k (by omega)).trans (by nlinarith [sq_nonneg t]))
  have F := fits_lip hu (f := f) (k := k) (g := Real.sqrt) (F := fun x => CSqrt.sqrt x) (t := t) (w := w) (L := 1 / Real.sqrt t) (fun _ => rfl) (by positivity) w0.le (by
    intro s hs
    have hs' := abs_le.1 hs
    have s0 : 0 ≤ s := by linarith
    have e : (Real.sqrt s - Real.sqrt t) * (Real.sqrt s + Real.sqrt t) = s - t := by nlinarith [Real.mul_self_sqrt s0]
    rw [← e, abs_mul, abs_of_nonneg (add_nonneg (Real.sqrt_nonneg s) r0.le), div_mul_eq_mul_div, one_mul, le_div_iff₀ r0]
    exact mul_le_mul_of_nonneg_left (by linarith [Real.sqrt_nonneg s]) (abs_nonneg _))
  rw [abs_of_pos r0, show Real.sqrt t + 1 / Real.sqrt t * w = S by rw [hS]; ring] at F
  have G := Fits_mul hu (Fits_lit (P := Within (f := f) (relErr u k * w) t) hu 2) F
  have H := Fits_mul hu (Fits_mul hu (Fits_lit (P := Within (f := f) (relErr u k * w) t) hu 4) A) F
  rw [Nat.cast_ofNat] at G H
  have key : ∀ j, j ≤ 4 * k + 9 → relErr u j * (w * S) ≤ t * Real.sqrt t / 2 := by
    intro j hj
    refine le_of_mul_le_mul_right ?_ r0
    have h1 := hk j hj
    have h2 : w * S * Real.sqrt t ≤ 2 * w ^ 2 := by rw [mul_assoc, S1]; nlinarith
    have := mul_le_mul_of_nonneg_left h2 (relErr_nonneg hu j)
    calc relErr u j * (w * S) * Real.sqrt t = relErr u j * (w * S * Real.sqrt t) := by ring
      _ ≤ t ^ 2 / 2 := by linarith
      _ = t * (Real.sqrt t * Real.sqrt t) / 2 := by rw [rr]; ring
      _ = _ := by ring
  have key1 : ∀ j, j ≤ 4 * k + 9 → relErr u j * S ≤ Real.sqrt t / 2 := by
    intro j hj
    refine le_of_mul_le_mul_left ?_ t0
    have := key j hj
    have := mul_le_mul_of_nonneg_right hw (mul_nonneg (relErr_nonneg hu j) S0.le)
    linarith
  have D := Fits_div hu (Fits_one (P := Within (f := f) (relErr u k * w) t) (u := u)) G (by positivity) (by
    rw [abs_of_pos (by positivity)]
    have := key1 (1 + (k + 1) + 1) (by omega)
    linarith)
  have Q := Fits_div hu (Fits_neg (Fits_one (P := Within (f := f) (relErr u k * w) t) (u := u))) H (by positivity) (by
    rw [abs_of_pos (by positivity)]
    have := key (1 + k + 1 + (k + 1) + 1) (by omega)
    linarith)
  rw [one_mul] at D Q
  refine ⟨⟨fun _ _ => rfl, fun v x => ?_⟩, Fits_mono hu F (by show k + 1 ≤ 4 * k + 9; omega), ?_, ?_, Or.inr ?_⟩
  · show UReal2.unary v x (Real.sqrt x.mu) (1 / (((2 : ℕ) : ℝ) * Real.sqrt x.mu)) (-1 / (((4 : ℕ) : ℝ) * x.mu * Real.sqrt x.mu)) = _
    rw [Nat.cast_ofNat, Nat.cast_ofNat]; rfl
  · have e : (sqrtFun f t w k).S1 = 2 * S / (2 * Real.sqrt t) ^ 2 := by
      show S / (2 * t) = _
      rw [mul_pow, pow_two (Real.sqrt t), rr]
      field_simp
    rw [e]
    exact Fits_mono hu D (by show 0 + 2 * (1 + (k + 1) + 1) + 1 ≤ 4 * k + 9; omega)
  · have e : (sqrtFun f t w k).S2 = 4 * w * S / (4 * t * Real.sqrt t) ^ 2 := by
      show w * S / (4 * t ^ 3) = _
      rw [mul_pow, pow_two (Real.sqrt t), rr]
      field_simp
    rw [e]
    exact Fits_mono hu Q (by show 0 + 2 * (1 + k + 1 + (k + 1) + 1) + 1 ≤ 4 * k + 9; omega)
  · show relErr u (4 * k + 9) * (w * S / (4 * t ^ 3)) < |-1 / (4 * t * Real.sqrt t)|
    rw [abs_div, abs_neg, abs_one, abs_of_pos (by positivity), mul_div_assoc', div_lt_div_iff₀ (by positivity) (by positivity), one_mul]
    have := mul_le_mul_of_nonneg_right (key (4 * k + 9) le_rfl) (by positivity : 0 ≤ 4 * t * Real.sqrt t)
    refine this.trans_lt ?_
    rw [show t * Real.sqrt t / 2 * (4 * t * Real.sqrt t) = 2 * t ^ 2 * (Real.sqrt t * Real.sqrt t) by ring, rr]
    have : 0 < t ^ 3 := by positivity
    nlinarith

theorem hypot_sub (s s' t t' : ℝ) : |Real.sqrt (s ^ 2 + s' ^ 2) - Real.sqrt (t ^ 2 + t' ^ 2)| ≤ |s - t| + |s' - t'| := by
  have e : ∀ a b : ℝ, Real.sqrt (a ^ 2 + b ^ 2) = ‖(⟨a, b⟩ : ℂ)‖ := fun a b => (Complex.norm_eq_sqrt_sq_add_sq ⟨a, b⟩).symm
  rw [e, e]
  refine (abs_norm_sub_norm_le _ _).trans ?_
  exact Complex.norm_le_abs_re_add_abs_im _

/-- **C80** `hypot`; the second derivatives are zero or distinguished from it -/
theorem C80_hypot (hu : Acc f.rd u) {k : ℕ} {e e' t w t' w' : ℝ} (he : e ≤ relErr u k * w) (he' : e' ≤ relErr u k * w') (hw : |t| ≤ w) (hw' : |t'| ≤ w') (h0 : 0 < Real.sqrt (t ^ 2 + t' ^ 2))
    (h : relErr u (k + 1) * (Real.sqrt (t ^ 2 + t' ^ 2) + (w + w')) ≤ Real.sqrt (t ^ 2 + t' ^ 2) / 2)
    (a1 : Apart u (8 * k + 14) (hypotFun f t w t' w' k).Sxx ((hypotFun f t w t' w' k).gxx t t')) (a2 : Apart u (8 * k + 14) (hypotFun f t w t' w' k).Syy ((hypotFun f t w t' w' k).gyy t t'))
    (a3 : Apart u (8 * k + 14) (hypotFun f t w t' w' k).Sxy ((hypotFun f t w t' w' k).gxy t t')) :
    (hypotFun f t w t' w' k).Computes UMath2.hypot UMath2.hypot ∧ (hypotFun f t w t' w' k).Good u e e' t t' := by
  have w0 := (abs_nonneg _).trans hw
  have w0' := (abs_nonneg _).trans hw'
  have X : Fits (f := f) u (Within2 e e' t t') k (fun s => s.1) t w := ⟨hw, fun s hs => hs.1.trans he⟩
  have Y : Fits (f := f) u (Within2 e e' t t') k (fun s => s.2) t' w' := ⟨hw', fun s hs => hs.2.trans he'⟩
  have F : Fits (f := f) u (Within2 e e' t t') (k + 1) (fun s => CMath.hypot s.1 s.2) (Real.sqrt (t ^ 2 + t' ^ 2)) (Real.sqrt (t ^ 2 + t' ^ 2) + (w + w')) := by
    have := C80_function hu (f := f) (P := Within2 e e' t t') (k := k) (G := fun s => Real.sqrt (s.1.val ^ 2 + s.2.val ^ 2)) (F := fun s => CMath.hypot s.1 s.2) (y := Real.sqrt (t ^ 2 + t' ^ 2))
      (D := w + w') (fun _ _ => rfl) (add_nonneg w0 w0') (fun s hs => (hypot_sub _ _ _ _).trans (by rw [mul_add]; exact add_le_add (hs.1.trans he) (hs.2.trans he')))
    rwa [abs_of_pos h0] at this
  have I := Fits_div hu (Fits_one (P := Within2 (f := f) e e' t t') (u := u)) F h0.ne' (by rwa [abs_of_pos h0])
  rw [one_mul] at I
  have FX := Fits_mul hu X I
  have FY := Fits_mul hu Y I
  have FXX := Fits_mul hu I (Fits_sub hu (Fits_one (P := Within2 (f := f) e e' t t') (u := u)) (Fits_mul hu FX FX))
  have FYY := Fits_mul hu I (Fits_sub hu (Fits_one (P := Within2 (f := f) e e' t t') (u := u)) (Fits_mul hu FY FY))
  have FXY := Fits_mul hu (Fits_mul hu (Fits_neg FX) FY) I
  refine ⟨⟨fun _ _ _ => rfl, fun _ _ _ => rfl⟩, ⟨Fits_mono hu F ?_, Fits_mono hu FX ?_, Fits_mono hu FY ?_⟩, ⟨Fits_mono hu FXX ?_, Fits_mono hu FYY ?_, Fits_mono hu FXY ?_⟩, a1, a2, a3⟩
  all_goals
    show _ ≤ 8 * k + 14
    omega

/-- **C80** With the operators and the functions above, calculations as programs write them. -/
theorem C80_calls {v : Moments (FP f)} {v' : Moments ℝ} {env : ℕ → UReal2 (FP f)} {env' : ℕ → UReal2 ℝ} {c c' : CalcF f} {x y : UReal2 (FP f)} {x' y' : UReal2 ℝ} (hx : c.run v env = some x)
    (hx' : c.exact v' env' = some x') (hy : c'.run v env = some y) (hy' : c'.exact v' env' = some y') :
    (∀ (h : Fun1 f) {C C'}, h.Computes C C' → (CalcF.fun1 h c).run v env = C v x ∧ (CalcF.fun1 h c).exact v' env' = C' v' x') ∧
    ∀ (h : Fun2 f) {C C'}, h.Computes C C' → (CalcF.fun2 h c c').run v env = C v x y ∧ (CalcF.fun2 h c c').exact v' env' = C' v' x' y' :=
  ⟨fun h _ _ hc => by rw [CalcF.run, CalcF.exact, hx, hx', Option.bind_some, Option.bind_some, hc.1, hc.2]; exact ⟨rfl, rfl⟩,
    fun h _ _ hc => by rw [CalcF.run, CalcF.exact, hx, hx', hy, hy', Option.bind_some, Option.bind_some, Option.bind_some, Option.bind_some, hc.1, hc.2]; exact ⟨rfl, rfl⟩⟩

/-- the value of a calculation is at most its magnitude -/
theorem C80_size (hu : Acc f.rd u) (hh : HasHalf f) {env : ℕ → UReal2 (FP f)} (henv : ∀ i, Ok2 (env i)) {c : CalcF f} (hc : c.Safe u fun i => (env i).mu.val) :
    |c.value fun i => (env i).mu.val| ≤ c.size fun i => (env i).mu.val := by
  obtain ⟨Z, ⟨-, -, tZ, wZ⟩, -⟩ := run_tr hu hh henv hc
  rw [← tZ, ← wZ]
  exact Z.mu.rough.1

/-- `sqrt(x * y - -(x + x))`, with `x` and `y` near 1/3 -/
noncomputable def calc7 : CalcF binary64 := .fun1 (sqrtFun _ (calc5.value fun i => (vars5 i).mu.val) (calc5.size fun i => (vars5 i).mu.val) 7) calc5

theorem calc5_value : (calc5.value fun i => (vars5 i).mu.val) = third.val * third.val - -(third.val + third.val) ∧
    (calc5.size fun i => (vars5 i).mu.val) = third.val * third.val + (third.val + third.val) := by
  have e : ∀ i, i < 5 → (vars5 i).mu.val = third.val := fun i hi => by simp [vars5, hi, var2]
  have p : 0 < third.val := by linarith [third_near.1]
  simp [calc5, CalcF.value, CalcF.size, e 0 (by decide), e 1 (by decide), abs_of_pos p]

theorem calc7_good : (sqrtFun binary64 (calc5.value fun i => (vars5 i).mu.val) (calc5.size fun i => (vars5 i).mu.val) 7).Computes UMath2.sqrt UMath2.sqrt ∧
    calc7.Safe ((1 / 2) ^ 53) fun i => (vars5 i).mu.val := by
  have p : 0 < third.val := by linarith [third_near.1]
  have t : 0 < third.val * third.val - -(third.val + third.val) := by nlinarith
  have e : relErr ((1 / 2) ^ 53) (4 * 7 + 9) ≤ 1 / 4 := by rw [relErr]; norm_num
  obtain ⟨h1, h2⟩ := C80_sqrt acc_double (k := 7) (t := calc5.value fun i => (vars5 i).mu.val) (w := calc5.size fun i => (vars5 i).mu.val) (by rw [calc5_value.1]; exact t)
    (by rw [calc5_value.1, calc5_value.2]; linarith) (by
      rw [calc5_value.1, calc5_value.2, show third.val * third.val + (third.val + third.val) = third.val * third.val - -(third.val + third.val) by ring]
      have := mul_le_mul_of_nonneg_right e (sq_nonneg (third.val * third.val - -(third.val + third.val)))
      linarith)
  exact ⟨h1, calc5_safe, h2⟩

/-- the calculation is what the library does; the error of the fourth moment -/
example : ∃ x y x' y' z a A W, (∀ v, calc5.run v vars5 = some x) ∧ (∀ v, UMath2.sqrt v x = some x') ∧ (∀ v, calc5.exact v (fun i => numbers FP.val (vars5 i)) = some y) ∧ (∀ v, UMath2.sqrt v y = some y') ∧
    (∀ v, calc7.sizes v (fun i => numbers FP.val (vars5 i)) = some z) ∧ x'.m 4 = some a ∧ y'.m 4 = some A ∧ magnitude z 4 = some W ∧
    |a.val - A| ≤ relErr ((1 / 2) ^ 53) (4 * 55 + momRounds x'.hg.diagmap.length x'.hg.trimap.length 4) * W := by
  obtain ⟨x, y, -, h1, h2, -, -, -⟩ := C80_moments acc_double (C80_half _) vars5_ok calc5_safe
  obtain ⟨x', y', z, h1', h2', h3', -, h4⟩ := C80_moments acc_double (C80_half _) vars5_ok calc7_good.2
  obtain ⟨a, A, W, k1, k2, k3, -, k4⟩ := h4 4 (by decide)
  have C := fun (v : Moments (FP binary64)) (v' : Moments ℝ) => (C80_calls (v := v) (v' := v') (h1 v) (h2 v') (h1 v) (h2 v')).1 _ calc7_good.1
  exact ⟨x, y, x', y', z, a, A, W, h1, fun v => by rw [← (C v ⟨0, 0, 0, 0, 0, 0⟩).1]; exact h1' v, h2, fun v => by rw [← (C ⟨0, 0, 0, 0, 0, 0⟩ v).2]; exact h2' v, h3', k1, k2, k3, k4⟩

example : |calc7.value fun i => (vars5 i).mu.val| ≤ calc7.size fun i => (vars5 i).mu.val := C80_size acc_double (C80_half _) vars5_ok calc7_good.2

/-- `hypot(x, y)` with `x` and `y` near 1/3 -/
theorem hypot_third : (hypotFun binary64 third.val third.val third.val third.val 0).Computes UMath2.hypot UMath2.hypot ∧
    (hypotFun binary64 third.val third.val third.val third.val 0).Good ((1 / 2) ^ 53) 0 0 third.val third.val := by
  have p : 0 < third.val := by linarith [third_near.1]
  obtain ⟨τ, hτ⟩ : ∃ τ, τ = third.val := ⟨_, rfl⟩
  rw [← hτ] at p ⊢
  obtain ⟨h, hh⟩ : ∃ h, h = Real.sqrt (τ ^ 2 + τ ^ 2) := ⟨_, rfl⟩
  have h2 : h ^ 2 = 2 * τ ^ 2 := by rw [hh, Real.sq_sqrt (by positivity)]; ring
  have h0 : 0 < h := by rw [hh]; exact Real.sqrt_pos.2 (by positivity)
  have l1 : τ ≤ h := by nlinarith
  have S3 : h + (τ + τ) ≤ 3 * h := by linarith
  have q : (h + (τ + τ)) / h ^ 2 ≤ 3 / h := by rw [div_le_div_iff₀ (by positivity) h0]; nlinarith
  have q0 : 0 < (h + (τ + τ)) / h ^ 2 := by positivity
  have r : τ * ((h + (τ + τ)) / h ^ 2) ≤ 3 := by
    have := mul_le_mul l1 q q0.le h0.le
    rwa [mul_div_cancel₀ _ h0.ne'] at this
  have r0 : 0 < τ * ((h + (τ + τ)) / h ^ 2) := by positivity
  have E : relErr ((1 / 2) ^ 53) (8 * 0 + 14) < 1 / 1000 := by rw [relErr]; norm_num
  have E1 : relErr ((1 / 2) ^ 53) (0 + 1) ≤ 1 / 6 := by rw [relErr]; norm_num
  have E0 := relErr_nonneg acc_double (8 * 0 + 14)
  have half : τ * (1 / h) * (τ * (1 / h)) = 1 / 2 := by
    rw [show τ * (1 / h) * (τ * (1 / h)) = τ ^ 2 / h ^ 2 by ring, h2]
    field_simp
  have a1 : Apart ((1 / 2) ^ 53) (8 * 0 + 14) ((h + (τ + τ)) / h ^ 2 * (1 + τ * ((h + (τ + τ)) / h ^ 2) * (τ * ((h + (τ + τ)) / h ^ 2)))) (1 / h * (1 - τ * (1 / h) * (τ * (1 / h)))) := by
    refine Or.inr ?_
    rw [half, abs_of_pos (by have : 0 < 1 / h := one_div_pos.2 h0
                             nlinarith)]
    have b1 : 1 + τ * ((h + (τ + τ)) / h ^ 2) * (τ * ((h + (τ + τ)) / h ^ 2)) ≤ 10 := by nlinarith
    have b2 := mul_le_mul q b1 (by positivity) (by positivity : 0 ≤ 3 / h)
    have b3 := mul_lt_mul E b2 (by positivity) (by norm_num)
    refine b3.trans ?_
    have : 0 < 1 / h := one_div_pos.2 h0
    rw [show (3 : ℝ) / h = 3 * (1 / h) by ring]
    nlinarith
  have a3 : Apart ((1 / 2) ^ 53) (8 * 0 + 14) (τ * ((h + (τ + τ)) / h ^ 2) * (τ * ((h + (τ + τ)) / h ^ 2)) * ((h + (τ + τ)) / h ^ 2)) (-(τ * (1 / h)) * (τ * (1 / h)) * (1 / h)) := by
    refine Or.inr ?_
    rw [neg_mul, half, neg_mul, abs_neg, abs_of_pos (by positivity)]
    have b1 : τ * ((h + (τ + τ)) / h ^ 2) * (τ * ((h + (τ + τ)) / h ^ 2)) ≤ 9 := by nlinarith
    have b2 := mul_le_mul b1 q q0.le (by norm_num)
    have b3 := mul_lt_mul E b2 (by positivity) (by norm_num)
    refine b3.trans ?_
    have : 0 < 1 / h := one_div_pos.2 h0
    rw [show (3 : ℝ) / h = 3 * (1 / h) by ring]
    nlinarith
  refine C80_hypot acc_double (by simp [relErr]) (by simp [relErr]) (abs_of_pos p).le (abs_of_pos p).le (by rw [← hh]; exact h0) ?_ ?_ ?_ ?_
  · rw [← hh]
    have := mul_le_mul E1 S3 (by positivity) (by norm_num)
    linarith
  · rw [hh] at a1; exact a1
  · rw [hh] at a1; exact a1
  · rw [hh] at a3; exact a3

/-- the covariance of `hypot(x, y)` with `x * y`, as the library computes it -/
example : ∃ x y x' y' a A W, (∀ v, UMath2.hypot v (vars5 0) (vars5 1) = some x) ∧ (∀ v, UMath2.hypot v (numbers FP.val (vars5 0)) (numbers FP.val (vars5 1)) = some y) ∧
    (∀ v, UReal2.mul v (vars5 1) (vars5 2) = some x') ∧ (∀ v, UReal2.mul v (numbers FP.val (vars5 1)) (numbers FP.val (vars5 2)) = some y') ∧
    UReal2.cov x x' = some a ∧ UReal2.cov y y' = some A ∧ |A| ≤ W ∧
    |a.val - A| ≤ relErr ((1 / 2) ^ 53) (23 + 5 + covRounds x.hg.diagmap.length x.hg.trimap.length x'.hg.diagmap.length) * W := by
  have e : ∀ i, i < 5 → (vars5 i).mu.val = third.val := fun i hi => by simp [vars5, hi, var2]
  have s1 : (CalcF.fun2 (hypotFun binary64 third.val third.val third.val third.val 0) (.leaf 0) (.leaf 1)).Safe ((1 / 2) ^ 53) (fun i => (vars5 i).mu.val) := by
    refine ⟨⟨trivial, trivial⟩, ?_⟩
    simp only [CalcF.rounds, relErr, pow_zero, sub_self, zero_mul, CalcF.value, e 0 (by decide), e 1 (by decide)]
    exact hypot_third.2
  have s2 : (CalcF.mul (.leaf 1) (.leaf 2) : CalcF binary64).Safe ((1 / 2) ^ 53) (fun i => (vars5 i).mu.val) := ⟨trivial, trivial⟩
  obtain ⟨x, y, z, h1, h2, h3, -⟩ := C80_moments acc_double (C80_half _) vars5_ok s1
  obtain ⟨x', y', z', h1', h2', h3', -⟩ := C80_moments acc_double (C80_half _) vars5_ok s2
  obtain ⟨a, A, W, k1, k2, -, k3, k4⟩ := C80_cov acc_double (C80_half _) vars5_ok s1 s2 (h1 ⟨0, 0, 0, 0, 0, 0⟩) (h2 ⟨0, 0, 0, 0, 0, 0⟩) (h3 ⟨0, 0, 0, 0, 0, 0⟩) (h1' ⟨0, 0, 0, 0, 0, 0⟩) (h2' ⟨0, 0, 0, 0, 0, 0⟩) (h3' ⟨0, 0, 0, 0, 0, 0⟩)
  exact ⟨x, y, x', y', a, A, W, h1, h2, h1', h2', k1, k2, k3, k4⟩

end Unc.Props
