import Verif.Spec.Error2More2
import Verif.Props.Error2More

/-!
# C80: rounding errors of the other functions of two arguments
-/

namespace Unc.Props
open Unc.Spec HessGrad SMap Mom FP Tr

variable {f : Fmt} {u : ℝ} {α : Type*} {P : α → Prop}

theorem Fits_zero : Fits (f := f) u P 0 (fun _ => 0) 0 0 := ⟨by simp, fun _ _ => by simp⟩

/-- **C80** `pow` of a positive number -/
theorem C80_pow (hu : Acc f.rd u) {k : ℕ} {e e' t w t' w' D L : ℝ} (he : e ≤ relErr u k * w) (he' : e' ≤ relErr u k * w') (hw : |t| ≤ w) (hw' : |t'| ≤ w') (t0 : 0 < t) (h : relErr u k * w ≤ t / 2)
    (D0 : 0 ≤ D) (hD : ∀ s s' : ℝ, |s - t| ≤ e → |s' - t'| ≤ e' → |s ^ s' - t ^ t'| ≤ relErr u k * D) (hL : Lip (relErr u k * w) t L Real.log)
    (a1 : Apart u (7 * k + 8) (powFun f t w t' w' D L k).Sxx ((powFun f t w t' w' D L k).gxx t t')) (a2 : Apart u (7 * k + 8) (powFun f t w t' w' D L k).Syy ((powFun f t w t' w' D L k).gyy t t'))
    (a3 : Apart u (7 * k + 8) (powFun f t w t' w' D L k).Sxy ((powFun f t w t' w' D L k).gxy t t')) :
    (powFun f t w t' w' D L k).Computes UMath2.pow UMath2.pow ∧ (powFun f t w t' w' D L k).Good u e e' t t' := by
  have X : Fits (f := f) u (Within2 e e' t t') k (fun s => s.1) t w := ⟨hw, fun s hs => hs.1.trans he⟩
  have Y : Fits (f := f) u (Within2 e e' t t') k (fun s => s.2) t' w' := ⟨hw', fun s hs => hs.2.trans he'⟩
  have F := C80_function hu (f := f) (P := Within2 e e' t t') (k := k) (G := fun s => s.1.val ^ s.2.val) (F := fun s => CMath.pow s.1 s.2) (y := t ^ t') (D := D) (fun _ _ => rfl) D0 (fun s hs => hD _ _ hs.1 hs.2)
  have l := Fits_comp hu (h := fun x => CMath.log x) (g := Real.log) (fun _ => rfl) X hL
  have I := Fits_div hu (Fits_one (P := Within2 (f := f) e e' t t') (u := u)) X t0.ne' (by rwa [abs_of_pos t0])
  rw [one_mul] at I
  have PI := Fits_mul hu F I
  have PY := Fits_mul hu PI Y
  have PL := Fits_mul hu F l
  have A := Fits_mul hu (Fits_mul hu PY I) (Fits_sub hu Y (Fits_one (P := Within2 (f := f) e e' t t') (u := u)))
  have B := Fits_mul hu PL l
  have C := Fits_add hu PI (Fits_mul hu PY l)
  refine ⟨⟨fun _ _ _ => rfl, fun _ _ _ => rfl⟩, ⟨Fits_mono hu F ?_, Fits_mono hu PY ?_, Fits_mono hu PL ?_⟩, ⟨Fits_mono hu A ?_, Fits_mono hu B ?_, Fits_mono hu C ?_⟩, a1, a2, a3⟩
  all_goals
    show _ ≤ 7 * k + 8
    omega

/-- **C80** `atan2` -/
theorem C80_atan2 (hu : Acc f.rd u) {k : ℕ} {e e' t w t' w' D : ℝ} (he : e ≤ relErr u k * w) (he' : e' ≤ relErr u k * w') (hw : |t| ≤ w) (hw' : |t'| ≤ w') (t0 : 0 < t * t + t' * t')
    (h : relErr u (2 * k + 2) * (w * w + w' * w') ≤ (t * t + t' * t') / 2)
    (D0 : 0 ≤ D) (hD : ∀ s s' : ℝ, |s - t| ≤ e → |s' - t'| ≤ e' → |Complex.arg ⟨s', s⟩ - Complex.arg ⟨t', t⟩| ≤ relErr u k * D)
    (a1 : Apart u (10 * k + 15) (atan2Fun f t w t' w' D k).Sxx ((atan2Fun f t w t' w' D k).gxx t t')) (a2 : Apart u (10 * k + 15) (atan2Fun f t w t' w' D k).Syy ((atan2Fun f t w t' w' D k).gyy t t'))
    (a3 : Apart u (10 * k + 15) (atan2Fun f t w t' w' D k).Sxy ((atan2Fun f t w t' w' D k).gxy t t')) :
    (atan2Fun f t w t' w' D k).Computes UMath2.atan2 UMath2.atan2 ∧ (atan2Fun f t w t' w' D k).Good u e e' t t' := by
  have X : Fits (f := f) u (Within2 e e' t t') k (fun s => s.1) t w := ⟨hw, fun s hs => hs.1.trans he⟩
  have Y : Fits (f := f) u (Within2 e e' t t') k (fun s => s.2) t' w' := ⟨hw', fun s hs => hs.2.trans he'⟩
  have F := C80_function hu (f := f) (P := Within2 e e' t t') (k := k) (G := fun s => Complex.arg ⟨s.2.val, s.1.val⟩) (F := fun s => CMath.atan2 s.1 s.2) (y := Complex.arg ⟨t', t⟩) (D := D) (fun _ _ => rfl) D0
    (fun s hs => hD _ _ hs.1 hs.2)
  have XX := Fits_mul hu X X
  have YY := Fits_mul hu Y Y
  have N := Fits_mono hu (Fits_add hu XX YY) (show max (k + k + 1) (k + k + 1) + 1 ≤ 2 * k + 2 by omega)
  have I := Fits_div hu (Fits_one (P := Within2 (f := f) e e' t t') (u := u)) N t0.ne' (by rwa [abs_of_pos t0])
  rw [one_mul] at I
  have XI := Fits_mul hu X I
  have YI := Fits_mul hu Y I
  have B := Fits_mul hu (Fits_mul hu (Fits_lit (P := Within2 (f := f) e e' t t') hu 2) XI) YI
  rw [Nat.cast_ofNat] at B
  have C := Fits_mul hu (Fits_mul hu (Fits_sub hu XX YY) I) I
  refine ⟨⟨fun _ _ _ => rfl, fun v x y => ?_⟩, ⟨Fits_mono hu F ?_, Fits_mono hu YI ?_, Fits_mono hu (Fits_neg XI) ?_⟩, ⟨Fits_mono hu (Fits_neg B) ?_, Fits_mono hu B ?_, Fits_mono hu C ?_⟩, a1, a2, a3⟩
  · show UReal2.binary v x y (Complex.arg ⟨y.mu, x.mu⟩) (y.mu * (1 / (x.mu * x.mu + y.mu * y.mu))) (-(x.mu * (1 / (x.mu * x.mu + y.mu * y.mu))))
      (-(((2 : ℕ) : ℝ) * (x.mu * (1 / (x.mu * x.mu + y.mu * y.mu))) * (y.mu * (1 / (x.mu * x.mu + y.mu * y.mu))))) (((2 : ℕ) : ℝ) * (x.mu * (1 / (x.mu * x.mu + y.mu * y.mu))) * (y.mu * (1 / (x.mu * x.mu + y.mu * y.mu))))
      ((x.mu * x.mu - y.mu * y.mu) * (1 / (x.mu * x.mu + y.mu * y.mu)) * (1 / (x.mu * x.mu + y.mu * y.mu))) = _
    rw [Nat.cast_ofNat]; rfl
  all_goals
    show _ ≤ 10 * k + 15
    omega

/-- the quotient which `fmod` and `remainder` round to an integer -/
theorem fits_quot (hu : Acc f.rd u) {k : ℕ} {e e' t w t' w' : ℝ} (he : e ≤ relErr u k * w) (he' : e' ≤ relErr u k * w') (hw : |t| ≤ w) (hw' : |t'| ≤ w') (t0 : t' ≠ 0) (h : relErr u k * w' ≤ |t'| / 2)
    {c : ℝ → ℝ} {h' : FP f → FP f} (hc : ∀ x, (h' x).val = f.rd (c x.val)) (hs : ∀ s, |s - t / t'| ≤ relErr u (3 * k + 1) * (w * (w' / t' ^ 2)) → c s = c (t / t')) :
    Fits (f := f) u (Within2 e e' t t') (3 * k + 2) (fun s => -h' (s.1 / s.2)) (-c (t / t')) |c (t / t')| := by
  have X : Fits (f := f) u (Within2 e e' t t') k (fun s => s.1) t w := ⟨hw, fun s hs => hs.1.trans he⟩
  have Y : Fits (f := f) u (Within2 e e' t t') k (fun s => s.2) t' w' := ⟨hw', fun s hs => hs.2.trans he'⟩
  have Q := Fits_mono hu (Fits_div hu X Y t0 h) (show k + 2 * k + 1 ≤ 3 * k + 1 by omega)
  have := Fits_comp hu (h := h') (g := c) (L := 0) hc Q ⟨le_rfl, fun s hs' => by rw [hs s hs']; simp⟩
  rw [zero_mul, add_zero] at this
  exact Fits_neg this

/-- **C80** `fmod`, away from the steps -/
theorem C80_fmod (hu : Acc f.rd u) {k : ℕ} {e e' t w t' w' D : ℝ} (he : e ≤ relErr u k * w) (he' : e' ≤ relErr u k * w') (hw : |t| ≤ w) (hw' : |t'| ≤ w') (t0 : t' ≠ 0) (h : relErr u k * w' ≤ |t'| / 2)
    (hs : ∀ s, |s - t / t'| ≤ relErr u (3 * k + 1) * (w * (w' / t' ^ 2)) → truncR s = truncR (t / t'))
    (D0 : 0 ≤ D) (hD : ∀ s s' : ℝ, |s - t| ≤ e → |s' - t'| ≤ e' → |(s - truncR (s / s') * s') - (t - truncR (t / t') * t')| ≤ relErr u k * D) :
    (fmodFun f t t' D k).Computes UMath2.fmod UMath2.fmod ∧ (fmodFun f t t' D k).Good u e e' t t' := by
  have F := C80_function hu (f := f) (P := Within2 e e' t t') (k := k) (G := fun s => s.1.val - truncR (s.1.val / s.2.val) * s.2.val) (F := fun s => CMath.fmod s.1 s.2) (y := t - truncR (t / t') * t') (D := D)
    (fun _ _ => rfl) D0 (fun s hs => hD _ _ hs.1 hs.2)
  have Q := fits_quot hu he he' hw hw' t0 h (c := truncR) (h' := fun x => CMath.trunc x) (fun _ => rfl) hs
  refine ⟨⟨fun _ _ _ => rfl, fun _ _ _ => rfl⟩, ⟨Fits_mono hu F ?_, Fits_mono hu Fits_one ?_, Q⟩, ⟨Fits_mono hu Fits_zero ?_, Fits_mono hu Fits_zero ?_, Fits_mono hu Fits_zero ?_⟩, Or.inl rfl, Or.inl rfl, Or.inl rfl⟩
  all_goals
    show _ ≤ 3 * k + 2
    omega

/-- **C80** `remainder`, away from the steps -/
theorem C80_remainder (hu : Acc f.rd u) {k : ℕ} {e e' t w t' w' D : ℝ} (he : e ≤ relErr u k * w) (he' : e' ≤ relErr u k * w') (hw : |t| ≤ w) (hw' : |t'| ≤ w') (t0 : t' ≠ 0) (h : relErr u k * w' ≤ |t'| / 2)
    (hs : ∀ s, |s - t / t'| ≤ relErr u (3 * k + 1) * (w * (w' / t' ^ 2)) → roundAwayR s = roundAwayR (t / t'))
    (D0 : 0 ≤ D) (hD : ∀ s s' : ℝ, |s - t| ≤ e → |s' - t'| ≤ e' → |(s - roundEvenR (s / s') * s') - (t - roundEvenR (t / t') * t')| ≤ relErr u k * D) :
    (remainderFun f t t' D k).Computes UMath2.remainder UMath2.remainder ∧ (remainderFun f t t' D k).Good u e e' t t' := by
  have F := C80_function hu (f := f) (P := Within2 e e' t t') (k := k) (G := fun s => s.1.val - roundEvenR (s.1.val / s.2.val) * s.2.val) (F := fun s => CMath.remainder s.1 s.2) (y := t - roundEvenR (t / t') * t') (D := D)
    (fun _ _ => rfl) D0 (fun s hs => hD _ _ hs.1 hs.2)
  have Q := fits_quot hu he he' hw hw' t0 h (c := roundAwayR) (h' := fun x => CMath.round x) (fun _ => rfl) hs
  refine ⟨⟨fun _ _ _ => rfl, fun _ _ _ => rfl⟩, ⟨Fits_mono hu F ?_, Fits_mono hu Fits_one ?_, Q⟩, ⟨Fits_mono hu Fits_zero ?_, Fits_mono hu Fits_zero ?_, Fits_mono hu Fits_zero ?_⟩, Or.inl rfl, Or.inl rfl, Or.inl rfl⟩
  all_goals
    show _ ≤ 3 * k + 2
    omega

/-- a function which gives one of its arguments -/
theorem sel_good (hu : Acc f.rd u) {k : ℕ} {e e' t w t' w' : ℝ} (he : e ≤ relErr u k * w) (he' : e' ≤ relErr u k * w') (hw : |t| ≤ w) (hw' : |t'| ≤ w') {F : FP f → FP f → FP f} {g : ℝ → ℝ → ℝ}
    (hF : ∀ x y, (F x y).val = g x.val y.val)
    (h : (∀ s s', |s - t| ≤ e → |s' - t'| ≤ e' → g s s' = s) ∧ 0 ≤ e ∧ 0 ≤ e' ∨ (∀ s s', |s - t| ≤ e → |s' - t'| ≤ e' → g s s' = s' ∧ s' ≠ s) ∧ 0 ≤ e ∧ 0 ≤ e') : (selFun f F g w w' k).Good u e e' t t' := by
  have r0 := relErr_nonneg hu k
  have zero : 0 ≤ relErr u k * 1 := by linarith
  rcases h with ⟨h, e0, e0'⟩ | ⟨h, e0, e0'⟩
  · have hg := h t t' (by simpa) (by simpa)
    refine ⟨⟨⟨?_, fun a ha => ?_⟩, ⟨?_, fun a ha => ?_⟩, ⟨?_, fun a ha => ?_⟩⟩, ⟨Fits_mono hu Fits_zero (Nat.zero_le _), Fits_mono hu Fits_zero (Nat.zero_le _), Fits_mono hu Fits_zero (Nat.zero_le _)⟩, Or.inl rfl, Or.inl rfl, Or.inl rfl⟩
    · show |g t t'| ≤ max w w'
      rw [hg]; exact hw.trans (le_max_left _ _)
    · show |(F a.1 a.2).val - g t t'| ≤ relErr u k * max w w'
      rw [hF, hg, h _ _ ha.1 ha.2]
      exact ha.1.trans (he.trans (mul_le_mul_of_nonneg_left (le_max_left _ _) r0))
    · show |if g t t' = t then (1 : ℝ) else 0| ≤ 1
      split <;> simp
    · show |(if CCmp.eqb (F a.1 a.2) a.1 = true then (1 : FP f) else 0).val - (if g t t' = t then (1 : ℝ) else 0)| ≤ relErr u k * 1
      rw [if_pos hg, if_pos (by simp [CCmp.eqb, hF, h _ _ ha.1 ha.2])]
      simpa using zero
    · show |if g t t' = t then (0 : ℝ) else 1| ≤ 1
      split <;> simp
    · show |(if CCmp.eqb (F a.1 a.2) a.1 = true then (0 : FP f) else 1).val - (if g t t' = t then (0 : ℝ) else 1)| ≤ relErr u k * 1
      rw [if_pos hg, if_pos (by simp [CCmp.eqb, hF, h _ _ ha.1 ha.2])]
      simpa using zero
  · obtain ⟨hg, hn⟩ := h t t' (by simpa) (by simpa)
    refine ⟨⟨⟨?_, fun a ha => ?_⟩, ⟨?_, fun a ha => ?_⟩, ⟨?_, fun a ha => ?_⟩⟩, ⟨Fits_mono hu Fits_zero (Nat.zero_le _), Fits_mono hu Fits_zero (Nat.zero_le _), Fits_mono hu Fits_zero (Nat.zero_le _)⟩, Or.inl rfl, Or.inl rfl, Or.inl rfl⟩
    · show |g t t'| ≤ max w w'
      rw [hg]; exact hw'.trans (le_max_right _ _)
    · show |(F a.1 a.2).val - g t t'| ≤ relErr u k * max w w'
      rw [hF, hg, (h _ _ ha.1 ha.2).1]
      exact ha.2.trans (he'.trans (mul_le_mul_of_nonneg_left (le_max_right _ _) r0))
    · show |if g t t' = t then (1 : ℝ) else 0| ≤ 1
      split <;> simp
    · show |(if CCmp.eqb (F a.1 a.2) a.1 = true then (1 : FP f) else 0).val - (if g t t' = t then (1 : ℝ) else 0)| ≤ relErr u k * 1
      rw [if_neg (show ¬ g t t' = t by rw [hg]; exact hn), if_neg (by simp [CCmp.eqb, hF, (h _ _ ha.1 ha.2).1, (h _ _ ha.1 ha.2).2])]
      simpa using zero
    · show |if g t t' = t then (0 : ℝ) else 1| ≤ 1
      split <;> simp
    · show |(if CCmp.eqb (F a.1 a.2) a.1 = true then (0 : FP f) else 1).val - (if g t t' = t then (0 : ℝ) else 1)| ≤ relErr u k * 1
      rw [if_neg (show ¬ g t t' = t by rw [hg]; exact hn), if_neg (by simp [CCmp.eqb, hF, (h _ _ ha.1 ha.2).1, (h _ _ ha.1 ha.2).2])]
      simpa using zero

/-- **C80** `fmax` of different numbers -/
theorem C80_fmax (hu : Acc f.rd u) {k : ℕ} {e e' t w t' w' : ℝ} (e0 : 0 ≤ e) (e0' : 0 ≤ e') (he : e ≤ relErr u k * w) (he' : e' ≤ relErr u k * w') (hw : |t| ≤ w) (hw' : |t'| ≤ w') (h : e + e' < |t - t'|) :
    (selFun f CMath.fmax max w w' k).Computes UMath2.fmax UMath2.fmax ∧ (selFun f CMath.fmax max w w' k).Good u e e' t t' := by
  refine ⟨⟨fun _ _ _ => rfl, fun v x y => ?_⟩, sel_good hu he he' hw hw' (fun x y => ?_) ?_⟩
  · show UReal2.binary v x y (max x.mu y.mu) (if CCmp.eqb (max x.mu y.mu) x.mu = true then 1 else 0) (if CCmp.eqb (max x.mu y.mu) x.mu = true then 0 else 1) 0 0 0 =
      UReal2.binary v x y (max x.mu y.mu) (if max x.mu y.mu = x.mu then 1 else 0) (if max x.mu y.mu = x.mu then 0 else 1) 0 0 0
    by_cases hx : max x.mu y.mu = x.mu <;> simp [CCmp.eqb, hx]
  · show f.rd (max x.val y.val) = max x.val y.val
    rcases max_choice x.val y.val with h | h <;> rw [h]
    exacts [x.rep, y.rep]
  · rcases lt_or_ge t t' with ht | ht
    · refine Or.inr ⟨fun s s' hs hs' => ?_, e0, e0'⟩
      rw [abs_of_neg (by linarith)] at h
      have := (abs_le.1 hs).2
      have := (abs_le.1 hs').1
      exact ⟨max_eq_right (by linarith), by linarith⟩
    · refine Or.inl ⟨fun s s' hs hs' => ?_, e0, e0'⟩
      rw [abs_of_nonneg (by linarith)] at h
      have := (abs_le.1 hs).1
      have := (abs_le.1 hs').2
      exact max_eq_left (by linarith)

/-- **C80** `fmin` of different numbers -/
theorem C80_fmin (hu : Acc f.rd u) {k : ℕ} {e e' t w t' w' : ℝ} (e0 : 0 ≤ e) (e0' : 0 ≤ e') (he : e ≤ relErr u k * w) (he' : e' ≤ relErr u k * w') (hw : |t| ≤ w) (hw' : |t'| ≤ w') (h : e + e' < |t - t'|) :
    (selFun f CMath.fmin min w w' k).Computes UMath2.fmin UMath2.fmin ∧ (selFun f CMath.fmin min w w' k).Good u e e' t t' := by
  refine ⟨⟨fun _ _ _ => rfl, fun v x y => ?_⟩, sel_good hu he he' hw hw' (fun x y => ?_) ?_⟩
  · show UReal2.binary v x y (min x.mu y.mu) (if CCmp.eqb (min x.mu y.mu) x.mu = true then 1 else 0) (if CCmp.eqb (min x.mu y.mu) x.mu = true then 0 else 1) 0 0 0 =
      UReal2.binary v x y (min x.mu y.mu) (if min x.mu y.mu = x.mu then 1 else 0) (if min x.mu y.mu = x.mu then 0 else 1) 0 0 0
    by_cases hx : min x.mu y.mu = x.mu <;> simp [CCmp.eqb, hx]
  · show f.rd (min x.val y.val) = min x.val y.val
    rcases min_choice x.val y.val with h | h <;> rw [h]
    exacts [x.rep, y.rep]
  · rcases lt_or_ge t t' with ht | ht
    · refine Or.inl ⟨fun s s' hs hs' => ?_, e0, e0'⟩
      rw [abs_of_neg (by linarith)] at h
      have := (abs_le.1 hs).2
      have := (abs_le.1 hs').1
      exact min_eq_left (by linarith)
    · refine Or.inr ⟨fun s s' hs hs' => ?_, e0, e0'⟩
      rw [abs_of_nonneg (by linarith)] at h
      have := (abs_le.1 hs).1
      have := (abs_le.1 hs').2
      exact ⟨min_eq_right (by linarith), by linarith⟩

example := C80_fmax acc_double (k := 7) (e := 1 / 10 ^ 15) (e' := 0) (t := 2) (w := 3) (t' := 5) (w' := 5) (by norm_num) le_rfl (by rw [relErr]; norm_num) (mul_nonneg (relErr_nonneg acc_double 7) (by norm_num)) (by norm_num) (by norm_num [abs_of_pos]) (by norm_num [abs_of_neg])
example := C80_fmin acc_double (k := 7) (e := 1 / 10 ^ 15) (e' := 0) (t := 2) (w := 3) (t' := 5) (w' := 5) (by norm_num) le_rfl (by rw [relErr]; norm_num) (mul_nonneg (relErr_nonneg acc_double 7) (by norm_num)) (by norm_num) (by norm_num [abs_of_pos]) (by norm_num [abs_of_neg])

/-- arguments without errors -/
theorem exact_zero {a : ℝ} : (0 : ℝ) ≤ relErr u 0 * a := by simp [relErr]

theorem eq_exact {s t : ℝ} (h : |s - t| ≤ 0) : s = t := sub_eq_zero.1 (abs_nonpos_iff.1 h)

/-- `7 / 2` is far from the steps -/
theorem trunc_near {s : ℝ} (h : |s - 7 / 2| ≤ 1 / 4) : truncR s = 3 := by
  have h := abs_le.1 h
  rw [truncR, if_pos (by linarith)]
  have : ⌊s⌋ = 3 := by rw [Int.floor_eq_iff]; constructor <;> push_cast <;> linarith
  rw [this]; norm_num

example := C80_fmod acc_double (k := 0) (e := 0) (e' := 0) (t := 7) (w := 7) (t' := 2) (w' := 2) (D := 0) exact_zero exact_zero (by norm_num) (by norm_num) two_ne_zero (by simp [relErr]) (fun s hs => by
    have := relErr_20 (j := 3 * 0 + 1) (by decide)
    rw [trunc_near (hs.trans (by norm_num at *; linarith)), trunc_near (by norm_num)]) le_rfl (fun s s' hs hs' => by
    rw [eq_exact hs, eq_exact hs', sub_self, abs_zero]; exact exact_zero)

theorem round_near {s : ℝ} (h : |s - 10 / 3| ≤ 1 / 16) : roundAwayR s = 3 := by
  have h := abs_le.1 h
  rw [roundAwayR, if_pos (by linarith)]
  have : ⌊s + 1 / 2⌋ = 3 := by rw [Int.floor_eq_iff]; constructor <;> push_cast <;> linarith
  rw [this]; norm_num

example := C80_remainder acc_double (k := 0) (e := 0) (e' := 0) (t := 10) (w := 10) (t' := 3) (w' := 3) (D := 0) exact_zero exact_zero (by norm_num) (by norm_num) three_ne_zero (by norm_num [relErr]) (fun s hs => by
    have := relErr_20 (j := 3 * 0 + 1) (by decide)
    rw [round_near (hs.trans (by norm_num at *; linarith)), round_near (by norm_num)]) le_rfl (fun s s' hs hs' => by
    rw [eq_exact hs, eq_exact hs', sub_self, abs_zero]; exact exact_zero)

example := C80_atan2 acc_double (k := 0) (e := 0) (e' := 0) (t := 1) (w := 1) (t' := 2) (w' := 2) (D := 0) exact_zero exact_zero (by simp) (by simp) (by norm_num) (by have := relErr_20 (j := 2 * 0 + 2) (by decide); linarith) le_rfl
  (fun s s' hs hs' => by rw [eq_exact hs, eq_exact hs', sub_self, abs_zero]; exact exact_zero)
  (Or.inr (by
    have := relErr_20 (j := 10 * 0 + 15) (by decide)
    show relErr _ (10 * 0 + 15) * (2 * (1 * ((1 * 1 + 2 * 2) / (1 * 1 + 2 * 2) ^ 2)) * (2 * ((1 * 1 + 2 * 2) / (1 * 1 + 2 * 2) ^ 2))) < |-(2 * (1 * (1 / (1 * 1 + 2 * 2))) * (2 * (1 / (1 * 1 + 2 * 2))) : ℝ)|
    norm_num [abs_of_pos] at *; linarith))
  (Or.inr (by
    have := relErr_20 (j := 10 * 0 + 15) (by decide)
    show relErr _ (10 * 0 + 15) * (2 * (1 * ((1 * 1 + 2 * 2) / (1 * 1 + 2 * 2) ^ 2)) * (2 * ((1 * 1 + 2 * 2) / (1 * 1 + 2 * 2) ^ 2))) < |(2 * (1 * (1 / (1 * 1 + 2 * 2))) * (2 * (1 / (1 * 1 + 2 * 2))) : ℝ)|
    norm_num [abs_of_pos] at *; linarith))
  (Or.inr (by
    have := relErr_20 (j := 10 * 0 + 15) (by decide)
    show relErr _ (10 * 0 + 15) * ((1 * 1 + 2 * 2) * ((1 * 1 + 2 * 2) / (1 * 1 + 2 * 2) ^ 2) * ((1 * 1 + 2 * 2) / (1 * 1 + 2 * 2) ^ 2)) < |(1 * 1 - 2 * 2) * (1 / (1 * 1 + 2 * 2)) * (1 / (1 * 1 + 2 * 2) : ℝ)|
    norm_num [abs_of_pos] at *; linarith))

/-- `2 ^ 3` -/
example := C80_pow acc_double (k := 0) (e := 0) (e' := 0) (t := 2) (w := 2) (t' := 3) (w' := 3) (D := 0) (L := 0) exact_zero exact_zero (by simp) (by simp) two_pos (by simp [relErr]) le_rfl
  (fun s s' hs hs' => by rw [eq_exact hs, eq_exact hs', sub_self, abs_zero]; exact exact_zero) lip_exact
  (Or.inr (by
    have := relErr_20 (j := 7 * 0 + 8) (by decide)
    show relErr _ (7 * 0 + 8) * ((|(2 : ℝ) ^ (3 : ℝ)| + 0) * (2 / 2 ^ 2) * 3 * (2 / 2 ^ 2) * (3 + 1)) < |(2 : ℝ) ^ (3 : ℝ) * (1 / 2) * 3 * (1 / 2) * (3 - 1)|
    norm_num [abs_of_pos] at *; linarith))
  (Or.inr (by
    have := relErr_20 (j := 7 * 0 + 8) (by decide)
    have l := Real.log_two_gt_d9
    show relErr _ (7 * 0 + 8) * ((|(2 : ℝ) ^ (3 : ℝ)| + 0) * (|Real.log 2| + 0 * 2) * (|Real.log 2| + 0 * 2)) < |(2 : ℝ) ^ (3 : ℝ) * Real.log 2 * Real.log 2|
    have lp : 0 < Real.log 2 := by linarith
    rw [abs_of_pos lp, abs_of_pos (by positivity), abs_of_pos (by positivity)]
    have : 0 < (2 : ℝ) ^ (3 : ℝ) * Real.log 2 * Real.log 2 := by positivity
    nlinarith))
  (Or.inr (by
    have := relErr_20 (j := 7 * 0 + 8) (by decide)
    have l := Real.log_two_gt_d9
    show relErr _ (7 * 0 + 8) * ((|(2 : ℝ) ^ (3 : ℝ)| + 0) * (2 / 2 ^ 2) + (|(2 : ℝ) ^ (3 : ℝ)| + 0) * (2 / 2 ^ 2) * 3 * (|Real.log 2| + 0 * 2)) < |(2 : ℝ) ^ (3 : ℝ) * (1 / 2) + (2 : ℝ) ^ (3 : ℝ) * (1 / 2) * 3 * Real.log 2|
    have lp : 0 < Real.log 2 := by linarith
    have e : (2 : ℝ) ^ (3 : ℝ) = 8 := by norm_num
    rw [abs_of_pos lp, e, abs_of_pos (by norm_num : (0 : ℝ) < 8), abs_of_pos (by positivity)]
    nlinarith))

end Unc.Props
