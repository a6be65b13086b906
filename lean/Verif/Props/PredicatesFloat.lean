import Verif.Model.IEEE2
import Verif.Props.Predicates

/-!
# C68, C99: the uncertainty, `isfinite` and `isnormal` in `float`
-/

namespace Unc.Props
open Unc.Spec UReal Ext

theorem le_fltMax : (2 : ℝ) ^ (127 : ℤ) ≤ fltMax := by
  rw [fltMax]; norm_num

theorem one_le_fltMax : 1 ≤ fltMax := le_trans (one_le_zpow₀ (by norm_num) (by norm_num)) le_fltMax

theorem flt_fresh : CCmp.leb (0 : Flt) (-1) = false := (weak_rel (f := fltFmt) one_le_fltMax).fresh.1

/-- **C68** for `float`: the uncertainty is right if each coefficient is zero or at least `2 ^ -63` and the sum of the squares, with a margin for the roundings, is less than the largest
number. -/
theorem C68_s_float_partial {x : UReal Flt} (hi : x.id < 0) (hf : CCmp.leb 0 x.sdev = false) {c : List ℝ} (hx : List.Forall₂ (fun p v => Is p.2 v) x.sigma c)
    (hc : ∀ v ∈ c, v = 0 ∨ 2 ^ (-63 : ℤ) ≤ |v|) (hS : (1 + (1 / 2) ^ 24) ^ (c.length + 1) * (c.map fun v => v * v).sum ≤ fltMax) :
    ∃ s, Is x.s s ∧ 0 ≤ s ∧ (1 - (1 / 2) ^ 24) ^ (c.length + 3) * (c.map fun v => v * v).sum ≤ s ^ 2 ∧
      s ^ 2 ≤ (1 + (1 / 2) ^ 24) ^ (c.length + 3) * (c.map fun v => v * v).sum := by
  refine C68_s_partial (tiny := 2 ^ (-126 : ℤ)) (by positivity) (by norm_num) (two_zpow_pos _) ?_ ?_ (fun y hy => ieee_err _ _ hy) one_le_fltMax hi hf hx ?_ hS
  · exact zpow_le_one_of_nonpos₀ (by norm_num) (by norm_num)
  · have := ieee_int (p := 24) (emin := -126) (by norm_num) (by norm_num) 1 (-126) (by norm_num) (by norm_num)
    simpa using this
  · intro v hv
    rcases hc v hv with h | h
    · exact Or.inl h
    · right
      rw [show (-126 : ℤ) = -63 + -63 by norm_num, zpow_add₀ (by norm_num), ← abs_mul_abs_self v]
      exact mul_le_mul h h (two_zpow_pos _).le (abs_nonneg _)

/-- **C99** for `float`: in the range where the squares neither overflow nor underflow `isfinite` says of a computed value exactly whether the mean is finite, and `isnormal`, if there is an
uncertainty, whether it is a normal number. -/
theorem C99_float_partial {x : UReal Flt} (hi : x.id < 0) (hf : CCmp.leb 0 x.sdev = false) {c : List ℝ} (hx : List.Forall₂ (fun p v => Is p.2 v) x.sigma c)
    (hc : ∀ v ∈ c, v = 0 ∨ 2 ^ (-63 : ℤ) ≤ |v|) (hS : (1 + (1 / 2) ^ 24) ^ (c.length + 1) * (c.map fun v => v * v).sum ≤ fltMax) :
    (UMath.isfinite x = true ↔ Finite x.mu) ∧
    (c.length < 2 ^ 22 → (∃ v ∈ c, v ≠ 0) → (UMath.isnormal fltMin x = true ↔ ∃ m, Is x.mu m ∧ fltMin ≤ |m|)) := by
  obtain ⟨s, hs, s0, h1, -⟩ := C68_s_float_partial hi hf hx hc hS
  refine ⟨?_, fun hl hn => ?_⟩
  · unfold UMath.isfinite UMath.both
    rw [Bool.and_eq_true, isFin_iff, isFin_iff, UReal.n]
    exact and_iff_left ⟨s, hs⟩
  have hsum : (2 : ℝ) ^ (-126 : ℤ) ≤ (c.map fun v => v * v).sum := by
    obtain ⟨v, hv, v0⟩ := hn
    have h2 : 2 ^ (-63 : ℤ) ≤ |v| := (hc v hv).resolve_left v0
    have h3 : v * v ≤ (c.map fun v => v * v).sum :=
      List.single_le_sum (fun y hy => by
        obtain ⟨w, -, rfl⟩ := List.mem_map.1 hy
        exact mul_self_nonneg w) _ (List.mem_map_of_mem hv)
    refine le_trans ?_ h3
    rw [show (-126 : ℤ) = -63 + -63 by norm_num, zpow_add₀ (by norm_num), ← abs_mul_abs_self v]
    exact mul_le_mul h2 h2 (two_zpow_pos _).le (abs_nonneg _)
  have hb : (1 / 2 : ℝ) ≤ (1 - (1 / 2) ^ 24) ^ (c.length + 3) := by
    have h2 := one_add_mul_le_pow (a := -((1 / 2 : ℝ) ^ 24)) (by norm_num) (c.length + 3)
    have h3 : ((c.length + 3 : ℕ) : ℝ) ≤ 2 ^ 23 := by
      have : c.length + 3 ≤ 2 ^ 23 := by
        have : (2 : ℕ) ^ 22 + 3 ≤ 2 ^ 23 := by norm_num
        omega
      exact_mod_cast this
    rw [← sub_eq_add_neg] at h2
    refine le_trans ?_ h2
    have h4 : ((c.length + 3 : ℕ) : ℝ) * (1 / 2) ^ 24 ≤ 2 ^ 23 * (1 / 2) ^ 24 := mul_le_mul_of_nonneg_right h3 (by positivity)
    have h5 : (2 : ℝ) ^ 23 * (1 / 2) ^ 24 = 1 / 2 := by norm_num
    linarith
  have hd : fltMin ≤ |s| := by
    rw [abs_of_nonneg s0]
    refine le_of_sq_le_sq ?_ s0
    have h2 : (1 / 2 : ℝ) * 2 ^ (-126 : ℤ) ≤ s ^ 2 := le_trans (mul_le_mul hb hsum (two_zpow_pos _).le (by linarith)) h1
    refine le_trans ?_ h2
    have h3 : fltMin ^ 2 = 2 ^ (-126 : ℤ) * 2 ^ (-126 : ℤ) := by rw [fltMin]; ring
    rw [h3]
    refine mul_le_mul_of_nonneg_right ?_ (two_zpow_pos _).le
    have : (2 : ℝ) ^ (-126 : ℤ) ≤ 2 ^ (-1 : ℤ) := zpow_le_zpow_right₀ (by norm_num) (by norm_num)
    simpa using this
  rw [(C99_isnormal _ _).1]
  constructor
  · rintro ⟨m, s', h2, -, h3, -⟩
    exact ⟨m, h2, h3⟩
  · rintro ⟨m, h2, h3⟩
    exact ⟨m, s, h2, hs, h3, hd⟩

/-! Hypotheses can be met: a computed value which depends on one variable with coefficient 1 and on another one with coefficient 0. -/

theorem flt_zero : Is (0 : Flt) 0 := ⟨_, _, zero_eq one_le_fltMax, rfl⟩
theorem flt_one : Is (1 : Flt) 1 := ⟨_, _, one_eq one_le_fltMax, rfl⟩

/-- a computed value -/
noncomputable def exFlt (m : Flt) : UReal Flt := ⟨-1, -1, m, [(1, 1), (4, 0)]⟩

theorem exFlt_coeff (m : Flt) : List.Forall₂ (fun p v => Is p.2 v) (exFlt m).sigma [1, 0] := .cons flt_one (.cons flt_zero .nil)

theorem exFlt_range : ∀ v ∈ ([1, 0] : List ℝ), v = 0 ∨ 2 ^ (-63 : ℤ) ≤ |v| := by
  intro v hv
  rcases List.mem_cons.1 hv with rfl | hv
  · right
    rw [abs_one]
    exact zpow_le_one_of_nonpos₀ (by norm_num) (by norm_num)
  · left; simpa using hv

theorem exFlt_sum : (1 + (1 / 2) ^ 24) ^ (([1, 0] : List ℝ).length + 1) * (([1, 0] : List ℝ).map fun v => v * v).sum ≤ fltMax := by
  refine le_trans ?_ (le_trans (zpow_le_zpow_right₀ (by norm_num : (1 : ℝ) ≤ 2) (by norm_num : (4 : ℤ) ≤ 127)) le_fltMax)
  norm_num

/-- normal with mean 1, finite and not normal with mean 0, not finite with mean NaN -/
example : UMath.isnormal fltMin (exFlt 1) = true ∧ UMath.isfinite (exFlt 0) = true ∧ UMath.isnormal fltMin (exFlt 0) = false ∧ UMath.isfinite (exFlt .nan) = false := by
  have h := fun m => C99_float_partial (show (-1 : ℤ) < 0 by decide) flt_fresh (exFlt_coeff m) exFlt_range exFlt_sum
  refine ⟨((h 1).2 (by norm_num) ⟨1, by simp, by norm_num⟩).2 ⟨1, flt_one, ?_⟩, (h 0).1.2 ⟨0, flt_zero⟩, ?_, ?_⟩
  · rw [abs_one, fltMin]
    exact zpow_le_one_of_nonpos₀ (by norm_num) (by norm_num)
  · exact (C99_isnormal_zero (two_zpow_pos _)).2 _ (Or.inl flt_zero)
  · rw [← Bool.not_eq_true, (h .nan).1]
    rintro ⟨v, a, h, e, -⟩
    cases e

/-- the uncertainty of the value -/
example : ∃ s, Is (exFlt 1).s s ∧ (1 - (1 / 2) ^ 24) ^ 5 ≤ s ^ 2 ∧ s ^ 2 ≤ (1 + (1 / 2 : ℝ) ^ 24) ^ 5 := by
  obtain ⟨s, h1, -, h2, h3⟩ := C68_s_float_partial (by decide) flt_fresh (exFlt_coeff 1) exFlt_range exFlt_sum
  exact ⟨s, h1, by simpa using h2, by simpa using h3⟩

end Unc.Props
