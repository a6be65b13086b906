import Verif.Props.MathNaN

/-!
# Not a number where the function is differentiable, and domain errors (C14), with NaN-aware arithmetic
-/

namespace Unc.Props
open Unc UReal NReal

/-- **C14** fails for `pow` with base 0 and a constant positive integer exponent: the function is differentiable, but the code divides 0 by 0, so the uncertainty
of the result is NaN. -/
theorem C14_pow_zero_nan (s : ℝ) (k : ℤ) (hk : 0 < k) (n : ℕ) (hn : 0 < n) :
    (∃ d, HasDerivAt (fun t : ℝ => t ^ n) d 0) ∧
      UMath.pow (⟨k, val s, val 0, []⟩ : UReal NReal) (UReal.const (val n)) = some ⟨invalidId, -1, val 0, [(k, nan)]⟩ ∧
      (⟨invalidId, -1, val 0, [(k, nan)]⟩ : UReal NReal).s = nan := by
  have hp : CMath.pow (val 0) (val (n : ℝ)) = val 0 := by
    show lift2 _ _ _ _ = _
    simp only [lift2]
    rw [if_pos (Or.inr (Or.inl ⟨rfl, by positivity⟩))]
    congr 1
    exact Real.zero_rpow (by positivity)
  have hd : (val 0 * val (n : ℝ) / val 0 : NReal) = nan := by
    show lift2 _ _ (lift2 _ _ (val 0) (val (n : ℝ))) (val 0) = nan
    simp [lift2]
  refine ⟨⟨_, hasDerivAt_pow n 0⟩, ?_, ?_⟩
  · unfold UMath.pow
    simp only [UReal.n, UReal.const, hp, hd]
    unfold binary
    simp only [hk, if_true, not_lt.2 hk.le, false_and, if_false, lt_irrefl, Option.map_some]
    rfl
  · have hs : CCmp.leb (0 : NReal) (-1) = false := by
      show NReal.cmp _ (val 0) (lift1 _ _ (val 1)) = false
      simp [NReal.cmp, lift1]
    have e : (⟨invalidId, -1, val 0, [(k, nan)]⟩ : UReal NReal).s2 = nan := rfl
    unfold UReal.s
    rw [if_neg (by simp [invalidId]), if_neg (by simp [hs]), e]
    rfl

/-- the square of 0 ± 1 -/
example : UMath.pow (⟨1, val 1, val 0, []⟩ : UReal NReal) (UReal.const (val (2 : ℕ))) = some ⟨invalidId, -1, val 0, [(1, nan)]⟩ :=
  (C14_pow_zero_nan 1 1 one_pos 2 two_pos).2.1

/-- **C14** fails for `atan2` also in size when the first argument is 0 and the second positive: the function is differentiable, but the code divides by zero (in C++ it
multiplies the infinite quotient by 0), so the coefficient is NaN. -/
theorem C14_atan2_zero_nan (s b : ℝ) (hb : 0 < b) (k : ℤ) (hk : 0 < k) :
    (∃ dx dy : ℝ, HasFDerivAt (fun p : ℝ × ℝ => Complex.arg ⟨p.2, p.1⟩)
      (dx • ContinuousLinearMap.fst ℝ ℝ ℝ + dy • ContinuousLinearMap.snd ℝ ℝ ℝ) (0, b)) ∧
      UMath.atan2 (⟨k, val s, val 0, []⟩ : UReal NReal) (UReal.const (val b)) = some ⟨invalidId, -1, val 0, [(k, nan)]⟩ := by
  refine ⟨⟨_, _, hasFDerivAt_arg (Or.inl hb)⟩, ?_⟩
  have h0 : CMath.atan2 (val 0) (val b) = val 0 := by
    show lift2 _ _ _ _ = _
    simp only [lift2, if_true]
    congr 1
    exact (Complex.arg_ofReal_of_nonneg hb.le)
  have hq : (val b / val 0 : NReal) = nan := by
    show lift2 _ _ (val b) (val 0) = nan
    simp [lift2]
  unfold UMath.atan2
  simp only [UReal.n, UReal.const, h0, hq]
  unfold binary
  simp only [hk, if_true, not_lt.2 hk.le, false_and, if_false, lt_irrefl, Option.map_some]
  rfl

example : UMath.atan2 (⟨1, val 1, val 0, []⟩ : UReal NReal) (UReal.const (val 2)) = some ⟨invalidId, -1, val 0, [(1, nan)]⟩ :=
  (C14_atan2_zero_nan 1 2 two_pos 1 one_pos).2

theorem ordinary_lift1 (dom : ℝ → Prop) (F : ℝ → ℝ) (a : ℝ) : lift1 dom F (val a) = nan ↔ ¬ dom a := by
  unfold lift1
  by_cases h : dom a <;> simp [h]

theorem ordinary_lift2 (dom : ℝ → ℝ → Prop) (F : ℝ → ℝ → ℝ) (a b : ℝ) : lift2 dom F (val a) (val b) = nan ↔ ¬ dom a b := by
  unfold lift2
  by_cases h : dom a b <;> simp [h]

/-- **C14** the mean of the result is NaN exactly outside the domain of the function -/
theorem C14_domain (x : UReal NReal) (a : ℝ) (h : x.mu = val a) :
    ((UMath.log x).n = nan ↔ a ≤ 0) ∧ ((UMath.log10 x).n = nan ↔ a ≤ 0) ∧ ((UMath.log2 x).n = nan ↔ a ≤ 0) ∧
    ((UMath.log1p x).n = nan ↔ a ≤ -1) ∧ ((UMath.sqrt x).n = nan ↔ a < 0) ∧ ((UMath.asin x).n = nan ↔ 1 < |a|) ∧
    ((UMath.acos x).n = nan ↔ 1 < |a|) ∧ ((UMath.acosh x).n = nan ↔ a < 1) ∧ ((UMath.atanh x).n = nan ↔ 1 ≤ |a|) := by
  have hn : x.n = val a := h
  have hm : ∀ m d : NReal, (unary x m d).n = m := fun m d => by unfold unary UReal.n; split_ifs <;> rfl
  have hab : ¬ (-1 ≤ a ∧ a ≤ 1) ↔ 1 < |a| := by rw [← abs_le]; exact not_le
  have hab' : ¬ (-1 < a ∧ a < 1) ↔ 1 ≤ |a| := by rw [← abs_lt]; exact not_lt
  refine ⟨?_, ?_, ?_, ?_, ?_, ?_, ?_, ?_, ?_⟩
  · rw [UMath.log, hm, hn]; exact (ordinary_lift1 _ _ _).trans not_lt
  · rw [UMath.log10, hm, hn]; exact (ordinary_lift1 _ _ _).trans not_lt
  · rw [UMath.log2, hm, hn]; exact (ordinary_lift1 _ _ _).trans not_lt
  · rw [UMath.log1p, hm, hn]; exact (ordinary_lift1 _ _ _).trans not_lt
  · rw [UMath.sqrt, hm, hn]; exact (ordinary_lift1 _ _ _).trans not_le
  · rw [UMath.asin, hm, hn]; exact (ordinary_lift1 _ _ _).trans hab
  · rw [UMath.acos, hm, hn]; exact (ordinary_lift1 _ _ _).trans hab
  · rw [UMath.acosh, hm, hn]; exact (ordinary_lift1 _ _ _).trans not_le
  · rw [UMath.atanh, hm, hn]; exact (ordinary_lift1 _ _ _).trans hab'

/-- the other functions of one argument give a number for every number -/
theorem C14_domain_all (x : UReal NReal) (a : ℝ) (h : x.mu = val a) :
    ∀ g ∈ ([UMath.abs, UMath.exp, UMath.exp2, UMath.expm1, UMath.cbrt, UMath.sin, UMath.cos, UMath.atan, UMath.sinh, UMath.cosh, UMath.tanh, UMath.asinh,
      UMath.erf, UMath.erfc] : List (UReal NReal → UReal NReal)), (g x).n ≠ nan := by
  have hn : x.n = val a := h
  have hm : ∀ m d : NReal, (unary x m d).n = m := fun m d => by unfold unary UReal.n; split_ifs <;> rfl
  have t : ∀ F : ℝ → ℝ, lift1 (fun _ => True) F (val a) ≠ nan := fun F hh => by simpa using (ordinary_lift1 _ _ _).1 hh
  intro g hg
  simp only [List.mem_cons, List.not_mem_nil, or_false] at hg
  rcases hg with rfl | rfl | rfl | rfl | rfl | rfl | rfl | rfl | rfl | rfl | rfl | rfl | rfl | rfl
  · rw [UMath.abs, hm, hn]; exact t _
  · rw [UMath.exp, hm, hn]; exact t _
  · rw [UMath.exp2, hm, hn]; exact t _
  · rw [UMath.expm1, hm, hn]; exact t _
  · rw [UMath.cbrt, hm, hn]; exact t _
  · rw [UMath.sin, hm, hn]; exact t _
  · rw [UMath.cos, hm, hn]; exact t _
  · rw [UMath.atan, hm, hn]; exact t _
  · rw [UMath.sinh, hm, hn]; exact t _
  · rw [UMath.cosh, hm, hn]; exact t _
  · rw [UMath.tanh, hm, hn]; exact t _
  · rw [UMath.asinh, hm, hn]; exact t _
  · rw [UMath.erf, hm, hn]; exact t _
  · rw [UMath.erfc, hm, hn]; exact t _

example := C14_domain_all ⟨1, val 2, val (-3), []⟩ (-3) rfl

/-- the logarithm and the arc sine of 2 ± 1 -/
example : (UMath.log (⟨1, val 1, val 2, []⟩ : UReal NReal)).n ≠ nan ∧ (UMath.asin (⟨1, val 1, val 2, []⟩ : UReal NReal)).n = nan := by
  obtain ⟨h1, -, -, -, -, h2, -⟩ := C14_domain ⟨1, val 1, val 2, []⟩ 2 rfl
  exact ⟨fun h => by have := h1.1 h; norm_num at this, h2.2 (by norm_num)⟩

end Unc.Props
