import Verif.Spec.Tail
import Mathlib.MeasureTheory.Integral.Bochner.Set
import Mathlib.MeasureTheory.Function.L2Space
import Mathlib.Tactic.Positivity
import Mathlib.Tactic.FieldSimp

/-! # Inequalities of Chebyshev and Cantelli -/

namespace Unc.Tail
open MeasureTheory Spec
variable {Ω : Type*} [MeasurableSpace Ω] {P : Measure Ω} [IsProbabilityMeasure P]

theorem markov {f : Ω → ℝ} (h0 : ∀ ω, 0 ≤ f ω) (hi : Integrable f P) {A : Set Ω} (hA : ∀ ω ∈ A, 1 ≤ f ω) : P.real A ≤ ∫ ω, f ω ∂P := by
  have h := mul_meas_ge_le_integral_of_nonneg (μ := P) (Filter.Eventually.of_forall h0) hi 1
  rw [one_mul] at h
  exact (measureReal_mono (fun ω hω => hA ω hω)).trans h

theorem cantelli {Y : Ω → ℝ} {v t : ℝ} (h1 : Integrable Y P) (h2 : Integrable (fun ω => Y ω ^ 2) P) (e1 : ∫ ω, Y ω ∂P = 0) (e2 : ∫ ω, Y ω ^ 2 ∂P = v) (ht : 0 < t) :
    P.real {ω | t ≤ Y ω} ≤ v / (v + t ^ 2) := by
  have hv : 0 ≤ v := e2 ▸ integral_nonneg fun ω => sq_nonneg _
  set u := v / t with hu
  have u0 : 0 ≤ u := div_nonneg hv ht.le
  have hi : Integrable (fun ω => ((Y ω + u) / (t + u)) ^ 2) P := by
    have : (fun ω => ((Y ω + u) / (t + u)) ^ 2) = fun ω => (Y ω ^ 2 + 2 * u * Y ω + u ^ 2) / (t + u) ^ 2 := by
      funext ω; rw [div_pow]; ring
    rw [this]
    exact ((h2.add (h1.const_mul _)).add (integrable_const _)).div_const _
  refine (markov (fun ω => sq_nonneg _) hi fun ω hω => ?_).trans (le_of_eq ?_)
  · have h : t ≤ Y ω := hω
    have : 1 ≤ (Y ω + u) / (t + u) := by rw [le_div_iff₀ (by positivity)]; linarith
    nlinarith
  · have : (fun ω => ((Y ω + u) / (t + u)) ^ 2) = fun ω => (Y ω ^ 2 + 2 * u * Y ω + u ^ 2) / (t + u) ^ 2 := by
      funext ω; rw [div_pow]; ring
    have i2 : Integrable (fun ω => 2 * u * Y ω) P := h1.const_mul _
    rw [this, integral_div, integral_add (f := fun ω => Y ω ^ 2 + 2 * u * Y ω) (h2.add i2) (integrable_const _), integral_add h2 i2, e2, integral_const_mul, e1,
      integral_const, hu]
    simp only [probReal_univ, one_smul]
    have : v + t ^ 2 ≠ 0 := by positivity
    have : t + v / t ≠ 0 := by positivity
    have : t ^ 2 + v ≠ 0 := by positivity
    field_simp
    ring

theorem tails {Q : Ω → ℝ} {m V : ℝ} (i1 : Integrable (fun ω => Q ω - m) P) (i2 : Integrable (fun ω => (Q ω - m) ^ 2) P) (e1 : ∫ ω, (Q ω - m) ∂P = 0)
    (e2 : ∫ ω, (Q ω - m) ^ 2 ∂P = V) (hV : 0 < V) : Tails P Q m (Real.sqrt V) := by
  have hs : 0 < Real.sqrt V := Real.sqrt_pos.2 hV
  have hq : Real.sqrt V ^ 2 = V := Real.sq_sqrt hV.le
  have side : ∀ c, 0 < c → V / (V + (c * Real.sqrt V) ^ 2) = 1 / (1 + c ^ 2) := by
    intro c hc
    rw [mul_pow, hq]
    field_simp
  refine ⟨fun c hc => ?_, fun c hc => ?_, fun c hc => ?_⟩
  · refine (markov (f := fun ω => (Q ω - m) ^ 2 / (c ^ 2 * V)) (fun ω => by positivity) (i2.div_const _) fun ω hω => ?_).trans (le_of_eq ?_)
    · have h : c * Real.sqrt V ≤ |Q ω - m| := hω
      have h2 := pow_le_pow_left₀ (by positivity) h 2
      rw [sq_abs, mul_pow, hq] at h2
      rwa [le_div_iff₀ (by positivity), one_mul]
    · rw [integral_div, e2]; field_simp
  · rw [← side c hc]
    refine le_trans (measureReal_mono fun ω hω => ?_) (cantelli i1 i2 e1 e2 (mul_pos hc hs))
    have h : m + c * Real.sqrt V ≤ Q ω := hω
    show c * Real.sqrt V ≤ Q ω - m
    linarith
  · rw [← side c hc]
    have j2 : (fun ω => (-(Q ω - m)) ^ 2) = fun ω => (Q ω - m) ^ 2 := by funext ω; ring
    refine le_trans (measureReal_mono fun ω hω => ?_)
      (cantelli (Y := fun ω => -(Q ω - m)) i1.neg (by rw [j2]; exact i2) (by rw [integral_neg, e1, neg_zero]) (by rw [j2]; exact e2) (mul_pos hc hs))
    have h : Q ω ≤ m - c * Real.sqrt V := hω
    show c * Real.sqrt V ≤ -(Q ω - m)
    linarith

theorem tails4 {Q : Ω → ℝ} {m V k : ℝ} (i2 : Integrable (fun ω => (Q ω - m) ^ 2) P) (i4 : Integrable (fun ω => (Q ω - m) ^ 4) P)
    (e2 : ∫ ω, (Q ω - m) ^ 2 ∂P = V) (e4 : ∫ ω, (Q ω - m) ^ 4 ∂P = k * V ^ 2) (hV : 0 < V) : Tails4 P Q m (Real.sqrt V) k := by
  have hs : 0 < Real.sqrt V := Real.sqrt_pos.2 hV
  have hq : Real.sqrt V ^ 2 = V := Real.sq_sqrt hV.le
  have j1 : Integrable (fun ω => (Q ω - m) ^ 2 / V - 1) P := (i2.div_const _).sub (integrable_const _)
  have f1 : ∫ ω, ((Q ω - m) ^ 2 / V - 1) ∂P = 0 := by
    rw [integral_sub (i2.div_const _) (integrable_const _), integral_div, e2, div_self hV.ne']
    simp
  have eq : (fun ω => ((Q ω - m) ^ 2 / V - 1) ^ 2) = fun ω => (Q ω - m) ^ 4 / V ^ 2 - 2 * ((Q ω - m) ^ 2 / V - 1) - 1 := by
    funext ω; field_simp; ring
  have j2' : Integrable (fun ω => (Q ω - m) ^ 4 / V ^ 2 - 2 * ((Q ω - m) ^ 2 / V - 1)) P := (i4.div_const _).sub (j1.const_mul _)
  have j2 : Integrable (fun ω => ((Q ω - m) ^ 2 / V - 1) ^ 2) P := by
    rw [eq]
    exact j2'.sub (integrable_const _)
  have f2 : ∫ ω, ((Q ω - m) ^ 2 / V - 1) ^ 2 ∂P = k - 1 := by
    rw [eq, integral_sub j2' (integrable_const _), integral_sub (i4.div_const _) (j1.const_mul _), integral_div, e4, integral_const_mul, f1,
      mul_div_cancel_right₀ _ (by positivity)]
    simp
  refine ⟨fun c hc => ?_, fun c h0 hc => ?_⟩
  · refine le_trans (measureReal_mono fun ω hω => ?_) (cantelli j1 j2 f1 f2 (t := c ^ 2 - 1) (by nlinarith))
    have h : c * Real.sqrt V ≤ |Q ω - m| := hω
    have h2 := pow_le_pow_left₀ (by positivity) h 2
    rw [sq_abs, mul_pow, hq] at h2
    have : c ^ 2 ≤ (Q ω - m) ^ 2 / V := (le_div_iff₀ hV).2 h2
    show c ^ 2 - 1 ≤ (Q ω - m) ^ 2 / V - 1
    linarith
  · have n2 : (fun ω => (-((Q ω - m) ^ 2 / V - 1)) ^ 2) = fun ω => ((Q ω - m) ^ 2 / V - 1) ^ 2 := by funext ω; ring
    have ht : 0 < 1 - c ^ 2 := by nlinarith
    have h := cantelli (Y := fun ω => -((Q ω - m) ^ 2 / V - 1)) j1.neg (by rw [n2]; exact j2) (by rw [integral_neg, f1, neg_zero]) (v := k - 1) (by rw [n2, f2]) ht
    have hk : 0 ≤ k - 1 := f2 ▸ integral_nonneg fun ω => sq_nonneg _
    have hu : (1 : ℝ) ≤ P.real {ω | c * Real.sqrt V < |Q ω - m|} + P.real {ω | 1 - c ^ 2 ≤ -((Q ω - m) ^ 2 / V - 1)} := by
      refine le_trans (le_of_eq ?_) (measureReal_union_le _ _)
      rw [show {ω | c * Real.sqrt V < |Q ω - m|} ∪ {ω | 1 - c ^ 2 ≤ -((Q ω - m) ^ 2 / V - 1)} = Set.univ from ?_, probReal_univ]
      ext ω
      simp only [Set.mem_union, Set.mem_setOf_eq, Set.mem_univ, iff_true]
      rcases lt_or_ge (c * Real.sqrt V) |Q ω - m| with h | h
      · exact Or.inl h
      · right
        have h2 := pow_le_pow_left₀ (abs_nonneg _) h 2
        rw [sq_abs, mul_pow, hq] at h2
        have : (Q ω - m) ^ 2 / V ≤ c ^ 2 := (div_le_iff₀ hV).2 h2
        linarith
    have he : (1 - c ^ 2) ^ 2 / (k - 1 + (1 - c ^ 2) ^ 2) = 1 - (k - 1) / (k - 1 + (1 - c ^ 2) ^ 2) := by
      have : k - 1 + (1 - c ^ 2) ^ 2 ≠ 0 := by positivity
      field_simp
      ring
    linarith

end Unc.Tail
