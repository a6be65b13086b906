import Verif.Spec.Law2
import Mathlib.Analysis.Asymptotics.Defs
import Mathlib.MeasureTheory.Integral.Bochner.Basic

/-!
# Lemmas for C70: random variables which are close to each other for small errors
-/

namespace Unc.Law2
open MeasureTheory Filter Topology Asymptotics
variable {Ω : Type*} [MeasurableSpace Ω] {P : Measure Ω}

/-- `g` is of order `r` in the size `t` of the errors, and `f` differs from it by less than the order `r + 1`, uniformly. -/
structure Near (P : Measure Ω) (r : ℕ) (f g : ℝ → Ω → ℝ) : Prop where
  diff : ∀ ε > 0, ∀ᶠ t : ℝ in 𝓝 0, ∀ᵐ ω ∂P, |f t ω - g t ω| ≤ ε * |t| ^ (r + 1)
  size : ∃ K > 0, ∀ᶠ t : ℝ in 𝓝 0, ∀ᵐ ω ∂P, |g t ω| ≤ K * |t| ^ r

variable {r r' : ℕ} {f g f' g' : ℝ → Ω → ℝ}

theorem small_one : ∀ᶠ t : ℝ in 𝓝 0, |t| ≤ 1 := by
  filter_upwards [Metric.ball_mem_nhds (0 : ℝ) one_pos] with t ht
  simpa using (le_of_lt ht : dist t 0 ≤ 1)

theorem Near.size_left (h : Near P r f g) : ∃ K > 0, ∀ᶠ t : ℝ in 𝓝 0, ∀ᵐ ω ∂P, |f t ω| ≤ K * |t| ^ r := by
  obtain ⟨K, hK, h2⟩ := h.size
  refine ⟨K + 1, by positivity, ?_⟩
  filter_upwards [h2, h.diff 1 one_pos, small_one] with t a b ht
  filter_upwards [a, b] with ω ha hb
  have h3 : |t| ^ (r + 1) ≤ |t| ^ r := pow_le_pow_of_le_one (abs_nonneg t) ht (Nat.le_succ r)
  have h4 : |f t ω| ≤ |f t ω - g t ω| + |g t ω| := by simpa using abs_add_le (f t ω - g t ω) (g t ω)
  linarith

theorem Near.mul (h : Near P r f g) (h' : Near P r' f' g') : Near P (r + r') (fun t ω => f t ω * f' t ω) (fun t ω => g t ω * g' t ω) := by
  obtain ⟨K, hK, hg⟩ := h.size
  obtain ⟨K', hK', hf'⟩ := h'.size_left
  obtain ⟨K2, hK2, hg'⟩ := h'.size
  refine ⟨fun ε hε => ?_, K * K2, by positivity, ?_⟩
  · filter_upwards [hg, hf', h.diff (ε / (2 * K')) (by positivity), h'.diff (ε / (2 * K)) (by positivity)] with t a b c d
    filter_upwards [a, b, c, d] with ω ha hb hc hd
    have e : f t ω * f' t ω - g t ω * g' t ω = (f t ω - g t ω) * f' t ω + g t ω * (f' t ω - g' t ω) := by ring
    rw [e]
    calc |(f t ω - g t ω) * f' t ω + g t ω * (f' t ω - g' t ω)| ≤ |f t ω - g t ω| * |f' t ω| + |g t ω| * |f' t ω - g' t ω| := by
          rw [← abs_mul, ← abs_mul]; exact abs_add_le _ _
      _ ≤ (ε / (2 * K') * |t| ^ (r + 1)) * (K' * |t| ^ r') + (K * |t| ^ r) * (ε / (2 * K) * |t| ^ (r' + 1)) := by gcongr
      _ = ε * |t| ^ (r + r' + 1) := by
          field_simp
          ring
  · filter_upwards [hg, hg'] with t a b
    filter_upwards [a, b] with ω ha hb
    rw [abs_mul, pow_add]
    calc |g t ω| * |g' t ω| ≤ (K * |t| ^ r) * (K2 * |t| ^ r') := by gcongr
      _ = _ := by ring

theorem Near.pow (h : Near P 1 f g) : ∀ m : ℕ, 0 < m → Near P m (fun t ω => f t ω ^ m) (fun t ω => g t ω ^ m)
  | 1, _ => by simpa using h
  | m + 2, _ => by
    have := (h.pow (m + 1) (Nat.succ_pos m)).mul h
    simpa only [pow_succ] using this

variable [IsProbabilityMeasure P]

theorem bounded_integrable {h : Ω → ℝ} {C : ℝ} (hm : AEStronglyMeasurable h P) (hb : ∀ᵐ ω ∂P, |h ω| ≤ C) : Integrable h P :=
  Integrable.of_bound hm C hb

theorem Near.integrable (h : Near P r f g) (hf : ∀ t, AEStronglyMeasurable (f t) P) (hg : ∀ t, AEStronglyMeasurable (g t) P) :
    ∀ᶠ t : ℝ in 𝓝 0, Integrable (f t) P ∧ Integrable (g t) P := by
  obtain ⟨K, -, h1⟩ := h.size_left
  obtain ⟨K', -, h2⟩ := h.size
  filter_upwards [h1, h2] with t a b
  exact ⟨bounded_integrable (hf t) a, bounded_integrable (hg t) b⟩

theorem Near.integral_diff (h : Near P r f g) (hf : ∀ t, AEStronglyMeasurable (f t) P) (hg : ∀ t, AEStronglyMeasurable (g t) P) :
    ∀ ε > 0, ∀ᶠ t : ℝ in 𝓝 0, |∫ ω, f t ω ∂P - ∫ ω, g t ω ∂P| ≤ ε * |t| ^ (r + 1) := by
  intro ε hε
  filter_upwards [h.diff ε hε, h.integrable hf hg] with t a b
  rw [← integral_sub b.1 b.2]
  have := norm_integral_le_of_norm_le_const (μ := P) (f := fun ω => f t ω - g t ω) a
  simpa using this

theorem Near.integral (h : Near P r f g) (hf : ∀ t, AEStronglyMeasurable (f t) P) (hg : ∀ t, AEStronglyMeasurable (g t) P) :
    (fun t : ℝ => ∫ ω, g t ω ∂P - ∫ ω, f t ω ∂P) =o[𝓝 0] fun t : ℝ => t ^ (r + 1) := by
  refine isLittleO_iff.2 fun ε hε => ?_
  filter_upwards [h.integral_diff hf hg ε hε] with t a
  rw [Real.norm_eq_abs, abs_sub_comm, Real.norm_eq_abs, abs_pow]
  exact a

/-- subtracting the means -/
theorem Near.centre (h : Near P 1 f g) (hf : ∀ t, AEStronglyMeasurable (f t) P) (hg : ∀ t, AEStronglyMeasurable (g t) P) :
    Near P 1 (fun t ω => f t ω - ∫ ω', f t ω' ∂P) (fun t ω => g t ω - ∫ ω', g t ω' ∂P) := by
  refine ⟨fun ε hε => ?_, ?_⟩
  · filter_upwards [h.diff (ε / 2) (by positivity), h.integral_diff hf hg (ε / 2) (by positivity)] with t a b
    filter_upwards [a] with ω ha
    have e : f t ω - ∫ ω', f t ω' ∂P - (g t ω - ∫ ω', g t ω' ∂P) = (f t ω - g t ω) - (∫ ω', f t ω' ∂P - ∫ ω', g t ω' ∂P) := by ring
    rw [e]
    exact (abs_sub (f t ω - g t ω) (∫ ω', f t ω' ∂P - ∫ ω', g t ω' ∂P)).trans ((add_le_add ha b).trans (le_of_eq (by ring)))
  · obtain ⟨K, hK, h1⟩ := h.size
    refine ⟨2 * K, by positivity, ?_⟩
    filter_upwards [h1] with t a
    have hI : |∫ ω', g t ω' ∂P| ≤ K * |t| ^ 1 := by simpa using norm_integral_le_of_norm_le_const (μ := P) (f := g t) a
    filter_upwards [a] with ω ha
    have := abs_sub (g t ω) (∫ ω', g t ω' ∂P)
    linarith

/-- subtracting a constant first does not matter -/
theorem centre_const {q : Ω → ℝ} (hq : Integrable q P) (c : ℝ) (ω : Ω) : c + q ω - ∫ ω', (c + q ω') ∂P = q ω - ∫ ω', q ω' ∂P := by
  rw [integral_add (integrable_const c) hq]
  simp

end Unc.Law2
