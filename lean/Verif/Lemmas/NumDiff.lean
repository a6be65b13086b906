import Verif.Spec.NumDiff
import Verif.Model.FloatMath
import Verif.Model.Moments
import Verif.Spec.Units
import Mathlib.Analysis.Calculus.MeanValue
import Mathlib.Analysis.Calculus.Deriv.Pow
import Mathlib.Tactic.Linarith
import Mathlib.Tactic.FieldSimp
import Mathlib.Tactic.Positivity
import Mathlib.Tactic.Ring

/-!
# Lemmas for the errors of numerical derivatives
-/

namespace Unc.NumDiff
open Unc.Spec FP Set

/-! ## Taylor's formula -/

theorem pow_bound_pos {g g' : ℝ → ℝ} {K ρ : ℝ} {n : ℕ} (h : ∀ t, |t| ≤ ρ → HasDerivAt g (g' t) t) (h0 : g 0 = 0) (hb : ∀ t, |t| ≤ ρ → |g' t| ≤ K * |t| ^ n)
    {t : ℝ} (ht : 0 ≤ t) (htρ : t ≤ ρ) : |g t| ≤ K * t ^ (n + 1) / (n + 1) := by
  have habs : ∀ s ∈ Icc 0 t, |s| ≤ ρ := fun s hs => by rw [abs_of_nonneg hs.1]; exact hs.2.trans htρ
  refine image_norm_le_of_norm_deriv_right_le_deriv_boundary (f := g) (f' := g') (a := 0) (b := t) (B := fun s => K * s ^ (n + 1) / (n + 1)) (B' := fun s => K * s ^ n)
    (fun s hs => (h s (habs s hs)).continuousAt.continuousWithinAt) (fun s hs => (h s (habs s ⟨hs.1, hs.2.le⟩)).hasDerivWithinAt) (by simp [h0]) (fun s => ?_)
    (fun s hs => ?_) ⟨ht, le_rfl⟩
  · have := ((hasDerivAt_pow (n + 1) s).const_mul K).div_const ((n : ℝ) + 1)
    convert! this using 1
    have : (n : ℝ) + 1 ≠ 0 := by positivity
    simp only [Nat.cast_add, Nat.cast_one, Nat.add_sub_cancel]
    field_simp
  · have := hb s (habs s ⟨hs.1, hs.2.le⟩)
    rwa [abs_of_nonneg hs.1] at this

theorem pow_bound {g g' : ℝ → ℝ} {K ρ : ℝ} {n : ℕ} (h : ∀ t, |t| ≤ ρ → HasDerivAt g (g' t) t) (h0 : g 0 = 0) (hb : ∀ t, |t| ≤ ρ → |g' t| ≤ K * |t| ^ n)
    {t : ℝ} (ht : |t| ≤ ρ) : |g t| ≤ K * |t| ^ (n + 1) / (n + 1) := by
  rcases le_total 0 t with h1 | h1
  · rw [abs_of_nonneg h1] at ht ⊢
    exact pow_bound_pos h h0 hb h1 ht
  · rw [abs_of_nonpos h1] at ht ⊢
    have := pow_bound_pos (g := fun s => g (-s)) (g' := fun s => -g' (-s)) (K := K) (ρ := ρ) (n := n) (fun s hs => by
        have := (h (-s) (by rwa [abs_neg])).comp s (hasDerivAt_neg s)
        rw [mul_neg_one] at this
        exact this) (by simp [h0]) (fun s hs => by
        have := hb (-s) (by rwa [abs_neg])
        rwa [abs_neg, ← abs_neg s]) (t := -t) (by linarith) ht
    simpa using this

theorem taylor_aux {B ρ : ℝ} : ∀ (n : ℕ) (D : ℕ → ℝ → ℝ), (∀ k < n, ∀ t, |t| ≤ ρ → HasDerivAt (D k) (D (k + 1) t) t) → (∀ t, |t| ≤ ρ → |D n t| ≤ B) →
    ∀ t, |t| ≤ ρ → |D 0 t - ∑ k ∈ Finset.range n, D k 0 * t ^ k / k.factorial| ≤ B * |t| ^ n / n.factorial
  | 0, D, _, hB, t, ht => by simpa using hB t ht
  | n + 1, D, hD, hB, t, ht => by
    have ih := taylor_aux n (fun k => D (k + 1)) (fun k hk => hD (k + 1) (by omega)) hB
    have key := pow_bound (g := fun s => D 0 s - ∑ k ∈ Finset.range (n + 1), D k 0 * s ^ k / k.factorial)
      (g' := fun s => D 1 s - ∑ k ∈ Finset.range n, D (k + 1) 0 * s ^ k / k.factorial) (K := B / n.factorial) (ρ := ρ) (n := n) (fun s hs => ?_) ?_ (fun s hs => ?_) ht
    · refine key.trans (le_of_eq ?_)
      rw [Nat.factorial_succ]
      push_cast
      have h1 : (n : ℝ) + 1 ≠ 0 := by positivity
      have h2 : (n.factorial : ℝ) ≠ 0 := by positivity
      field_simp
    · refine (hD 0 (by omega) s hs).sub ?_
      have e : (fun s : ℝ => ∑ k ∈ Finset.range (n + 1), D k 0 * s ^ k / k.factorial) =
          fun s => (∑ k ∈ Finset.range n, D (k + 1) 0 * s ^ (k + 1) / (k + 1).factorial) + D 0 0 := by
        funext s
        rw [Finset.sum_range_succ']
        simp
      rw [e]
      refine HasDerivAt.add_const _ (HasDerivAt.fun_sum fun k _ => ?_)
      have := ((hasDerivAt_pow (k + 1) s).const_mul (D (k + 1) 0)).div_const ((k + 1).factorial : ℝ)
      convert! this using 1
      rw [Nat.factorial_succ]
      push_cast
      have h1 : (k : ℝ) + 1 ≠ 0 := by positivity
      have h2 : (k.factorial : ℝ) ≠ 0 := by positivity
      field_simp
    · rw [Finset.sum_range_succ']; simp
    · have := ih s hs
      rw [div_mul_eq_mul_div]
      simpa using this

theorem taylor {n : ℕ} {g : ℝ → ℝ} {d : ℕ → ℝ} {B ρ : ℝ} (h : Smooth n g d B ρ) {t : ℝ} (ht : |t| ≤ ρ) :
    |g t - ∑ k ∈ Finset.range n, d k * t ^ k / k.factorial| ≤ B * |t| ^ n / n.factorial := by
  obtain ⟨D, rfl, h1, h2, h3⟩ := h
  have := taylor_aux n D h1 h3 t ht
  rwa [Finset.sum_congr rfl fun k hk => by rw [h2 k (Finset.mem_range.1 hk)]] at this

/-- forward difference -/
theorem forward {g : ℝ → ℝ} {d : ℕ → ℝ} {B h : ℝ} (hg : Smooth 2 g d B h) (hh : 0 ≤ h) : |g h - g 0 - h * d 1| ≤ B * h ^ 2 / 2 := by
  have h1 := taylor hg (t := h) (by rw [abs_of_nonneg hh])
  have e0 : g 0 = d 0 := by obtain ⟨D, rfl, -, h2, -⟩ := hg; exact h2 0 (by omega)
  simp only [Finset.sum_range_succ, Finset.sum_range_zero, Nat.factorial] at h1
  rw [abs_of_nonneg hh] at h1
  rw [e0]
  convert! h1 using 2
  push_cast; ring

/-- central difference -/
theorem central {g : ℝ → ℝ} {d : ℕ → ℝ} {B h : ℝ} (hg : Smooth 3 g d B h) (hh : 0 ≤ h) : |g h - g (-h) - 2 * h * d 1| ≤ B * h ^ 3 / 3 := by
  have h1 := taylor hg (t := h) (by rw [abs_of_nonneg hh])
  have h2 := taylor hg (t := -h) (by rw [abs_neg, abs_of_nonneg hh])
  simp only [Finset.sum_range_succ, Finset.sum_range_zero, Nat.factorial, abs_neg] at h1 h2
  rw [abs_of_nonneg hh] at h1 h2
  norm_num at h1 h2
  rw [abs_le] at *
  constructor <;> nlinarith [h1.1, h1.2, h2.1, h2.2]

/-- second difference -/
theorem second {g : ℝ → ℝ} {d : ℕ → ℝ} {B h : ℝ} (hg : Smooth 4 g d B h) (hh : 0 ≤ h) : |g h + g (-h) - 2 * g 0 - h ^ 2 * d 2| ≤ B * h ^ 4 / 12 := by
  have h1 := taylor hg (t := h) (by rw [abs_of_nonneg hh])
  have h2 := taylor hg (t := -h) (by rw [abs_neg, abs_of_nonneg hh])
  have e0 : g 0 = d 0 := by obtain ⟨D, rfl, -, h2, -⟩ := hg; exact h2 0 (by omega)
  simp only [Finset.sum_range_succ, Finset.sum_range_zero, Nat.factorial, abs_neg] at h1 h2
  rw [abs_of_nonneg hh] at h1 h2
  rw [e0]
  norm_num at h1 h2
  rw [abs_le] at *
  constructor <;> nlinarith [h1.1, h1.2, h2.1, h2.2]

/-! ## rounded quotients -/

variable {f : Fmt} {u : ℝ}

/-- the quotient of a rounded numerator near `v * w` by a rounded denominator near `w` -/
theorem quot (ha : Acc f.rd u) (hu : u ≤ 1 / 8) {N v w e D : ℝ} (hw : 0 < w) (hN : |N - v * w| ≤ e) (hD : |D - w| ≤ u * w) :
    |f.rd (f.rd N / D) - v| ≤ (1 + 4 * u) * (e / w) + 4 * u * |v| := by
  have u0 := ha.nonneg
  have hDp : 0 < D := by have := (abs_le.1 hD).1; nlinarith
  have h1 := ha.err N
  have h2 := ha.err (f.rd N / D)
  -- relative to `N / w`
  have q : |f.rd (f.rd N / D) - N / w| ≤ 4 * u * |N / w| := by
    have hNw : |N| = |N / w| * w := by rw [abs_div, abs_of_pos hw, div_mul_cancel₀ _ hw.ne']
    have a1 : |f.rd N / D - N / w| ≤ 5 / 2 * u * |N / w| := by
      have e1 : f.rd N / D - N / w = ((f.rd N - N) - N / w * (D - w)) / D := by field_simp; ring
      rw [e1, abs_div, abs_of_pos hDp, div_le_iff₀ hDp]
      have b1 : |f.rd N - N - N / w * (D - w)| ≤ u * (|N / w| * w) + |N / w| * (u * w) := by
        refine (abs_sub _ _).trans (add_le_add ?_ ?_)
        · rw [← hNw]; exact h1
        · rw [abs_mul]; exact mul_le_mul_of_nonneg_left hD (abs_nonneg _)
      have b2 : 7 / 8 * w ≤ D := by have := (abs_le.1 hD).1; nlinarith
      have b3 : 0 ≤ u * |N / w| := mul_nonneg u0 (abs_nonneg _)
      nlinarith
    have a2 : |f.rd N / D| ≤ (1 + 5 / 2 * u) * |N / w| := by
      have := abs_sub_abs_le_abs_sub (f.rd N / D) (N / w)
      linarith
    have a3 := abs_sub_le (f.rd (f.rd N / D)) (f.rd N / D) (N / w)
    have a4 : u * |f.rd N / D| ≤ u * ((1 + 5 / 2 * u) * |N / w|) := mul_le_mul_of_nonneg_left a2 u0
    have b3 : 0 ≤ u * |N / w| := mul_nonneg u0 (abs_nonneg _)
    nlinarith
  have hv : |N / w - v| ≤ e / w := by
    have : N / w - v = (N - v * w) / w := by field_simp
    rw [this, abs_div, abs_of_pos hw]
    exact div_le_div_of_nonneg_right hN hw.le
  have hNv : |N / w| ≤ |v| + e / w := by have := abs_sub_abs_le_abs_sub (N / w) v; linarith
  have := abs_sub_le (f.rd (f.rd N / D)) (N / w) v
  have : 4 * u * |N / w| ≤ 4 * u * (|v| + e / w) := mul_le_mul_of_nonneg_left hNv (by linarith)
  nlinarith

/-- a sum, rounded -/
theorem rd_near (ha : Acc f.rd u) {x y e : ℝ} (h : |x - y| ≤ e) {B : ℝ} (hB : |x| ≤ B) : |f.rd x - y| ≤ e + u * B := by
  have h1 := ha.err x
  have h2 := abs_sub_le (f.rd x) x y
  have h3 := mul_le_mul_of_nonneg_left hB ha.nonneg
  linarith

theorem rd_abs (ha : Acc f.rd u) {x B : ℝ} (h : |x| ≤ B) : |f.rd x| ≤ (1 + u) * B := by
  have h1 := ha.err x
  have h2 := abs_sub_abs_le_abs_sub (f.rd x) x
  have h3 := mul_le_mul_of_nonneg_left h ha.nonneg
  linarith

/-! ## values of the function -/

/-- the rounding of the displaced point -/
theorem point_add (ha : Acc f.rd u) {a s : FP f} (hs : 0 ≤ s.val) : |(a + s).val - (a.val + s.val)| ≤ u * (|a.val| + s.val) := by
  rw [val_add]
  refine (ha.err _).trans (mul_le_mul_of_nonneg_left ((abs_add_le _ _).trans ?_) ha.nonneg)
  rw [abs_of_nonneg hs]

theorem point_sub (ha : Acc f.rd u) {a s : FP f} (hs : 0 ≤ s.val) : |(a - s).val - (a.val + -s.val)| ≤ u * (|a.val| + s.val) := by
  rw [val_sub]
  refine (ha.err _).trans (mul_le_mul_of_nonneg_left ((abs_sub _ _).trans ?_) ha.nonneg)
  rw [abs_of_nonneg hs]

variable {I : FP f → FP f} {F : ℝ → ℝ} {c B0 B1 a ρ : ℝ}

theorem near1_val (h : Fits1 I F c B0 B1 a ρ) (hc : 0 ≤ c) (hB : 0 ≤ B1) {y : FP f} {t η : ℝ} (hy : |y.val - (a + t)| ≤ η) (ht : |t| + η ≤ ρ) :
    |(I y).val - F (a + t)| ≤ c * B0 + B1 * η ∧ |(I y).val| ≤ (1 + c) * B0 := by
  have hη : 0 ≤ η := (abs_nonneg _).trans hy
  have h1 : |y.val - a| ≤ ρ := by
    have := abs_add_le (y.val - (a + t)) t
    rw [show y.val - (a + t) + t = y.val - a by ring] at this
    linarith
  have h2 : |a + t - a| ≤ ρ := by rw [add_sub_cancel_left]; linarith
  have e1 := h.err y h1
  have b1 := h.bound _ h1
  have l1 := h.lip _ _ h1 h2
  have m1 := mul_le_mul_of_nonneg_left b1 hc
  have m2 := mul_le_mul_of_nonneg_left hy hB
  refine ⟨?_, ?_⟩
  · have := abs_sub_le (I y).val (F y.val) (F (a + t))
    linarith
  · have := abs_sub_abs_le_abs_sub (I y).val (F y.val)
    linarith

variable {J : FP f → FP f → FP f} {G : ℝ → ℝ → ℝ} {b : ℝ}

theorem near2_val (h : Fits2 J G c B0 B1 a b ρ) (hc : 0 ≤ c) (hB : 0 ≤ B1) {y z : FP f} {s t η θ : ℝ} (hy : |y.val - (a + s)| ≤ η) (hz : |z.val - (b + t)| ≤ θ)
    (hs : |s| + η ≤ ρ) (ht : |t| + θ ≤ ρ) : |(J y z).val - G (a + s) (b + t)| ≤ c * B0 + B1 * (η + θ) ∧ |(J y z).val| ≤ (1 + c) * B0 := by
  have hη : 0 ≤ η := (abs_nonneg _).trans hy
  have hθ : 0 ≤ θ := (abs_nonneg _).trans hz
  have h1 : |y.val - a| ≤ ρ := by
    have := abs_add_le (y.val - (a + s)) s
    rw [show y.val - (a + s) + s = y.val - a by ring] at this
    linarith
  have h1' : |z.val - b| ≤ ρ := by
    have := abs_add_le (z.val - (b + t)) t
    rw [show z.val - (b + t) + t = z.val - b by ring] at this
    linarith
  have h2 : |a + s - a| ≤ ρ := by rw [add_sub_cancel_left]; linarith
  have h2' : |b + t - b| ≤ ρ := by rw [add_sub_cancel_left]; linarith
  have e1 := h.err y z h1 h1'
  have b1 := h.bound _ _ h1 h1'
  have l1 := h.lip _ _ _ _ h1 h1' h2 h2'
  have m1 := mul_le_mul_of_nonneg_left b1 hc
  have m2 := mul_le_mul_of_nonneg_left (add_le_add hy hz) hB
  refine ⟨?_, ?_⟩
  · have := abs_sub_le (J y z).val (G y.val z.val) (G (a + s) (b + t))
    linarith
  · have := abs_sub_abs_le_abs_sub (J y z).val (G y.val z.val)
    linarith

/-- one argument fixed -/
theorem near2_left (h : Fits2 J G c B0 B1 a b ρ) (hρ : 0 ≤ ρ) {z : FP f} (hz : z.val = b) : Fits1 (fun y => J y z) (fun s => G s b) c B0 B1 a ρ where
  err y hy := by have := h.err y z hy (by rw [hz, sub_self, abs_zero]; exact hρ); rwa [hz] at this
  bound s hs := h.bound s b hs (by rw [sub_self, abs_zero]; exact hρ)
  lip s t hs ht := by
    have := h.lip s b t b hs (by rw [sub_self, abs_zero]; exact hρ) ht (by rw [sub_self, abs_zero]; exact hρ)
    simpa using this

theorem near2_right (h : Fits2 J G c B0 B1 a b ρ) (hρ : 0 ≤ ρ) {y : FP f} (hy : y.val = a) : Fits1 (fun z => J y z) (fun t => G a t) c B0 B1 b ρ where
  err z hz := by have := h.err y z (by rw [hy, sub_self, abs_zero]; exact hρ) hz; rwa [hy] at this
  bound t ht := h.bound a t (by rw [sub_self, abs_zero]; exact hρ) ht
  lip s t hs ht := by
    have := h.lip a s a t (by rw [sub_self, abs_zero]; exact hρ) hs (by rw [sub_self, abs_zero]; exact hρ) ht
    simpa using this

/-! ## the difference quotients -/

/-- `(f(mu + step) - f(mu)) / step` -/
theorem forward_fp (ha : Acc f.rd u) (hu : u ≤ 1 / 8) {n st : FP f} (hst : 0 < st.val) (hc : 0 ≤ c) (hB : 0 ≤ B1) (hI : Fits1 I F c B0 B1 n.val ρ)
    (hρ : st.val + u * (|n.val| + st.val) ≤ ρ) {d : ℕ → ℝ} {B2 : ℝ} (hF : Smooth 2 (fun t => F (n.val + t)) d B2 st.val) :
    |((I (n + st) - I n) / st).val - d 1| ≤
      (1 + 4 * u) * ((2 * c * B0 + B1 * (u * (|n.val| + st.val)) + B2 * st.val ^ 2 / 2) / st.val) + 4 * u * |d 1| := by
  have h1 := (near1_val hI hc hB (y := n + st) (t := st.val) (point_add ha hst.le) (by rw [abs_of_pos hst]; exact hρ)).1
  have hρ0 : 0 ≤ ρ := by
    have := mul_nonneg ha.nonneg (add_nonneg (abs_nonneg n.val) hst.le)
    linarith
  have h2 := (near1_val hI hc hB (y := n) (t := 0) (η := 0) (by simp) (by simpa using hρ0)).1
  have h3 := forward hF hst.le
  rw [val_div, val_sub]
  refine quot ha hu hst ?_ (by rw [sub_self, abs_zero]; exact mul_nonneg ha.nonneg hst.le)
  simp only [add_zero, mul_zero] at h2 h3
  rw [abs_le] at *
  constructor <;> nlinarith [h1.1, h1.2, h2.1, h2.2, h3.1, h3.2]

/-- doubling is exact -/
theorem two_mul_fp (h2 : TwoScaled f) (y : FP f) : ((Mom.lit 2 : FP f) * y).val = 2 * y.val := by
  have e2 : (Mom.lit 2 : FP f).val = 2 := by
    show f.rd ((2 : ℕ) : ℝ) = 2
    have := h2 1 1
    rw [f.one] at this
    simpa using this
  have := h2 1 y.val
  rw [zpow_one, y.rep] at this
  rw [val_mul, e2, this]

/-- `(f(mu + step) - f(mu - step)) / (2 * step)` -/
theorem central_fp (ha : Acc f.rd u) (hu : u ≤ 1 / 8) (h2 : TwoScaled f) {n st : FP f} (hst : 0 < st.val) (hc : 0 ≤ c) (hB : 0 ≤ B1) (hI : Fits1 I F c B0 B1 n.val ρ)
    (hρ : st.val + u * (|n.val| + st.val) ≤ ρ) {d : ℕ → ℝ} {B3 : ℝ} (hF : Smooth 3 (fun t => F (n.val + t)) d B3 st.val) :
    |((I (n + st) - I (n - st)) / (Mom.lit 2 * st)).val - d 1| ≤
      (1 + 4 * u) * ((2 * c * B0 + 2 * B1 * (u * (|n.val| + st.val)) + B3 * st.val ^ 3 / 3) / (2 * st.val)) + 4 * u * |d 1| := by
  have h1 := (near1_val hI hc hB (y := n + st) (t := st.val) (point_add ha hst.le) (by rw [abs_of_pos hst]; exact hρ)).1
  have h1' := (near1_val hI hc hB (y := n - st) (t := -st.val) (point_sub ha hst.le) (by rw [abs_neg, abs_of_pos hst]; exact hρ)).1
  have h3 := central hF hst.le
  rw [val_div, val_sub, two_mul_fp h2]
  refine quot ha hu (by linarith) ?_ (by rw [sub_self, abs_zero]; exact mul_nonneg ha.nonneg (by linarith))
  rw [abs_le] at *
  constructor <;> nlinarith [h1.1, h1.2, h1'.1, h1'.2, h3.1, h3.2]

theorem sum_rd (ha : Acc f.rd u) {y z : FP f} {M : ℝ} (hy : |y.val| ≤ M) (hz : |z.val| ≤ M) : |(y + z).val - (y.val + z.val)| ≤ u * (2 * M) := by
  rw [val_add]
  refine (ha.err _).trans (mul_le_mul_of_nonneg_left ((abs_add_le _ _).trans ?_) ha.nonneg)
  linarith

theorem step_sq (ha : Acc f.rd u) (st : FP f) : |(st * st).val - st.val ^ 2| ≤ u * st.val ^ 2 := by
  have := ha.err (st.val * st.val)
  rw [val_mul, pow_two]
  rwa [abs_of_nonneg (mul_self_nonneg st.val)] at this

/-- `(f(mu + step) + f(mu - step) - 2 * f(mu)) / (step * step)` -/
theorem second_fp (ha : Acc f.rd u) (hu : u ≤ 1 / 8) (h2 : TwoScaled f) {n st : FP f} (hst : 0 < st.val) (hc : 0 ≤ c) (hB : 0 ≤ B1) (hI : Fits1 I F c B0 B1 n.val ρ)
    (hρ : st.val + u * (|n.val| + st.val) ≤ ρ) {d : ℕ → ℝ} {B4 : ℝ} (hF : Smooth 4 (fun t => F (n.val + t)) d B4 st.val) :
    |((I (n + st) + I (n - st) - Mom.lit 2 * I n) / (st * st)).val - d 2| ≤
      (1 + 4 * u) * ((4 * c * B0 + 2 * u * ((1 + c) * B0) + 2 * B1 * (u * (|n.val| + st.val)) + B4 * st.val ^ 4 / 12) / st.val ^ 2) + 4 * u * |d 2| := by
  obtain ⟨h1, m1⟩ := near1_val hI hc hB (y := n + st) (t := st.val) (point_add ha hst.le) (by rw [abs_of_pos hst]; exact hρ)
  obtain ⟨h1', m1'⟩ := near1_val hI hc hB (y := n - st) (t := -st.val) (point_sub ha hst.le) (by rw [abs_neg, abs_of_pos hst]; exact hρ)
  have hρ0 : 0 ≤ ρ := by
    have := mul_nonneg ha.nonneg (add_nonneg (abs_nonneg n.val) hst.le)
    linarith
  have h0 := (near1_val hI hc hB (y := n) (t := 0) (η := 0) (by simp) (by simpa using hρ0)).1
  have h3 := second hF hst.le
  have h4 := sum_rd ha m1 m1'
  rw [val_div, val_sub, two_mul_fp h2]
  refine quot ha hu (pow_pos hst 2) ?_ (step_sq ha st)
  simp only [add_zero, mul_zero] at h0 h3
  rw [abs_le] at *
  constructor <;> nlinarith [h1.1, h1.2, h1'.1, h1'.2, h0.1, h0.2, h3.1, h3.2, h4.1, h4.2]

theorem diff_rd (ha : Acc f.rd u) (hu : u ≤ 1 / 8) {S1 S2 S3 : FP f} {M : ℝ} (b1 : |S1.val| ≤ (1 + u) * (2 * M)) (b2 : |S2.val| ≤ (1 + u) * (2 * M))
    (b3 : |S3.val| ≤ (1 + u) * (2 * M)) (M0 : 0 ≤ M) : |(S1 - S2 - S3).val - (S1.val - S2.val - S3.val)| ≤ u * (12 * M) := by
  have u0 := ha.nonneg
  have uM : u * M ≤ 1 / 8 * M := mul_le_mul_of_nonneg_right hu M0
  have c1 : |S1.val - S2.val| ≤ 9 / 2 * M := (abs_sub _ _).trans (by linarith)
  have k4 : |(S1 - S2).val - (S1.val - S2.val)| ≤ u * (9 / 2 * M) := by
    rw [val_sub]
    exact (ha.err _).trans (mul_le_mul_of_nonneg_left c1 u0)
  have b4 : |(S1 - S2).val| ≤ 81 / 16 * M := by
    rw [val_sub]
    exact (rd_abs ha c1).trans (by linarith)
  have c2 : |(S1 - S2).val - S3.val| ≤ 15 / 2 * M := (abs_sub _ _).trans (by linarith)
  have k5 : |(S1 - S2 - S3).val - ((S1 - S2).val - S3.val)| ≤ u * (15 / 2 * M) := by
    rw [val_sub (S1 - S2)]
    exact (ha.err _).trans (mul_le_mul_of_nonneg_left c2 u0)
  rw [abs_le] at k4 k5 ⊢
  constructor <;> linarith [k4.1, k4.2, k5.1, k5.2]

/-- the mixed difference -/
theorem mixed_fp (ha : Acc f.rd u) (hu : u ≤ 1 / 8) (h2 : TwoScaled f) {n m st : FP f} (hst : 0 < st.val) (hc : 0 ≤ c) (hB0 : 0 ≤ B0) (hB : 0 ≤ B1)
    (hJ : Fits2 J G c B0 B1 n.val m.val ρ) (hρ : st.val + u * (|n.val| + st.val) ≤ ρ) (hρ' : st.val + u * (|m.val| + st.val) ≤ ρ)
    {dx dy dd : ℕ → ℝ} {Bx By Bd s : ℝ} (hx : Smooth 4 (fun t => G (n.val + t) m.val) dx Bx st.val) (hy : Smooth 4 (fun t => G n.val (m.val + t)) dy By st.val)
    (hd : Smooth 4 (fun t => G (n.val + t) (m.val + t)) dd Bd st.val) (hs : dd 2 = dx 2 + 2 * s + dy 2) :
    |((J (n + st) (m + st) + J (n - st) (m - st) - (J (n + st) m + J (n - st) m) - (J n (m + st) + J n (m - st)) + Mom.lit 2 * J n m) / (Mom.lit 2 * (st * st))).val - s| ≤
      (1 + 4 * u) * ((8 * c * B0 + 18 * u * ((1 + c) * B0) + 4 * B1 * (u * (|n.val| + st.val) + u * (|m.val| + st.val)) + (Bd + Bx + By) * st.val ^ 4 / 12) /
        (2 * st.val ^ 2)) + 4 * u * |s| := by
  have u0 := ha.nonneg
  have hρ0 : 0 ≤ ρ := by
    have := mul_nonneg ha.nonneg (add_nonneg (abs_nonneg n.val) hst.le)
    linarith
  have p1 : |st.val| + u * (|n.val| + st.val) ≤ ρ := by rw [abs_of_pos hst]; exact hρ
  have p2 : |-st.val| + u * (|n.val| + st.val) ≤ ρ := by rw [abs_neg, abs_of_pos hst]; exact hρ
  have q1 : |st.val| + u * (|m.val| + st.val) ≤ ρ := by rw [abs_of_pos hst]; exact hρ'
  have q2 : |-st.val| + u * (|m.val| + st.val) ≤ ρ := by rw [abs_neg, abs_of_pos hst]; exact hρ'
  have z1 : |n.val - (n.val + 0)| ≤ 0 := by simp
  have z2 : |m.val - (m.val + 0)| ≤ 0 := by simp
  have z3 : |(0 : ℝ)| + 0 ≤ ρ := by simpa using hρ0
  have an := point_add ha (a := n) hst.le
  have sn := point_sub ha (a := n) hst.le
  have am := point_add ha (a := m) hst.le
  have sm := point_sub ha (a := m) hst.le
  obtain ⟨rr, rr'⟩ := near2_val hJ hc hB an am p1 q1
  obtain ⟨ll, ll'⟩ := near2_val hJ hc hB sn sm p2 q2
  obtain ⟨rc, rc'⟩ := near2_val hJ hc hB an z2 p1 z3
  obtain ⟨lc, lc'⟩ := near2_val hJ hc hB sn z2 p2 z3
  obtain ⟨cr, cr'⟩ := near2_val hJ hc hB z1 am z3 q1
  obtain ⟨cl, cl'⟩ := near2_val hJ hc hB z1 sm z3 q2
  obtain ⟨cc, -⟩ := near2_val hJ hc hB z1 z2 z3 z3
  have tx := second hx hst.le
  have ty := second hy hst.le
  have td := second hd hst.le
  simp only [add_zero, mul_zero] at rc lc cr cl cc tx ty td
  have M0 : 0 ≤ (1 + c) * B0 := mul_nonneg (by linarith) hB0
  have k1 := sum_rd ha rr' ll'
  have k2 := sum_rd ha rc' lc'
  have k3 := sum_rd ha cr' cl'
  have b1 : |(J (n + st) (m + st) + J (n - st) (m - st)).val| ≤ (1 + u) * (2 * ((1 + c) * B0)) := by
    rw [val_add]; exact rd_abs ha ((abs_add_le _ _).trans (by linarith))
  have b2 : |(J (n + st) m + J (n - st) m).val| ≤ (1 + u) * (2 * ((1 + c) * B0)) := by
    rw [val_add]; exact rd_abs ha ((abs_add_le _ _).trans (by linarith))
  have b3 : |(J n (m + st) + J n (m - st)).val| ≤ (1 + u) * (2 * ((1 + c) * B0)) := by
    rw [val_add]; exact rd_abs ha ((abs_add_le _ _).trans (by linarith))
  generalize (J (n + st) (m + st) + J (n - st) (m - st)) = S1 at *
  generalize (J (n + st) m + J (n - st) m) = S2 at *
  generalize (J n (m + st) + J n (m - st)) = S3 at *
  generalize (1 + c) * B0 = M at *
  have k4 := diff_rd ha hu b1 b2 b3 M0
  have hden : |(Mom.lit 2 * (st * st)).val - 2 * st.val ^ 2| ≤ u * (2 * st.val ^ 2) := by
    rw [two_mul_fp h2, ← mul_sub, abs_mul, abs_of_pos (by norm_num : (0 : ℝ) < 2)]
    have := step_sq ha st
    linarith
  rw [val_div, val_add, two_mul_fp h2 (J n m)]
  refine quot ha hu (by positivity) ?_ hden
  clear hden b1 b2 b3 rr' ll' rc' lc' cr' cl' an sn am sm z1 z2 z3 p1 p2 q1 q2 hx hy hd hJ
  rw [abs_le] at rr ll rc lc cr cl cc tx ty td k1 k2 k3 k4 ⊢
  rw [hs] at td
  have uM : 0 ≤ u * M := mul_nonneg u0 M0
  constructor
  · linarith [rr.1, ll.1, rc.2, lc.2, cr.2, cl.2, cc.1, tx.2, ty.2, td.1, k1.1, k2.2, k3.2, k4.1]
  · linarith [rr.2, ll.2, rc.1, lc.1, cr.1, cl.1, cc.2, tx.1, ty.1, td.2, k1.2, k2.1, k3.1, k4.2]

end Unc.NumDiff
