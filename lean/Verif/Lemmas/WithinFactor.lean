import Verif.Spec.Float
import Mathlib.Analysis.SpecialFunctions.Pow.NNReal
import Mathlib.Tactic.Linarith
import Mathlib.Tactic.FieldSimp

/-!
# Numbers which differ from others by a factor
-/

namespace Unc.Spec

/-- `x` is between `l` times and `1 / l` times the positive number `X` -/
structure WithinFactor (l x X : ℝ) : Prop where
  pos : 0 < l
  one : l ≤ 1
  big : 0 < X
  low : l * X ≤ x
  up : l * x ≤ X

namespace WithinFactor
variable {l l' x X y Y u : ℝ}

theorem val_pos (h : WithinFactor l x X) : 0 < x := lt_of_lt_of_le (mul_pos h.pos h.big) h.low

theorem mul (h : WithinFactor l x X) (k : WithinFactor l' y Y) : WithinFactor (l * l') (x * y) (X * Y) where
  pos := mul_pos h.pos k.pos
  one := mul_le_one₀ h.one k.pos.le k.one
  big := mul_pos h.big k.big
  low := by
    have := mul_le_mul h.low k.low (mul_pos k.pos k.big).le h.val_pos.le
    linarith
  up := by
    have := mul_le_mul h.up k.up (mul_pos k.pos k.val_pos).le h.big.le
    linarith

theorem sqrt (h : WithinFactor l x X) : WithinFactor (Real.sqrt l) (Real.sqrt x) (Real.sqrt X) where
  pos := Real.sqrt_pos.2 h.pos
  one := by rw [← Real.sqrt_one]; exact Real.sqrt_le_sqrt h.one
  big := Real.sqrt_pos.2 h.big
  low := by rw [← Real.sqrt_mul h.pos.le]; exact Real.sqrt_le_sqrt h.low
  up := by rw [← Real.sqrt_mul h.pos.le]; exact Real.sqrt_le_sqrt h.up

theorem rd {r : ℝ → ℝ} (hu : Acc r u) (h : WithinFactor l x X) : WithinFactor (l * (1 - u)) (r x) X := by
  have p := h.val_pos
  have e := abs_le.1 (hu.err x)
  rw [abs_of_pos p] at e
  have u1 := hu.lt
  have u0 := hu.nonneg
  refine ⟨mul_pos h.pos (by linarith), mul_le_one₀ h.one (by linarith) (by linarith), h.big, ?_, ?_⟩
  · have := mul_le_mul_of_nonneg_right h.low (show 0 ≤ 1 - u by linarith)
    nlinarith
  · have h1 : (1 - u) * r x ≤ x := by
      have : (1 - u) * r x ≤ (1 - u) * ((1 + u) * x) := mul_le_mul_of_nonneg_left (by linarith [e.2]) (by linarith)
      nlinarith [mul_nonneg (mul_nonneg u0 u0) p.le]
    have := mul_le_mul_of_nonneg_left h1 h.pos.le
    linarith [h.up]

theorem start {θ : ℝ} (X0 : 0 < X) (e : |x - X| ≤ θ * X) (θ1 : θ < 1) : WithinFactor (1 - θ) x X := by
  have θ0 : 0 ≤ θ := by
    by_contra h
    have := (abs_nonneg _).trans e
    nlinarith
  have e' := abs_le.1 e
  refine ⟨by linarith, by linarith, X0, by linarith, ?_⟩
  have : (1 - θ) * x ≤ (1 - θ) * ((1 + θ) * X) := mul_le_mul_of_nonneg_left (by linarith [e'.2]) (by linarith)
  nlinarith [mul_nonneg (mul_nonneg θ0 θ0) X0.le]

/-- a rounded quotient -/
theorem quot {r : ℝ → ℝ} (hu : Acc r u) (h : WithinFactor l x X) {n N η : ℝ} (e : |n - N| ≤ η * X) :
    |r (n / x) - N / X| ≤ (|N / X| + η) * ((1 + u) / l) - |N / X| := by
  have u1 := hu.lt
  have u0 := hu.nonneg
  have p := h.val_pos
  have X0 := h.big
  have η0 : |n / X - N / X| ≤ η := by
    rw [← sub_div, abs_div, abs_of_pos X0, div_le_iff₀ X0]; exact e
  set q := X / x with hq
  have q1 : l ≤ q := by rw [hq, le_div_iff₀ p]; exact h.up
  have q2 : q ≤ 1 / l := by rw [hq, div_le_div_iff₀ p h.pos]; linarith [h.low]
  have l1 : 1 ≤ 1 / l := by rw [le_div_iff₀ h.pos]; linarith [h.one]
  have l2 : 2 ≤ 1 / l + l := by
    have : 1 / l * l = 1 := by rw [one_div, inv_mul_cancel₀ h.pos.ne']
    nlinarith [mul_nonneg (sub_nonneg.2 l1) (sub_nonneg.2 h.one)]
  have q0 : 0 < q := lt_of_lt_of_le h.pos q1
  have hn : n / x = n / X * q := by rw [hq]; field_simp
  have d1 : |q - 1| ≤ 1 / l - 1 := by rw [abs_le]; constructor <;> linarith
  have a1 : |n / X| ≤ |N / X| + η := by
    have := abs_sub_abs_le_abs_sub (n / X) (N / X); linarith
  have b1 : |r (n / x) - n / x| ≤ u * ((|N / X| + η) * (1 / l)) := by
    refine (hu.err _).trans (mul_le_mul_of_nonneg_left ?_ u0)
    rw [hn, abs_mul, abs_of_pos q0]
    exact mul_le_mul a1 q2 q0.le ((abs_nonneg _).trans a1)
  have b2 : |n / x - N / X| ≤ η * (1 / l) + |N / X| * (1 / l - 1) := by
    have : n / x - N / X = (n / X - N / X) * q + N / X * (q - 1) := by rw [hn]; ring
    rw [this]
    refine (abs_add_le _ _).trans (add_le_add ?_ ?_)
    · rw [abs_mul, abs_of_pos q0]
      exact mul_le_mul η0 q2 q0.le ((abs_nonneg _).trans η0)
    · rw [abs_mul]; exact mul_le_mul_of_nonneg_left d1 (abs_nonneg _)
  calc |r (n / x) - N / X| = |(r (n / x) - n / x) + (n / x - N / X)| := by congr 1; ring
    _ ≤ u * ((|N / X| + η) * (1 / l)) + (η * (1 / l) + |N / X| * (1 / l - 1)) := (abs_add_le _ _).trans (add_le_add b1 b2)
    _ = _ := by ring

end WithinFactor
end Unc.Spec
