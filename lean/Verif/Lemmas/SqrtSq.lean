import Verif.Lemmas.Range

/-!
# The square root of a rounded square
-/

namespace Unc
variable {p : ℕ} {emin : ℤ}

theorem nearEven_near {y : ℝ} {n : ℤ} (h : |y - n| < 1 / 2) : nearEven y = n := by
  have e := nearEven_err y
  have : |((nearEven y - n : ℤ) : ℝ)| < 1 := by
    push_cast
    rw [abs_lt] at h ⊢
    rw [abs_le] at e
    constructor <;> linarith
  have h1 : |nearEven y - n| < 1 := by exact_mod_cast this
  rw [Int.abs_lt_one_iff] at h1
  omega

theorem near_one {t A D : ℝ} (hA : 0 < A) (hD : 0 < D) (h : t * (2 * A) ≤ A * D / 2) : t < D / 2 := by
  have : t * 4 * A ≤ D * A := by linarith
  have := le_of_mul_le_mul_right this hA
  linarith

theorem near_two {t A D : ℝ} (hA : 0 < A) (hD : 0 < D) (h : t * (2.8 * A) ≤ 2 * A * D / 2) : t < D / 2 := by
  have : t * 2.8 * A ≤ D * A := by linarith
  have := le_of_mul_le_mul_right this hA
  linarith

theorem le_of_sq {A z : ℝ} (hA : 0 < A) (hz : 0 < z) (h : 2 * (A * A) ≤ z * z) : 1.4 * A ≤ z :=
  abs_le_of_sq_le_sq' (by nlinarith) hz.le |>.2

/-- In a binary format without underflow the rounded square root of the rounded square is the number itself. -/
theorem ieee_sqrt_sq (hp : 1 ≤ p) (he : emin ≤ 0) {x : ℝ} (rep : (ieee p emin hp he).rd x = x) (hx : 0 < x) (hmin : (2 : ℝ) ^ emin ≤ x * x) :
    (ieee p emin hp he).rd (Real.sqrt ((ieee p emin hp he).rd (x * x))) = x := by
  have hx2 : 0 < x * x := mul_pos hx hx
  have pos : ∀ y, 0 < y → (ieee p emin hp he).rd y = ieeePos p emin y := fun y hy => by
    change ieeeRd p emin y = _
    rw [ieeeRd, if_pos hy]
  set k := Int.log 2 x with hk
  obtain ⟨k1, k2⟩ := log_bounds hx
  rw [← hk] at k1 k2
  have hle : (2 : ℝ) ^ emin ≤ x := by
    rcases le_total 1 x with h | h
    · exact le_trans (zpow_le_one_of_nonpos₀ (by norm_num) he) h
    · exact hmin.trans (by nlinarith)
  have ke : emin ≤ k := (Int.zpow_le_iff_le_log (b := 2) (by norm_num) hx).1 (by exact_mod_cast hle)
  have ex : expo emin x = k := expo_eq ke k1 k2
  set D : ℝ := 2 ^ (k - p + 1) with hD
  have D0 : 0 < D := two_zpow_pos _
  -- the number is a multiple of the distance
  obtain ⟨m, hm⟩ : ∃ m : ℤ, x = m * D := by
    rw [pos x hx, ieeePos, ex] at rep
    exact ⟨_, rep.symm⟩
  have mlt : m < 2 ^ p := by
    have h1 := pow_digits (p := p) k
    rw [← hD] at h1
    have : (m : ℝ) * D < 2 ^ p * D := by rw [h1, ← hm]; exact k2
    exact_mod_cast lt_of_mul_lt_mul_right this D0.le
  have top : x + D ≤ 2 ^ (k + 1) := by
    have h1 := pow_digits (p := p) k
    rw [← hD] at h1
    have : ((m + 1 : ℤ) : ℝ) ≤ ((2 ^ p : ℤ) : ℝ) := by exact_mod_cast mlt
    push_cast at this
    rw [← h1, hm]
    nlinarith
  set A : ℝ := 2 ^ k with hA
  have A0 : 0 < A := two_zpow_pos _
  have A1 : (2 : ℝ) ^ (k + 1) = 2 * A := by rw [zpow_add₀ (by norm_num), zpow_one]; ring
  -- the square
  set j := Int.log 2 (x * x) with hj
  obtain ⟨j1, j2⟩ := log_bounds hx2
  rw [← hj] at j1 j2
  have je : emin ≤ j := (Int.zpow_le_iff_le_log (b := 2) (by norm_num) hx2).1 (by exact_mod_cast hmin)
  have ej : expo emin (x * x) = j := expo_eq je j1 j2
  set y := (ieee p emin hp he).rd (x * x) with hy
  have y1 : |y - x * x| ≤ 2 ^ (j - p + 1) / 2 := by
    have := ieeePos_err (p := p) (emin := emin) (x * x)
    rw [ej] at this
    rw [hy, pos _ hx2]; exact this
  have y2 : (2 : ℝ) ^ j ≤ y := by rw [hy, pos _ hx2]; exact le_ieeePos hp ej j1
  have y0 : 0 < y := lt_of_lt_of_le (two_zpow_pos _) y2
  set z := Real.sqrt y with hz
  have z0 : 0 < z := Real.sqrt_pos.2 y0
  have zz : z * z = y := Real.mul_self_sqrt y0.le
  have AA : (2 : ℝ) ^ (2 * k) = A * A := by rw [two_mul, zpow_add₀ (by norm_num)]
  have key : A ≤ z ∧ |z - x| < D / 2 := by
    have split : j = 2 * k ∨ j = 2 * k + 1 := by
      have l1 : (2 : ℝ) ^ (2 * k) ≤ x * x := by rw [AA]; nlinarith
      have l2 : x * x < (2 : ℝ) ^ (2 * k + 2) := by
        rw [zpow_add₀ (by norm_num), AA]; rw [A1] at k2
        norm_num; nlinarith
      have m1 : 2 * k ≤ j := (Int.zpow_le_iff_le_log (b := 2) (by norm_num) hx2).1 (by exact_mod_cast l1)
      have m2 : j < 2 * k + 2 := (Int.lt_zpow_iff_log_lt (b := 2) (by norm_num) hx2).1 (by exact_mod_cast l2)
      omega
    have e0 : (z - x) * (z + x) = y - x * x := by rw [← zz]; ring
    have e1 : |z - x| * (z + x) ≤ 2 ^ (j - p + 1) / 2 := by
      rw [← abs_of_pos (add_pos z0 hx), ← abs_mul, e0]; exact y1
    rcases split with h | h
    · have e2 : (2 : ℝ) ^ (j - p + 1) = A * D := by
        rw [hA, hD, ← zpow_add₀ (by norm_num)]; congr 1; omega
      rw [h, AA] at y2
      have hAz : A ≤ z := by
        rw [hz]; exact Real.le_sqrt_of_sq_le (by nlinarith)
      refine ⟨hAz, ?_⟩
      rw [e2] at e1
      have : |z - x| * (2 * A) ≤ A * D / 2 := le_trans (mul_le_mul_of_nonneg_left (by linarith) (abs_nonneg _)) e1
      exact near_one A0 D0 this
    · have e2 : (2 : ℝ) ^ (j - p + 1) = 2 * A * D := by
        rw [hA, hD, mul_assoc, ← zpow_add₀ (by norm_num)]
        nth_rewrite 2 [← zpow_one (2 : ℝ)]
        rw [← zpow_add₀ (by norm_num)]; congr 1; omega
      have AA2 : (2 : ℝ) ^ (2 * k + 1) = 2 * (A * A) := by rw [zpow_add₀ (by norm_num), AA, zpow_one]; ring
      rw [h, AA2] at y2 j1
      have c1 : 1.4 * A ≤ z := le_of_sq A0 z0 (by rw [zz]; exact y2)
      have c2 : 1.4 * A ≤ x := le_of_sq A0 hx j1
      refine ⟨by linarith, ?_⟩
      rw [e2] at e1
      have : |z - x| * (2.8 * A) ≤ 2 * A * D / 2 := le_trans (mul_le_mul_of_nonneg_left (by linarith) (abs_nonneg _)) e1
      exact near_two A0 D0 this
  obtain ⟨hAz, hlt⟩ := key
  have hzt : z < 2 ^ (k + 1) := by
    have := (abs_lt.1 hlt).2
    linarith
  have ez : expo emin z = k := expo_eq ke hAz hzt
  rw [pos z z0, ieeePos, ez, ← hD]
  have : nearEven (z / D) = m := nearEven_near (by
    rw [show z / D - m = (z - x) / D by rw [hm]; field_simp, abs_div, abs_of_pos D0, div_lt_iff₀ D0]
    linarith)
  rw [this, hm]

end Unc
