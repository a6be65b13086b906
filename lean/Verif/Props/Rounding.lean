import Verif.Model.IEEE

/-!
# C68: the rounding of the model is the one of IEEE 754

Independent of how the rounding is computed: the numbers of the format are the `n * 2 ^ k` with at most `p` binary digits and a
limited exponent, and the result is the nearest one, with ties to the even one.
-/

namespace Unc.Props
open Unc

/-- the numbers with `p` binary digits and least exponent `emin`, as IEEE 754 defines them -/
def IeeeNumber (p : ℕ) (emin : ℤ) (y : ℝ) : Prop := ∃ n k : ℤ, |n| < 2 ^ p ∧ emin - p + 1 ≤ k ∧ y = n * 2 ^ k

/-- the unit in the last place of the numbers around `x`: `2 ^ q` where `x` is less than `2 ^ p` units, and at least half as many
unless `q` is the least possible -/
def UnitAt (p : ℕ) (emin : ℤ) (x : ℝ) (q : ℤ) : Prop :=
  |x| < 2 ^ p * 2 ^ q ∧ emin - p + 1 ≤ q ∧ (q = emin - p + 1 ∨ (2 : ℝ) ^ p * 2 ^ q ≤ 2 * |x|)

theorem nearEven_best (y : ℝ) (n : ℤ) : |(nearEven y : ℝ) - y| ≤ |n - y| ∧ (n ≠ nearEven y → |(nearEven y : ℝ) - y| = |n - y| → Even (nearEven y)) := by
  have h := Int.floor_add_fract y
  have h0 := Int.fract_nonneg y
  have h1 := Int.fract_lt_one y
  have hn : (n : ℝ) ≤ ⌊y⌋ ∨ (⌊y⌋ : ℝ) + 1 ≤ n := by
    rcases le_or_gt n ⌊y⌋ with h | h
    · exact Or.inl (by exact_mod_cast h)
    · exact Or.inr (by exact_mod_cast h)
  have hab : |(n : ℝ) - y| = if (n : ℝ) ≤ ⌊y⌋ then y - n else n - y := by
    split_ifs with c
    · rw [abs_of_nonpos (by linarith)]; ring
    · rw [abs_of_nonneg]; rcases hn with h | h
      · exact absurd h c
      · linarith
  have key : ∀ m : ℤ, nearEven y = m → m ≠ n → (n : ℝ) = m ∨ (n : ℝ) + 1 ≤ m ∨ (m : ℝ) + 1 ≤ n := by
    intro m _ hm
    rcases lt_or_gt_of_ne hm with h | h
    · exact Or.inr (Or.inr (by exact_mod_cast h))
    · exact Or.inr (Or.inl (by exact_mod_cast h))
  unfold nearEven at key ⊢
  split_ifs at key ⊢ with a b c
  · rw [abs_of_nonpos (by linarith)]
    refine ⟨by rw [hab]; split_ifs <;> [linarith; (rcases hn with h | h <;> linarith)], fun hne e => ?_⟩
    exfalso
    rw [hab] at e
    have := key _ rfl hne.symm
    split_ifs at e with c
    · exact hne (by exact_mod_cast (by linarith : (n : ℝ) = ⌊y⌋))
    · rcases hn with h | h <;> linarith
  · push_cast
    rw [abs_of_nonneg (by linarith)]
    refine ⟨by rw [hab]; split_ifs <;> [linarith; (rcases hn with h | h <;> linarith)], fun hne e => ?_⟩
    exfalso
    rw [hab] at e
    split_ifs at e with c
    · linarith
    · exact hne (by exact_mod_cast (by linarith : (n : ℝ) = ⌊y⌋ + 1))
  · rw [abs_of_nonpos (by linarith)]
    exact ⟨by rw [hab]; split_ifs <;> [linarith; (rcases hn with h | h <;> linarith)], fun _ _ => c⟩
  · push_cast
    rw [abs_of_nonneg (by linarith)]
    exact ⟨by rw [hab]; split_ifs <;> [linarith; (rcases hn with h | h <;> linarith)], fun _ _ => Int.even_add_one.2 c⟩

section
variable {p : ℕ} {emin : ℤ}

theorem unit_eq {x : ℝ} (hx : 0 < x) {q : ℤ} (h : UnitAt p emin x q) : q = expo emin x - p + 1 := by
  obtain ⟨h1, h2, h3⟩ := h
  rw [abs_of_pos hx] at h1 h3
  have e1 := pow_digits (p := p) (q + p - 1)
  rw [show q + (p : ℤ) - 1 - p + 1 = q by ring, show q + (p : ℤ) - 1 + 1 = q + p by ring] at e1
  rw [e1] at h1 h3
  have hle : expo emin x ≤ q + p - 1 := expo_le hx (by omega) (by rwa [show q + (p : ℤ) - 1 + 1 = q + p by ring])
  have hge : q + p - 1 ≤ expo emin x := by
    rcases h3 with h3 | h3
    · unfold expo; omega
    · have h4 : (2 : ℝ) ^ (q + p - 1) ≤ x := by
        rw [show q + (p : ℤ) = (q + p - 1) + 1 by ring, zpow_add_one₀ (by norm_num)] at h3
        linarith
      have : q + p - 1 ≤ Int.log 2 x := (Int.zpow_le_iff_le_log (b := 2) (by norm_num) hx).1 (by exact_mod_cast h4)
      unfold expo; omega
  omega

theorem ieeePos_spec (hp : 1 ≤ p) {x : ℝ} (hx : 0 < x) : IeeeNumber p emin (ieeePos p emin x) ∧
    ∀ y, IeeeNumber p emin y → |ieeePos p emin x - x| ≤ |y - x| ∧ (y ≠ ieeePos p emin x → |ieeePos p emin x - x| = |y - x| →
      ∃ n : ℤ, Even n ∧ ieeePos p emin x = n * 2 ^ (expo emin x - p + 1)) := by
  have hp' : (1 : ℤ) ≤ p := by exact_mod_cast hp
  have he : emin ≤ expo emin x := le_max_right _ _
  set q := expo emin x - p + 1 with hq
  have hq0 := two_zpow_pos q
  have hb : ∀ n : ℤ, |ieeePos p emin x - x| ≤ |n * 2 ^ q - x| ∧ ((n : ℝ) * 2 ^ q ≠ ieeePos p emin x → |ieeePos p emin x - x| = |n * 2 ^ q - x| →
      Even (nearEven (x / 2 ^ q))) := by
    intro n
    have sc : ∀ m : ℝ, |m * 2 ^ q - x| = |m - x / 2 ^ q| * 2 ^ q := by
      intro m
      rw [← abs_of_pos hq0, ← abs_mul, abs_of_pos hq0, sub_mul, div_mul_cancel₀ _ hq0.ne']
    obtain ⟨a, b⟩ := nearEven_best (x / 2 ^ q) n
    rw [ieeePos, ← hq, sc, sc]
    refine ⟨mul_le_mul_of_nonneg_right a hq0.le, fun h e => b ?_ (mul_right_cancel₀ hq0.ne' e)⟩
    rintro rfl; exact h rfl
  constructor
  · obtain ⟨h1, -⟩ := ieeePos_le (p := p) (emin := emin) hx
    have h0 : 0 ≤ nearEven (x / 2 ^ q) := by
      have := nearEven_mono (x := ((0 : ℤ) : ℝ)) (y := x / 2 ^ q) (by push_cast; positivity)
      rwa [nearEven_int] at this
    rcases h1.eq_or_lt with h | h
    · refine ⟨1, q + p, by rw [abs_one]; exact one_lt_pow₀ (by norm_num) (by omega), by omega, ?_⟩
      rw [ieeePos, h]; push_cast
      rw [pow_digits, one_mul, show q + (p : ℤ) = expo emin x + 1 by omega]
    · exact ⟨nearEven (x / 2 ^ q), q, by rw [abs_of_nonneg h0]; exact h, by omega, rfl⟩
  · rintro y ⟨n, k, hn, hk, rfl⟩
    by_cases hkq : q ≤ k
    · obtain ⟨d, hd⟩ := Int.eq_ofNat_of_zero_le (sub_nonneg.2 hkq)
      have e : (n : ℝ) * 2 ^ k = ((n * 2 ^ d : ℤ) : ℝ) * 2 ^ q := by
        rw [show k = (d : ℤ) + q by omega, zpow_add₀ (by norm_num), zpow_natCast]; push_cast; ring
      rw [e]
      exact ⟨(hb _).1, fun h h' => ⟨_, (hb _).2 h h', rfl⟩⟩
    · push_neg at hkq
      have hlog : expo emin x = Int.log 2 x := by unfold expo at *; omega
      have h2 : (2 : ℝ) ^ expo emin x ≤ x := by rw [hlog]; exact (log_bounds hx).1
      have h3 : (n : ℝ) * 2 ^ k < 2 ^ expo emin x := by
        have hn' : (n : ℝ) < 2 ^ p := by exact_mod_cast (le_abs_self n).trans_lt hn
        calc (n : ℝ) * 2 ^ k < 2 ^ p * 2 ^ k := mul_lt_mul_of_pos_right hn' (two_zpow_pos _)
          _ = 2 ^ ((p : ℤ) + k) := by rw [← zpow_natCast, ← zpow_add₀ (by norm_num)]
          _ ≤ _ := zpow_le_zpow_right₀ (by norm_num) (by omega)
      have h4 := (hb (2 ^ (p - 1))).1
      push_cast at h4
      rw [hq, pow_digits' hp] at h4
      have h5 : |(2 : ℝ) ^ expo emin x - x| < |n * 2 ^ k - x| := by
        rw [abs_of_nonpos (by linarith), abs_of_nonpos (by linarith)]; linarith
      exact ⟨(h4.trans_lt h5).le, fun _ e => absurd e (h4.trans_lt h5).ne⟩

/-- **C68**, what the arithmetic is: the rounding of the model gives a number of the format, no number of the format is nearer, and if
another one is as near the last digit of the result is even. -/
theorem C68_rounding (hp : 1 ≤ p) (x : ℝ) : IeeeNumber p emin (ieeeRd p emin x) ∧ ∀ y, IeeeNumber p emin y →
    |ieeeRd p emin x - x| ≤ |y - x| ∧ (y ≠ ieeeRd p emin x → |ieeeRd p emin x - x| = |y - x| →
      ∀ q, UnitAt p emin x q → ∃ n : ℤ, Even n ∧ ieeeRd p emin x = n * 2 ^ q) := by
  unfold ieeeRd
  rcases lt_trichotomy x 0 with hx | hx | hx
  · rw [if_neg hx.not_gt, if_pos hx]
    obtain ⟨⟨n, k, h1, h2, h3⟩, h⟩ := ieeePos_spec (p := p) (emin := emin) hp (neg_pos.2 hx)
    refine ⟨⟨-n, k, by rwa [abs_neg], h2, by rw [h3]; push_cast; ring⟩, fun y hy => ?_⟩
    obtain ⟨n', k', h1', h2', h3'⟩ := hy
    obtain ⟨a, b⟩ := h (-y) ⟨-n', k', by rwa [abs_neg], h2', by rw [h3']; push_cast; ring⟩
    have r1 : |-ieeePos p emin (-x) - x| = |ieeePos p emin (-x) - -x| := by rw [← abs_neg]; congr 1; ring
    have r2 : |y - x| = |-y - -x| := by rw [← abs_neg]; congr 1; ring
    rw [r1, r2]
    refine ⟨a, fun hne e q hq => ?_⟩
    obtain ⟨m, hm, e'⟩ := b (fun h => hne (by rw [← h]; ring)) e
    rw [unit_eq (neg_pos.2 hx) (by unfold UnitAt at *; rwa [abs_neg] : UnitAt p emin (-x) q)]
    exact ⟨-m, hm.neg, by rw [e']; push_cast; ring⟩
  · subst hx
    simp only [lt_irrefl, if_false, sub_zero, abs_zero]
    refine ⟨⟨0, emin - p + 1, by simp, le_rfl, by simp⟩, fun y _ => ⟨abs_nonneg _, fun h e => absurd (abs_eq_zero.1 e.symm) h⟩⟩
  · rw [if_pos hx]
    obtain ⟨h, h'⟩ := ieeePos_spec (p := p) (emin := emin) hp hx
    refine ⟨h, fun y hy => ⟨(h' y hy).1, fun hne e q hq => ?_⟩⟩
    rw [unit_eq hx hq]
    exact (h' y hy).2 hne e

/-- `1 + 2^-53` is halfway between 1 and the next `double`, which is not the result since its last digit is odd -/
example : ieeeRd 53 (-1022) (1 + 1 / 2 ^ 53) ≠ 1 + 1 / 2 ^ 52 := by
  intro h0
  obtain ⟨-, h⟩ := C68_rounding (p := 53) (emin := -1022) (by norm_num) (1 + 1 / 2 ^ 53)
  obtain ⟨-, h⟩ := h 1 ⟨1, 0, by norm_num, by norm_num, by norm_num⟩
  rw [h0] at h
  obtain ⟨n, hn, e⟩ := h (by norm_num) (by norm_num [abs_of_neg, abs_of_pos]) (-52) ⟨by norm_num, by norm_num, Or.inr (by norm_num)⟩
  have : n = 2 ^ 52 + 1 := by
    have : (n : ℝ) = 2 ^ 52 + 1 := by
      rw [show ((-52 : ℤ)) = -((52 : ℕ) : ℤ) by norm_num, zpow_neg, zpow_natCast] at e
      field_simp at e
      norm_num at e ⊢
      linarith
    exact_mod_cast this
  subst this
  exact absurd hn (by decide)

end
end Unc.Props
