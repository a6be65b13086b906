import Verif.Model.NaN
import Verif.Props.Math

/-! # `cbrt` of a negative value (C14), with NaN-aware arithmetic -/

namespace Unc.Props
open Unc UReal NReal

/-- **C14** fails for `cbrt` of negative values: the cube root is differentiable at every negative `a`, but the code computes
`pow(a, -2/3)`, a domain error, so the coefficient of every elementary `x` with mean `a` is NaN although its mean is right. -/
theorem C14_cbrt_nan (a s : ℝ) (ha : a < 0) (k : ℤ) (hk : 0 < k) :
    (∃ d, HasDerivAt cbrtR d a) ∧ UMath.cbrt (⟨k, val s, val a, []⟩ : UReal NReal) = ⟨k, nan, val (cbrtR a), []⟩ ∧
      (UMath.cbrt (⟨k, val s, val a, []⟩ : UReal NReal)).s = nan := by
  have h2 : ¬ ∃ k : ℤ, (-2 / 3 : ℝ) = k := by
    rintro ⟨k, hk⟩
    have : (-2 : ℤ) = 3 * k := by
      have : (-2 : ℝ) = 3 * k := by rw [← hk]; norm_num
      exact_mod_cast this
    omega
  have hp : CMath.pow (val a) (-((2 : ℕ) : NReal) / ((3 : ℕ) : NReal)) = nan := by
    have e : (-((2 : ℕ) : NReal) / ((3 : ℕ) : NReal)) = val (-2 / 3) := by
      show lift2 _ _ (lift1 _ _ (val ((2 : ℕ) : ℝ))) (val ((3 : ℕ) : ℝ)) = _
      simp [lift1, lift2]
    rw [e]
    show lift2 _ _ _ _ = _
    simp only [lift2]
    rw [if_neg]
    rintro (h | ⟨h, -⟩ | ⟨-, h⟩)
    · linarith
    · linarith
    · exact h2 h
  have e : UMath.cbrt (⟨k, val s, val a, []⟩ : UReal NReal) = ⟨k, nan, val (cbrtR a), []⟩ := by
    unfold UMath.cbrt
    simp only [UReal.n, hp]
    unfold unary
    rw [if_pos hk]
    congr 1
    show lift1 _ _ _ = _
    simp [lift1, CMath.cbrt]
  refine ⟨⟨_, cbrt_neg' ha⟩, e, ?_⟩
  rw [e]
  simp only [UReal.s, hk.le, ge_iff_le, if_true]
  rfl

/-- the cube root of -8 ± 1 -/
example : UMath.cbrt (⟨1, val 1, val (-8), []⟩ : UReal NReal) = ⟨1, nan, val (cbrtR (-8)), []⟩ ∧ cbrtR (-8) = -2 := by
  refine ⟨(C14_cbrt_nan (-8) 1 (by norm_num) 1 one_pos).2.1, ?_⟩
  rw [cbrtR, if_neg (by norm_num), show (-(-8) : ℝ) = 2 ^ (3 : ℝ) by norm_num, ← Real.rpow_mul (by norm_num)]
  norm_num

/-- not NaN; with the numbers of `Verif/Model/NaN.lean` this is `std::isfinite` -/
def ordinary : NReal → Bool
  | nan => false
  | val _ => true

theorem ordinary_iff (v : NReal) : ordinary v = true ↔ ∃ x, v = val x := by cases v <;> simp [ordinary]

theorem sumsq_ordinary (l : List (VId × NReal)) (acc : NReal) :
    ordinary (l.foldl (fun a e => a + e.2 * e.2) acc) = (ordinary acc && l.all fun e => ordinary e.2) ∧
      ∀ a, acc = val a → 0 ≤ a → ∀ b, l.foldl (fun a e => a + e.2 * e.2) acc = val b → 0 ≤ b := by
  induction l generalizing acc with
  | nil =>
    refine ⟨by simp, fun a h ha b hb => ?_⟩
    rw [List.foldl_nil, h] at hb
    cases hb; exact ha
  | cons e t ih =>
    have hmul : ∀ v : NReal, v * v = match v with | nan => nan | val x => val (x * x) := by
      intro v
      show lift2 _ _ v v = _
      cases v <;> simp [lift2]
    have hadd : ∀ v w : NReal, v + w = match v, w with | val x, val y => val (x + y) | _, _ => nan := by
      intro v w
      show lift2 _ _ v w = _
      cases v <;> cases w <;> simp [lift2]
    have h1 : ordinary (acc + e.2 * e.2) = (ordinary acc && ordinary e.2) := by
      rw [hmul, hadd]
      cases acc <;> cases e.2 <;> rfl
    refine ⟨by rw [List.foldl_cons, (ih _).1, h1, List.all_cons, Bool.and_assoc], fun a ha h0 b hb => ?_⟩
    rw [List.foldl_cons] at hb
    cases hv : e.2 with
    | nan =>
      have h2 : ordinary (acc + e.2 * e.2) = false := by rw [h1, hv]; cases acc <;> rfl
      have h3 := (ih (acc + e.2 * e.2)).1
      rw [hb, h2] at h3
      simp [ordinary] at h3
    | val c =>
      refine (ih _).2 (a + c * c) ?_ (by nlinarith [mul_self_nonneg c]) b hb
      rw [hv, hmul, hadd, ha]

/-- **C14** `isfinite(UReal)` says whether all the numbers in the value are finite: mean and standard deviation of an elementary
variable, mean and all the coefficients of a result with no cached standard deviation. -/
theorem C14_isfinite (x : UReal NReal) :
    (0 ≤ x.id → (UMath.both ordinary x = true ↔ (∃ m, x.mu = val m) ∧ ∃ s, x.sdev = val s)) ∧
    (x.id < 0 → CCmp.leb 0 x.sdev = false → (UMath.both ordinary x = true ↔ (∃ m, x.mu = val m) ∧ ∀ e ∈ x.sigma, ∃ c, e.2 = val c)) := by
  constructor
  · intro h
    rw [UMath.both, Bool.and_eq_true, ordinary_iff, UReal.s, if_pos h, UReal.n]
    refine and_congr_right fun _ => ?_
    show ordinary (lift1 _ _ _) = true ↔ _
    cases x.sdev <;> simp [lift1, ordinary]
  · intro h hs
    rw [UMath.both, Bool.and_eq_true, ordinary_iff, UReal.s, if_neg (by omega), hs, UReal.n]
    refine and_congr_right fun _ => ?_
    have h0 := sumsq_ordinary x.sigma 0
    have e : x.s2 = x.sigma.foldl (fun a e => a + e.2 * e.2) 0 := rfl
    have hsq : ordinary (CSqrt.sqrt x.s2) = ordinary x.s2 := by
      show ordinary (lift1 _ _ _) = _
      cases hv : x.s2 with
      | nan => rfl
      | val b =>
        have := h0.2 0 rfl le_rfl b (e ▸ hv)
        simp [lift1, this, ordinary]
    rw [if_neg (by simp), hsq, e, h0.1]
    show (true && _) = true ↔ _
    rw [Bool.true_and, List.all_eq_true]
    exact forall₂_congr fun e _ => ordinary_iff e.2

/-- a NaN coefficient is seen, although the mean is finite -/
example : UMath.both ordinary (⟨-1, val (-1), val 3, [(1, val 2), (4, nan)]⟩ : UReal NReal) = false := by
  rw [← Bool.not_eq_true, (C14_isfinite _).2 (by decide) (by
    show NReal.cmp _ (val 0) (val (-1)) = false
    simp [NReal.cmp])]
  rintro ⟨-, h⟩
  obtain ⟨c, hc⟩ := h (4, nan) (by simp)
  cases hc

/-- **C14** `fmax` and `fmin` with an operand whose mean is not a number: like `std::fmax` and `std::fmin` they give the other operand, mean and
uncertainty, in either order. -/
theorem C14_fmax_nan (a s t : ℝ) (hs : 0 ≤ s) {k l : ℤ} (hk : 0 < k) (hl : 0 < l) (hkl : k ≠ l) :
    let x : UReal NReal := ⟨k, val s, val a, []⟩
    let y : UReal NReal := ⟨l, val t, nan, []⟩
    ∀ g ∈ [UMath.fmax x y, UMath.fmax y x, UMath.fmin x y, UMath.fmin y x], ∃ z, g = some z ∧ z.n = val a ∧ z.s = val s := by
  have hmul : ∀ b c : ℝ, (val b * val c : NReal) = val (b * c) := fun b c => by
    show lift2 _ _ _ _ = _
    simp [lift2]
  have hadd : ∀ b c : ℝ, (val b + val c : NReal) = val (b + c) := fun b c => by
    show lift2 _ _ _ _ = _
    simp [lift2]
  have h0 : (0 : NReal) = val 0 := rfl
  have h1 : (1 : NReal) = val 1 := rfl
  have hn : (-1 : NReal) = val (-1) := by
    show lift1 _ _ _ = _
    simp [lift1]
  have hle : CCmp.leb (val 0) (val (-1)) = false := by
    show NReal.cmp _ _ _ = _
    simp [NReal.cmp]
  have hq : CSqrt.sqrt (val (s * s)) = val s := by
    show lift1 _ _ _ = _
    rw [lift1, if_pos (mul_self_nonneg s), Real.sqrt_mul_self hs]
  have eA : CCmp.eqb (val a) (val a) = true := by
    show NReal.cmp _ _ _ = _
    simp [NReal.cmp]
  have eB : CCmp.eqb (val a) nan = false := rfl
  have m1 : CMath.fmax (val a) nan = val a := rfl
  have m2 : CMath.fmax nan (val a) = val a := rfl
  have m3 : CMath.fmin (val a) nan = val a := rfl
  have m4 : CMath.fmin nan (val a) = val a := rfl
  have key : ∀ (i j : ℤ) (b c d e : ℝ), 0 < i → 0 < j → i ≠ j → d * b * (d * b) + e * c * (e * c) = s * s → ∀ m m' : NReal,
      ∃ z, binary (⟨i, val b, m, []⟩ : UReal NReal) ⟨j, val c, m', []⟩ (val a) (val d) (val e) = some z ∧ z.n = val a ∧ z.s = val s := by
    intro i j b c d e hi hj hij hsum m m'
    rcases lt_or_gt_of_ne hij with h | h
    · refine ⟨_, by simp [binary, hi, hj, hi.le, hj.le, hi.not_gt, hj.not_gt, SMap.upsert, h.not_gt, hij]; rfl, rfl, ?_⟩
      simp [UReal.s, s2, invalidId, hn, h0, hle, hmul, hadd]
      rw [hsum, hq]
    · refine ⟨_, by simp [binary, hi, hj, hi.le, hj.le, hi.not_gt, hj.not_gt, SMap.upsert, h, hij]; rfl, rfl, ?_⟩
      simp [UReal.s, s2, invalidId, hn, h0, hle, hmul, hadd]
      rw [add_comm, hsum, hq]
  intro x y g hg
  have k1 := key k l s t 1 0 hk hl hkl (by ring) (val a) nan
  have k2 := key l k t s 0 1 hl hk hkl.symm (by ring) nan (val a)
  simp only [List.mem_cons, List.not_mem_nil, or_false] at hg
  rcases hg with rfl | rfl | rfl | rfl
  · simpa [UMath.fmax, UReal.n, x, y, m1, eA, h0, h1] using k1
  · simpa [UMath.fmax, UReal.n, x, y, m2, eB, h0, h1] using k2
  · simpa [UMath.fmin, UReal.n, x, y, m3, eA, h0, h1] using k1
  · simpa [UMath.fmin, UReal.n, x, y, m4, eB, h0, h1] using k2

/-- the maximum of a variable with mean NaN and of 3 ± 2 -/
example : ∃ z, UMath.fmax (⟨1, val 5, nan, []⟩ : UReal NReal) ⟨2, val 2, val 3, []⟩ = some z ∧ z.n = val 3 ∧ z.s = val 2 :=
  C14_fmax_nan 3 2 5 (by norm_num) (k := 2) (l := 1) (by norm_num) (by norm_num) (by norm_num) _ (by simp)

end Unc.Props
