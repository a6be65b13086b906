import Verif.Lemmas.SignedZero3
import Verif.Props.SignedZero

/-!
# C89: the sign of zeros, rules of signs
-/

namespace Unc.Props
open Unc.Spec UReal Ext SExt
variable {f : Fmt} {M : ℝ}

theorem isNeg_nonneg {a : FP f} (hM : 1 ≤ M) (h : 0 ≤ a.val) : (ofFP M a : Ext f M).isNeg = false := by
  by_cases h' : |a.val| ≤ M
  · rw [ofFP_of_le h']; simp [isNeg, h]
  · rw [ofFP_of_lt (not_le.1 h')]; simp [isNeg, h]

theorem isNeg_neg' {a : FP f} (h : a.val < 0) : (ofFP M a : Ext f M).isNeg = true := by
  by_cases h' : |a.val| ≤ M
  · rw [ofFP_of_le h']; simp [isNeg, h]
  · rw [ofFP_of_lt (not_le.1 h')]; simp [isNeg, h]

theorem isZero_ofFP (hM : 1 ≤ M) {a : FP f} : (ofFP M a : Ext f M).isZero = true ↔ a.val = 0 := by
  by_cases h' : |a.val| ≤ M
  · rw [ofFP_of_le h']; simp [isZero]
  · rw [ofFP_of_lt (not_le.1 h')]
    simp only [isZero, Bool.false_eq_true, false_iff]
    intro e
    rw [e, abs_zero] at h'
    linarith

theorem nonneg_of_pos {a : SExt f M} {c : FP f} {hc : |c.val| ≤ M} (h : a.v = .fin c hc) (hn : a.neg = false) : 0 ≤ c.val := by
  by_contra h0
  have h1 := a.agree (by rw [h]; simp only [isZero, decide_eq_false_iff_not]; intro e; rw [e] at h0; exact h0 le_rfl)
  rw [hn, h] at h1
  simp only [isNeg] at h1
  exact absurd (not_le.1 h0) (by simpa using h1.symm)

theorem inf_pos {a : SExt f M} {s : Bool} (h : a.v = .inf s) (hn : a.neg = false) : s = false := by
  have := a.agree (by rw [h]; rfl)
  rw [hn, h] at this
  exact this.symm

theorem pos_mul (hM : 1 ≤ M) {a b : SExt f M} (ha : a.neg = false) (hb : b.neg = false) : (a * b).neg = false := by
  cases h : (a * b).v.isZero with
  | true =>
    rw [show a * b = SExt.of (a.v * b.v) (xor a.neg b.neg) from rfl, of_neg _ (by exact h), ha, hb]; rfl
  | false =>
    rw [(a * b).agree h, v_mul, mul_def]
    rcases ea : a.v with _ | s | ⟨c, hc⟩
    · rcases b.v with _ | s | ⟨d, hd⟩ <;> rfl
    · have hs := inf_pos ea ha
      subst hs
      rcases eb : b.v with _ | t | ⟨d, hd⟩
      · rfl
      · have ht := inf_pos eb hb
        subst ht
        rfl
      · have := nonneg_of_pos eb hb
        simp only [mul']
        split_ifs
        · rfl
        · simp [isNeg, this]
    · have hc0 := nonneg_of_pos ea ha
      rcases eb : b.v with _ | t | ⟨d, hd⟩
      · rfl
      · have ht := inf_pos eb hb
        subst ht
        simp only [mul']
        split_ifs
        · rfl
        · simp [isNeg, hc0]
      · have hd0 := nonneg_of_pos eb hb
        exact isNeg_nonneg hM (f.rd_nonneg (mul_nonneg hc0 hd0))

theorem pos_div (hM : 1 ≤ M) {a b : SExt f M} (ha : a.neg = false) (hb : b.neg = false) : (a / b).neg = false := by
  cases h : (a / b).v.isZero with
  | true =>
    rw [show a / b = SExt.of (quot a b) (xor a.neg b.neg) from rfl, of_neg _ (by exact h), ha, hb]; rfl
  | false =>
    rw [(a / b).agree h, v_div, quot]
    by_cases hz : b.v.isZero = true
    · rw [if_pos hz, ha, hb]
      rcases ea : a.v with _ | s | ⟨c, hc⟩
      · rfl
      · rfl
      · simp only []
        split_ifs <;> rfl
    · rw [if_neg hz, div_def]
      rcases ea : a.v with _ | s | ⟨c, hc⟩
      · rcases b.v with _ | s | ⟨d, hd⟩ <;> rfl
      · have hs := inf_pos ea ha
        subst hs
        rcases eb : b.v with _ | t | ⟨d, hd⟩
        · rfl
        · rfl
        · simp [div', isNeg, nonneg_of_pos eb hb]
      · have hc0 := nonneg_of_pos ea ha
        rcases eb : b.v with _ | t | ⟨d, hd⟩
        · rfl
        · exact isNeg_nonneg hM (by simp)
        · have hd0 := nonneg_of_pos eb hb
          simp only [div']
          split_ifs
          · rfl
          · simp [isNeg, hc0]
          · exact isNeg_nonneg hM (f.rd_nonneg (div_nonneg hc0 hd0))

/-- two arguments of which one may take the opposite -/
theorem signs_of_pos {op : SExt f M → SExt f M → SExt f M} (hp : ∀ a b, a.neg = false → b.neg = false → (op a b).neg = false) (hl : ∀ a b, op (-a) b = -(op a b))
    (hr : ∀ a b, op a (-b) = -(op a b)) (hn : ∀ a b, a.v = .nan → (op a b).v = .nan) (hn' : ∀ a b, b.v = .nan → (op a b).v = .nan) {a b : SExt f M} (h : (op a b).v ≠ .nan) :
    (op a b).neg = xor a.neg b.neg := by
  have ha : a.v ≠ .nan := fun e => h (hn a b e)
  have hb : b.v ≠ .nan := fun e => h (hn' a b e)
  cases ea : a.neg <;> cases eb : b.neg
  · exact hp a b ea eb
  · have h1 := hp a (-b) ea (by rw [neg_neg_bit hb, eb]; rfl)
    rw [hr, neg_neg_bit h] at h1
    simpa using h1
  · have h1 := hp (-a) b (by rw [neg_neg_bit ha, ea]; rfl) eb
    rw [hl, neg_neg_bit h] at h1
    simpa using h1
  · have h1 := hp (-a) (-b) (by rw [neg_neg_bit ha, ea]; rfl) (by rw [neg_neg_bit hb, eb]; rfl)
    rwa [hl, hr, neg_neg_eq] at h1

theorem mul_nan_left (a b : SExt f M) (h : a.v = .nan) : (a * b).v = .nan := by
  rw [v_mul, h, mul_def]; rcases b.v with _ | s | ⟨d, hd⟩ <;> rfl

theorem sum_sign (hM : 1 ≤ M) {a b : SExt f M} {r s : ℝ} (ha : Is a.v r) (hb : Is b.v s) : (a + b).neg = if r + s = 0 then a.neg && b.neg else decide (r + s < 0) := by
  obtain ⟨c, hc, ea, rfl⟩ := ha
  obtain ⟨d, hd, eb, rfl⟩ := hb
  have ev : (a + b).v = ofFP M (c + d) := by rw [v_add, ea, eb]; rfl
  cases h : (a + b).v.isZero with
  | true =>
    rw [show a + b = SExt.of (a.v + b.v) (zeroSign a.v b.v (a.neg && b.neg)) from rfl, of_neg _ (by exact h), ea, eb]
    rfl
  | false =>
    rw [(a + b).agree h, ev]
    rw [ev] at h
    have h0 : f.rd (c.val + d.val) ≠ 0 := fun e => by
      rw [(isZero_ofFP hM).2 e] at h; cases h
    have h1 : c.val + d.val ≠ 0 := fun e => h0 (by rw [e, f.rd_zero])
    rw [if_neg h1]
    rcases lt_or_gt_of_ne h1 with h2 | h2
    · have h3 : (c + d).val < 0 := by
        refine lt_of_le_of_ne ?_ h0
        have := f.mono h2.le
        rwa [f.rd_zero] at this
      rw [isNeg_neg' h3]
      simp [h2]
    · rw [isNeg_nonneg hM (f.rd_nonneg h2.le)]
      simp [h2.le]

/-- **C89** The signs of the results are those which IEEE 754 (section 6.3) prescribes: the sign of a product or quotient is the exclusive or of the signs, that of a sum or difference is
the sign of the exact result, positive for an exact zero unless both terms are negative; the square root has the sign of the argument.  The literals are positive. -/
theorem C89_ieee_signs (hM : 1 ≤ M) : (0 : SExt f M).neg = false ∧ (1 : SExt f M).neg = false ∧ (∀ n : ℕ, (n : SExt f M).neg = false) ∧
    (∀ a : SExt f M, a.v ≠ .nan → (-a).neg = !a.neg) ∧
    (∀ a b : SExt f M, (a * b).v ≠ .nan → (a * b).neg = xor a.neg b.neg) ∧
    (∀ a b : SExt f M, (a / b).v ≠ .nan → (a / b).neg = xor a.neg b.neg) ∧
    (∀ (a b : SExt f M) (r s : ℝ), Is a.v r → Is b.v s → (a + b).neg = if r + s = 0 then a.neg && b.neg else decide (r + s < 0)) ∧
    (∀ (a b : SExt f M) (r s : ℝ), Is a.v r → Is b.v s → (a - b).neg = if r = s then a.neg && !b.neg else decide (r < s)) ∧
    (∀ a : SExt f M, (CSqrt.sqrt a).v ≠ .nan → (CSqrt.sqrt a).neg = a.neg) ∧
    (∀ a : SExt f M, (CSqrt.abs a).neg = false) := by
  refine ⟨?_, one_neg_bit hM, fun n => ?_, fun a h => neg_neg_bit h, fun a b h => ?_, fun a b h => ?_, fun a b r s ha hb => sum_sign hM ha hb, fun a b r s ha hb => ?_, fun a h => ?_, fun a => ?_⟩
  · exact of_neg _ ((isZero_ofFP hM).2 rfl)
  · cases h : (n : Ext f M).isZero with
    | true => exact of_neg _ h
    | false =>
      exact (of_neg' (v := (n : Ext f M)) _ h).trans (isNeg_nonneg hM (f.rd_nonneg n.cast_nonneg))
  · exact signs_of_pos (fun a b => pos_mul hM) (neg_mul_eq hM) (mul_neg_eq hM) mul_nan_left (fun a b e => by rw [mul_comm_eq]; exact mul_nan_left b a e) h
  · exact signs_of_pos (fun a b => pos_div hM) (neg_div_eq hM) (div_neg_eq hM) (fun a b e => quot_nan_left e) (fun a b e => quot_nan_right e) h
  · have hb' : Is (-b).v (-s) := by
      obtain ⟨d, hd, eb, rfl⟩ := hb
      exact ⟨-d, by simpa using hd, by rw [v_neg, eb, neg_fin], rfl⟩
    have hbn : b.v ≠ .nan := by
      obtain ⟨d, hd, eb, rfl⟩ := hb
      rw [eb]; simp
    rw [sub_eq_add_neg', sum_sign hM ha hb', neg_neg_bit hbn, ← sub_eq_add_neg]
    by_cases h : r = s
    · rw [if_pos h, if_pos (sub_eq_zero.2 h)]
    · rw [if_neg h, if_neg (sub_ne_zero.2 h)]
      simp only [sub_neg]
  · cases hz : (CSqrt.sqrt a).v.isZero with
    | true => exact of_neg _ hz
    | false =>
      rw [(CSqrt.sqrt a).agree hz]
      rw [v_sqrt] at *
      rcases ea : a.v with _ | s | ⟨c, hc⟩
      · rw [ea] at h; exact absurd rfl h
      · rw [ea] at h
        have := a.agree (by rw [ea]; rfl)
        rw [this, ea]
        cases s
        · rfl
        · exact absurd rfl h
      · rw [ea] at h hz
        by_cases h0 : c.val < 0
        · exact absurd (if_pos h0) h
        · have e : (CSqrt.sqrt (Ext.fin c hc : Ext f M)) = ofFP M (CSqrt.sqrt c) := if_neg h0
          rw [e] at hz ⊢
          have h1 : c.val ≠ 0 := by
            intro e1
            have : (CSqrt.sqrt c).val = 0 := by rw [FP.val_sqrt, e1, Real.sqrt_zero, f.rd_zero]
            rw [(isZero_ofFP hM).2 this] at hz
            cases hz
          rw [isNeg_nonneg hM (f.rd_nonneg (Real.sqrt_nonneg _)), a.agree (by rw [ea]; simpa [isZero] using h1), ea]
          simpa [isNeg] using (not_lt.1 h0)
  · cases hz : (CSqrt.abs a).v.isZero with
    | true => exact of_neg _ hz
    | false =>
      rw [(CSqrt.abs a).agree hz, v_abs]
      rcases ea : a.v with _ | s | ⟨c, hc⟩
      · rfl
      · rfl
      · exact isNeg_nonneg hM (abs_nonneg _)

/-- **C89** Division by zeros: `1 / 0` is infinite with the sign of the zero, and so it tells them apart although they compare equal; `0 / 0` is NaN. -/
theorem C89_division (hM : 1 ≤ M) {a b : SExt f M} (hb : Is b.v 0) : (∀ r, Is a.v r → r ≠ 0 → (a / b).v = .inf (xor (decide (r < 0)) b.neg)) ∧ (∀ s, a.v = .inf s → (a / b).v = .inf (xor s b.neg)) ∧
    (Is a.v 0 → (a / b).v = .nan ∧ CCmp.eqb a b = true) := by
  obtain ⟨d, hd, eb, e0⟩ := hb
  have hz : b.v.isZero = true := by rw [eb]; simpa [isZero] using e0
  refine ⟨?_, fun s ea => ?_, ?_⟩
  · rintro r ⟨c, hc, ea, rfl⟩ h0
    rw [v_div, quot, if_pos hz, ea]
    have := a.agree (by rw [ea]; simpa [isZero] using h0)
    rw [this, ea]
    simp [h0, isNeg]
  · have := a.agree (by rw [ea]; rfl)
    rw [v_div, quot, if_pos hz, ea, this, ea]
    rfl
  · rintro ⟨c, hc, ea, h0⟩
    refine ⟨?_, ?_⟩
    · rw [v_div, quot, if_pos hz, ea]
      simp [h0]
    · show CCmp.eqb a.v b.v = true
      rw [ea, eb, fin_eqb, h0, e0]

/-- **C89** Whatever the values (infinities, NaN and both zeros included), the result of `x - y` is that of `x + -y`, the one of `(-x) * (-y)` that of `x * y`, the one of `(-x) / (-y)` that of
`x / y`: the same derivatives with the same signs. -/
theorem C89_minus (hM : 1 ≤ M) (x y : UReal (SExt f M)) : sub x y = add x (neg y) ∧ mul (neg x) (neg y) = mul x y ∧ div (neg x) (neg y) = div x y := by
  have nmu : ∀ x : UReal (SExt f M), (neg x).mu = -x.mu := by
    intro x; unfold UReal.neg unary; split_ifs <;> rfl
  have two : ∀ a b : SExt f M, -a * -b = a * b := fun a b => by rw [neg_mul_eq hM, mul_neg_eq hM, neg_neg_eq]
  refine ⟨?_, ?_, ?_⟩
  · unfold sub add
    rw [nmu, sub_eq_add_neg']
    refine binary_scaled (fun a => rfl) (fun b => ?_) (scaled_id x) (scaled_unary y _ _) _
    rw [one_mul_eq hM, mul_comm_eq]
  · unfold mul
    rw [nmu, nmu, two]
    refine (binary_scaled (fun a => ?_) (fun b => ?_) (scaled_unary x _ _) (scaled_unary y _ _) _).symm
    · rw [mul_neg_one_eq hM, two]
    · rw [mul_neg_one_eq hM, two]
  · unfold div
    simp only [nmu, div_neg_eq hM, two]
    refine (binary_scaled (fun a => ?_) (fun b => ?_) (scaled_unary x _ _) (scaled_unary y _ _) _).symm
    · rw [mul_neg_one_eq hM, two]
    · rw [mul_neg_one_eq hM, neg_mul_eq hM, neg_mul_eq hM, mul_neg_eq hM]

/-- the zeros -/
example : (-0 : SDbl).neg = true ∧ (0 + -0 : SDbl).neg = false ∧ (-0 + -0 : SDbl).neg = true ∧ (CSqrt.sqrt (-0) : SDbl).neg = true ∧ ((1 : SDbl) / -0).v = .inf true ∧
    CCmp.eqb (0 : SDbl) (-0) = true := by
  have hM := one_le_dblMax
  obtain ⟨h0, -, -, hn, -, -, ha, -, hs, -⟩ := C89_ieee_signs (f := dblFmt) hM
  have z : Is (0 : SDbl).v 0 := ⟨0, _, zero_eq hM, rfl⟩
  have z' : Is (-0 : SDbl).v 0 := ⟨-0, by simpa using le_trans zero_le_one hM, by rw [v_neg, v_zero, zero_eq hM, neg_fin], by simp⟩
  have hz : (0 : SDbl).v ≠ .nan := by rw [v_zero, zero_eq hM]; simp
  have h1 : (-0 : SDbl).neg = true := by rw [hn 0 hz, h0]; rfl
  refine ⟨h1, ?_, ?_, ?_, ?_, ?_⟩
  · rw [ha _ _ _ _ z z', h0]; simp
  · rw [ha _ _ _ _ z' z', h1]; simp
  · rw [hs, h1]
    obtain ⟨c, hc, e, e0⟩ := z'
    rw [v_sqrt, e]
    show (if c.val < 0 then _ else _) ≠ _
    rw [if_neg (by rw [e0]; norm_num), ofFP_of_le (by rw [FP.val_sqrt, e0, Real.sqrt_zero, Fmt.rd_zero, abs_zero]; exact le_trans zero_le_one hM)]
    simp
  · rw [(C89_division hM z').1 1 ⟨1, _, one_eq hM, rfl⟩ (by norm_num), h1]
    simp [not_lt.2 (zero_le_one (α := ℝ))]
  · exact ((C89_division hM z').2.2 z).2

/-- two variables -/
example : sub (⟨1, 1, 0, []⟩ : UReal SDbl) ⟨2, 1, -0, []⟩ = add ⟨1, 1, 0, []⟩ (UReal.neg ⟨2, 1, -0, []⟩) := (C89_minus one_le_dblMax _ _).1

end Unc.Props
