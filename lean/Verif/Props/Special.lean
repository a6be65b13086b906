import Verif.Spec.Range
import Verif.Props.FloatExact
import Mathlib.Topology.Instances.EReal.Lemmas
import Mathlib.Analysis.SpecificLimits.Basic

/-!
# C68: infinities and NaN

The operations of the model on infinities are specified with limits: the result is the limit of the operation on real numbers which
tend to the operands, and NaN if there is no such limit.  The finite operands are rounded, the results which are too large are infinite.
-/

namespace Unc.Props
open Unc Unc.Spec Filter Topology
variable {f : Fmt} {M : ℝ}

/-- the extended real number which is the value; NaN has none -/
def Val (x : Ext f M) (e : EReal) : Prop :=
  match x with
  | .nan => False
  | .inf s => e = if s then ⊥ else ⊤
  | .fin a _ => e = (a.val : EReal)

/-- real numbers which tend to the value of `x` -/
def Toward (x : Ext f M) (u : ℕ → ℝ) : Prop := ∃ e, Val x e ∧ Tendsto (fun n => (u n : EReal)) atTop (𝓝 e)

/-- `r` is the limit of `op` at `(x, y)`, NaN if there is none -/
def LimitRule (op : ℝ → ℝ → ℝ) (x y r : Ext f M) : Prop :=
  ∀ e, Val r e ↔ x ≠ .nan ∧ y ≠ .nan ∧ ∀ u v, Toward x u → Toward y v → Tendsto (fun n => ((op (u n) (v n) : ℝ) : EReal)) atTop (𝓝 e)

theorem Val.inj {x : Ext f M} {e e' : EReal} (h : Val x e) (h' : Val x e') : e = e' := by
  cases x <;> simp only [Val] at h h' <;> rw [h, h']

theorem Val.ne_nan {x : Ext f M} {e : EReal} (h : Val x e) : x ≠ .nan := by
  rintro rfl; exact h

theorem exists_toward {x : Ext f M} {e : EReal} (h : Val x e) : ∃ u, Toward x u := by
  have : ∃ u : ℕ → ℝ, Tendsto (fun n => (u n : EReal)) atTop (𝓝 e) := by
    induction e with
    | bot => exact ⟨fun n => -n, EReal.tendsto_coe_nhds_bot_iff.2 (tendsto_neg_atTop_atBot.comp tendsto_natCast_atTop_atTop)⟩
    | top => exact ⟨fun n => n, EReal.tendsto_coe_nhds_top_iff.2 tendsto_natCast_atTop_atTop⟩
    | coe a => exact ⟨fun _ => a, tendsto_const_nhds⟩
  obtain ⟨u, hu⟩ := this
  exact ⟨u, e, h, hu⟩

theorem rule_some {op : ℝ → ℝ → ℝ} {x y r : Ext f M} {ex ey e : EReal} (hx : Val x ex) (hy : Val y ey) (hr : Val r e)
    (h : ∀ u v : ℕ → ℝ, Tendsto (fun n => (u n : EReal)) atTop (𝓝 ex) → Tendsto (fun n => (v n : EReal)) atTop (𝓝 ey) →
      Tendsto (fun n => ((op (u n) (v n) : ℝ) : EReal)) atTop (𝓝 e)) : LimitRule op x y r := by
  have h' : ∀ u v, Toward x u → Toward y v → Tendsto (fun n => ((op (u n) (v n) : ℝ) : EReal)) atTop (𝓝 e) := by
    rintro u v ⟨a, ha, hu⟩ ⟨b, hb, hv⟩
    exact h u v (ha.inj hx ▸ hu) (hb.inj hy ▸ hv)
  intro e'
  constructor
  · intro he
    rw [he.inj hr]
    exact ⟨hx.ne_nan, hy.ne_nan, h'⟩
  · rintro ⟨-, -, hh⟩
    obtain ⟨u, hu⟩ := exists_toward hx
    obtain ⟨v, hv⟩ := exists_toward hy
    rw [tendsto_nhds_unique (hh u v hu hv) (h' u v hu hv)]
    exact hr

theorem rule_nan {op : ℝ → ℝ → ℝ} {x y r : Ext f M} (hr : r = .nan) {u v u' v' : ℕ → ℝ} (hu : Toward x u) (hv : Toward y v)
    (hu' : Toward x u') (hv' : Toward y v') {a b : ℝ} (hab : a ≠ b) (ha : ∀ n, op (u n) (v n) = a) (hb : ∀ n, op (u' n) (v' n) = b) :
    LimitRule op x y r := by
  subst hr
  intro e
  refine ⟨False.elim, fun ⟨_, _, h⟩ => hab ?_⟩
  have h1 := h u v hu hv
  have h2 := h u' v' hu' hv'
  simp only [ha] at h1
  simp only [hb] at h2
  exact EReal.coe_injective ((tendsto_nhds_unique tendsto_const_nhds h1).trans (tendsto_nhds_unique tendsto_const_nhds h2).symm)

theorem rule_of_nan {op : ℝ → ℝ → ℝ} {x y r : Ext f M} (hr : r = .nan) (h : x = .nan ∨ y = .nan) : LimitRule op x y r := by
  subst hr
  exact fun e => ⟨False.elim, fun ⟨h1, h2, _⟩ => (h.elim h1 h2).elim⟩

/-- the sign of an infinity -/
def sg (s : Bool) : ℝ := if s then -1 else 1

theorem toward_inf (s : Bool) {u : ℕ → ℝ} (hu : Tendsto u atTop atTop) : Toward (.inf s : Ext f M) (fun n => sg s * u n) := by
  refine ⟨_, rfl, ?_⟩
  cases s
  · simpa [sg, EReal.tendsto_coe_nhds_top_iff] using hu
  · simp only [sg, if_true]
    refine EReal.tendsto_coe_nhds_bot_iff.2 ?_
    simpa using hu

theorem toward_fin {a : FP f} {h : |a.val| ≤ M} {u : ℕ → ℝ} (hu : Tendsto u atTop (𝓝 a.val)) : Toward (.fin a h : Ext f M) u :=
  ⟨_, rfl, EReal.tendsto_coe.2 hu⟩

theorem tend1 : Tendsto (fun n : ℕ => (n : ℝ) + 1) atTop atTop := tendsto_atTop_add_const_right _ _ tendsto_natCast_atTop_atTop
theorem tend2 : Tendsto (fun n : ℕ => (n : ℝ) + 2) atTop atTop := tendsto_atTop_add_const_right _ _ tendsto_natCast_atTop_atTop
theorem tend3 : Tendsto (fun n : ℕ => 2 * ((n : ℝ) + 1)) atTop atTop := tend1.const_mul_atTop (by norm_num)

theorem sg_mul_self (s : Bool) : sg s * sg s = 1 := by cases s <;> norm_num [sg]

theorem sg_div (s t : Bool) (a b : ℝ) : sg s * a / (sg t * b) = sg s * sg t * (a / b) := by
  cases s <;> cases t <;> simp only [sg, if_true, if_false, Bool.false_eq_true] <;> ring

theorem inf_val (s : Bool) : Val (.inf s : Ext f M) (if s then ⊥ else ⊤) := rfl

theorem tadd {u v : ℕ → ℝ} {a b : EReal} (hu : Tendsto (fun n => (u n : EReal)) atTop (𝓝 a)) (hv : Tendsto (fun n => (v n : EReal)) atTop (𝓝 b))
    (h : a ≠ ⊤ ∨ b ≠ ⊥) (h' : a ≠ ⊥ ∨ b ≠ ⊤) : Tendsto (fun n => ((u n + v n : ℝ) : EReal)) atTop (𝓝 (a + b)) := by
  simp only [EReal.coe_add]
  exact (EReal.continuousAt_add (p := (a, b)) h h').tendsto.comp (hu.prodMk_nhds hv)

theorem tsub {u v : ℕ → ℝ} {a b : EReal} (hu : Tendsto (fun n => (u n : EReal)) atTop (𝓝 a)) (hv : Tendsto (fun n => (v n : EReal)) atTop (𝓝 b))
    (h : a ≠ ⊤ ∨ b ≠ ⊤) (h' : a ≠ ⊥ ∨ b ≠ ⊥) : Tendsto (fun n => ((u n - v n : ℝ) : EReal)) atTop (𝓝 (a + -b)) := by
  simp only [sub_eq_add_neg]
  refine tadd hu (v := fun n => -v n) ?_ (h.imp_right (by simp)) (h'.imp_right (by simp))
  simp only [EReal.coe_neg]
  exact (continuous_neg.tendsto b).comp hv

theorem tmul {u v : ℕ → ℝ} {a b : EReal} (hu : Tendsto (fun n => (u n : EReal)) atTop (𝓝 a)) (hv : Tendsto (fun n => (v n : EReal)) atTop (𝓝 b))
    (ha : a ≠ 0) (hb : b ≠ 0) : Tendsto (fun n => ((u n * v n : ℝ) : EReal)) atTop (𝓝 (a * b)) := by
  simp only [EReal.coe_mul]
  exact EReal.Tendsto.mul hu hv (Or.inl ha) (Or.inl ha) (Or.inr hb) (Or.inr hb)

theorem inf_mul_coe (s : Bool) {a : ℝ} (h : a ≠ 0) : (if s then (⊥ : EReal) else ⊤) * a = if xor s (decide (a < 0)) then ⊥ else ⊤ := by
  rcases lt_or_gt_of_ne h with h | h
  · cases s <;> simp [h, EReal.top_mul_coe_of_neg, EReal.bot_mul_coe_of_neg]
  · cases s <;> simp [h, h.not_gt, EReal.top_mul_coe_of_pos, EReal.bot_mul_coe_of_pos]

/-- **C68**, what the arithmetic is on infinities: sum, difference and product with an infinite operand are the limits, NaN if there is none. -/
theorem C68_limits {x y : Ext f M} (h : ¬ (Finite x ∧ Finite y)) :
    LimitRule (· + ·) x y (x + y) ∧ LimitRule (· - ·) x y (x - y) ∧ LimitRule (· * ·) x y (x * y) := by
  rcases x with _ | s | ⟨a, ha⟩
  · exact ⟨rule_of_nan rfl (Or.inl rfl), rule_of_nan rfl (Or.inl rfl), rule_of_nan rfl (Or.inl rfl)⟩
  · rcases y with _ | t | ⟨b, hb⟩
    · exact ⟨rule_of_nan rfl (Or.inr rfl), rule_of_nan rfl (Or.inr rfl), rule_of_nan rfl (Or.inr rfl)⟩
    · refine ⟨?_, ?_, ?_⟩
      · change LimitRule _ _ _ (if s = t then Ext.inf s else Ext.nan)
        split_ifs with e
        · subst e
          refine rule_some (inf_val s) (inf_val s) (inf_val s) fun u v hu hv => ?_
          cases s <;> simpa using tadd hu hv (by simp) (by simp)
        · refine rule_nan rfl (toward_inf s tend1) (toward_inf t tend1) (toward_inf s tend2) (toward_inf t tend1) (a := 0) (b := sg s) ?_ ?_ ?_ <;>
          cases s <;> cases t <;> simp [sg] at e ⊢
          all_goals first | (intro n; ring) | norm_num
      · change LimitRule _ _ _ (if s = t then Ext.nan else Ext.inf s)
        split_ifs with e
        · subst e
          refine rule_nan rfl (toward_inf s tend1) (toward_inf s tend1) (toward_inf s tend2) (toward_inf s tend1) (a := 0) (b := sg s) ?_ ?_ ?_ <;>
          cases s <;> simp [sg]
          all_goals first | (intro n; ring) | norm_num
        · refine rule_some (inf_val s) (inf_val t) (inf_val s) fun u v hu hv => ?_
          cases s <;> cases t <;> simp at e <;> simpa using tsub hu hv (by simp) (by simp)
      · change LimitRule _ _ _ (Ext.inf (xor s t))
        refine rule_some (inf_val s) (inf_val t) (inf_val _) fun u v hu hv => ?_
        cases s <;> cases t <;> simpa using tmul hu hv (by simp) (by simp)
    · refine ⟨?_, ?_, ?_⟩
      · change LimitRule _ _ _ (Ext.inf s)
        refine rule_some (inf_val s) (y := .fin b hb) rfl (inf_val s) fun u v hu hv => ?_
        cases s <;> simpa using tadd hu hv (by simp) (by simp)
      · change LimitRule _ _ _ (Ext.inf s)
        refine rule_some (inf_val s) (y := .fin b hb) rfl (inf_val s) fun u v hu hv => ?_
        have := tsub hu hv (by simp) (by simp)
        rw [← EReal.coe_neg] at this
        cases s <;> simpa [-EReal.coe_neg] using this
      · change LimitRule _ _ _ (if false || decide (b.val = 0) then Ext.nan else Ext.inf (xor s (decide (b.val < 0))))
        by_cases hb0 : b.val = 0
        · rw [if_pos (by simp [hb0])]
          refine rule_nan rfl (toward_inf s tend1) (toward_fin (u := fun _ => 0) (by rw [hb0]; exact tendsto_const_nhds)) (toward_inf s tend1)
            (toward_fin (u := fun n : ℕ => 1 / ((n : ℝ) + 1)) (by rw [hb0]; exact tendsto_one_div_add_atTop_nhds_zero_nat)) (a := 0) (b := sg s) ?_ ?_ ?_
          · cases s <;> simp [sg]
          · simp
          · intro n
            have : (n : ℝ) + 1 ≠ 0 := by positivity
            field_simp
        · rw [if_neg (by simp [hb0])]
          refine rule_some (inf_val s) (y := .fin b hb) rfl (inf_val _) fun u v hu hv => ?_
          rw [← inf_mul_coe s hb0]
          exact tmul hu hv (by cases s <;> simp) (by exact_mod_cast hb0)
  · rcases y with _ | t | ⟨b, hb⟩
    · exact ⟨rule_of_nan rfl (Or.inr rfl), rule_of_nan rfl (Or.inr rfl), rule_of_nan rfl (Or.inr rfl)⟩
    · refine ⟨?_, ?_, ?_⟩
      · change LimitRule _ _ _ (Ext.inf t)
        refine rule_some (x := .fin a ha) rfl (inf_val t) (inf_val t) fun u v hu hv => ?_
        cases t <;> simpa using tadd hu hv (by simp) (by simp)
      · change LimitRule _ _ _ (Ext.inf (!t))
        refine rule_some (x := .fin a ha) rfl (inf_val t) (inf_val _) fun u v hu hv => ?_
        cases t <;> simpa using tsub hu hv (by simp) (by simp)
      · change LimitRule _ _ _ (if decide (a.val = 0) || false then Ext.nan else Ext.inf (xor (decide (a.val < 0)) t))
        by_cases ha0 : a.val = 0
        · rw [if_pos (by simp [ha0])]
          refine rule_nan rfl (toward_fin (u := fun _ => 0) (by rw [ha0]; exact tendsto_const_nhds)) (toward_inf t tend1)
            (toward_fin (u := fun n : ℕ => 1 / ((n : ℝ) + 1)) (by rw [ha0]; exact tendsto_one_div_add_atTop_nhds_zero_nat)) (toward_inf t tend1)
            (a := 0) (b := sg t) ?_ ?_ ?_
          · cases t <;> simp [sg]
          · simp
          · intro n
            have : (n : ℝ) + 1 ≠ 0 := by positivity
            field_simp
        · rw [if_neg (by simp [ha0])]
          refine rule_some (x := .fin a ha) rfl (inf_val t) (inf_val _) fun u v hu hv => ?_
          rw [Bool.xor_comm, ← inf_mul_coe t ha0, mul_comm]
          exact tmul hu hv (by exact_mod_cast ha0) (by cases t <;> simp)
    · exact absurd ⟨⟨a.val, a, ha, rfl, rfl⟩, ⟨b.val, b, hb, rfl, rfl⟩⟩ h

theorem inv_inf (t : Bool) {v : ℕ → ℝ} (hv : Tendsto (fun n => (v n : EReal)) atTop (𝓝 (if t then ⊥ else ⊤))) : Tendsto (fun n => (v n)⁻¹) atTop (𝓝 0) := by
  cases t
  · exact tendsto_inv_atTop_zero.comp (EReal.tendsto_coe_nhds_top_iff.1 hv)
  · exact tendsto_inv_atBot_zero.comp (EReal.tendsto_coe_nhds_bot_iff.1 hv)

/-- **C68**, what the arithmetic is on infinities: the quotient too, if the divisor is not zero. -/
theorem C68_limits_div (hM : 1 ≤ M) {x y : Ext f M} (h : ¬ (Finite x ∧ Finite y)) (h0 : ¬ Is y 0) : LimitRule (· / ·) x y (x / y) := by
  rcases x with _ | s | ⟨a, ha⟩
  · exact rule_of_nan rfl (Or.inl rfl)
  · rcases y with _ | t | ⟨b, hb⟩
    · exact rule_of_nan rfl (Or.inr rfl)
    · refine rule_nan rfl (toward_inf s tend1) (toward_inf t tend1) (toward_inf s tend3) (toward_inf t tend1) (a := sg s * sg t) (b := 2 * (sg s * sg t)) ?_ ?_ ?_
      · cases s <;> cases t <;> norm_num [sg]
      · intro n
        have : (n : ℝ) + 1 ≠ 0 := by positivity
        change sg s * (n + 1) / (sg t * (n + 1)) = _
        rw [sg_div, div_self this, mul_one]
      · intro n
        have : (n : ℝ) + 1 ≠ 0 := by positivity
        change sg s * (2 * (n + 1)) / (sg t * (n + 1)) = _
        rw [sg_div, mul_div_assoc, div_self this]; ring
    · change LimitRule _ _ _ (Ext.inf (xor s (decide (b.val < 0))))
      have hb0 : b.val ≠ 0 := fun e => h0 ⟨b, hb, rfl, e⟩
      refine rule_some (inf_val s) (y := .fin b hb) rfl (inf_val _) fun u v hu hv => ?_
      have e : decide (b.val < 0) = decide (b.val⁻¹ < 0) := by simp
      rw [e, ← inf_mul_coe s (inv_ne_zero hb0)]
      simp only [div_eq_mul_inv]
      exact tmul hu (EReal.tendsto_coe.2 ((EReal.tendsto_coe.1 hv).inv₀ hb0)) (by cases s <;> simp) (by exact_mod_cast inv_ne_zero hb0)
  · rcases y with _ | t | ⟨b, hb⟩
    · exact rule_of_nan rfl (Or.inr rfl)
    · change LimitRule _ _ _ (0 : Ext f M)
      have hz : Val (0 : Ext f M) ((0 : ℝ) : EReal) := by
        change Val (Ext.ofFP M 0) _
        unfold Ext.ofFP
        rw [dif_pos (by change |(0 : ℝ)| ≤ M; rw [abs_zero]; linarith)]
        rfl
      refine rule_some (x := .fin a ha) rfl (inf_val t) hz fun u v hu hv => EReal.tendsto_coe.2 ?_
      simp only [div_eq_mul_inv]
      simpa using (EReal.tendsto_coe.1 hu).mul (inv_inf t hv)
    · exact absurd ⟨⟨a.val, a, ha, rfl, rfl⟩, ⟨b.val, b, hb, rfl, rfl⟩⟩ h

/-- a real number as the format has it: rounded, infinite if it is too large -/
def Rounded (M : ℝ) (f : Fmt) (v : ℝ) (r : Ext f M) : Prop :=
  (|f.rd v| ≤ M → Is r (f.rd v)) ∧ (M < |f.rd v| → Val r (if v < 0 then ⊥ else ⊤))

theorem rounded_ofFP (hM : 0 ≤ M) (v : ℝ) : Rounded M f v (Ext.ofFP M (FP.round f v)) := by
  unfold Ext.ofFP
  have e : (FP.round f v).val = f.rd v := rfl
  refine ⟨fun h => ⟨FP.round f v, h, dif_pos h, rfl⟩, fun h => ?_⟩
  rw [dif_neg (by rw [e]; exact not_le.2 h), e]
  have : f.rd v < 0 ↔ v < 0 := by
    constructor
    · intro h1
      by_contra h2
      have := f.mono (not_lt.1 h2)
      rw [f.rd_zero] at this
      linarith
    · intro h1
      have h2 := f.mono h1.le
      rw [f.rd_zero] at h2
      refine lt_of_le_of_ne h2 fun h3 => ?_
      rw [h3, abs_zero] at h
      linarith
  simp [Val, this]

/-- **C68**, what the arithmetic is on ordinary numbers: the exact result is rounded, and infinite with its sign if that is too large. -/
theorem C68_finite (hM : 0 ≤ M) {x y : Ext f M} {a b : ℝ} (hx : Is x a) (hy : Is y b) :
    Rounded M f (a + b) (x + y) ∧ Rounded M f (a - b) (x - y) ∧ Rounded M f (a * b) (x * y) ∧ (b ≠ 0 → Rounded M f (a / b) (x / y)) ∧ Is (-x) (-a) := by
  obtain ⟨a, ha, rfl, rfl⟩ := hx
  obtain ⟨b, hb, rfl, rfl⟩ := hy
  refine ⟨rounded_ofFP hM _, rounded_ofFP hM _, rounded_ofFP hM _, fun h => ?_, ?_⟩
  · change Rounded M f _ (if b.val = 0 then _ else Ext.ofFP M (FP.round f (a.val / b.val)))
    rw [if_neg h]
    exact rounded_ofFP hM _
  · change Is (Ext.ofFP M (-a)) _
    unfold Ext.ofFP
    have h : |(-a).val| ≤ M := by change |-a.val| ≤ M; rwa [abs_neg]
    exact ⟨-a, h, dif_pos h, rfl⟩

/-- **C68**, what the arithmetic is when the divisor is zero: NaN if the dividend is zero or NaN, otherwise infinite with its sign. -/
theorem C68_div_zero {x y : Ext f M} (hy : Is y 0) : (x / y = .nan ↔ x = .nan ∨ Is x 0) ∧
    ∀ e, Val x e → e ≠ 0 → Val (x / y) (if e < 0 then ⊥ else ⊤) := by
  obtain ⟨b, hb, rfl, hb0⟩ := hy
  rcases x with _ | s | ⟨a, ha⟩
  · exact ⟨⟨fun _ => Or.inl rfl, fun _ => rfl⟩, fun _ h => h.elim⟩
  · have e : (Ext.inf s / Ext.fin b hb : Ext f M) = .inf s := by
      change Ext.inf (xor s (decide (b.val < 0))) = _
      simp [hb0]
    rw [e]
    refine ⟨⟨nofun, ?_⟩, fun v hv _ => ?_⟩
    · rintro (h | ⟨_, _, h, _⟩) <;> cases h
    · cases s <;> simp [Val] at hv ⊢ <;> subst hv <;> simp
  · have e : (Ext.fin a ha / Ext.fin b hb : Ext f M) = if a.val = 0 then .nan else .inf (decide (a.val < 0)) := by
      change (if b.val = 0 then _ else _) = _
      rw [if_pos hb0]; rfl
    rw [e]
    by_cases h0 : a.val = 0
    · rw [if_pos h0]
      refine ⟨⟨fun _ => Or.inr ⟨a, ha, rfl, h0⟩, fun _ => rfl⟩, fun v hv h => absurd ?_ h⟩
      change v = _ at hv
      rw [hv, h0]; rfl
    · rw [if_neg h0]
      refine ⟨⟨nofun, ?_⟩, fun v hv _ => ?_⟩
      · rintro (h | ⟨_, _, h, h'⟩)
        · cases h
        · cases h; exact absurd h' h0
      · change v = _ at hv
        subst hv
        simp [Val]

/-- **C68**, square root, absolute value and opposite: limits on infinities, NaN for negative numbers, rounded on the others. -/
theorem C68_unary (hM : 0 ≤ M) (x : Ext f M) :
    (x = .nan → -x = .nan ∧ CSqrt.abs x = .nan ∧ CSqrt.sqrt x = .nan) ∧
    (∀ e, Val x e → Val (-x) (-e) ∧ Val (CSqrt.abs x) (max e (-e)) ∧ (e < 0 → CSqrt.sqrt x = .nan) ∧ (e = ⊤ → CSqrt.sqrt x = x)) ∧
    ∀ a, Is x a → 0 ≤ a → Rounded M f (Real.sqrt a) (CSqrt.sqrt x) := by
  rcases x with _ | s | ⟨a, ha⟩
  · exact ⟨fun _ => ⟨rfl, rfl, rfl⟩, fun _ h => h.elim, fun _ ⟨_, _, h, _⟩ => nomatch h⟩
  · refine ⟨nofun, fun e he => ?_, fun _ ⟨_, _, h, _⟩ => nomatch h⟩
    change e = _ at he
    subst he
    refine ⟨?_, ?_, ?_, ?_⟩
    · change Val (Ext.inf (!s)) _; cases s <;> simp [Val]
    · change Val (Ext.inf false) _; cases s <;> simp [Val]
    · intro h
      change (if s then Ext.nan else Ext.inf false) = Ext.nan
      cases s <;> simp at h ⊢
    · intro h
      change (if s then Ext.nan else Ext.inf false) = Ext.inf s
      cases s <;> simp at h ⊢
  · have hneg : |(-a).val| ≤ M := by change |-a.val| ≤ M; rwa [abs_neg]
    refine ⟨nofun, fun e he => ?_, fun b hb h0 => ?_⟩
    · change e = _ at he
      subst he
      refine ⟨?_, ?_, ?_, fun h => absurd h (EReal.coe_ne_top _)⟩
      · change Val (Ext.ofFP M (-a)) _
        unfold Ext.ofFP
        rw [dif_pos hneg]
        exact (EReal.coe_neg _).symm
      · change Val (Ext.ofFP M (CSqrt.abs a)) _
        have e1 : (CSqrt.abs a : FP f).val = |a.val| := rfl
        unfold Ext.ofFP
        rw [dif_pos (by rw [e1, abs_abs]; exact ha)]
        change _ = _
        rw [e1, ← EReal.coe_neg]
        exact (EReal.coe_strictMono.monotone.map_max).symm
      · intro h
        change (if a.val < 0 then Ext.nan else _) = _
        rw [if_pos (by exact_mod_cast h)]
    · obtain ⟨c, hc, e, rfl⟩ := hb
      cases e
      change Rounded M f _ (if a.val < 0 then Ext.nan else Ext.ofFP M (FP.round f (Real.sqrt a.val)))
      rw [if_neg (not_lt.2 h0)]
      exact rounded_ofFP hM _

/-- **C68**, comparisons: those of the extended real numbers, all false with NaN. -/
theorem C68_compare (x y : Ext f M) : (CCmp.ltb x y = true ↔ ∃ a b, Val x a ∧ Val y b ∧ a < b) ∧
    (CCmp.leb x y = true ↔ ∃ a b, Val x a ∧ Val y b ∧ a ≤ b) ∧ (CCmp.eqb x y = true ↔ ∃ a, Val x a ∧ Val y a) := by
  have h : ∀ r : EReal → EReal → Prop, Ext.cmp' r x y = true ↔ ∃ a b, Val x a ∧ Val y b ∧ r a b := by
    intro r
    rcases x with _ | s | ⟨a, ha⟩ <;> rcases y with _ | t | ⟨b, hb⟩ <;> simp [Ext.cmp', Ext.ereal, Val]
  exact ⟨h _, h _, (h _).trans (by simp)⟩

/-! Examples. -/

/-- `inf - inf` has no limit, so the result is NaN -/
example : ∀ e, ¬ Val (Ext.inf false + Ext.inf true : Dbl) e := by
  intro e he
  have h : ¬ (Finite (Ext.inf false : Dbl) ∧ Finite (Ext.inf true : Dbl)) := by rintro ⟨⟨_, _, _, h, _⟩, _⟩; cases h
  have hl := (((C68_limits h).1 e).1 he).2.2
  have h1 := hl _ _ (toward_inf false tend1) (toward_inf true tend1)
  have h2 := hl _ _ (toward_inf false tend2) (toward_inf true tend1)
  simp only [sg, Bool.false_eq_true, if_false, if_true] at h1 h2
  have e1 : ∀ n : ℕ, (1 * ((n : ℝ) + 1) + -1 * (n + 1)) = 0 := fun n => by ring
  have e2 : ∀ n : ℕ, (1 * ((n : ℝ) + 2) + -1 * (n + 1)) = 1 := fun n => by ring
  simp only [e1, e2] at h1 h2
  have h3 := (tendsto_nhds_unique tendsto_const_nhds h1).trans (tendsto_nhds_unique tendsto_const_nhds h2).symm
  exact zero_ne_one (EReal.coe_injective h3)

/-- a number divided by an infinity tends to the result -/
example : Tendsto (fun n : ℕ => (((1 : ℝ) / (sg true * (n + 1)) : ℝ) : EReal)) atTop (𝓝 0) := by
  have hM : (1 : ℝ) ≤ 2 := by norm_num
  have h1 : |(1 : FP binary64).val| ≤ 2 := by simp
  refine ((C68_limits_div (f := binary64) hM (x := .fin 1 h1) (y := .inf true) (by rintro ⟨_, ⟨_, _, _, h, _⟩⟩; cases h)
    (by rintro ⟨_, _, h, _⟩; cases h) 0).1 ?_).2.2 (fun _ => 1) _ (toward_fin tendsto_const_nhds) (toward_inf true tend1)
  change Val (Ext.ofFP 2 0 : Ext binary64 2) 0
  unfold Ext.ofFP
  rw [dif_pos (by simp)]
  rfl

/-- in a format with largest number 1, `1 + 1` is infinite and `-1 - 1` is infinite and negative -/
example : Val ((.fin 1 (by simp) + .fin 1 (by simp) : Ext binary64 1)) ⊤ ∧ Val ((.fin (-1) (by simp) - .fin 1 (by simp) : Ext binary64 1)) ⊥ := by
  have h2 : binary64.rd 2 = 2 := by
    exact rep_double 1 (2 ^ 52) (x := 2) (by norm_num) (by norm_num) (by norm_num)
  constructor
  · have := (C68_finite (f := binary64) (M := 1) (by norm_num) ⟨1, by simp, rfl, rfl⟩ ⟨1, by simp, rfl, rfl⟩).1.2
    simp only [FP.val_one, one_add_one_eq_two, h2] at this
    have := this (by norm_num)
    rwa [if_neg (by norm_num)] at this
  · have := (C68_finite (f := binary64) (M := 1) (by norm_num) ⟨-1, by simp, rfl, rfl⟩ ⟨1, by simp, rfl, rfl⟩).2.1.2
    have e : (-1 : ℝ) - 1 = -2 := by norm_num
    simp only [FP.val_one, FP.val_neg, e, binary64.odd, h2] at this
    simpa using this (by norm_num)

/-- `-1 / 0` is minus infinity, `0 / 0` is NaN -/
example : Val ((.fin (-1) (by simp) / .fin 0 (by simp) : Ext binary64 1)) ⊥ ∧ (.fin 0 (by simp) / .fin 0 (by simp) : Ext binary64 1) = .nan := by
  constructor
  · have := (C68_div_zero (f := binary64) (M := 1) (x := .fin (-1) (by simp)) (y := .fin 0 (by simp)) ⟨0, by simp, rfl, rfl⟩).2 ((-1 : ℝ) : EReal)
      (by simp [Val]) (by norm_num)
    rwa [if_pos (by norm_num)] at this
  · exact (C68_div_zero (f := binary64) (M := 1) ⟨0, by simp, rfl, rfl⟩).1.2 (Or.inr ⟨0, by simp, rfl, rfl⟩)

/-- the square root of a negative number is NaN, the opposite of an infinity is the other one -/
example : (CSqrt.sqrt (.fin (-1) (by simp) : Ext binary64 1)) = .nan ∧ Val (-(.inf false : Dbl)) ⊥ := by
  constructor
  · exact ((C68_unary (by norm_num) (.fin (-1) (by simp) : Ext binary64 1)).2.1 ((-1 : ℝ) : EReal) (by simp [Val])).2.2.1 (by norm_num)
  · have hM : (0 : ℝ) ≤ dblMax := by unfold dblMax; norm_num
    exact ((C68_unary hM (.inf false : Dbl)).2.1 ⊤ rfl).1

/-- NaN is not equal to itself, the infinities are ordered -/
example : CCmp.eqb (.nan : Dbl) .nan = false ∧ CCmp.ltb (.inf true : Dbl) (.inf false) = true := by
  constructor
  · rw [Bool.eq_false_iff]
    intro h
    obtain ⟨_, h, _⟩ := (C68_compare _ _).2.2.1 h
    exact h
  · exact (C68_compare _ _).1.2 ⟨⊥, ⊤, rfl, rfl, by simp⟩

end Unc.Props
