import Verif.Lemmas.Units2
import Verif.Lemmas.Range
import Verif.Model.IEEE2
import Verif.Props.Range

/-!
# C79: a change of units by powers of two
-/

namespace Unc.Props
open Unc.Spec
variable {f : Fmt}

/-- **C79**: the formats of any precision have the property if the exponents have no limits. -/
theorem C79_formats {p : ℕ} (hp : 1 ≤ p) : TwoScaled (bits p hp) := bits_two hp

example : ∃ k x, (bits 53 (by norm_num)).rd (2 ^ (k : ℤ) * x) ≠ 2 ^ k * x := by
  refine ⟨1, 2 ^ 53 + 1 / 2, ?_⟩
  rw [C79_formats (by norm_num)]
  intro h
  have h1 : (bits 53 (by norm_num)).rd (2 ^ 53 + 1 / 2) = 2 ^ 53 + 1 / 2 := mul_left_cancel₀ (zpow_ne_zero 1 (by norm_num)) h
  change bitsRd 53 _ = _ at h1
  rw [bitsRd, if_pos (by norm_num), bitsPos_eq (e := 53) (by norm_num) (by norm_num)] at h1
  norm_num at h1

/-- **C79**, first order: in a dimensionally correct calculation a change of units by powers of two changes all results exactly as their units, whatever the rounding errors; whether the
calculation is defined does not depend on the units. -/
theorem C79_values (hf : TwoScaled f) {env env' : ℕ → UReal (FP f)} {w : ℕ → ℤ} (h : ∀ i, InUnits (w i) (env i) (env' i)) {t : Calc} {k : ℤ} (ht : t.unit w = some k) :
    (t.run env = none ↔ t.run env' = none) ∧ ∀ x y, t.run env = some x → t.run env' = some y →
      x.id = y.id ∧ Times2 k x.n y.n ∧ Times2 k x.s y.s ∧ Times2 (2 * k) x.var y.var := by
  have H := run_units hf h t ht
  generalize t.run env = p at H
  generalize t.run env' = q at H
  cases H with
  | none => exact ⟨by simp, by rintro _ _ ⟨⟩⟩
  | some hr =>
    refine ⟨by simp, ?_⟩
    rintro _ _ ⟨⟩ ⟨⟩
    exact ⟨hr.id, hr.mu, s_units hf hr, by rw [two_mul]; exact var_units hf hr⟩

/-- **C79**, first order: the covariance of two results changes as the product of their units, and their correlation does not change. -/
theorem C79_pairs (hf : TwoScaled f) {env env' : ℕ → UReal (FP f)} {w : ℕ → ℤ} (h : ∀ i, InUnits (w i) (env i) (env' i)) {t t' : Calc} {k l : ℤ}
    (ht : t.unit w = some k) (ht' : t'.unit w = some l) {x x' y y' : UReal (FP f)} (hx : t.run env = some x) (hx' : t'.run env = some x')
    (hy : t.run env' = some y) (hy' : t'.run env' = some y') :
    Times2 (k + l) (UReal.cov x x') (UReal.cov y y') ∧ UReal.corr x x' = UReal.corr y y' := by
  have H := run_units hf h t ht
  have H' := run_units hf h t' ht'
  rw [hx, hy] at H
  rw [hx', hy'] at H'
  cases H with
  | some hr =>
    cases H' with
    | some hr' => exact ⟨cov_units hf hr hr', corr_units hf hr hr'⟩

/-- **C79**, second order: in a dimensionally correct calculation the change of units changes the mean, in both modes of propagation, the uncertainty and the central moments exactly as their
units, and it does not change skewness and kurtosis. -/
theorem C79_values2 (hf : TwoScaled f) (u : Moments (FP f)) {env env' : ℕ → UReal2 (FP f)} {w : ℕ → ℤ} (h : ∀ i, InUnits2 (w i) (env i) (env' i)) {t : Calc2} {k : ℤ}
    (ht : t.unit w = some k) :
    (t.run u env = none ↔ t.run u env' = none) ∧ ∀ x y, t.run u env = some x → t.run u env' = some y →
      (∀ n : ℕ, Option.Rel (Times2 (n * k)) (x.m n) (y.m n)) ∧ (∀ p, Option.Rel (Times2 k) (x.n p) (y.n p)) ∧ Option.Rel (Times2 k) x.s y.s ∧
        x.skew = y.skew ∧ x.kurt = y.kurt := by
  have H := run_units2 hf u h t ht
  generalize t.run u env = p at H
  generalize t.run u env' = q at H
  cases H with
  | none => exact ⟨by simp, by rintro _ _ ⟨⟩⟩
  | @some x y hr =>
    refine ⟨by simp, ?_⟩
    rintro _ _ ⟨⟩ ⟨⟩
    have h1 := m_units2 hf hr 1
    have h2 := m_units2 hf hr 2
    have h3 := m_units2 hf hr 3
    have h4 := m_units2 hf hr 4
    have hmu := hr.mu
    have eqz : ∀ {a b : FP f}, Times2 0 a b → a = b := fun h => FP.ext (by rw [Times2, zpow_zero, one_mul] at h; exact h.symm)
    refine ⟨m_units2 hf hr, fun p => ?_, ?_, ?_, ?_⟩
    · simp only [UReal2.n]
      generalize x.m 1 = a at h1
      generalize y.m 1 = b at h1
      cases h1 with
      | none => exact .none
      | @some a b h1 =>
        have h1 : Times2 k a b := by simpa using h1
        cases p
        · exact .some (Times2.add hf hmu h1.neg)
        · exact .some (Times2.add hf hmu h1)
    · simp only [UReal2.s]
      generalize x.m 2 = a at h2
      generalize y.m 2 = b at h2
      cases h2 with
      | none => exact .none
      | some h2 => exact .some (Times2.sqrt hf (by rw [← two_mul]; exact_mod_cast h2))
    · simp only [UReal2.skew, UReal2.s]
      generalize x.m 2 = a at h2
      generalize y.m 2 = b at h2
      generalize x.m 3 = c at h3
      generalize y.m 3 = d at h3
      cases h3 with
      | none => rfl
      | some h3 =>
        cases h2 with
        | none => rfl
        | some h2 =>
          simp only [Option.map_some, Option.bind_some, Option.some.injEq]
          exact eqz (Times2.div hf h3 (Times2.mul hf (Times2.sqrt (k := k) hf (by rw [← two_mul]; exact_mod_cast h2)) h2 rfl) (by push_cast; ring))
    · simp only [UReal2.kurt]
      generalize x.m 2 = a at h2
      generalize y.m 2 = b at h2
      generalize x.m 4 = c at h4
      generalize y.m 4 = d at h4
      cases h2 with
      | none => rfl
      | some h2 =>
        cases h4 with
        | none => rfl
        | some h4 =>
          simp only [Option.map_some, Option.bind_some, Option.some.injEq]
          exact eqz (Times2.div hf h4 (Times2.mul hf h2 h2 rfl) (by push_cast; ring))

/-- **C79**, second order: the covariance of two results changes as the product of their units, and their correlation does not change. -/
theorem C79_pairs2 (hf : TwoScaled f) (u : Moments (FP f)) {env env' : ℕ → UReal2 (FP f)} {w : ℕ → ℤ} (h : ∀ i, InUnits2 (w i) (env i) (env' i)) {t t' : Calc2} {k l : ℤ}
    (ht : t.unit w = some k) (ht' : t'.unit w = some l) {x x' y y' : UReal2 (FP f)} (hx : t.run u env = some x) (hx' : t'.run u env = some x')
    (hy : t.run u env' = some y) (hy' : t'.run u env' = some y') :
    Option.Rel (Times2 (k + l)) (UReal2.cov x x') (UReal2.cov y y') ∧ UReal2.corr x x' = UReal2.corr y y' := by
  have H := run_units2 hf u h t ht
  have H' := run_units2 hf u h t' ht'
  rw [hx, hy] at H
  rw [hx', hy'] at H'
  cases H with
  | some hr =>
    cases H' with
    | some hr' =>
      have hc := cov_units2 hf hr hr'
      have h2 := m_units2 hf hr 2
      have h2' := m_units2 hf hr' 2
      refine ⟨hc, ?_⟩
      simp only [UReal2.corr, UReal2.s]
      generalize UReal2.cov x x' = a at hc
      generalize UReal2.cov y y' = b at hc
      generalize x.m 2 = c at h2
      generalize y.m 2 = d at h2
      generalize x'.m 2 = c' at h2'
      generalize y'.m 2 = d' at h2'
      cases hc with
      | none => rfl
      | some hc =>
        cases h2 with
        | none => rfl
        | some h2 =>
          cases h2' with
          | none => rfl
          | some h2' =>
            simp only [Option.map_some, Option.bind_some, Option.some.injEq]
            have := Times2.div hf hc (Times2.mul hf (Times2.sqrt (k := k) hf (by rw [← two_mul]; exact_mod_cast h2)) (Times2.sqrt (k := l) hf (by rw [← two_mul]; exact_mod_cast h2')) rfl) rfl
            rw [sub_self, Times2, zpow_zero, one_mul] at this
            exact FP.ext this.symm

/-! ## examples -/

/-- a number of some digits -/
noncomputable def third : FP (bits 53 (by norm_num)) := FP.round _ (1 / 3)

theorem inUnits_indep (hf : TwoScaled f) (k : ℤ) (i : VId) (hi : 0 < i) (n s : FP f) : InUnits k (⟨i, s, n, []⟩ : UReal (FP f)) ⟨i, two hf k s, two hf k n, []⟩ :=
  ⟨rfl, rfl, fun _ => rfl, .nil, fun h => absurd h (not_lt.2 hi.le), fun h => absurd h hi.ne'⟩

/-- `t = x * y; z *= z; t += z` in some units, then in other units -/
example : ∃ (t : Calc) (env env' : ℕ → UReal (FP (bits 53 (by norm_num)))) (x y : UReal (FP (bits 53 (by norm_num)))), t.run env = some x ∧ t.run env' = some y ∧
    Times2 8 x.s y.s ∧ UReal.corr x (env 0) = UReal.corr y (env' 0) := by
  have hf : TwoScaled (bits 53 (by norm_num)) := C79_formats _
  have h : ∀ i : ℕ, InUnits ((![3, 5, 4] : Fin 3 → ℤ) (Fin.ofNat 3 i)) (⟨i + 1, third, third, []⟩ : UReal (FP (bits 53 (by norm_num))))
      ⟨i + 1, two hf ((![3, 5, 4] : Fin 3 → ℤ) (Fin.ofNat 3 i)) third, two hf ((![3, 5, 4] : Fin 3 → ℤ) (Fin.ofNat 3 i)) third, []⟩ :=
    fun i => inUnits_indep hf _ _ (by omega) _ _
  let t : Calc := .bin .addTo (.bin .mul (.leaf 0) (.leaf 1)) (.un .square (.leaf 2))
  have ht : t.unit (fun i => (![3, 5, 4] : Fin 3 → ℤ) (Fin.ofNat 3 i)) = some 8 := rfl
  have H := C79_values hf h ht
  let env : ℕ → UReal (FP (bits 53 (by norm_num))) := fun i => ⟨i + 1, third, third, []⟩
  obtain ⟨x, hx⟩ : ∃ x, t.run env = some x := ⟨_, rfl⟩
  obtain ⟨y, hy⟩ := Option.ne_none_iff_exists'.1 (mt H.1.2 (by rw [hx]; simp))
  exact ⟨t, _, _, x, y, hx, hy, (H.2 x y hx hy).2.2.1, (C79_pairs hf h ht (t' := .leaf 0) (l := 3) rfl hx rfl hy rfl).2⟩

/-- a variable at second order -/
noncomputable def var2 (i : VId) (n s : FP f) : UReal2 (FP f) := ⟨⟨[(i, ⟨s, 0, ⟨0, n, s, n, s, n⟩⟩)], []⟩, n⟩

theorem inUnits2_var (hf : TwoScaled f) (k : ℤ) (i : VId) (n s : FP f) :
    InUnits2 k (var2 i n s) ⟨⟨[(i, ⟨two hf k s, 0, ⟨0, n, s, n, s, n⟩⟩)], []⟩, two hf k n⟩ :=
  ⟨rfl, .cons ⟨rfl, rfl, by simp [Times2], rfl⟩ .nil, .nil⟩

/-- a product at second order -/
example : ∃ (t : Calc2) (u : Moments (FP (bits 53 (by norm_num)))) (env env' : ℕ → UReal2 (FP (bits 53 (by norm_num)))) (x y : UReal2 (FP (bits 53 (by norm_num)))),
    t.run u env = some x ∧ t.run u env' = some y ∧ x.kurt = y.kurt ∧ UReal2.corr x (env 0) = UReal2.corr y (env' 0) := by
  have hf : TwoScaled (bits 53 (by norm_num)) := C79_formats _
  have h : ∀ i : ℕ, InUnits2 (3 + i : ℤ) (var2 (i + 1) third third)
      ⟨⟨[(((i : ℤ) + 1), ⟨two hf (3 + i) third, 0, ⟨0, third, third, third, third, third⟩⟩)], []⟩, two hf (3 + i) third⟩ :=
    fun i => inUnits2_var hf _ _ _ _
  let t : Calc2 := .mul (.leaf 0) (.leaf 1)
  have ht : t.unit (fun i => (3 + i : ℤ)) = some 7 := rfl
  have H := C79_values2 hf ⟨0, 0, 0, 0, 0, 0⟩ h ht
  have ok : ∀ i : ℕ, i < 5 → Ok2 (var2 (f := bits 53 (by norm_num)) (i + 1) third third) := fun i hi =>
    ⟨⟨List.pairwise_singleton _ _, .nil, by simp [var2, SMap.keys]⟩, by simp [HessGrad.Below, var2, SMap.keys, maxId]; omega⟩
  obtain ⟨x, hx, -⟩ := binary_lawfree (ok 0 (by norm_num)) (ok 1 (by norm_num)) (third * third) third third 0 0 1
  have hx : t.run ⟨0, 0, 0, 0, 0, 0⟩ (fun i : ℕ => var2 ((i : ℤ) + 1) third third) = some x := hx _
  obtain ⟨y, hy⟩ := Option.ne_none_iff_exists'.1 (mt H.1.2 (by rw [hx]; simp))
  exact ⟨t, _, _, _, x, y, hx, hy, (H.2 x y hx hy).2.2.2.2, (C79_pairs2 hf _ h ht (t' := .leaf 0) (l := 3) rfl hx rfl hy rfl).2⟩

/-! ## the limits of `double` and `float` -/

/-- the statement in the limited range, for the kurtosis: it does not depend on the unit; more modestly, it is a positive number (it is always at least 1) -/
def KurtFound {M : ℝ} (x : UReal2 (Ext f M)) : Prop := ∃ q r, x.kurt = some q ∧ 0 < r ∧ Is q r

theorem kurt_lost {M : ℝ} {x : UReal2 (Ext f M)} {s2 : Ext f M} {v : ℝ} (h2 : x.m 2 = some s2) (hv : Is s2 v) (h : M < f.rd (v * v) ∨ f.rd (v * v) = 0) :
    ¬ KurtFound x := by
  rintro ⟨q, r, hq, hr, hi⟩
  rw [UReal2.kurt, h2] at hq
  simp only [Option.bind_some] at hq
  obtain ⟨m4, -, rfl⟩ := Option.map_eq_some_iff.1 hq
  obtain ⟨a, ha, rfl, rfl⟩ := hv
  rw [Ext.fin_mul] at hi
  rcases h with h | h
  · rw [Ext.ofFP_of_lt (by rw [FP.val_mul]; exact lt_of_lt_of_le h (le_abs_self _))] at hi
    have hM : 0 ≤ M := (abs_nonneg _).trans ha
    obtain ⟨b, hb, e, rfl⟩ := hi
    rcases m4 with _ | s | ⟨c, hc⟩
    · exact nomatch e
    · exact nomatch e
    · change Ext.ofFP M 0 = _ at e
      rw [Ext.ofFP_of_le (by simpa using hM)] at e
      cases e
      simp at hr
  · have h0 : (a * a).val = 0 := h
    rw [Ext.ofFP_of_le (by rw [h0, abs_zero]; exact (abs_nonneg _).trans ha)] at hi
    obtain ⟨b, hb, e, rfl⟩ := hi
    rcases m4 with _ | s | ⟨c, hc⟩
    · exact nomatch e
    · exact nomatch e
    · change (if (a * a).val = 0 then _ else _) = _ at e
      rw [if_pos h0] at e
      split_ifs at e

theorem ieee_under {p : ℕ} {emin : ℤ} (hp : 1 ≤ p) (he : emin ≤ 0) {x : ℝ} (h0 : 0 ≤ x) (h : x ≤ 2 ^ (emin - p - 1)) : (ieee p emin hp he).rd x = 0 := by
  change ieeeRd p emin x = 0
  rcases h0.eq_or_lt with rfl | h0
  · simp [ieeeRd]
  rw [ieeeRd, if_pos h0]
  have hp' : (1 : ℤ) ≤ p := by exact_mod_cast hp
  have e : expo emin x = emin := by
    refine le_antisymm (expo_le h0 le_rfl (lt_of_le_of_lt h (zpow_lt_zpow_right₀ (by norm_num) (by omega)))) (le_max_right _ _)
  rw [ieeePos, e]
  have h1 : x / 2 ^ (emin - p + 1) ≤ 1 / 4 := by
    rw [div_le_iff₀ (two_zpow_pos _)]
    refine h.trans (le_of_eq ?_)
    rw [show (1 : ℝ) / 4 = 2 ^ (-2 : ℤ) by norm_num, ← zpow_add₀ (by norm_num)]
    congr 1; ring
  have h2 : nearEven (x / 2 ^ (emin - p + 1)) = 0 := by
    have hfl : ⌊x / 2 ^ (emin - p + 1)⌋ = 0 := Int.floor_eq_iff.2 ⟨by simpa using (div_pos h0 (two_zpow_pos _)).le, by norm_num; linarith⟩
    have hfr : Int.fract (x / 2 ^ (emin - p + 1)) = x / 2 ^ (emin - p + 1) := by rw [Int.fract, hfl]; simp
    rw [nearEven, hfr, if_pos (by linarith), hfl]
  rw [h2]; simp

theorem ieee_over {p : ℕ} {emin : ℤ} (hp : 1 ≤ p) (he : emin ≤ 0) (k : ℕ) {x : ℝ} (h : 2 ^ k ≤ x) : 2 ^ k ≤ (ieee p emin hp he).rd x := by
  have h1 := (ieee p emin hp he).mono h
  have h2 := ieee_int hp he 1 k (by
    rw [abs_one]
    exact one_lt_pow₀ (by norm_num) (by omega)) (by
    have : (1 : ℤ) ≤ p := by exact_mod_cast hp
    omega)
  rw [Int.cast_one, one_mul, zpow_natCast] at h2
  rwa [h2] at h1

/-- **C79**, false with the limits of `double`: the kurtosis is never found if the uncertainty is `2 ^ 256` (about 10⁷⁷) or more, or `2 ^ -269` (about 10⁻⁸¹) or less. -/
theorem C79_double_false {x : UReal2 Dbl} {s2 : Dbl} {v : ℝ} (h2 : x.m 2 = some s2) (hv : Is s2 v) (h : 2 ^ 512 ≤ v ∨ 0 ≤ v ∧ v ≤ 2 ^ (-538 : ℤ)) : ¬ KurtFound x := by
  refine kurt_lost h2 hv ?_
  rcases h with h | ⟨h0, h⟩
  · left
    refine lt_of_lt_of_le ?_ (ieee_over _ _ 1024 (x := v * v) ?_)
    · rw [dblMax, show (2 : ℝ) ^ 1024 = 2 ^ 53 * 2 ^ 971 by rw [← pow_add]]
      exact mul_lt_mul_of_pos_right (by norm_num) (by positivity)
    · refine le_trans ?_ (mul_self_le_mul_self (by positivity) h)
      rw [← pow_add]
  · right
    refine ieee_under _ _ (mul_self_nonneg v) ((mul_self_le_mul_self h0 h).trans ?_)
    rw [← zpow_add₀ (by norm_num)]
    exact zpow_le_zpow_right₀ (by norm_num) (by norm_num)

theorem is_add' {M : ℝ} {a b : Ext f M} {v w : ℝ} (ha : Is a v) (hb : Is b w) (h1 : f.rd (v + w) = v + w) (h2 : |v + w| ≤ M) : Is (a + b) (v + w) := by
  obtain ⟨a, ha, rfl, rfl⟩ := ha
  obtain ⟨b, hb, rfl, rfl⟩ := hb
  have e : (a + b).val = a.val + b.val := h1
  exact ⟨a + b, by rw [e]; exact h2, Ext.ofFP_of_le _, e⟩

theorem is_sub' {M : ℝ} {a b : Ext f M} {v w : ℝ} (ha : Is a v) (hb : Is b w) (h1 : f.rd (v - w) = v - w) (h2 : |v - w| ≤ M) : Is (a - b) (v - w) := by
  obtain ⟨a, ha, rfl, rfl⟩ := ha
  obtain ⟨b, hb, rfl, rfl⟩ := hb
  have e : (a - b).val = a.val - b.val := h1
  exact ⟨a - b, by rw [e]; exact h2, Ext.ofFP_of_le _, e⟩

theorem is_mul' {M : ℝ} {a b : Ext f M} {v w : ℝ} (ha : Is a v) (hb : Is b w) (h1 : f.rd (v * w) = v * w) (h2 : |v * w| ≤ M) : Is (a * b) (v * w) := by
  obtain ⟨a, ha, rfl, rfl⟩ := ha
  obtain ⟨b, hb, rfl, rfl⟩ := hb
  have e : (a * b).val = a.val * b.val := h1
  exact ⟨a * b, by rw [e]; exact h2, Ext.ofFP_of_le _, e⟩

/-- the variance of a new variable of uncertainty `2 ^ k` -/
theorem indep_m2 {M : ℝ} {g v3 v4 : Ext f M} {k : ℤ} {a b : ℝ} (n : Ext f M) (i : VId) (mom : Moments (Ext f M)) (h3 : mom.v3 = v3) (h4 : mom.v4 = v4)
    (hg : Is g (2 ^ k)) (i3 : Is v3 a) (i4 : Is v4 b) (h0 : Is (0 : Ext f M) 0) (l2 : Is (Mom.lit 2 : Ext f M) 2)
    (e1 : f.rd (2 ^ (1 + k)) = 2 ^ (1 + k)) (b1 : (2 : ℝ) ^ (1 + k) ≤ M) (e2 : f.rd (2 ^ (k + k)) = 2 ^ (k + k)) (b2 : (2 : ℝ) ^ (k + k) ≤ M) :
    ∃ s2, (⟨⟨[(i, ⟨g, 0, mom⟩)], []⟩, n⟩ : UReal2 (Ext f M)).m 2 = some s2 ∧ Is s2 (2 ^ (k + k)) := by
  have hM : (0 : ℝ) ≤ M := (two_zpow_pos _).le.trans b1
  have r0 : f.rd 0 = 0 := Fmt.rd_zero _
  have p2 : |(2 : ℝ) ^ (k + k)| ≤ M := by rwa [abs_of_pos (two_zpow_pos _)]
  have hgg : Is (g * g) (2 ^ (k + k)) := by
    have := is_mul' hg hg (by rw [← zpow_add₀ (by norm_num), e2]) (by rwa [← zpow_add₀ (by norm_num)])
    rwa [← zpow_add₀ (by norm_num)] at this
  have h2g : Is (Mom.lit 2 * g) (2 ^ (1 + k)) := by
    have := is_mul' l2 hg (by rw [show (2 : ℝ) * 2 ^ k = 2 ^ (1 + k) by rw [zpow_add₀ (by norm_num), zpow_one], e1])
      (by rwa [show (2 : ℝ) * 2 ^ k = 2 ^ (1 + k) by rw [zpow_add₀ (by norm_num), zpow_one], abs_of_pos (two_zpow_pos _)])
    rwa [show (2 : ℝ) * 2 ^ k = 2 ^ (1 + k) by rw [zpow_add₀ (by norm_num), zpow_one]] at this
  have t1 : Is (Mom.lit 2 * g * 0) 0 := by simpa using is_mul' h2g h0 (by simp [r0]) (by simpa using hM)
  have t2 : Is (Mom.lit 2 * g * 0 * v3) 0 := by simpa using is_mul' t1 i3 (by simp [r0]) (by simpa using hM)
  have t3 : Is ((0 : Ext f M) * 0) 0 := by simpa using is_mul' h0 h0 (by simp [r0]) (by simpa using hM)
  have t4 : Is ((0 : Ext f M) * 0 * v4) 0 := by simpa using is_mul' t3 i4 (by simp [r0]) (by simpa using hM)
  have s1 : Is (0 + g * g) (2 ^ (k + k)) := by simpa using is_add' h0 hgg (by simpa using e2) (by simpa using p2)
  have s2 : Is (0 + g * g + Mom.lit 2 * g * 0 * v3) (2 ^ (k + k)) := by simpa using is_add' s1 t2 (by simpa using e2) (by simpa using p2)
  have s3 : Is (0 + g * g + Mom.lit 2 * g * 0 * v3 + 0 * 0 * v4) (2 ^ (k + k)) := by simpa using is_add' s2 t4 (by simpa using e2) (by simpa using p2)
  have m1 : Is ((0 : Ext f M) + 0) 0 := by simpa using is_add' h0 h0 (by simp [r0]) (by simpa using hM)
  have m1' : Is (((0 : Ext f M) + 0) * (0 + 0)) 0 := by simpa using is_mul' m1 m1 (by simp [r0]) (by simpa using hM)
  have s4 := is_sub' s3 m1' (by simpa using e2) (by simpa using p2)
  rw [sub_zero] at s4
  subst h3 h4
  exact ⟨_, rfl, s4⟩

/-- in `double`, a normal variable with the uncertainty `2 ^ 256` -/
example : ¬ KurtFound (⟨⟨[(1, ⟨pd 256, 0, ⟨0, 0, 0, 0, 0, 0⟩⟩)], []⟩, 1⟩ : UReal2 Dbl) := by
  have r : ∀ k : ℤ, -1074 ≤ k → dblFmt.rd (2 ^ k) = 2 ^ k := fun k h => by
    simpa using ieee_int (p := 53) (emin := -1022) (by norm_num) (by norm_num) 1 k (by norm_num) (by push_cast; omega)
  have l : ∀ k : ℤ, k ≤ 1023 → (2 : ℝ) ^ k ≤ dblMax := fun k h => by
    obtain ⟨a, ha, -, e⟩ := pd_is (k := 1023) (by norm_num) le_rfl
    rw [e, abs_of_pos (two_zpow_pos _)] at ha
    exact (zpow_le_zpow_right₀ (by norm_num) h).trans ha
  obtain ⟨s2, h2, h⟩ := indep_m2 (g := pd 256) (v3 := 0) (v4 := 0) (k := 256) 1 1 ⟨0, 0, 0, 0, 0, 0⟩ rfl rfl (pd_is (by norm_num) (by norm_num)) is_zero is_zero is_zero
    (by
      have e : (FP.round dblFmt ((2 : ℕ) : ℝ)).val = 2 := by
        change dblFmt.rd ((2 : ℕ) : ℝ) = 2
        simpa using r 1 (by norm_num)
      have b : |(FP.round dblFmt ((2 : ℕ) : ℝ)).val| ≤ dblMax := by
        rw [e]
        simpa using l 1 (by norm_num)
      exact ⟨_, b, Ext.ofFP_of_le b, e⟩)
    (r _ (by norm_num)) (l _ (by norm_num)) (r _ (by norm_num)) (l _ (by norm_num))
  exact C79_double_false h2 h (Or.inl (by norm_num))

/-- **C79**, false with the limits of `float`: the kurtosis is never found if the uncertainty is `2 ^ 32` (about 4·10⁹) or more, or `2 ^ -38` (about 4·10⁻¹²) or less. -/
theorem C79_float_false {x : UReal2 Flt} {s2 : Flt} {v : ℝ} (h2 : x.m 2 = some s2) (hv : Is s2 v) (h : 2 ^ 64 ≤ v ∨ 0 ≤ v ∧ v ≤ 2 ^ (-76 : ℤ)) : ¬ KurtFound x := by
  refine kurt_lost h2 hv ?_
  rcases h with h | ⟨h0, h⟩
  · left
    refine lt_of_lt_of_le ?_ (ieee_over _ _ 128 (x := v * v) ?_)
    · rw [fltMax]; norm_num
    · refine le_trans ?_ (mul_self_le_mul_self (by positivity) h)
      rw [← pow_add]
  · right
    refine ieee_under _ _ (mul_self_nonneg v) ((mul_self_le_mul_self h0 h).trans ?_)
    rw [← zpow_add₀ (by norm_num)]
    exact zpow_le_zpow_right₀ (by norm_num) (by norm_num)

theorem flt_is {k : ℤ} (h : -149 ≤ k) (h' : k ≤ 127) : Is (Ext.ofFP fltMax (FP.round fltFmt (2 ^ k)) : Flt) (2 ^ k) := by
  have e : (FP.round fltFmt (2 ^ k)).val = 2 ^ k := by
    change fltFmt.rd (2 ^ k) = 2 ^ k
    simpa using ieee_int (p := 24) (emin := -126) (by norm_num) (by norm_num) 1 k (by norm_num) (by push_cast; omega)
  have b : |(FP.round fltFmt (2 ^ k)).val| ≤ fltMax := by
    rw [e, abs_of_pos (two_zpow_pos _)]
    refine (zpow_le_zpow_right₀ (by norm_num) h').trans ?_
    rw [fltMax, show (2 : ℝ) ^ (127 : ℤ) = 2 ^ 23 * 2 ^ 104 by rw [← pow_add]; norm_cast]
    exact mul_le_mul_of_nonneg_right (by norm_num) (by positivity)
  exact ⟨_, b, Ext.ofFP_of_le b, e⟩

/-- in `float`, lengths with an uncertainty of about 4 pm in metres, or of 4 m in nanometres -/
example : ¬ KurtFound (⟨⟨[(1, ⟨Ext.ofFP fltMax (FP.round fltFmt (2 ^ (-38 : ℤ))), 0, ⟨0, 0, 0, 0, 0, 0⟩⟩)], []⟩, 1⟩ : UReal2 Flt) ∧
    ¬ KurtFound (⟨⟨[(1, ⟨Ext.ofFP fltMax (FP.round fltFmt (2 ^ (32 : ℤ))), 0, ⟨0, 0, 0, 0, 0, 0⟩⟩)], []⟩, 1⟩ : UReal2 Flt) := by
  have r : ∀ k : ℤ, -149 ≤ k → k ≤ 127 → fltFmt.rd (2 ^ k) = 2 ^ k ∧ (2 : ℝ) ^ k ≤ fltMax := fun k h h' => by
    refine ⟨by simpa using ieee_int (p := 24) (emin := -126) (by norm_num) (by norm_num) 1 k (by norm_num) (by push_cast; omega), ?_⟩
    obtain ⟨a, ha, -, e⟩ := flt_is h h'
    rwa [e, abs_of_pos (two_zpow_pos _)] at ha
  have z : Is (0 : Flt) 0 := ⟨_, _, Ext.zero_eq (by simpa using (r 0 (by norm_num) (by norm_num)).2), rfl⟩
  have l2 : Is (Mom.lit 2 : Flt) 2 := by
    have := flt_is (k := 1) (by norm_num) (by norm_num)
    rw [zpow_one] at this
    exact this
  constructor
  · obtain ⟨s2, h2, h⟩ := indep_m2 (k := -38) 1 1 ⟨0, 0, 0, 0, 0, 0⟩ rfl rfl (flt_is (by norm_num) (by norm_num)) z z z l2
      (r _ (by norm_num) (by norm_num)).1 (r _ (by norm_num) (by norm_num)).2 (r _ (by norm_num) (by norm_num)).1 (r _ (by norm_num) (by norm_num)).2
    exact C79_float_false h2 h (Or.inr ⟨(two_zpow_pos _).le, le_rfl⟩)
  · obtain ⟨s2, h2, h⟩ := indep_m2 (k := 32) 1 1 ⟨0, 0, 0, 0, 0, 0⟩ rfl rfl (flt_is (by norm_num) (by norm_num)) z z z l2
      (r _ (by norm_num) (by norm_num)).1 (r _ (by norm_num) (by norm_num)).2 (r _ (by norm_num) (by norm_num)).1 (r _ (by norm_num) (by norm_num)).2
    exact C79_float_false h2 h (Or.inl (by norm_num))

end Unc.Props
