import Verif.Lemmas.Range

/-!
# C68: the range of the numbers

In `double` a result may overflow to infinity or underflow to zero.  The results of the model functions run on numbers with infinities and NaN (`Ext`) are compared with those of
the same functions on numbers of the same precision without a largest one (`FP`).
-/

namespace Unc.Props
open Unc.Spec UReal Ext
variable {f : Fmt} {M : ℝ}

theorem is_of_weak {x : Ext f M} {y : FP f} (w : Weak x y) (h : Finite x) : Is x y.val := by
  obtain ⟨v, a, ha, e, hv⟩ := h
  exact ⟨a, ha, e, by rw [w a ha e]⟩

/-! ## overflow is visible -/

/-- **C68**: no overflow is hidden.  In every computation with the operators of the class, whatever the values, if no mean by which it divides is infinite: the results which are
ordinary numbers are those which would be computed without a limit on the range.  In other words an overflow anywhere shows as infinity or NaN in all what depends on it. -/
theorem C68_visible_partial (hM : 1 ≤ M) {env : ℕ → UReal (Ext f M)} {env' : ℕ → UReal (FP f)} (h : ∀ i, SameGiven (env i) (env' i)) {t : Calc} (ht : Tame env t) :
    (t.run env = none ↔ t.run env' = none) ∧ ∀ x y, t.run env = some x → t.run env' = some y →
      x.id = y.id ∧ (Finite x.n → Is x.n y.n.val) ∧ (Finite x.s → Is x.s y.s.val) ∧ (Finite x.var → Is x.var y.var.val) := by
  have H := weak_run hM h t ht
  generalize t.run env = p at H
  generalize t.run env' = q at H
  cases H with
  | none => exact ⟨by simp, by rintro _ _ ⟨⟩⟩
  | @some x y hr =>
    refine ⟨by simp, ?_⟩
    rintro _ _ ⟨⟩ ⟨⟩
    exact ⟨hr.id, is_of_weak hr.mu, is_of_weak (s_rel (weak_rel hM) hr), is_of_weak (var_rel (weak_rel hM) hr)⟩

/-- **C68**: the same for covariances, and for correlations if the product of the uncertainties is not infinite. -/
theorem C68_visible2_partial (hM : 1 ≤ M) {env : ℕ → UReal (Ext f M)} {env' : ℕ → UReal (FP f)} (h : ∀ i, SameGiven (env i) (env' i)) {t t' : Calc}
    (ht : Tame env t) (ht' : Tame env t') {x x' : UReal (Ext f M)} {y y' : UReal (FP f)} (hx : t.run env = some x) (hx' : t'.run env = some x')
    (hy : t.run env' = some y) (hy' : t'.run env' = some y') :
    (Finite (cov x x') → Is (cov x x') (cov y y').val) ∧ (¬ Infinite (x.s * x'.s) → Finite (corr x x') → Is (corr x x') (corr y y').val) := by
  have H := weak_run hM h t ht
  have H' := weak_run hM h t' ht'
  rw [hx, hy] at H
  rw [hx', hy'] at H'
  cases H with
  | some hr =>
    cases H' with
    | some hr' =>
      have hc := cov_rel (weak_rel hM) hr hr'
      refine ⟨is_of_weak hc, fun hi => is_of_weak (weak_div hc ?_ hi)⟩
      exact weak_mul (s_rel (weak_rel hM) hr) (s_rel (weak_rel hM) hr')

/-- **C68**: a coefficient which is infinite or NaN makes the uncertainty infinite or NaN; it does not disappear in the sum of squares. -/
theorem C68_shown {x : UReal (Ext f M)} (hi : x.id < 0) (hf : CCmp.leb 0 x.sdev = false) {p : VId × Ext f M} (hp : p ∈ x.sigma) (h : ¬ Finite p.2) :
    ¬ Finite x.s ∧ ¬ Finite x.var := by
  have add : ∀ {a b : Ext f M}, Finite (a + b) → Finite a ∧ Finite b := by
    intro a b hab
    obtain ⟨v, c, hc, e, -⟩ := hab
    rw [add_def] at e
    rcases a with _ | s | ⟨a, ha⟩ <;> rcases b with _ | t | ⟨b, hb⟩ <;> simp only [add'] at e <;> first | cases e | (split_ifs at e) | skip
    exact ⟨⟨_, _, _, rfl, rfl⟩, ⟨_, _, _, rfl, rfl⟩⟩
  have sq : ∀ {a : Ext f M}, Finite (a * a) → Finite a := by
    intro a ha
    obtain ⟨v, c, hc, e, -⟩ := ha
    rw [mul_def] at e
    rcases a with _ | s | ⟨a, ha⟩ <;> simp only [mul'] at e
    · cases e
    · split_ifs at e
    · exact ⟨_, _, _, rfl, rfl⟩
  have key : ∀ (l : SMap VId (Ext f M)) (a : Ext f M), Finite (l.foldl (fun acc p => acc + p.2 * p.2) a) → Finite a ∧ ∀ p ∈ l, Finite p.2 := by
    intro l
    induction l with
    | nil => exact fun a ha => ⟨ha, by simp⟩
    | cons q l ih =>
      intro a ha
      obtain ⟨h1, h2⟩ := ih _ ha
      obtain ⟨h3, h4⟩ := add h1
      refine ⟨h3, ?_⟩
      intro p hp
      rcases List.mem_cons.1 hp with rfl | hp
      · exact sq h4
      · exact h2 p hp
  have h2 : ¬ Finite x.s2 := fun hs => h ((key _ _ hs).2 p hp)
  constructor
  · rw [UReal.s, if_neg (by omega), hf]
    simp only [Bool.false_eq_true, if_false]
    rintro ⟨v, c, hc, e, -⟩
    apply h2
    generalize x.s2 = a at e
    rcases a with _ | s | ⟨a, ha⟩ <;> simp only [CSqrt.sqrt] at e
    · cases e
    · split_ifs at e
    · exact ⟨_, _, _, rfl, rfl⟩
  · rw [UReal.var, if_neg (by rw [hf]; simp; omega)]
    exact h2

/-- **C68**: the constructor refuses the uncertainties which are negative numbers or minus infinity, and no others: it accepts NaN. -/
theorem C68_constructor (hM : 1 ≤ M) (i : VId) (n s : Ext f M) :
    UReal.mk' i n s = .error .invalidArgument ↔ s = .inf true ∨ ∃ v < 0, Is s v := by
  unfold UReal.mk'
  have key : CCmp.ltb s 0 = true ↔ s = .inf true ∨ ∃ v < 0, Is s v := by
    rw [zero_eq hM]
    rcases s with _ | b | ⟨a, ha⟩
    · simp [CCmp.ltb, cmp', ereal, Is]
    · cases b
      · simp [CCmp.ltb, cmp', ereal, Is]
      · simp [CCmp.ltb, cmp', ereal, Is]
    · rw [fin_ltb]
      simp only [FP.val_zero, reduceCtorEq, false_or]
      constructor
      · exact fun h => ⟨_, h, a, ha, rfl, rfl⟩
      · rintro ⟨v, hv, b, hb, e, rfl⟩
        cases e
        exact hv
  rw [← key]
  split_ifs with h <;> simp [h]

/-! ## the range without overflow and underflow -/

/-- the sum of squares while it is in the range of accuracy: each step adds one rounding -/
theorem sumsq_range {u tiny : ℝ} (u0 : 0 ≤ u) (u1 : u < 1) (ht : 0 < tiny) (hr : f.rd tiny = tiny) (hacc : ∀ x, tiny ≤ x → |f.rd x - x| ≤ u * x)
    (hM : 1 ≤ M) : ∀ (l : SMap VId (Ext f M)) (c : List ℝ), List.Forall₂ (fun p v => Is p.2 v) l c → (∀ v ∈ c, v = 0 ∨ tiny ≤ v * v) →
    ∀ (k : ℕ) (a : Ext f M) (w E : ℝ), Is a w → (w = 0 ∨ tiny ≤ w) → (1 - u) ^ (k + 1) * E ≤ w → w ≤ (1 + u) ^ (k + 1) * E → 0 ≤ E →
      (1 + u) ^ (k + c.length + 1) * (E + (c.map fun v => v * v).sum) ≤ M →
    ∃ w', Is (l.foldl (fun acc p => acc + p.2 * p.2) a) w' ∧ (w' = 0 ∨ tiny ≤ w') ∧ (1 - u) ^ (k + c.length + 1) * (E + (c.map fun v => v * v).sum) ≤ w' ∧
      w' ≤ (1 + u) ^ (k + c.length + 1) * (E + (c.map fun v => v * v).sum) := by
  intro l c hl
  induction hl with
  | nil =>
    intro _ k a w E ha hw h1 h2 hE hS
    exact ⟨w, ha, hw, by simpa using h1, by simpa using h2⟩
  | @cons p v l c hp hl ih =>
    intro hc k a w E ha hw h1 h2 hE hS
    have hv0 := mul_self_nonneg v
    have hs0 : 0 ≤ (c.map fun v => v * v).sum := List.sum_nonneg (by
      intro x hx
      obtain ⟨y, -, rfl⟩ := List.mem_map.1 hx
      exact mul_self_nonneg y)
    have hu1 : 1 ≤ 1 + u := by linarith
    simp only [List.length_cons, List.map_cons, List.sum_cons] at hS ⊢
    -- bounds of a rounding
    have rb : ∀ x, (x = 0 ∨ tiny ≤ x) → (f.rd x = 0 ∨ tiny ≤ f.rd x) ∧ (1 - u) * x ≤ f.rd x ∧ f.rd x ≤ (1 + u) * x := by
      rintro x (rfl | hx)
      · simp [f.rd_zero]
      · have := f.mono hx
        rw [hr] at this
        have h := abs_le.1 (hacc x hx)
        exact ⟨Or.inr this, by linarith, by linarith⟩
    have nn : ∀ x, (x = 0 ∨ tiny ≤ x) → 0 ≤ x := by rintro x (rfl | h) <;> linarith
    obtain ⟨q0, q1, q2⟩ := rb (v * v) (by rcases hc v (by simp) with h | h; exacts [Or.inl (by rw [h, zero_mul]), Or.inr h])
    have hwq : w + f.rd (v * v) = 0 ∨ tiny ≤ w + f.rd (v * v) := by
      have := nn _ hw
      have := nn _ q0
      rcases hw with h | h
      · rcases q0 with h' | h'
        · left; linarith
        · right; linarith
      · right; linarith
    obtain ⟨r0, r1, r2⟩ := rb _ hwq
    have lo : ((1 - u) ^ (k + 1)) ≤ 1 - u := by
      rw [pow_succ]
      exact mul_le_of_le_one_left (by linarith) (pow_le_one₀ (by linarith) (by linarith))
    have hi : 1 + u ≤ (1 + u) ^ (k + 1) := by
      rw [pow_succ]
      exact le_mul_of_one_le_left (by linarith) (one_le_pow₀ hu1)
    have b1 : (1 - u) ^ (k + 1 + 1) * (E + v * v) ≤ f.rd (w + f.rd (v * v)) := by
      refine le_trans ?_ r1
      rw [pow_succ (1 - u) (k + 1), mul_comm _ (1 - u), mul_assoc]
      refine mul_le_mul_of_nonneg_left ?_ (by linarith)
      have := mul_le_mul_of_nonneg_right lo hv0
      linarith
    have b2 : f.rd (w + f.rd (v * v)) ≤ (1 + u) ^ (k + 1 + 1) * (E + v * v) := by
      refine le_trans r2 ?_
      rw [pow_succ (1 + u) (k + 1), mul_comm _ (1 + u), mul_assoc]
      refine mul_le_mul_of_nonneg_left ?_ (by linarith)
      have := mul_le_mul_of_nonneg_right hi hv0
      linarith
    -- no overflow
    have hsum : (1 + u) ^ (k + 1 + 1) * (E + v * v) ≤ M := by
      refine le_trans ?_ hS
      refine mul_le_mul (pow_le_pow_right₀ hu1 (by omega)) (by linarith) (by linarith) (by positivity)
    have hq : |f.rd (v * v)| ≤ M := by
      rw [abs_of_nonneg (nn _ q0)]
      refine le_trans q2 (le_trans ?_ hsum)
      refine le_trans (mul_le_mul_of_nonneg_right hi hv0) ?_
      exact mul_le_mul (pow_le_pow_right₀ hu1 (by omega)) (by linarith) hv0 (by positivity)
    obtain ⟨pa, pha, pe, pv⟩ := hp
    obtain ⟨aa, aha, ae, av⟩ := ha
    have e1 : p.2 * p.2 = .fin (pa * pa) (by rw [FP.val_mul, pv]; exact hq) := by
      rw [pe, fin_mul, ofFP_of_le]
    have e2 : a + p.2 * p.2 = .fin (aa + pa * pa) (by
        rw [FP.val_add, FP.val_mul, pv, av, abs_of_nonneg (nn _ r0)]; exact b2.trans hsum) := by
      rw [e1, ae, fin_add, ofFP_of_le]
    have := ih (fun v hv => hc v (List.mem_cons_of_mem _ hv)) (k + 1) (a + p.2 * p.2) (f.rd (w + f.rd (v * v))) (E + v * v)
      ⟨_, _, e2, by rw [FP.val_add, FP.val_mul, pv, av]⟩ r0 b1 b2 (by linarith)
      (by rw [show k + 1 + c.length + 1 = k + (c.length + 1) + 1 by omega, add_assoc E]; exact hS)
    rw [show k + 1 + c.length + 1 = k + (c.length + 1) + 1 by omega, add_assoc E] at this
    exact this

/-- **C68**, the range in which the uncertainty is right: if the coefficients are ordinary numbers, each zero or with a square which does not underflow, and the sum of the squares, with a
margin of one rounding for each, does not overflow, then the uncertainty of a computed value is an ordinary number with a small relative error. -/
theorem C68_s_partial {u tiny : ℝ} (u0 : 0 ≤ u) (u1 : u < 1) (ht : 0 < tiny) (ht1 : tiny ≤ 1) (hr : f.rd tiny = tiny) (hacc : ∀ x, tiny ≤ x → |f.rd x - x| ≤ u * x)
    (hM : 1 ≤ M) {x : UReal (Ext f M)} (hi : x.id < 0) (hf : CCmp.leb 0 x.sdev = false) {c : List ℝ} (hx : List.Forall₂ (fun p v => Is p.2 v) x.sigma c)
    (hc : ∀ v ∈ c, v = 0 ∨ tiny ≤ v * v) (hS : (1 + u) ^ (c.length + 1) * (c.map fun v => v * v).sum ≤ M) :
    ∃ s, Is x.s s ∧ 0 ≤ s ∧ (1 - u) ^ (c.length + 3) * (c.map fun v => v * v).sum ≤ s ^ 2 ∧ s ^ 2 ≤ (1 + u) ^ (c.length + 3) * (c.map fun v => v * v).sum := by
  have h0 : Is (0 : Ext f M) 0 := ⟨_, _, zero_eq hM, rfl⟩
  obtain ⟨w, hw, w0, w1, w2⟩ := sumsq_range u0 u1 ht hr hacc hM x.sigma c hx hc 0 0 0 0 h0 (Or.inl rfl) (by simp) (by simp) le_rfl (by simpa using hS)
  rw [zero_add, zero_add] at w1 w2
  have nw : 0 ≤ w := by rcases w0 with h | h <;> linarith
  obtain ⟨a, ha, e, hv⟩ := hw
  have es : x.s = CSqrt.sqrt (.fin a ha : Ext f M) := by
    rw [UReal.s, if_neg (by omega), hf]
    simp only [Bool.false_eq_true, if_false]
    exact congrArg _ e
  -- the rounded square root
  have hq : f.rd (Real.sqrt w) ^ 2 ≤ (1 + u) ^ 2 * w ∧ (1 - u) ^ 2 * w ≤ f.rd (Real.sqrt w) ^ 2 := by
    have hs := Real.sq_sqrt nw
    have hs0 := Real.sqrt_nonneg w
    rcases w0 with h | h
    · subst h; simp [f.rd_zero]
    · have : tiny ≤ Real.sqrt w := Real.le_sqrt_of_sq_le (by nlinarith)
      have hb := abs_le.1 (hacc _ this)
      have n1 : 0 ≤ (1 - u) * Real.sqrt w := mul_nonneg (by linarith) hs0
      constructor
      · have := pow_le_pow_left₀ (by linarith : 0 ≤ f.rd (Real.sqrt w)) (by linarith : f.rd (Real.sqrt w) ≤ (1 + u) * Real.sqrt w) 2
        rwa [mul_pow, hs] at this
      · have := pow_le_pow_left₀ n1 (by linarith : (1 - u) * Real.sqrt w ≤ f.rd (Real.sqrt w)) 2
        rwa [mul_pow, hs] at this
  have r0 : 0 ≤ f.rd (Real.sqrt w) := f.rd_nonneg (Real.sqrt_nonneg w)
  -- it does not overflow
  have hm : |(CSqrt.sqrt a).val| ≤ M := by
    rw [FP.val_sqrt, hv, abs_of_nonneg r0]
    have hwM : w ≤ M := by
      rw [← hv]; exact (le_abs_self _).trans ha
    rcases le_total w 1 with h | h
    · have h1 : Real.sqrt w ≤ 1 := by rw [Real.sqrt_le_one]; exact h
      have := f.mono h1
      rw [f.one] at this
      linarith
    · have h1 : Real.sqrt w ≤ w := by rw [Real.sqrt_le_left (by linarith)]; nlinarith
      have h2 := f.mono h1
      have : f.rd w = w := by rw [← hv]; exact a.rep
      linarith
  have e2 : CSqrt.sqrt (.fin a ha : Ext f M) = .fin (CSqrt.sqrt a) hm := by
    rw [← ofFP_of_le hm]
    simp only [CSqrt.sqrt]
    rw [if_neg (by rw [hv]; exact not_lt.2 nw)]
  refine ⟨f.rd (Real.sqrt w), ⟨_, hm, es.trans e2, by rw [FP.val_sqrt, hv]⟩, r0, ?_, ?_⟩
  · refine le_trans ?_ hq.2
    rw [show c.length + 3 = 2 + (c.length + 1) by omega, pow_add, mul_assoc]
    exact mul_le_mul_of_nonneg_left w1 (by positivity)
  · refine le_trans hq.1 ?_
    rw [show c.length + 3 = 2 + (c.length + 1) by omega, pow_add, mul_assoc]
    exact mul_le_mul_of_nonneg_left w2 (by positivity)

/-! ## `double` -/

/-- the largest finite number is less than `2 ^ 1024` -/
theorem dblMax_lt : dblMax < 2 ^ (1024 : ℤ) := by
  rw [dblMax, show (1024 : ℤ) = 53 + 971 by norm_num, zpow_add₀ (by norm_num)]
  have h : (2 : ℝ) ^ (971 : ℤ) = 2 ^ 971 := by exact_mod_cast zpow_natCast (2 : ℝ) 971
  rw [h]
  refine mul_lt_mul_of_pos_right ?_ (by positivity)
  norm_num

theorem le_dblMax : (2 : ℝ) ^ (1023 : ℤ) ≤ dblMax := by
  rw [dblMax, show (1023 : ℤ) = 52 + 971 by norm_num, zpow_add₀ (by norm_num)]
  have h : (2 : ℝ) ^ (971 : ℤ) = 2 ^ 971 := by exact_mod_cast zpow_natCast (2 : ℝ) 971
  rw [h]
  refine mul_le_mul_of_nonneg_right ?_ (by positivity)
  norm_num

theorem one_le_dblMax : 1 ≤ dblMax := le_trans (one_le_zpow₀ (by norm_num) (by norm_num)) le_dblMax

/-- **C68** for `double`: the uncertainty is right if each coefficient is zero or at least `2 ^ -511` and the sum of the squares, with a margin for the roundings, is less than the largest
number. -/
theorem C68_s_double_partial {x : UReal Dbl} (hi : x.id < 0) (hf : CCmp.leb 0 x.sdev = false) {c : List ℝ} (hx : List.Forall₂ (fun p v => Is p.2 v) x.sigma c)
    (hc : ∀ v ∈ c, v = 0 ∨ 2 ^ (-511 : ℤ) ≤ |v|) (hS : (1 + (1 / 2) ^ 53) ^ (c.length + 1) * (c.map fun v => v * v).sum ≤ dblMax) :
    ∃ s, Is x.s s ∧ 0 ≤ s ∧ (1 - (1 / 2) ^ 53) ^ (c.length + 3) * (c.map fun v => v * v).sum ≤ s ^ 2 ∧
      s ^ 2 ≤ (1 + (1 / 2) ^ 53) ^ (c.length + 3) * (c.map fun v => v * v).sum := by
  refine C68_s_partial (tiny := 2 ^ (-1022 : ℤ)) (by positivity) (by norm_num) (two_zpow_pos _) ?_ ?_ (fun y hy => ieee_err _ _ hy) one_le_dblMax hi hf hx ?_ hS
  · exact zpow_le_one_of_nonpos₀ (by norm_num) (by norm_num)
  · have := ieee_int (p := 53) (emin := -1022) (by norm_num) (by norm_num) 1 (-1022) (by norm_num) (by norm_num)
    simpa using this
  · intro v hv
    rcases hc v hv with h | h
    · exact Or.inl h
    · right
      rw [show (-1022 : ℤ) = -511 + -511 by norm_num, zpow_add₀ (by norm_num), ← abs_mul_abs_self v]
      exact mul_le_mul h h (two_zpow_pos _).le (abs_nonneg _)

/-! ## what goes wrong outside -/

/-- the number `N * 2 ^ k`, rounded -/
noncomputable def qf (N k : ℤ) : FP dblFmt := FP.round dblFmt (N * 2 ^ k)

/-- the number `N * 2 ^ k` in `double` -/
noncomputable def qd (N k : ℤ) : Dbl := ofFP dblMax (qf N k)

theorem qf_val {N k : ℤ} (hN : |N| < 2 ^ 53) (hk : -1074 ≤ k) : (qf N k).val = N * 2 ^ k :=
  ieee_int (p := 53) (emin := -1022) (by norm_num) (by norm_num) N k hN (by push_cast; omega)

theorem qf_mul {N k N' k' : ℤ} (hN : |N| < 2 ^ 53) (hk : -1074 ≤ k) (hN' : |N'| < 2 ^ 53) (hk' : -1074 ≤ k') : qf N k * qf N' k' = qf (N * N') (k + k') := by
  apply FP.ext
  rw [FP.val_mul, qf_val hN hk, qf_val hN' hk']
  change _ = dblFmt.rd _
  congr 1
  rw [zpow_add₀ (by norm_num)]; push_cast; ring

theorem qf_add {N k N' : ℤ} (hN : |N| < 2 ^ 53) (hk : -1074 ≤ k) (hN' : |N'| < 2 ^ 53) : qf N k + qf N' k = qf (N + N') k := by
  apply FP.ext
  rw [FP.val_add, qf_val hN hk, qf_val hN' hk]
  change _ = dblFmt.rd _
  congr 1
  push_cast; ring

theorem qf_zero (k : ℤ) : qf 0 k = 0 := FP.ext (by
  change dblFmt.rd _ = _
  rw [Int.cast_zero, zero_mul, Fmt.rd_zero]; rfl)

/-- it is an ordinary number -/
theorem qd_fin {N k : ℤ} (e : ℕ) (hN : |N| < 2 ^ 53) (hk : -1074 ≤ k) (h1 : |N| ≤ 2 ^ e) (h2 : e + k ≤ 1023) : |(qf N k).val| ≤ dblMax := by
  rw [qf_val hN hk, abs_mul, abs_of_pos (two_zpow_pos k)]
  refine le_trans ?_ le_dblMax
  have h3 : (|(N : ℝ)|) ≤ 2 ^ e := by exact_mod_cast h1
  refine le_trans (mul_le_mul_of_nonneg_right h3 (two_zpow_pos k).le) ?_
  rw [← zpow_natCast, ← zpow_add₀ (by norm_num)]
  exact zpow_le_zpow_right₀ (by norm_num) h2

theorem qd_mul {N k N' k' : ℤ} (hN : |N| < 2 ^ 53) (hk : -1074 ≤ k) (hN' : |N'| < 2 ^ 53) (hk' : -1074 ≤ k') (h : |(qf N k).val| ≤ dblMax)
    (h' : |(qf N' k').val| ≤ dblMax) : qd N k * qd N' k' = qd (N * N') (k + k') := by
  rw [qd, qd, ofFP_of_le h, ofFP_of_le h', fin_mul, qf_mul hN hk hN' hk', qd]

theorem qd_add {N k N' : ℤ} (hN : |N| < 2 ^ 53) (hk : -1074 ≤ k) (hN' : |N'| < 2 ^ 53) (h : |(qf N k).val| ≤ dblMax)
    (h' : |(qf N' k).val| ≤ dblMax) : qd N k + qd N' k = qd (N + N') k := by
  rw [qd, qd, ofFP_of_le h, ofFP_of_le h', fin_add, qf_add hN hk hN', qd]

theorem qd_zero (k : ℤ) : qd 0 k = 0 := by rw [qd, qf_zero]; rfl

theorem qd_one : qd 1 0 = 1 := by
  have : qf 1 0 = 1 := FP.ext (by rw [qf_val (by norm_num) (by norm_num)]; simp)
  rw [qd, this]; rfl

/-- overflow -/
theorem qd_inf {k : ℤ} (hk : 1024 ≤ k) : qd 1 k = .inf false := by
  have e : (qf 1 k).val = 2 ^ k := by rw [qf_val (by norm_num) (by omega)]; simp
  have h := two_zpow_pos k
  rw [qd, ofFP_of_lt, e]
  · simp [h.le]
  · rw [e, abs_of_pos h]
    exact lt_of_lt_of_le dblMax_lt (zpow_le_zpow_right₀ (by norm_num) hk)

/-- a power of two -/
noncomputable abbrev pd (k : ℤ) : Dbl := qd 1 k

theorem pf_le {k : ℤ} (h1 : -1074 ≤ k) (h2 : k ≤ 1023) : |(qf 1 k).val| ≤ dblMax := qd_fin 0 (by norm_num) h1 (by norm_num) (by push_cast; omega)

theorem pd_mul {k k' : ℤ} (h1 : -1074 ≤ k) (h2 : k ≤ 1023) (h1' : -1074 ≤ k') (h2' : k' ≤ 1023) : pd k * pd k' = pd (k + k') := by
  rw [pd, pd, qd_mul (by norm_num) h1 (by norm_num) h1' (pf_le h1 h2) (pf_le h1' h2'), one_mul]

theorem pd_is {k : ℤ} (h1 : -1074 ≤ k) (h2 : k ≤ 1023) : Is (pd k) (2 ^ k) :=
  ⟨_, pf_le h1 h2, ofFP_of_le _, by rw [qf_val (by norm_num) h1]; simp⟩

theorem one_pd : (1 : Dbl) = pd 0 := qd_one.symm

theorem is_zero : Is (0 : Dbl) 0 := ⟨_, _, zero_eq one_le_dblMax, rfl⟩

theorem zero_mul_pd {k : ℤ} (h1 : -1074 ≤ k) (h2 : k ≤ 1023) : 0 * pd k = 0 := by
  rw [← qd_zero 0, pd, qd_mul (by norm_num) (by norm_num) (by norm_num) h1 (by rw [qf_zero]; simpa using (zero_le_one.trans one_le_dblMax)) (pf_le h1 h2), zero_mul, qd_zero, qd_zero]

theorem pd_mul_zero {k : ℤ} (h1 : -1074 ≤ k) (h2 : k ≤ 1023) : pd k * 0 = 0 := by
  rw [← qd_zero 0, pd, qd_mul (by norm_num) h1 (by norm_num) (by norm_num) (pf_le h1 h2) (by rw [qf_zero]; simpa using (zero_le_one.trans one_le_dblMax)), mul_zero, qd_zero, qd_zero]

theorem zero_add_pd {k : ℤ} (h1 : -1074 ≤ k) (h2 : k ≤ 1023) : 0 + pd k = pd k := by
  rw [← qd_zero k, pd, qd_add (by norm_num) h1 (by norm_num) (by rw [qf_zero]; simpa using (zero_le_one.trans one_le_dblMax)) (pf_le h1 h2), zero_add]

theorem dbl_zero_add : (0 + 0 : Dbl) = 0 := by
  rw [zero_eq one_le_dblMax, fin_add, ofFP_of_le]
  · congr 1; exact FP.ext (by rw [FP.val_add]; simp [Fmt.rd_zero])
  · rw [FP.val_add]; simpa [Fmt.rd_zero] using (zero_le_one.trans one_le_dblMax)

theorem dbl_zero_mul : (0 * 0 : Dbl) = 0 := by
  rw [← qd_zero 0, qd_mul (by norm_num) (by norm_num) (by norm_num) (by norm_num), zero_mul, qd_zero, qd_zero] <;>
  · rw [qf_zero]; simpa using (zero_le_one.trans one_le_dblMax)

theorem dbl_neg_zero : (-0 : Dbl) = 0 := by
  rw [zero_eq one_le_dblMax]
  change ofFP dblMax (-0) = _
  rw [ofFP_of_le]
  · congr 1; exact FP.ext (by simp)
  · simpa using (zero_le_one.trans one_le_dblMax)

theorem dbl_sqrt_zero : CSqrt.sqrt (0 : Dbl) = 0 := by
  have e : (CSqrt.sqrt (0 : FP dblFmt)) = 0 := FP.ext (by rw [FP.val_sqrt]; simp [Fmt.rd_zero])
  rw [zero_eq one_le_dblMax]
  simp only [CSqrt.sqrt]
  rw [if_neg (by simp)]
  change ofFP dblMax (CSqrt.sqrt (0 : FP dblFmt)) = _
  rw [e, ofFP_of_le]

theorem dbl_fresh : CCmp.leb (0 : Dbl) (-1) = false := (weak_rel (f := dblFmt) one_le_dblMax).fresh.1

theorem one_div_inf : (1 / .inf false : Dbl) = 0 := by
  rw [one_eq one_le_dblMax]; rfl

/-- variables whose product overflows, and a third one -/
noncomputable def exBig : ℕ → UReal Dbl
  | 0 => ⟨1, 1, pd 512, []⟩
  | 1 => ⟨2, 1, pd 512, []⟩
  | _ => ⟨3, pd 990, pd 1000, []⟩

/-- the same without limit on the range -/
noncomputable def exBig' : ℕ → UReal (FP dblFmt)
  | 0 => ⟨1, 1, qf 1 512, []⟩
  | 1 => ⟨2, 1, qf 1 512, []⟩
  | _ => ⟨3, qf 1 990, qf 1 1000, []⟩

theorem exBig_same (i : ℕ) : SameGiven (exBig i) (exBig' i) := by
  have one : Is (1 : Dbl) 1 := ⟨_, _, one_eq one_le_dblMax, rfl⟩
  have p : ∀ k : ℤ, -1074 ≤ k → k ≤ 1023 → Is (pd k) (qf 1 k).val := fun k h1 h2 => ⟨_, pf_le h1 h2, ofFP_of_le _, rfl⟩
  match i with
  | 0 => exact ⟨⟨by simp [exBig], rfl, by simp [exBig]⟩, ⟨by simp [exBig'], rfl, by simp [exBig']⟩, rfl, p _ (by norm_num) (by norm_num), one⟩
  | 1 => exact ⟨⟨by simp [exBig], rfl, by simp [exBig]⟩, ⟨by simp [exBig'], rfl, by simp [exBig']⟩, rfl, p _ (by norm_num) (by norm_num), one⟩
  | _ + 2 => exact ⟨⟨by simp [exBig], rfl, by simp [exBig]⟩, ⟨by simp [exBig'], rfl, by simp [exBig']⟩, rfl, p _ (by norm_num) (by norm_num), p _ (by norm_num) (by norm_num)⟩

/-- `c / (a * b)` -/
def exQuot : Calc := .bin .div (.leaf 2) (.bin .mul (.leaf 0) (.leaf 1))

/-- the hypotheses of `C68_visible_partial` with a computation that overflows: `a * a - b * b` -/
example : Tame exBig (.bin .sub (.un .square (.leaf 0)) (.bin .mul (.leaf 1) (.leaf 1))) ∧
    ∀ x y, (Calc.bin .sub (.un .square (.leaf 0)) (.bin .mul (.leaf 1) (.leaf 1))).run exBig = some x →
      (Calc.bin .sub (.un .square (.leaf 0)) (.bin .mul (.leaf 1) (.leaf 1))).run exBig' = some y → Finite x.s → Is x.s y.s.val := by
  have ht : Tame exBig (.bin .sub (.un .square (.leaf 0)) (.bin .mul (.leaf 1) (.leaf 1))) := by simp [Tame, BinOp.divides]
  exact ⟨ht, fun x y hx hy => ((C68_visible_partial one_le_dblMax exBig_same ht).2 x y hx hy).2.2.1⟩

/-- and a division: the mean `2 ^ 512` of `b` is an ordinary number -/
example : Tame exBig (.bin .div (.leaf 2) (.leaf 1)) := by
  refine ⟨trivial, trivial, fun _ y hy => ?_⟩
  cases hy
  rintro ⟨s, e⟩
  obtain ⟨a, ha, e', -⟩ := pd_is (k := 512) (by norm_num) (by norm_num)
  exact absurd (e'.symm.trans e) (by simp)

example : (Finite (cov (exBig 2) (exBig 2)) → Is (cov (exBig 2) (exBig 2)) (cov (exBig' 2) (exBig' 2)).val) ∧
    (¬ Infinite ((exBig 0).s * (exBig 0).s) → Finite (corr (exBig 0) (exBig 0)) → Is (corr (exBig 0) (exBig 0)) (corr (exBig' 0) (exBig' 0)).val) :=
  ⟨(C68_visible2_partial one_le_dblMax exBig_same (t := .leaf 2) (t' := .leaf 2) trivial trivial rfl rfl rfl rfl).1,
    (C68_visible2_partial one_le_dblMax exBig_same (t := .leaf 0) (t' := .leaf 0) trivial trivial rfl rfl rfl rfl).2⟩

/-- a value with a NaN coefficient between ordinary ones -/
example : ¬ Finite (⟨-1, -1, 0, [(1, pd 3), (2, .nan), (5, 1)]⟩ : UReal Dbl).s :=
  (C68_shown (x := ⟨-1, -1, 0, [(1, pd 3), (2, .nan), (5, 1)]⟩) (p := (2, .nan)) (by norm_num) dbl_fresh (by simp) (by rintro ⟨v, a, h, e, -⟩; cases e)).1

/-- NaN is accepted -/
example (n : Dbl) : UReal.mk' 1 n .nan = .ok ⟨1, .nan, n, []⟩ := by
  have h := (C68_constructor one_le_dblMax 1 n (.nan : Dbl)).not.2 (by rintro (h | ⟨v, -, a, h, e, -⟩) <;> cases ‹_ = _›)
  unfold UReal.mk' at h ⊢
  split_ifs at h ⊢
  · exact absurd rfl h
  · rfl

/-- the sum of two variables with uncertainties 1 and 2 -/
example : ∃ s, Is (⟨-1, -1, 0, [(1, 1), (2, pd 1)]⟩ : UReal Dbl).s s ∧ (1 - (1 / 2) ^ 53) ^ 5 * 5 ≤ s ^ 2 ∧ s ^ 2 ≤ (1 + (1 / 2) ^ 53) ^ 5 * (5 : ℝ) := by
  have h := C68_s_double_partial (x := ⟨-1, -1, 0, [(1, 1), (2, pd 1)]⟩) (c := [1, 2]) (by norm_num) dbl_fresh
    (.cons ⟨_, _, one_eq one_le_dblMax, rfl⟩ (.cons (by simpa using pd_is (k := 1) (by norm_num) (by norm_num)) .nil))
    (by
      have : (2 : ℝ) ^ (-511 : ℤ) ≤ 1 := zpow_le_one_of_nonpos₀ (by norm_num) (by norm_num)
      intro v hv
      rcases List.mem_cons.1 hv with rfl | hv
      · right; rw [abs_one]; exact this
      · rw [List.mem_singleton.1 hv]; right; rw [abs_of_pos (by norm_num)]; linarith)
    (by
      have : (2 : ℝ) ^ (10 : ℤ) ≤ dblMax := (zpow_le_zpow_right₀ (by norm_num) (by norm_num)).trans le_dblMax
      refine le_trans ?_ this
      norm_num)
  obtain ⟨s, h1, -, h2, h3⟩ := h
  refine ⟨s, h1, ?_, ?_⟩
  · norm_num at h2 ⊢; exact h2
  · norm_num at h3 ⊢; exact h3

/-- **C68**, what fails: the mean of `a * b` overflows, and `c / (a * b)` is the ordinary number zero with uncertainty zero, where the result is `2 ^ -24` and representable. -/
theorem C68_divide_false : (∃ x, exQuot.run exBig = some x ∧ Is x.n 0 ∧ Is x.s 0) ∧ ∃ y, exQuot.run exBig' = some y ∧ y.n.val = 2 ^ (-24 : ℤ) := by
  constructor
  · have i : pd 0 / pd 1024 = 0 := by rw [show pd 1024 = .inf false from qd_inf le_rfl, ← one_pd, one_div_inf]
    have e : exQuot.run exBig = some ⟨-1, -pd 0, 0, [(1, 0), (2, 0), (3, 0)]⟩ := by
      simp (disch := norm_num) [exQuot, Calc.run, BinOp.call, exBig, UReal.mul, UReal.div, binary, SMap.upsert, invalidId, one_pd, pd_mul, zero_add_pd]
      simp (disch := norm_num) [i, pd_mul_zero, dbl_neg_zero, dbl_zero_mul, zero_mul_pd, dbl_zero_add]
    refine ⟨_, e, is_zero, ?_⟩
    have : (⟨-1, -pd 0, 0, [(1, 0), (2, 0), (3, 0)]⟩ : UReal Dbl).s = 0 := by
      simp [UReal.s, UReal.s2, ← one_pd, dbl_fresh, dbl_zero_mul, dbl_zero_add, dbl_sqrt_zero]
    rw [this]
    exact is_zero
  · have e : (exQuot.run exBig').map (fun y => y.n) = some (qf 1 1000 * (1 / (qf 1 512 * qf 1 512))) := by
      simp [exQuot, Calc.run, BinOp.call, exBig', UReal.mul, UReal.div, binary, SMap.upsert, invalidId, UReal.n]
    obtain ⟨y, hy, e⟩ := Option.map_eq_some_iff.1 e
    refine ⟨y, hy, ?_⟩
    have d : 1 / qf 1 1024 = qf 1 (-1024) := by
      apply FP.ext
      rw [FP.val_div, qf_val (by norm_num) (by norm_num)]
      change _ = dblFmt.rd _
      congr 1
      simp
    rw [e, qf_mul (by norm_num) (by norm_num) (by norm_num) (by norm_num)]
    norm_num only
    rw [d, qf_mul (by norm_num) (by norm_num) (by norm_num) (by norm_num)]
    norm_num only
    rw [qf_val (by norm_num) (by norm_num)]
    norm_num

/-- a variable with a large uncertainty, three others, and a number -/
noncomputable def exWide : ℕ → UReal Dbl
  | 0 => ⟨1, pd 513, 0, []⟩
  | 1 => ⟨2, pd 510, 0, []⟩
  | 2 => ⟨3, pd 510, 0, []⟩
  | 3 => ⟨4, pd 510, 0, []⟩
  | _ => ⟨0, 0, pd (-3), []⟩

/-- the same without limit on the range -/
noncomputable def exWide' : ℕ → UReal (FP dblFmt)
  | 0 => ⟨1, qf 1 513, 0, []⟩
  | 1 => ⟨2, qf 1 510, 0, []⟩
  | 2 => ⟨3, qf 1 510, 0, []⟩
  | 3 => ⟨4, qf 1 510, 0, []⟩
  | _ => ⟨0, 0, qf 1 (-3), []⟩

/-- `a / 8 + b + c + d` -/
def exSum4 : Calc := .bin .add (.bin .add (.bin .add (.bin .mul (.leaf 0) (.leaf 4)) (.leaf 1)) (.leaf 2)) (.leaf 3)

theorem qd_sqrt4 : CSqrt.sqrt (qd 4 1020) = pd 511 := by
  have v : (qf 4 1020).val = 2 ^ (511 : ℤ) * 2 ^ (511 : ℤ) := by
    rw [qf_val (by norm_num) (by norm_num), ← zpow_add₀ (by norm_num), show (511 + 511 : ℤ) = 2 + 1020 by norm_num, zpow_add₀ (by norm_num)]
    norm_num
  have e : CSqrt.sqrt (qf 4 1020) = qf 1 511 := by
    apply FP.ext
    rw [FP.val_sqrt, v, Real.sqrt_mul_self (two_zpow_pos _).le]
    change _ = dblFmt.rd _
    congr 1
    simp
  rw [qd, ofFP_of_le (qd_fin 2 (by norm_num) (by norm_num) (by norm_num) (by norm_num))]
  simp only [CSqrt.sqrt]
  rw [if_neg (by rw [v]; exact not_lt.2 (mul_self_nonneg _))]
  change ofFP dblMax (CSqrt.sqrt (qf 4 1020)) = _
  rw [e]
  rfl

theorem pd_abs {k : ℤ} (h1 : -1074 ≤ k) (h2 : k ≤ 1023) : CSqrt.abs (pd k) = pd k := by
  have e : CSqrt.abs (qf 1 k) = qf 1 k := FP.ext (by
    rw [FP.val_abs, abs_of_nonneg]
    rw [qf_val (by norm_num) h1]
    simpa using (two_zpow_pos k).le)
  rw [pd, qd, ofFP_of_le (pf_le h1 h2)]
  change ofFP dblMax (CSqrt.abs (qf 1 k)) = _
  rw [e, ofFP_of_le (pf_le h1 h2)]

theorem fp_zero_mul' (a : FP f) : 0 * a = 0 := FP.ext (by rw [FP.val_mul]; simp [Fmt.rd_zero])
theorem fp_zero_add' (a : FP f) : 0 + a = a := FP.ext (by rw [FP.val_add, FP.val_zero, zero_add, a.rep])
theorem fp_one_mul' (a : FP f) : 1 * a = a := FP.ext (by rw [FP.val_mul, FP.val_one, one_mul, a.rep])

theorem exSum4_run : exSum4.run exWide = some ⟨-1, -1, 0, [(1, pd 510), (2, pd 510), (3, pd 510), (4, pd 510)]⟩ := by
  have e1 : UReal.mul (exWide 0) (exWide 4) = some ⟨-1, -1, 0, [(1, pd 510)]⟩ := by
    simp (disch := norm_num) [exWide, UReal.mul, binary, SMap.upsert, invalidId, pd_mul, zero_mul_pd]
  have e2 : UReal.add ⟨-1, -1, 0, [(1, pd 510)]⟩ (exWide 1) = some ⟨-1, -1, 0, [(1, pd 510), (2, pd 510)]⟩ := by
    simp (disch := norm_num) [exWide, UReal.add, binary, SMap.upsert, invalidId, one_pd, pd_mul, zero_add_pd, dbl_zero_add]
  have e3 : UReal.add ⟨-1, -1, 0, [(1, pd 510), (2, pd 510)]⟩ (exWide 2) = some ⟨-1, -1, 0, [(1, pd 510), (2, pd 510), (3, pd 510)]⟩ := by
    simp (disch := norm_num) [exWide, UReal.add, binary, SMap.upsert, invalidId, one_pd, pd_mul, zero_add_pd, dbl_zero_add]
  have e4 : UReal.add ⟨-1, -1, 0, [(1, pd 510), (2, pd 510), (3, pd 510)]⟩ (exWide 3) = some ⟨-1, -1, 0, [(1, pd 510), (2, pd 510), (3, pd 510), (4, pd 510)]⟩ := by
    simp (disch := norm_num) [exWide, UReal.add, binary, SMap.upsert, invalidId, one_pd, pd_mul, zero_add_pd, dbl_zero_add]
  simp only [exSum4, Calc.run, BinOp.call, Option.bind_some, e1, e2, e3, e4]

theorem exSum4_run' : exSum4.run exWide' = some ⟨-1, -1, 0, [(1, qf 1 510), (2, qf 1 510), (3, qf 1 510), (4, qf 1 510)]⟩ := by
  have e1 : UReal.mul (exWide' 0) (exWide' 4) = some ⟨-1, -1, 0, [(1, qf 1 510)]⟩ := by
    simp (disch := norm_num) [exWide', UReal.mul, binary, SMap.upsert, invalidId, qf_mul, fp_zero_mul']
  have e2 : UReal.add ⟨-1, -1, 0, [(1, qf 1 510)]⟩ (exWide' 1) = some ⟨-1, -1, 0, [(1, qf 1 510), (2, qf 1 510)]⟩ := by
    simp [exWide', UReal.add, binary, SMap.upsert, invalidId, fp_zero_add', fp_one_mul']
  have e3 : UReal.add ⟨-1, -1, 0, [(1, qf 1 510), (2, qf 1 510)]⟩ (exWide' 2) = some ⟨-1, -1, 0, [(1, qf 1 510), (2, qf 1 510), (3, qf 1 510)]⟩ := by
    simp [exWide', UReal.add, binary, SMap.upsert, invalidId, fp_zero_add', fp_one_mul']
  have e4 : UReal.add ⟨-1, -1, 0, [(1, qf 1 510), (2, qf 1 510), (3, qf 1 510)]⟩ (exWide' 3) =
      some ⟨-1, -1, 0, [(1, qf 1 510), (2, qf 1 510), (3, qf 1 510), (4, qf 1 510)]⟩ := by
    simp [exWide', UReal.add, binary, SMap.upsert, invalidId, fp_zero_add', fp_one_mul']
  simp only [exSum4, Calc.run, BinOp.call, Option.bind_some, e1, e2, e3, e4]

/-- **C68**, what fails: the correlation of two values is zero, where it is 1/2, because the product of the uncertainties overflows while the covariance does not. -/
theorem C68_corr_false : ∃ x y y', exSum4.run exWide = some x ∧ exSum4.run exWide' = some y ∧ exWide' 0 = y' ∧ Is (corr (exWide 0) x) 0 ∧ (corr y' y).val = 1 / 2 := by
  refine ⟨_, _, _, exSum4_run, exSum4_run', rfl, ?_, ?_⟩
  · have e1 : (exWide 0).s = pd 513 := by simp [UReal.s, exWide, pd_abs]
    have e2 : (⟨-1, -1, 0, [(1, pd 510), (2, pd 510), (3, pd 510), (4, pd 510)]⟩ : UReal Dbl).s = pd 511 := by
      simp (disch := norm_num) [UReal.s, UReal.s2, dbl_fresh, pd_mul, zero_add_pd]
      rw [qd_add, qd_add, qd_add, show (1 + 1 + 1 + 1 : ℤ) = 4 by norm_num, qd_sqrt4] <;>
        first | exact qd_fin 2 (by norm_num) (by norm_num) (by norm_num) (by norm_num) | norm_num
    have e3 : cov (exWide 0) ⟨-1, -1, 0, [(1, pd 510), (2, pd 510), (3, pd 510), (4, pd 510)]⟩ = pd 1023 := by
      simp (disch := norm_num) [cov, exWide, SMap.find?, pd_mul, zero_add_pd]
    rw [corr, e1, e2, e3, pd_mul (by norm_num) (by norm_num) (by norm_num) (by norm_num), show pd (513 + 511) = .inf false from qd_inf (by norm_num), pd, qd,
      ofFP_of_le (pf_le (by norm_num) (by norm_num))]
    exact is_zero
  · have e1 : (exWide' 0).s = qf 1 513 := by
      simp only [UReal.s, exWide']
      rw [if_pos (by norm_num)]
      refine FP.ext ?_
      rw [FP.val_abs, abs_of_nonneg]
      rw [qf_val (by norm_num) (by norm_num)]
      simpa using (two_zpow_pos 513).le
    have e2 : (⟨-1, -1, 0, [(1, qf 1 510), (2, qf 1 510), (3, qf 1 510), (4, qf 1 510)]⟩ : UReal (FP dblFmt)).s = qf 1 511 := by
      have hf : CCmp.leb (0 : FP dblFmt) (-1) = false := (weak_rel (f := dblFmt) one_le_dblMax).fresh.2
      have v : (qf 4 1020).val = 2 ^ (511 : ℤ) * 2 ^ (511 : ℤ) := by
        rw [qf_val (by norm_num) (by norm_num), ← zpow_add₀ (by norm_num), show (511 + 511 : ℤ) = 2 + 1020 by norm_num, zpow_add₀ (by norm_num)]
        norm_num
      simp (disch := norm_num) [UReal.s, UReal.s2, hf, qf_mul, fp_zero_add', qf_add]
      apply FP.ext
      rw [FP.val_sqrt, v, Real.sqrt_mul_self (two_zpow_pos _).le]
      change _ = dblFmt.rd _
      congr 1
      simp
    have e3 : cov (exWide' 0) ⟨-1, -1, 0, [(1, qf 1 510), (2, qf 1 510), (3, qf 1 510), (4, qf 1 510)]⟩ = qf 1 1023 := by
      simp (disch := norm_num) [cov, exWide', SMap.find?, qf_mul, fp_zero_add']
    rw [corr, e1, e2, e3, qf_mul (by norm_num) (by norm_num) (by norm_num) (by norm_num), FP.val_div, qf_val (by norm_num) (by norm_num),
      qf_val (by norm_num) (by norm_num)]
    have : ((1 : ℤ) : ℝ) * 2 ^ (1023 : ℤ) / (((1 * 1 : ℤ) : ℝ) * 2 ^ (513 + 511 : ℤ)) = ((1 : ℤ) : ℝ) * 2 ^ (-1 : ℤ) := by
      rw [show (513 + 511 : ℤ) = 1 + 1023 by norm_num, zpow_add₀ (by norm_num)]
      have := (two_zpow_pos 1023).ne'
      field_simp
      norm_num
    rw [this, ieee_int _ _ 1 (-1) (by norm_num) (by norm_num)]
    norm_num

/-- **C68**, what fails: for an elementary variable with uncertainty `2 ^ 512` the uncertainty of `x + 0` is infinite, and the correlation of `x` with itself is NaN. -/
theorem C68_overflow_false (m : Dbl) : let x : UReal Dbl := ⟨1, pd 512, m, []⟩
    Is x.s (2 ^ (512 : ℤ)) ∧ (∃ y, add x (UReal.const 0) = some y ∧ y.s = .inf false) ∧ corr x x = .nan := by
  intro x
  have es : x.s = pd 512 := by simp [UReal.s, x, pd_abs]
  refine ⟨by rw [es]; exact pd_is (by norm_num) (by norm_num), ?_, ?_⟩
  · have e : add x (UReal.const 0) = some ⟨-1, -1, m + 0, [(1, pd 512)]⟩ := by
      simp (disch := norm_num) [add, binary, x, UReal.const, SMap.upsert, invalidId, one_pd, pd_mul]
    refine ⟨_, e, ?_⟩
    simp (disch := norm_num) [UReal.s, UReal.s2, dbl_fresh, pd_mul]
    rw [show pd 1024 = .inf false from qd_inf le_rfl, zero_eq one_le_dblMax]
    rfl
  · have e3 : cov x x = .inf false := by
      simp (disch := norm_num) [cov, x, pd_mul]
      rw [show pd 1024 = .inf false from qd_inf le_rfl, zero_eq one_le_dblMax]
      rfl
    rw [corr, e3, es, pd_mul (by norm_num) (by norm_num) (by norm_num) (by norm_num), show pd (512 + 512) = .inf false from qd_inf (by norm_num)]
    rfl

/-- **C68**, what fails: for an elementary variable with uncertainty `2 ^ -538` the uncertainty of `x + 0` is zero, though the coefficient is stored. -/
theorem C68_underflow_false (m : Dbl) : let x : UReal Dbl := ⟨1, pd (-538), m, []⟩
    Is x.s (2 ^ (-538 : ℤ)) ∧ ∃ y, add x (UReal.const 0) = some y ∧ y.sigma = [(1, pd (-538))] ∧ Is y.s 0 := by
  intro x
  have es : x.s = pd (-538) := by simp [UReal.s, x, pd_abs]
  refine ⟨by rw [es]; exact pd_is (by norm_num) (by norm_num), ?_⟩
  have e : add x (UReal.const 0) = some ⟨-1, -1, m + 0, [(1, pd (-538))]⟩ := by
    simp (disch := norm_num) [add, binary, x, UReal.const, SMap.upsert, invalidId, one_pd, pd_mul]
  refine ⟨_, e, rfl, ?_⟩
  have z : pd (-1076) = 0 := by
    have : qf 1 (-1076) = 0 := by
      apply FP.ext
      change ieeeRd 53 (-1022) _ = 0
      have h := two_zpow_pos (-1076)
      rw [Int.cast_one, one_mul, ieeeRd, if_pos h, ieeePos]
      have he : expo (-1022) ((2 : ℝ) ^ (-1076 : ℤ)) = -1022 :=
        le_antisymm (expo_le h le_rfl (zpow_lt_zpow_right₀ (by norm_num) (by norm_num))) (le_max_right _ _)
      rw [he, ← zpow_sub₀ (by norm_num)]
      have : nearEven ((2 : ℝ) ^ (-1076 - (-1022 - ((53 : ℕ) : ℤ) + 1))) = 0 := by
        norm_num [nearEven, Int.fract]
      rw [this]; simp
    rw [pd, qd, this]; rfl
  have : (⟨-1, -1, m + 0, [(1, pd (-538))]⟩ : UReal Dbl).s = 0 := by
    simp (disch := norm_num) [UReal.s, UReal.s2, dbl_fresh, pd_mul, z, dbl_zero_add, dbl_sqrt_zero]
  rw [this]
  exact is_zero

/-- **C68**, what fails: dividing two equal small numbers, with any uncertainties, gives an infinite mean, where it is 1, because the inverse of the divisor overflows. -/
theorem C68_tiny_false (i j : VId) (s t : Dbl) (h : 0 ≤ i) (h' : 0 ≤ j) :
    ∃ z, UReal.div (⟨i, s, pd (-1030), []⟩ : UReal Dbl) ⟨j, t, pd (-1030), []⟩ = some z ∧ z.n = .inf false := by
  have d : 1 / pd (-1030) = .inf false := by
    have hv : (qf 1 (-1030)).val = 2 ^ (-1030 : ℤ) := by rw [qf_val (by norm_num) (by norm_num)]; simp
    have e : (1 / qf 1 (-1030) : FP dblFmt) = qf 1 1030 := by
      apply FP.ext
      rw [FP.val_div, hv]
      change _ = dblFmt.rd _
      congr 1
      simp
    rw [one_eq one_le_dblMax, pd, qd, ofFP_of_le (pf_le (by norm_num) (by norm_num)), div_def, div', if_neg, e]
    · exact qd_inf (by norm_num)
    · rw [hv]; exact (two_zpow_pos _).ne'
  have m : pd (-1030) * .inf false = .inf false := by
    have hv : (qf 1 (-1030)).val = 2 ^ (-1030 : ℤ) := by rw [qf_val (by norm_num) (by norm_num)]; simp
    have hp := two_zpow_pos (-1030)
    rw [pd, qd, ofFP_of_le (pf_le (by norm_num) (by norm_num)), mul_def]
    simp only [mul', isZero, isNeg, hv]
    simp [hp.le]
  simp only [UReal.div, d, m]
  unfold binary
  simp only
  rw [if_neg (by simp; omega)]
  exact ⟨_, rfl, rfl⟩

example : ∃ z, UReal.div (⟨1, 1, pd (-1030), []⟩ : UReal Dbl) ⟨2, 1, pd (-1030), []⟩ = some z ∧ z.n = .inf false := C68_tiny_false 1 2 1 1 (by norm_num) (by norm_num)

end Unc.Props
