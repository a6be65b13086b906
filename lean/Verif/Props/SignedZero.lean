import Verif.Lemmas.SignedZero2
import Verif.Props.Range2

/-!
# C89: the sign of zeros

In `double` there are two zeros, `0` and `-0`, which compare equal.  Calculations are compared which start from values that differ only in the signs of zeros.
-/

namespace Unc.Props
open Unc.Spec UReal Ext SExt
variable {f : Fmt} {M : ℝ}

/-! ## first order -/

/-- **C89** In every computation with the operators of the class, if no mean by which it divides is infinite: changing signs of zeros in the given values does not change any mean, uncertainty
or variance which is an ordinary number, and those which are not remain so. -/
theorem C89_first_partial (hM : 1 ≤ M) {env env' : ℕ → UReal (SExt f M)} (h : ∀ i, SameUpToSign (env i) (env' i)) {t : Calc} (ht : TameS env t) (ht' : TameS env' t) :
    (t.run env = none ↔ t.run env' = none) ∧ ∀ x y, t.run env = some x → t.run env' = some y →
      x.id = y.id ∧ Alike x.n.v y.n.v ∧ Alike x.s.v y.s.v ∧ Alike x.var.v y.var.v := by
  have H := near_run hM h t ht ht'
  generalize t.run env = p at H
  generalize t.run env' = q at H
  cases H with
  | none => exact ⟨by simp, by rintro _ _ ⟨⟩⟩
  | @some x y hr =>
    refine ⟨by simp, ?_⟩
    rintro _ _ ⟨⟩ ⟨⟩
    exact ⟨hr.id, hr.mu, s_rel (near_rel hM) hr, var_rel (near_rel hM) hr⟩

/-- **C89** The same for covariances, and for correlations if the product of the uncertainties is not infinite. -/
theorem C89_pairs_partial (hM : 1 ≤ M) {env env' : ℕ → UReal (SExt f M)} (h : ∀ i, SameUpToSign (env i) (env' i)) {t u : Calc} (ht : TameS env t) (ht' : TameS env' t)
    (hu : TameS env u) (hu' : TameS env' u) {x x' y y' : UReal (SExt f M)} (hx : t.run env = some x) (hx' : u.run env = some x') (hy : t.run env' = some y) (hy' : u.run env' = some y') :
    Alike (cov x x').v (cov y y').v ∧ (¬ Infinite (x.s * x'.s).v → ¬ Infinite (y.s * y'.s).v → Alike (corr x x').v (corr y y').v) := by
  have H := near_run hM h t ht ht'
  have H' := near_run hM h u hu hu'
  rw [hx, hy] at H
  rw [hx', hy'] at H'
  cases H with
  | some hr =>
    cases H' with
    | some hr' =>
      have hc := cov_rel (near_rel hM) hr hr'
      exact ⟨hc, fun h1 h2 => near_div hc ((near_rel hM).mul (s_rel (near_rel hM) hr) (s_rel (near_rel hM) hr')) h1 h2⟩

/-- **C89** If no mean by which the computation divides is zero, the signs of zeros have no effect at all, infinities and NaN included: the results are those of numbers with only one
zero. -/
theorem C89_exact (hM : 1 ≤ M) {env : ℕ → UReal (SExt f M)} (h : ∀ i, Given (env i)) {t : Calc} (ht : NoZero env t) :
    (t.run env = none ↔ t.run (fun i => noSigns (env i)) = none) ∧ ∀ x y, t.run env = some x → t.run (fun i => noSigns (env i)) = some y →
      x.id = y.id ∧ x.n.v = y.n ∧ x.s.v = y.s ∧ x.var.v = y.var := by
  have H := forget_run hM h t ht
  generalize t.run env = p at H
  generalize t.run (fun i => noSigns (env i)) = q at H
  cases H with
  | none => exact ⟨by simp, by rintro _ _ ⟨⟩⟩
  | @some x y hr =>
    refine ⟨by simp, ?_⟩
    rintro _ _ ⟨⟩ ⟨⟩
    exact ⟨hr.id, hr.mu, s_rel (forget_rel hM) hr, var_rel (forget_rel hM) hr⟩

/-- `1 / (1 / x + 1 / y)` -/
def exParallel : Calc := .bin .div (.leaf 2) (.bin .add (.bin .div (.leaf 2) (.leaf 0)) (.bin .div (.leaf 2) (.leaf 1)))

/-- the numbers `0`, `0` or `-0`, and `1`, without uncertainty -/
noncomputable def exZeros (neg : Bool) : ℕ → UReal SDbl
  | 0 => UReal.const 0
  | 1 => UReal.const (SExt.of 0 neg)
  | _ => UReal.const 1

theorem sone_v : (1 : SDbl).v = .fin 1 (by simpa using one_le_dblMax) := one_eq one_le_dblMax

theorem szero_isZero (neg : Bool) : (SExt.of (0 : Dbl) neg).v.isZero = true := by
  show (0 : Dbl).isZero = true
  rw [zero_eq one_le_dblMax]; simp [isZero]

theorem szero_neg (neg : Bool) : (SExt.of (0 : Dbl) neg).neg = neg := by
  have h : (0 : Dbl).isZero = true := szero_isZero neg
  show (if (0 : Dbl).isZero then neg else _) = neg
  rw [if_pos h]

/-- `1 / 0` and `1 / -0` -/
theorem sone_div_zero (neg : Bool) : (1 / SExt.of (0 : Dbl) neg : SDbl).v = .inf neg := by
  have h1 : (1 : SDbl).neg = false := by
    rw [(1 : SDbl).agree (by rw [sone_v]; simp [isZero]), sone_v]
    simp [isNeg]
  rw [v_div, quot, if_pos (szero_isZero neg), sone_v]
  simp [h1, szero_neg]

theorem sone_mul_inf (neg : Bool) : ((1 : SDbl).v * .inf neg : Dbl) = .inf neg := by
  rw [sone_v, mul_def]
  have h : ¬ ((1 : ℝ) < 0) := by norm_num
  simp [mul', isZero, isNeg, h]

/-- the two quotients and the result -/
theorem parallel_run (neg : Bool) : ∃ x : UReal SDbl, exParallel.run (exZeros neg) = some x ∧ x.id < 0 ∧ x.sigma = [] ∧ x.sdev = -1 ∧
    x.mu = 1 * (1 / (1 * (1 / 0) + 1 * (1 / SExt.of 0 neg))) := by
  refine ⟨⟨-1, -1, 1 * (1 / (1 * (1 / 0) + 1 * (1 / SExt.of 0 neg))), []⟩, ?_, by norm_num, rfl, rfl, rfl⟩
  simp [exParallel, Calc.run, exZeros, BinOp.call, UReal.div, UReal.add, UReal.binary, UReal.const, mergeLoop, invalidId]

/-- **C89** The condition on the divisors is needed: with the resistances `x = y = 0` in parallel, `1 / (1 / x + 1 / y)` is `0`, and NaN if `y` is `-0`. -/
theorem C89_false : ∃ x y, exParallel.run (exZeros false) = some x ∧ exParallel.run (exZeros true) = some y ∧ x.n.v = 0 ∧ x.s.v = 0 ∧ y.n.v = .nan ∧
    ∀ i, SameUpToSign (exZeros false i) (exZeros true i) := by
  obtain ⟨x, hx, xi, xs, xd, xm⟩ := parallel_run false
  obtain ⟨y, hy, yi, ys, yd, ym⟩ := parallel_run true
  have z : (0 : SDbl) = SExt.of 0 false := rfl
  have sum : ∀ neg, ((1 : SDbl) * (1 / 0) + 1 * (1 / SExt.of 0 neg)).v = (.inf false + .inf neg : Dbl) := by
    intro neg
    rw [v_add, v_mul, v_mul, z, sone_div_zero, sone_div_zero, sone_mul_inf, sone_mul_inf]
  refine ⟨x, y, hx, hy, ?_, ?_, ?_, ?_⟩
  · rw [UReal.n, xm, v_mul, v_div_of_ne, sum]
    · rw [sone_v]
      show (_ * ((Ext.fin 1 _ : Dbl) / (Ext.inf false)) : Dbl) = 0
      rw [show ((Ext.fin 1 (by simpa using one_le_dblMax) : Dbl) / (Ext.inf false)) = 0 from rfl, ← one_eq one_le_dblMax, dbl_mul_zero' ⟨_, _, _, one_eq one_le_dblMax, rfl⟩]
    · rw [sum]
      rintro ⟨_, _, e, -⟩
      cases e
  · rw [UReal.s, if_neg (by omega), xd, fresh0 one_le_dblMax]
    simp only [Bool.false_eq_true, if_false]
    rw [v_sqrt, s2, xs]
    exact dbl_sqrt_zero
  · rw [UReal.n, ym, v_mul, v_div_of_ne, sum, sone_v]
    · rfl
    · rw [sum]
      rintro ⟨_, _, e, -⟩
      cases e
  · intro i
    match i with
    | 0 => exact ⟨⟨by simp [exZeros, UReal.const], rfl, fun _ => rfl⟩, ⟨by simp [exZeros, UReal.const], rfl, fun _ => rfl⟩, rfl, rfl, rfl⟩
    | 1 => exact ⟨⟨by simp [exZeros, UReal.const], rfl, fun _ => rfl⟩, ⟨by simp [exZeros, UReal.const], rfl, fun _ => rfl⟩, rfl, rfl, rfl⟩
    | _ + 2 => exact ⟨⟨by simp [exZeros, UReal.const], rfl, fun _ => rfl⟩, ⟨by simp [exZeros, UReal.const], rfl, fun _ => rfl⟩, rfl, rfl, rfl⟩

/-! ## second order -/

/-- **C89** At second order: the mean, `n()` in both modes, the uncertainty and the central moments. -/
theorem C89_second_partial (hM : 2 ≤ M) (hh : HasHalf f) {env env' : ℕ → UReal2 (SExt f M)} (henv : ∀ i, Ok2 (env i)) (h : ∀ i, numbers SExt.v (env i) = numbers SExt.v (env' i))
    {c : Calc2} (hc : TameS2 env c) (hc' : TameS2 env' c) :
    ∃ x y, (∀ v, c.run v env = some x) ∧ (∀ v, c.run v env' = some y) ∧ Alike x.mu.v y.mu.v ∧
      (∀ n, 1 ≤ n ∧ n ≤ 4 → ∃ a b, x.m n = some a ∧ y.m n = some b ∧ Alike a.v b.v) ∧
      (∀ p, ∃ a b, x.n p = some a ∧ y.n p = some b ∧ Alike a.v b.v) ∧
      ∃ a b, x.s = some a ∧ y.s = some b ∧ Alike a.v b.v := by
  obtain ⟨Z, o, hx, hy⟩ := run_pair hM hh henv h hc hc'
  refine ⟨_, _, hx, hy, Z.mu.near, fun n hn => ?_, fun p => ?_, ?_⟩
  · obtain ⟨a, h1, h2⟩ := m_pair o hn
    exact ⟨_, _, h1, h2, a.near⟩
  · obtain ⟨a, h1, h2⟩ := m_pair o (n := 1) (by norm_num)
    cases p with
    | est => exact ⟨_, _, by rw [UReal2.n, h1]; rfl, by rw [UReal2.n, h2]; rfl, (Z.mu + -a).near⟩
    | mean => exact ⟨_, _, by rw [UReal2.n, h1]; rfl, by rw [UReal2.n, h2]; rfl, (Z.mu + a).near⟩
  · obtain ⟨a, h1, h2⟩ := m_pair o (n := 2) (by norm_num)
    exact ⟨_, _, by rw [UReal2.s, h1]; rfl, by rw [UReal2.s, h2]; rfl, alike_sqrt a.near⟩

/-- **C89** Covariances; skewness, kurtosis and correlation where the product by which they divide is not infinite. -/
theorem C89_ratios_partial (hM : 2 ≤ M) (hh : HasHalf f) {env env' : ℕ → UReal2 (SExt f M)} (henv : ∀ i, Ok2 (env i)) (h : ∀ i, numbers SExt.v (env i) = numbers SExt.v (env' i))
    {c c' : Calc2} (hc : TameS2 env c ∧ TameS2 env' c) (hc' : TameS2 env c' ∧ TameS2 env' c') {v : Moments (SExt f M)} {x x' y y' : UReal2 (SExt f M)} (hx : c.run v env = some x)
    (hy : c.run v env' = some y) (hx' : c'.run v env = some x') (hy' : c'.run v env' = some y') :
    (∃ a b, UReal2.cov x x' = some a ∧ UReal2.cov y y' = some b ∧ Alike a.v b.v) ∧
    (∀ s s' t t', x.s = some s → x'.s = some s' → y.s = some t → y'.s = some t' → ¬ Infinite (s * s').v → ¬ Infinite (t * t').v →
      ∃ a b, UReal2.corr x x' = some a ∧ UReal2.corr y y' = some b ∧ Alike a.v b.v) ∧
    (∀ s m t n, x.s = some s → x.m 2 = some m → y.s = some t → y.m 2 = some n → ¬ Infinite (s * m).v → ¬ Infinite (t * n).v → ∃ a b, x.skew = some a ∧ y.skew = some b ∧ Alike a.v b.v) ∧
    ∀ m n, x.m 2 = some m → y.m 2 = some n → ¬ Infinite (m * m).v → ¬ Infinite (n * n).v → ∃ a b, x.kurt = some a ∧ y.kurt = some b ∧ Alike a.v b.v := by
  obtain ⟨Z, o, zx, zy⟩ := run_pair hM hh henv h hc.1 hc.2
  obtain ⟨Z', o', zx', zy'⟩ := run_pair hM hh henv h hc'.1 hc'.2
  rw [zx, Option.some_inj] at hx
  rw [zy, Option.some_inj] at hy
  rw [zx', Option.some_inj] at hx'
  rw [zy', Option.some_inj] at hy'
  subst hx hy hx' hy'
  obtain ⟨a2, ha2, hb2⟩ := m_pair o (n := 2) (by norm_num)
  obtain ⟨a3, ha3, hb3⟩ := m_pair o (n := 3) (by norm_num)
  obtain ⟨a4, ha4, hb4⟩ := m_pair o (n := 4) (by norm_num)
  obtain ⟨a2', ha2', hb2'⟩ := m_pair o' (n := 2) (by norm_num)
  obtain ⟨c0, hc0, hd0⟩ := cov_pair o o'
  have sx : (mapU SPair.x Z).s = some (CSqrt.sqrt a2.x) := by rw [UReal2.s, ha2]; rfl
  have sy : (mapU SPair.y Z).s = some (CSqrt.sqrt a2.y) := by rw [UReal2.s, hb2]; rfl
  have sx' : (mapU SPair.x Z').s = some (CSqrt.sqrt a2'.x) := by rw [UReal2.s, ha2']; rfl
  have sy' : (mapU SPair.y Z').s = some (CSqrt.sqrt a2'.y) := by rw [UReal2.s, hb2']; rfl
  have R := near_rel (f := f) (M := M) (by linarith)
  refine ⟨⟨_, _, hc0, hd0, c0.near⟩, fun s s' t t' hs hs' ht ht' hn hn' => ?_, fun s m t n hs hm ht hm' hn hn' => ?_, fun m n hm hm' hn hn' => ?_⟩
  · rw [sx, Option.some_inj] at hs
    rw [sx', Option.some_inj] at hs'
    rw [sy, Option.some_inj] at ht
    rw [sy', Option.some_inj] at ht'
    subst hs hs' ht ht'
    exact ⟨_, _, by rw [UReal2.corr, hc0, sx, sx']; rfl, by rw [UReal2.corr, hd0, sy, sy']; rfl, near_div c0.near (R.mul (R.sqrt a2.near) (R.sqrt a2'.near)) hn hn'⟩
  · rw [sx, Option.some_inj] at hs
    rw [ha2, Option.some_inj] at hm
    rw [sy, Option.some_inj] at ht
    rw [hb2, Option.some_inj] at hm'
    subst hs hm ht hm'
    exact ⟨_, _, by rw [UReal2.skew, ha3, sx, ha2]; rfl, by rw [UReal2.skew, hb3, sy, hb2]; rfl, near_div a3.near (R.mul (R.sqrt a2.near) a2.near) hn hn'⟩
  · rw [ha2, Option.some_inj] at hm
    rw [hb2, Option.some_inj] at hm'
    subst hm hm'
    exact ⟨_, _, by rw [UReal2.kurt, ha2, ha4]; rfl, by rw [UReal2.kurt, hb2, hb4]; rfl, near_div a4.near (R.mul a2.near a2.near) hn hn'⟩

/-- **C89** If no mean by which the calculation divides is zero, all derivatives and results are those of numbers with only one zero. -/
theorem C89_exact_second (hM : 2 ≤ M) (hh : HasHalf f) {env : ℕ → UReal2 (SExt f M)} (henv : ∀ i, Ok2 (env i)) {c : Calc2} (hc : NoZero2 env c) :
    ∃ x y, (∀ v, c.run v env = some x) ∧ (∀ v, c.run v (fun i => numbers SExt.v (env i)) = some y) ∧ numbers SExt.v x = y ∧ (∀ n, (x.m n).map SExt.v = y.m n) ∧
      (∀ p, (x.n p).map SExt.v = y.n p) ∧ x.s.map SExt.v = y.s := by
  obtain ⟨x, o, hx, hy⟩ := run_forget hM hh henv hc
  have hm : ∀ n, (x.m n).map SExt.v = (mapU SExt.v x).m n := fun n => (m_hom v_hom x n).symm
  refine ⟨x, mapU SExt.v x, hx, hy, rfl, hm, fun p => ?_, ?_⟩
  · cases p <;> rw [UReal2.n, UReal2.n, ← hm] <;> cases x.m 1 <;> rfl
  · rw [UReal2.s, UReal2.s, ← hm]
    cases x.m 2 <;> rfl

/-! ## examples -/

/-- `x` with mean `0` or `-0` and uncertainty 1, `y` with mean 1 and uncertainty `0` or `-0` -/
noncomputable def exSigned (neg : Bool) : ℕ → UReal SDbl
  | 0 => ⟨1, 1, SExt.of 0 neg, []⟩
  | _ => ⟨2, SExt.of 0 neg, 1, []⟩

/-- `x * x - x / y` -/
def exSignedCalc : Calc := .bin .sub (.bin .mul (.leaf 0) (.leaf 0)) (.bin .div (.leaf 0) (.leaf 1))

theorem exSigned_given (neg : Bool) (i : ℕ) : Given (exSigned neg i) := by
  match i with
  | 0 => exact ⟨by simp [exSigned], rfl, by simp [exSigned]⟩
  | _ + 1 => exact ⟨by simp [exSigned], rfl, by simp [exSigned]⟩

theorem exSigned_same (i : ℕ) : SameUpToSign (exSigned false i) (exSigned true i) := by
  refine ⟨exSigned_given _ i, exSigned_given _ i, ?_⟩
  match i with
  | 0 => exact ⟨rfl, rfl, rfl⟩
  | _ + 1 => exact ⟨rfl, rfl, rfl⟩

theorem exSigned_tame (neg : Bool) : TameS (exSigned neg) exSignedCalc := by
  refine ⟨⟨trivial, trivial, by simp [BinOp.divides]⟩, ⟨trivial, trivial, fun _ y hy => ?_⟩, by simp [BinOp.divides]⟩
  cases hy
  rintro ⟨s, e⟩
  have e' : (1 : SDbl).v = .inf s := e
  rw [sone_v] at e'
  cases e'

theorem exSigned_noZero (neg : Bool) : NoZero (exSigned neg) exSignedCalc := by
  refine ⟨⟨trivial, trivial, by simp [BinOp.divides]⟩, ⟨trivial, trivial, fun _ y hy => ?_⟩, by simp [BinOp.divides]⟩
  cases hy
  rintro ⟨c, hc, e, h0⟩
  have e' : (1 : SDbl).v = .fin c hc := e
  rw [sone_v, Ext.fin.injEq] at e'
  rw [← e'] at h0
  simp at h0

/-- the hypotheses of `C89_first_partial` with signed zeros in the mean and in an uncertainty -/
example : ∀ x y, exSignedCalc.run (exSigned false) = some x → exSignedCalc.run (exSigned true) = some y → Alike x.s.v y.s.v := fun x y hx hy =>
  ((C89_first_partial one_le_dblMax exSigned_same (exSigned_tame false) (exSigned_tame true)).2 x y hx hy).2.2.1

/-- the hypotheses of `C89_pairs_partial` -/
example : ∀ x y, exSignedCalc.run (exSigned false) = some x → exSignedCalc.run (exSigned true) = some y →
    Alike (cov x (exSigned false 0)).v (cov y (exSigned true 0)).v := fun _ _ hx hy =>
  (C89_pairs_partial one_le_dblMax exSigned_same (exSigned_tame false) (exSigned_tame true) (u := .leaf 0) trivial trivial hx rfl hy rfl).1

/-- the hypotheses of `C89_exact` -/
example : ∀ x y, exSignedCalc.run (exSigned true) = some x → exSignedCalc.run (fun i => noSigns (exSigned true i)) = some y → x.s.v = y.s := fun x y hx hy =>
  ((C89_exact one_le_dblMax (exSigned_given true) (exSigned_noZero true)).2 x y hx hy).2.2.1

/-- second-order values with signed zeros: `x` has mean and second derivative zero -/
noncomputable def exSigned2 (neg : Bool) : ℕ → UReal2 SDbl
  | 0 => ⟨⟨[(1, ⟨1, SExt.of 0 neg, ⟨SExt.of 0 neg, 1, SExt.of 0 neg, 1, 0, 1⟩⟩)], []⟩, SExt.of 0 neg⟩
  | _ => ⟨⟨[(2, ⟨SExt.of 0 neg, 0, ⟨0, 1, 0, 1, 0, 1⟩⟩)], []⟩, 1⟩

/-- `x * x - x / y` -/
def exSignedCalc2 : Calc2 := .sub (.mul (.leaf 0) (.leaf 0)) (.div (.leaf 0) (.leaf 1))

theorem exSigned2_ok (neg : Bool) (i : ℕ) : Ok2 (exSigned2 neg i) := by
  match i with
  | 0 => exact ⟨⟨by simp [exSigned2, SMap.Sorted, SMap.keys], by simp [exSigned2, SMap.Sorted, SMap.keys], by simp [exSigned2, SMap.keys]⟩, by simp [HessGrad.Below, exSigned2, SMap.keys, maxId]⟩
  | _ + 1 => exact ⟨⟨by simp [exSigned2, SMap.Sorted, SMap.keys], by simp [exSigned2, SMap.Sorted, SMap.keys], by simp [exSigned2, SMap.keys]⟩, by simp [HessGrad.Below, exSigned2, SMap.keys, maxId]⟩

theorem exSigned2_same (i : ℕ) : numbers SExt.v (exSigned2 false i) = numbers SExt.v (exSigned2 true i) := by
  match i with
  | 0 => rfl
  | _ + 1 => rfl

theorem exSigned2_tame (neg : Bool) : TameS2 (exSigned2 neg) exSignedCalc2 := by
  refine ⟨⟨trivial, trivial⟩, trivial, trivial, fun v y hy => ?_⟩
  cases hy
  rintro ⟨s, e⟩
  have e' : (1 : SDbl).v = .inf s := e
  rw [sone_v] at e'
  cases e'

/-- the hypotheses of `C89_second_partial` and of `C89_ratios_partial` -/
example : ∃ x y, (∀ v, exSignedCalc2.run v (exSigned2 false) = some x) ∧ (∀ v, exSignedCalc2.run v (exSigned2 true) = some y) ∧
    ∃ a b, UReal2.cov x x = some a ∧ UReal2.cov y y = some b ∧ Alike a.v b.v := by
  have t := exSigned2_tame
  obtain ⟨x, y, hx, hy, -⟩ := C89_second_partial two_le_dblMax dbl_half (exSigned2_ok false) exSigned2_same (t false) (t true)
  exact ⟨x, y, hx, hy, (C89_ratios_partial two_le_dblMax dbl_half (exSigned2_ok false) exSigned2_same ⟨t false, t true⟩ ⟨t false, t true⟩ (hx ⟨0, 0, 0, 0, 0, 0⟩) (hy _) (hx _) (hy _)).1⟩

/-- the hypotheses of `C89_exact_second` -/
example : NoZero2 (exSigned2 true) exSignedCalc2 ∧ ∃ x y, (∀ v, exSignedCalc2.run v (exSigned2 true) = some x) ∧
    (∀ v, exSignedCalc2.run v (fun i => numbers SExt.v (exSigned2 true i)) = some y) ∧ numbers SExt.v x = y := by
  have h : NoZero2 (exSigned2 true) exSignedCalc2 := by
    refine ⟨⟨trivial, trivial⟩, trivial, trivial, fun v y hy => ?_⟩
    cases hy
    rintro ⟨c, hc, e, h0⟩
    have e' : (1 : SDbl).v = .fin c hc := e
    rw [sone_v, Ext.fin.injEq] at e'
    rw [← e'] at h0
    simp at h0
  obtain ⟨x, y, hx, hy, e, -⟩ := C89_exact_second two_le_dblMax dbl_half (exSigned2_ok true) h
  exact ⟨h, x, y, hx, hy, e⟩

end Unc.Props
