import Verif.Lemmas.FloatCtor
import Verif.Props.Range
import Verif.Props.Float

/-!
# C94: the constructors of second-order variables in floating point

The constructors of `UReal2` store the standard deviation and standardized moments, and the methods compute the central moments back from them.  What comes back is compared with what was given, when
each operation rounds.

The full statement, for every uncertainty `s >= 0` and all central moments of the format: `s()` is `s`, or the rounded square root of the variance, and the variance, the third and fourth moment, skewness
and kurtosis are the given ones but for a fixed number of roundings.  It is false in `double` for small uncertainties, whose powers underflow (C94_uncertainty_false, C94_fourth_false, C94_tiny_false).
The theorems named `_partial` have the hypothesis that there is no underflow, or are about formats where there is none.
-/

namespace Unc.Props
open Unc.Spec HessGrad SMap Mom Ext

variable {f : Fmt}

/-- **C94** In the formats of IEEE a variable made with an uncertainty `s` has `s()` exactly equal to `s`, as long as the square of `s` does not underflow: the rounding of the square is undone by the
square root. -/
theorem C94_uncertainty_partial {p : ℕ} {emin : ℤ} (hp : 1 ≤ p) (he : emin ≤ 0) (u : Moments (FP (ieee p emin hp he))) (id : VId) (n : FP (ieee p emin hp he)) {s : FP (ieee p emin hp he)} (h0 : 0 ≤ s.val)
    (h : s.val = 0 ∨ (2 : ℝ) ^ emin ≤ s.val * s.val) (T : ℕ → FP (ieee p emin hp he)) : (UReal2.buildStd u id n s T).s = some s := by
  rw [build_std, UReal2.s, var_single, Option.map_some]
  congr 1
  apply FP.ext
  show (ieee p emin hp he).rd (Real.sqrt ((ieee p emin hp he).rd (s.val * s.val))) = s.val
  rcases h0.eq_or_lt with h1 | h1
  · rw [← h1, mul_zero, Fmt.rd_zero, Real.sqrt_zero, Fmt.rd_zero]
  · exact ieee_sqrt_sq hp he s.rep h1 (h.resolve_left h1.ne')

/-- **C94** A variable made with central moments has as `s()` the correctly rounded square root of the given variance, if it does not underflow. -/
theorem C94_central_partial {p : ℕ} {emin : ℤ} (hp : 1 ≤ p) (he : emin ≤ 0) (u : Moments (FP (ieee p emin hp he))) (id : VId) (n : FP (ieee p emin hp he)) {c : ℕ → FP (ieee p emin hp he)}
    (h : (c 0).val = 0 ∨ (2 : ℝ) ^ (emin + 1) ≤ (c 0).val) : (UReal2.buildCentral u id n c).s = some (FP.round _ (Real.sqrt (c 0).val)) := by
  rw [build_central, UReal2.s, var_single, Option.map_some]
  congr 1
  apply FP.ext
  show (ieee p emin hp he).rd (Real.sqrt ((ieee p emin hp he).rd ((ieee p emin hp he).rd (Real.sqrt (c 0).val) * (ieee p emin hp he).rd (Real.sqrt (c 0).val)))) = (ieee p emin hp he).rd (Real.sqrt (c 0).val)
  rcases h with h | h
  · simp only [h, Real.sqrt_zero, Fmt.rd_zero, mul_zero]
  · -- a power of two below the square root
    obtain ⟨k, k1, k2, k3⟩ : ∃ k : ℤ, emin ≤ 2 * k ∧ 2 * k ≤ emin + 1 ∧ emin ≤ k := ⟨(emin + 1) / 2, by omega, by omega, by omega⟩
    have l : (2 : ℝ) ^ k ≤ Real.sqrt (c 0).val := by
      apply Real.le_sqrt_of_sq_le
      rw [← zpow_natCast, ← zpow_mul]
      refine le_trans (zpow_le_zpow_right₀ (by norm_num) ?_) h
      push_cast; omega
    have rk : (ieee p emin hp he).rd ((2 : ℝ) ^ k) = 2 ^ k := by
      have := ieee_int hp he 1 k (by rw [abs_one]; exact one_lt_pow₀ (by norm_num) (by omega)) (by omega)
      simpa using this
    have l' := (ieee p emin hp he).mono l
    rw [rk] at l'
    refine ieee_sqrt_sq hp he (Fmt.idem _ _) (lt_of_lt_of_le (two_zpow_pos _) l') ?_
    calc (2 : ℝ) ^ emin ≤ 2 ^ (2 * k) := zpow_le_zpow_right₀ (by norm_num) k1
      _ = 2 ^ k * 2 ^ k := by rw [two_mul, zpow_add₀ (by norm_num)]
      _ ≤ _ := mul_le_mul l' l' (two_zpow_pos _).le ((two_zpow_pos _).le.trans l')

/-- **C94** The errors of the constructor from central moments `c` (the variance and the central moments 3 to 8) with a positive variance, when each rounding has the relative error `u`: the standardized
moments it stores, and the central moments, skewness and kurtosis of the variable. -/
theorem C94_stored_partial {u : ℝ} (hu : Acc f.rd u) (w : Moments (FP f)) (id : VId) (n : FP f) {c : ℕ → FP f} (h : 0 < (c 0).val) :
    ∃ (g : FP f) (t : Moments (FP f)), UReal2.buildCentral w id n c = ⟨⟨[(id, ⟨g, 0, t⟩)], []⟩, n⟩ ∧ Factor u 1 g.val (Real.sqrt (c 0).val) ∧
      (Factor u 3 t.v3.val ((c 1).val / Real.sqrt (c 0).val ^ 3) ∧ Factor u 5 t.v4.val ((c 2).val / Real.sqrt (c 0).val ^ 4) ∧ Factor u 7 t.v5.val ((c 3).val / Real.sqrt (c 0).val ^ 5) ∧
        Factor u 9 t.v6.val ((c 4).val / Real.sqrt (c 0).val ^ 6) ∧ Factor u 11 t.v7.val ((c 5).val / Real.sqrt (c 0).val ^ 7) ∧ Factor u 13 t.v8.val ((c 6).val / Real.sqrt (c 0).val ^ 8)) := by
  have s0 : 0 < Real.sqrt (c 0).val := Real.sqrt_pos.2 h
  have ss : (c 0).val = Real.sqrt (c 0).val ^ 2 := (Real.sq_sqrt h.le).symm
  have hg : Factor u 1 (CSqrt.sqrt (c 0)).val (Real.sqrt (c 0).val) := fac_rd hu _
  have g0 : 0 < (CSqrt.sqrt (c 0)).val := by
    obtain ⟨ρ, r0, -, -, e⟩ := hg
    rw [e]; exact mul_pos r0 s0
  refine ⟨CSqrt.sqrt (c 0), UReal2.stdMoments (CSqrt.sqrt (c 0)) c, ?_, hg, ?_⟩
  · rw [build_central, if_pos (by rw [FP.ltb_fp]; exact g0)]
  · have z : ∀ a : FP f, Factor u 0 a.val a.val := fun a => ⟨1, one_pos, by simp, by simp, by simp⟩
    have a2 : Factor u 0 (c 0).val (Real.sqrt (c 0).val ^ 2) := by rw [← ss]; exact z _
    have a3 := powers_fac hu a2 hg
    have a4 := powers_fac hu a3 hg
    have a5 := powers_fac hu a4 hg
    have a6 := powers_fac hu a5 hg
    have a7 := powers_fac hu a6 hg
    have a8 := powers_fac hu a7 hg
    simp only [← pow_succ, Nat.reduceAdd] at a3 a4 a5 a6 a7 a8
    exact ⟨fac_rddiv hu (z _) a3, fac_rddiv hu (z _) a4, fac_rddiv hu (z _) a5, fac_rddiv hu (z _) a6, fac_rddiv hu (z _) a7, fac_rddiv hu (z _) a8⟩

/-- **C94** The central moments, the uncertainty, the skewness and the kurtosis of the variable are the given ones up to 3, 9, 13, 3, 17 and 21 roundings. -/
theorem C94_moments_partial {u : ℝ} (hu : Acc f.rd u) (w : Moments (FP f)) (id : VId) (n : FP f) {c : ℕ → FP f} (h : 0 < (c 0).val) :
    ∃ a2 a3 a4 s k e, (UReal2.buildCentral w id n c).m 2 = some a2 ∧ (UReal2.buildCentral w id n c).m 3 = some a3 ∧ (UReal2.buildCentral w id n c).m 4 = some a4 ∧
      (UReal2.buildCentral w id n c).s = some s ∧ (UReal2.buildCentral w id n c).skew = some k ∧ (UReal2.buildCentral w id n c).kurt = some e ∧
      |a2.val - (c 0).val| ≤ ((1 / (1 - u)) ^ 3 - 1) * |(c 0).val| ∧ |a3.val - (c 1).val| ≤ ((1 / (1 - u)) ^ 9 - 1) * |(c 1).val| ∧ |a4.val - (c 2).val| ≤ ((1 / (1 - u)) ^ 13 - 1) * |(c 2).val| ∧
      |s.val - Real.sqrt (c 0).val| ≤ ((1 / (1 - u)) ^ 4 - 1) * Real.sqrt (c 0).val ∧
      |k.val - (c 1).val / Real.sqrt (c 0).val ^ 3| ≤ ((1 / (1 - u)) ^ 18 - 1) * |(c 1).val / Real.sqrt (c 0).val ^ 3| ∧
      |e.val - (c 2).val / (c 0).val ^ 2| ≤ ((1 / (1 - u)) ^ 21 - 1) * |(c 2).val / (c 0).val ^ 2| := by
  obtain ⟨g, t, e0, hg, h3, h4, -⟩ := C94_stored_partial hu w id n h
  have s0 : 0 < Real.sqrt (c 0).val := Real.sqrt_pos.2 h
  have ss : Real.sqrt (c 0).val * Real.sqrt (c 0).val = (c 0).val := Real.mul_self_sqrt h.le
  set r := Real.sqrt (c 0).val with hr
  have f2 : Factor u 3 (g * g).val (c 0).val := by rw [← ss]; exact fac_rdmul hu hg hg
  have fs : Factor u 4 (CSqrt.sqrt (g * g)).val r := by
    rw [hr]; exact fac_mono hu (fac_trans hu (fac_rd hu (Real.sqrt (g * g).val)) (fac_sqrt hu f2)) (by norm_num)
  have f3 : Factor u 9 (g * g * g * t.v3).val (c 1).val := by
    have := fac_rdmul hu (fac_rdmul hu f2 hg) h3
    rwa [← ss, show r * r * r * ((c 1).val / r ^ 3) = (c 1).val by field_simp] at this
  have f4 : Factor u 13 (g * g * g * g * t.v4).val (c 2).val := by
    have := fac_rdmul hu (fac_rdmul hu (fac_rdmul hu f2 hg) hg) h4
    rwa [← ss, show r * r * r * r * ((c 2).val / r ^ 4) = (c 2).val by field_simp] at this
  have fk : Factor u 18 (g * g * g * t.v3 / (CSqrt.sqrt (g * g) * (g * g))).val ((c 1).val / r ^ 3) := by
    have := fac_rddiv hu f3 (fac_rdmul hu fs f2)
    rwa [← ss, show r * (r * r) = r ^ 3 by ring] at this
  have fe : Factor u 21 (g * g * g * g * t.v4 / (g * g * (g * g))).val ((c 2).val / (c 0).val ^ 2) := by
    have := fac_rddiv hu f4 (fac_rdmul hu f2 f2)
    rwa [← pow_two] at this
  have m2 := var_single id g n t
  have m3 := third_single id g n t
  have m4 := fourth_single id g n t
  rw [e0]
  refine ⟨_, _, _, CSqrt.sqrt (g * g), _, _, m2, m3, m4, by rw [UReal2.s, m2]; rfl, by rw [UReal2.skew, UReal2.s, m3, m2]; rfl, by rw [UReal2.kurt, m4, m2]; rfl, fac_bound hu f2, fac_bound hu f3, fac_bound hu f4, ?_,
    fac_bound hu fk, fac_bound hu fe⟩
  have := fac_bound hu fs
  rwa [abs_of_pos s0] at this

/-! ## what fails -/

/-- **C94**, what fails: in `double` the uncertainty `2 ^ -540` comes back as zero, because its square underflows. -/
theorem C94_uncertainty_false (u : Moments (FP dblFmt)) (id : VId) (n : FP dblFmt) (T : ℕ → FP dblFmt) :
    ∃ a, (UReal2.buildStd u id n (qf 1 (-540)) T).s = some a ∧ a.val = 0 ∧ (qf 1 (-540)).val = 2 ^ (-540 : ℤ) := by
  have v : (qf 1 (-540)).val = 2 ^ (-540 : ℤ) := by rw [qf_val (by norm_num) (by norm_num)]; simp
  refine ⟨CSqrt.sqrt (qf 1 (-540) * qf 1 (-540)), by rw [build_std, UReal2.s, var_single]; rfl, ?_, v⟩
  rw [FP.val_sqrt, FP.val_mul, v, ← zpow_add₀ (by norm_num), ieee_tiny _ _ (by norm_num), Real.sqrt_zero, Fmt.rd_zero]

/-- the square root of 2 in `double` -/
theorem rd_sqrt_two_dbl : dblFmt.rd (Real.sqrt 2) = (6369051672525773 : ℤ) * 2 ^ (-52 : ℤ) := by
  have s0 : 0 < Real.sqrt 2 := Real.sqrt_pos.2 two_pos
  have ss : Real.sqrt 2 * Real.sqrt 2 = 2 := Real.mul_self_sqrt two_pos.le
  change ieeeRd 53 (-1022) _ = _
  rw [ieeeRd, if_pos s0, ieeePos, expo_eq (e := 0) (by norm_num) (by rw [zpow_zero]; nlinarith) (by norm_num)]
  have l1 : (6369051672525773 - 9 / 20 : ℝ) / 2 ^ 52 < Real.sqrt 2 := Real.lt_sqrt_of_sq_lt (by norm_num)
  have l2 : Real.sqrt 2 < (6369051672525773 + 1 / 4 : ℝ) / 2 ^ 52 := (Real.sqrt_lt' (by norm_num)).2 (by norm_num)
  rw [nearEven_near (n := 6369051672525773)]
  · norm_num
  · rw [abs_lt]
    norm_num at l1 l2 ⊢
    constructor <;> linarith

/-- **C94**, what fails: in `double` a variable made with the variance 2 has the variance `2 + 2 ^ -51`. -/
theorem C94_variance_false (u : Moments (FP dblFmt)) (id : VId) (n : FP dblFmt) {c : ℕ → FP dblFmt} (h : (c 0).val = 2) :
    ∃ a, (UReal2.buildCentral u id n c).m 2 = some a ∧ a.val = 2 + 2 ^ (-51 : ℤ) := by
  refine ⟨_, by rw [build_central, var_single], ?_⟩
  rw [FP.val_mul, FP.val_sqrt, h, rd_sqrt_two_dbl]
  change ieeeRd 53 (-1022) _ = _
  rw [ieeeRd, if_pos (by norm_num), ieeePos, expo_eq (e := 1) (by norm_num) (by norm_num) (by norm_num), nearEven_near (n := 4503599627370497)]
  · norm_num
  · rw [abs_lt]; norm_num

theorem pd_tiny {k : ℤ} (h : k < -1075) : pd k = 0 := by
  have : qf 1 k = 0 := by
    apply FP.ext
    change dblFmt.rd _ = 0
    rw [Int.cast_one, one_mul, ieee_tiny _ _ (by norm_num; omega)]
  rw [pd, qd, this]; rfl

theorem pd_sqrt {j : ℤ} (h : -1074 ≤ 2 * j) (h' : 2 * j ≤ 1023) : (CSqrt.sqrt (pd (2 * j)) : Dbl) = pd j := by
  have v : (qf 1 (2 * j)).val = 2 ^ (2 * j) := by rw [qf_val (by norm_num) h]; simp
  rw [pd, qd, ofFP_of_le (pf_le h h')]
  show (if (qf 1 (2 * j)).val < 0 then Ext.nan else ofFP dblMax (CSqrt.sqrt (qf 1 (2 * j)))) = _
  rw [if_neg (by rw [v]; exact not_lt.2 (two_zpow_pos _).le)]
  congr 1
  apply FP.ext
  rw [FP.val_sqrt, v, two_mul, zpow_add₀ (by norm_num), Real.sqrt_mul_self (two_zpow_pos _).le]
  change _ = dblFmt.rd _
  rw [Int.cast_one, one_mul]

theorem pd_pos {j : ℤ} (h : -1074 ≤ j) (h' : j ≤ 1023) : CCmp.ltb (0 : Dbl) (pd j) = true := by
  have v : (qf 1 j).val = 2 ^ j := by rw [qf_val (by norm_num) h]; simp
  rw [pd, qd, ofFP_of_le (pf_le h h'), zero_eq one_le_dblMax]
  rw [fin_ltb, FP.val_zero, v]
  exact two_zpow_pos j

/-- **C94**, what fails: in `double`, for a variable made with central moments and standard deviation `2 ^ -140` the fourth central moment is never an ordinary number, whatever the other moments are
(for a normal variable it is `3 * 2 ^ -560`): the power 8 of the standard deviation underflows, and `mom[5]` is divided by zero and then multiplied by zero. -/
theorem C94_fourth_false (u : Moments Dbl) (id : VId) (n : Dbl) {c : ℕ → Dbl} (h : c 0 = pd (-280)) : ∃ a, (UReal2.buildCentral u id n c).m 4 = some a ∧ ¬ Spec.Finite a := by
  have hs : (CSqrt.sqrt (c 0) : Dbl) = pd (-140) := by rw [h]; exact pd_sqrt (j := -140) (by norm_num) (by norm_num)
  rw [build_central, hs, if_pos (pd_pos (by norm_num) (by norm_num))]
  obtain ⟨y, e⟩ := m4_single id (⟨pd (-140), 0, UReal2.stdMoments (pd (-140)) c⟩ : Diag Dbl) n
  refine ⟨_, e, not_fin_sub_left ?_⟩
  refine not_fin_add_right (not_fin_mul_right ?_)
  have : (UReal2.stdMoments (pd (-140)) c).v8 = c 6 / 0 := by
    simp (disch := norm_num) [UReal2.stdMoments, h, pd_mul]
    rw [pd_tiny (by norm_num)]
  rw [this]
  exact not_fin_div_zero (zero_le_one.trans one_le_dblMax) _

/-- **C94**, what fails: in `double`, a variable made with central moments and standard deviation `2 ^ -270` has no variance and no uncertainty, whatever the other moments are. -/
theorem C94_tiny_false (u : Moments Dbl) (id : VId) (n : Dbl) {c : ℕ → Dbl} (h : c 0 = pd (-540)) :
    ∃ a s, (UReal2.buildCentral u id n c).m 2 = some a ∧ (UReal2.buildCentral u id n c).s = some s ∧ ¬ Spec.Finite a ∧ ¬ Spec.Finite s := by
  have hs : (CSqrt.sqrt (c 0) : Dbl) = pd (-270) := by rw [h]; exact pd_sqrt (j := -270) (by norm_num) (by norm_num)
  rw [build_central, hs, if_pos (pd_pos (by norm_num) (by norm_num))]
  have e := m2_single id (⟨pd (-270), 0, UReal2.stdMoments (pd (-270)) c⟩ : Diag Dbl) n
  have this : (UReal2.stdMoments (pd (-270)) c).v4 = c 2 / 0 := by
    simp (disch := norm_num) [UReal2.stdMoments, h, pd_mul]
    rw [pd_tiny (by norm_num)]
  have nf : ¬ Spec.Finite (m2A 0 (⟨pd (-270), 0, UReal2.stdMoments (pd (-270)) c⟩ : Diag Dbl) - (0 + 0) * (0 + 0)) := by
    refine not_fin_sub_left (not_fin_add_right (not_fin_mul_right ?_))
    show ¬ Spec.Finite (UReal2.stdMoments (pd (-270)) c).v4
    rw [this]
    exact not_fin_div_zero (zero_le_one.trans one_le_dblMax) _
  exact ⟨_, _, e, by rw [UReal2.s, e]; rfl, nf, not_fin_sqrt nf⟩

/-- **C94** In `double`, overflow included: the uncertainty comes back exactly if its square neither underflows nor overflows and the third and fourth standardized moments are ordinary numbers. -/
theorem C94_double_partial (u : Moments Dbl) (id : VId) (n : Dbl) {s : FP dblFmt} (h0 : 0 ≤ s.val) (h : s.val = 0 ∨ (2 : ℝ) ^ (-1022 : ℤ) ≤ s.val * s.val) (h' : (s * s).val ≤ dblMax) {T : ℕ → Dbl}
    (h3 : Spec.Finite (T 0)) (h4 : Spec.Finite (T 1)) : (UReal2.buildStd u id n (ofFP dblMax s) T).s = some (ofFP dblMax s) := by
  have z0 : |(0 : FP dblFmt).val| ≤ dblMax := by rw [FP.val_zero, abs_zero]; exact zero_le_one.trans one_le_dblMax
  have q : |(s * s).val| ≤ dblMax := by
    rw [abs_of_nonneg]; · exact h'
    rw [FP.val_mul, ← dblFmt.rd_zero]; exact dblFmt.mono (mul_nonneg h0 h0)
  have key := C94_uncertainty_partial (by norm_num) (by norm_num) ⟨0, 0, 0, 0, 0, 0⟩ id 0 h0 h fun _ => 0
  rw [build_std, UReal2.s, var_single, Option.map_some, Option.some_inj] at key
  have s1 : s.val < 2 ^ (513 : ℤ) := by
    by_contra hlt
    push Not at hlt
    have l : (2 : ℝ) ^ (1026 : ℤ) ≤ s.val * s.val := by
      rw [show (1026 : ℤ) = 513 + 513 by norm_num, zpow_add₀ (by norm_num)]
      exact mul_le_mul hlt hlt (two_zpow_pos _).le h0
    have := dblFmt.mono l
    have e := ieee_int (p := 53) (emin := -1022) (by norm_num) (by norm_num) 1 1026 (by norm_num) (by norm_num)
    rw [Int.cast_one, one_mul] at e
    rw [e, ← FP.val_mul] at this
    have := this.trans h'
    exact absurd (this.trans_lt dblMax_lt) (not_lt.2 (zpow_le_zpow_right₀ (by norm_num) (by norm_num)))
  have q1 : |s.val| ≤ dblMax := by
    rw [abs_of_nonneg h0]
    exact s1.le.trans ((zpow_le_zpow_right₀ (by norm_num) (by norm_num)).trans le_dblMax)
  have q2 : |(((2 : ℕ) : FP dblFmt) * s).val| ≤ dblMax := by
    have e2 : ((2 : ℕ) : FP dblFmt).val = 2 := by
      have := ieee_int (p := 53) (emin := -1022) (by norm_num) (by norm_num) 2 0 (by norm_num) (by norm_num)
      change dblFmt.rd ((2 : ℕ) : ℝ) = 2
      push_cast at this ⊢
      simpa using this
    rw [FP.val_mul, e2, abs_of_nonneg (by rw [← dblFmt.rd_zero]; exact dblFmt.mono (by positivity))]
    have l : 2 * s.val ≤ 2 ^ (514 : ℤ) := by
      rw [show (514 : ℤ) = 1 + 513 by norm_num, zpow_add₀ (by norm_num), zpow_one]; linarith
    have := dblFmt.mono l
    have e := ieee_int (p := 53) (emin := -1022) (by norm_num) (by norm_num) 1 514 (by norm_num) (by norm_num)
    rw [Int.cast_one, one_mul] at e
    rw [e] at this
    exact this.trans ((zpow_le_zpow_right₀ (by norm_num) (by norm_num)).trans le_dblMax)
  obtain ⟨-, b3, k3, e3, -⟩ := h3
  obtain ⟨-, b4, k4, e4, -⟩ := h4
  have m : UReal2.m (UReal2.buildStd u id n (ofFP dblMax s) T) 2 = some (ofFP dblMax (s * s)) := by
    rw [build_std, m2_single]
    congr 1
    have z : (0 : Dbl) = .fin 0 z0 := zero_eq one_le_dblMax
    have l2 : (lit 2 : Dbl) = ofFP dblMax ((2 : ℕ) : FP dblFmt) := rfl
    have two : |((2 : ℕ) : FP dblFmt).val| ≤ dblMax := by
      have := ieee_int (p := 53) (emin := -1022) (by norm_num) (by norm_num) 1 1 (by norm_num) (by norm_num)
      have e2 : ((2 : ℕ) : FP dblFmt).val = 2 := by
        change dblFmt.rd ((2 : ℕ) : ℝ) = 2
        simpa using this
      rw [e2, abs_of_pos two_pos]
      exact le_trans (le_trans (by norm_num) (zpow_le_zpow_right₀ (by norm_num) (by norm_num : (4 : ℤ) ≤ 1023))) le_dblMax
    have mz : ∀ (a : FP dblFmt) (h : |a.val| ≤ dblMax), (.fin a h : Dbl) * .fin 0 z0 = .fin 0 z0 := fun a h => by
      rw [fin_mul, show a * 0 = 0 from FP.ext (by rw [FP.val_mul, FP.val_zero, mul_zero, dblFmt.rd_zero]), ofFP_of_le z0]
    have zm : ∀ (a : FP dblFmt) (h : |a.val| ≤ dblMax), (.fin 0 z0 : Dbl) * .fin a h = .fin 0 z0 := fun a h => by
      rw [fin_mul, show 0 * a = 0 from FP.ext (by rw [FP.val_mul, FP.val_zero, zero_mul, dblFmt.rd_zero]), ofFP_of_le z0]
    have az : ∀ (a : FP dblFmt) (h : |a.val| ≤ dblMax), (.fin a h : Dbl) + .fin 0 z0 = .fin a h := fun a h => by
      rw [fin_add, show a + 0 = a from FP.ext (by rw [FP.val_add, FP.val_zero, add_zero, a.rep]), ofFP_of_le h]
    have za : ∀ (a : FP dblFmt) (h : |a.val| ≤ dblMax), (.fin 0 z0 : Dbl) + .fin a h = .fin a h := fun a h => by
      rw [fin_add, show 0 + a = a from FP.ext (by rw [FP.val_add, FP.val_zero, zero_add, a.rep]), ofFP_of_le h]
    have sz : ∀ (a : FP dblFmt) (h : |a.val| ≤ dblMax), (.fin a h : Dbl) - .fin 0 z0 = .fin a h := fun a h => by
      show ofFP dblMax (a - 0) = _
      rw [show a - 0 = a from FP.ext (by rw [FP.val_sub, FP.val_zero, sub_zero, a.rep]), ofFP_of_le h]
    have ss : (.fin s q1 : Dbl) * .fin s q1 = .fin (s * s) q := by rw [fin_mul, ofFP_of_le q]
    have s2 : (.fin _ two : Dbl) * .fin s q1 = .fin _ q2 := by rw [fin_mul, ofFP_of_le q2]
    simp only [m2A, UReal2.momOfArray, l2, ofFP_of_le q1, ofFP_of_le q, ofFP_of_le two, z, e3, e4, ss, s2, mz, zm, az, za, sz]
  rw [UReal2.s, m, Option.map_some, ofFP_of_le q, ofFP_of_le q1]
  congr 1
  show (if (s * s).val < 0 then Ext.nan else ofFP dblMax (CSqrt.sqrt (s * s))) = _
  rw [if_neg (by rw [FP.val_mul, not_lt, ← dblFmt.rd_zero]; exact dblFmt.mono (mul_nonneg h0 h0)), key, ofFP_of_le q1]

/-! ## examples -/

/-- an uncertainty of 3 in `double` -/
example (u : Moments (FP dblFmt)) : (UReal2.buildStd u 1 0 (qf 3 0) fun _ => 0).s = some (qf 3 0) := by
  have v : (qf 3 0).val = 3 := by rw [qf_val (by norm_num) (by norm_num)]; simp
  refine C94_uncertainty_partial _ _ u 1 0 (by rw [v]; norm_num) (.inr ?_) _
  rw [v]
  exact le_trans (zpow_le_one_of_nonpos₀ (by norm_num) (by norm_num)) (by norm_num)

/-- the variance 2 in `double` -/
example (u : Moments (FP dblFmt)) : (UReal2.buildCentral u 1 0 fun i => if i = 0 then qf 2 0 else 0).s = some (FP.round _ (Real.sqrt 2)) := by
  have v : (qf 2 0).val = 2 := by rw [qf_val (by norm_num) (by norm_num)]; simp
  have := C94_central_partial (p := 53) (emin := -1022) (by norm_num) (by norm_num) u 1 0 (c := fun i => if i = 0 then qf 2 0 else 0)
    (.inr (by rw [if_pos rfl, v]; exact le_trans (zpow_le_one_of_nonpos₀ (by norm_num) (by norm_num)) (by norm_num)))
  rwa [if_pos rfl, v] at this

/-- the central moments 5 (variance), 2 (third) and 80 (fourth) -/
example (u : Moments (FP binary64)) : ∃ a3, (UReal2.buildCentral u 1 0 fun i => FP.round _ (if i = 0 then 5 else if i = 1 then 2 else 80)).m 3 = some a3 ∧
    |a3.val - binary64.rd 2| ≤ ((1 / (1 - (1 / 2) ^ 53)) ^ 9 - 1) * |binary64.rd 2| := by
  have h1 := acc_double.err 5
  have h2 : 0 < binary64.rd 5 := by
    rw [abs_le] at h1
    have := h1.1
    norm_num at this
    linarith
  obtain ⟨a2, a3, a4, s, k, e, -, m3, -, -, -, -, -, b, -⟩ := C94_moments_partial acc_double u 1 0 (c := fun i => FP.round _ (if i = 0 then 5 else if i = 1 then 2 else 80)) h2
  exact ⟨a3, m3, b⟩

example (u : Moments (FP binary64)) : ∃ (g : FP binary64) (t : Moments (FP binary64)), Factor ((1 / 2) ^ 53) 13 t.v8.val (binary64.rd 5 / Real.sqrt (binary64.rd 5) ^ 8) ∧
    UReal2.buildCentral u 1 0 (fun _ => FP.round _ 5) = ⟨⟨[(1, ⟨g, 0, t⟩)], []⟩, 0⟩ := by
  have h1 := acc_double.err 5
  have h2 : 0 < binary64.rd 5 := by
    rw [abs_le] at h1
    have := h1.1
    norm_num at this
    linarith
  obtain ⟨g, t, e, -, -, -, -, -, -, h8⟩ := C94_stored_partial acc_double u 1 0 (c := fun _ => FP.round _ 5) h2
  exact ⟨g, t, h8, e⟩

/-- normal moments for the standard deviation `2 ^ -140` -/
example (u : Moments Dbl) : ∃ a, (UReal2.buildCentral u 1 0 fun i => if i = 0 then pd (-280) else if i = 2 then qd 3 (-560) else if i = 4 then qd 15 (-840) else 0).m 4 = some a ∧ ¬ Spec.Finite a :=
  C94_fourth_false u 1 0 (by rw [if_pos rfl])

example (u : Moments Dbl) : ∃ s, (UReal2.buildCentral u 1 0 fun i => if i = 0 then pd (-540) else 0).s = some s ∧ ¬ Spec.Finite s := by
  obtain ⟨a, s, -, e, -, h⟩ := C94_tiny_false u 1 0 (c := fun i => if i = 0 then pd (-540) else 0) (by rw [if_pos rfl])
  exact ⟨s, e, h⟩

example (u : Moments (FP dblFmt)) : ∃ a, (UReal2.buildCentral u 1 0 fun _ => qf 2 0).m 2 = some a ∧ a.val = 2 + 2 ^ (-51 : ℤ) :=
  C94_variance_false u 1 0 (by rw [qf_val (by norm_num) (by norm_num)]; simp)

example (u : Moments (FP dblFmt)) : ∃ a, (UReal2.buildStd u 1 0 (qf 1 (-540)) fun _ => 0).s = some a ∧ a.val = 0 := by
  obtain ⟨a, h, h0, -⟩ := C94_uncertainty_false u 1 0 fun _ => 0
  exact ⟨a, h, h0⟩

example (u : Moments Dbl) : (UReal2.buildStd u 1 0 (ofFP dblMax (qf 3 0)) fun _ => 1).s = some (ofFP dblMax (qf 3 0)) := by
  have v : (qf 3 0).val = 3 := by rw [qf_val (by norm_num) (by norm_num)]; simp
  refine C94_double_partial u 1 0 (by rw [v]; norm_num) (.inr ?_) ?_ ⟨1, 1, _, one_eq one_le_dblMax, rfl⟩ ⟨1, 1, _, one_eq one_le_dblMax, rfl⟩
  · rw [v]
    exact le_trans (zpow_le_one_of_nonpos₀ (by norm_num) (by norm_num)) (by norm_num)
  · rw [qf_mul (by norm_num) (by norm_num) (by norm_num) (by norm_num), qf_val (by norm_num) (by norm_num)]
    exact le_trans (le_trans (by norm_num) (zpow_le_zpow_right₀ (by norm_num) (by norm_num : (4 : ℤ) ≤ 1023))) le_dblMax

end Unc.Props
