import Verif.Props.PrecisionRatio
import Verif.Props.Units

/-!
# C96: the range of `float` at second order
-/

namespace Unc.Props
open Unc.Spec HessGrad SMap Mom Ext

/-- conversion to `float` of a number which it has -/
theorem conv_is {a : Dbl} {v : ℝ} (ha : Is a v) (h1 : fltFmt.rd v = v) (h2 : |v| ≤ fltMax) : Is (Ext.conv fltFmt fltMax a) v := by
  obtain ⟨a, ha, rfl, rfl⟩ := ha
  have e : (FP.conv fltFmt a).val = a.val := h1
  exact ⟨FP.conv fltFmt a, by rw [e]; exact h2, by rw [Ext.conv, Ext.ofFP_of_le], e⟩

theorem is_mul_zero {a : Dbl} {v : ℝ} (ha : Is a v) : a * 0 = 0 := by
  obtain ⟨a, ha, rfl, rfl⟩ := ha
  rw [zero_eq one_le_dblMax, fin_mul, show a * 0 = 0 from FP.ext (by rw [FP.val_mul, FP.val_zero, mul_zero, Fmt.rd_zero]), ofFP_of_le]

theorem is_add_zero {a : Dbl} {v : ℝ} (ha : Is a v) : a + 0 = a := by
  obtain ⟨a, ha, rfl, rfl⟩ := ha
  rw [zero_eq one_le_dblMax, fin_add, show a + 0 = a from FP.ext (by rw [FP.val_add, FP.val_zero, add_zero, a.rep]), ofFP_of_le ha]

theorem is_sub_zero {a : Dbl} {v : ℝ} (ha : Is a v) : a - 0 = a := by
  obtain ⟨a, ha, rfl, rfl⟩ := ha
  rw [zero_eq one_le_dblMax]
  show ofFP dblMax (a - 0) = _
  rw [show a - 0 = a from FP.ext (by rw [FP.val_sub, FP.val_zero, sub_zero, a.rep]), ofFP_of_le ha]

theorem qd_is {N k : ℤ} (e : ℕ) (hN : |N| < 2 ^ 53) (hk : -1074 ≤ k) (h1 : |N| ≤ 2 ^ e) (h2 : e + k ≤ 1023) : Is (qd N k) (N * 2 ^ k) :=
  ⟨_, qd_fin e hN hk h1 h2, ofFP_of_le _, qf_val hN hk⟩

/-- a variable which is ± 2^32 with equal probability -/
noncomputable def exCoin32 : UReal2 Dbl := ⟨⟨[(1, ⟨pd 32, 0, ⟨0, 1, 0, 1, 0, 1⟩⟩)], []⟩, 0⟩

theorem exCoin32_m4 : exCoin32.m 2 = some (pd 64) ∧ exCoin32.m 4 = some (pd 128) := by
  have l : ∀ n : ℕ, (lit n : Dbl) = qd n 0 := fun n => by
    simp only [lit, qd, qf]
    rw [zpow_zero, mul_one]; rfl
  have z0 : (0 : Dbl) * 0 = 0 := is_mul_zero is_zero
  have ent : ∀ d : Diag Dbl, HessGrad.triEntries ⟨[(1, d)], []⟩ false = some [] := fun d => rfl
  have ent' : ∀ d : Diag Dbl, HessGrad.triEntries ⟨[(1, d)], []⟩ true = some [] := fun d => rfl
  have p : ∀ k : ℤ, -1074 ≤ k → k ≤ 1023 → pd k * 1 = pd k := fun k h h' => by rw [one_pd, pd_mul h h' (by norm_num) (by norm_num), add_zero]
  have i0 : (0 : Dbl) * 1 = 0 := by rw [one_pd]; exact zero_mul_pd (by norm_num) (by norm_num)
  have q : ∀ N k : ℤ, |N| ≤ 2 ^ 3 → -1074 ≤ k → k ≤ 900 → qd N k * pd 32 = qd N (k + 32) := fun N k h h' h'' => by
    rw [pd, qd_mul (lt_of_le_of_lt h (by norm_num)) h' (by norm_num) (by norm_num) (qd_fin 3 (lt_of_le_of_lt h (by norm_num)) h' h (by push_cast; omega)) (pf_le (by norm_num) (by norm_num)), mul_one]
  have qz : ∀ N k : ℤ, |N| ≤ 2 ^ 3 → -1074 ≤ k → k ≤ 900 → qd N k * 0 = 0 := fun N k h h' h'' => is_mul_zero (qd_is 3 (lt_of_le_of_lt h (by norm_num)) h' h (by push_cast; omega))
  have az : ∀ k : ℤ, -1074 ≤ k → k ≤ 1023 → pd k + 0 = pd k := fun k h h' => is_add_zero (pd_is h h')
  have sz : ∀ k : ℤ, -1074 ≤ k → k ≤ 1023 → pd k - 0 = pd k := fun k h h' => is_sub_zero (pd_is h h')
  have s0 : (0 : Dbl) - 0 = 0 := is_sub_zero is_zero
  have zq : ∀ N k : ℤ, |N| ≤ 2 ^ 3 → -1074 ≤ k → k ≤ 900 → 0 * qd N k = 0 := fun N k h h' h'' => by
    have := qd_mul (N := 0) (k := 0) (N' := N) (k' := k) (by norm_num) (by norm_num) (lt_of_le_of_lt h (by norm_num)) h' (by rw [qf_zero]; simpa using (zero_le_one.trans one_le_dblMax)) (qd_fin 3 (lt_of_le_of_lt h (by norm_num)) h' h (by push_cast; omega))
    simpa only [zero_mul, qd_zero] using this
  have qp : ∀ N k : ℤ, |N| ≤ 2 ^ 3 → -1074 ≤ k → k ≤ 900 → qd N 0 * pd k = qd N k := fun N k h h' h'' => by
    rw [pd, qd_mul (lt_of_le_of_lt h (by norm_num)) (by norm_num) (by norm_num) h' (qd_fin 3 (lt_of_le_of_lt h (by norm_num)) (by norm_num) h (by norm_num)) (pf_le h' (by omega)), mul_one, zero_add]
  have qa : ∀ N k : ℤ, |N| ≤ 2 ^ 3 → -1074 ≤ k → k ≤ 900 → qd N k + 0 = qd N k := fun N k h h' h'' => is_add_zero (qd_is 3 (lt_of_le_of_lt h (by norm_num)) h' h (by push_cast; omega))
  constructor
  · simp (disch := norm_num) [exCoin32, UReal2.m, UReal2.momArray, UReal2.updateMom, Mom.compute, Mom.m1, Mom.m2, Mom.m2A, ent, l, q, qz, z0, i0, p, az, sz, dbl_zero_add, zero_add_pd, pd_mul]
  · simp (disch := norm_num) [exCoin32, UReal2.m, UReal2.momArray, UReal2.updateMom, Mom.compute, Mom.m1, Mom.m2, Mom.m2A, Mom.m3, Mom.m3A, Mom.m4, Mom.m4A, forTails, ent, ent', l, q, qz, z0, i0, p, az, sz, s0, dbl_zero_add,
      zero_add_pd, pd_mul, zq, qp, qa]

/-- **C96**, what fails at second order: a variable which is ± 2^32 with equal probability has kurtosis 1 in `double`, and no kurtosis after the conversion to `float`, though mean, uncertainty and moments of the variable are the same numbers in both types. -/
theorem C96_kurt_false (u : Moments Flt) : exCoin32.kurt = some 1 ∧ ¬ KurtFound (exCoin32.convert u (Ext.conv fltFmt fltMax)) ∧
    ∃ s2, (exCoin32.convert u (Ext.conv fltFmt fltMax)).m 2 = some s2 ∧ Is s2 (2 ^ 64) := by
  have r : ∀ k : ℤ, -149 ≤ k → k ≤ 127 → fltFmt.rd (2 ^ k) = 2 ^ k ∧ (2 : ℝ) ^ k ≤ fltMax := fun k h h' => by
    refine ⟨by simpa using ieee_int (p := 24) (emin := -126) (by norm_num) (by norm_num) 1 k (by norm_num) (by push_cast; omega), ?_⟩
    obtain ⟨a, ha, -, e⟩ := flt_is h h'
    rwa [e, abs_of_pos (two_zpow_pos _)] at ha
  have M0 : (0 : ℝ) ≤ fltMax := by simpa using zero_le_one.trans (r 0 (by norm_num) (by norm_num)).2
  have z : Is (0 : Flt) 0 := ⟨_, _, Ext.zero_eq (by simpa using (r 0 (by norm_num) (by norm_num)).2), rfl⟩
  have l2 : Is (Mom.lit 2 : Flt) 2 := by
    have := flt_is (k := 1) (by norm_num) (by norm_num)
    rw [zpow_one] at this
    exact this
  have c0 : Ext.conv fltFmt fltMax (0 : Dbl) = 0 := by
    rw [zero_eq one_le_dblMax, Ext.conv, convFP_zero]; rfl
  have i1 : Is (Ext.conv fltFmt fltMax (1 : Dbl)) (2 ^ (0 : ℤ)) := conv_is (by rw [one_pd]; exact pd_is (by norm_num) (by norm_num)) (r 0 (by norm_num) (by norm_num)).1
    (by rw [abs_of_pos (two_zpow_pos _)]; exact (r 0 (by norm_num) (by norm_num)).2)
  have i32 : Is (Ext.conv fltFmt fltMax (pd 32)) (2 ^ (32 : ℤ)) := conv_is (pd_is (by norm_num) (by norm_num)) (r 32 (by norm_num) (by norm_num)).1
    (by rw [abs_of_pos (two_zpow_pos _)]; exact (r 32 (by norm_num) (by norm_num)).2)
  have e : exCoin32.convert u (Ext.conv fltFmt fltMax) = ⟨⟨[(1, ⟨Ext.conv fltFmt fltMax (pd 32), 0,
      ⟨0, Ext.conv fltFmt fltMax (1 : Dbl), 0, Ext.conv fltFmt fltMax (1 : Dbl), 0, Ext.conv fltFmt fltMax (1 : Dbl)⟩⟩)], []⟩, 0⟩ := by
    rw [uconvert_eq u _ (show exCoin32.hg.Valid from ⟨List.pairwise_singleton _ _, .nil, by simp [exCoin32, SMap.keys]⟩)]
    simp [exCoin32, Unc.mapU, mapHG, SMap.mapVal, mapD, mapM, c0]
  obtain ⟨s2, h2, h⟩ := indep_m2 (k := 32) 0 1 ⟨0, Ext.conv fltFmt fltMax (1 : Dbl), 0, Ext.conv fltFmt fltMax (1 : Dbl), 0, Ext.conv fltFmt fltMax (1 : Dbl)⟩ rfl rfl i32 z i1 z l2
    (r _ (by norm_num) (by norm_num)).1 (r _ (by norm_num) (by norm_num)).2 (r _ (by norm_num) (by norm_num)).1 (r _ (by norm_num) (by norm_num)).2
  refine ⟨?_, ?_, s2, by rw [e]; exact h2, by convert h using 1; norm_num⟩
  · rw [UReal2.kurt, exCoin32_m4.1, exCoin32_m4.2]
    simp only [Option.bind_some, Option.map_some, Option.some_inj]
    rw [pd_mul (by norm_num) (by norm_num) (by norm_num) (by norm_num), show (64 + 64 : ℤ) = 128 by norm_num]
    rw [pd, qd, Ext.ofFP_of_le (pf_le (by norm_num) (by norm_num)), Ext.div_def, Ext.div']
    have v : (qf 1 128).val = 2 ^ (128 : ℤ) := by rw [qf_val (by norm_num) (by norm_num)]; simp
    rw [if_neg (by rw [v]; exact (two_zpow_pos _).ne')]
    have : qf 1 128 / qf 1 128 = 1 := FP.ext (by rw [FP.val_div, v, div_self (two_zpow_pos _).ne', Fmt.one]; rfl)
    rw [this]; rfl
  · rw [e]
    exact C79_float_false h2 h (Or.inl (by norm_num))

/-- with all moments of new variables zero -/
example : ∃ x : UReal2 Dbl, x.kurt = some 1 ∧ ¬ KurtFound (x.convert ⟨0, 0, 0, 0, 0, 0⟩ (Ext.conv fltFmt fltMax)) :=
  ⟨_, (C96_kurt_false ⟨0, 0, 0, 0, 0, 0⟩).1, (C96_kurt_false _).2.1⟩

end Unc.Props
