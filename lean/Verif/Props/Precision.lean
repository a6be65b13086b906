import Verif.Model.Precision
import Verif.Spec.Precision
import Verif.Lemmas.FloatMatrix
import Verif.Lemmas.TrackBin
import Verif.Props.FirstOrder
import Verif.Props.Convert
import Verif.Props.FloatMatrix
import Verif.Props.FloatCtor
import Verif.Props.Moments
import Verif.Props.Error2

/-!
# C96: conversion between types of different precision

`UReal<double>` and `UReal<float>` convert into one another, "preserving all the correlations" (uncertainties/ureal.hpp:474-479).  The full statement is that the correlations are those before the conversion but for the
rounding.  It is false in `float` and `double` because of the range (C96_false, C96_infinite_false).  The theorems named `_partial` are about formats without a limit on the exponents.
-/

namespace Unc.Props
open Unc.Spec UReal FP

variable {f g : Fmt} {v : ℝ}

theorem convFP_zero : FP.conv g (0 : FP f) = 0 := FP.ext (by show g.rd (0 : FP f).val = 0; rw [val_zero, Fmt.rd_zero])

theorem convert_mapU {R S : Type*} [Zero R] [Zero S] (c : R → S) {x : UReal R} (hx : x.WF) : x.convert c = UReal.mapU c x := convert_eq c hx

/-- what is stored after the conversion -/
theorem exactL_conv {x : UReal (FP f)} (hx : x.WF) : exactL (x.convert (FP.conv g)) = ⟨g.rd x.mu.val, x.deps, fun i => g.rd (x.coef i).val⟩ := by
  rw [convert_mapU _ hx, exactL, deps_mapU]
  congr 1
  funext i
  rw [coef_mapU convFP_zero]
  rfl

theorem wf_conv {x : UReal (FP f)} (hx : x.WF) : (x.convert (FP.conv g)).WF := by
  rw [convert_mapU _ hx]; exact wf_mapU convFP_zero hx

theorem deps_conv {x : UReal (FP f)} (hx : x.WF) : (x.convert (FP.conv g)).deps = x.deps := by
  rw [convert_mapU _ hx, deps_mapU]

/-- **C96** The conversion to a type which has all the numbers of the first one loses nothing: mean, coefficients and so all exact covariances are the same, and the conversion back gives the identical value. -/
theorem C96_widen (h : Wider f g) {x : UReal (FP f)} (hx : x.WF) :
    exactL (x.convert (FP.conv g)) = exactL x ∧ (x.convert (FP.conv g)).convert (FP.conv f) = x := by
  constructor
  · rw [exactL_conv hx, exactL, h _ x.mu.rep]
    congr 1
    funext i
    exact h _ (x.coef i).rep
  · rw [convert_mapU _ (wf_conv hx), convert_mapU _ hx]
    have e : ∀ a : FP f, FP.conv f (FP.conv g a) = a := fun a => FP.ext (by show f.rd (g.rd a.val) = a.val; rw [h _ a.rep, a.rep])
    obtain ⟨i, s, m, l⟩ := x
    simp only [UReal.mapU, SMap.mapVal, e, List.map_map, Function.comp_def]
    congr 1
    exact List.map_id'' (fun _ => rfl) l

/-- **C96** The same at second order, in both modes of propagation. -/
theorem C96_widen2 (h : Wider f g) (u : Moments (FP g)) (u' : Moments (FP f)) {x : UReal2 (FP f)} (hx : x.hg.Valid) :
    numbers FP.val (x.convert u (FP.conv g)) = numbers FP.val x ∧ (x.convert u (FP.conv g)).convert u' (FP.conv f) = x := by
  have hv : (x.convert u (FP.conv g)).hg.Valid := (C60_structure u (FP.conv g) hx).1
  have e : ∀ a : FP f, FP.conv f (FP.conv g a) = a := fun a => FP.ext (by show f.rd (g.rd a.val) = a.val; rw [h _ a.rep, a.rep])
  have e1 : ∀ a : FP f, (FP.conv g a).val = a.val := fun a => h _ a.rep
  constructor
  · rw [uconvert_eq u _ hx]
    obtain ⟨⟨d, t⟩, m⟩ := x
    simp [numbers, Unc.mapU, mapHG, SMap.mapVal, mapD, mapM, e1]
  · rw [uconvert_eq u' _ hv, uconvert_eq u _ hx, mapU_mapU]
    exact mapU_id e x

/-- the change of the terms -/
theorem conv_term (hv : Acc g.rd v) (a b : ℝ) : |g.rd a * g.rd b - a * b| ≤ ((1 + v) ^ 2 - 1) * |a * b| := by
  have v0 := hv.nonneg
  have h1 := hv.err a
  have h2 := hv.err b
  have e : g.rd a * g.rd b - a * b = (g.rd a - a) * b + a * (g.rd b - b) + (g.rd a - a) * (g.rd b - b) := by ring
  have t1 : |(g.rd a - a) * b| ≤ v * |a * b| := by
    rw [abs_mul, abs_mul, ← mul_assoc]; exact mul_le_mul_of_nonneg_right h1 (abs_nonneg _)
  have t2 : |a * (g.rd b - b)| ≤ v * |a * b| := by
    rw [abs_mul, abs_mul]
    have := mul_le_mul_of_nonneg_left h2 (abs_nonneg a)
    linarith
  have t3 : |(g.rd a - a) * (g.rd b - b)| ≤ v * v * |a * b| := by
    rw [abs_mul, abs_mul]
    have := mul_le_mul h1 h2 (abs_nonneg _) (mul_nonneg v0 (abs_nonneg a))
    linarith
  rw [e]
  have := abs_add_three ((g.rd a - a) * b) (a * (g.rd b - b)) ((g.rd a - a) * (g.rd b - b))
  nlinarith

theorem conv_cov (hv : Acc g.rd v) {x y : UReal (FP f)} (hx : x.WF) (hy : y.WF) :
    |(exactL (x.convert (FP.conv g))).cov (exactL (y.convert (FP.conv g))) - (exactL x).cov (exactL y)| ≤ ((1 + v) ^ 2 - 1) * absCov (exactL x) (exactL y) ∧
      absCov (exactL (x.convert (FP.conv g))) (exactL (y.convert (FP.conv g))) ≤ (1 + v) ^ 2 * absCov (exactL x) (exactL y) := by
  rw [exactL_conv hx, exactL_conv hy]
  unfold LinForm.cov absCov exactL
  dsimp only
  constructor
  · rw [← Finset.sum_sub_distrib, Finset.mul_sum]
    exact (Finset.abs_sum_le_sum_abs _ _).trans (Finset.sum_le_sum fun i _ => conv_term hv _ _)
  · rw [Finset.mul_sum]
    refine Finset.sum_le_sum fun i _ => ?_
    have := conv_term hv (x.coef i).val (y.coef i).val
    have h2 := abs_sub_abs_le_abs_sub (g.rd (x.coef i).val * g.rd (y.coef i).val) ((x.coef i).val * (y.coef i).val)
    linarith

/-- **C96** The covariances after the conversion to a type of relative error `v`: two more roundings than those of a calculation of the covariance in the new type. -/
theorem C96_cov_partial (hv : Acc g.rd v) {x y : UReal (FP f)} (hx : x.WF) (hy : y.WF) :
    |(cov (x.convert (FP.conv g)) (y.convert (FP.conv g))).val - (exactL x).cov (exactL y)| ≤ ((1 + v) ^ ((x.deps ∩ y.deps).card + 2) - 1) * absCov (exactL x) (exactL y) := by
  have v0 := hv.nonneg
  have h1 := C61_cov hv (wf_conv (g := g) hx) (wf_conv (g := g) hy)
  obtain ⟨h2, h3⟩ := conv_cov hv hx hy
  rw [deps_conv hx, deps_conv hy] at h1
  have one : 1 ≤ (1 + v) ^ (x.deps ∩ y.deps).card := one_le_pow₀ (by linarith)
  have h4 := mul_le_mul_of_nonneg_left h3 (by linarith : 0 ≤ (1 + v) ^ (x.deps ∩ y.deps).card - 1)
  have h5 := abs_sub_le (cov (x.convert (FP.conv g)) (y.convert (FP.conv g))).val ((exactL (x.convert (FP.conv g))).cov (exactL (y.convert (FP.conv g)))) ((exactL x).cov (exactL y))
  rw [pow_add]
  nlinarith

theorem conv_var (hv : Acc g.rd v) {x : UReal (FP f)} (hx : x.WF) :
    (1 - v) ^ 2 * (exactL x).var ≤ (exactL (x.convert (FP.conv g))).var ∧ (exactL (x.convert (FP.conv g))).var ≤ (1 + v) ^ 2 * (exactL x).var := by
  have v0 := hv.nonneg
  have v1 := hv.lt
  have key : ∀ a, (1 - v) ^ 2 * (a * a) ≤ g.rd a * g.rd a ∧ g.rd a * g.rd a ≤ (1 + v) ^ 2 * (a * a) := by
    intro a
    have h := abs_le.1 (abs_sub_abs_le_abs_sub (g.rd a) a |>.trans (hv.err a) |> fun h1 => abs_le.2 ⟨by
      have := abs_sub_abs_le_abs_sub a (g.rd a)
      rw [abs_sub_comm] at this
      linarith [hv.err a], h1⟩)
    have a0 := abs_nonneg a
    have r0 := abs_nonneg (g.rd a)
    rw [← abs_mul_abs_self a, ← abs_mul_abs_self (g.rd a)]
    have p1 : 0 ≤ (1 - v) * |a| := mul_nonneg (by linarith) a0
    have l1 : (1 - v) * |a| ≤ |g.rd a| := by linarith [h.1]
    have l2 : |g.rd a| ≤ (1 + v) * |a| := by linarith [h.2]
    constructor
    · calc (1 - v) ^ 2 * (|a| * |a|) = ((1 - v) * |a|) * ((1 - v) * |a|) := by ring
        _ ≤ _ := mul_le_mul l1 l1 p1 r0
    · calc |g.rd a| * |g.rd a| ≤ ((1 + v) * |a|) * ((1 + v) * |a|) := mul_le_mul l2 l2 r0 (mul_nonneg (by linarith) a0)
        _ = _ := by ring
  rw [exactL_conv hx]
  unfold LinForm.var exactL
  dsimp only
  rw [Finset.mul_sum, Finset.mul_sum]
  exact ⟨Finset.sum_le_sum fun i _ => (key _).1, Finset.sum_le_sum fun i _ => (key _).2⟩

theorem conv_sd (hv : Acc g.rd v) {x : UReal (FP f)} (hx : x.WF) : Factor v 1 (Real.sqrt (exactL (x.convert (FP.conv g))).var) (Real.sqrt (exactL x).var) := by
  have v0 := hv.nonneg
  have v1 := hv.lt
  have d : 0 < 1 - v := by linarith
  obtain ⟨a, b⟩ := conv_var hv hx
  rcases (varE_nonneg (exactL x)).eq_or_lt with h | h
  · rw [← h, mul_zero] at b
    refine ⟨1, one_pos, by rw [pow_one]; exact one_le_fac hv, by rw [pow_one, one_mul]; exact one_le_fac hv, ?_⟩
    rw [← h, le_antisymm b (varE_nonneg _), Real.sqrt_zero, mul_zero]
  · have r0 := Real.sqrt_pos.2 h
    have l1 := Real.sqrt_le_sqrt a
    have l2 := Real.sqrt_le_sqrt b
    rw [Real.sqrt_mul (sq_nonneg _), Real.sqrt_sq d.le] at l1
    rw [Real.sqrt_mul (sq_nonneg _), Real.sqrt_sq (by linarith)] at l2
    refine ⟨Real.sqrt (exactL (x.convert (FP.conv g))).var / Real.sqrt (exactL x).var, div_pos (lt_of_lt_of_le (mul_pos d r0) l1) r0, ?_, ?_, by field_simp⟩
    · rw [div_le_iff₀ r0, pow_one]
      refine l2.trans (mul_le_mul_of_nonneg_right ?_ r0.le)
      rw [le_div_iff₀ d]; nlinarith
    · rw [pow_one, mul_one_div, div_div, le_div_iff₀ (mul_pos r0 d), one_mul]
      linarith

theorem conv_unset (hv : Acc g.rd v) {x : UReal (FP f)} (h : 0 ≤ x.id ∨ x.sdev.val < 0) : 0 ≤ (x.convert (FP.conv g)).id ∨ (x.convert (FP.conv g)).sdev.val < 0 := by
  refine h.imp (fun h => h) fun h => ?_
  change g.rd x.sdev.val < 0
  obtain ⟨ρ, ρ0, -, -, e⟩ := fac_rd hv x.sdev.val
  rw [e]
  exact mul_neg_of_pos_of_neg ρ0 h

/-- **C96** The uncertainty after the conversion, if it is computed after it. -/
theorem C96_sdev_partial (hv : Acc g.rd v) {x : UReal (FP f)} (hx : x.WF) (h : 0 ≤ x.id ∨ x.sdev.val < 0) :
    (1 - v) ^ (x.deps.card + 4) * (exactL x).var ≤ (x.convert (FP.conv g)).s.val ^ 2 ∧ (x.convert (FP.conv g)).s.val ^ 2 ≤ (1 + v) ^ (x.deps.card + 4) * (exactL x).var := by
  have v0 := hv.nonneg
  have v1 := hv.lt
  obtain ⟨a, b⟩ := conv_var hv hx
  obtain ⟨c, d⟩ := C61_s hv (wf_conv (g := g) hx) (conv_unset hv h)
  rw [deps_conv hx] at c d
  have e : ∀ t : ℝ, t ^ (x.deps.card + 4) = t ^ (x.deps.card + 2) * t ^ 2 := fun t => by ring
  rw [e, e, mul_assoc, mul_assoc]
  exact ⟨(mul_le_mul_of_nonneg_left a (pow_nonneg (by linarith) _)).trans c, d.trans (mul_le_mul_of_nonneg_left b (pow_nonneg (by linarith) _))⟩

/-- **C96** The uncertainty after the conversion, if it was asked for before: it is the conversion of that number, in every format. -/
theorem C96_cached (x : UReal (FP f)) : (x.sCache.2.convert (FP.conv g)).s = FP.conv g x.s := by
  rw [← (C61_s_again x).2.1]
  have h : 0 ≤ x.sCache.2.id ∨ 0 ≤ x.sCache.2.sdev.val := by
    by_cases h0 : x.id ≥ 0
    · left; unfold sCache; rw [if_pos h0]; exact h0
    · right
      have hn := (C61_nonneg x).2.2.2.1
      unfold sCache at hn ⊢
      rw [if_neg h0] at hn ⊢
      exact hn
  generalize x.sCache.2 = y at h
  have i : (y.convert (FP.conv g)).id = y.id := rfl
  have sd : (y.convert (FP.conv g)).sdev = FP.conv g y.sdev := rfl
  by_cases h0 : y.id ≥ 0
  · rw [UReal.s, UReal.s, i, sd, if_pos h0, if_pos h0]
    apply FP.ext
    change |g.rd y.sdev.val| = g.rd |y.sdev.val|
    rcases le_total 0 y.sdev.val with h1 | h1
    · rw [abs_of_nonneg h1, abs_of_nonneg]
      have := g.mono h1
      rwa [Fmt.rd_zero] at this
    · rw [abs_of_nonpos h1, abs_of_nonpos, g.odd]
      have := g.mono h1
      rwa [Fmt.rd_zero] at this
  · have h1 := h.resolve_left h0
    have h2 : 0 ≤ (FP.conv g y.sdev).val := by
      have := g.mono h1
      rwa [Fmt.rd_zero] at this
    rw [UReal.s, UReal.s, i, sd, if_neg h0, if_neg h0, if_pos ((leb_fp _ _).2 h2), if_pos ((leb_fp _ _).2 h1)]

/-- **C96** The correlations are preserved but for the rounding: `2 K + 8` roundings of the new type, if each value has at most `K` variables and no uncertainty is zero. -/
theorem C96_corr_partial (hv : Acc g.rd v) {x y : UReal (FP f)} (hx : x.WF) (hy : y.WF) (hx' : 0 ≤ x.id ∨ x.sdev.val < 0) (hy' : 0 ≤ y.id ∨ y.sdev.val < 0) {K : ℕ} (hK : x.deps.card ≤ K)
    (hK' : y.deps.card ≤ K) (h0 : 0 < (exactL x).var) (h1 : 0 < (exactL y).var) :
    |(corr (x.convert (FP.conv g)) (y.convert (FP.conv g))).val - (exactL x).cov (exactL y) / (Real.sqrt (exactL x).var * Real.sqrt (exactL y).var)| ≤
      (1 / (1 - v)) ^ (K + 6) * (1 + v) ^ (K + 2) - 1 := by
  have v0 := hv.nonneg
  have ha : |(exactL x).cov (exactL y)| ≤ Real.sqrt (exactL x).var * Real.sqrt (exactL y).var := (abs_cov_le_absCov _ _).trans (absCov_le_sqrt _ _)
  have hc : |(cov (x.convert (FP.conv g)) (y.convert (FP.conv g))).val - (exactL x).cov (exactL y)| ≤ ((1 + v) ^ (K + 2) - 1) * (Real.sqrt (exactL x).var * Real.sqrt (exactL y).var) := by
    refine (C96_cov_partial hv hx hy).trans ?_
    have h1 : 1 ≤ 1 + v := by linarith
    have hc : (x.deps ∩ y.deps).card ≤ K := (Finset.card_le_card Finset.inter_subset_left).trans hK
    have h2 := pow_le_pow_right₀ h1 (Nat.add_le_add_right hc 2)
    exact mul_le_mul (by linarith) (absCov_le_sqrt x y) (absCov_nonneg _ _) (by linarith [one_le_pow₀ h1 (n := K + 2)])
  have pf := prod_fac hv (wf_conv (g := g) hx) (wf_conv (g := g) hy) (conv_unset hv hx') (conv_unset hv hy') (K := K) (by rwa [deps_conv hx]) (by rwa [deps_conv hy])
  have pf' : Factor v (K + 5) ((x.convert (FP.conv g)).s * (y.convert (FP.conv g)).s).val (Real.sqrt (exactL x).var * Real.sqrt (exactL y).var) :=
    fac_mono hv (fac_trans hv pf (fac_mul hv (conv_sd hv hx) (conv_sd hv hy))) (by omega)
  exact ratio_near hv (mul_pos (Real.sqrt_pos.2 h0) (Real.sqrt_pos.2 h1)) ha hc pf'

/-! ## second order -/

/-- a number and its conversion -/
noncomputable def liftC (hv : Acc g.rd v) (a : FP f) : Tr g v hv := ⟨FP.conv g a, a.val, |a.val|, some 1, le_rfl, by
  show |g.rd a.val - a.val| ≤ ((1 + v) ^ 1 - 1) * |a.val|
  rw [pow_one, add_sub_cancel_left]; exact hv.err _⟩

theorem few_liftC (hv : Acc g.rd v) (a : FP f) : Tr.Few (liftC hv a) 1 := cle_some le_rfl

/-- the conversion of a value of second order, its numbers and their magnitudes -/
theorem conv_tr (hv : Acc g.rd v) (u : Moments (FP g)) {x : UReal2 (FP f)} (hx : Ok2 x) : ∃ Z : UReal2 (Tr g v hv), Ok2 Z ∧ HFew 1 1 Z.hg ∧ Tr.Few Z.mu 1 ∧
    x.convert u (FP.conv g) = Unc.mapU Tr.v Z ∧ numbers FP.val x = Unc.mapU Tr.t Z ∧ numbers (fun a => |a.val|) x = Unc.mapU Tr.w Z ∧
    x.hg.diagmap.length = Z.hg.diagmap.length ∧ x.hg.trimap.length = Z.hg.trimap.length := by
  refine ⟨Unc.mapU (liftC hv) x, ok_mapU _ hx, ⟨fun p hp => ?_, fun p hp => ?_⟩, few_liftC hv _, ?_, ?_, ?_, by simp [Unc.mapU, mapHG, SMap.mapVal], by simp [Unc.mapU, mapHG, SMap.mapVal]⟩
  · obtain ⟨q, -, rfl⟩ := List.mem_map.1 hp
    exact ⟨few_liftC hv _, few_liftC hv _, few_liftC hv _, few_liftC hv _, few_liftC hv _, few_liftC hv _, few_liftC hv _, few_liftC hv _⟩
  · obtain ⟨q, -, rfl⟩ := List.mem_map.1 hp
    exact few_liftC hv _
  · rw [uconvert_eq u _ hx.valid, mapU_mapU]; rfl
  · rw [mapU_mapU]; rfl
  · rw [mapU_mapU]; rfl

/-- **C96** The central moments of a value of second order after the conversion: in comparison with the calculation of the moments in the new type one more rounding of each number which is stored. -/
theorem C96_moments_partial (hv : Acc g.rd v) (u : Moments (FP g)) {x : UReal2 (FP f)} (hx : Ok2 x) {n : ℕ} (hn : 1 ≤ n ∧ n ≤ 4) :
    ∃ a A W, (x.convert u (FP.conv g)).m n = some a ∧ (numbers FP.val x).m n = some A ∧ magnitude (numbers (fun a => |a.val|) x) n = some W ∧ |A| ≤ W ∧
      |a.val - A| ≤ relErr v (n + 2 + momRounds x.hg.diagmap.length x.hg.trimap.length n) * W := by
  obtain ⟨Z, oZ, fZ, -, e1, e2, e3, hN, hT⟩ := conv_tr hv u hx
  rw [e1, e2, e3, hN, hT]
  obtain ⟨A, hA⟩ := Option.isSome_iff_exists.1 (m_isSome (ok_mapU Tr.t oZ) hn)
  have := m_hom Tr.t_hom Z n
  rw [hA] at this
  obtain ⟨a, ha, rfl⟩ := Option.map_eq_some_iff.1 this.symm
  refine ⟨a.v, a.t, a.w, by rw [m_hom Tr.v_hom, ha]; rfl, hA, mag_m Z ha, a.rough.1, ?_⟩
  have k := cen_fewM oZ.valid fZ ha
  rw [cenAdds_eq] at k
  have h2 : momAdds 1 n ≤ 2 := by unfold momAdds; split <;> omega
  exact a.err (k.mono (by omega))

/-- **C96** `n()` in both modes of propagation, after the conversion. -/
theorem C96_mean_partial (hv : Acc g.rd v) (u : Moments (FP g)) {x : UReal2 (FP f)} (hx : Ok2 x) (p : PropMode) :
    ∃ a A W, (x.convert u (FP.conv g)).n p = some a ∧ (numbers FP.val x).n p = some A ∧ magnitude (numbers (fun a => |a.val|) x) 1 = some W ∧
      |a.val - A| ≤ relErr v (x.hg.diagmap.length + 2) * (|x.mu.val| + W) := by
  obtain ⟨Z, oZ, fZ, fm, e1, e2, e3, hN, hT⟩ := conv_tr hv u hx
  have hmu : |x.mu.val| = Z.mu.w := congrArg UReal2.mu e3
  rw [e1, e2, e3, hN, hmu]
  obtain ⟨A, hA⟩ := Option.isSome_iff_exists.1 (m_isSome (ok_mapU Tr.t oZ) (n := 1) (by norm_num))
  have := m_hom Tr.t_hom Z 1
  rw [hA] at this
  obtain ⟨a, ha, rfl⟩ := Option.map_eq_some_iff.1 this.symm
  have hv' : (Unc.mapU Tr.v Z).m 1 = some a.v := by rw [m_hom Tr.v_hom, ha]; rfl
  have k := cen_fewM oZ.valid fZ ha
  rw [cenAdds_eq, momRounds, momAdds] at k
  have kz := fm.mono (Nat.le_add_left 1 Z.hg.diagmap.length)
  have k' := k.mono (L := Z.hg.diagmap.length + 1) (by omega)
  cases p with
  | est =>
    refine ⟨(Z.mu - a).v, (Z.mu - a).t, a.w, ?_, ?_, mag_m Z ha, (Z.mu - a).err (kz.sub k')⟩
    · rw [UReal2.n, hv']
      refine congrArg some (FP.ext ?_)
      show g.rd (Z.mu.v.val + -a.v.val) = g.rd (Z.mu.v.val - a.v.val)
      rw [sub_eq_add_neg]
    · rw [UReal2.n, hA]
      exact congrArg some (sub_eq_add_neg _ _).symm
  | mean =>
    refine ⟨(Z.mu + a).v, (Z.mu + a).t, a.w, ?_, ?_, mag_m Z ha, (Z.mu + a).err (kz.add k')⟩
    · rw [UReal2.n, hv']; rfl
    · rw [UReal2.n, hA]; rfl

/-- **C96** Covariances of values of second order after the conversion. -/
theorem C96_cov2_partial (hv : Acc g.rd v) (u : Moments (FP g)) {x y : UReal2 (FP f)} (hx : Ok2 x) (hy : Ok2 y) :
    ∃ a A W, UReal2.cov (x.convert u (FP.conv g)) (y.convert u (FP.conv g)) = some a ∧ UReal2.cov (numbers FP.val x) (numbers FP.val y) = some A ∧
      magnitudeCov (numbers (fun a => |a.val|) x) (numbers (fun a => |a.val|) y) = some W ∧ |A| ≤ W ∧
      |a.val - A| ≤ relErr v (3 + covRounds x.hg.diagmap.length x.hg.trimap.length y.hg.diagmap.length) * W := by
  obtain ⟨Z, oZ, fZ, -, e1, e2, e3, hN, hT⟩ := conv_tr hv u hx
  obtain ⟨Z', oZ', fZ', -, e1', e2', e3', hN', -⟩ := conv_tr hv u hy
  rw [e1, e2, e3, hN, hT, e1', e2', e3', hN']
  have h0 := Mom.cov_form (ok_mapU Tr.t oZ).valid (ok_mapU Tr.t oZ').valid (Finset.subset_union_left (s₂ := (Unc.mapU Tr.t Z').hg.vars)) Finset.subset_union_right
  rw [cov_hom Tr.t_hom] at h0
  obtain ⟨a, ha, -⟩ := Option.map_eq_some_iff.1 h0
  exact ⟨a.v, a.t, a.w, by rw [cov_hom Tr.v_hom, ha]; rfl, by rw [cov_hom Tr.t_hom, ha]; rfl, mag_cov Z Z' ha, a.rough.1, a.err (cov_fewM oZ.valid oZ'.valid fZ fZ' ha)⟩

/-- **C96** `s()` of a value of second order after the conversion, where the error of the variance is less than the variance. -/
theorem C96_sdev2_partial (hv : Acc g.rd v) (u : Moments (FP g)) {x : UReal2 (FP f)} (hx : Ok2 x) {V W θ : ℝ} (hV : (numbers FP.val x).var = some V) (V0 : 0 < V)
    (hW : magnitude (numbers (fun a => |a.val|) x) 2 = some W) (hθ : relErr v (4 + momRounds x.hg.diagmap.length x.hg.trimap.length 2) * W ≤ θ * V) (θ1 : θ < 1) :
    ∃ s, (x.convert u (FP.conv g)).s = some s ∧ |s.val - Real.sqrt V| ≤ (θ / (1 + Real.sqrt (1 - θ)) + v * (1 + θ)) * Real.sqrt V := by
  obtain ⟨a, A, W', h1, h2, h3, -, h4⟩ := C96_moments_partial hv u hx (n := 2) (by norm_num)
  rw [UReal2.var, h2, Option.some_inj] at hV
  rw [h3, Option.some_inj] at hW
  subst hV hW
  exact ⟨CSqrt.sqrt a, by rw [UReal2.s, h1]; rfl, (sqrt_near hv V0 (h4.trans hθ) θ1).2⟩

/-! ## `float` and `double` -/

open Ext in
theorem ieee_wider {p q : ℕ} {e e' : ℤ} (hp : 1 ≤ p) (he : e ≤ 0) (hq : 1 ≤ q) (he' : e' ≤ 0) (h : p ≤ q) (h' : e' - q ≤ e - p) : Wider (ieee p e hp he) (ieee q e' hq he') := by
  have key : ∀ a, 0 < a → (ieee p e hp he).rd a = a → (ieee q e' hq he').rd a = a := by
    intro a h0 ha
    change ieeeRd p e a = a at ha
    rw [ieeeRd, if_pos h0, ieeePos] at ha
    have lt := expo_lt (emin := e) h0
    set k := expo e a with hk
    have ek : e ≤ k := le_max_right _ _
    set N := nearEven (a / 2 ^ (k - p + 1)) with hN
    have hz := two_zpow_pos (k - p + 1)
    have N0 : 0 < N := by
      have : (0 : ℝ) < N := by
        by_contra hc
        have := mul_nonpos_of_nonpos_of_nonneg (not_lt.1 hc) hz.le
        rw [ha] at this
        linarith
      exact_mod_cast this
    have N1 : N < 2 ^ p := by
      have : (N : ℝ) * 2 ^ (k - p + 1) < 2 ^ p * 2 ^ (k - p + 1) := by
        rw [ha, ← zpow_natCast, ← zpow_add₀ (by norm_num)]
        refine lt_of_lt_of_le lt (le_of_eq ?_)
        congr 1; ring
      have := lt_of_mul_lt_mul_right this hz.le
      exact_mod_cast this
    rw [← ha]
    exact ieee_int hq he' N (k - p + 1) (by rw [abs_of_pos N0]; exact lt_of_lt_of_le N1 (pow_le_pow_right₀ (by norm_num) h)) (by omega)
  intro a ha
  rcases lt_trichotomy a 0 with h0 | h0 | h0
  · have h1 := key (-a) (by linarith) (by rw [Fmt.odd, ha])
    rw [Fmt.odd] at h1
    linarith
  · rw [h0, Fmt.rd_zero]
  · exact key a h0 ha

/-- the numbers of `float` are numbers of `double` -/
theorem float_double : Wider fltFmt dblFmt := ieee_wider _ _ _ _ (by norm_num) (by norm_num)

theorem fltMax_le : fltMax ≤ dblMax := by
  have h : fltMax ≤ 2 ^ (128 : ℤ) := by unfold fltMax; norm_num
  refine h.trans ((zpow_le_zpow_right₀ (by norm_num) (by norm_num : (128 : ℤ) ≤ 1023)).trans le_dblMax)

/-- **C96** From `float` to `double` and back, with infinities and NaN: the identical value. -/
theorem C96_range {x : UReal Flt} (hx : x.WF) : (x.convert (Ext.conv dblFmt dblMax)).convert (Ext.conv fltFmt fltMax) = x := by
  have e : ∀ a : Flt, Ext.conv fltFmt fltMax (Ext.conv dblFmt dblMax a) = a := by
    intro a
    cases a with
    | nan => rfl
    | inf s => rfl
    | fin a h =>
      have v : (FP.conv dblFmt a).val = a.val := float_double _ a.rep
      rw [Ext.conv, Ext.ofFP_of_le (by rw [v]; exact h.trans fltMax_le), Ext.conv]
      have w : FP.conv fltFmt (FP.conv dblFmt a) = a := FP.ext (by show fltFmt.rd (FP.conv dblFmt a).val = _; rw [v, a.rep])
      rw [w, Ext.ofFP_of_le h]
  have z : Ext.conv dblFmt dblMax (0 : Flt) = 0 := by
    have h : (0 : ℝ) ≤ fltMax := by unfold fltMax; norm_num
    rw [show (0 : Flt) = .fin 0 (by simpa using h) from Ext.ofFP_of_le _, Ext.conv, convFP_zero]; rfl
  have hx' : (x.convert (Ext.conv dblFmt dblMax)).WF := by rw [convert_mapU _ hx]; exact wf_mapU z hx
  rw [convert_mapU _ hx', convert_mapU _ hx]
  obtain ⟨i, s, m, l⟩ := x
  simp only [UReal.mapU, SMap.mapVal, e, List.map_map, Function.comp_def]
  congr 1
  exact List.map_id'' (fun _ => rfl) l

/-- **C96**, what fails: a variable with uncertainty 2^-200 has correlation 1 with itself in `double`, NaN after the conversion to `float`. -/
theorem C96_false : ∃ x : UReal Dbl, UReal.mk' 1 0 (pd (-200)) = .ok x ∧ corr x x = 1 ∧ corr (x.convert (Ext.conv fltFmt fltMax)) (x.convert (Ext.conv fltFmt fltMax)) = .nan := by
  have pos := pd_pos (j := -200) (by norm_num) (by norm_num)
  refine ⟨⟨1, pd (-200), 0, []⟩, ?_, ?_, ?_⟩
  · have : CCmp.ltb (pd (-200)) (0 : Dbl) = false := by
      rw [Bool.eq_false_iff]
      intro h
      rw [pd, qd, Ext.ofFP_of_le (pf_le (by norm_num) (by norm_num)), Ext.zero_eq one_le_dblMax] at h pos
      rw [Ext.fin_ltb] at h pos
      linarith
    rw [mk', if_neg (by rw [this]; exact Bool.false_ne_true)]
  · have e1 : cov (⟨1, pd (-200), 0, []⟩ : UReal Dbl) ⟨1, pd (-200), 0, []⟩ = pd (-400) := by
      simp (disch := norm_num) [cov, pd_mul, zero_add_pd]
    have e2 : (⟨1, pd (-200), 0, []⟩ : UReal Dbl).s = pd (-200) := by simp [UReal.s, pd_abs]
    rw [corr, e1, e2, pd_mul (by norm_num) (by norm_num) (by norm_num) (by norm_num), show (-200 + -200 : ℤ) = -400 by norm_num]
    rw [pd, qd, Ext.ofFP_of_le (pf_le (by norm_num) (by norm_num)), Ext.div_def, Ext.div']
    have v : (qf 1 (-400)).val = 2 ^ (-400 : ℤ) := by rw [qf_val (by norm_num) (by norm_num)]; simp
    rw [if_neg (by rw [v]; exact (two_zpow_pos _).ne')]
    have : qf 1 (-400) / qf 1 (-400) = 1 := FP.ext (by rw [FP.val_div, v, div_self (two_zpow_pos _).ne', Fmt.one]; rfl)
    rw [this]; rfl
  · have z : Ext.conv fltFmt fltMax (pd (-200)) = 0 := by
      rw [pd, qd, Ext.ofFP_of_le (pf_le (by norm_num) (by norm_num)), Ext.conv]
      have : FP.conv fltFmt (qf 1 (-200)) = 0 := FP.ext (by
        show fltFmt.rd (qf 1 (-200)).val = 0
        rw [qf_val (by norm_num) (by norm_num), Int.cast_one, one_mul, ieee_tiny _ _ (by norm_num)])
      rw [this]; rfl
    have M0 : (0 : ℝ) ≤ fltMax := by unfold fltMax; norm_num
    have z0 : (0 : Flt) = .fin 0 (by simpa using M0) := Ext.ofFP_of_le _
    have e : (⟨1, pd (-200), 0, []⟩ : UReal Dbl).convert (Ext.conv fltFmt fltMax) = ⟨1, 0, Ext.conv fltFmt fltMax (0 : Dbl), []⟩ := by simp [convert, z]
    rw [e]
    have m0 : (0 : Flt) * 0 = 0 := by
      rw [z0, Ext.fin_mul, show (0 : FP fltFmt) * 0 = 0 from FP.ext (by rw [FP.val_mul, val_zero, mul_zero, Fmt.rd_zero]), Ext.ofFP_of_le]
    have a0 : (0 : Flt) + 0 = 0 := by
      rw [z0, Ext.fin_add, show (0 : FP fltFmt) + 0 = 0 from FP.ext (by rw [FP.val_add, val_zero, add_zero, Fmt.rd_zero]), Ext.ofFP_of_le]
    have s0 : (CSqrt.abs (0 : Flt) : Flt) = 0 := by
      rw [z0]
      change Ext.ofFP fltMax (CSqrt.abs (0 : FP fltFmt)) = _
      rw [show CSqrt.abs (0 : FP fltFmt) = 0 from FP.ext (by rw [FP.val_abs, val_zero, abs_zero]), Ext.ofFP_of_le]
    simp only [corr, cov, UReal.s, m0, a0, s0, and_self, zero_lt_one, if_true, ge_iff_le, zero_le_one]
    rw [z0, Ext.div_def, Ext.div', if_pos val_zero, if_pos val_zero]

/-- **C96**, what fails: the mean 2^200 becomes infinite. -/
theorem C96_infinite_false (s : Dbl) : ((⟨1, s, pd 200, []⟩ : UReal Dbl).convert (Ext.conv fltFmt fltMax)).n = .inf false := by
  change Ext.conv fltFmt fltMax (pd 200) = _
  rw [pd, qd, Ext.ofFP_of_le (pf_le (by norm_num) (by norm_num)), Ext.conv]
  have v : (FP.conv fltFmt (qf 1 200)).val = 2 ^ (200 : ℤ) := by
    show fltFmt.rd (qf 1 200).val = _
    rw [qf_val (by norm_num) (by norm_num), ieee_int _ _ 1 200 (by norm_num) (by norm_num)]; simp
  rw [Ext.ofFP_of_lt, v]
  · simp
  · rw [v, abs_of_pos (two_zpow_pos _)]; unfold fltMax; norm_num

/-- **C96**, what fails: the conversion of a sum is not the sum of the conversions: 1 + 2^-23 and 2^-24 - 2^-50, with the precision of `double` and `float`. -/
theorem C96_sum_false : ∃ x y : FP binary64, ∃ (z : UReal (FP binary64)) (z' : UReal (FP (bits 24 (by norm_num)))), add (const x) (const y) = some z ∧
    add ((const x).convert (FP.conv _)) ((const y).convert (FP.conv _)) = some z' ∧
    (z.convert (FP.conv (bits 24 (by norm_num)))).n.val = 1 + 1 / 2 ^ 23 ∧ z'.n.val = 1 + 1 / 2 ^ 22 := by
  have hx : binary64.rd ((2 ^ 52 + 2 ^ 29) / 2 ^ 52) = (2 ^ 52 + 2 ^ 29) / 2 ^ 52 := by
    rw [bits_val _ 0 (2 ^ 52 + 2 ^ 29) (by norm_num) (by norm_num) (by norm_num) (by norm_num)]; norm_num
  have hy : binary64.rd ((2 ^ 26 - 1) / 2 ^ 50) = (2 ^ 26 - 1) / 2 ^ 50 := by
    rw [bits_val _ (-25) ((2 ^ 26 - 1) * 2 ^ 27) (by norm_num) (by norm_num) (by norm_num) (by norm_num)]; norm_num
  refine ⟨⟨_, hx⟩, ⟨_, hy⟩, _, _, rfl, rfl, ?_, ?_⟩
  · show (bits 24 (by norm_num)).rd (binary64.rd ((2 ^ 52 + 2 ^ 29) / 2 ^ 52 + (2 ^ 26 - 1) / 2 ^ 50)) = _
    rw [bits_val (p := 53) _ 0 (2 ^ 52 + 2 ^ 29 + 2 ^ 28 - 4) (by norm_num) (by norm_num) (by norm_num) (by norm_num),
      bits_val _ 0 (2 ^ 23 + 1) (by norm_num) (by norm_num) (by norm_num) (by norm_num)]
    norm_num
  · show (bits 24 (by norm_num)).rd ((bits 24 (by norm_num)).rd ((2 ^ 52 + 2 ^ 29) / 2 ^ 52) + (bits 24 (by norm_num)).rd ((2 ^ 26 - 1) / 2 ^ 50)) = _
    rw [bits_val _ 0 (2 ^ 23 + 1) (x := (2 ^ 52 + 2 ^ 29) / 2 ^ 52) (by norm_num) (by norm_num) (by norm_num) (by norm_num),
      bits_val _ (-25) (2 ^ 24) (x := (2 ^ 26 - 1) / 2 ^ 50) (by norm_num) (by norm_num) (by norm_num) (by norm_num),
      bits_val _ 0 (2 ^ 23 + 2) (by norm_num) (by norm_num) (by norm_num) (by norm_num)]
    norm_num

/-! ## examples -/

/-- a multiple of a variable and another variable, in `float` without the limit of the exponents -/
noncomputable def exF : UReal (FP fltFmt) := ⟨-1, -1, 1, [(1, FP.round fltFmt (1 / 3)), (2, 1)]⟩

theorem exF_wf : exF.WF := ⟨by simp [exF], by simp [exF], by simp [exF, SMap.sorted_cons], by simp [exF]⟩

example : exactL (exF.convert (FP.conv dblFmt)) = exactL exF ∧ (exF.convert (FP.conv dblFmt)).convert (FP.conv fltFmt) = exF ∧ exF.deps = {1, 2} :=
  ⟨(C96_widen float_double exF_wf).1, (C96_widen float_double exF_wf).2, by simp [deps, exF]⟩

/-- a value with two variables, from `float` to `double` and back -/
example (u : Moments (FP dblFmt)) (u' : Moments (FP fltFmt)) :
    ((Unc.mapU (FP.round fltFmt) exMx).convert u (FP.conv dblFmt)).convert u' (FP.conv fltFmt) = Unc.mapU (FP.round fltFmt) exMx ∧ (Unc.mapU (FP.round fltFmt) exMx).hg.vars = {1, 3} :=
  ⟨(C96_widen2 float_double u u' (valid_mapHG _ valid_exMx)).2, by simp [Unc.mapU, mapHG, exMx, HessGrad.vars, SMap.mapVal, SMap.keys]⟩

/-- the two multiples of C95_false from the precision of `double` to that of `float` -/
example : |(cov ((exMul exA).convert (FP.conv (bits 24 (by norm_num)))) ((exMul exB).convert (FP.conv (bits 24 (by norm_num))))).val - exA.val * exB.val| ≤ ((1 + (1 / 2) ^ 24) ^ 3 - 1) * |exA.val * exB.val| := by
  have h := C96_cov_partial (acc_bits 24 (by norm_num)) (exMul_wf exA) (exMul_wf exB)
  simpa [exactL, LinForm.cov, absCov, deps, coef, exMul, SMap.get, SMap.find?] using h

example : (1 - (1 / 2) ^ 24) ^ 5 * exA.val ^ 2 ≤ ((exMul exA).convert (FP.conv (bits 24 (by norm_num)))).s.val ^ 2 := by
  have h := (C96_sdev_partial (acc_bits 24 (by norm_num)) (exMul_wf exA) (Or.inr (by simp [exMul]))).1
  simpa [exactL, LinForm.var, deps, coef, exMul, SMap.get, SMap.find?, pow_two] using h

example : ((exMul exA).sCache.2.convert (FP.conv (bits 24 (by norm_num)))).s = FP.conv (bits 24 (by norm_num)) (exMul exA).s ∧ (exMul exA).sdev.val < 0 :=
  ⟨C96_cached _, by simp [exMul]⟩

/-- the correlation of the two multiples is 1 -/
example : |(corr ((exMul exA).convert (FP.conv (bits 24 (by norm_num)))) ((exMul exB).convert (FP.conv (bits 24 (by norm_num))))).val - 1| ≤ (1 / (1 - (1 / 2) ^ 24)) ^ 7 * (1 + (1 / 2) ^ 24) ^ 3 - 1 := by
  have a0 : 0 < exA.val := by unfold exA; norm_num
  have b0 : 0 < exB.val := by unfold exB; norm_num
  have va : ∀ a, (exactL (exMul a)).var = a.val * a.val := fun a => by simp [exactL, LinForm.var, deps, coef, exMul, SMap.get, SMap.find?]
  have h := C96_corr_partial (acc_bits 24 (by norm_num)) (exMul_wf exA) (exMul_wf exB) (Or.inr (by simp [exMul])) (Or.inr (by simp [exMul])) (K := 1) (by simp [deps, exMul]) (by simp [deps, exMul])
    (by rw [va]; exact mul_pos a0 a0) (by rw [va]; exact mul_pos b0 b0)
  rw [va, va, Real.sqrt_mul_self a0.le, Real.sqrt_mul_self b0.le, show (exactL (exMul exA)).cov (exactL (exMul exB)) = exA.val * exB.val by
    simp [exactL, LinForm.cov, deps, coef, exMul, SMap.get, SMap.find?], div_self (mul_pos a0 b0).ne'] at h
  exact h

/-- NaN and infinity from `float` to `double` and back -/
example : ((⟨-1, .nan, .inf true, [(1, 1)]⟩ : UReal Flt).convert (Ext.conv dblFmt dblMax)).convert (Ext.conv fltFmt fltMax) = ⟨-1, .nan, .inf true, [(1, 1)]⟩ :=
  C96_range ⟨by simp, by simp, by simp [SMap.sorted_cons], by simp⟩

/-- values with two variables and second derivatives, from the precision of `double` to that of `float` -/
theorem exM_ok {x : UReal2 ℝ} (hv : x.hg.Valid) (h : ∀ i ∈ SMap.keys x.hg.diagmap, i ≤ 8) : Ok2 (Unc.mapU (FP.round binary64) x) :=
  ok_mapU _ ⟨hv, fun i hi => lt_of_le_of_lt (h i hi) (by norm_num [maxId])⟩

theorem exMx_ok : Ok2 (Unc.mapU (FP.round binary64) exMx) := exM_ok valid_exMx (by simp [exMx, SMap.keys])
theorem exMy_ok : Ok2 (Unc.mapU (FP.round binary64) exMy) := exM_ok valid_exMy (by simp [exMy, SMap.keys])

example (u : Moments (FP (bits 24 (by norm_num)))) : ∃ a A W, ((Unc.mapU (FP.round binary64) exMx).convert u (FP.conv _)).m 3 = some a ∧ (numbers FP.val (Unc.mapU (FP.round binary64) exMx)).m 3 = some A ∧
    |a.val - A| ≤ relErr ((1 / 2) ^ 24) (5 + momRounds 2 1 3) * W := by
  obtain ⟨a, A, W, h1, h2, -, -, h⟩ := C96_moments_partial (acc_bits 24 (by norm_num)) u exMx_ok (n := 3) (by norm_num)
  exact ⟨a, A, W, h1, h2, h⟩

example (u : Moments (FP (bits 24 (by norm_num)))) : ∃ a A W, ((Unc.mapU (FP.round binary64) exMx).convert u (FP.conv _)).n .est = some a ∧ (numbers FP.val (Unc.mapU (FP.round binary64) exMx)).n .est = some A ∧
    |a.val - A| ≤ relErr ((1 / 2) ^ 24) 4 * (|(FP.round binary64 7).val| + W) := by
  obtain ⟨a, A, W, h1, h2, -, h⟩ := C96_mean_partial (acc_bits 24 (by norm_num)) u exMx_ok .est
  exact ⟨a, A, W, h1, h2, h⟩

example (u : Moments (FP (bits 24 (by norm_num)))) : ∃ a A W, UReal2.cov ((Unc.mapU (FP.round binary64) exMx).convert u (FP.conv _)) ((Unc.mapU (FP.round binary64) exMy).convert u (FP.conv _)) = some a ∧
    UReal2.cov (numbers FP.val (Unc.mapU (FP.round binary64) exMx)) (numbers FP.val (Unc.mapU (FP.round binary64) exMy)) = some A ∧ |a.val - A| ≤ relErr ((1 / 2) ^ 24) (3 + covRounds 2 1 2) * W := by
  obtain ⟨a, A, W, h1, h2, -, -, h⟩ := C96_cov2_partial (acc_bits 24 (by norm_num)) u exMx_ok exMy_ok
  exact ⟨a, A, W, h1, h2, h⟩

/-- the uncertainty 3 of a variable -/
example (u : Moments (FP (bits 24 (by norm_num)))) : ∃ s, ((⟨⟨[(1, ⟨⟨3, three_double⟩, 0, ⟨0, 1, 0, 1, 0, 1⟩⟩)], []⟩, 0⟩ : UReal2 (FP binary64)).convert u (FP.conv _)).s = some s ∧ |s.val - 3| ≤ 1 / 10 ^ 5 := by
  have ent : ∀ d : Diag ℝ, HessGrad.triEntries ⟨[(1, d)], []⟩ false = some [] := fun d => rfl
  have e0 : ∀ c : FP binary64 → ℝ, c 0 = 0 → numbers c (⟨⟨[(1, ⟨⟨3, three_double⟩, 0, ⟨0, 1, 0, 1, 0, 1⟩⟩)], []⟩, 0⟩ : UReal2 (FP binary64)) = ⟨⟨[(1, ⟨c ⟨3, three_double⟩, 0, ⟨0, c 1, 0, c 1, 0, c 1⟩⟩)], []⟩, 0⟩ := by
    intro c h; simp [numbers, h]
  have V : (numbers FP.val (⟨⟨[(1, ⟨⟨3, three_double⟩, 0, ⟨0, 1, 0, 1, 0, 1⟩⟩)], []⟩, 0⟩ : UReal2 (FP binary64))).var = some (3 ^ 2) := by
    rw [e0 _ rfl]
    simp [UReal2.var, UReal2.m, UReal2.momArray, UReal2.updateMom, Mom.compute, Mom.m1, Mom.m2, Mom.m2A, ent, pow_two]
  have W : magnitude (numbers (fun a => |a.val|) (⟨⟨[(1, ⟨⟨3, three_double⟩, 0, ⟨0, 1, 0, 1, 0, 1⟩⟩)], []⟩, 0⟩ : UReal2 (FP binary64))) 2 = some (3 ^ 2) := by
    rw [e0 _ (by simp)]
    simp [magnitude, Mom.compute, Mom.m1, Mom.m2, Mom.m2A, ent, pow_two]
  have ok : Ok2 (⟨⟨[(1, ⟨⟨3, three_double⟩, 0, ⟨0, 1, 0, 1, 0, 1⟩⟩)], []⟩, 0⟩ : UReal2 (FP binary64)) :=
    ⟨⟨List.pairwise_singleton _ _, .nil, by simp [SMap.keys]⟩, by simp [HessGrad.Below, SMap.keys, maxId]⟩
  obtain ⟨s, h1, h2⟩ := C96_sdev2_partial (acc_bits 24 (by norm_num)) u (θ := 1 / 10 ^ 6) ok V (by norm_num) W
    (by norm_num [relErr, momRounds, List.length]) (by norm_num)
  rw [Real.sqrt_sq (by norm_num)] at h2
  refine ⟨s, h1, h2.trans ?_⟩
  have : (1 / 10 ^ 6 : ℝ) / (1 + Real.sqrt (1 - 1 / 10 ^ 6)) ≤ 1 / 10 ^ 6 := div_le_self (by norm_num) (by linarith [Real.sqrt_nonneg (1 - 1 / 10 ^ 6 : ℝ)])
  refine (mul_le_mul_of_nonneg_right (add_le_add_left this _) (by norm_num)).trans ?_
  norm_num

end Unc.Props
