import Verif.Lemmas.FloatCtor
import Verif.Props.Float
import Mathlib.Algebra.Order.Chebyshev

/-!
# Quadratic forms of rounded covariances (C95)
-/

namespace Unc
open Unc.Spec UReal FP Props

/-- the quadratic form of the covariances of linear forms is not negative -/
theorem lin_psd {n : ℕ} (a : Fin n → LinForm ℝ) (ha : ∀ i, (a i).Supported) (c : Fin n → ℝ) : 0 ≤ ∑ i, ∑ j, c i * c j * (a i).cov (a j) := by
  classical
  set S : Finset ℤ := Finset.univ.biUnion fun i => (a i).deps with hS
  have e : ∀ i j, (a i).cov (a j) = ∑ k ∈ S, (a i).coef k * (a j).coef k := fun i j => LinForm.cov_eq_sum (ha i) S (Finset.subset_biUnion_of_mem (fun i => (a i).deps) (Finset.mem_univ i))
  have : ∑ i, ∑ j, c i * c j * (a i).cov (a j) = ∑ k ∈ S, (∑ i, c i * (a i).coef k) ^ 2 := by
    simp only [e, Finset.mul_sum]
    rw [Finset.sum_congr rfl fun i _ => Finset.sum_comm, Finset.sum_comm]
    refine Finset.sum_congr rfl fun k _ => ?_
    rw [sq, Finset.sum_mul_sum]
    exact Finset.sum_congr rfl fun i _ => Finset.sum_congr rfl fun j _ => by ring
  rw [this]
  exact Finset.sum_nonneg fun _ _ => sq_nonneg _

/-- a small change of the elements -/
theorem quad_near {n : ℕ} {A B : Fin n → Fin n → ℝ} {γ : ℝ} {σ : Fin n → ℝ} (h : ∀ i j, |B i j - A i j| ≤ γ * (σ i * σ j)) {c : Fin n → ℝ}
    (hA : 0 ≤ ∑ i, ∑ j, c i * c j * A i j) : -(γ * (∑ i, |c i| * σ i) ^ 2) ≤ ∑ i, ∑ j, c i * c j * B i j := by
  have e : ∑ i, ∑ j, c i * c j * B i j = ∑ i, ∑ j, c i * c j * A i j + ∑ i, ∑ j, c i * c j * (B i j - A i j) := by
    rw [← Finset.sum_add_distrib]
    refine Finset.sum_congr rfl fun i _ => ?_
    rw [← Finset.sum_add_distrib]
    exact Finset.sum_congr rfl fun j _ => by ring
  have b : |∑ i, ∑ j, c i * c j * (B i j - A i j)| ≤ γ * (∑ i, |c i| * σ i) ^ 2 := by
    refine (Finset.abs_sum_le_sum_abs _ _).trans ?_
    rw [sq, Finset.sum_mul_sum, Finset.mul_sum]
    refine Finset.sum_le_sum fun i _ => (Finset.abs_sum_le_sum_abs _ _).trans ?_
    rw [Finset.mul_sum]
    refine Finset.sum_le_sum fun j _ => ?_
    rw [abs_mul, abs_mul]
    calc |c i| * |c j| * |B i j - A i j| ≤ |c i| * |c j| * (γ * (σ i * σ j)) := mul_le_mul_of_nonneg_left (h i j) (mul_nonneg (abs_nonneg _) (abs_nonneg _))
      _ = _ := by ring
  rw [e]
  linarith [(abs_le.1 b).1]

/-- the mean of the squares -/
theorem sum_sq_le {n : ℕ} (c σ : Fin n → ℝ) : (∑ i, |c i| * σ i) ^ 2 ≤ n * ∑ i, c i ^ 2 * σ i ^ 2 := by
  have := sq_sum_le_card_mul_sum_sq (s := Finset.univ) (f := fun i : Fin n => |c i| * σ i)
  simp only [Finset.card_univ, Fintype.card_fin, mul_pow, sq_abs] at this
  exact this

variable {f : Fmt} {u : ℝ}

theorem absCov_le_sqrt (x y : UReal (FP f)) : absCov (exactL x) (exactL y) ≤ Real.sqrt (exactL x).var * Real.sqrt (exactL y).var := by
  rw [← Real.sqrt_mul (varE_nonneg _)]
  exact Real.le_sqrt_of_sq_le (absCov_le _ _ (supported_exactL x) (supported_exactL y))

theorem abs_cov_le_absCov (a b : LinForm ℝ) : |a.cov b| ≤ absCov a b := by
  unfold LinForm.cov absCov
  exact Finset.abs_sum_le_sum_abs _ _

theorem cov_near (hu : Acc f.rd u) {x y : UReal (FP f)} (hx : x.WF) (hy : y.WF) {K : ℕ} (hK : x.deps.card ≤ K) :
    |(cov x y).val - (exactL x).cov (exactL y)| ≤ ((1 + u) ^ K - 1) * (Real.sqrt (exactL x).var * Real.sqrt (exactL y).var) := by
  have h1 : 1 ≤ 1 + u := by linarith [hu.nonneg]
  have hc : (x.deps ∩ y.deps).card ≤ K := (Finset.card_le_card Finset.inter_subset_left).trans hK
  have h2 := pow_le_pow_right₀ h1 hc
  refine (C61_cov hu hx hy).trans ?_
  exact mul_le_mul (by linarith) (absCov_le_sqrt x y) (absCov_nonneg _ _) (by linarith [one_le_pow₀ h1 (n := K)])

/-- the computed product of two uncertainties -/
theorem prod_fac (hu : Acc f.rd u) {x y : UReal (FP f)} (hx : x.WF) (hy : y.WF) (hx' : 0 ≤ x.id ∨ x.sdev.val < 0) (hy' : 0 ≤ y.id ∨ y.sdev.val < 0) {K : ℕ} (hK : x.deps.card ≤ K) (hK' : y.deps.card ≤ K) :
    Factor u (K + 3) (x.s * y.s).val (Real.sqrt (exactL x).var * Real.sqrt (exactL y).var) := by
  have u0 := hu.nonneg
  have u1 := hu.lt
  have d : (0 : ℝ) < 1 - u := by linarith
  have key : ∀ {x : UReal (FP f)}, x.WF → (0 ≤ x.id ∨ x.sdev.val < 0) → x.deps.card ≤ K → ∃ t, 0 ≤ t ∧ t ^ 2 ≤ (1 / (1 - u)) ^ (K + 2) ∧ 1 ≤ t ^ 2 * (1 / (1 - u)) ^ (K + 2) ∧ x.s.val = t * Real.sqrt (exactL x).var := by
    intro x hx hx' hK
    obtain ⟨a, b⟩ := C61_s hu hx hx'
    have s0 := (C61_nonneg x).2.2.1
    have v0 := varE_nonneg (exactL x)
    have p1 : 1 ≤ (1 / (1 - u)) := one_le_fac hu
    rcases v0.eq_or_lt with h | h
    · rw [← h, mul_zero] at b
      refine ⟨1, zero_le_one, by rw [one_pow]; exact one_le_pow₀ p1, by rw [one_pow, one_mul]; exact one_le_pow₀ p1, ?_⟩
      rw [← h, Real.sqrt_zero, mul_zero]
      exact pow_eq_zero_iff (two_ne_zero) |>.1 (le_antisymm b (sq_nonneg _))
    · have r0 := Real.sqrt_pos.2 h
      have rr := Real.sq_sqrt v0
      have q : (1 - u) ^ (x.deps.card + 2) * (1 / (1 - u)) ^ (x.deps.card + 2) = 1 := by rw [← mul_pow, mul_one_div, div_self d.ne', one_pow]
      have mono := pow_le_pow_right₀ p1 (show x.deps.card + 2 ≤ K + 2 by omega)
      have e : (x.s.val / Real.sqrt (exactL x).var) ^ 2 = x.s.val ^ 2 / (exactL x).var := by rw [div_pow, rr]
      refine ⟨x.s.val / Real.sqrt (exactL x).var, div_nonneg s0 r0.le, ?_, ?_, by field_simp⟩
      · rw [e, div_le_iff₀ h]
        refine b.trans (mul_le_mul_of_nonneg_right (le_trans ?_ mono) v0)
        exact pow_le_pow_left₀ (by linarith) (by rw [le_div_iff₀ d]; nlinarith) _
      · have : (1 - u) ^ (x.deps.card + 2) ≤ x.s.val ^ 2 / (exactL x).var := by rwa [le_div_iff₀ h]
        rw [e]
        calc (1 : ℝ) = (1 - u) ^ (x.deps.card + 2) * (1 / (1 - u)) ^ (x.deps.card + 2) := q.symm
          _ ≤ _ := mul_le_mul this mono (by positivity) (by positivity)
  obtain ⟨t, t0, t1, t2, et⟩ := key hx hx' hK
  obtain ⟨r, r0, r1, r2, er⟩ := key hy hy' hK'
  set P := (1 / (1 - u)) ^ (K + 2) with hP
  have P0 : 0 < P := by positivity
  have tp : 0 < t := by
    rcases t0.eq_or_lt with h | h
    · rw [← h] at t2; norm_num at t2
    · exact h
  have rp : 0 < r := by
    rcases r0.eq_or_lt with h | h
    · rw [← h] at r2; norm_num at r2
    · exact h
  have a1 : t * r ≤ P := by
    refine abs_le_of_sq_le_sq' ?_ P0.le |>.2
    rw [mul_pow, sq P]; exact mul_le_mul t1 r1 (sq_nonneg _) P0.le
  have a2 : 1 ≤ t * r * P := by
    have h1 : (1 : ℝ) ^ 2 ≤ (t * r * P) ^ 2 := by
      calc (1 : ℝ) ^ 2 = 1 * 1 := by norm_num
        _ ≤ (t ^ 2 * P) * (r ^ 2 * P) := mul_le_mul t2 r2 zero_le_one (by positivity)
        _ = _ := by ring
    exact abs_le_of_sq_le_sq' h1 (by positivity) |>.2
  rw [FP.val_mul, show K + 3 = 1 + (K + 2) by omega]
  refine fac_trans hu (fac_rd hu _) ⟨t * r, mul_pos tp rp, a1, a2, ?_⟩
  rw [et, er]; ring

/-- a quotient of a computed covariance by a computed product of uncertainties -/
theorem ratio_near (hu : Acc f.rd u) {c p : FP f} {C P : ℝ} {A B : ℕ} (hp : 0 < P) (hC : |C| ≤ P) (hc : |c.val - C| ≤ ((1 + u) ^ A - 1) * P) (hf : Factor u B p.val P) :
    |(c / p).val - C / P| ≤ (1 / (1 - u)) ^ (B + 1) * (1 + u) ^ A - 1 := by
  have hf : Factor u (B + 1) (c / p).val (c.val / P) := by
    have := fac_rddiv hu (k := 0) (a := c) (w := c.val) ⟨1, one_pos, by simp, by simp, by simp⟩ hf
    exact fac_mono hu this (by omega)
  have b := fac_bound hu hf
  set F := (1 / (1 - u)) ^ (B + 1)
  have F1 : 1 ≤ F := one_le_pow₀ (one_le_fac hu)
  have b1 : |c.val / P - C / P| ≤ (1 + u) ^ A - 1 := by
    rw [← sub_div, abs_div, abs_of_pos hp, div_le_iff₀ hp]; exact hc
  have b2 : |C / P| ≤ 1 := by rw [abs_div, abs_of_pos hp, div_le_one hp]; exact hC
  have b3 : |c.val / P| ≤ (1 + u) ^ A := by
    have := abs_sub_abs_le_abs_sub (c.val / P) (C / P)
    linarith
  have b4 : (F - 1) * |c.val / P| ≤ (F - 1) * (1 + u) ^ A := mul_le_mul_of_nonneg_left b3 (by linarith)
  have b5 := abs_sub_le (c / p).val (c.val / P) (C / P)
  nlinarith

end Unc
