import Verif.Lemmas.TrackRun
import Verif.Props.Units

/-!
# C80: rounding errors of second-order results
-/

namespace Unc.Props
open Unc.Spec HessGrad SMap Mom FP

variable {f : Fmt} {u : ℝ}

/-- the formats with `p` binary digits contain 2 and 1/2 -/
theorem C80_half {p : ℕ} (hp : 1 ≤ p) : HasHalf (bits p hp) := by
  have h := C79_formats hp
  have e1 := h 1 1
  have e2 := h (-1) 1
  rw [(bits p hp).one] at e1 e2
  refine ⟨?_, ?_⟩
  · norm_num at e1; exact e1
  · norm_num at e2 ⊢; exact e2

/-- **C80** The first order value and the central moments computed with rounded numbers differ from the exact ones by at most as many relative rounding errors as operations were done one after
the other, relative to the sums of the magnitudes of the terms. -/
theorem C80_moments (hu : Acc f.rd u) (hh : HasHalf f) {env : ℕ → UReal2 (FP f)} (henv : ∀ i, Ok2 (env i)) {c : CalcF f} (hc : c.Safe u fun i => (env i).mu.val) :
    ∃ x y z, (∀ v, c.run v env = some x) ∧ (∀ v, c.exact v (fun i => numbers FP.val (env i)) = some y) ∧ (∀ v, c.sizes v (fun i => numbers FP.val (env i)) = some z) ∧
      |x.mu.val - y.mu| ≤ relErr u c.rounds * z.mu ∧
      (∀ n, 1 ≤ n ∧ n ≤ 4 → ∃ a A W, x.m n = some a ∧ y.m n = some A ∧ magnitude z n = some W ∧ |A| ≤ W ∧
        |a.val - A| ≤ relErr u (n * c.rounds + momRounds x.hg.diagmap.length x.hg.trimap.length n) * W) := by
  obtain ⟨Z, ⟨oZ, fZ, -⟩, z1, z2, z3⟩ := run_tr hu hh henv hc
  refine ⟨_, _, _, z1, z2, z3, Z.mu.err fZ.mu, fun n hn => ?_⟩
  obtain ⟨A, hA⟩ := Option.isSome_iff_exists.1 (m_isSome (ok_mapU Tr.t oZ) hn)
  have := m_hom Tr.t_hom Z n
  rw [hA] at this
  obtain ⟨a, ha, rfl⟩ := Option.map_eq_some_iff.1 this.symm
  refine ⟨a.v, a.t, a.w, by rw [m_hom Tr.v_hom, ha]; rfl, hA, mag_m Z ha, a.rough.1, ?_⟩
  have k := cen_few oZ.valid fZ.hg ha
  rw [cenAdds_eq] at k
  rw [show (mapU Tr.v Z).hg.diagmap.length = Z.hg.diagmap.length by simp [mapU, mapHG, SMap.mapVal], show (mapU Tr.v Z).hg.trimap.length = Z.hg.trimap.length by simp [mapU, mapHG, SMap.mapVal]]
  exact a.err k

/-- **C80** The first order value of a calculation with division too, where the divisors are known to half of their value or better. -/
theorem C80_first (hu : Acc f.rd u) (hh : HasHalf f) {env : ℕ → UReal2 (FP f)} (henv : ∀ i, Ok2 (env i)) {c : CalcF f} (hc : c.Safe u fun i => (env i).mu.val) {v : Moments (FP f)} {x : UReal2 (FP f)}
    (hx : c.run v env = some x) : |x.mu.val - c.value fun i => (env i).mu.val| ≤ relErr u c.rounds * c.size fun i => (env i).mu.val := by
  obtain ⟨Z, ⟨-, fZ, tZ, wZ⟩, z1, -⟩ := run_tr hu hh henv hc
  rw [z1, Option.some_inj] at hx
  rw [← hx, ← tZ, ← wZ]
  exact Z.mu.err fZ.mu

/-- a variable with mean 1/3, standard deviation 1/3 and some moments -/
theorem var2_ok (i : ℕ) (hi : i < 5) : Ok2 (var2 (f := binary64) (i + 1) third third) :=
  ⟨⟨List.pairwise_singleton _ _, .nil, by simp [var2, SMap.keys]⟩, by simp [HessGrad.Below, var2, SMap.keys, maxId]; omega⟩

/-- `x * y - -(x + x)` in `double` -/
noncomputable def vars5 : ℕ → UReal2 (FP binary64) := fun i => if i < 5 then var2 (i + 1) third third else UReal2.const 0

theorem vars5_ok (i : ℕ) : Ok2 (vars5 i) := by
  unfold vars5
  split_ifs with h
  · exact var2_ok i h
  · exact ⟨⟨by simp [UReal2.const, empty], by simp [UReal2.const, empty], by simp [UReal2.const, empty]⟩, by intro k hk; simp [UReal2.const, empty] at hk⟩

/-- `x * y - -(x + x)` -/
def calc5 : CalcF binary64 := .sub (.mul (.leaf 0) (.leaf 1)) (.neg (.add (.leaf 0) (.leaf 0)))

example : HasHalf binary64 ∧ ∃ x y z, (∀ v, calc5.run v vars5 = some x) ∧ (∀ v, calc5.exact v (fun i => numbers FP.val (vars5 i)) = some y) ∧
    (∀ v, calc5.sizes v (fun i => numbers FP.val (vars5 i)) = some z) ∧ |x.mu.val - y.mu| ≤ relErr ((1 / 2) ^ 53) 7 * z.mu := by
  obtain ⟨x, y, z, h1, h2, h3, h4, -⟩ := C80_moments acc_double (C80_half _) vars5_ok (c := calc5) ⟨⟨trivial, trivial⟩, trivial, trivial⟩
  exact ⟨C80_half _, x, y, z, h1, h2, h3, h4⟩

theorem third_near : 1 / 4 < third.val ∧ third.val < 1 / 2 := by
  have := abs_le.1 (acc_double.err (1 / 3))
  rw [abs_of_pos (by norm_num)] at this
  change 1 / 4 < binary64.rd (1 / 3) ∧ binary64.rd (1 / 3) < 1 / 2
  norm_num at this ⊢
  constructor <;> linarith

/-- `(x * y - -(x + x)) / (y + z)` -/
def calc6 : CalcF binary64 := .div calc5 (.add (.leaf 1) (.leaf 2))

theorem calc6_safe : calc6.Safe ((1 / 2) ^ 53) (fun i => (vars5 i).mu.val) := by
  have t := third_near
  have e : ∀ i, i < 5 → (vars5 i).mu.val = third.val := fun i hi => by simp [vars5, hi, var2]
  refine ⟨⟨⟨⟨trivial, trivial⟩, trivial, trivial⟩, trivial, trivial⟩, ?_, ?_, Or.inr ?_⟩
  · simp only [CalcF.value, e 1 (by decide), e 2 (by decide)]; linarith
  · simp only [CalcF.value, CalcF.size, e 1 (by decide), e 2 (by decide), CalcF.rounds, relErr]
    rw [abs_of_pos (by linarith : 0 < third.val), abs_of_pos (by linarith : 0 < third.val + third.val)]
    norm_num
    linarith
  · simp only [calc5, CalcF.value, CalcF.size, e 0 (by decide), e 1 (by decide), CalcF.rounds, relErr]
    have p : 0 < third.val := by linarith
    rw [abs_of_pos p, abs_of_pos (by nlinarith)]
    norm_num
    nlinarith

/-- a quotient -/
example : ∃ x y z a A W, (∀ v, calc6.run v vars5 = some x) ∧ (∀ v, calc6.exact v (fun i => numbers FP.val (vars5 i)) = some y) ∧ (∀ v, calc6.sizes v (fun i => numbers FP.val (vars5 i)) = some z) ∧
    |x.mu.val - calc6.value fun i => (vars5 i).mu.val| ≤ relErr ((1 / 2) ^ 53) 39 * (calc6.size fun i => (vars5 i).mu.val) ∧ x.m 4 = some a ∧ y.m 4 = some A ∧ magnitude z 4 = some W ∧
    |a.val - A| ≤ relErr ((1 / 2) ^ 53) (4 * 39 + momRounds x.hg.diagmap.length x.hg.trimap.length 4) * W := by
  obtain ⟨x, y, z, h1, h2, h3, h4, h5⟩ := C80_moments acc_double (C80_half _) vars5_ok calc6_safe
  obtain ⟨a, A, W, k1, k2, k3, -, k4⟩ := h5 4 (by decide)
  exact ⟨x, y, z, a, A, W, h1, h2, h3, C80_first acc_double (C80_half _) vars5_ok calc6_safe (h1 ⟨0, 0, 0, 0, 0, 0⟩), k1, k2, k3, k4⟩

/-- the results of a calculation and the numbers of roundings in them -/
theorem calc_tr (hu : Acc f.rd u) (hh : HasHalf f) {env : ℕ → UReal2 (FP f)} (henv : ∀ i, Ok2 (env i)) {c : CalcF f} (hc : c.Safe u fun i => (env i).mu.val) {v : Moments (FP f)} {v' v'' : Moments ℝ}
    {x : UReal2 (FP f)} {y z : UReal2 ℝ} (hx : c.run v env = some x) (hy : c.exact v' (fun i => numbers FP.val (env i)) = some y)
    (hz : c.sizes v'' (fun i => numbers FP.val (env i)) = some z) :
    ∃ Z : UReal2 (Tr f u hu), Ok2 Z ∧ UFew c.rounds Z ∧ x = mapU Tr.v Z ∧ y = mapU Tr.t Z ∧ z = mapU Tr.w Z ∧
      x.hg.diagmap.length = Z.hg.diagmap.length ∧ x.hg.trimap.length = Z.hg.trimap.length := by
  obtain ⟨Z, ⟨oZ, fZ, -⟩, z1, z2, z3⟩ := run_tr hu hh henv hc
  rw [z1, Option.some_inj] at hx
  rw [z2, Option.some_inj] at hy
  rw [z3, Option.some_inj] at hz
  exact ⟨Z, oZ, fZ, hx.symm, hy.symm, hz.symm, by rw [← hx]; simp [mapU, mapHG, SMap.mapVal], by rw [← hx]; simp [mapU, mapHG, SMap.mapVal]⟩

/-- **C80** `n()` in both modes of propagation. -/
theorem C80_mean (hu : Acc f.rd u) (hh : HasHalf f) {env : ℕ → UReal2 (FP f)} (henv : ∀ i, Ok2 (env i)) {c : CalcF f} (hc : c.Safe u fun i => (env i).mu.val) {v : Moments (FP f)} {v' v'' : Moments ℝ}
    {x : UReal2 (FP f)} {y z : UReal2 ℝ} (hx : c.run v env = some x) (hy : c.exact v' (fun i => numbers FP.val (env i)) = some y)
    (hz : c.sizes v'' (fun i => numbers FP.val (env i)) = some z) (p : PropMode) :
    ∃ a A W, x.n p = some a ∧ y.n p = some A ∧ magnitude z 1 = some W ∧ |a.val - A| ≤ relErr u (c.rounds + x.hg.diagmap.length + 1) * (z.mu + W) := by
  obtain ⟨Z, oZ, fZ, rfl, rfl, rfl, hN, -⟩ := calc_tr hu hh henv hc hx hy hz
  rw [hN]
  obtain ⟨A, hA⟩ := Option.isSome_iff_exists.1 (m_isSome (ok_mapU Tr.t oZ) (n := 1) (by norm_num))
  have := m_hom Tr.t_hom Z 1
  rw [hA] at this
  obtain ⟨a, ha, rfl⟩ := Option.map_eq_some_iff.1 this.symm
  have hv : (mapU Tr.v Z).m 1 = some a.v := by rw [m_hom Tr.v_hom, ha]; rfl
  have k := cen_few oZ.valid fZ.hg ha
  rw [cenAdds_eq, momRounds, one_mul] at k
  have kz := fZ.mu.mono (Nat.le_add_right c.rounds Z.hg.diagmap.length)
  cases p with
  | est =>
    refine ⟨(Z.mu - a).v, (Z.mu - a).t, a.w, ?_, ?_, mag_m Z ha, (Z.mu - a).err (kz.sub k)⟩
    · rw [UReal2.n, hv]
      refine congrArg some (FP.ext ?_)
      show f.rd (Z.mu.v.val + -a.v.val) = f.rd (Z.mu.v.val - a.v.val)
      rw [sub_eq_add_neg]
    · rw [UReal2.n, hA]
      exact congrArg some (sub_eq_add_neg _ _).symm
  | mean =>
    refine ⟨(Z.mu + a).v, (Z.mu + a).t, a.w, ?_, ?_, mag_m Z ha, (Z.mu + a).err (kz.add k)⟩
    · rw [UReal2.n, hv]; rfl
    · rw [UReal2.n, hA]; rfl

theorem calc5_safe : calc5.Safe ((1 / 2) ^ 53) (fun i => (vars5 i).mu.val) := ⟨⟨trivial, trivial⟩, trivial, trivial⟩

example (p : PropMode) : ∃ x y z a A W, (∀ v, calc5.run v vars5 = some x) ∧ (∀ v, calc5.exact v (fun i => numbers FP.val (vars5 i)) = some y) ∧ x.n p = some a ∧ y.n p = some A ∧
    magnitude z 1 = some W ∧ |a.val - A| ≤ relErr ((1 / 2) ^ 53) (7 + x.hg.diagmap.length + 1) * (z.mu + W) := by
  obtain ⟨x, y, z, h1, h2, h3, -⟩ := C80_moments acc_double (C80_half _) vars5_ok (c := calc5) calc5_safe
  obtain ⟨a, A, W, k1, k2, k3, k4⟩ := C80_mean acc_double (C80_half _) vars5_ok calc5_safe (h1 ⟨0, 0, 0, 0, 0, 0⟩) (h2 ⟨0, 0, 0, 0, 0, 0⟩) (h3 ⟨0, 0, 0, 0, 0, 0⟩) p
  exact ⟨x, y, z, a, A, W, h1, h2, k1, k2, k3, k4⟩

/-- **C80** Covariances. -/
theorem C80_cov (hu : Acc f.rd u) (hh : HasHalf f) {env : ℕ → UReal2 (FP f)} (henv : ∀ i, Ok2 (env i)) {c c' : CalcF f} (hc : c.Safe u fun i => (env i).mu.val) (hc' : c'.Safe u fun i => (env i).mu.val) {v : Moments (FP f)}
    {v' v'' : Moments ℝ} {x x' : UReal2 (FP f)} {y z y' z' : UReal2 ℝ} (hx : c.run v env = some x) (hy : c.exact v' (fun i => numbers FP.val (env i)) = some y)
    (hz : c.sizes v'' (fun i => numbers FP.val (env i)) = some z) (hx' : c'.run v env = some x') (hy' : c'.exact v' (fun i => numbers FP.val (env i)) = some y')
    (hz' : c'.sizes v'' (fun i => numbers FP.val (env i)) = some z') :
    ∃ a A W, UReal2.cov x x' = some a ∧ UReal2.cov y y' = some A ∧ magnitudeCov z z' = some W ∧ |A| ≤ W ∧
      |a.val - A| ≤ relErr u (c.rounds + c'.rounds + covRounds x.hg.diagmap.length x.hg.trimap.length x'.hg.diagmap.length) * W := by
  obtain ⟨Z, oZ, fZ, rfl, rfl, rfl, hN, hT⟩ := calc_tr hu hh henv hc hx hy hz
  obtain ⟨Z', oZ', fZ', rfl, rfl, rfl, hN', -⟩ := calc_tr hu hh henv hc' hx' hy' hz'
  rw [hN, hT, hN']
  have h0 := cov_form (ok_mapU Tr.t oZ).valid (ok_mapU Tr.t oZ').valid (Finset.subset_union_left (s₂ := (mapU Tr.t Z').hg.vars)) Finset.subset_union_right
  rw [cov_hom Tr.t_hom] at h0
  obtain ⟨a, ha, -⟩ := Option.map_eq_some_iff.1 h0
  refine ⟨a.v, a.t, a.w, by rw [cov_hom Tr.v_hom, ha]; rfl, by rw [cov_hom Tr.t_hom, ha]; rfl, mag_cov Z Z' ha, a.rough.1, a.err (cov_few oZ.valid oZ'.valid fZ.hg fZ'.hg ha)⟩

example : ∃ x y x' y' a A W, (∀ v, calc5.run v vars5 = some x) ∧ (∀ v, calc5.exact v (fun i => numbers FP.val (vars5 i)) = some y) ∧
    (∀ v, (CalcF.mul (.leaf 1) (.leaf 2) : CalcF binary64).run v vars5 = some x') ∧ (∀ v, (CalcF.mul (.leaf 1) (.leaf 2) : CalcF binary64).exact v (fun i => numbers FP.val (vars5 i)) = some y') ∧
    UReal2.cov x x' = some a ∧ UReal2.cov y y' = some A ∧
    |a.val - A| ≤ relErr ((1 / 2) ^ 53) (7 + 5 + covRounds x.hg.diagmap.length x.hg.trimap.length x'.hg.diagmap.length) * W := by
  obtain ⟨x, y, z, h1, h2, h3, -⟩ := C80_moments acc_double (C80_half _) vars5_ok (c := calc5) calc5_safe
  have hn : (CalcF.mul (.leaf 1) (.leaf 2) : CalcF binary64).Safe ((1 / 2) ^ 53) (fun i => (vars5 i).mu.val) := ⟨trivial, trivial⟩
  obtain ⟨x', y', z', h1', h2', h3', -⟩ := C80_moments acc_double (C80_half _) vars5_ok hn
  obtain ⟨a, A, W, k1, k2, -, -, k4⟩ := C80_cov acc_double (C80_half _) vars5_ok calc5_safe hn (h1 ⟨0, 0, 0, 0, 0, 0⟩) (h2 ⟨0, 0, 0, 0, 0, 0⟩) (h3 ⟨0, 0, 0, 0, 0, 0⟩) (h1' ⟨0, 0, 0, 0, 0, 0⟩) (h2' ⟨0, 0, 0, 0, 0, 0⟩) (h3' ⟨0, 0, 0, 0, 0, 0⟩)
  exact ⟨x, y, x', y', a, A, W, h1, h2, h1', h2', k1, k2, k4⟩

/-- the square root of a number near to a positive one -/
theorem sqrt_near (hu : Acc f.rd u) {a : FP f} {V θ : ℝ} (V0 : 0 < V) (e : |a.val - V| ≤ θ * V) (θ1 : θ < 1) :
    0 < a.val ∧ |(CSqrt.sqrt a).val - Real.sqrt V| ≤ (θ / (1 + Real.sqrt (1 - θ)) + u * (1 + θ)) * Real.sqrt V := by
  have e' := abs_le.1 e
  have θ0 : 0 ≤ θ := by
    by_contra h
    have := (abs_nonneg _).trans e
    nlinarith
  have a0 : (1 - θ) * V ≤ a.val := by linarith [e'.1]
  have a1 : a.val ≤ (1 + θ) * V := by linarith [e'.2]
  have ap : 0 < a.val := lt_of_lt_of_le (mul_pos (by linarith) V0) a0
  refine ⟨ap, ?_⟩
  have S0 : 0 < Real.sqrt V := Real.sqrt_pos.2 V0
  have r0 : 0 ≤ Real.sqrt (1 - θ) := Real.sqrt_nonneg _
  have s0 : Real.sqrt (1 - θ) * Real.sqrt V ≤ Real.sqrt a.val := by
    rw [← Real.sqrt_mul (by linarith)]; exact Real.sqrt_le_sqrt a0
  have s1 : Real.sqrt a.val ≤ (1 + θ) * Real.sqrt V := by
    refine Real.sqrt_le_iff.2 ⟨by positivity, ?_⟩
    rw [mul_pow, Real.sq_sqrt V0.le]
    nlinarith [mul_nonneg θ0 V0.le, mul_nonneg (mul_nonneg θ0 θ0) V0.le]
  have d1 : |Real.sqrt a.val - Real.sqrt V| ≤ θ / (1 + Real.sqrt (1 - θ)) * Real.sqrt V := by
    have h1 : (Real.sqrt a.val - Real.sqrt V) * (Real.sqrt a.val + Real.sqrt V) = a.val - V := by
      have := Real.mul_self_sqrt ap.le
      have := Real.mul_self_sqrt V0.le
      nlinarith
    have h2 : |Real.sqrt a.val - Real.sqrt V| * (Real.sqrt a.val + Real.sqrt V) ≤ θ * (Real.sqrt V * Real.sqrt V) := by
      rw [Real.mul_self_sqrt V0.le, ← abs_of_nonneg (a := Real.sqrt a.val + Real.sqrt V) (by positivity), ← abs_mul, h1]
      exact e
    have h3 : |Real.sqrt a.val - Real.sqrt V| * ((1 + Real.sqrt (1 - θ)) * Real.sqrt V) ≤ θ * (Real.sqrt V * Real.sqrt V) :=
      (mul_le_mul_of_nonneg_left (by linarith) (abs_nonneg _)).trans h2
    rw [div_mul_eq_mul_div, le_div_iff₀ (by linarith)]
    refine le_of_mul_le_mul_right ?_ S0
    linarith
  have d2 : |(CSqrt.sqrt a).val - Real.sqrt a.val| ≤ u * ((1 + θ) * Real.sqrt V) := by
    rw [FP.val_sqrt]
    refine (hu.err _).trans ?_
    rw [abs_of_nonneg (Real.sqrt_nonneg _)]
    exact mul_le_mul_of_nonneg_left s1 hu.nonneg
  calc |(CSqrt.sqrt a).val - Real.sqrt V| = |((CSqrt.sqrt a).val - Real.sqrt a.val) + (Real.sqrt a.val - Real.sqrt V)| := by congr 1; ring
    _ ≤ u * ((1 + θ) * Real.sqrt V) + θ / (1 + Real.sqrt (1 - θ)) * Real.sqrt V := (abs_add_le _ _).trans (add_le_add d2 d1)
    _ = _ := by ring

/-- **C80** `s()`: where the error of the variance is less than the variance, the computed variance is positive, and the relative error of the uncertainty is about half as large as that of
the variance or less, apart from the rounding of the square root. -/
theorem C80_sdev (hu : Acc f.rd u) (hh : HasHalf f) {env : ℕ → UReal2 (FP f)} (henv : ∀ i, Ok2 (env i)) {c : CalcF f} (hc : c.Safe u fun i => (env i).mu.val) {v : Moments (FP f)} {v' v'' : Moments ℝ}
    {x : UReal2 (FP f)} {y z : UReal2 ℝ} (hx : c.run v env = some x) (hy : c.exact v' (fun i => numbers FP.val (env i)) = some y)
    (hz : c.sizes v'' (fun i => numbers FP.val (env i)) = some z) {V W θ : ℝ} (hV : y.var = some V) (V0 : 0 < V) (hW : magnitude z 2 = some W)
    (hθ : relErr u (2 * c.rounds + momRounds x.hg.diagmap.length x.hg.trimap.length 2) * W ≤ θ * V) (θ1 : θ < 1) :
    ∃ a s S, x.var = some a ∧ 0 < a.val ∧ x.s = some s ∧ y.s = some S ∧ |s.val - S| ≤ (θ / (1 + Real.sqrt (1 - θ)) + u * (1 + θ)) * S := by
  obtain ⟨Z, oZ, fZ, rfl, rfl, rfl, hN, hT⟩ := calc_tr hu hh henv hc hx hy hz
  rw [hN, hT] at hθ
  have := m_hom Tr.t_hom Z 2
  rw [UReal2.var] at hV
  rw [hV] at this
  obtain ⟨a, ha, rfl⟩ := Option.map_eq_some_iff.1 this.symm
  have hv : (mapU Tr.v Z).m 2 = some a.v := by rw [m_hom Tr.v_hom, ha]; rfl
  rw [mag_m Z ha, Option.some_inj] at hW
  subst hW
  have k := cen_few oZ.valid fZ.hg ha
  rw [cenAdds_eq] at k
  have e := (a.err k).trans hθ
  obtain ⟨ap, h⟩ := sqrt_near hu V0 e θ1
  exact ⟨a.v, CSqrt.sqrt a.v, Real.sqrt a.t, hv, ap, by rw [UReal2.s, hv]; rfl, by rw [UReal2.s, hV]; rfl, h⟩

/-- the uncertainty of a variable -/
example : ∃ a s S, (vars5 0).var = some a ∧ 0 < a.val ∧ (vars5 0).s = some s ∧ (numbers FP.val (vars5 0)).s = some S ∧ |s.val - S| ≤ (2 / 10 ^ 15) * S := by
  have t0 : 0 < third.val := by
    have := acc_double.err (1 / 3)
    have := (abs_le.1 this).1
    rw [abs_of_pos (by norm_num)] at this
    change 0 < binary64.rd (1 / 3)
    norm_num at this ⊢
    linarith
  have e0 : ∀ c : FP binary64 → ℝ, c 0 = 0 → numbers c (vars5 0) = ⟨⟨[(1, ⟨c third, 0, ⟨0, c third, c third, c third, c third, c third⟩⟩)], []⟩, c third⟩ := by
    intro c h; simp [numbers, vars5, var2, h]
  have ent : ∀ d : Diag ℝ, HessGrad.triEntries ⟨[(1, d)], []⟩ false = some [] := fun d => rfl
  have V : (numbers FP.val (vars5 0)).var = some (third.val ^ 2) := by
    rw [e0 _ rfl]
    simp [UReal2.var, UReal2.m, UReal2.momArray, UReal2.updateMom, Mom.compute, Mom.m1, Mom.m2, Mom.m2A, ent, pow_two]
  have W : magnitude (numbers (fun a => |a.val|) (vars5 0)) 2 = some (third.val ^ 2) := by
    rw [e0 _ (by simp)]
    simp [magnitude, Mom.compute, Mom.m1, Mom.m2, Mom.m2A, ent, pow_two]
  have k : relErr ((1 / 2) ^ 53) (2 * (CalcF.leaf 0 : CalcF binary64).rounds + momRounds (vars5 0).hg.diagmap.length (vars5 0).hg.trimap.length 2) ≤ 12 / 10 ^ 16 := by
    have : 2 * (CalcF.leaf 0 : CalcF binary64).rounds + momRounds (vars5 0).hg.diagmap.length (vars5 0).hg.trimap.length 2 = 10 := by simp [vars5, var2, CalcF.rounds, momRounds]
    rw [this, relErr]; norm_num
  obtain ⟨a, s, S, h1, h2, h3, h4, h5⟩ := C80_sdev (c := .leaf 0) acc_double (C80_half _) vars5_ok trivial (v := ⟨0, 0, 0, 0, 0, 0⟩) (v' := ⟨0, 0, 0, 0, 0, 0⟩) (v'' := ⟨0, 0, 0, 0, 0, 0⟩) rfl rfl rfl V (by positivity) W
    (mul_le_mul_of_nonneg_right k (by positivity)) (by norm_num)
  refine ⟨a, s, S, h1, h2, h3, h4, h5.trans (mul_le_mul_of_nonneg_right ?_ ?_)⟩
  · have : (12 / 10 ^ 16 : ℝ) / (1 + Real.sqrt (1 - 12 / 10 ^ 16)) ≤ 12 / 10 ^ 16 := div_le_self (by norm_num) (by linarith [Real.sqrt_nonneg (1 - 12 / 10 ^ 16 : ℝ)])
    refine (add_le_add_left this _).trans ?_
    norm_num
  · obtain ⟨V', -, rfl⟩ := Option.map_eq_some_iff.1 h4
    exact Real.sqrt_nonneg _

/-- the bound of `k` roundings is about `k` times that of one -/
theorem C80_linear {u : ℝ} (h0 : 0 ≤ u) {k : ℕ} (hk : k * u < 1) : relErr u k ≤ k * u / (1 - k * u) := by
  have h1 : (1 + u) ^ k ≤ Real.exp (k * u) := by
    rw [Real.exp_nat_mul]
    exact pow_le_pow_left₀ (by linarith) (by linarith [Real.add_one_le_exp u]) k
  have h2 : Real.exp (k * u) * (1 - k * u) ≤ 1 := by
    have := Real.add_one_le_exp (-(k * u))
    calc Real.exp (k * u) * (1 - k * u) ≤ Real.exp (k * u) * Real.exp (-(k * u)) := mul_le_mul_of_nonneg_left (by linarith) (Real.exp_pos _).le
      _ = 1 := by rw [← Real.exp_add]; simp
  have p : 0 < 1 - k * u := by linarith
  rw [relErr, le_div_iff₀ p]
  have := mul_le_mul_of_nonneg_right h1 p.le
  nlinarith

/-- a million roundings in `double` -/
example : relErr ((1 / 2) ^ 53) 1000000 ≤ 2 / 10 ^ 10 := (C80_linear (by norm_num) (by norm_num)).trans (by norm_num)

end Unc.Props
