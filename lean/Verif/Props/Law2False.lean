import Verif.Props.Law2

/-!
# C70: where the second order class misses the law of the result

Witness: `pow(x + y, 2)`, against `(x + y) * (x + y)`, which is the same function.
-/

namespace Unc.Props
open Unc Unc.Spec SMap HessGrad Filter Topology Asymptotics MeasureTheory ProbabilityTheory Mom Sums

/-- `x + y`, `pow(x + y, 2)`, `(x + y) * (x + y)` -/
noncomputable def exSquare : List Node2 :=
  [.bin (UReal2.add exN) (fun s t => s + t) 0 1, .un (fun x => UMath2.pow exN x (UReal2.const ((2 : ℤ) : ℝ))) (fun t => t ^ (2 : ℤ)) 2,
    .bin (UReal2.mul exN) (fun s t => s * t) 2 2]

theorem exSquare_right : NodesRight2 exSquare (List.ofFn ![(1 : ℝ), 1]) := by
  refine ⟨by simp, by simp, C35_add _ _ _, by simp, C35_pow_int _ 2 (by simp), by simp, by simp, C35_mul _ _ _, trivial⟩

theorem exSquare_fn (k : ℕ) (hk : k = 3 ∨ k = 4) : Computes exSquare k fun y : Fin 2 → ℝ => (y 0 + y 1) ^ 2 := fun y => by
  rcases hk with rfl | rfl <;> simp [exSquare, evalR2, List.ofFn_succ, pow_two] <;> norm_cast

theorem exSquare_quad : Quadratic fun y : Fin 2 → ℝ => (y 0 + y 1) ^ 2 :=
  ⟨0, 0, 1, fun y => by simp [Fin.sum_univ_two]; ring⟩

/-- the two results, for measurements `1 ± t` -/
theorem exSquare_out (t : ℝ) (m : Moments ℝ) : ∃ a b c x y, evalU2 exSquare (elems2 ![1, 2] ![1, 1] (t • ![1, 1]) fun _ => m) = some [a, b, c, x, y] ∧
    Ok2 x ∧ Ok2 y ∧ x.hg.vars = {1, 2} ∧ y.hg.vars = {1, 2} ∧
    (∀ i : VId, i = 1 ∨ i = 2 → x.hg.G i = 4 * t ∧ y.hg.G i = 4 * t ∧ x.hg.H i i = t ^ 2 ∧ y.hg.H i i = t ^ 2 ∧ x.hg.momOf i = some m ∧ y.hg.momOf i = some m) ∧
    x.hg.H 1 2 = 0 ∧ y.hg.H 1 2 = t ^ 2 := by
  have o1 : Ok2 (elem2 1 1 t m) := ok_elem2 (by decide) 1 t m
  have o2 : Ok2 (elem2 2 1 t m) := ok_elem2 (by decide) 1 t m
  obtain ⟨S, eS, okS⟩ := C21_binary o1 o2 (1 + 1 : ℝ) 1 1 0 0 0
  have hS : UReal2.add exN (elem2 1 1 t m) (elem2 2 1 t m) = some S := eS exN
  obtain ⟨mS, GS, vS, pS⟩ := C22_binary o1 o2 (eS exN)
  have dS := (C23_add o1 o2 hS).2.2
  have mS' : S.mu = 2 := by rw [mS]; norm_num
  obtain ⟨d, dd, hd, hg⟩ := C35_pow_int exN 2 (show (2 : ℝ) ≠ 0 by norm_num)
  have hd' : Derivs1 (fun t : ℝ => t ^ (2 : ℤ)) 2 4 2 := by
    refine ⟨fun t => 2 * t, Eventually.of_forall fun t => ?_, ?_, by norm_num⟩
    · have := hasDerivAt_pow 2 t
      norm_cast
      simpa using this
    · simpa using (hasDerivAt_id (2 : ℝ)).const_mul 2
  obtain ⟨rfl, rfl⟩ := Derivs1.unique hd hd'
  obtain ⟨u, ex⟩ := hg S okS mS'
  obtain ⟨x, ex', okx⟩ := C21_unary okS ((2 : ℝ) ^ (2 : ℤ)) 4 2
  have hx : UMath2.pow exN S (UReal2.const ((2 : ℤ) : ℝ)) = some x := ex.trans (ex' u)
  rw [Int.cast_ofNat] at hx
  obtain ⟨y, ey, oky⟩ := C21_binary okS okS (S.mu * S.mu) S.mu S.mu 0 0 1
  have hy : UReal2.mul exN S S = some y := ey exN
  obtain ⟨-, Gx, vx, px⟩ := C22_unary okS (ex' u)
  obtain ⟨-, Gy, vy, py⟩ := C22_binary okS okS (ey exN)
  have dx := C23_unary_behaviour okS (by norm_num) (ex' u)
  have dy := (C23_mul okS okS hy).2.2
  have hmix := (C23_function_of_sum (i := 1) (j := 2) (by decide) (by decide) _ _ 1 1 _ _ _ (by norm_num) hS (ex' u)).1
  have zS : ∀ a b, D2 S a b = 0 := fun a b => by rw [dS, D2, D2, H_elem2, H_elem2]; ring
  have gS : ∀ i : VId, i = 1 ∨ i = 2 → S.hg.G i = t := by
    rintro i (rfl | rfl) <;> rw [GS, G_elem2, G_elem2] <;> simp
  have v12 : S.hg.vars = {1, 2} := by rw [vS]; simp [elem2, HessGrad.vars]
  have mom12 : ∀ i : VId, i = 1 ∨ i = 2 → S.hg.momOf i = some m := by
    rintro i (rfl | rfl) <;> rw [pS] <;> simp [elem2, HessGrad.momOf, find?]
  refine ⟨elem2 1 1 t m, elem2 2 1 t m, S, x, y, ?_, okx, oky, vx.trans v12, by rw [vy, v12]; rfl, fun i hi => ⟨?_, ?_, ?_, ?_, ?_, ?_⟩, ?_, ?_⟩
  · simp [exSquare, evalU2, elems2, hS, hx, hy]
  · rw [Gx, gS i hi]
  · rw [Gy, gS i hi, mS']; ring
  · have := dx.1 i
    rw [zS, gS i hi, D2] at this
    linarith
  · have := dy i i
    rw [zS, gS i hi, D2] at this
    linarith
  · rw [px, mom12 i hi]
  · rw [py, mom12 i hi]; rfl
  · rw [D2] at hmix; linarith
  · have := dy 1 2
    rw [zS, gS 1 (Or.inl rfl), gS 2 (Or.inr rfl), D2] at this
    linarith

/-- second central moment of a value which depends on two variables -/
theorem pair_m2 {x : UReal2 ℝ} (hx : Ok2 x) (hv : x.hg.vars = {1, 2}) {m : Moments ℝ} {g h k : ℝ}
    (hi : ∀ i : VId, i = 1 ∨ i = 2 → x.hg.G i = g ∧ x.hg.H i i = h ∧ x.hg.momOf i = some m) (hk : x.hg.H 1 2 = k) :
    x.m 2 = some (2 * (g ^ 2 + 2 * g * h * m.v3 + h ^ 2 * (m.v4 - 1)) + 4 * k ^ 2) := by
  have hm : ∀ i m', x.hg.momOf i = some m' → m.v3 = m'.v3 ∧ m.v4 = m'.v4 := by
    intro i m' h
    have h' : i ∈ x.hg.vars := by
      rw [HessGrad.momOf, Option.map_eq_some_iff] at h
      obtain ⟨d, hd, -⟩ := h
      exact List.mem_toFinset.2 (mem_keys_of_find? hd)
    rw [hv] at h'
    have := (hi i (by simpa using h')).2.2
    rw [h] at this
    obtain rfl := Option.some_inj.1 this
    exact ⟨rfl, rfl⟩
  rw [← UReal2.var, C25_closed hx.valid (fun _ => m.v3) (fun _ => m.v4) hm, hv]
  obtain ⟨g1, h1, -⟩ := hi 1 (Or.inl rfl)
  obtain ⟨g2, h2, -⟩ := hi 2 (Or.inr rfl)
  rw [Finset.sum_pair (by decide), Finset.sum_pair (by decide), Finset.sum_pair (by decide), Finset.sum_pair (by decide)]
  simp [g1, h1, g2, h2, hk]
  ring

/-- third central moment of a value which depends on two variables -/
theorem pair_m3 {x : UReal2 ℝ} (hx : Ok2 x) (hv : x.hg.vars = {1, 2}) {m : Moments ℝ} {g h k : ℝ}
    (hi : ∀ i : VId, i = 1 ∨ i = 2 → x.hg.G i = g ∧ x.hg.H i i = h ∧ x.hg.momOf i = some m) (hk : x.hg.H 1 2 = k) :
    x.m 3 = some (2 * (g ^ 3 * m.v3 + 3 * g ^ 2 * h * m.v4 + 3 * g * h ^ 2 * m.v5 + h ^ 3 * m.v6) + (6 * g ^ 2 * h + 12 * g * h ^ 2 * m.v3 + 6 * h ^ 3 * m.v4)
      - 2 * h * (6 * (g ^ 2 + 2 * g * h * m.v3 + h ^ 2 * (m.v4 - 1)) + 4 * h ^ 2)
      + 12 * g ^ 2 * k + 24 * g * h * k * m.v3 + 12 * h ^ 2 * k * m.v3 ^ 2 + 24 * g * k ^ 2 * m.v3 + 24 * h * k ^ 2 * (m.v4 - 1) + 8 * k ^ 3 * m.v3 ^ 2) := by
  have hd : ∀ i : VId, i = 1 ∨ i = 2 → x.hg.dOf i = ⟨g, h, m⟩ := by
    intro i h
    obtain ⟨h1, h2, h3⟩ := hi i h
    have hm : i ∈ x.hg.vars := by rw [hv]; simpa using h
    rw [Mom.momOf_dOf hm] at h3
    rw [Mom.dOf_grad] at h1
    rw [Mom.H_self] at h2
    cases hh : x.hg.dOf i
    rw [hh] at h1 h2 h3
    simp_all
  have d1 := hd 1 (Or.inl rfl)
  have d2 := hd 2 (Or.inr rfl)
  have c2 := pair_m2 hx hv hi hk
  have e1 : Mom.compute x.hg 1 = some (Mom.m1 x.hg) := rfl
  have e2 : Mom.compute x.hg 2 = Mom.m2 x.hg := rfl
  have e3 : Mom.compute x.hg 3 = Mom.m3 x.hg := rfl
  have f1 : Mom.m1 x.hg = 2 * h := by
    rw [Mom.m1_eq hx.valid, hv, Finset.sum_pair (by decide), d1, d2]; ring
  have h21 : x.hg.H 2 1 = k := by rw [H_comm, hk]
  obtain ⟨r3, f3⟩ : ∃ r, Mom.m3 x.hg = some r ∧ r = 2 * (g ^ 3 * m.v3 + 3 * g ^ 2 * h * m.v4 + 3 * g * h ^ 2 * m.v5 + h ^ 3 * m.v6)
      + (6 * g ^ 2 * h + 12 * g * h ^ 2 * m.v3 + 6 * h ^ 3 * m.v4)
      + 12 * g ^ 2 * k + 24 * g * h * k * m.v3 + 12 * h ^ 2 * k * m.v3 ^ 2 + 24 * g * k ^ 2 * m.v3 + 24 * h * k ^ 2 * m.v4 + 8 * k ^ 3 * m.v3 ^ 2 := by
    refine ⟨_, Mom.m3_eq hx.valid, ?_⟩
    rw [hv]
    simp only [S2, D3, Finset.sum_pair (show (1 : VId) ≠ 2 by decide)]
    simp [d1, d2, Mom.ent, hk, m3A, m3B, m3D, Mom.lit]
    ring
  obtain ⟨f3, rfl⟩ := f3
  cases h2 : Mom.m2 x.hg with
  | none =>
    rw [Mom.m2_eq hx.valid] at h2
    exact absurd h2 (by simp)
  | some r2 =>
    simp [UReal2.m, UReal2.momArray, UReal2.updateMom, e1, e2, h2, f1] at c2
    simp [UReal2.m, UReal2.momArray, UReal2.updateMom, e1, e2, e3, h2, f1, f3, c2, Mom.lit]
    ring

/-- **C70** The full statement is false: the variance of `pow(x + y, 2)` is wrong. -/
theorem C70_false : ¬ C70_statement := by
  intro h
  obtain ⟨out, e, h3, h4, -⟩ := h 2 ![1, 2] ![1, 1] (1 • ![1, 1]) (fun _ => twoPointMom) exSquare 3 4 _ _ (VId → ℝ) _
    (Measure.infinitePi fun _ : VId => Mom.twoPoint) _ (by decide) (by decide) exSquare_right (errors_twoPoint (ids := ![1, 2]) (by decide))
    (exSquare_fn 3 (Or.inl rfl)) (exSquare_fn 4 (Or.inr rfl)) exSquare_quad exSquare_quad
  obtain ⟨a, b, c, x, y, e', okx, oky, vx, vy, hi, hx, hy⟩ := exSquare_out 1 twoPointMom
  rw [one_smul] at e e'
  rw [e] at e'
  obtain rfl := Option.some_inj.1 e'
  have v := h3.var.trans h4.var.symm
  have px := pair_m2 okx vx (fun i h => ⟨(hi i h).1, (hi i h).2.2.1, (hi i h).2.2.2.2.1⟩) hx
  have py := pair_m2 oky vy (fun i h => ⟨(hi i h).2.1, (hi i h).2.2.2.1, (hi i h).2.2.2.2.2⟩) hy
  change x.m 2 = y.m 2 at v
  rw [px, py, Option.some_inj] at v
  norm_num at v

theorem twoPoint_bound {n : ℕ} (ids : Fin n → VId) (i : Fin n) : ∀ᵐ ω ∂(Measure.infinitePi fun _ : VId => Mom.twoPoint), |ω (ids i)| ≤ 2 := by
  have h : ∀ᵐ x ∂Mom.twoPoint, |x| ≤ 2 := by
    rw [Mom.twoPoint, ae_add_measure_iff]
    constructor
    · refine Measure.ae_smul_measure ?_ _
      rw [ae_dirac_iff (measurableSet_le (by fun_prop) (by fun_prop))]
      norm_num
    · refine Measure.ae_smul_measure ?_ _
      rw [ae_dirac_iff (measurableSet_le (by fun_prop) (by fun_prop))]
      rw [abs_le]; norm_num
  exact (measurePreserving_eval_infinitePi (fun _ : VId => Mom.twoPoint) (ids i)).quasiMeasurePreserving.ae h

/-- **C70** The full statement in the limit is false: the third moment of `pow(x + y, 2)` is wrong to the order `t ^ 4`. -/
theorem C70_limit_false : ¬ C70_limit_statement := by
  intro h
  have key := fun k hk => h 2 ![1, 2] ![1, 1] ![1, 1] (fun _ => twoPointMom) exSquare k k _ _ (VId → ℝ) _
    (Measure.infinitePi fun _ : VId => Mom.twoPoint) _ 2 (by decide) (by decide) exSquare_right (errors_twoPoint (ids := ![1, 2]) (by decide))
    (twoPoint_bound ![1, 2]) (exSquare_fn k hk) (exSquare_fn k hk) (by fun_prop) (by fun_prop)
  obtain ⟨x, x0, ox, -, hx, -⟩ := key 3 (Or.inl rfl)
  obtain ⟨y, y0, oy, -, hy, -⟩ := key 4 (Or.inr rfl)
  obtain ⟨M, hM, lM⟩ := hx 3 (by norm_num) (by norm_num)
  obtain ⟨N, hN, lN⟩ := hy 3 (by norm_num) (by norm_num)
  have e : ∀ t, N t - M t = 192 * t ^ 4 + 288 * t ^ 5 + 99 * t ^ 6 := by
    intro t
    obtain ⟨a, b, c, x', y', e', okx, oky, vx, vy, hi, hx, hy⟩ := exSquare_out t twoPointMom
    obtain ⟨out, e1, e2, -⟩ := ox t
    obtain ⟨out', e3, e4, -⟩ := oy t
    rw [e1] at e'
    rw [e1] at e3
    obtain rfl := Option.some_inj.1 e'
    obtain rfl := Option.some_inj.1 e3
    have e2' : x' = x t := e2
    have e4' : y' = y t := e4
    subst e2'
    subst e4'
    have px := pair_m3 okx vx (fun i h => ⟨(hi i h).1, (hi i h).2.2.1, (hi i h).2.2.2.2.1⟩) hx
    have py := pair_m3 oky vy (fun i h => ⟨(hi i h).2.1, (hi i h).2.2.2.1, (hi i h).2.2.2.2.2⟩) hy
    rw [hM, Option.some_inj] at px
    rw [hN, Option.some_inj] at py
    rw [px, py]
    simp only [twoPointMom]
    ring
  have l := (lN.sub lM).congr_left fun t => show _ = 192 * t ^ 4 + 288 * t ^ 5 + 99 * t ^ 6 by rw [← e]; ring
  have l2 : Tendsto (fun t : ℝ => (192 * t ^ 4 + 288 * t ^ 5 + 99 * t ^ 6) / t ^ 4) (𝓝[≠] 0) (𝓝 0) :=
    (l.mono nhdsWithin_le_nhds).tendsto_div_nhds_zero
  have l3 : Tendsto (fun t : ℝ => 192 + 288 * t + 99 * t ^ 2) (𝓝[≠] 0) (𝓝 192) := by
    have : Continuous fun t : ℝ => 192 + 288 * t + 99 * t ^ 2 := by fun_prop
    have := this.tendsto 0
    norm_num at this
    exact this.mono_left nhdsWithin_le_nhds
  have := tendsto_nhds_unique l2 (l3.congr' (by
    filter_upwards [self_mem_nhdsWithin] with t ht
    have : t ≠ 0 := ht
    field_simp))
  norm_num at this

/-- `exp(x)`, one variable -/
example (m s : ℝ) := C70_limit_partial (ids := ![4]) (mu := ![m]) (s := ![s]) (p := [.un (UMath2.exp exN) Real.exp 0]) (by decide) (by decide)
  ⟨by simp, C35_exp _ _, trivial⟩ (Or.inl le_rfl) (errors_twoPoint (ids := ![4]) (by decide)) (twoPoint_bound ![4])
  (F := fun y : Fin 1 → ℝ => Real.exp (y 0)) (k := 1) (fun y => by simp [evalR2]) (G := fun y : Fin 1 → ℝ => y 0) (l := 0)
  (fun y => by simp [evalR2]) (by fun_prop) (by fun_prop)

/-- `x * x + x * y`, two variables with different uncertainties -/
example := C70_limit_partial (ids := ![1, 2]) (mu := ![3, 4]) (s := ![1, 2]) (by decide) (by decide) (exBias_right _)
  (Or.inr fun _ => poly_iter _ exBias_poly _) (errors_twoPoint (ids := ![1, 2]) (by decide)) (twoPoint_bound ![1, 2]) exBias_fn
  (G := fun y : Fin 2 → ℝ => y 0 * y 1) (l := 3) (fun y => by simp [exBias, evalR2, List.ofFn_succ]) (by fun_prop) (by fun_prop)

end Unc.Props
