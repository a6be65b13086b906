import Verif.Props.Taylor

/-!
# `grad` and `hess` of `UReal2` (C33)

`t` carries the expansion of a function `F` of the elementary variables, `x` and `y` those of `f` and `g`, which depend on one
variable each.  Where `F` is locally a function `h` of `f` (or of `f` and `g`, with the other variables at their means),
`t.grad(x)` is `h'` and `t.hess(x, y)` the second derivative of `h`.
-/

namespace Unc.Props
open Unc Unc.Spec Filter Topology Asymptotics SMap HessGrad

/-! ## uniqueness of expansions -/

theorem poly2_zero {b c : ℝ} (h : (fun s : ℝ => b * s + c * s ^ 2) =o[𝓝 0] fun s : ℝ => s ^ 2) : b = 0 ∧ c = 0 := by
  have hb : b = 0 := by
    have h1 : (fun s : ℝ => b * s) =o[𝓝 0] fun s : ℝ => s := by
      have h2 : (fun s : ℝ => s ^ 2) =o[𝓝 0] fun s : ℝ => s := by
        simpa using (isLittleO_pow_pow (𝕜 := ℝ) (m := 1) (n := 2) (by norm_num))
      refine ((h.trans h2).sub (h2.const_mul_left c)).congr_left fun s => by ring
    by_contra hb
    exact isLittleO_irrefl' (f' := fun s : ℝ => s) (l := 𝓝[≠] (0 : ℝ))
      (by
        refine Eventually.frequently ?_
        filter_upwards [self_mem_nhdsWithin] with s hs
        simpa using hs)
      (((h1.const_mul_left b⁻¹).congr_left fun s => by field_simp).mono nhdsWithin_le_nhds)
  subst hb
  refine ⟨rfl, ?_⟩
  by_contra hc
  exact isLittleO_irrefl' (f' := fun s : ℝ => s ^ 2) (l := 𝓝[≠] (0 : ℝ))
    (by
      refine Eventually.frequently ?_
      filter_upwards [self_mem_nhdsWithin] with s hs
      simpa using hs)
    (((h.const_mul_left c⁻¹).congr_left fun s => by field_simp; ring).mono nhdsWithin_le_nhds)

theorem jet1_unique {F : ℝ → ℝ} {a b c a' b' c' : ℝ} (h : (fun s => F s - (a + b * s + c * s ^ 2)) =o[𝓝 0] fun s : ℝ => s ^ 2)
    (h' : (fun s => F s - (a' + b' * s + c' * s ^ 2)) =o[𝓝 0] fun s : ℝ => s ^ 2) (ha : a = a') : b = b' ∧ c = c' := by
  subst ha
  have := poly2_zero (b := b' - b) (c := c' - c) ((h.sub h').congr_left fun s => by ring)
  exact ⟨by linarith [this.1], by linarith [this.2]⟩

theorem jetR {F : ℝ → ℝ} {a b c : ℝ} (h : (fun s => F s - (a + b * s + c * s ^ 2)) =o[𝓝 0] fun s : ℝ => s ^ 2) :
    Jet F a (fun s => b * s) (fun s => c * s ^ 2) := by
  refine ⟨h.congr_right fun s => by simp, ?_, ?_⟩
  · exact (isBigO_refl (fun s : ℝ => s) _).norm_right.const_mul_left b
  · exact ((isBigO_refl (fun s : ℝ => s ^ 2) _).const_mul_left c).congr_right fun s => by simp

/-- at the origin the expansion is exact -/
theorem at_zero {F : ℝ → ℝ} {a b c : ℝ} (h : (fun s => F s - (a + b * s + c * s ^ 2)) =o[𝓝 0] fun s : ℝ => s ^ 2) : F 0 = a := by
  have := (h.isBigO.eq_zero_imp).self_of_nhds
  simp at this
  linarith

/-! ## what the code reads -/

theorem onlyOn_diag {i : VId} {x : UReal2 ℝ} (hx : Ok2 x) (h : OnlyOn i x) :
    ∃ d, x.hg.diagmap = [(i, d)] ∧ d.grad = x.hg.G i ∧ d.hhess = x.hg.H i i := by
  have hk : keys x.hg.diagmap = [i] := by
    have hn : (keys x.hg.diagmap).Nodup := hx.valid.dsorted.imp fun h => ne_of_lt h
    have h1 := h.1
    unfold HessGrad.vars at h1
    have h2 : (keys x.hg.diagmap).toFinset = ([i] : List VId).toFinset := by simpa using h1
    exact List.perm_singleton.1 ((List.toFinset_eq_iff_perm_dedup.1 h2).trans (by simp) |> (hn.dedup ▸ ·))
  obtain ⟨d, hd⟩ : ∃ d, x.hg.diagmap = [(i, d)] := by
    unfold keys at hk
    match hm : x.hg.diagmap with
    | [] => simp [hm] at hk
    | [(j, d)] => simp [hm] at hk; exact ⟨d, by rw [hk]⟩
    | _ :: _ :: _ => simp [hm] at hk
  refine ⟨d, hd, ?_, ?_⟩
  · simp [HessGrad.G, hd, SMap.find?]
  · simp [HessGrad.H, hd, SMap.find?]

theorem diagGet_grad (u : Moments ℝ) (hg : HessGrad ℝ) (i : VId) : (hg.diagGet u i).grad = hg.G i := by
  unfold diagGet HessGrad.G
  cases SMap.find? hg.diagmap i <;> simp [newDiag]

theorem hhessGet_eq (u : Moments ℝ) (hg : HessGrad ℝ) (i j : VId) : hg.hhessGet u i j = some (hg.H i j) := by
  unfold hhessGet HessGrad.H
  by_cases h : i = j
  · subst h
    simp only [ne_eq, not_true_eq_false, if_false, if_true, diagGet]
    cases SMap.find? hg.diagmap i <;> simp [newDiag]
  · have hlt : min i j < max i j := lt_of_le_of_ne min_le_max (by simpa using h)
    simp only [ne_eq, h, not_false_eq_true, if_true, triGet, hlt, SMap.get, if_false]

/-- **C33** the code computes, for `x` and `y` on one variable each -/
theorem grad_eq (u : Moments ℝ) (t : UReal2 ℝ) {x : UReal2 ℝ} {i : VId} (hx : Ok2 x) (h : OnlyOn i x) :
    UReal2.grad u t x = .ok (t.hg.G i / x.hg.G i) := by
  obtain ⟨d, hd, hg, -⟩ := onlyOn_diag hx h
  simp only [UReal2.grad, hd, diagGet_grad, hg]

theorem hess_eq_ne (u : Moments ℝ) (t : UReal2 ℝ) {x y : UReal2 ℝ} {i j : VId} (hij : i ≠ j) (hx : Ok2 x) (h : OnlyOn i x)
    (hy : Ok2 y) (h' : OnlyOn j y) : UReal2.hess u t x y = some (.ok (2 * t.hg.H i j / (x.hg.G i * y.hg.G j))) := by
  obtain ⟨d, hd, hg, -⟩ := onlyOn_diag hx h
  obtain ⟨e, he, hg', -⟩ := onlyOn_diag hy h'
  simp [UReal2.hess, hd, he, hij, hhessGet_eq, hg, hg', Mom.lit]

theorem hess_eq_same (u : Moments ℝ) (t : UReal2 ℝ) {x y : UReal2 ℝ} {i : VId} (hx : Ok2 x) (h : OnlyOn i x)
    (hy : Ok2 y) (h' : OnlyOn i y) : UReal2.hess u t x y =
      if x.hg.G i = y.hg.G i ∧ x.hg.H i i = y.hg.H i i then
        some (.ok ((2 * t.hg.H i i - t.hg.G i / x.hg.G i * (2 * x.hg.H i i)) / (x.hg.G i * x.hg.G i)))
      else some (.error .invalidArgument) := by
  obtain ⟨d, hd, hg, hh⟩ := onlyOn_diag hx h
  obtain ⟨e, he, hg', hh'⟩ := onlyOn_diag hy h'
  simp only [UReal2.hess, hd, he, hhessGet_eq, hg, hg', hh, hh', diagGet_grad, Mom.lit]
  have e1 : ∀ a b : ℝ, (!CCmp.eqb a b) = true ↔ a ≠ b := by
    intro a b
    rw [Bool.not_eq_true', ← Bool.not_eq_true, eqb_iff]
  simp only [ne_eq, not_true_eq_false, if_false, Bool.or_eq_true, e1]
  by_cases h1 : x.hg.G i = y.hg.G i <;> by_cases h2 : x.hg.H i i = y.hg.H i i <;> simp [h1, h2]

/-! ## one variable -/

section
variable {t x y : UReal2 ℝ} {i j : VId} {u : Moments ℝ}

/-- **C33** `t.grad(x)` is the first derivative of `t` with respect to `x`, and `t.hess(x, x)` the second derivative, also when
`x` is a non-linear function of the variable it depends on.  `y` is `x`, or another value with the same dependency. -/
theorem C33_grad_hess {F f h : ℝ → ℝ} {d dd : ℝ} (hx : Ok2 x) (ho : OnlyOn i x) (hF : ExpandsAlong i F t) (hf : ExpandsAlong i f x)
    (hh : ∀ᶠ z in 𝓝 0, F z = h (f z)) (hd : Derivs1 h x.mu d dd) :
    UReal2.grad u t x = .ok d ∧ UReal2.hess u t x x = some (.ok dd) ∧
      ∀ y, Ok2 y → y.hg.vars = x.hg.vars → y.hg.G i = x.hg.G i → y.hg.H i i = x.hg.H i i → UReal2.hess u t x y = some (.ok dd) := by
  have hj := ((jetR hf).comp1 (Derivs1.taylor hd)).exp
  have h0 : t.mu = h x.mu := by
    rw [← at_zero hF, hh.self_of_nhds, at_zero hf]
  have hF' : (fun s => F s - (h x.mu + (d * x.hg.G i) * s + (d * x.hg.H i i + dd / 2 * (x.hg.G i * x.hg.G i)) * s ^ 2)) =o[𝓝 0] fun s : ℝ => s ^ 2 := by
    refine (hj.congr' ?_ (Eventually.of_forall fun s => by simp))
    filter_upwards [hh] with s hs
    rw [hs]; ring
  obtain ⟨e1, e2⟩ := jet1_unique hF hF' h0
  have hne := ho.2
  have hg : t.hg.G i / x.hg.G i = d := by rw [e1]; field_simp
  have hhh : (2 * t.hg.H i i - t.hg.G i / x.hg.G i * (2 * x.hg.H i i)) / (x.hg.G i * x.hg.G i) = dd := by
    rw [hg, e2]; field_simp; ring
  refine ⟨by rw [grad_eq u t hx ho, hg], by rw [hess_eq_same u t hx ho hx ho, if_pos ⟨rfl, rfl⟩, hhh], fun y hy hv hG hH => ?_⟩
  have hoy : OnlyOn i y := ⟨hv.trans ho.1, by rw [hG]; exact hne⟩
  rw [hess_eq_same u t hx ho hy hoy, if_pos ⟨hG.symm, hH.symm⟩, hhh]

/-! ## two variables -/

theorem plane_tendsto {n : ℕ} (k l : Fin n) (α β : ℝ) :
    Tendsto (fun s : ℝ => (Pi.single k (α * s) + Pi.single l (β * s) : Fin n → ℝ)) (𝓝 0) (𝓝 0) := by
  have h1 : ∀ (k : Fin n) (α : ℝ), Continuous (fun s : ℝ => (Pi.single k (α * s) : Fin n → ℝ)) := fun k α =>
    continuous_pi fun i => by
      by_cases h : i = k
      · subst h; simp only [Pi.single_eq_same]; fun_prop
      · simp only [Pi.single_eq_of_ne h]; fun_prop
  exact ((h1 k α).add (h1 l β)).tendsto' 0 0 (by simp)

/-- the expansion along a direction in the plane of two variables -/
theorem plane {n : ℕ} {ids : Fin n → VId} {k l : Fin n} (hkl : k ≠ l) {F : (Fin n → ℝ) → ℝ} {x : UReal2 ℝ} (h : Expands ids F x) (α β : ℝ) :
    (fun s => F (Pi.single k (α * s) + Pi.single l (β * s)) - (x.mu + (α * x.hg.G (ids k) + β * x.hg.G (ids l)) * s +
      (α ^ 2 * x.hg.H (ids k) (ids k) + β ^ 2 * x.hg.H (ids l) (ids l) + 2 * α * β * x.hg.H (ids k) (ids l)) * s ^ 2)) =o[𝓝 0] fun s : ℝ => s ^ 2 := by
  have ht := plane_tendsto k l α β
  have h1 := h.comp_tendsto ht
  have hb : (fun s : ℝ => ‖(Pi.single k (α * s) + Pi.single l (β * s) : Fin n → ℝ)‖ ^ 2) =O[𝓝 0] fun s : ℝ => s ^ 2 := by
    refine IsBigO.of_bound ((|α| + |β|) ^ 2) (Eventually.of_forall fun s => ?_)
    have : ‖(Pi.single k (α * s) + Pi.single l (β * s) : Fin n → ℝ)‖ ≤ (|α| + |β|) * |s| := by
      refine (norm_add_le _ _).trans ?_
      rw [Pi.norm_single, Pi.norm_single, Real.norm_eq_abs, Real.norm_eq_abs, abs_mul, abs_mul]
      linarith
    rw [norm_pow, norm_pow, norm_norm, Real.norm_eq_abs s]
    calc ‖(Pi.single k (α * s) + Pi.single l (β * s) : Fin n → ℝ)‖ ^ 2 ≤ ((|α| + |β|) * |s|) ^ 2 := by gcongr
      _ = (|α| + |β|) ^ 2 * |s| ^ 2 := by ring
  refine (h1.trans_isBigO hb).congr_left fun s => ?_
  simp only [Function.comp_apply]
  congr 1
  have hsum : ∀ c : Fin n → ℝ, ∑ i, c i * (Pi.single k (α * s) + Pi.single l (β * s) : Fin n → ℝ) i = c k * (α * s) + c l * (β * s) := by
    intro c
    simp only [Pi.add_apply, mul_add, Finset.sum_add_distrib, Pi.single_apply, mul_ite, mul_zero, Finset.sum_ite_eq', Finset.mem_univ, if_true]
  have hdbl : ∑ i, ∑ j, x.hg.H (ids i) (ids j) * (Pi.single k (α * s) + Pi.single l (β * s) : Fin n → ℝ) i *
      (Pi.single k (α * s) + Pi.single l (β * s) : Fin n → ℝ) j =
      ∑ i, (x.hg.H (ids i) (ids k) * (α * s) + x.hg.H (ids i) (ids l) * (β * s)) * (Pi.single k (α * s) + Pi.single l (β * s) : Fin n → ℝ) i := by
    refine Finset.sum_congr rfl fun i _ => ?_
    rw [hsum]; ring
  rw [hsum, hdbl, hsum, H_comm x.hg (ids l) (ids k)]
  ring

theorem expands_along {n : ℕ} {ids : Fin n → VId} {F : (Fin n → ℝ) → ℝ} {x : UReal2 ℝ} (h : Expands ids F x) (k : Fin n) :
    ExpandsAlong (ids k) (fun s => F (Pi.single k s)) x := by
  have ht : Tendsto (fun s : ℝ => (Pi.single k s : Fin n → ℝ)) (𝓝 0) (𝓝 0) := by simpa using plane_tendsto k k 1 0
  have h1 := h.comp_tendsto ht
  refine (h1.congr_left fun s => ?_).congr_right fun s => ?_
  · simp only [Function.comp_apply, Pi.single_apply, mul_ite, mul_zero, ite_mul, zero_mul, Finset.sum_ite_eq', Finset.mem_univ, if_true, Finset.sum_const_zero]
    ring
  · simp [Pi.norm_single]

/-- **C33** `t.hess(x, y)` is the mixed second derivative of `t` with respect to `x` and `y`, the other variables fixed. -/
theorem C33_hess_mixed_partial {n : ℕ} {ids : Fin n → VId} {k l : Fin n} (hkl : ids k ≠ ids l) {F f g : (Fin n → ℝ) → ℝ} {h : ℝ → ℝ → ℝ}
    {dx dy dxx dyy dxy : ℝ} (hx : Ok2 x) (hy : Ok2 y) (hox : OnlyOn (ids k) x) (hoy : OnlyOn (ids l) y)
    (hF : Expands ids F t) (hf : Expands ids f x) (hg : Expands ids g y)
    (hh : ∀ᶠ z in 𝓝 0, (∀ m, m ≠ k → m ≠ l → z m = 0) → F z = h (f z) (g z)) (hd : Derivs2 h x.mu y.mu dx dy dxx dyy dxy) :
    UReal2.hess u t x y = some (.ok dxy) ∧ UReal2.hess u t y x = some (.ok dxy) ∧
      UReal2.grad u t x = .ok dx ∧ UReal2.grad u t y = .ok dy := by
  have hkl' : k ≠ l := fun h => hkl (by rw [h])
  have z1 : x.hg.G (ids l) = 0 := G_zero (by have := hox.1; unfold HessGrad.vars at this; rw [← List.mem_toFinset, this]; simpa using hkl.symm)
  have z2 : y.hg.G (ids k) = 0 := G_zero (by have := hoy.1; unfold HessGrad.vars at this; rw [← List.mem_toFinset, this]; simpa using hkl)
  have z3 : x.hg.H (ids l) (ids l) = 0 := H_zero hx.valid (by have := hox.1; unfold HessGrad.vars at this; rw [← List.mem_toFinset, this]; simpa using hkl.symm) _
  have z4 : y.hg.H (ids k) (ids k) = 0 := H_zero hy.valid (by have := hoy.1; unfold HessGrad.vars at this; rw [← List.mem_toFinset, this]; simpa using hkl) _
  have z5 : x.hg.H (ids k) (ids l) = 0 := by
    rw [H_comm]; exact H_zero hx.valid (by have := hox.1; unfold HessGrad.vars at this; rw [← List.mem_toFinset, this]; simpa using hkl.symm) _
  have z6 : y.hg.H (ids k) (ids l) = 0 := H_zero hy.valid (by have := hoy.1; unfold HessGrad.vars at this; rw [← List.mem_toFinset, this]; simpa using hkl) _
  have h0 : t.mu = h x.mu y.mu := by
    have e0 := hh.self_of_nhds (fun m _ _ => rfl)
    have a1 := at_zero (plane hkl' hF 0 0)
    have a2 := at_zero (plane hkl' hf 0 0)
    have a3 := at_zero (plane hkl' hg 0 0)
    simp at a1 a2 a3
    rw [← a1, ← a2, ← a3, e0]
  have key : ∀ α β : ℝ, α * t.hg.G (ids k) + β * t.hg.G (ids l) = dx * (α * x.hg.G (ids k)) + dy * (β * y.hg.G (ids l)) ∧
      α ^ 2 * t.hg.H (ids k) (ids k) + β ^ 2 * t.hg.H (ids l) (ids l) + 2 * α * β * t.hg.H (ids k) (ids l) =
      dx * (α ^ 2 * x.hg.H (ids k) (ids k)) + dy * (β ^ 2 * y.hg.H (ids l) (ids l)) + dxx / 2 * (α * x.hg.G (ids k)) ^ 2 +
        dyy / 2 * (β * y.hg.G (ids l)) ^ 2 + dxy * (α * x.hg.G (ids k) * (β * y.hg.G (ids l))) := by
    intro α β
    have hj := ((jetR (plane hkl' hf α β)).comp2 (jetR (plane hkl' hg α β)) (Derivs2.taylor hd)).exp
    have ht := plane_tendsto k l α β
    refine jet1_unique (plane hkl' hF α β) ?_ h0
    refine hj.congr' ?_ (Eventually.of_forall fun s => by simp)
    filter_upwards [ht.eventually hh] with s hs
    rw [hs fun m h1 h2 => by simp [h1, h2], z1, z2, z3, z4, z5, z6]
    ring
  obtain ⟨g1, k1⟩ := key 1 0
  obtain ⟨g2, k2⟩ := key 0 1
  obtain ⟨-, k3⟩ := key 1 1
  have hmix : 2 * t.hg.H (ids k) (ids l) = dxy * (x.hg.G (ids k) * y.hg.G (ids l)) := by linarith
  have n1 := hox.2
  have n2 := hoy.2
  refine ⟨?_, ?_, ?_, ?_⟩
  · rw [hess_eq_ne u t hkl hx hox hy hoy, hmix]; congr 2; field_simp
  · rw [hess_eq_ne u t hkl.symm hy hoy hx hox, H_comm, hmix]; congr 2; field_simp
  · rw [grad_eq u t hx hox]; congr 1
    have : t.hg.G (ids k) = dx * x.hg.G (ids k) := by linarith
    rw [this]; field_simp
  · rw [grad_eq u t hy hoy]; congr 1
    have : t.hg.G (ids l) = dy * y.hg.G (ids l) := by linarith
    rw [this]; field_simp

/-! ## functions and computations of the library -/

/-- **C33** For every function of one argument that passes its derivatives (C35: all of them), the derivatives of the result
with respect to the argument are those of the function. -/
theorem C33_function1 {g : UReal2 ℝ → Option (UReal2 ℝ)} {F : ℝ → ℝ} (hg : Passes1 g F x.mu) (hx : Ok2 x) (ho : OnlyOn i x) :
    ∃ z d dd, g x = some z ∧ Derivs1 F x.mu d dd ∧ UReal2.grad u z x = .ok d ∧ UReal2.hess u z x x = some (.ok dd) := by
  obtain ⟨d, dd, hd, hr⟩ := C35_result1 hg
  obtain ⟨z, e, -, -, hG, -, -, hD, -⟩ := hr x hx rfl
  have hne := ho.2
  refine ⟨z, d, dd, e, hd, ?_, ?_⟩
  · rw [grad_eq u z hx ho, hG]; congr 1; field_simp
  · rw [hess_eq_same u z hx ho hx ho, if_pos ⟨rfl, rfl⟩, hG]
    have := hD i
    unfold D2 at this
    rw [this]
    congr 2; field_simp; ring

theorem iterOk_only (hx : Ok2 x) (ho : OnlyOn i x) (c : ℝ) : IterOk x c := by
  obtain ⟨d, hd, -⟩ := onlyOn_diag hx ho
  exact Or.inr (Or.inl (by simp [HessGrad.size, hd]))

/-- **C33** The same for functions of two arguments which depend on different variables. -/
theorem C33_function2 {g : UReal2 ℝ → UReal2 ℝ → Option (UReal2 ℝ)} {F : ℝ → ℝ → ℝ} (hg : Passes2 g F x.mu y.mu) (hx : Ok2 x) (hy : Ok2 y)
    (hox : OnlyOn i x) (hoy : OnlyOn j y) (hij : i ≠ j) :
    ∃ z dx dy dxx dyy dxy, g x y = some z ∧ Derivs2 F x.mu y.mu dx dy dxx dyy dxy ∧ UReal2.grad u z x = .ok dx ∧ UReal2.grad u z y = .ok dy ∧
      UReal2.hess u z x x = some (.ok dxx) ∧ UReal2.hess u z y y = some (.ok dyy) ∧
      UReal2.hess u z x y = some (.ok dxy) ∧ UReal2.hess u z y x = some (.ok dxy) := by
  obtain ⟨dx, dy, dxx, dyy, dxy, hd, hr⟩ := C35_result2 hg
  obtain ⟨z, e, -, -, hG, -, -, hD, hC⟩ := hr x y hx hy rfl rfl
  have n1 := hox.2
  have n2 := hoy.2
  have z1 : x.hg.G j = 0 := G_zero (by have := hox.1; unfold HessGrad.vars at this; rw [← List.mem_toFinset, this]; simpa using hij.symm)
  have z2 : y.hg.G i = 0 := G_zero (by have := hoy.1; unfold HessGrad.vars at this; rw [← List.mem_toFinset, this]; simpa using hij)
  have hj : j ∉ keys x.hg.diagmap := by have := hox.1; unfold HessGrad.vars at this; rw [← List.mem_toFinset, this]; simpa using hij.symm
  have hi : i ∉ keys y.hg.diagmap := by have := hoy.1; unfold HessGrad.vars at this; rw [← List.mem_toFinset, this]; simpa using hij
  have z3 := H_zero hx.valid hj
  have z4 := H_zero hy.valid hi
  have ch := hC (iterOk_only hx hox _) (iterOk_only hy hoy _) i j
  unfold D2 at ch hD
  have hmix : 2 * z.hg.H i j = dxy * (x.hg.G i * y.hg.G j) := by
    rw [ch, z1, z2, H_comm x.hg i j, z3, z4]; ring
  have hi' : z.hg.G i = dx * x.hg.G i := by rw [hG, z2]; ring
  have hj' : z.hg.G j = dy * y.hg.G j := by rw [hG, z1]; ring
  refine ⟨z, dx, dy, dxx, dyy, dxy, e, hd, ?_, ?_, ?_, ?_, ?_, ?_⟩
  · rw [grad_eq u z hx hox, hi']; congr 1; field_simp
  · rw [grad_eq u z hy hoy, hj']; congr 1; field_simp
  · rw [hess_eq_same u z hx hox hx hox, if_pos ⟨rfl, rfl⟩, hi', hD, z2, z4]
    congr 2; field_simp; ring
  · rw [hess_eq_same u z hy hoy hy hoy, if_pos ⟨rfl, rfl⟩, hj', hD, z1, z3]
    congr 2; field_simp; ring
  · rw [hess_eq_ne u z hij hx hox hy hoy, hmix]; congr 2; field_simp
  · rw [hess_eq_ne u z hij.symm hy hoy hx hox, H_comm, hmix]; congr 2; field_simp

/-- every result of a computation satisfies the class invariants -/
theorem eval_ok {n : ℕ} {ids : Fin n → VId} {mu s : Fin n → ℝ} {mom : Fin n → Moments ℝ} {p : List Node2} (hlt : ∀ i, ids i < maxId)
    (hp : NodesRight2 p (List.ofFn mu)) {out : List (UReal2 ℝ)} (h : evalU2 p (elems2 ids mu s mom) = some out) (k : ℕ) :
    Ok2 (out.getD k (UReal2.const 0)) := by
  obtain ⟨out', e, hr, -⟩ := evalU2_rel (Fin.elim0 : Fin 0 → VId) p _ _ (rel_elems hlt mu s mom (fun _ => (0 : Fin n → ℝ)) (by simp))
    (by simpa [List.map_ofFn, Function.comp_def] using hp) (Or.inl (by omega))
  rw [h] at e
  cases e
  exact (rel_get hr k).ok

/-- **C33** In every computation whose nodes pass their derivatives, with no condition on the iteration over the Hessian: if the
result `a` is locally the function `h` of the result `b`, which depends on the variable `i` only, as this variable varies, then
`grad` and `hess` are the derivatives of `h`. -/
theorem C33_computation {n : ℕ} {ids : Fin n → VId} {mu s : Fin n → ℝ} {mom : Fin n → Moments ℝ} {p : List Node2} (hinj : Function.Injective ids)
    (hlt : ∀ i, ids i < maxId) (hp : NodesRight2 p (List.ofFn mu)) {out : List (UReal2 ℝ)} (ho : evalU2 p (elems2 ids mu s mom) = some out)
    {a b : ℕ} {i : Fin n} (hb : OnlyOn (ids i) (out.getD b (UReal2.const 0))) {h : ℝ → ℝ} {d dd : ℝ}
    (hh : ∀ᶠ z in 𝓝 0, fn2 p mu s a (Pi.single i z) = h (fn2 p mu s b (Pi.single i z)))
    (hd : Derivs1 h (fn2 p mu s b 0) d dd) :
    UReal2.grad u (out.getD a (UReal2.const 0)) (out.getD b (UReal2.const 0)) = .ok d ∧
      UReal2.hess u (out.getD a (UReal2.const 0)) (out.getD b (UReal2.const 0)) (out.getD b (UReal2.const 0)) = some (.ok dd) := by
  obtain ⟨out', e, -, hk⟩ := C36_axis (mom := mom) (s := s) hinj hlt hp
  rw [ho] at e
  cases e
  have hf : ExpandsAlong (ids i) (fun z => fn2 p mu s b (Pi.single i z)) (out.getD b (UReal2.const 0)) := hk b i
  have hm : fn2 p mu s b 0 = (out.getD b (UReal2.const 0)).mu := by simpa using at_zero hf
  rw [hm] at hd
  obtain ⟨h1, h2, -⟩ := C33_grad_hess (u := u) (eval_ok hlt hp ho b) hb (hk a i) hf hh hd
  exact ⟨h1, h2⟩

/-- an elementary variable depends on itself only -/
theorem onlyOn_elem2 (i : VId) (mu : ℝ) {s : ℝ} (hs : s ≠ 0) (m : Moments ℝ) : OnlyOn i (elem2 i mu s m) := by
  refine ⟨by simp [HessGrad.vars, elem2, keys], ?_⟩
  rw [G_elem2, if_pos rfl]; exact hs

/-- the derivatives of `exp(x)` with respect to `x = 2 ± 3` -/
example : ∃ z, UMath2.exp exN (elem2 1 2 3 exN) = some z ∧ UReal2.grad exN z (elem2 1 2 3 exN) = .ok (Real.exp 2) ∧
    UReal2.hess exN z (elem2 1 2 3 exN) (elem2 1 2 3 exN) = some (.ok (Real.exp 2)) := by
  obtain ⟨z, d, dd, e, hd, h1, h2⟩ := C33_function1 (u := exN) (C35_exp exN (elem2 1 2 3 exN).mu) (ok_elem2 (i := 1) (by decide) 2 3 exN) (onlyOn_elem2 1 2 three_ne_zero exN)
  obtain ⟨rfl, rfl⟩ := Derivs1.unique hd ⟨Real.exp, Eventually.of_forall Real.hasDerivAt_exp, Real.hasDerivAt_exp _, rfl⟩
  exact ⟨z, e, h1, h2⟩

/-- the second derivative of `x * y` with respect to `x` and `y` is 1 -/
example : ∃ z, UReal2.mul exN (elem2 1 2 3 exN) (elem2 4 5 6 exN) = some z ∧
    UReal2.hess exN z (elem2 1 2 3 exN) (elem2 4 5 6 exN) = some (.ok 1) := by
  obtain ⟨z, dx, dy, dxx, dyy, dxy, e, hd, -, -, -, -, h1, -⟩ := C33_function2 (u := exN)
    (C35_mul exN (elem2 1 2 3 exN).mu (elem2 4 5 6 exN).mu) (ok_elem2 (i := 1) (by decide) 2 3 exN) (ok_elem2 (i := 4) (by decide) 5 6 exN)
    (onlyOn_elem2 1 2 three_ne_zero exN) (onlyOn_elem2 4 5 (by norm_num) exN) (by decide)
  have e1 : (fun s t : ℝ => s * t) = fun s t => 0 * s + 0 * t + 1 * (s * t) := by funext s t; ring
  rw [e1] at hd
  obtain ⟨-, -, -, -, rfl⟩ := Derivs2.unique hd (derivs_affine _ _ 0 0 1)
  exact ⟨z, e, h1⟩

/-- the derivatives of `e * e` with respect to `e = exp(x)`, a non-linear function of the elementary variable: `2 e` and `2` -/
example : ∃ e t, UMath2.exp exN (elem2 1 0 3 exN) = some e ∧ UReal2.mul exN e e = some t ∧ UReal2.grad exN t e = .ok 2 ∧
    UReal2.hess exN t e e = some (.ok 2) := by
  obtain ⟨d, dd, hd, hr⟩ := C35_result1 (C35_exp exN 0)
  obtain ⟨rfl, rfl⟩ := Derivs1.unique hd ⟨Real.exp, Eventually.of_forall Real.hasDerivAt_exp, Real.hasDerivAt_exp _, rfl⟩
  obtain ⟨e, he, oke, -, hG, hv, -⟩ := hr _ (ok_elem2 (i := 1) (by decide) 0 3 exN) rfl
  have ho : OnlyOn 1 e := by
    refine ⟨by rw [hv]; exact (onlyOn_elem2 1 0 three_ne_zero exN).1, ?_⟩
    rw [hG, G_elem2]; simp
  obtain ⟨dx, dy, dxx, dyy, dxy, -, hr2⟩ := C35_result2 (C35_mul exN e.mu e.mu)
  obtain ⟨t, ht, -⟩ := hr2 e e oke oke rfl rfl
  have hout : evalU2 [.un (UMath2.exp exN) Real.exp 0, .bin (UReal2.mul exN) (fun s t => s * t) 1 1] (elems2 ![1] ![0] ![3] fun _ => exN) =
      some [elem2 1 0 3 exN, e, t] := by
    simp [evalU2, elems2, he, ht]
  have hsq : ∀ v : ℝ, HasDerivAt (fun v : ℝ => v * v) (2 * v) v := fun v => ((hasDerivAt_id v).fun_mul (hasDerivAt_id v)).congr_deriv (by simp; ring)
  obtain ⟨h1, h2⟩ := C33_computation (u := exN) (a := 2) (b := 1) (i := 0) (h := fun v => v * v) (d := 2) (dd := 2) (mu := ![0]) (s := ![3])
    (p := [.un (UMath2.exp exN) Real.exp 0, .bin (UReal2.mul exN) (fun s t => s * t) 1 1]) (ids := ![1]) (mom := fun _ => exN)
    (fun a b _ => Subsingleton.elim a b) (by decide) ⟨by simp, C35_exp _ _, by simp, by simp, C35_mul _ _ _, trivial⟩ hout ho
    (Eventually.of_forall fun z => by simp [fn2, evalR2]) ⟨fun v => 2 * v, Eventually.of_forall hsq, by simpa using (hasDerivAt_id _).const_mul (2 : ℝ), by simp [fn2, evalR2]⟩
  exact ⟨e, t, he, ht, h1, h2⟩

/-- **C33** `hess` can only be as good as the stored Hessian (C23): for `exp(x + y)` it returns 0 instead of 1. -/
theorem C33_mixed_false : ∃ S z, UReal2.add exN (elem2 1 0 1 exN) (elem2 2 0 1 exN) = some S ∧ UMath2.exp exN S = some z ∧
    (∀ u, UReal2.hess u z (elem2 1 0 1 exN) (elem2 2 0 1 exN) = some (.ok 0)) ∧
    Derivs2 (fun s t => Real.exp (s + t)) 0 0 1 1 1 1 1 := by
  obtain ⟨S, eS, okS⟩ := C21_binary (ok_elem2 (i := 1) (by decide) 0 1 exN) (ok_elem2 (i := 2) (by decide) 0 1 exN) (0 + 0 : ℝ) 1 1 0 0 0
  have hS : UReal2.add exN (elem2 1 0 1 exN) (elem2 2 0 1 exN) = some S := eS exN
  obtain ⟨mS, GS, dS⟩ := C23_add (ok_elem2 (i := 1) (by decide) 0 1 exN) (ok_elem2 (i := 2) (by decide) 0 1 exN) hS
  have mS' : S.mu = 0 := by rw [mS]; simp [elem2]
  obtain ⟨z, ez, -⟩ := C21_unary okS (Real.exp S.mu) (Real.exp S.mu) (Real.exp S.mu)
  refine ⟨S, z, hS, ez exN, fun u => ?_, ?_⟩
  · rw [hess_eq_ne u z (by decide) (ok_elem2 (i := 1) (by decide) 0 1 exN) (onlyOn_elem2 1 0 one_ne_zero exN)
      (ok_elem2 (i := 2) (by decide) 0 1 exN) (onlyOn_elem2 2 0 one_ne_zero exN)]
    have ez' := ez exN
    rw [mS', Real.exp_zero] at ez'
    have hm := (C23_function_of_sum (i := 1) (j := 2) (by decide) (by decide) _ _ 0 0 1 1 1 one_ne_zero hS ez').1
    unfold D2 at hm
    rw [hm]; simp
  · have hE : ∀ p : ℝ × ℝ, HasFDerivAt (fun p : ℝ × ℝ => Real.exp (p.1 + p.2)) (lin (Real.exp (p.1 + p.2)) (Real.exp (p.1 + p.2))) p := fun p =>
      (((hf1 p).add (hf2 p)).exp).congr_fderiv (by ext <;> simp [lin])
    exact ⟨fun p => Real.exp (p.1 + p.2), fun p => Real.exp (p.1 + p.2), Eventually.of_forall hE,
      (hE (0, 0)).congr_fderiv (by simp), (hE (0, 0)).congr_fderiv (by simp), by simp, by simp⟩

/-! ## exceptions -/

/-- **C33** The documented exceptions, any arithmetic: `grad` throws exactly if `x` does not depend on exactly one variable. -/
theorem C33_grad_throws {R : Type*} [Zero R] [One R] [Neg R] [Add R] [Sub R] [Mul R] [Div R] [NatCast R] [CCmp R]
    (u : Moments R) (t x : UReal2 R) : UReal2.grad u t x = .error .invalidArgument ↔ x.hg.diagmap.length ≠ 1 := by
  unfold UReal2.grad
  match x.hg.diagmap with
  | [] => simp
  | [(_, _)] => simp
  | _ :: _ :: _ => simp

/-- **C33** `hess` never fails an assert, and throws exactly if one of the two does not depend on exactly one variable, or both
depend on the same one in different ways. -/
theorem C33_hess_throws (u : Moments ℝ) (t x y : UReal2 ℝ) : UReal2.hess u t x y = some (.error .invalidArgument) ↔
    x.hg.diagmap.length ≠ 1 ∨ y.hg.diagmap.length ≠ 1 ∨
      ∃ i dx dy, x.hg.diagmap = [(i, dx)] ∧ y.hg.diagmap = [(i, dy)] ∧ (dx.grad ≠ dy.grad ∨ dx.hhess ≠ dy.hhess) := by
  unfold UReal2.hess
  match hx : x.hg.diagmap, hy : y.hg.diagmap with
  | [], _ => simp
  | _ :: _ :: _, _ => simp
  | [(i, d)], [] => simp
  | [(i, d)], _ :: _ :: _ => simp
  | [(i, d)], [(j, e)] =>
    have e1 : ∀ a b : ℝ, (!CCmp.eqb a b) = true ↔ a ≠ b := by
      intro a b
      rw [Bool.not_eq_true', ← Bool.not_eq_true, eqb_iff]
    simp only [hhessGet_eq]
    by_cases hij : i = j
    · subst hij
      simp only [ne_eq, not_true_eq_false, if_false, Bool.or_eq_true, e1, Mom.lit]
      by_cases h1 : d.grad = e.grad <;> by_cases h2 : d.hhess = e.hhess <;> simp [h1, h2]
    · have hij' : ¬ j = i := fun h => hij h.symm
      simp [hij, hij']

/-- a variable and a function of it have different dependencies -/
example (u : Moments ℝ) (t : UReal2 ℝ) : UReal2.hess u t (elem2 1 2 3 exN) ⟨⟨[(1, ⟨3, 1, exN⟩)], []⟩, 5⟩ = some (.error .invalidArgument) :=
  (C33_hess_throws u t _ _).2 (Or.inr (Or.inr ⟨1, _, _, rfl, rfl, Or.inr (by simp)⟩))

example (u : Moments ℝ) (t : UReal2 ℝ) : UReal2.grad u t ex2a = .error .invalidArgument :=
  (C33_grad_throws u t _).2 (by simp [ex2a, exH])

end

/-- the derivatives of `x * y + x` with respect to `x = 3 ± 1` and `y = 4 ± 2` -/
example : ∃ out, evalU2 exPoly (elems2 ![1, 2] ![3, 4] ![1, 2] fun _ => exN) = some out ∧
    UReal2.hess exN (out.getD 3 (UReal2.const 0)) (elem2 1 3 1 exN) (elem2 2 4 2 exN) = some (.ok 1) ∧
    UReal2.grad exN (out.getD 3 (UReal2.const 0)) (elem2 1 3 1 exN) = .ok 5 ∧ UReal2.grad exN (out.getD 3 (UReal2.const 0)) (elem2 2 4 2 exN) = .ok 3 := by
  obtain ⟨out, e, -, h⟩ := C36_polynomial (p := exPoly) (ids := ![1, 2]) (mu := ![3, 4]) (s := ![1, 2]) (mom := fun _ => exN) (by decide) (by decide) exPoly_poly
    (by simp [exPoly, InRange])
  have h01 : out.getD 0 (UReal2.const 0) = elem2 1 3 1 exN ∧ out.getD 1 (UReal2.const 0) = elem2 2 4 2 exN := by
    have e' := e
    simp only [exPoly, evalU2] at e'
    split at e' <;> [skip; cases e']
    split at e' <;> [skip; cases e']
    cases e'
    exact ⟨by simp [elems2], by simp [elems2]⟩
  obtain ⟨h1, -, h2, h3⟩ := C33_hess_mixed_partial (u := exN) (t := out.getD 3 (UReal2.const 0)) (x := elem2 1 3 1 exN) (y := elem2 2 4 2 exN)
    (ids := ![1, 2]) (k := 0) (l := 1) (by decide) (h := fun s t => 1 * s + 0 * t + 1 * (s * t)) (ok_elem2 (by decide) _ _ _) (ok_elem2 (by decide) _ _ _)
    (onlyOn_elem2 1 3 one_ne_zero exN) (onlyOn_elem2 2 4 two_ne_zero exN) (h 3) (h01.1 ▸ h 0) (h01.2 ▸ h 1)
    (Eventually.of_forall fun z _ => by simp [fn2, evalR2, exPoly]; ring) (derivs_affine _ _ 1 0 1)
  norm_num [elem2] at h2 h3
  exact ⟨out, e, h1, h2, h3⟩

end Unc.Props
