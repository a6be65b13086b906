import Verif.Props.Cont
import Verif.Props.FloatMath2

/-!
# C98: continuity at second order where the iteration over the Hessian does not change nearby
-/

namespace Unc.Props
open Unc Unc.Spec Filter Topology HessGrad Mom

/-- functions continuous at `d` -/
structure CFun {D : Type} [TopologicalSpace D] (d : D) where
  f : D → ℝ
  cont : ContinuousAt f d

section germ
variable {D : Type} [TopologicalSpace D] {d : D}

namespace CFun

instance : Zero (CFun d) := ⟨⟨fun _ => 0, continuousAt_const⟩⟩
instance : Add (CFun d) := ⟨fun a b => ⟨fun e => a.f e + b.f e, a.cont.add b.cont⟩⟩
instance : Sub (CFun d) := ⟨fun a b => ⟨fun e => a.f e - b.f e, a.cont.sub b.cont⟩⟩
instance : Mul (CFun d) := ⟨fun a b => ⟨fun e => a.f e * b.f e, a.cont.mul b.cont⟩⟩
instance : NatCast (CFun d) := ⟨fun n => ⟨fun _ => n, continuousAt_const⟩⟩

/-- the value at `e` -/
def at' (e : D) (a : CFun d) : ℝ := a.f e

theorem at_hom (e : D) : OpHom (at' (d := d) e) := ⟨rfl, fun _ _ => rfl, fun _ _ => rfl, fun _ _ => rfl, fun _ => rfl⟩

end CFun

open CFun

/-- half a second derivative, and whether it is 0 -/
theorem half_cont {E : D → ℝ} (hE : Steady E d) :
    ContinuousAt (fun e => E e / lit 2) d ∧ ∃ b : Bool, CCmp.eqb (E d / lit 2) 0 = b ∧ ∀ᶠ e in 𝓝 d, CCmp.eqb (E e / lit 2) 0 = b := by
  obtain ⟨c, h⟩ := hE
  have c2 : ContinuousAt (fun e => E e / lit 2) d := c.div_const _
  refine ⟨c2, ?_⟩
  rcases h with h0 | h0
  · have hne : E d / (lit 2 : ℝ) ≠ 0 := div_ne_zero h0 (by norm_num [lit])
    refine ⟨false, by rw [← Bool.not_eq_true, eqb_iff]; exact hne, ?_⟩
    filter_upwards [c2.eventually_ne hne] with e he
    rw [← Bool.not_eq_true, eqb_iff]; exact he
  · refine ⟨true, by rw [eqb_iff, h0.self_of_nhds, zero_div], ?_⟩
    filter_upwards [h0] with e he
    rw [eqb_iff, he, zero_div]

theorem unary_cont {z : UReal2 (CFun d)} (hz : Ok2 z) {m f E : D → ℝ} (hm : ContinuousAt m d) (hf : ContinuousAt f d) (hE : Steady E d) :
    ∃ z' : UReal2 (CFun d), Ok2 z' ∧ z'.mu.f = m ∧ ∀ᶠ e in 𝓝 d, ∀ u, UReal2.unary u (mapU (at' e) z) (m e) (f e) (E e) = some (mapU (at' e) z') := by
  obtain ⟨h1, b, h2, h3⟩ := half_cont hE
  let u0 : Moments (CFun d) := ⟨0, 0, 0, 0, 0, 0⟩
  have eR : ∀ e, CCmp.eqb (E e / lit 2) 0 = b → ∀ u, UReal2.unary u (mapU (at' e) z) (m e) (f e) (E e) =
      (unaryG b u0 z ⟨m, hm⟩ ⟨f, hf⟩ ⟨_, h1⟩).map (mapU (at' e)) := fun e he u => by
    rw [unary_any (ok_mapU _ hz) _ _ _ u (mapM (at' e) u0), unary_G, he]
    exact unaryG_hom (at_hom e) b u0 z ⟨m, hm⟩ ⟨f, hf⟩ ⟨_, h1⟩
  obtain ⟨Z, hZ, oZ⟩ := C21_unary (ok_mapU (at' d) hz) (m d) (f d) (E d)
  have := eR d h2 (mapM (at' d) u0)
  rw [hZ] at this
  obtain ⟨z', hz', e'⟩ := Option.map_eq_some_iff.1 this.symm
  refine ⟨z', ok_of_mapU (c := at' d) (e' ▸ oZ), ?_, ?_⟩
  · unfold unaryG at hz'
    cases he : z.hg.hessEntries b with
    | none => rw [he] at hz'; simp at hz'
    | some es =>
      rw [he, Option.bind_some] at hz'
      obtain ⟨hg, -, e''⟩ := Option.map_eq_some_iff.1 hz'
      rw [← e'']
  · filter_upwards [h3] with e he u
    rw [eR e he u, hz']
    rfl

theorem binary_cont {z w : UReal2 (CFun d)} (hz : Ok2 z) (hw : Ok2 w) {m fx fy exx eyy exy : D → ℝ} (hm : ContinuousAt m d) (hx : ContinuousAt fx d)
    (hy : ContinuousAt fy d) (hxx : Steady exx d) (hyy : Steady eyy d) (hxy : Steady exy d) :
    ∃ z' : UReal2 (CFun d), Ok2 z' ∧ z'.mu.f = m ∧
      ∀ᶠ e in 𝓝 d, ∀ u, UReal2.binary u (mapU (at' e) z) (mapU (at' e) w) (m e) (fx e) (fy e) (exx e) (eyy e) (exy e) = some (mapU (at' e) z') := by
  obtain ⟨a1, a, a2, a3⟩ := half_cont hxx
  obtain ⟨b1, b, b2, b3⟩ := half_cont hyy
  obtain ⟨c1, c, c2, c3⟩ := half_cont hxy
  let u0 : Moments (CFun d) := ⟨0, 0, 0, 0, 0, 0⟩
  have eR : ∀ e, CCmp.eqb (exx e / lit 2) 0 = a → CCmp.eqb (eyy e / lit 2) 0 = b → CCmp.eqb (exy e / lit 2) 0 = c → ∀ u,
      UReal2.binary u (mapU (at' e) z) (mapU (at' e) w) (m e) (fx e) (fy e) (exx e) (eyy e) (exy e) =
      (binaryG a b c u0 z w ⟨m, hm⟩ ⟨fx, hx⟩ ⟨fy, hy⟩ ⟨_, a1⟩ ⟨_, b1⟩ ⟨_, c1⟩).map (mapU (at' e)) := fun e ha hb hc u => by
    rw [binary_any (ok_mapU _ hz) (ok_mapU _ hw) _ _ _ _ _ _ u (mapM (at' e) u0), binary_G, ha, hb, hc]
    exact binaryG_hom (at_hom e) a b c u0 z w ⟨m, hm⟩ ⟨fx, hx⟩ ⟨fy, hy⟩ ⟨_, a1⟩ ⟨_, b1⟩ ⟨_, c1⟩
  obtain ⟨Z, hZ, oZ⟩ := C21_binary (ok_mapU (at' d) hz) (ok_mapU (at' d) hw) (m d) (fx d) (fy d) (exx d) (eyy d) (exy d)
  have := eR d a2 b2 c2 (mapM (at' d) u0)
  rw [hZ] at this
  obtain ⟨z', hz', e'⟩ := Option.map_eq_some_iff.1 this.symm
  refine ⟨z', ok_of_mapU (c := at' d) (e' ▸ oZ), ?_, ?_⟩
  · unfold binaryG at hz'
    simp only [Option.bind_eq_some_iff, Option.map_eq_some_iff] at hz'
    obtain ⟨_, -, _, -, _, -, _, -, e''⟩ := hz'
    rw [← e'']
  · filter_upwards [a3, b3, c3] with e ha hb hc u
    rw [eR e ha hb hc u, hz']
    rfl

theorem arg_at (e : D) (l : List (UReal2 (CFun d))) (i : ℕ) :
    (l.map (mapU (at' e))).getD i (UReal2.const 0) = mapU (at' e) (l.getD i (UReal2.const 0)) :=
  getD_map' (mapU (at' e)) l i (UReal2.const 0)

/-- the composition of a steady function with a continuous one -/
theorem Steady_comp {E : Type} [TopologicalSpace E] {F : E → ℝ} {h : D → E} (hh : ContinuousAt h d) (hF : Steady F (h d)) : Steady (fun e => F (h e)) d :=
  ⟨ContinuousAt.comp (f := h) hF.1 hh, hF.2.imp_right fun h0 => hh.eventually h0⟩

theorem steps_cont (p : List Node2) : ∀ l : List (UReal2 (CFun d)), (∀ x ∈ l, Ok2 x) → SteadySteps p (l.map fun x => x.mu.f d) →
    ∃ l' : List (UReal2 (CFun d)), (∀ x ∈ l', Ok2 x) ∧ l'.length = l.length + p.length ∧
      ∀ᶠ e in 𝓝 d, evalU2 p (l.map (mapU (at' e))) = some (l'.map (mapU (at' e))) := by
  induction p with
  | nil => exact fun l hl _ => ⟨l, hl, rfl, Eventually.of_forall fun _ => rfl⟩
  | cons nd t ih =>
    intro l hl hp
    have ok : ∀ i, Ok2 (l.getD i (UReal2.const 0)) := fun i => ok_getD hl i 0
    have mu : ∀ i, (l.map fun x => x.mu.f d).getD i 0 = (l.getD i (UReal2.const 0)).mu.f d := fun i =>
      getD_map' (fun x : UReal2 (CFun d) => x.mu.f d) l i (UReal2.const 0)
    have next : ∀ z : UReal2 (CFun d), Ok2 z → SteadySteps t ((l.map fun x => x.mu.f d) ++ [z.mu.f d]) →
        (∀ᶠ e in 𝓝 d, evalU2 (nd :: t) (l.map (mapU (at' e))) = evalU2 t (l.map (mapU (at' e)) ++ [mapU (at' e) z])) →
        ∃ l' : List (UReal2 (CFun d)), (∀ x ∈ l', Ok2 x) ∧ l'.length = l.length + (nd :: t).length ∧
          ∀ᶠ e in 𝓝 d, evalU2 (nd :: t) (l.map (mapU (at' e))) = some (l'.map (mapU (at' e))) := by
      intro z oz hs hev
      obtain ⟨l', h1, h2, h3⟩ := ih (l ++ [z]) (by
        intro x hx
        rcases List.mem_append.1 hx with h | h
        · exact hl x h
        · rw [List.mem_singleton.1 h]; exact oz) (by simpa using hs)
      refine ⟨l', h1, by simp at h2 ⊢; omega, ?_⟩
      filter_upwards [hev, h3] with e he h
      rw [he]
      simpa using h
    cases nd with
    | const c =>
      exact next (UReal2.const ⟨fun _ => c, continuousAt_const⟩)
        ⟨⟨by simp [UReal2.const, empty], by simp [UReal2.const, empty], by simp [UReal2.const, empty]⟩, by intro k hk; simp [UReal2.const, empty] at hk⟩ hp
        (Eventually.of_forall fun e => rfl)
    | un g F a =>
      obtain ⟨⟨u, D, DD, hg, cF, cD, cDD⟩, hs⟩ := hp
      rw [mu] at hg cF cD cDD hs
      set x := l.getD a (UReal2.const 0)
      have cx := x.mu.cont
      obtain ⟨z, oz, mz, hz⟩ := unary_cont (ok a) (ContinuousAt.comp (f := x.mu.f) cF cx) (ContinuousAt.comp (f := x.mu.f) cD cx) (Steady_comp cx cDD)
      refine next z oz (by rw [mz]; exact hs) ?_
      filter_upwards [hz, cx.eventually hg] with e he hge
      rw [evalU2, arg_at, hge _ rfl]
      have h := he u
      simp only [Function.comp_apply] at h
      simp only [h]
    | bin g F a b =>
      obtain ⟨⟨u, Dx, Dy, Dxx, Dyy, Dxy, hg, cF, cx, cy, cxx, cyy, cxy⟩, hs⟩ := hp
      rw [mu, mu] at hg cF cx cy cxx cyy cxy hs
      set x := l.getD a (UReal2.const 0)
      set y := l.getD b (UReal2.const 0)
      have c : ContinuousAt (fun e => (x.mu.f e, y.mu.f e)) d := x.mu.cont.prodMk y.mu.cont
      obtain ⟨z, oz, mz, hz⟩ := binary_cont (ok a) (ok b) (ContinuousAt.comp (f := fun e => (x.mu.f e, y.mu.f e)) cF c)
        (ContinuousAt.comp (f := fun e => (x.mu.f e, y.mu.f e)) cx c) (ContinuousAt.comp (f := fun e => (x.mu.f e, y.mu.f e)) cy c)
        (Steady_comp c cxx) (Steady_comp c cyy) (Steady_comp c cxy)
      refine next z oz (by rw [mz]; exact hs) ?_
      filter_upwards [hz, c.eventually hg] with e he hge
      rw [evalU2, arg_at, arg_at, hge _ _ rfl rfl]
      have h := he u
      simp only [Function.comp_apply] at h
      simp only [h]

theorem some_of_at {o : Option (CFun d)} {e : D} (h : (o.map (at' e)).isSome) : ∃ g, o = some g := by
  cases o with
  | none => simp at h
  | some g => exact ⟨g, rfl⟩

theorem m_some {z : UReal2 (CFun d)} (hz : Ok2 z) {k : ℕ} (h1 : 1 ≤ k) (h4 : k ≤ 4) : ∃ g : CFun d, z.m k = some g := by
  refine some_of_at (e := d) ?_
  rw [← m_hom (at_hom d)]
  exact m_isSome (ok_mapU (at' d) hz) ⟨h1, h4⟩

theorem cov_some {z w : UReal2 (CFun d)} (hz : Ok2 z) (hw : Ok2 w) : ∃ g : CFun d, z.cov w = some g := by
  refine some_of_at (e := d) ?_
  rw [← cov_hom (at_hom d)]
  rw [cov_form (ok_mapU (at' d) hz).valid (ok_mapU (at' d) hw).valid (Finset.subset_union_left (s₂ := (mapU (at' d) w).hg.vars)) Finset.subset_union_right]
  rfl

end germ

/-- **C98** Second order, with several variables and whether the computed second derivatives are right or not: the results are continuous in the means and uncertainties
if each second derivative passed on is not 0, or 0 for all means nearby.  `C98_jump` shows that this is needed. -/
theorem C98_second_steady {n : ℕ} {ids : Fin n → VId} (hlt : ∀ i, ids i < maxId) (mom : Fin n → Moments ℝ) {p : List Node2} {d : Data n}
    (hp : SteadySteps p (List.ofFn d.1)) {k l : ℕ} (hk : k < n + p.length) (hl : l < n + p.length) :
    ContValue (result2 p ids mom k) d ∧ ContPair (result2 p ids mom k) (result2 p ids mom l) d := by
  let X : Fin n → UReal2 (CFun d) := fun i => ⟨⟨[(ids i, ⟨⟨fun e => e.2 i, by fun_prop⟩, 0,
    mapM (fun c => ⟨fun _ => c, continuousAt_const⟩) (mom i)⟩)], []⟩, ⟨fun e => e.1 i, by fun_prop⟩⟩
  have hX : ∀ (e : Data n) i, mapU (CFun.at' e) (X i) = elem2 (ids i) (e.1 i) (e.2 i) (mom i) := fun e i => rfl
  have okX : ∀ x ∈ List.ofFn X, Ok2 x := by
    intro x hx
    obtain ⟨i, rfl⟩ := List.mem_ofFn.1 hx
    exact ok_of_mapU (c := CFun.at' d) (by rw [hX]; exact ok_elem2 (hlt i) _ _ _)
  obtain ⟨out, oo, lo, ho⟩ := steps_cont p (List.ofFn X) okX (by simpa [List.map_ofFn, Function.comp_def, X] using hp)
  rw [List.length_ofFn] at lo
  have res : ∀ {k : ℕ} (hk : k < n + p.length), ∀ᶠ e in 𝓝 d, result2 p ids mom k e = some (mapU (CFun.at' e) (out[k]'(by omega))) := by
    intro k hk
    filter_upwards [ho] with e he
    rw [List.map_ofFn, Function.comp_def] at he
    simp only [hX] at he
    rw [result2, he, Option.bind_some, List.getElem?_map, List.getElem?_eq_getElem (by omega)]
    rfl
  have ok : ∀ {k : ℕ} (hk : k < n + p.length), Ok2 (out[k]'(by omega)) := fun hk => oo _ (List.getElem_mem _)
  have mm : ∀ {k : ℕ} (hk : k < n + p.length) j, 1 ≤ j → j ≤ 4 → ∃ g : CFun d, (out[k]'(by omega)).m j = some g := fun hk j h1 h4 => m_some (ok hk) h1 h4
  refine ⟨?_, ?_⟩
  · choose! g hg using mm hk
    refine contValue_core (a := (out[k]'(by omega)).mu.f) (M := fun j => (g j).f) (CFun.cont _) (fun j _ _ => (g j).cont) ?_
    filter_upwards [res hk] with e he
    refine ⟨_, he, rfl, fun j h1 h4 => ?_⟩
    rw [m_hom (CFun.at_hom e), hg j h1 h4]
    rfl
  · obtain ⟨g, hg⟩ := mm hk 2 (by norm_num) (by norm_num)
    obtain ⟨g', hg'⟩ := mm hl 2 (by norm_num) (by norm_num)
    obtain ⟨c, hc⟩ := cov_some (ok hk) (ok hl)
    refine contPair_core g.cont g'.cont c.cont ?_
    filter_upwards [res hk, res hl] with e he he'
    refine ⟨_, _, he, he', ?_, ?_, ?_⟩
    · rw [m_hom (CFun.at_hom e), hg]; rfl
    · rw [m_hom (CFun.at_hom e), hg']; rfl
    · rw [cov_hom (CFun.at_hom e), hc]; rfl

/-! ## the functions of the library are steady at most arguments -/

theorem steady_const {E : Type*} [TopologicalSpace E] (c : ℝ) (a : E) : Steady (fun _ => c) a := by
  refine ⟨continuousAt_const, ?_⟩
  by_cases h : c = 0
  · exact Or.inr (Eventually.of_forall fun _ => h)
  · exact Or.inl h

variable {u : Moments ℝ}

/-- **C98** The operators: `x / y` where `x` is not 0. -/
theorem C98_operators (a : ℝ × ℝ) : SteadyStep1 (UReal2.neg u) (fun t => -t) a.1 ∧ SteadyStep2 (UReal2.add u) (fun s t => s + t) a ∧
    SteadyStep2 (UReal2.sub u) (fun s t => s - t) a ∧ SteadyStep2 (UReal2.mul u) (fun s t => s * t) a ∧
    (a.1 ≠ 0 → a.2 ≠ 0 → SteadyStep2 (UReal2.div u) (fun s t => s / t) a) := by
  refine ⟨⟨u, fun _ => -1, fun _ => 0, Eventually.of_forall fun t x hx => by subst hx; rfl, by fun_prop, by fun_prop, steady_const 0 _⟩,
    ⟨u, fun _ => 1, fun _ => 1, fun _ => 0, fun _ => 0, fun _ => 0, Eventually.of_forall fun t x y hx hy => by rw [← hx, ← hy]; rfl, by fun_prop, by fun_prop, by fun_prop,
      steady_const _ _, steady_const _ _, steady_const _ _⟩,
    ⟨u, fun _ => 1, fun _ => -1, fun _ => 0, fun _ => 0, fun _ => 0, Eventually.of_forall fun t x y hx hy => by rw [← hx, ← hy]; rfl, by fun_prop, by fun_prop, by fun_prop,
      steady_const _ _, steady_const _ _, steady_const _ _⟩,
    ⟨u, fun t => t.2, fun t => t.1, fun _ => 0, fun _ => 0, fun _ => 1, Eventually.of_forall fun t x y hx hy => by obtain ⟨s, t⟩ := t; cases hx; cases hy; rfl, by fun_prop, by fun_prop, by fun_prop,
      steady_const _ _, steady_const _ _, steady_const _ _⟩, fun h1 h2 => ?_⟩
  have ci : ContinuousAt (fun t : ℝ × ℝ => 1 / t.2) a := continuousAt_const.div continuousAt_snd h2
  have hi : 1 / a.2 ≠ 0 := one_div_ne_zero h2
  refine ⟨u, fun t => 1 / t.2, fun t => -t.1 * (1 / t.2 * (1 / t.2)), fun _ => 0, fun t => lit 2 * t.1 * (1 / t.2 * (1 / t.2)) * (1 / t.2), fun t => -(1 / t.2 * (1 / t.2)),
    Eventually.of_forall fun t x y hx hy => by obtain ⟨s, t⟩ := t; cases hx; cases hy; rfl, continuousAt_fst.div continuousAt_snd h2, ci, continuousAt_fst.neg.mul (ci.mul ci), steady_const _ _,
    ⟨((continuousAt_const.mul continuousAt_fst).mul (ci.mul ci)).mul ci, Or.inl ?_⟩, ⟨(ci.mul ci).neg, Or.inl (neg_ne_zero.2 (mul_ne_zero hi hi))⟩⟩
  exact mul_ne_zero (mul_ne_zero (mul_ne_zero (by norm_num [lit]) h1) (mul_ne_zero hi hi)) hi

/-- **C98** Some functions of math.hpp: the exponential and hyperbolic cosine everywhere, the logarithm, the square root, and sine and cosine where they are not 0. -/
theorem C98_functions (a : ℝ) : SteadyStep1 (UMath2.exp u) Real.exp a ∧ SteadyStep1 (UMath2.cosh u) Real.cosh a ∧ (0 < a → SteadyStep1 (UMath2.log u) Real.log a) ∧
    (0 < a → SteadyStep1 (UMath2.sqrt u) Real.sqrt a) ∧ (Real.sin a ≠ 0 → SteadyStep1 (UMath2.sin u) Real.sin a) ∧
    (Real.cos a ≠ 0 → SteadyStep1 (UMath2.cos u) Real.cos a) := by
  refine ⟨⟨u, Real.exp, Real.exp, Eventually.of_forall fun t x hx => by subst hx; rfl, by fun_prop, by fun_prop, by fun_prop, Or.inl (Real.exp_ne_zero _)⟩,
    ⟨u, Real.sinh, Real.cosh, Eventually.of_forall fun t x hx => by subst hx; rfl, by fun_prop, by fun_prop, by fun_prop, Or.inl (Real.cosh_pos _).ne'⟩, fun h => ?_, fun h => ?_, fun h => ?_, fun h => ?_⟩
  · refine ⟨u, fun t => 1 / t, fun t => -1 / (t * t), Eventually.of_forall fun t x hx => by subst hx; rfl, Real.continuousAt_log h.ne', continuousAt_const.div continuousAt_id h.ne',
      continuousAt_const.div (continuousAt_id.mul continuousAt_id) (mul_ne_zero h.ne' h.ne'), Or.inl ?_⟩
    exact div_ne_zero (by norm_num) (mul_ne_zero h.ne' h.ne')
  · have c : ContinuousAt Real.sqrt a := Real.continuous_sqrt.continuousAt
    have h0 := Real.sqrt_ne_zero'.2 h
    have h4 : (lit 4 : ℝ) * a * Real.sqrt a ≠ 0 := mul_ne_zero (mul_ne_zero (by norm_num [lit]) h.ne') h0
    exact ⟨u, fun t => 1 / (lit 2 * Real.sqrt t), fun t => -1 / (lit 4 * t * Real.sqrt t), Eventually.of_forall fun t x hx => by subst hx; rfl, c,
      continuousAt_const.div (continuousAt_const.mul c) (mul_ne_zero (by norm_num [lit]) h0),
      continuousAt_const.div ((continuousAt_const.mul continuousAt_id).mul c) h4, Or.inl (div_ne_zero (by norm_num) h4)⟩
  · exact ⟨u, Real.cos, fun t => -Real.sin t, Eventually.of_forall fun t x hx => by subst hx; rfl, by fun_prop, by fun_prop, by fun_prop, Or.inl (neg_ne_zero.2 h)⟩
  · exact ⟨u, fun t => -Real.sin t, fun t => -Real.cos t, Eventually.of_forall fun t x hx => by subst hx; rfl, by fun_prop, by fun_prop, by fun_prop, Or.inl (neg_ne_zero.2 h)⟩

/-- **C98** Functions of the user with derivatives given: what is needed of them. -/
theorem C98_user {f d dd : ℝ → ℝ} {a : ℝ} (hf : ContinuousAt f a) (hd : ContinuousAt d a) (hdd : Steady dd a) : SteadyStep1 (UFun2.uunary2 u f d dd) f a :=
  ⟨u, d, dd, Eventually.of_forall fun t x hx => by subst hx; rfl, hf, hd, hdd⟩

/-- **C98** With the derivatives computed numerically, where the numerical second derivative is not 0. -/
theorem C98_user_numeric {f : ℝ → ℝ} {a h : ℝ} (h0 : ContinuousAt f a) (h1 : ContinuousAt f (a + h)) (h2 : ContinuousAt f (a - h))
    (hn : (f (a + h) + f (a - h) - lit 2 * f a) / (h * h) ≠ 0) : SteadyStep1 (UFun2.uunary2Num u f h) f a := by
  have c1 : ContinuousAt (fun t => f (t + h)) a := ContinuousAt.comp (f := fun t => t + h) h1 (by fun_prop)
  have c2 : ContinuousAt (fun t => f (t - h)) a := ContinuousAt.comp (f := fun t => t - h) h2 (by fun_prop)
  exact ⟨u, fun t => (f (t + h) - f (t - h)) / (lit 2 * h), fun t => (f (t + h) + f (t - h) - lit 2 * f t) / (h * h), Eventually.of_forall fun t x hx => by subst hx; rfl, h0,
    (c1.sub c2).div_const _, ((c1.add c2).sub (continuousAt_const.mul h0)).div_const _, Or.inl hn⟩

example : SteadyStep1 (UFun2.uunary2Num exN (fun t => t ^ 2) (1 / 10)) (fun t => t ^ 2) 3 :=
  C98_user_numeric (by fun_prop) (by fun_prop) (by fun_prop) (by norm_num [lit])
example : SteadyStep1 (UFun2.uunary2 exN (fun t => t ^ 2) (fun t => 2 * t) fun _ => 2) (fun t => t ^ 2) 3 := C98_user (by fun_prop) (by fun_prop) (steady_const _ _)

/-- **C98** More functions of math.hpp of one variable. -/
theorem C98_functions_more (a : ℝ) : SteadyStep1 (UMath2.exp2 u) (fun t => 2 ^ t) a ∧ SteadyStep1 (UMath2.expm1 u) (fun t => Real.exp t - 1) a ∧
    (0 < a → SteadyStep1 (UMath2.log10 u) (Real.logb 10) a) ∧ (0 < a → SteadyStep1 (UMath2.log2 u) (Real.logb 2) a) ∧
    (-1 < a → SteadyStep1 (UMath2.log1p u) (fun t => Real.log (1 + t)) a) ∧ (Real.cos a ≠ 0 → Real.sin a ≠ 0 → SteadyStep1 (UMath2.tan u) Real.tan a) ∧
    (a ≠ 0 → SteadyStep1 (UMath2.atan u) Real.arctan a) ∧ (a ≠ 0 → SteadyStep1 (UMath2.sinh u) Real.sinh a) ∧
    (a ≠ 0 → SteadyStep1 (UMath2.tanh u) Real.tanh a) ∧ (a ≠ 0 → SteadyStep1 (UMath2.abs u) (fun t => |t|) a) := by
  have l2 : Real.log (lit 2) ≠ 0 := log2_ne
  have l10 : Real.log (lit 10) ≠ 0 := log10_ne
  have cl : ∀ c : ℝ, a ≠ 0 → ContinuousAt (fun t => c / t) a ∧ ContinuousAt (fun t => -c / (t * t)) a := fun c h =>
    ⟨continuousAt_const.div continuousAt_id h, continuousAt_const.div (continuousAt_id.mul continuousAt_id) (mul_ne_zero h h)⟩
  have lg : ∀ b : ℝ, a ≠ 0 → ContinuousAt (Real.logb b) a := fun b h => (Real.continuousAt_log h).div_const _
  refine ⟨?_, ⟨u, Real.exp, Real.exp, Eventually.of_forall fun t x hx => by subst hx; rfl, by fun_prop, by fun_prop, by fun_prop, Or.inl (Real.exp_ne_zero _)⟩,
    fun h => ?_, fun h => ?_, fun h => ?_, fun h h' => ?_, fun h => ?_, fun h => ?_, fun h => ?_, fun h => ?_⟩
  · have c : ContinuousAt (fun t : ℝ => (2 : ℝ) ^ t) a := (Real.continuous_const_rpow (by norm_num)).continuousAt
    exact ⟨u, fun t => Real.log (lit 2) * 2 ^ t, fun t => Real.log (lit 2) * Real.log (lit 2) * 2 ^ t, Eventually.of_forall fun t x hx => by subst hx; rfl, c,
      continuousAt_const.mul c, continuousAt_const.mul c, Or.inl (mul_ne_zero (mul_ne_zero l2 l2) (Real.rpow_pos_of_pos two_pos a).ne')⟩
  · exact ⟨u, fun t => 1 / Real.log (lit 10) / t, fun t => -(1 / Real.log (lit 10)) / (t * t), Eventually.of_forall fun t x hx => by subst hx; rfl, lg 10 h.ne', (cl _ h.ne').1, (cl _ h.ne').2,
      Or.inl (div_ne_zero (neg_ne_zero.2 (one_div_ne_zero l10)) (mul_ne_zero h.ne' h.ne'))⟩
  · exact ⟨u, fun t => 1 / Real.log (lit 2) / t, fun t => -(1 / Real.log (lit 2)) / (t * t), Eventually.of_forall fun t x hx => by subst hx; rfl, lg 2 h.ne', (cl _ h.ne').1, (cl _ h.ne').2,
      Or.inl (div_ne_zero (neg_ne_zero.2 (one_div_ne_zero l2)) (mul_ne_zero h.ne' h.ne'))⟩
  · have h0 : 1 + a ≠ 0 := by linarith
    have c : ContinuousAt (fun t : ℝ => 1 / (1 + t)) a := continuousAt_const.div (by fun_prop) h0
    exact ⟨u, fun t => 1 / (1 + t), fun t => -(1 / (1 + t)) * (1 / (1 + t)), Eventually.of_forall fun t x hx => by subst hx; rfl,
      ContinuousAt.comp (f := fun t => 1 + t) (Real.continuousAt_log h0) (by fun_prop), c, c.neg.mul c, Or.inl (mul_ne_zero (neg_ne_zero.2 (one_div_ne_zero h0)) (one_div_ne_zero h0))⟩
  · have c : ContinuousAt Real.tan a := Real.continuousAt_tan.2 h
    have t0 : Real.tan a ≠ 0 := by rw [Real.tan_eq_sin_div_cos]; exact div_ne_zero h' h
    have t1 : 1 + Real.tan a * Real.tan a ≠ 0 := by nlinarith [mul_self_nonneg (Real.tan a)]
    have c1 : ContinuousAt (fun t => 1 + Real.tan t * Real.tan t) a := continuousAt_const.add (c.mul c)
    exact ⟨u, fun t => 1 + Real.tan t * Real.tan t, fun t => lit 2 * Real.tan t * (1 + Real.tan t * Real.tan t), Eventually.of_forall fun t x hx => by subst hx; rfl, c, c1,
      (continuousAt_const.mul c).mul c1, Or.inl (mul_ne_zero (mul_ne_zero (by norm_num [lit]) t0) t1)⟩
  · have h0 : 1 + a * a ≠ 0 := by nlinarith [mul_self_nonneg a]
    have c : ContinuousAt (fun t : ℝ => 1 / (1 + t * t)) a := continuousAt_const.div (by fun_prop) h0
    exact ⟨u, fun t => 1 / (1 + t * t), fun t => -lit 2 * t * (1 / (1 + t * t)) * (1 / (1 + t * t)), Eventually.of_forall fun t x hx => by subst hx; rfl,
      Real.continuous_arctan.continuousAt, c, ((continuousAt_const.mul continuousAt_id).mul c).mul c,
      Or.inl (mul_ne_zero (mul_ne_zero (mul_ne_zero (by norm_num [lit]) h) (one_div_ne_zero h0)) (one_div_ne_zero h0))⟩
  · exact ⟨u, Real.cosh, Real.sinh, Eventually.of_forall fun t x hx => by subst hx; rfl, by fun_prop, by fun_prop, by fun_prop, Or.inl (Real.sinh_ne_zero.2 h)⟩
  · have c : ContinuousAt Real.tanh a := by
      have e : Real.tanh = fun t => Real.sinh t / Real.cosh t := funext Real.tanh_eq_sinh_div_cosh
      rw [e]
      exact Real.continuous_sinh.continuousAt.div Real.continuous_cosh.continuousAt (Real.cosh_pos a).ne'
    have c1 : ContinuousAt (fun t => 1 - Real.tanh t * Real.tanh t) a := continuousAt_const.sub (c.mul c)
    exact ⟨u, fun t => 1 - Real.tanh t * Real.tanh t, fun t => -lit 2 * Real.tanh t * (1 - Real.tanh t * Real.tanh t), Eventually.of_forall fun t x hx => by subst hx; rfl, c, c1,
      (continuousAt_const.mul c).mul c1, Or.inl (mul_ne_zero (mul_ne_zero (by norm_num [lit]) (tanh_ne h)) (one_sub_tanh_ne a))⟩
  · refine ⟨u, fun _ => if 0 ≤ a then 1 else -1, fun _ => 0, ?_, continuous_abs.continuousAt, continuousAt_const, steady_const _ _⟩
    have e : ∀ᶠ t in 𝓝 a, 0 ≤ t ↔ 0 ≤ a := by
      rcases lt_or_gt_of_ne h with h | h
      · filter_upwards [gt_mem_nhds h] with t ht using ⟨fun h' => absurd h' (not_le.2 ht), fun h' => absurd h' (not_le.2 h)⟩
      · filter_upwards [lt_mem_nhds h] with t ht using ⟨fun _ => h.le, fun _ => ht.le⟩
    filter_upwards [e] with t ht x hx
    subst hx
    have : (CCmp.leb 0 x.mu = true) ↔ 0 ≤ a := (leb_iff _ _).trans ht
    simp only [UMath2.abs, this]
    rfl

/-- **C98** Powers and distances: where the second derivatives passed on are not 0. -/
theorem C98_functions_two {a : ℝ × ℝ} : (a.1 ≠ 0 → a.2 ≠ 0 → SteadyStep2 (UMath2.hypot u) (fun x y => Real.sqrt (x ^ 2 + y ^ 2)) a) ∧
    (0 < a.1 → a.1 ≠ 1 → a.2 ≠ 0 → a.2 ≠ 1 → 1 + a.2 * Real.log a.1 ≠ 0 → SteadyStep2 (UMath2.pow u) (fun x y => x ^ y) a) := by
  refine ⟨fun h1 h2 => ?_, fun h h1 hb hb' hl => ?_⟩
  · set H : ℝ × ℝ → ℝ := fun t => Real.sqrt (t.1 ^ 2 + t.2 ^ 2) with hH
    have p1 : 0 < a.1 ^ 2 := by positivity
    have p2 : 0 < a.2 ^ 2 := by positivity
    have hsq : H a * H a = a.1 ^ 2 + a.2 ^ 2 := Real.mul_self_sqrt (by positivity)
    have H0 : H a ≠ 0 := (Real.sqrt_pos.2 (by positivity)).ne'
    have cH : ContinuousAt H a := by rw [hH]; fun_prop
    have ci : ContinuousAt (fun t => 1 / H t) a := continuousAt_const.div cH H0
    have cx : ContinuousAt (fun t : ℝ × ℝ => t.1 * (1 / H t)) a := continuousAt_fst.mul ci
    have cy : ContinuousAt (fun t : ℝ × ℝ => t.2 * (1 / H t)) a := continuousAt_snd.mul ci
    have hi : 1 / H a ≠ 0 := one_div_ne_zero H0
    have nx : 1 - a.1 * (1 / H a) * (a.1 * (1 / H a)) ≠ 0 := by
      have : 1 - a.1 * (1 / H a) * (a.1 * (1 / H a)) = (H a * H a - a.1 ^ 2) / (H a * H a) := by field_simp
      rw [this, hsq]
      exact div_ne_zero (by linarith) (by linarith)
    have ny : 1 - a.2 * (1 / H a) * (a.2 * (1 / H a)) ≠ 0 := by
      have : 1 - a.2 * (1 / H a) * (a.2 * (1 / H a)) = (H a * H a - a.2 ^ 2) / (H a * H a) := by field_simp
      rw [this, hsq]
      exact div_ne_zero (by linarith) (by linarith)
    exact ⟨u, fun t => t.1 * (1 / H t), fun t => t.2 * (1 / H t), fun t => 1 / H t * (1 - t.1 * (1 / H t) * (t.1 * (1 / H t))), fun t => 1 / H t * (1 - t.2 * (1 / H t) * (t.2 * (1 / H t))),
      fun t => -(t.1 * (1 / H t)) * (t.2 * (1 / H t)) * (1 / H t), Eventually.of_forall fun t x y hx hy => by obtain ⟨s, t⟩ := t; cases hx; cases hy; rfl, cH, cx, cy,
      ⟨ci.mul (continuousAt_const.sub (cx.mul cx)), Or.inl (mul_ne_zero hi nx)⟩, ⟨ci.mul (continuousAt_const.sub (cy.mul cy)), Or.inl (mul_ne_zero hi ny)⟩,
      ⟨(cx.neg.mul cy).mul ci, Or.inl (mul_ne_zero (mul_ne_zero (neg_ne_zero.2 (mul_ne_zero h1 hi)) (mul_ne_zero h2 hi)) hi)⟩⟩
  · set P : ℝ × ℝ → ℝ := fun t => t.1 ^ t.2 with hP
    have cP : ContinuousAt P a := continuousAt_fst.rpow continuousAt_snd (Or.inl h.ne')
    have P0 : P a ≠ 0 := (Real.rpow_pos_of_pos h _).ne'
    have cl : ContinuousAt (fun t : ℝ × ℝ => Real.log t.1) a := continuousAt_fst.log h.ne'
    have l0 : Real.log a.1 ≠ 0 := Real.log_ne_zero_of_pos_of_ne_one h h1
    have ci : ContinuousAt (fun t : ℝ × ℝ => 1 / t.1) a := continuousAt_const.div continuousAt_fst h.ne'
    have hi : 1 / a.1 ≠ 0 := one_div_ne_zero h.ne'
    have c1 : ContinuousAt (fun t => P t * (1 / t.1)) a := cP.mul ci
    have c2 : ContinuousAt (fun t => P t * (1 / t.1) * t.2) a := c1.mul continuousAt_snd
    have c3 : ContinuousAt (fun t => P t * Real.log t.1) a := cP.mul cl
    refine ⟨u, fun t => P t * (1 / t.1) * t.2, fun t => P t * Real.log t.1, fun t => P t * (1 / t.1) * t.2 * (1 / t.1) * (t.2 - 1), fun t => P t * Real.log t.1 * Real.log t.1,
      fun t => P t * (1 / t.1) + P t * (1 / t.1) * t.2 * Real.log t.1, Eventually.of_forall fun t x y hx hy => by obtain ⟨s, t⟩ := t; cases hx; cases hy; rfl, cP, c2, c3,
      ⟨(c2.mul ci).mul (continuousAt_snd.sub continuousAt_const), Or.inl (mul_ne_zero (mul_ne_zero (mul_ne_zero (mul_ne_zero P0 hi) hb) hi) (sub_ne_zero.2 hb'))⟩,
      ⟨c3.mul cl, Or.inl (mul_ne_zero (mul_ne_zero P0 l0) l0)⟩, ⟨c1.add (c2.mul cl), Or.inl ?_⟩⟩
    show P a * (1 / a.1) + P a * (1 / a.1) * a.2 * Real.log a.1 ≠ 0
    rw [show P a * (1 / a.1) + P a * (1 / a.1) * a.2 * Real.log a.1 = P a * (1 / a.1) * (1 + a.2 * Real.log a.1) by ring]
    exact mul_ne_zero (mul_ne_zero P0 hi) hl

example : SteadyStep1 (UMath2.log1p exN) (fun t => Real.log (1 + t)) 2 := (C98_functions_more 2).2.2.2.2.1 (by norm_num)
example : SteadyStep1 (UMath2.abs exN) (fun t => |t|) (-2) := (C98_functions_more (-2)).2.2.2.2.2.2.2.2.2 (by norm_num)
example : SteadyStep2 (UMath2.hypot exN) (fun x y => Real.sqrt (x ^ 2 + y ^ 2)) (3, 4) := C98_functions_two.1 (by norm_num) (by norm_num)
example : SteadyStep2 (UMath2.pow exN) (fun x y => x ^ y) (2, 3) := C98_functions_two.2 (by norm_num) (by norm_num) (by norm_num) (by norm_num)
  (by have := Real.log_pos (by norm_num : (1 : ℝ) < 2); simp only; linarith)

/-- `sin(x * y + z)` where the mean of `z` is not 0: the variance is wrong there, but continuous -/
example (s : Fin 3 → ℝ) := C98_second_steady (ids := ![1, 3, 2]) (by decide) ![exN, exE, exN] (p := [.bin (UReal2.mul exN) (fun s t => s * t) 0 1, .bin (UReal2.add exN) (fun s t => s + t) 3 2,
    .un (UMath2.sin exN) Real.sin 4]) (d := (![0, 0, 1], s))
  ⟨(C98_operators _).2.2.2.1, (C98_operators _).2.1, (C98_functions _).2.2.2.2.1 (by
    have : Real.sin 1 ≠ 0 := (Real.sin_pos_of_pos_of_le_one one_pos le_rfl).ne'
    simpa [List.ofFn_succ] using this), trivial⟩ (k := 5) (l := 3) (by simp) (by simp)

example : SteadyStep2 (UReal2.div exN) (fun s t => s / t) (2, 3) := (C98_operators (2, 3)).2.2.2.2 (by norm_num) (by norm_num)
example : SteadyStep1 (UMath2.sqrt exN) Real.sqrt 2 := (C98_functions 2).2.2.2.1 (by norm_num)

end Unc.Props
