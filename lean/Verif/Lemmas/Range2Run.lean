import Verif.Lemmas.Range2

/-!
# Whole calculations at second order with numbers of limited range
-/

namespace Unc
open Unc.Spec HessGrad SMap Mom Unc.Props

namespace Ext
variable {f : Fmt} {M : ℝ}

/-- without variables in the second operand the comparisons do not matter -/
theorem binaryG_const {R : Type*} [Zero R] [Add R] [Mul R] [NatCast R] (sx sy sy' sxy sxy' : Bool) (u : Moments R) {x y : UReal2 R} (hx : Ok2 x) (hy : Ok2 y) (h : y.hg.diagmap = [])
    (f fx fy hxx hyy hxy : R) : binaryG sx sy sxy u x y f fx fy hxx hyy hxy = binaryG sx sy' sxy' u x y f fx fy hxx hyy hxy := by
  have e : ∀ s, y.hg.hessEntries s = some [] := by
    intro s
    rw [hessEntries_eq _ hy.valid, h]
    cases s <;> rfl
  have m : ∀ (x : SMap VId (Diag R)) (r : HessGrad R), UReal2.mixedLoop u hxy r x [] = some r := by
    intro x
    induction x with
    | nil => exact fun r => rfl
    | cons p x ih => exact fun r => ih r
  unfold binaryG
  simp only [e, h, m, ite_self]

section
variable (hM : 2 ≤ M) (hh : HasHalf f)
include hM hh

theorem lit_two : ∃ h, (lit 2 : Ext f M) = fin (lit 2) h ∧ (lit 2 : FP f).val = 2 := by
  have h2 : (lit 2 : FP f).val = 2 := by
    show f.rd ((2 : ℕ) : ℝ) = 2
    rw [Nat.cast_ofNat]; exact hh.1
  have h : |(lit 2 : FP f).val| ≤ M := by rw [h2]; simpa using hM
  exact ⟨h, ofFP_of_le h, h2⟩

theorem half_not_inf : ¬ Infinite (lit 2 : Ext f M) := by
  obtain ⟨h, e, -⟩ := lit_two hM hh
  rintro ⟨s, hs⟩
  rw [hs] at e
  cases e

theorem fin_half {a : Ext f M} (h : Finite a) : Finite (a / lit 2) := by
  obtain ⟨v, a, ha, rfl, rfl⟩ := h
  obtain ⟨h2, e, hv⟩ := lit_two hM hh
  rw [e, div_def, div', if_neg (by rw [hv]; norm_num)]
  have b : |(a / lit 2 : FP f).val| ≤ M := by
    refine le_trans ?_ ha
    rw [FP.val_div, hv]
    rcases le_total 0 a.val with h0 | h0
    · have h1 := f.rd_nonneg (x := a.val / 2) (by linarith)
      have h3 := f.mono (show a.val / 2 ≤ a.val by linarith)
      rw [a.rep] at h3
      rw [abs_of_nonneg h1, abs_of_nonneg h0]; exact h3
    · have h1 := f.mono (show a.val / 2 ≤ 0 by linarith)
      rw [f.rd_zero] at h1
      have h3 := f.mono (show a.val ≤ a.val / 2 by linarith)
      rw [a.rep] at h3
      rw [abs_of_nonpos h1, abs_of_nonpos h0]; linarith
  exact ⟨_, _, b, ofFP_of_le b, rfl⟩

theorem zero_half : (0 : Ext f M) / lit 2 = 0 := by
  obtain ⟨h2, e, hv⟩ := lit_two hM hh
  rw [e, zero_eq (by linarith), div_def, div', if_neg (by rw [hv]; norm_num), fp_zero_half, ← ofFP_of_le]

/-- half a second derivative -/
noncomputable def Two.half (a : Two f M) : Two f M := ⟨a.x / lit 2, a.y / lit 2, weak_div a.weak (weak_ofFP _) (half_not_inf hM hh)⟩

omit hh in
theorem flag_eq {a : Two f M} (h : Finite a.x) : CCmp.eqb a.x 0 = CCmp.eqb a.y 0 := by
  obtain ⟨v, c, hc, e, -⟩ := h
  have hy : c = a.y := a.weak c hc e
  rw [e, zero_eq (by linarith : (1 : ℝ) ≤ M), Bool.eq_iff_iff, fin_eqb, FP.eqb_fp, hy]

theorem binary_beside {x x' : UReal2 (Ext f M)} {y y' : UReal2 (FP f)} (h : Beside2 x y) (h' : Beside2 x' y') (m fx fy eyy exy : Two f M)
    (hfl : x'.hg.diagmap = [] ∨ ¬ Finite (eyy.x / lit 2) ∨ (Finite (eyy.x / lit 2) ∧ Finite (exy.x / lit 2))) :
    ∃ z w, (∀ v, UReal2.binary v x x' m.x fx.x fy.x 0 eyy.x exy.x = some z) ∧ (∀ v, UReal2.binary v y y' m.y fx.y fy.y 0 eyy.y exy.y = some w) ∧ Beside2 z w := by
  obtain ⟨z, e, zm, zv, zk, -⟩ := binary_lawfree h.ok h'.ok m.x fx.x fy.x 0 eyy.x exy.x
  obtain ⟨w, e', wm, wv, wk, -⟩ := binary_lawfree h.ok' h'.ok' m.y fx.y fy.y 0 eyy.y exy.y
  refine ⟨z, w, e, e', ⟨zv, ?_⟩, ⟨wv, ?_⟩, by rw [zm, wm]; exact m.weak, ?_, ?_⟩
  · intro i hi
    rcases (zk i).1 hi with h1 | h1
    exacts [h.ok.below i h1, h'.ok.below i h1]
  · intro i hi
    rcases (wk i).1 hi with h1 | h1
    exacts [h.ok'.below i h1, h'.ok'.below i h1]
  · refine keys_eq_of_mem zv.dsorted wv.dsorted fun i => ?_
    rw [zk, wk, h.vars, h'.vars]
  · by_cases b : Bad x ∨ Bad x' ∨ (¬ Finite (eyy.x / lit 2) ∧ x'.hg.diagmap ≠ [])
    · exact Or.inr (bad_binary h.ok h'.ok _ _ _ _ _ _ b e)
    · obtain ⟨Z, rfl, rfl⟩ := h.all.resolve_right fun h => b (Or.inl h)
      obtain ⟨Z', rfl, rfl⟩ := h'.all.resolve_right fun h => b (Or.inr (Or.inl h))
      have e1 := e (mapM Two.x ⟨0, 0, 0, 0, 0, 0⟩)
      have e2 := e' (mapM Two.y (⟨0, 0, 0, 0, 0, 0⟩ : Moments (Two f M)))
      rw [binary_G, zero_half hM hh] at e1
      rw [binary_G, fp_zero_half, eqb_zero_fp] at e2
      have z0 : CCmp.eqb (0 : Ext f M) 0 = true := by rw [zero_eq (by linarith : (1 : ℝ) ≤ M), fin_eqb]
      rw [z0] at e1
      have key : binaryG true (CCmp.eqb (eyy.y / lit 2) 0) (CCmp.eqb (exy.y / lit 2) 0) (mapM Two.x ⟨0, 0, 0, 0, 0, 0⟩) (mapU Two.x Z) (mapU Two.x Z') m.x fx.x fy.x 0 (eyy.x / lit 2)
          (exy.x / lit 2) = some z := by
        rw [← e1]
        by_cases hn : (mapU Two.x Z').hg.diagmap = []
        · exact binaryG_const _ _ _ _ _ _ h.ok h'.ok hn _ _ _ _ _ _
        · rcases hfl with h1 | h1 | ⟨h1, h2⟩
          · exact absurd h1 hn
          · exact absurd (Or.inr (Or.inr ⟨h1, hn⟩)) b
          · have f1 := flag_eq hM (a := Two.half hM hh eyy) h1
            have f2 := flag_eq hM (a := Two.half hM hh exy) h2
            change CCmp.eqb (eyy.x / lit 2) 0 = CCmp.eqb (eyy.y / lit 2) 0 at f1
            change CCmp.eqb (exy.x / lit 2) 0 = CCmp.eqb (exy.y / lit 2) 0 at f2
            rw [f1, f2]
      have hX := binaryG_hom Two.x_hom true (CCmp.eqb (eyy.y / lit 2) 0) (CCmp.eqb (exy.y / lit 2) 0) ⟨0, 0, 0, 0, 0, 0⟩ Z Z' m fx fy 0 (Two.half hM hh eyy) (Two.half hM hh exy)
      have hY := binaryG_hom Two.y_hom true (CCmp.eqb (eyy.y / lit 2) 0) (CCmp.eqb (exy.y / lit 2) 0) ⟨0, 0, 0, 0, 0, 0⟩ Z Z' m fx fy 0 (Two.half hM hh eyy) (Two.half hM hh exy)
      have hX' := key.symm.trans hX
      have hY' := e2.symm.trans hY
      obtain ⟨W, hW, rfl⟩ := Option.map_eq_some_iff.1 hX'.symm
      rw [hW, Option.map_some, Option.some_inj] at hY'
      exact Or.inl ⟨W, rfl, hY'.symm⟩

theorem unary_beside {x : UReal2 (Ext f M)} {y : UReal2 (FP f)} (h : Beside2 x y) (m fx : Two f M) :
    ∃ z w, (∀ v, UReal2.unary v x m.x fx.x 0 = some z) ∧ (∀ v, UReal2.unary v y m.y fx.y 0 = some w) ∧ Beside2 z w := by
  obtain ⟨z, e, zm, zv, zk, -⟩ := unary_lawfree h.ok.valid m.x fx.x 0
  obtain ⟨w, e', wm, wv, wk, -⟩ := unary_lawfree h.ok'.valid m.y fx.y 0
  refine ⟨z, w, e, e', ⟨zv, by unfold HessGrad.Below; rw [zk]; exact h.ok.below⟩, ⟨wv, by unfold HessGrad.Below; rw [wk]; exact h.ok'.below⟩, by rw [zm, wm]; exact m.weak, by rw [zk, wk, h.vars], ?_⟩
  rcases h.all with ⟨Z, rfl, rfl⟩ | b
  · have e1 := e (mapM Two.x ⟨0, 0, 0, 0, 0, 0⟩)
    have e2 := e' (mapM Two.y (⟨0, 0, 0, 0, 0, 0⟩ : Moments (Two f M)))
    have z0 : CCmp.eqb (0 : Ext f M) 0 = true := by rw [zero_eq (by linarith : (1 : ℝ) ≤ M), fin_eqb]
    rw [unary_G, zero_half hM hh, z0] at e1
    rw [unary_G, fp_zero_half, eqb_zero_fp] at e2
    have hX := unaryG_hom Two.x_hom true ⟨0, 0, 0, 0, 0, 0⟩ Z m fx 0
    have hY := unaryG_hom Two.y_hom true ⟨0, 0, 0, 0, 0, 0⟩ Z m fx 0
    have hX' := e1.symm.trans hX
    have hY' := e2.symm.trans hY
    obtain ⟨W, hW, rfl⟩ := Option.map_eq_some_iff.1 hX'.symm
    rw [hW, Option.map_some, Option.some_inj] at hY'
    exact Or.inl ⟨W, rfl, hY'.symm⟩
  · exact Or.inr (bad_unary h.ok b _ _ _ e)

end

/-- one -/
noncomputable def Two.one' : Two f M := ⟨1, 1, weak_ofFP _⟩
/-- minus one -/
noncomputable def Two.neg' (a : Two f M) : Two f M := ⟨-a.x, -a.y, weak_neg a.weak⟩
/-- a quotient -/
noncomputable def Two.div (a b : Two f M) (h : ¬ Infinite b.x) : Two f M := ⟨a.x / b.x, a.y / b.y, weak_div a.weak b.weak h⟩

theorem fin_neg {a : Ext f M} (h : Finite a) : Finite (-a) := by
  obtain ⟨v, a, ha, rfl, rfl⟩ := h
  have b : |(-a : FP f).val| ≤ M := by rw [FP.val_neg, abs_neg]; exact ha
  exact ⟨_, _, b, ofFP_of_le b, rfl⟩

/-- a whole calculation with and without limits on the range -/
theorem run_beside (hM : 2 ≤ M) (hh : HasHalf f) {env : ℕ → UReal2 (FP f)} (henv : ∀ i, Ok2 (env i)) : ∀ {c : Calc2}, Tame2 (limited M env) c →
    ∃ x y, (∀ v, c.run v (limited M env) = some x) ∧ (∀ v, c.run v env = some y) ∧ Beside2 x y
  | .leaf i, _ => by
    refine ⟨limited M env i, env i, fun v => rfl, fun v => rfl, ?_⟩
    have h := beside_of (mapU (Two.of M) (env i)) (ok_mapU _ (henv i))
    rw [mapU_mapU, mapU_mapU, mapU_id (c := Two.y ∘ Two.of M) (fun _ => rfl)] at h
    exact h
  | .neg a, h => by
    obtain ⟨x, y, hx, hy, b⟩ := run_beside hM hh henv (c := a) h
    obtain ⟨z, w, hz, hw, b'⟩ := unary_beside hM hh b (Two.neg' ⟨x.mu, y.mu, b.mu⟩) (Two.neg' Two.one')
    refine ⟨z, w, fun v => ?_, fun v => ?_, b'⟩
    · rw [Calc2.run, hx, Option.bind_some]; exact hz v
    · rw [Calc2.run, hy, Option.bind_some]; exact hw v
  | .add a a2, h => by
    obtain ⟨x, y, hx, hy, b⟩ := run_beside hM hh henv (c := a) h.1
    obtain ⟨x', y', hx', hy', b'⟩ := run_beside hM hh henv (c := a2) h.2
    have f0 : Spec.Finite ((0 : Two f M).x / lit 2) := fin_half hM hh ⟨_, _, _, zero_eq (by linarith), rfl⟩
    obtain ⟨z, w, hz, hw, b''⟩ := binary_beside hM hh b b' (⟨x.mu, y.mu, b.mu⟩ + ⟨x'.mu, y'.mu, b'.mu⟩) Two.one' Two.one' 0 0 (Or.inr (Or.inr ⟨f0, f0⟩))
    refine ⟨z, w, fun v => ?_, fun v => ?_, b''⟩
    · rw [Calc2.run, hx, hx', Option.bind_some, Option.bind_some]; exact hz v
    · rw [Calc2.run, hy, hy', Option.bind_some, Option.bind_some]; exact hw v
  | .sub a a2, h => by
    obtain ⟨x, y, hx, hy, b⟩ := run_beside hM hh henv (c := a) h.1
    obtain ⟨x', y', hx', hy', b'⟩ := run_beside hM hh henv (c := a2) h.2
    have f0 : Spec.Finite ((0 : Two f M).x / lit 2) := fin_half hM hh ⟨_, _, _, zero_eq (by linarith), rfl⟩
    obtain ⟨z, w, hz, hw, b''⟩ := binary_beside hM hh b b' (⟨x.mu, y.mu, b.mu⟩ - ⟨x'.mu, y'.mu, b'.mu⟩) Two.one' (Two.neg' Two.one') 0 0 (Or.inr (Or.inr ⟨f0, f0⟩))
    refine ⟨z, w, fun v => ?_, fun v => ?_, b''⟩
    · rw [Calc2.run, hx, hx', Option.bind_some, Option.bind_some]; exact hz v
    · rw [Calc2.run, hy, hy', Option.bind_some, Option.bind_some]; exact hw v
  | .mul a a2, h => by
    obtain ⟨x, y, hx, hy, b⟩ := run_beside hM hh henv (c := a) h.1
    obtain ⟨x', y', hx', hy', b'⟩ := run_beside hM hh henv (c := a2) h.2
    have f0 : Spec.Finite ((0 : Two f M).x / lit 2) := fin_half hM hh ⟨_, _, _, zero_eq (by linarith), rfl⟩
    have f1 : Spec.Finite ((Two.one' : Two f M).x / lit 2) := fin_half hM hh ⟨_, _, _, one_eq (by linarith), rfl⟩
    obtain ⟨z, w, hz, hw, b''⟩ := binary_beside hM hh b b' (⟨x.mu, y.mu, b.mu⟩ * ⟨x'.mu, y'.mu, b'.mu⟩) ⟨x'.mu, y'.mu, b'.mu⟩ ⟨x.mu, y.mu, b.mu⟩ 0 Two.one' (Or.inr (Or.inr ⟨f0, f1⟩))
    refine ⟨z, w, fun v => ?_, fun v => ?_, b''⟩
    · rw [Calc2.run, hx, hx', Option.bind_some, Option.bind_some]; exact hz v
    · rw [Calc2.run, hy, hy', Option.bind_some, Option.bind_some]; exact hw v
  | .div a a2, h => by
    obtain ⟨x, y, hx, hy, b⟩ := run_beside hM hh henv (c := a) h.1
    obtain ⟨x', y', hx', hy', b'⟩ := run_beside hM hh henv (c := a2) h.2.1
    have ni : ¬ Infinite x'.mu := h.2.2 ⟨0, 0, 0, 0, 0, 0⟩ x' (hx' _)
    let X : Two f M := ⟨x.mu, y.mu, b.mu⟩
    let I : Two f M := Two.div Two.one' ⟨x'.mu, y'.mu, b'.mu⟩ ni
    obtain ⟨z, w, hz, hw, b''⟩ := binary_beside hM hh b b' (Two.div X ⟨x'.mu, y'.mu, b'.mu⟩ ni) I (Two.neg' X * (I * I)) (((2 : ℕ) : Two f M) * X * (I * I) * I) (Two.neg' (I * I)) (by
      right
      by_cases hf : Spec.Finite ((((2 : ℕ) : Two f M) * X * (I * I) * I).x / lit 2)
      · refine Or.inr ⟨hf, fin_half hM hh (fin_neg ?_)⟩
        by_contra hn
        exact not_fin_div_left (not_fin_mul_left (not_fin_mul_right hn)) hf
      · exact Or.inl hf)
    refine ⟨z, w, fun v => ?_, fun v => ?_, b''⟩
    · rw [Calc2.run, hx, hx', Option.bind_some, Option.bind_some]; exact hz v
    · rw [Calc2.run, hy, hy', Option.bind_some, Option.bind_some]; exact hw v

/-! ## results -/

theorem Beside2.m {x : UReal2 (Ext f M)} {y : UReal2 (FP f)} (h : Beside2 x y) {n : ℕ} (hn : 1 ≤ n ∧ n ≤ 4) : ∃ a b, x.m n = some a ∧ y.m n = some b ∧ (Weak a b ∧ (Bad x → ¬ Finite a)) := by
  obtain ⟨a, ha⟩ := Option.isSome_iff_exists.1 (m_isSome_any h.ok hn)
  obtain ⟨b, hb⟩ := Option.isSome_iff_exists.1 (m_isSome_any h.ok' hn)
  refine ⟨a, b, ha, hb, ?_, fun k => bad_m k ha⟩
  rcases h.all with ⟨Z, rfl, rfl⟩ | k
  · rw [m_hom Two.x_hom] at ha
    rw [m_hom Two.y_hom] at hb
    obtain ⟨c, hc, rfl⟩ := Option.map_eq_some_iff.1 ha
    rw [hc, Option.map_some, Option.some_inj] at hb
    rw [← hb]; exact c.weak
  · intro c hc e
    exact absurd ⟨_, c, hc, e, rfl⟩ (bad_m k ha)

theorem Beside2.cov {x x' : UReal2 (Ext f M)} {y y' : UReal2 (FP f)} (h : Beside2 x y) (h' : Beside2 x' y') : ∃ a b, UReal2.cov x x' = some a ∧ UReal2.cov y y' = some b ∧ Weak a b := by
  obtain ⟨a, ha⟩ := Option.isSome_iff_exists.1 (cov_isSome_any h.ok h'.ok)
  obtain ⟨b, hb⟩ := Option.isSome_iff_exists.1 (cov_isSome_any h.ok' h'.ok')
  refine ⟨a, b, ha, hb, ?_⟩
  by_cases k : Bad x ∨ Bad x'
  · intro c hc e
    refine absurd ⟨_, c, hc, e, rfl⟩ (?_ : ¬ Finite a)
    unfold UReal2.cov at ha
    obtain ⟨c0, h0, ha⟩ := Option.bind_eq_some_iff.1 ha
    obtain ⟨a1, h1, ha⟩ := Option.bind_eq_some_iff.1 ha
    obtain ⟨b1, h2, rfl⟩ := Option.map_eq_some_iff.1 ha
    rcases k with k | k
    · exact not_fin_sub_right (not_fin_mul_left (bad_m k h1))
    · exact not_fin_sub_right (not_fin_mul_right (bad_m k h2))
  · obtain ⟨Z, rfl, rfl⟩ := h.all.resolve_right fun h => k (Or.inl h)
    obtain ⟨Z', rfl, rfl⟩ := h'.all.resolve_right fun h => k (Or.inr h)
    rw [cov_hom Two.x_hom] at ha
    rw [cov_hom Two.y_hom] at hb
    obtain ⟨c, hc, rfl⟩ := Option.map_eq_some_iff.1 ha
    rw [hc, Option.map_some, Option.some_inj] at hb
    rw [← hb]; exact c.weak

end Ext
end Unc
