import Verif.Lemmas.TrackDiv

/-!
# The roundings of functions
-/

namespace Unc
open Unc.Spec HessGrad SMap Mom Tr Unc.Props

variable {f : Fmt} {u : ℝ} {hu : Acc f.rd u} {κ κ' : ℕ}

/-- a number with a known error -/
noncomputable def Tr.of (hu : Acc f.rd u) (r : FP f) (t w : ℝ) (j : ℕ) (h1 : |t| ≤ w) (h2 : |r.val - t| ≤ relErr u j * w) : Tr f u hu := ⟨r, t, w, some j, h1, h2⟩

theorem few_of {r : FP f} {t w : ℝ} {j : ℕ} (h1 : |t| ≤ w) (h2 : |r.val - t| ≤ relErr u j * w) : Few (Tr.of hu r t w j h1 h2) j := cle_some le_rfl

/-- whether the half is zero -/
theorem flag_of {j : ℕ} (l2 : (lit 2 : FP f).val = 2) (a : Tr f u hu) (ha : Few a j) (h : Apart u j a.w a.t) :
    ∃ s, CCmp.eqb (a.v / lit 2) 0 = s ∧ CCmp.eqb (a.t / lit 2) 0 = s ∧ CCmp.eqb (a.w / lit 2) 0 = s := by
  rcases h with hx | hx
  · have t0 : a.t = 0 := abs_nonpos_iff.1 (a.rough.1.trans hx.le)
    have x0 : a.v.val = 0 := by
      have := a.err ha
      rw [hx, t0, mul_zero, sub_zero] at this
      exact abs_nonpos_iff.1 this
    refine ⟨true, ?_, ?_, ?_⟩
    · rw [FP.eqb_fp, FP.val_div, x0]
      simp [Fmt.rd_zero]
    · rw [t0, eqb_iff]; simp
    · rw [hx, eqb_iff]; simp
  · have x0 : a.v.val ≠ 0 := by
      intro h
      have := a.err ha
      rw [h, zero_sub, abs_neg] at this
      exact absurd hx (not_lt.2 this)
    have t0 : a.t ≠ 0 := by
      intro h
      rw [h, abs_zero] at hx
      have : (1 : ℝ) ≤ (1 + u) ^ j := one_le_pow₀ (by linarith [hu.nonneg])
      have := mul_nonneg (sub_nonneg.2 this) a.rough.nonneg
      exact absurd hx (not_lt.2 this)
    have w0 : a.w ≠ 0 := (lt_of_lt_of_le (abs_pos.2 t0) a.rough.1).ne'
    exact ⟨false, eqb_fp_of hu l2 x0, eqb_real_of t0, eqb_real_of w0⟩

/-- `unary` -/
theorem unaryG_few2 (v : Moments (Tr f u hu)) {x z : UReal2 (Tr f u hu)} (hx : Ok2 x) {m fx fxx : Tr f u hu} {s : Bool} {K : ℕ} (gx : HFew 0 κ x.hg) (px : ∀ a, Few a κ → Few (fx * a) K)
    (pxx : ∀ a b c, Few a κ → Few b κ → Few c κ → Few (fxx * a * b + fx * c) K) (hm : Few m K) (e : unaryG s v x m fx fxx = some z) : z.mu = m ∧ UFew K z := by
  letI : One (Tr f u hu) := ⟨0⟩
  letI : Neg (Tr f u hu) := ⟨fun a => a⟩
  letI : Div (Tr f u hu) := ⟨fun a _ => a⟩
  letI : CCmp (Tr f u hu) := ⟨fun _ _ => s, fun _ _ => s, fun _ _ => s⟩
  obtain ⟨z', e', m', v', d', t'⟩ := unary_cells v hx.valid m fx fxx
  have : UReal2.unary v x m fx fxx = unaryG s v x m fx fxx := rfl
  rw [this, e, Option.some_inj] at e'
  subst e'
  refine ⟨m', by rw [m']; exact hm, HFew.of_find v' (fun i d hd => ?_) fun a b hab w hw => ?_⟩
  · rw [d'] at hd
    obtain ⟨d0, h0, rfl⟩ := Option.map_eq_some_iff.1 hd
    obtain ⟨g, h, v3, v4, v5, v6, v7, v8⟩ := gx.find_diag h0
    exact ⟨px _ g, pxx _ _ _ g g h, v3, v4, v5, v6, v7, v8⟩
  · rw [t' a b hab] at hw
    obtain ⟨e0, h0, rfl⟩ := Option.map_eq_some_iff.1 hw
    have he := List.mem_of_getLast? h0
    exact pxx _ _ _ (entsAt_grad hx.valid gx he).1 (entsAt_grad hx.valid gx he).2 (entsAt_few hx.valid gx hab he)

theorem lit2_val (hh : HasHalf f) : (lit 2 : FP f).val = 2 := by
  show f.rd ((2 : ℕ) : ℝ) = 2
  rw [Nat.cast_ofNat]; exact hh.1

theorem fun1_tr (hh : HasHalf f) (X : UReal2 (Tr f u hu)) (hX : Ok2 X) (fX : UFew κ X) (h : Fun1 f) (good : h.Good u (relErr u κ * X.mu.w) X.mu.t) :
    ∃ Z : UReal2 (Tr f u hu), Ok2 Z ∧ UFew (2 * κ + h.j + 4) Z ∧ Z.mu.t = h.g X.mu.t ∧ Z.mu.w = h.S ∧
    (∀ v, UReal2.unary v (mapU Tr.v X) (h.F X.mu.v) (h.F1 X.mu.v) (h.F2 X.mu.v) = some (mapU Tr.v Z)) ∧
    (∀ v, UReal2.unary v (mapU Tr.t X) (h.g X.mu.t) (h.g1 X.mu.t) (h.g2 X.mu.t) = some (mapU Tr.t Z)) ∧
    ∀ v, UReal2.unary v (mapU Tr.w X) h.S h.S1 h.S2 = some (mapU Tr.w Z) := by
  have l2 := lit2_val hh
  have er : |X.mu.v.val - X.mu.t| ≤ relErr u κ * X.mu.w := X.mu.err fX.mu
  obtain ⟨⟨a0, b0⟩, ⟨a1, b1⟩, ⟨a2, b2⟩, ap⟩ := good
  set m : Tr f u hu := Tr.of hu (h.F X.mu.v) (h.g X.mu.t) h.S h.j a0 (b0 _ er) with hm
  set m1 : Tr f u hu := Tr.of hu (h.F1 X.mu.v) (h.g1 X.mu.t) h.S1 h.j a1 (b1 _ er) with hm1
  set m2 : Tr f u hu := Tr.of hu (h.F2 X.mu.v) (h.g2 X.mu.t) h.S2 h.j a2 (b2 _ er) with hm2
  have k0 : Few m h.j := few_of _ _
  have k1 : Few m1 h.j := few_of _ _
  have k2 : Few m2 h.j := few_of _ _
  obtain ⟨s, s1, s2, s3⟩ := flag_of l2 m2 k2 ap
  have k3 : Few (Tr.halve hu l2 m2 _ k2) (h.j + 1) := cle_some le_rfl
  obtain ⟨Z0, hZ0, ok0⟩ := C21_unary (ok_mapU Tr.t hX) (h.g X.mu.t) (h.g1 X.mu.t) (h.g2 X.mu.t)
  have eT := unaryG_hom Tr.t_hom s ⟨0, 0, 0, 0, 0, 0⟩ X m m1 (Tr.halve hu l2 m2 _ k2)
  have eV := unaryG_hom Tr.v_hom s ⟨0, 0, 0, 0, 0, 0⟩ X m m1 (Tr.halve hu l2 m2 _ k2)
  have eM := unaryG_hom Tr.m_hom s ⟨0, 0, 0, 0, 0, 0⟩ X m m1 (Tr.halve hu l2 m2 _ k2)
  have hT : UReal2.unary (mapM Tr.t (⟨0, 0, 0, 0, 0, 0⟩ : Moments (Tr f u hu))) (mapU Tr.t X) (h.g X.mu.t) (h.g1 X.mu.t) (h.g2 X.mu.t) =
      (unaryG s ⟨0, 0, 0, 0, 0, 0⟩ X m m1 (Tr.halve hu l2 m2 _ k2)).map (mapU Tr.t) := by
    rw [unary_G, show CCmp.eqb (h.g2 X.mu.t / lit 2) 0 = s from s2]; exact eT
  rw [hZ0] at hT
  obtain ⟨Z, hZ, eZ⟩ := Option.map_eq_some_iff.1 hT.symm
  obtain ⟨mZ, fZ⟩ := unaryG_few2 _ hX (K := 2 * κ + h.j + 4) fX.hg (fun a ha => (k1.mul ha).mono (by omega))
    (fun a b c ha hb hc => (Few.add (((k3.mul ha).mul hb).mono (L := 2 * κ + h.j + 3) (by omega)) ((k1.mul hc).mono (by omega))).mono (by omega)) (k0.mono (by omega)) hZ
  refine ⟨Z, ok_of_mapU (c := Tr.t) (eZ ▸ ok0), fZ, by rw [mZ]; rfl, by rw [mZ]; rfl, fun v => ?_, fun v => by rw [hZ0, eZ], fun v => ?_⟩
  · rw [unary_any (ok_mapU _ hX) _ _ _ v (mapM Tr.v ⟨0, 0, 0, 0, 0, 0⟩), unary_G, show CCmp.eqb (h.F2 X.mu.v / lit 2) 0 = s from s1]
    rw [hZ] at eV
    exact eV
  · rw [unary_any (ok_mapU _ hX) _ _ _ v (mapM Tr.w ⟨0, 0, 0, 0, 0, 0⟩), unary_G, show CCmp.eqb (h.S2 / lit 2) 0 = s from s3]
    rw [hZ] at eM
    exact eM

theorem fun2_tr (hh : HasHalf f) (X Y : UReal2 (Tr f u hu)) (hX : Ok2 X) (hY : Ok2 Y) (fX : UFew κ X) (fY : UFew κ' Y) (h : Fun2 f)
    (good : h.Good u (relErr u κ * X.mu.w) (relErr u κ' * Y.mu.w) X.mu.t Y.mu.t) :
    ∃ Z : UReal2 (Tr f u hu), Ok2 Z ∧ UFew (2 * max κ κ' + h.j + 9) Z ∧ Z.mu.t = h.g X.mu.t Y.mu.t ∧ Z.mu.w = h.S ∧
    (∀ v, UReal2.binary v (mapU Tr.v X) (mapU Tr.v Y) (h.F X.mu.v Y.mu.v) (h.Fx X.mu.v Y.mu.v) (h.Fy X.mu.v Y.mu.v) (h.Fxx X.mu.v Y.mu.v) (h.Fyy X.mu.v Y.mu.v) (h.Fxy X.mu.v Y.mu.v) =
      some (mapU Tr.v Z)) ∧
    (∀ v, UReal2.binary v (mapU Tr.t X) (mapU Tr.t Y) (h.g X.mu.t Y.mu.t) (h.gx X.mu.t Y.mu.t) (h.gy X.mu.t Y.mu.t) (h.gxx X.mu.t Y.mu.t) (h.gyy X.mu.t Y.mu.t) (h.gxy X.mu.t Y.mu.t) =
      some (mapU Tr.t Z)) ∧
    ∀ v, UReal2.binary v (mapU Tr.w X) (mapU Tr.w Y) h.S h.Sx h.Sy h.Sxx h.Syy h.Sxy = some (mapU Tr.w Z) := by
  have l2 := lit2_val hh
  have er : |X.mu.v.val - X.mu.t| ≤ relErr u κ * X.mu.w := X.mu.err fX.mu
  have er' : |Y.mu.v.val - Y.mu.t| ≤ relErr u κ' * Y.mu.w := Y.mu.err fY.mu
  obtain ⟨⟨⟨a0, b0⟩, ⟨a1, b1⟩, ⟨a2, b2⟩⟩, ⟨⟨a3, b3⟩, ⟨a4, b4⟩, ⟨a5, b5⟩⟩, ap3, ap4, ap5⟩ := good
  set m : Tr f u hu := Tr.of hu (h.F X.mu.v Y.mu.v) (h.g X.mu.t Y.mu.t) h.S h.j a0 (b0 (_, _) ⟨er, er'⟩) with hm
  set mx : Tr f u hu := Tr.of hu (h.Fx X.mu.v Y.mu.v) (h.gx X.mu.t Y.mu.t) h.Sx h.j a1 (b1 (_, _) ⟨er, er'⟩) with hmx
  set my : Tr f u hu := Tr.of hu (h.Fy X.mu.v Y.mu.v) (h.gy X.mu.t Y.mu.t) h.Sy h.j a2 (b2 (_, _) ⟨er, er'⟩) with hmy
  set mxx : Tr f u hu := Tr.of hu (h.Fxx X.mu.v Y.mu.v) (h.gxx X.mu.t Y.mu.t) h.Sxx h.j a3 (b3 (_, _) ⟨er, er'⟩) with hmxx
  set myy : Tr f u hu := Tr.of hu (h.Fyy X.mu.v Y.mu.v) (h.gyy X.mu.t Y.mu.t) h.Syy h.j a4 (b4 (_, _) ⟨er, er'⟩) with hmyy
  set mxy : Tr f u hu := Tr.of hu (h.Fxy X.mu.v Y.mu.v) (h.gxy X.mu.t Y.mu.t) h.Sxy h.j a5 (b5 (_, _) ⟨er, er'⟩) with hmxy
  have k0 : Few m h.j := few_of _ _
  have k1 : Few mx h.j := few_of _ _
  have k2 : Few my h.j := few_of _ _
  have k3 : Few mxx h.j := few_of _ _
  have k4 : Few myy h.j := few_of _ _
  have k5 : Few mxy h.j := few_of _ _
  obtain ⟨sx, q1, q2, q3⟩ := flag_of l2 mxx k3 ap3
  obtain ⟨sy, r1, r2, r3⟩ := flag_of l2 myy k4 ap4
  obtain ⟨sxy, s1, s2, s3⟩ := flag_of l2 mxy k5 ap5
  have j3 : Few (Tr.halve hu l2 mxx _ k3) (h.j + 1) := cle_some le_rfl
  have j4 : Few (Tr.halve hu l2 myy _ k4) (h.j + 1) := cle_some le_rfl
  have j5 : Few (Tr.halve hu l2 mxy _ k5) (h.j + 1) := cle_some le_rfl
  obtain ⟨Z, h1, h2, h3, h4, h5⟩ := binary_tr2 hX hY (m := m) (fx := mx) (fy := my) (hxx := Tr.halve hu l2 mxx _ k3) (hyy := Tr.halve hu l2 myy _ k4) (h := Tr.halve hu l2 mxy _ k5)
    rfl rfl rfl rfl rfl rfl rfl rfl rfl s1 s2 s3 r1 r2 r3 q1 q2 q3
  have c1 : κ ≤ max κ κ' := le_max_left _ _
  have c2 : κ' ≤ max κ κ' := le_max_right _ _
  generalize max κ κ' = n at c1 c2 ⊢
  obtain ⟨mZ, fZ⟩ := binaryG_few2 _ hX hY (K := 2 * n + h.j + 4) fX.hg fY.hg (fun a ha => (k1.mul ha).mono (by omega))
    (fun a b c ha hb hc => (Few.add (((j3.mul ha).mul hb).mono (L := 2 * n + h.j + 3) (by omega)) ((k1.mul hc).mono (by omega))).mono (by omega))
    (fun a ha => (k2.mul ha).mono (by omega)) (fun a b ha hb => ((j4.mul ha).mul hb).mono (by omega)) (k0.mono (by omega)) j5 (by omega) h2
  exact ⟨Z, h1, fZ, by rw [mZ]; rfl, by rw [mZ]; rfl, h3, h4, h5⟩

end Unc
