import Verif.Lemmas.TrackBin

/-!
# The roundings of a division
-/

namespace Unc
open Unc.Spec HessGrad SMap Mom Tr Unc.Props

variable {f : Fmt} {u : ℝ} {hu : Acc f.rd u} {κ κ' : ℕ}

theorem hProc_few2 {fx fy hx hy : Tr f u hu} {K : ℕ} : ∀ (o : Option (Tr f u hu)) (ex ey : List (Ent (Tr f u hu))), (∀ e ∈ ex, Few (valX fx hx e) K) →
    (∀ e ∈ ey, Few (hy * e.d1.grad * e.d2.grad) K ∧ Few (fy * e.val) K) → (∀ v, o = some v → Few v (K + 2)) → ∀ v, hProc fx fy hx hy o ex ey = some v → Few v (K + 2) := by
  intro o ex ey hx hy ho v hv
  induction hn : ex.length + ey.length using Nat.strong_induction_on generalizing o ex ey with
  | _ n ih =>
  match ex, ey, hx, hy, hn, hv with
  | [], [], hx, hy, hn, hv =>
    rw [hProc] at hv
    exact ho v hv
  | e :: ex, [], hx, hy, hn, hv =>
    rw [hProc] at hv
    refine ih _ (by subst hn; simp) _ ex [] (fun a ha => hx a (List.mem_cons_of_mem _ ha)) hy ?_ hv rfl
    rintro _ ⟨⟩
    exact (hx e (by simp)).mono (by omega)
  | [], e :: ey, hx, hy, hn, hv =>
    rw [hProc] at hv
    refine ih _ (by subst hn; simp) _ [] ey hx (fun a ha => hy a (List.mem_cons_of_mem _ ha)) ?_ hv rfl
    rintro _ ⟨⟩
    exact Few.step ((few_zero K).add (hy e (by simp)).1) (hy e (by simp)).2 (by omega)
  | e :: ex, e' :: ey, hx, hy, hn, hv =>
    rw [hProc] at hv
    refine ih _ (by subst hn; simp; omega) _ ex ey (fun a ha => hx a (List.mem_cons_of_mem _ ha)) (fun a ha => hy a (List.mem_cons_of_mem _ ha)) ?_ hv rfl
    rintro _ ⟨⟩
    exact Few.step (Few.add (hx e (by simp)) (hy e' (by simp)).1) (hy e' (by simp)).2 (by omega)

theorem entsAt_grad {x : HessGrad (Tr f u hu)} (hx : x.Valid) (h : HFew 0 κ x) {skip : Bool} {a b : VId} {e : Ent (Tr f u hu)} (he : e ∈ entsAt skip x a b) :
    Few e.d1.grad κ ∧ Few e.d2.grad κ := by
  haveI : One (Tr f u hu) := ⟨0⟩
  haveI : Neg (Tr f u hu) := ⟨fun a => a⟩
  haveI : Div (Tr f u hu) := ⟨fun a _ => a⟩
  haveI : CCmp (Tr f u hu) := ⟨fun _ _ => false, fun _ _ => false, fun _ _ => false⟩
  obtain ⟨h1, -⟩ := List.mem_filter.1 he
  obtain ⟨-, k1, k2, e1, e2⟩ := (entries_facts hx skip).1 e h1
  rw [e1, e2]
  exact ⟨(h.find_diag (find_dOf k1)).g, (h.find_diag (find_dOf k2)).g⟩

theorem HFew.mono {x : HessGrad (Tr f u hu)} (h : HFew 0 κ x) {K : ℕ} (hK : κ ≤ K) : HFew 0 K x :=
  ⟨fun p hp => ⟨(h.diag p hp).g.mono hK, (h.diag p hp).h.mono hK, (h.diag p hp).v3, (h.diag p hp).v4, (h.diag p hp).v5, (h.diag p hp).v6, (h.diag p hp).v7, (h.diag p hp).v8⟩,
    fun p hp => (h.tri p hp).mono hK⟩

/-- the first loop of `binary` -/
theorem loop_few2 (v : Moments (Tr f u hu)) {x y : HessGrad (Tr f u hu)} (hx : x.Valid) (hy : y.Valid) (bx : x.Below) (by' : y.Below) (sx sy : Bool) {fx fy fxx fyy : Tr f u hu} {K : ℕ}
    (gx : HFew 0 κ x) (gy : HFew 0 κ' y) (px : ∀ a, Few a κ → Few (fx * a) K) (pxx : ∀ a b c, Few a κ → Few b κ → Few c κ → Few (fxx * a * b + fx * c) K)
    (py : ∀ a, Few a κ' → Few (fy * a) K) (pyy : ∀ a b, Few a κ' → Few b κ' → Few (fyy * a * b) K) :
    ∃ z, UReal2.binaryLoop v fx fy fxx fyy HessGrad.empty (hessSpec sx x.dOf x.diagmap x.trimap) (hessSpec sy y.dOf y.diagmap y.trimap) = some z ∧ z.Valid ∧
      (∀ i, i ∈ keys z.diagmap ↔ i ∈ keys x.diagmap ∨ i ∈ keys y.diagmap) ∧ HFew 0 (K + 2) z := by
  haveI : One (Tr f u hu) := ⟨0⟩
  haveI : Neg (Tr f u hu) := ⟨fun a => a⟩
  haveI : Div (Tr f u hu) := ⟨fun a _ => a⟩
  haveI : CCmp (Tr f u hu) := ⟨fun _ _ => false, fun _ _ => false, fun _ _ => false⟩
  obtain ⟨z, e, vz, d, t⟩ := binaryLoop_cells v hx hy bx by' sx sy fx fy fxx fyy
  refine ⟨z, e, vz, fun i => ?_, HFew.of_find vz (fun i di hi => ?_) fun a b hab w hw => ?_⟩
  · rw [← find?_isSome, ← find?_isSome, ← find?_isSome, d]
    cases find? x.diagmap i <;> cases find? y.diagmap i <;> simp [diagMerge]
  · rw [d] at hi
    cases h1 : find? x.diagmap i with
    | none =>
      cases h2 : find? y.diagmap i with
      | none => rw [h1, h2] at hi; exact nomatch hi
      | some b =>
        rw [h1, h2] at hi
        obtain ⟨g, h, v3, v4, v5, v6, v7, v8⟩ := gy.find_diag h2
        cases hi
        exact ⟨((few_zero K).add (py _ g)).mono (by omega), Few.step ((few_zero K).add (pyy _ _ g g)) (py _ h) (by omega), v3, v4, v5, v6, v7, v8⟩
    | some a =>
      obtain ⟨g, h, v3, v4, v5, v6, v7, v8⟩ := gx.find_diag h1
      cases h2 : find? y.diagmap i with
      | none =>
        rw [h1, h2] at hi
        cases hi
        exact ⟨(px _ g).mono (by omega), (pxx _ _ _ g g h).mono (by omega), v3, v4, v5, v6, v7, v8⟩
      | some b =>
        rw [h1, h2] at hi
        obtain ⟨g', h', -⟩ := gy.find_diag h2
        cases hi
        exact ⟨((px _ g).add (py _ g')).mono (by omega), Few.step (Few.add (pxx _ _ _ g g h) (pyy _ _ g' g')) (py _ h') (by omega), v3, v4, v5, v6, v7, v8⟩
  · rw [t a b hab] at hw
    exact hProc_few2 none _ _ (fun e he => pxx _ _ _ (entsAt_grad hx gx he).1 (entsAt_grad hx gx he).2 (entsAt_few hx gx hab he))
      (fun e he => ⟨pyy _ _ (entsAt_grad hy gy he).1 (entsAt_grad hy gy he).2, py _ (entsAt_few hy gy hab he)⟩) (by rintro _ ⟨⟩) w hw

/-- a function of two arguments -/
theorem binaryG_few2 (v : Moments (Tr f u hu)) {x y z : UReal2 (Tr f u hu)} (hx : Ok2 x) (hy : Ok2 y) {m fx fy fxx fyy h : Tr f u hu} {sx sy sxy : Bool} {K H : ℕ}
    (gx : HFew 0 κ x.hg) (gy : HFew 0 κ' y.hg) (px : ∀ a, Few a κ → Few (fx * a) K) (pxx : ∀ a b c, Few a κ → Few b κ → Few c κ → Few (fxx * a * b + fx * c) K)
    (py : ∀ a, Few a κ' → Few (fy * a) K) (pyy : ∀ a b, Few a κ' → Few b κ' → Few (fyy * a * b) K)
    (hm : Few m (K + 5)) (hh : Few h H) (hK : κ + κ' + H ≤ K) (e : binaryG sx sy sxy v x y m fx fy fxx fyy h = some z) : z.mu = m ∧ UFew (K + 5) z := by
  unfold binaryG at e
  rw [hessEntries_eq _ hx.valid, hessEntries_eq _ hy.valid, Option.bind_some, Option.bind_some] at e
  obtain ⟨r, hr, vr, kr, fr⟩ := loop_few2 v hx.valid hy.valid hx.below hy.below sx sy gx gy px pxx py pyy
  rw [hr, Option.bind_some] at e
  obtain ⟨hg, h1, rfl⟩ := Option.map_eq_some_iff.1 e
  cases sxy with
  | true =>
    obtain rfl : r = hg := by simpa using h1
    exact ⟨rfl, hm, fr.mono (by omega)⟩
  | false =>
    have := mixedLoop_few v hx.valid.dsorted hy.valid.dsorted (D := H + κ + κ' + 2) (K := K + 2) vr (fun i hi => (kr i).2 (Or.inl hi)) (fun i hi => (kr i).2 (Or.inr hi))
      (fun p hp q hq => (((hh.mul (gx.diag p hp).g).mul (gy.diag q hq).g)).mono (by omega)) fr (by omega) h1
    exact ⟨rfl, hm, this.2⟩

/-- `binary` over the three kinds of numbers -/
theorem binary_tr2 {X Y : UReal2 (Tr f u hu)} (hX : Ok2 X) (hY : Ok2 Y) {sx sy sxy : Bool} {m fx fy hxx hyy h : Tr f u hu} {b d e : FP f} {B D E B' D' E' : ℝ} (he : e / lit 2 = h.v)
    (hE : E / lit 2 = h.t) (hE' : E' / lit 2 = h.w) (hd : d / lit 2 = hyy.v) (hD : D / lit 2 = hyy.t) (hD' : D' / lit 2 = hyy.w) (hb : b / lit 2 = hxx.v) (hB : B / lit 2 = hxx.t)
    (hB' : B' / lit 2 = hxx.w) (s1 : CCmp.eqb (e / lit 2) 0 = sxy) (s2 : CCmp.eqb (E / lit 2) 0 = sxy) (s3 : CCmp.eqb (E' / lit 2) 0 = sxy)
    (r1 : CCmp.eqb (d / lit 2) 0 = sy) (r2 : CCmp.eqb (D / lit 2) 0 = sy) (r3 : CCmp.eqb (D' / lit 2) 0 = sy)
    (q1 : CCmp.eqb (b / lit 2) 0 = sx) (q2 : CCmp.eqb (B / lit 2) 0 = sx) (q3 : CCmp.eqb (B' / lit 2) 0 = sx) :
    ∃ Z : UReal2 (Tr f u hu), Ok2 Z ∧ binaryG sx sy sxy ⟨0, 0, 0, 0, 0, 0⟩ X Y m fx fy hxx hyy h = some Z ∧
      (∀ v, UReal2.binary v (mapU Tr.v X) (mapU Tr.v Y) m.v fx.v fy.v b d e = some (mapU Tr.v Z)) ∧
      (∀ v, UReal2.binary v (mapU Tr.t X) (mapU Tr.t Y) m.t fx.t fy.t B D E = some (mapU Tr.t Z)) ∧
      ∀ v, UReal2.binary v (mapU Tr.w X) (mapU Tr.w Y) m.w fx.w fy.w B' D' E' = some (mapU Tr.w Z) := by
  obtain ⟨Z0, hZ0, ok0⟩ := C21_binary (ok_mapU Tr.t hX) (ok_mapU Tr.t hY) m.t fx.t fy.t B D E
  have eT := binaryG_hom Tr.t_hom sx sy sxy ⟨0, 0, 0, 0, 0, 0⟩ X Y m fx fy hxx hyy h
  have eV := binaryG_hom Tr.v_hom sx sy sxy ⟨0, 0, 0, 0, 0, 0⟩ X Y m fx fy hxx hyy h
  have eM := binaryG_hom Tr.m_hom sx sy sxy ⟨0, 0, 0, 0, 0, 0⟩ X Y m fx fy hxx hyy h
  have hT : UReal2.binary (mapM Tr.t (⟨0, 0, 0, 0, 0, 0⟩ : Moments (Tr f u hu))) (mapU Tr.t X) (mapU Tr.t Y) m.t fx.t fy.t B D E =
      (binaryG sx sy sxy ⟨0, 0, 0, 0, 0, 0⟩ X Y m fx fy hxx hyy h).map (mapU Tr.t) := by
    rw [binary_G, s2, r2, q2, hE, hD, hB]; exact eT
  rw [hZ0] at hT
  obtain ⟨Z, hZ, eZ⟩ := Option.map_eq_some_iff.1 hT.symm
  refine ⟨Z, ok_of_mapU (c := Tr.t) (eZ ▸ ok0), hZ, fun v => ?_, fun v => by rw [hZ0, eZ], fun v => ?_⟩
  · rw [binary_any (ok_mapU _ hX) (ok_mapU _ hY) _ _ _ _ _ _ v (mapM Tr.v ⟨0, 0, 0, 0, 0, 0⟩), binary_G, s1, r1, q1, he, hd, hb]
    rw [hZ] at eV
    exact eV
  · rw [binary_any (ok_mapU _ hX) (ok_mapU _ hY) _ _ _ _ _ _ v (mapM Tr.w ⟨0, 0, 0, 0, 0, 0⟩), binary_G, s3, r3, q3, hE', hD', hB']
    rw [hZ] at eM
    exact eM

theorem eqb_fp_of (hu : Acc f.rd u) (h2 : (lit 2 : FP f).val = 2) {a : FP f} (h : a.val ≠ 0) : CCmp.eqb (a / lit 2) 0 = false := by
  rw [← Bool.not_eq_true, FP.eqb_fp, FP.val_div, h2, FP.val_zero]
  exact rd_ne_of_acc hu (div_ne_zero h two_ne_zero)

theorem eqb_real_of {a : ℝ} (h : a ≠ 0) : CCmp.eqb (a / lit 2) 0 = false := by
  rw [← Bool.not_eq_true, eqb_iff, show (lit 2 : ℝ) = 2 from Nat.cast_ofNat]
  exact div_ne_zero h two_ne_zero

theorem div_tr (hh : HasHalf f) (X Y : UReal2 (Tr f u hu)) (hX : Ok2 X) (hY : Ok2 Y) (fX : UFew κ X) (fY : UFew κ' Y) (y0 : Y.mu.t ≠ 0)
    (hy : ((1 + u) ^ κ' - 1) * Y.mu.w ≤ |Y.mu.t| / 2) (hx : X.mu.w = 0 ∨ ((1 + u) ^ κ - 1) * X.mu.w < |X.mu.t|) {i : ℝ} (hi : i = Y.mu.w / Y.mu.t ^ 2) :
    ∃ Z : UReal2 (Tr f u hu), Ok2 Z ∧ UFew (κ + 8 * κ' + 16) Z ∧ Z.mu.t = X.mu.t / Y.mu.t ∧ Z.mu.w = X.mu.w * i ∧
    (∀ v, UReal2.div v (mapU Tr.v X) (mapU Tr.v Y) = some (mapU Tr.v Z)) ∧ (∀ v, UReal2.div v (mapU Tr.t X) (mapU Tr.t Y) = some (mapU Tr.t Z)) ∧
    ∀ v, UReal2.binary v (mapU Tr.w X) (mapU Tr.w Y) (X.mu.w * i) i (X.mu.w * i ^ 2) 0 (2 * X.mu.w * i ^ 3) (i ^ 2) = some (mapU Tr.w Z) := by
  have l2 : (lit 2 : FP f).val = 2 := by
    show f.rd ((2 : ℕ) : ℝ) = 2
    rw [Nat.cast_ofNat]; exact hh.1
  obtain ⟨v0, hti, -⟩ := near_inv y0 (Y.mu.err fY.mu) hy Y.mu.rough.1
  have wy : 0 < Y.mu.w := lt_of_lt_of_le (abs_pos.2 y0) Y.mu.rough.1
  have i0 : 0 < i := by rw [hi]; positivity
  set q : Tr f u hu := Tr.inv Y.mu κ' fY.mu y0 hy with hq
  have qf : Few q (2 * κ' + 1) := cle_some le_rfl
  have qv : q.v.val ≠ 0 := by
    show ((1 : FP f) / Y.mu.v).val ≠ 0
    rw [FP.val_div, FP.val_one]
    exact rd_ne_of_acc hu (one_div_ne_zero v0)
  have qt : q.t ≠ 0 := one_div_ne_zero y0
  have qw : q.w = i := hi.symm
  have q2f : Few (q * q) (4 * κ' + 3) := (qf.mul qf).mono (by omega)
  have q2v : (q * q).v.val ≠ 0 := by
    show (q.v * q.v).val ≠ 0
    rw [FP.val_mul]
    exact rd_ne_of_acc hu (mul_ne_zero qv qv)
  have dF : Few (lit 2 * X.mu * (q * q) * q) (κ + 6 * κ' + 8) := ((((few_lit 2).mul fX.mu).mul q2f).mul qf).mono (by omega)
  have eF : Few (q * q).opp (4 * κ' + 3) := q2f
  have e2 : (lit 2 : ℝ) = 2 := Nat.cast_ofNat
  have mF : Few (Tr.quot X.mu Y.mu κ κ' fX.mu fY.mu y0 hy) (κ + 2 * κ' + 1) := cle_some le_rfl
  have hF : Few (Tr.halve hu l2 (lit 2 * X.mu * (q * q) * q) _ dF) (κ + 6 * κ' + 9) := cle_some le_rfl
  have hF' : Few (Tr.halve hu l2 (q * q).opp _ eF) (4 * κ' + 4) := cle_some le_rfl
  have yF : Few (X.mu.opp * (q * q)) (κ + 4 * κ' + 4) := (Few.mul (a := X.mu.opp) fX.mu q2f).mono (by omega)
  have flag : ∃ sy, CCmp.eqb ((lit 2 * X.mu.v * (q.v * q.v) * q.v) / lit 2) 0 = sy ∧ CCmp.eqb ((lit 2 * X.mu.t * (q.t * q.t) * q.t) / lit 2) 0 = sy ∧
      CCmp.eqb ((lit 2 * X.mu.w * (q.w * q.w) * q.w) / lit 2) 0 = sy := by
    rcases hx with hx | hx
    · have t0 : X.mu.t = 0 := abs_nonpos_iff.1 (X.mu.rough.1.trans hx.le)
      have x0 : X.mu.v.val = 0 := by
        have := X.mu.err fX.mu
        rw [hx, t0, mul_zero, sub_zero] at this
        exact abs_nonpos_iff.1 this
      refine ⟨true, ?_, ?_, ?_⟩
      · rw [FP.eqb_fp, FP.val_div, FP.val_mul, FP.val_mul, FP.val_mul, x0]
        simp [Fmt.rd_zero]
      · rw [t0, eqb_iff]; simp
      · rw [hx, eqb_iff]; simp
    · have x0 : X.mu.v.val ≠ 0 := by
        intro h
        have := X.mu.err fX.mu
        rw [h, zero_sub, abs_neg] at this
        linarith
      have t0 : X.mu.t ≠ 0 := by
        intro h
        rw [h, abs_zero] at hx
        have : (1 : ℝ) ≤ (1 + u) ^ κ := one_le_pow₀ (by linarith [hu.nonneg])
        have := mul_nonneg (sub_nonneg.2 this) X.mu.rough.nonneg
        linarith
      have w0 : X.mu.w ≠ 0 := (lt_of_lt_of_le (abs_pos.2 t0) X.mu.rough.1).ne'
      refine ⟨false, eqb_fp_of hu l2 ?_, eqb_real_of ?_, eqb_real_of ?_⟩
      · rw [FP.val_mul, FP.val_mul, FP.val_mul, l2]
        exact rd_ne_of_acc hu (mul_ne_zero (rd_ne_of_acc hu (mul_ne_zero (rd_ne_of_acc hu (mul_ne_zero two_ne_zero x0)) q2v)) qv)
      · rw [e2]; exact mul_ne_zero (mul_ne_zero (mul_ne_zero two_ne_zero t0) (mul_ne_zero qt qt)) qt
      · rw [e2, qw]; exact mul_ne_zero (mul_ne_zero (mul_ne_zero two_ne_zero w0) (mul_ne_zero i0.ne' i0.ne')) i0.ne'
  obtain ⟨sy, r1, r2, r3⟩ := flag
  obtain ⟨Z, h1, h2, h3, h4, h5⟩ := binary_tr2 hX hY (sx := true) (sy := sy) (sxy := false) (hxx := 0) (b := 0) (B := 0) (B' := 0) (m := Tr.quot X.mu Y.mu κ κ' fX.mu fY.mu y0 hy) (fx := q) (fy := X.mu.opp * (q * q))
    (hyy := Tr.halve hu l2 (lit 2 * X.mu * (q * q) * q) _ dF) (h := Tr.halve hu l2 (q * q).opp _ eF) rfl rfl rfl rfl rfl rfl fp_zero_half (zero_div _) (zero_div _)
    (eqb_fp_of hu l2 (by show (-(q * q).v).val ≠ 0; rw [FP.val_neg]; exact neg_ne_zero.2 q2v)) (eqb_real_of (neg_ne_zero.2 (mul_ne_zero qt qt)))
    (eqb_real_of (by show q.w * q.w ≠ 0; rw [qw]; exact mul_ne_zero i0.ne' i0.ne')) r1 r2 r3
    (by rw [fp_zero_half]; exact eqb_zero_fp) (by rw [zero_div]; exact eqb_zero_real) (by rw [zero_div]; exact eqb_zero_real)
  obtain ⟨m1, fZ⟩ := binaryG_few2 _ hX hY (K := κ + 8 * κ' + 11) fX.hg fY.hg (fun a ha => (qf.mul ha).mono (by omega)) (fun a b c _ _ hc => few_zero2_add ((qf.mul hc).mono (by omega))) (fun a ha => (yF.mul ha).mono (by omega))
    (fun a b ha hb => ((hF.mul ha).mul hb).mono (by omega)) (mF.mono (by omega)) hF' (by omega) h2
  refine ⟨Z, h1, fZ, by rw [m1]; rfl, by rw [m1, hi]; rfl, h3, h4, fun v => ?_⟩
  have := h5 v
  rw [← this]
  have a1 : (Tr.quot X.mu Y.mu κ κ' fX.mu fY.mu y0 hy).w = X.mu.w * i := by rw [hi]; rfl
  have a2 : (X.mu.opp * (q * q)).w = X.mu.w * i ^ 2 := by
    show X.mu.w * (q.w * q.w) = _
    rw [qw, pow_two]
  have a3 : (lit 2 * X.mu * (q * q) * q).w = 2 * X.mu.w * i ^ 3 := by
    show (lit 2 : ℝ) * X.mu.w * (q.w * q.w) * q.w = _
    rw [qw, e2]; ring
  have a4 : (q * q).opp.w = i ^ 2 := by
    show q.w * q.w = _
    rw [qw, pow_two]
  rw [a1, a2, qw]
  congr 1
  · exact a3.symm
  · exact a4.symm

end Unc
