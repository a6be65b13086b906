import Verif.Lemmas.TrackOps
import Verif.Spec.Error2

/-!
# The roundings of the operators `-`, `+`, `-`, `*`
-/

namespace Unc
open Unc.Spec HessGrad SMap Mom Tr Unc.Props

variable {f : Fmt} {u : ℝ} {hu : Acc f.rd u} {κ κ' : ℕ}

theorem numbers_mapU {R S : Type*} (c : R → S) (x : UReal2 R) : numbers c x = mapU c x := rfl

theorem mapU_mapU {R S T : Type*} (c : R → S) (d : S → T) (x : UReal2 R) : mapU d (mapU c x) = mapU (d ∘ c) x := by
  obtain ⟨⟨a, b⟩, m⟩ := x
  simp only [mapU, mapHG, SMap.mapVal, List.map_map]
  rfl

theorem mapU_id {R : Type*} {c : R → R} (h : ∀ a, c a = a) (x : UReal2 R) : mapU c x = x := by
  obtain rfl : c = _root_.id := funext h
  obtain ⟨⟨a, b⟩, m⟩ := x
  simp only [mapU, mapHG, SMap.mapVal]
  congr 2
  · exact (List.map_congr_left fun p _ => rfl).trans (List.map_id a)
  · exact (List.map_congr_left fun p _ => rfl).trans (List.map_id b)

namespace Tr

/-- an exact number with its sign changed -/
noncomputable def opp (a : Tr f u hu) : Tr f u hu := ⟨-a.v, -a.t, a.w, a.k, by rw [FP.val_neg]; exact rough_neg a.rough⟩

/-- one half -/
noncomputable def half (hu : Acc f.rd u) (hh : HasHalf f) : Tr f u hu := ⟨1 / lit 2, 1 / 2, 1 / 2, some 0, by
  have h2 : (lit 2 : FP f).val = 2 := by
    show f.rd ((2 : ℕ) : ℝ) = 2
    rw [Nat.cast_ofNat]; exact hh.1
  have : ((1 : FP f) / lit 2).val = 1 / 2 := by rw [FP.val_div, h2, FP.val_one, hh.2]
  rw [this]
  exact ⟨by norm_num, by simp⟩⟩

end Tr

theorem fp_half (hh : HasHalf f) : ((1 : FP f) / lit 2).val = 1 / 2 := by
  have h2 : (lit 2 : FP f).val = 2 := by
    show f.rd ((2 : ℕ) : ℝ) = 2
    rw [Nat.cast_ofNat]; exact hh.1
  rw [FP.val_div, h2, FP.val_one, hh.2]

theorem fp_zero_half : (0 : FP f) / lit 2 = 0 := by
  apply FP.ext
  rw [FP.val_div, FP.val_zero, zero_div, Fmt.rd_zero]

theorem eqb_zero_fp : CCmp.eqb (0 : FP f) 0 = true := by rw [FP.eqb_fp]
theorem eqb_zero_real : CCmp.eqb (0 : ℝ) 0 = true := by rw [eqb_iff]
theorem eqb_half_fp (hh : HasHalf f) : CCmp.eqb ((1 : FP f) / lit 2) 0 = false := by
  rw [← Bool.not_eq_true, FP.eqb_fp, fp_half hh, FP.val_zero]; norm_num
theorem real_half : (1 : ℝ) / lit 2 = 1 / 2 := by simp [lit]
theorem eqb_half_real : CCmp.eqb ((1 : ℝ) / lit 2) 0 = false := by
  rw [← Bool.not_eq_true, eqb_iff, real_half]; norm_num

/-- `binary` over the three kinds of numbers -/
theorem binary_tr {X Y : UReal2 (Tr f u hu)} (hX : Ok2 X) (hY : Ok2 Y) {sxy : Bool} {m fx fy h : Tr f u hu} {e : FP f} {E E' : ℝ} (he : e / lit 2 = h.v) (hE : E / lit 2 = h.t) (hE' : E' / lit 2 = h.w)
    (s1 : CCmp.eqb (e / lit 2) 0 = sxy) (s2 : CCmp.eqb (E / lit 2) 0 = sxy) (s3 : CCmp.eqb (E' / lit 2) 0 = sxy) :
    ∃ Z : UReal2 (Tr f u hu), Ok2 Z ∧ binaryG true true sxy ⟨0, 0, 0, 0, 0, 0⟩ X Y m fx fy 0 0 h = some Z ∧
      (∀ v, UReal2.binary v (mapU Tr.v X) (mapU Tr.v Y) m.v fx.v fy.v 0 0 e = some (mapU Tr.v Z)) ∧
      (∀ v, UReal2.binary v (mapU Tr.t X) (mapU Tr.t Y) m.t fx.t fy.t 0 0 E = some (mapU Tr.t Z)) ∧
      ∀ v, UReal2.binary v (mapU Tr.w X) (mapU Tr.w Y) m.w fx.w fy.w 0 0 E' = some (mapU Tr.w Z) := by
  obtain ⟨Z0, hZ0, ok0⟩ := C21_binary (ok_mapU Tr.t hX) (ok_mapU Tr.t hY) m.t fx.t fy.t 0 0 E
  have eT := binaryG_hom Tr.t_hom true true sxy ⟨0, 0, 0, 0, 0, 0⟩ X Y m fx fy 0 0 h
  have eV := binaryG_hom Tr.v_hom true true sxy ⟨0, 0, 0, 0, 0, 0⟩ X Y m fx fy 0 0 h
  have eM := binaryG_hom Tr.m_hom true true sxy ⟨0, 0, 0, 0, 0, 0⟩ X Y m fx fy 0 0 h
  have z0 : (0 : ℝ) / lit 2 = 0 := zero_div _
  have hT : UReal2.binary (mapM Tr.t (⟨0, 0, 0, 0, 0, 0⟩ : Moments (Tr f u hu))) (mapU Tr.t X) (mapU Tr.t Y) m.t fx.t fy.t 0 0 E =
      (binaryG true true sxy ⟨0, 0, 0, 0, 0, 0⟩ X Y m fx fy 0 0 h).map (mapU Tr.t) := by
    rw [binary_G, s2, z0, eqb_zero_real, hE]; exact eT
  rw [hZ0] at hT
  obtain ⟨Z, hZ, eZ⟩ := Option.map_eq_some_iff.1 hT.symm
  refine ⟨Z, ok_of_mapU (c := Tr.t) (eZ ▸ ok0), hZ, fun v => ?_, fun v => by rw [hZ0, eZ], fun v => ?_⟩
  · rw [binary_any (ok_mapU _ hX) (ok_mapU _ hY) _ _ _ _ _ _ v (mapM Tr.v ⟨0, 0, 0, 0, 0, 0⟩), binary_G, s1, fp_zero_half, eqb_zero_fp, he]
    rw [hZ] at eV
    exact eV
  · rw [binary_any (ok_mapU _ hX) (ok_mapU _ hY) _ _ _ _ _ _ v (mapM Tr.w ⟨0, 0, 0, 0, 0, 0⟩), binary_G, s3, z0, eqb_zero_real, hE']
    rw [hZ] at eM
    exact eM

theorem add_tr (X Y : UReal2 (Tr f u hu)) (hX : Ok2 X) (hY : Ok2 Y) (fX : UFew κ X) (fY : UFew κ' Y) : ∃ Z : UReal2 (Tr f u hu), Ok2 Z ∧ UFew (max κ κ' + 2) Z ∧
    (∀ v, UReal2.add v (mapU Tr.v X) (mapU Tr.v Y) = some (mapU Tr.v Z)) ∧ (∀ v, UReal2.add v (mapU Tr.t X) (mapU Tr.t Y) = some (mapU Tr.t Z)) ∧
    ∀ v, UReal2.add v (mapU Tr.w X) (mapU Tr.w Y) = some (mapU Tr.w Z) := by
  obtain ⟨Z, h1, h2, h3, h4, h5⟩ := binary_tr hX hY (sxy := true) (m := X.mu + Y.mu) (fx := Tr.lift hu 1) (fy := Tr.lift hu 1) (h := 0) (e := 0) (E := 0) (E' := 0)
    fp_zero_half (zero_div _) (zero_div _) (by rw [fp_zero_half]; exact eqb_zero_fp) (by rw [zero_div]; exact eqb_zero_real) (by rw [zero_div]; exact eqb_zero_real)
  have e1 : (Tr.lift hu (1 : FP f)).w = 1 := by simp [Tr.lift]
  refine ⟨Z, h1, ?_, h3, h4, fun v => ?_⟩
  · exact binaryG_few _ hX hY (K := max κ κ' + 1) fX.hg fY.hg (fun a ha => ((few_lift 1).mul ha).mono (by omega)) (fun a ha => ((few_lift 1).mul ha).mono (by omega))
      (((fX.mu.mono (le_max_left κ κ')).add (fY.mu.mono (le_max_right κ κ'))).mono (by omega)) (by simp) (Or.inr rfl) h2
  · have := h5 v
    rw [e1] at this
    exact this

theorem sub_tr (X Y : UReal2 (Tr f u hu)) (hX : Ok2 X) (hY : Ok2 Y) (fX : UFew κ X) (fY : UFew κ' Y) : ∃ Z : UReal2 (Tr f u hu), Ok2 Z ∧ UFew (max κ κ' + 2) Z ∧
    (∀ v, UReal2.sub v (mapU Tr.v X) (mapU Tr.v Y) = some (mapU Tr.v Z)) ∧ (∀ v, UReal2.sub v (mapU Tr.t X) (mapU Tr.t Y) = some (mapU Tr.t Z)) ∧
    ∀ v, UReal2.add v (mapU Tr.w X) (mapU Tr.w Y) = some (mapU Tr.w Z) := by
  obtain ⟨Z, h1, h2, h3, h4, h5⟩ := binary_tr hX hY (sxy := true) (m := X.mu - Y.mu) (fx := Tr.lift hu 1) (fy := Tr.lift hu (-1)) (h := 0) (e := 0) (E := 0) (E' := 0)
    fp_zero_half (zero_div _) (zero_div _) (by rw [fp_zero_half]; exact eqb_zero_fp) (by rw [zero_div]; exact eqb_zero_real) (by rw [zero_div]; exact eqb_zero_real)
  have e1 : (Tr.lift hu (1 : FP f)).w = 1 := by simp [Tr.lift]
  have e2 : (Tr.lift hu (-1 : FP f)).w = 1 := by simp [Tr.lift]
  refine ⟨Z, h1, ?_, h3, h4, fun v => ?_⟩
  · exact binaryG_few _ hX hY (K := max κ κ' + 1) fX.hg fY.hg (fun a ha => ((few_lift 1).mul ha).mono (by omega)) (fun a ha => ((few_lift (-1)).mul ha).mono (by omega))
      (((fX.mu.mono (le_max_left κ κ')).sub (fY.mu.mono (le_max_right κ κ'))).mono (by omega)) (by simp) (Or.inr rfl) h2
  · have := h5 v
    rw [e1, e2] at this
    exact this

theorem mul_tr (hh : HasHalf f) (X Y : UReal2 (Tr f u hu)) (hX : Ok2 X) (hY : Ok2 Y) (fX : UFew κ X) (fY : UFew κ' Y) : ∃ Z : UReal2 (Tr f u hu), Ok2 Z ∧ UFew (κ + κ' + 5) Z ∧
    (∀ v, UReal2.mul v (mapU Tr.v X) (mapU Tr.v Y) = some (mapU Tr.v Z)) ∧ (∀ v, UReal2.mul v (mapU Tr.t X) (mapU Tr.t Y) = some (mapU Tr.t Z)) ∧
    ∀ v, UReal2.mul v (mapU Tr.w X) (mapU Tr.w Y) = some (mapU Tr.w Z) := by
  obtain ⟨Z, h1, h2, h3, h4, h5⟩ := binary_tr hX hY (sxy := false) (m := X.mu * Y.mu) (fx := Y.mu) (fy := X.mu) (h := Tr.half hu hh) (e := 1) (E := 1) (E' := 1)
    rfl real_half real_half (eqb_half_fp hh) eqb_half_real eqb_half_real
  refine ⟨Z, h1, ?_, h3, h4, h5⟩
  exact binaryG_few _ hX hY (h := Tr.half hu hh) (K := κ + κ' + 1) fX.hg fY.hg (fun a ha => (fY.mu.mul ha).mono (by omega)) (fun a ha => (fX.mu.mul ha).mono (by omega))
    ((fX.mu.mul fY.mu).mono (by omega)) (fun _ => (cle_some le_rfl : CLe (some 0) 0)) (Or.inl le_rfl) h2

/-- `unary` with a constant slope -/
theorem unaryG_few (v : Moments (Tr f u hu)) {x z : UReal2 (Tr f u hu)} (hx : Ok2 x) {m fx : Tr f u hu} {K : ℕ} (gx : HFew 0 κ x.hg) (px : ∀ a, Few a κ → Few (fx * a) K) (hm : Few m K)
    (e : unaryG true v x m fx 0 = some z) : UFew K z := by
  letI : One (Tr f u hu) := ⟨0⟩
  letI : Neg (Tr f u hu) := ⟨fun a => a⟩
  letI : Div (Tr f u hu) := ⟨fun a _ => a⟩
  letI : CCmp (Tr f u hu) := ⟨fun _ _ => true, fun _ _ => true, fun _ _ => true⟩
  obtain ⟨z', e', m', v', d', t'⟩ := unary_cells v hx.valid m fx 0
  have : UReal2.unary v x m fx 0 = unaryG true v x m fx 0 := rfl
  rw [this, e, Option.some_inj] at e'
  subst e'
  refine ⟨by rw [m']; exact hm, HFew.of_find v' (fun i d hd => ?_) fun a b hab w hw => ?_⟩
  · rw [d'] at hd
    obtain ⟨d0, h0, rfl⟩ := Option.map_eq_some_iff.1 hd
    obtain ⟨g, h, v3, v4, v5, v6, v7, v8⟩ := gx.find_diag h0
    exact ⟨px _ g, few_zero2_add (px _ h), v3, v4, v5, v6, v7, v8⟩
  · rw [t' a b hab] at hw
    obtain ⟨e0, h0, rfl⟩ := Option.map_eq_some_iff.1 hw
    exact few_zero2_add (px _ (entsAt_few hx.valid gx hab (List.mem_of_getLast? h0)))

/-- multiplying all by 1 -/
theorem unary_one (v : Moments ℝ) {x : UReal2 ℝ} (hx : Ok2 x) : UReal2.unary v x x.mu 1 0 = some x := by
  obtain ⟨z, e, m, vz, d, t⟩ := unary_cells v hx.valid x.mu 1 0
  rw [e]
  congr 1
  have : z.hg = x.hg := by
    refine hg_ext vz hx.valid (fun i => ?_) fun a b hab => ?_
    · rw [d]
      cases find? x.hg.diagmap i <;> simp
    · rw [t a b hab, show CCmp.eqb ((0 : ℝ) / lit 2) 0 = true by rw [zero_div]; exact eqb_zero_real, entsAt,
        hessSpec_off_filter x.hg.dOf hab x.hg.diagmap x.hg.trimap hx.valid.dsorted hx.valid.triOf hx.valid.tsorted fun i hi => find_dOf hi]
      cases find? x.hg.trimap (toLex (a, b)) <;> simp [valX]
  obtain ⟨g, m1⟩ := z
  obtain ⟨g', m1'⟩ := x
  simp only at this m
  rw [this, m]

theorem neg_tr (X : UReal2 (Tr f u hu)) (hX : Ok2 X) (fX : UFew κ X) : ∃ Z : UReal2 (Tr f u hu), Ok2 Z ∧ UFew (κ + 1) Z ∧
    (∀ v, UReal2.neg v (mapU Tr.v X) = some (mapU Tr.v Z)) ∧ (∀ v, UReal2.neg v (mapU Tr.t X) = some (mapU Tr.t Z)) ∧ mapU Tr.w X = mapU Tr.w Z := by
  obtain ⟨Z0, hZ0, ok0⟩ := C21_unary (ok_mapU Tr.t hX) (-X.mu.t) (-1) 0
  have eT := unaryG_hom Tr.t_hom true ⟨0, 0, 0, 0, 0, 0⟩ X X.mu.opp (Tr.lift hu (-1)) 0
  have eV := unaryG_hom Tr.v_hom true ⟨0, 0, 0, 0, 0, 0⟩ X X.mu.opp (Tr.lift hu (-1)) 0
  have eM := unaryG_hom Tr.m_hom true ⟨0, 0, 0, 0, 0, 0⟩ X X.mu.opp (Tr.lift hu (-1)) 0
  have z0 : (0 : ℝ) / lit 2 = 0 := zero_div _
  have hT : UReal2.unary (mapM Tr.t (⟨0, 0, 0, 0, 0, 0⟩ : Moments (Tr f u hu))) (mapU Tr.t X) (-X.mu.t) (-1) 0 =
      (unaryG true ⟨0, 0, 0, 0, 0, 0⟩ X X.mu.opp (Tr.lift hu (-1)) 0).map (mapU Tr.t) := by
    rw [unary_G, z0, eqb_zero_real, ← eT]
    congr 1
  rw [hZ0] at hT
  obtain ⟨Z, hZ, eZ⟩ := Option.map_eq_some_iff.1 hT.symm
  refine ⟨Z, ok_of_mapU (c := Tr.t) (eZ ▸ ok0), ?_, fun v => ?_, fun v => ?_, ?_⟩
  · exact unaryG_few _ hX (m := X.mu.opp) fX.hg (fun a ha => ((few_lift (-1)).mul ha).mono (by omega)) (CLe.mono fX.mu (Nat.le_succ _) : CLe X.mu.opp.k _) hZ
  · unfold UReal2.neg
    rw [unary_any (ok_mapU _ hX) _ _ _ v (mapM Tr.v ⟨0, 0, 0, 0, 0, 0⟩), unary_G, fp_zero_half, eqb_zero_fp]
    rw [hZ] at eV
    exact eV
  · unfold UReal2.neg
    rw [← eZ] at hZ0
    exact hZ0 v
  · have h1 := unary_one (mapM Tr.w (⟨0, 0, 0, 0, 0, 0⟩ : Moments (Tr f u hu))) (ok_mapU Tr.w hX)
    rw [unary_G, z0, eqb_zero_real] at h1
    rw [hZ] at eM
    have e1 : (Tr.lift hu (-1 : FP f)).w = 1 := by simp [Tr.lift]
    have eM' : unaryG true (mapM Tr.w (⟨0, 0, 0, 0, 0, 0⟩ : Moments (Tr f u hu))) (mapU Tr.w X) X.mu.w (Tr.lift hu (-1 : FP f)).w 0 = some (mapU Tr.w Z) := eM
    rw [e1] at eM'
    exact Option.some_inj.1 (h1.symm.trans eM')

end Unc
