import Verif.Lemmas.Natural2

/-!
# Scaling a second-order value

`σ κ` is a multiplication which is exact, like that by a power of two in a binary format.  No other law of arithmetic is used.
-/

namespace Unc
open HessGrad SMap Mom

variable {R : Type*}

/-- a family of exact multiplications -/
structure Scaling [Zero R] [Add R] [Sub R] [Mul R] (σ : ℤ → R → R) : Prop where
  zero : ∀ k, σ k 0 = 0
  add : ∀ k a b, σ k a + σ k b = σ k (a + b)
  sub : ∀ k a b, σ k a - σ k b = σ k (a - b)
  mulL : ∀ k a b, σ k a * b = σ k (a * b)
  mulR : ∀ k a b, a * σ k b = σ k (a * b)
  comp : ∀ k l a, σ k (σ l a) = σ (k + l) a

/-- scaled diagonal element -/
def scD (σ : ℤ → R → R) (κ : ℤ) (d : Diag R) : Diag R := ⟨σ κ d.grad, σ κ d.hhess, d.mom⟩
/-- scaled entry -/
def scE (σ : ℤ → R → R) (κ : ℤ) (e : Ent R) : Ent R := ⟨e.id1, e.id2, scD σ κ e.d1, scD σ κ e.d2, σ κ e.val⟩
/-- scaled maps -/
def scHG (σ : ℤ → R → R) (κ : ℤ) (hg : HessGrad R) : HessGrad R := ⟨mapVal (scD σ κ) hg.diagmap, mapVal (σ κ) hg.trimap⟩
/-- scaled element of the map -/
def scP (σ : ℤ → R → R) (κ : ℤ) (p : VId × Diag R) : VId × Diag R := (p.1, scD σ κ p.2)
/-- scaled iterator -/
def scIt (σ : ℤ → R → R) (κ : ℤ) (it : TriIt R) : TriIt R := ⟨mapVal (scD σ κ) it.diagmin, mapVal (scD σ κ) it.diagmax, mapVal (σ κ) it.tri, it.skip⟩

section
variable {σ : ℤ → R → R} {κ : ℤ}

theorem seekDiag_sc (k : VId) (dm : SMap VId (Diag R)) : seekDiag k (mapVal (scD σ κ) dm) = (seekDiag k dm).map (mapVal (scD σ κ)) := by
  induction dm with
  | nil => rfl
  | cons p t ih =>
    simp only [mapVal_cons, seekDiag]
    split_ifs
    · exact ih
    · rfl
    · rfl

variable [Zero R]

theorem updateDiag_sc (it : TriIt R) : (scIt σ κ it).updateDiag = it.updateDiag.map (scIt σ κ) := by
  obtain ⟨dm, dM, tri, skip⟩ := it
  rcases tri with _ | ⟨⟨k, h⟩, t⟩
  · rfl
  · simp only [scIt, TriIt.updateDiag, mapVal_cons, seekDiag_sc]
    cases seekDiag (ofLex k).1 dm with
    | none => rfl
    | some d =>
      simp only [Option.map_some, Option.bind_some, seekDiag_sc]
      cases seekDiag (ofLex k).2 d <;> rfl

theorem tstart_sc (diag : SMap VId (Diag R)) (tri : SMap IdPair R) (skip : Bool) :
    TriIt.start (mapVal (scD σ κ) diag) (mapVal (σ κ) tri) skip = (TriIt.start diag tri skip).map (scIt σ κ) := by
  cases skip
  · rcases diag with _ | ⟨d, _ | ⟨d', t⟩⟩ <;> rfl
  · exact updateDiag_sc ⟨diag, diag, tri, true⟩


theorem tincr_sc (it : TriIt R) : (scIt σ κ it).incr = it.incr.map (scIt σ κ) := by
  obtain ⟨dm, dM, tri, skip⟩ := it
  cases skip
  · rcases dm with _ | ⟨⟨i, d⟩, dm⟩ <;> rcases dM with _ | ⟨⟨j, e⟩, dM⟩
    · rfl
    · rfl
    · rfl
    · simp only [scIt, TriIt.incr, mapVal_cons]
      rcases dM with _ | ⟨⟨j', e'⟩, dM⟩
      · rcases dm with _ | ⟨⟨i', d'⟩, _ | ⟨⟨i'', d''⟩, dm⟩⟩
        · rfl
        · rfl
        · simp [mapVal_cons, scIt, dropWhile_mapVal (c := σ κ) (fun q => decide (q < toLex (i', i'')))]
      · simp [mapVal_cons, scIt, dropWhile_mapVal (c := σ κ) (fun q => decide (q < toLex (i, j')))]
  · rcases tri with _ | ⟨⟨k, h⟩, t⟩
    · rfl
    · exact updateDiag_sc ⟨dm, dM, t, true⟩

theorem tget_sc (h0 : σ κ 0 = 0) (it : TriIt R) : (scIt σ κ it).get = it.get.map (scE σ κ) := by
  obtain ⟨dm, dM, tri, skip⟩ := it
  rcases dm with _ | ⟨⟨i, d⟩, dm⟩
  · rfl
  rcases dM with _ | ⟨⟨j, e⟩, dM⟩
  · rfl
  rcases tri with _ | ⟨⟨k, h⟩, t⟩ <;> cases skip
  · simp [scIt, TriIt.get, scE, h0]
  · rfl
  · by_cases hk : k = toLex (i, j) <;> simp [scIt, TriIt.get, scE, h0, hk]
  · rfl

theorem tloop_sc (h0 : σ κ 0 = 0) (n : ℕ) (it : TriIt R) : TriIt.loop n (scIt σ κ it) = (TriIt.loop n it).map (List.map (scE σ κ)) := by
  induction n generalizing it with
  | zero => rfl
  | succ n ih =>
    have hne : (scIt σ κ it).notEnd = it.notEnd := by
      obtain ⟨dm, dM, tri, skip⟩ := it
      cases dm <;> cases dM <;> rfl
    rw [TriIt.loop, TriIt.loop, hne]
    split_ifs
    · rw [tget_sc h0, tincr_sc]
      cases it.get with
      | none => rfl
      | some e =>
        cases it.incr with
        | none => rfl
        | some it' =>
          simp only [Option.map_some, Option.bind_some, ih]
          cases TriIt.loop n it' <;> rfl
    · rfl

theorem triEntries_sc (h0 : σ κ 0 = 0) (hg : HessGrad R) (skip : Bool) :
    (scHG σ κ hg).triEntries skip = (hg.triEntries skip).map (List.map (scE σ κ)) := by
  have hf : (scHG σ κ hg).fuel = hg.fuel := by simp [HessGrad.fuel, scHG, length_mapVal]
  unfold HessGrad.triEntries
  rw [hf, scHG, tstart_sc]
  cases TriIt.start hg.diagmap hg.trimap skip with
  | none => rfl
  | some it => exact tloop_sc h0 _ it

end

section
variable [Zero R] [Add R] [Sub R] [Mul R] [NatCast R] {σ : ℤ → R → R} {κ : ℤ}

theorem triGet_sc (h0 : σ κ 0 = 0) (hg : HessGrad R) (i j : VId) : (scHG σ κ hg).triGet i j = (hg.triGet i j).map (σ κ) := by
  simp only [HessGrad.triGet, scHG, find?_mapVal]
  split_ifs
  · cases find? hg.trimap (toLex (i, j)) <;> simp [h0]
  · rfl

theorem triFind_sc (hg : HessGrad R) (i j : VId) : (scHG σ κ hg).triFind i j = (hg.triFind i j).map (σ κ) := by
  simp only [HessGrad.triFind, scHG, find?_mapVal]

variable (hc : Scaling σ)
include hc

theorem m1_sc (hg : HessGrad R) : m1 (scHG σ κ hg) = σ κ (m1 hg) := by
  have h := foldl_hom (σ κ) (scP σ κ) (f := fun m it => m + it.2.hhess) (g := fun m it => m + it.2.hhess) (fun a b => hc.add _ _ _) hg.diagmap 0
  rw [hc.zero] at h
  exact h

theorem m2A_sc (m : R) (d : Diag R) : m2A ((σ (κ + κ)) m) (scD σ κ d) = (σ (κ + κ)) (m2A m d) := by simp only [m2A, scD, hc.mulL, hc.mulR, hc.comp, hc.add, add_assoc]

theorem m2B_sc (m : R) (e : Ent R) : m2B ((σ (κ + κ)) m) (scE σ κ e) = (σ (κ + κ)) (m2B m e) := by simp only [m2B, scE, scD, hc.mulL, hc.mulR, hc.comp, hc.add, add_assoc]

theorem m3A_sc (m : R) (d : Diag R) : m3A ((σ (κ + (κ + κ))) m) (scD σ κ d) = (σ (κ + (κ + κ))) (m3A m d) := by simp only [m3A, scD, hc.mulL, hc.mulR, hc.comp, hc.add, add_assoc]

theorem m3B_sc (m : R) (d d' : Diag R) : m3B ((σ (κ + (κ + κ))) m) (scD σ κ d) (scD σ κ d') = (σ (κ + (κ + κ))) (m3B m d d') := by simp only [m3B, scD, hc.mulL, hc.mulR, hc.comp, hc.add, add_assoc]

theorem m3C_sc (m : R) (d d' d'' : Diag R) : m3C ((σ (κ + (κ + κ))) m) (scD σ κ d) (scD σ κ d') (scD σ κ d'') = (σ (κ + (κ + κ))) (m3C m d d' d'') := by
  simp only [m3C, scD, hc.mulL, hc.mulR, hc.comp, hc.add, add_assoc]

theorem m3F_sc (m : R) (it : VId × Diag R) (e : Ent R) : m3F ((σ (κ + (κ + κ))) m) (scP σ κ it) (scE σ κ e) = (σ (κ + (κ + κ))) (m3F m it e) := by
  simp only [m3F, scP, scE, scD]
  split_ifs with hh <;> simp only [hh, if_true, if_false, hc.mulL, hc.mulR, hc.comp, hc.add, add_assoc]

theorem m3D_sc (m : R) (e : Ent R) : m3D ((σ (κ + (κ + κ))) m) (scE σ κ e) = (σ (κ + (κ + κ))) (m3D m e) := by simp only [m3D, scE, scD, hc.mulL, hc.mulR, hc.comp, hc.add, add_assoc]

theorem m3E_sc (hg : HessGrad R) (m : R) (e e2 : Ent R) : m3E (scHG σ κ hg) ((σ (κ + (κ + κ))) m) (scE σ κ e) (scE σ κ e2) = (m3E hg m e e2).map (σ (κ + (κ + κ))) := by
  simp only [m3E, scE, triGet_sc (hc.zero κ), Option.map_map]
  cases hg.triGet e.id2 e2.id2 with
  | none => rfl
  | some h => simp only [Option.map_some, Function.comp, hc.mulL, hc.mulR, hc.comp, hc.add, add_assoc]

theorem m2_sc (hg : HessGrad R) : m2 (scHG σ κ hg) = (m2 hg).map (σ (κ + κ)) := by
  unfold m2
  rw [triEntries_sc (hc.zero κ), Option.map_map, Option.map_map]
  congr 1
  funext es
  simp only [Function.comp]
  rw [← foldl_hom (σ (κ + κ)) (scE σ κ) (m2B_sc hc)]
  congr 1
  conv_lhs => rw [← hc.zero (κ + κ)]
  exact foldl_hom (σ (κ + κ)) (scP σ κ) (fun a b => m2A_sc hc a b.2) hg.diagmap 0

theorem m3_sc (hg : HessGrad R) : m3 (scHG σ κ hg) = (m3 hg).map (σ (κ + (κ + κ))) := by
  unfold m3
  rw [triEntries_sc (hc.zero κ)]
  cases hg.triEntries true with
  | none => rfl
  | some es =>
    simp only [Option.map_some, Option.bind_some]
    have e1 : forTails (fun m it rest =>
        (es.map (scE σ κ)).foldl (fun m it2 => m3F m it it2) (forTails (fun m it2 rest2 =>
            rest2.foldl (fun m it3 => m3C m it.2 it2.2 it3.2) (m3B m it.2 it2.2)) (m3A m it.2) rest)) 0 (scHG σ κ hg).diagmap =
        (σ (κ + (κ + κ))) (forTails (fun m it rest =>
        es.foldl (fun m it2 => m3F m it it2) (forTails (fun m it2 rest2 =>
            rest2.foldl (fun m it3 => m3C m it.2 it2.2 it3.2) (m3B m it.2 it2.2)) (m3A m it.2) rest)) 0 hg.diagmap) := by
      conv_lhs => rw [← hc.zero (κ + (κ + κ))]
      refine forTails_hom (σ (κ + (κ + κ))) (scP σ κ) (fun a b t => ?_) hg.diagmap 0
      rw [show (scP σ κ b).2 = scD σ κ b.2 from rfl, m3A_sc hc]
      rw [forTails_hom (σ (κ + (κ + κ))) (scP σ κ) (f := fun m it2 rest2 => rest2.foldl (fun m it3 => m3C m b.2 it2.2 it3.2) (m3B m b.2 it2.2)) (fun a' b' t' => by
        rw [show (scP σ κ b').2 = scD σ κ b'.2 from rfl, m3B_sc hc]
        exact foldl_hom (σ (κ + (κ + κ))) (scP σ κ) (fun a'' b'' => m3C_sc hc a'' _ _ _) t' _)]
      exact foldl_hom (σ (κ + (κ + κ))) (scE σ κ) (fun a' e => m3F_sc hc a' b e) es _
    rw [e1]
    refine forTails_hom (Option.map (σ (κ + (κ + κ)))) (scE σ κ) (fun a b t => ?_) es (some _)
    cases a with
    | none => rfl
    | some a =>
      simp only [Option.map_some, Option.bind_some]
      have e2 : (t.map (scE σ κ)).takeWhile (fun it2 => decide (it2.id1 = (scE σ κ b).id1)) = (t.takeWhile fun it2 => decide (it2.id1 = b.id1)).map (scE σ κ) := by
        rw [List.takeWhile_map]; rfl
      rw [e2, m3D_sc hc]
      exact foldlM_map (σ (κ + (κ + κ))) (scE σ κ) (fun a' b' => m3E_sc hc hg a' b b') _ _

theorem m4A_sc (m : R) (d : Diag R) : m4A ((σ (κ + (κ + (κ + κ)))) m) (scD σ κ d) = (σ (κ + (κ + (κ + κ)))) (m4A m d) := by simp only [m4A, scD, hc.mulL, hc.mulR, hc.comp, hc.add, add_assoc]

theorem m4B_sc (m : R) (d d2 : Diag R) : m4B ((σ (κ + (κ + (κ + κ)))) m) (scD σ κ d) (scD σ κ d2) = (σ (κ + (κ + (κ + κ)))) (m4B m d d2) := by simp only [m4B, scD, hc.mulL, hc.mulR, hc.comp, hc.add, add_assoc]

theorem m4C_sc (m : R) (d d2 d3 : Diag R) : m4C ((σ (κ + (κ + (κ + κ)))) m) (scD σ κ d) (scD σ κ d2) (scD σ κ d3) = (σ (κ + (κ + (κ + κ)))) (m4C m d d2 d3) := by
  simp only [m4C, scD, hc.mulL, hc.mulR, hc.comp, hc.add, add_assoc]

theorem m4D_sc (m : R) (d d2 d3 d4 : Diag R) : m4D ((σ (κ + (κ + (κ + κ)))) m) (scD σ κ d) (scD σ κ d2) (scD σ κ d3) (scD σ κ d4) = (σ (κ + (κ + (κ + κ)))) (m4D m d d2 d3 d4) := by
  simp only [m4D, scD, hc.mulL, hc.mulR, hc.comp, hc.add, add_assoc]

theorem m4F_sc (m : R) (it : VId × Diag R) (e : Ent R) : m4F ((σ (κ + (κ + (κ + κ)))) m) (scP σ κ it) (scE σ κ e) = (σ (κ + (κ + (κ + κ)))) (m4F m it e) := by
  simp only [m4F, scP, scE, scD]
  split_ifs with hh <;> simp only [hh, if_true, if_false, hc.mulL, hc.mulR, hc.comp, hc.add, add_assoc]

theorem m4E_sc (m : R) (e : Ent R) : m4E ((σ (κ + (κ + (κ + κ)))) m) (scE σ κ e) = (σ (κ + (κ + (κ + κ)))) (m4E m e) := by simp only [m4E, scE, scD, hc.mulL, hc.mulR, hc.comp, hc.add, add_assoc]

theorem m4G2_sc (m : R) (e : Ent R) (d : Diag R) (h : R) : m4G2 ((σ (κ + (κ + (κ + κ)))) m) (scE σ κ e) (scD σ κ d) (σ κ h) = (σ (κ + (κ + (κ + κ)))) (m4G2 m e d h) := by
  simp only [m4G2, scE, scD, hc.mulL, hc.mulR, hc.comp, hc.add, add_assoc]

theorem m4G3_sc (m : R) (e : Ent R) (d : Diag R) (h : R) : m4G3 ((σ (κ + (κ + (κ + κ)))) m) (scE σ κ e) (scD σ κ d) (σ κ h) = (σ (κ + (κ + (κ + κ)))) (m4G3 m e d h) := by
  simp only [m4G3, scE, scD, hc.mulL, hc.mulR, hc.comp, hc.add, add_assoc]

theorem m4H_sc (m : R) (e : Ent R) (h h' : R) : m4H ((σ (κ + (κ + (κ + κ)))) m) (scE σ κ e) (σ κ h) (σ κ h') = (σ (κ + (κ + (κ + κ)))) (m4H m e h h') := by
  simp only [m4H, scE, scD, hc.mulL, hc.mulR, hc.comp, hc.add, add_assoc]

theorem m4J_sc (m : R) (e : Ent R) (k : VId) (h h' : R) (p : VId × Diag R) : m4J ((σ (κ + (κ + (κ + κ)))) m) (scE σ κ e) k (σ κ h) (σ κ h') (scP σ κ p) = (σ (κ + (κ + (κ + κ)))) (m4J m e k h h' p) := by
  simp only [m4J, scE, scP, scD]
  split_ifs with hh <;> simp only [hh, if_true, if_false, hc.mulL, hc.mulR, hc.comp, hc.add, add_assoc]

theorem m4L_sc (m : R) (e : Ent R) (d : Diag R) (p : VId × Diag R) : m4L ((σ (κ + (κ + (κ + κ)))) m) (scE σ κ e) (scD σ κ d) (scP σ κ p) = (σ (κ + (κ + (κ + κ)))) (m4L m e d p) := by
  simp only [m4L, scE, scP, scD]
  split_ifs with hh <;> simp only [hh, if_true, if_false, hc.mulL, hc.mulR, hc.comp, hc.add, add_assoc]

theorem m4G_sc (hg : HessGrad R) (m : R) (e : Ent R) (p : VId × Diag R) (t : SMap VId (Diag R)) :
    m4G (scHG σ κ hg) ((σ (κ + (κ + (κ + κ)))) m) (scE σ κ e) (scP σ κ p) (t.map (scP σ κ)) = (σ (κ + (κ + (κ + κ)))) (m4G hg m e p t) := by
  unfold m4G
  rw [show (scP σ κ p).1 = p.1 from rfl, show (scE σ κ e).id1 = e.id1 from rfl, show (scE σ κ e).id2 = e.id2 from rfl,
    show (scP σ κ p).2 = scD σ κ p.2 from rfl]
  simp only [triFind_sc]
  split_ifs
  · rfl
  · have fin : ∀ m, (t.map (scP σ κ)).foldl (fun m it3 => m4L m (scE σ κ e) (scD σ κ p.2) it3) ((σ (κ + (κ + (κ + κ)))) m) = (σ (κ + (κ + (κ + κ)))) (t.foldl (fun m it3 => m4L m e p.2 it3) m) := fun m =>
      foldl_hom (σ (κ + (κ + (κ + κ)))) (scP σ κ) (fun a b => m4L_sc hc a e p.2 b) t m
    cases hg.triFind e.id1 p.1 <;> cases hg.triFind e.id2 p.1 <;> simp only [Option.map_none, Option.map_some, m4G2_sc hc, m4G3_sc hc, m4H_sc hc, fin]
    rename_i h h'
    rw [show (scHG σ κ hg).diagmap = hg.diagmap.map (scP σ κ) from rfl,
      foldl_hom (σ (κ + (κ + (κ + κ)))) (scP σ κ) (f := fun m it3 => m4J m e p.1 h h' it3) (fun a b => m4J_sc hc a e p.1 h h' b), fin]

theorem m4I_sc (hg : HessGrad R) (m : R) (e e2 : Ent R) : m4I (scHG σ κ hg) ((σ (κ + (κ + (κ + κ)))) m) (scE σ κ e) (scE σ κ e2) = (σ (κ + (κ + (κ + κ)))) (m4I hg m e e2) := by
  simp only [m4I, scE, triFind_sc]
  split_ifs
  · rfl
  · cases hg.triFind e.id1 e2.id1 <;> cases hg.triFind e.id2 e2.id2 <;> cases hg.triFind e.id1 e2.id2 <;> cases hg.triFind e.id2 e2.id1 <;>
      simp only [Option.map_none, Option.map_some, hc.mulL, hc.mulR, hc.comp, hc.add, add_assoc]

theorem m4_sc (hg : HessGrad R) : m4 (scHG σ κ hg) = (m4 hg).map (σ (κ + (κ + (κ + κ)))) := by
  unfold m4
  rw [triEntries_sc (hc.zero κ)]
  cases hg.triEntries true with
  | none => rfl
  | some es =>
    simp only [Option.map_some, Option.some.injEq]
    rw [show (scHG σ κ hg).diagmap = hg.diagmap.map (scP σ κ) from rfl]
    conv_lhs => rw [← hc.zero (κ + (κ + (κ + κ)))]
    rw [foldl_hom (σ (κ + (κ + (κ + κ)))) (scP σ κ) (f := fun m it =>
        es.foldl (fun m it2 => m4F m it it2) (forTails (fun m it2 rest2 =>
            if it.1 = it2.1 then m
            else
            forTails (fun m it3 rest3 =>
                if it.1 = it3.1 then m
                else
                rest3.foldl (fun m it4 =>
                  if it.1 = it4.1 then m
                  else m4D m it.2 it2.2 it3.2 it4.2) (m4C m it.2 it2.2 it3.2)) (m4B m it.2 it2.2) rest2) (m4A m it.2) hg.diagmap)) (fun a b => by
      rw [show (scP σ κ b).2 = scD σ κ b.2 from rfl, m4A_sc hc]
      rw [forTails_hom (σ (κ + (κ + (κ + κ)))) (scP σ κ) (f := fun m it2 rest2 =>
            if b.1 = it2.1 then m
            else
            forTails (fun m it3 rest3 =>
                if b.1 = it3.1 then m
                else
                rest3.foldl (fun m it4 =>
                  if b.1 = it4.1 then m
                  else m4D m b.2 it2.2 it3.2 it4.2) (m4C m b.2 it2.2 it3.2)) (m4B m b.2 it2.2) rest2) (fun a' b' t' => by
        rw [show (scP σ κ b').2 = scD σ κ b'.2 from rfl, show (scP σ κ b).1 = b.1 from rfl, show (scP σ κ b').1 = b'.1 from rfl]
        split_ifs
        · rfl
        · rw [m4B_sc hc]
          exact forTails_hom (σ (κ + (κ + (κ + κ)))) (scP σ κ) (fun a2 b2 t2 => by
            rw [show (scP σ κ b2).2 = scD σ κ b2.2 from rfl, show (scP σ κ b2).1 = b2.1 from rfl]
            split_ifs
            · rfl
            · rw [m4C_sc hc]
              exact foldl_hom (σ (κ + (κ + (κ + κ)))) (scP σ κ) (fun a3 b3 => by
                rw [show (scP σ κ b3).2 = scD σ κ b3.2 from rfl, show (scP σ κ b3).1 = b3.1 from rfl]
                split_ifs
                · rfl
                · exact m4D_sc hc _ _ _ _ _) t2 _) t' _)]
      exact foldl_hom (σ (κ + (κ + (κ + κ)))) (scE σ κ) (fun a' e => m4F_sc hc a' b e) es _)]
    refine foldl_hom (σ (κ + (κ + (κ + κ)))) (scE σ κ) (fun a b => ?_) es _
    rw [m4E_sc hc, forTails_hom (σ (κ + (κ + (κ + κ)))) (scP σ κ) (f := fun m it2 rest => m4G hg m b it2 rest) (fun a' b' t' => m4G_sc hc hg a' b b' t')]
    exact foldl_hom (σ (κ + (κ + (κ + κ)))) (scE σ κ) (fun a' e => m4I_sc hc hg a' b e) es _

theorem compute_sc (hg : HessGrad R) (n : ℕ) : compute (scHG σ κ hg) n = (compute hg n).map (σ (n * κ)) := by
  have e2 : (2 : ℤ) * κ = κ + κ := by ring
  have e3 : (3 : ℤ) * κ = κ + (κ + κ) := by ring
  have e4 : (4 : ℤ) * κ = κ + (κ + (κ + κ)) := by ring
  unfold compute
  split
  · rw [m1_sc hc, Nat.cast_one, one_mul]; rfl
  · rw [Nat.cast_ofNat, e2]; exact m2_sc hc hg
  · rw [Nat.cast_ofNat, e3]; exact m3_sc hc hg
  · rw [Nat.cast_ofNat, e4]; exact m4_sc hc hg
  · rfl

/-- moments multiplied by the powers -/
def scL (σ : ℤ → R → R) (κ : ℤ) (l : List R) : List R := List.zipWith σ [κ, κ + κ, κ + (κ + κ), κ + (κ + (κ + κ))] l

theorem updateMom_sc (hg : HessGrad R) (l : List R) : UReal2.updateMom (scHG σ κ hg) (scL σ κ l) = (UReal2.updateMom hg l).map (scL σ κ) := by
  rcases l with _ | ⟨a, _ | ⟨b, _ | ⟨d, _ | ⟨e, t⟩⟩⟩⟩
  · simp only [UReal2.updateMom, scL, List.zipWith_nil_right, compute, m1_sc hc]; rfl
  · simp only [UReal2.updateMom, scL, List.zipWith, compute, m2_sc hc]
    cases m2 hg <;> simp [scL, hc.mulL, hc.mulR, hc.comp, hc.add, hc.sub, add_assoc]
  · simp only [UReal2.updateMom, scL, List.zipWith, compute, m3_sc hc]
    cases m3 hg <;> simp [scL, hc.mulL, hc.mulR, hc.comp, hc.add, hc.sub, add_assoc]
  · simp only [UReal2.updateMom, scL, List.zipWith, compute, m4_sc hc]
    cases m4 hg <;> simp [scL, hc.mulL, hc.mulR, hc.comp, hc.add, hc.sub, add_assoc]
  · rfl

theorem momArray_sc (hg : HessGrad R) (n : ℕ) : UReal2.momArray (scHG σ κ hg) n = (UReal2.momArray hg n).map (scL σ κ) := by
  induction n with
  | zero => rfl
  | succ n ih =>
    rw [UReal2.momArray, UReal2.momArray, ih]
    cases UReal2.momArray hg n with
    | none => rfl
    | some l => exact updateMom_sc hc hg l

theorem m_sc {x y : UReal2 R} (h : y.hg = scHG σ κ x.hg) (n : ℕ) : y.m n = (x.m n).map (σ (n * κ)) := by
  have e2 : (2 : ℤ) * κ = κ + κ := by ring
  have e3 : (3 : ℤ) * κ = κ + (κ + κ) := by ring
  have e4 : (4 : ℤ) * κ = κ + (κ + (κ + κ)) := by ring
  unfold UReal2.m
  split_ifs with hn
  · rw [h, momArray_sc hc]
    cases UReal2.momArray x.hg n with
    | none => rfl
    | some l =>
      obtain ⟨h1, h4⟩ := hn
      simp only [Option.map_some, Option.bind_some, scL]
      rcases (by omega : n = 1 ∨ n = 2 ∨ n = 3 ∨ n = 4) with rfl | rfl | rfl | rfl <;>
        rcases l with _ | ⟨a, _ | ⟨b, _ | ⟨d, _ | ⟨e, t⟩⟩⟩⟩ <;> simp [List.zipWith, e2, e3, e4]
  · rfl

/-! ## covariance -/

variable {l : ℤ}

theorem c2A_sc (m : R) (a b : SMap VId (Diag R)) : c2A (σ (κ + l) m) (a.map (scP σ κ)) (b.map (scP σ l)) = σ (κ + l) (c2A m a b) := by
  induction hn : a.length + b.length using Nat.strong_induction_on generalizing a b m with
  | _ n ih =>
  rcases a with _ | ⟨⟨i, d⟩, ta⟩
  · simp [c2A]
  rcases b with _ | ⟨⟨j, e⟩, tb⟩
  · simp [c2A]
  simp only [List.map_cons, scP]
  rw [c2A, c2A]
  split_ifs
  · exact ih _ (by subst hn; simp) m ta ((j, e) :: tb) rfl
  · exact ih _ (by subst hn; simp) m ((i, d) :: ta) tb rfl
  · rw [← ih _ (by subst hn; simp; omega) _ ta tb rfl]
    simp only [scD, hc.mulL, hc.mulR, hc.comp, hc.add, add_comm l κ]

theorem c2B_sc (m : R) (a b : List (Ent R)) : c2B (σ (κ + l) m) (a.map (scE σ κ)) (b.map (scE σ l)) = (c2B m a b).map (σ (κ + l)) := by
  induction hn : a.length + b.length using Nat.strong_induction_on generalizing a b m with
  | _ n ih =>
  rcases a with _ | ⟨d, ta⟩
  · simp [c2B]
  rcases b with _ | ⟨e, tb⟩
  · simp [c2B]
  simp only [List.map_cons]
  rw [c2B, c2B, show (scE σ κ d).id1 = d.id1 from rfl, show (scE σ κ d).id2 = d.id2 from rfl, show (scE σ l e).id1 = e.id1 from rfl, show (scE σ l e).id2 = e.id2 from rfl]
  dsimp only
  split_ifs
  · rfl
  · exact ih _ (by subst hn; simp) m ta (e :: tb) rfl
  · exact ih _ (by subst hn; simp) m (d :: ta) tb rfl
  · rw [← ih _ (by subst hn; simp; omega) _ ta tb rfl]
    simp only [scE, hc.mulL, hc.mulR, hc.comp, hc.add, add_comm l κ]

theorem c2C_sc (m : R) (a b : SMap VId (Diag R)) : c2C (σ (κ + l) m) (a.map (scP σ κ)) (b.map (scP σ l)) = σ (κ + l) (c2C m a b) := by
  unfold c2C
  refine foldl_hom (σ (κ + l)) (scP σ κ) (fun a' p => ?_) a m
  refine foldl_hom (σ (κ + l)) (scP σ l) (fun a'' q => ?_) b a'
  rw [show (scP σ κ p).1 = p.1 from rfl, show (scP σ l q).1 = q.1 from rfl]
  split_ifs
  · simp only [scP, scD, hc.mulL, hc.mulR, hc.comp, hc.add, add_comm l κ]
  · rfl

theorem c2_sc (a b : HessGrad R) : c2 (scHG σ κ a) (scHG σ l b) = (c2 a b).map (σ (κ + l)) := by
  unfold c2
  rw [triEntries_sc (hc.zero κ), triEntries_sc (hc.zero l)]
  cases a.triEntries true with
  | none => rfl
  | some ea =>
    cases b.triEntries true with
    | none => rfl
    | some eb =>
      simp only [Option.map_some, Option.bind_some]
      rw [show (scHG σ κ a).diagmap = a.diagmap.map (scP σ κ) from rfl, show (scHG σ l b).diagmap = b.diagmap.map (scP σ l) from rfl]
      conv_lhs => rw [← hc.zero (κ + l)]
      rw [c2A_sc hc, c2B_sc hc, Option.map_map, Option.map_map]
      congr 1
      funext m
      exact c2C_sc hc m _ _

theorem cov_sc {x y x' y' : UReal2 R} (h : x'.hg = scHG σ κ x.hg) (h' : y'.hg = scHG σ l y.hg) : UReal2.cov x' y' = (UReal2.cov x y).map (σ (κ + l)) := by
  unfold UReal2.cov
  rw [m_sc hc h, m_sc hc h', h, h', c2_sc hc]
  cases c2 x.hg y.hg <;> cases x.m 1 <;> cases y.m 1 <;> simp [hc.mulL, hc.mulR, hc.comp, hc.sub, add_comm l κ]

end

end Unc
