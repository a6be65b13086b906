import Verif.Lemmas.Convert2

/-!
# The second-order operations commute with maps which preserve the arithmetic operations

No law of arithmetic is used, so this applies to rounded numbers.
-/

namespace Unc
open HessGrad SMap Mom

variable {R S : Type*}

/-- `c` preserves the operations used by the second-order class -/
structure OpHom [Zero R] [Add R] [Sub R] [Mul R] [NatCast R] [Zero S] [Add S] [Sub S] [Mul S] [NatCast S] (c : R → S) : Prop where
  zero : c 0 = 0
  add : ∀ a b, c (a + b) = c a + c b
  sub : ∀ a b, c (a - b) = c a - c b
  mul : ∀ a b, c (a * b) = c a * c b
  nat : ∀ n : ℕ, c (n : R) = n

/-! ## iterators -/

section
variable [Zero R] [Zero S] {c : R → S}

/-- converted iterator -/
def mapTIt (c : R → S) (it : TriIt R) : TriIt S := ⟨mapVal (mapD c) it.diagmin, mapVal (mapD c) it.diagmax, mapVal c it.tri, it.skip⟩

theorem updateDiag_map (it : TriIt R) : (mapTIt c it).updateDiag = it.updateDiag.map (mapTIt c) := by
  obtain ⟨dm, dM, tri, skip⟩ := it
  rcases tri with _ | ⟨⟨k, h⟩, t⟩
  · rfl
  · simp only [mapTIt, TriIt.updateDiag, mapVal_cons, seekDiag_map]
    cases seekDiag (ofLex k).1 dm with
    | none => rfl
    | some d =>
      simp only [Option.map_some, Option.bind_some, seekDiag_map]
      cases seekDiag (ofLex k).2 d <;> rfl

theorem tstart_map (diag : SMap VId (Diag R)) (tri : SMap IdPair R) (skip : Bool) :
    TriIt.start (mapVal (mapD c) diag) (mapVal c tri) skip = (TriIt.start diag tri skip).map (mapTIt c) := by
  cases skip
  · rcases diag with _ | ⟨d, _ | ⟨d', t⟩⟩ <;> rfl
  · exact updateDiag_map (c := c) ⟨diag, diag, tri, true⟩

omit [Zero R] [Zero S] in
theorem dropWhile_mapVal (p : IdPair → Bool) (m : SMap IdPair R) :
    (mapVal c m).dropWhile (fun q => p q.1) = mapVal c (m.dropWhile fun q => p q.1) := by
  induction m with
  | nil => rfl
  | cons a t ih =>
    rw [mapVal_cons, List.dropWhile_cons, List.dropWhile_cons]
    split_ifs
    · exact ih
    · rfl

theorem tincr_map (it : TriIt R) : (mapTIt c it).incr = it.incr.map (mapTIt c) := by
  obtain ⟨dm, dM, tri, skip⟩ := it
  cases skip
  · rcases dm with _ | ⟨⟨i, d⟩, dm⟩ <;> rcases dM with _ | ⟨⟨j, e⟩, dM⟩
    · rfl
    · rfl
    · rfl
    · simp only [mapTIt, TriIt.incr, mapVal_cons]
      rcases dM with _ | ⟨⟨j', e'⟩, dM⟩
      · rcases dm with _ | ⟨⟨i', d'⟩, _ | ⟨⟨i'', d''⟩, dm⟩⟩
        · rfl
        · rfl
        · simp [mapVal_cons, mapTIt, dropWhile_mapVal (c := c) (fun q => decide (q < toLex (i', i'')))]
      · simp [mapVal_cons, mapTIt, dropWhile_mapVal (c := c) (fun q => decide (q < toLex (i, j')))]
  · rcases tri with _ | ⟨⟨k, h⟩, t⟩
    · rfl
    · exact updateDiag_map (c := c) ⟨dm, dM, t, true⟩

theorem tget_map (h0 : c 0 = 0) (it : TriIt R) : (mapTIt c it).get = it.get.map (mapE c) := by
  obtain ⟨dm, dM, tri, skip⟩ := it
  rcases dm with _ | ⟨⟨i, d⟩, dm⟩
  · rfl
  rcases dM with _ | ⟨⟨j, e⟩, dM⟩
  · rfl
  rcases tri with _ | ⟨⟨k, h⟩, t⟩ <;> cases skip
  · simp [mapTIt, TriIt.get, mapE, h0]
  · rfl
  · by_cases hk : k = toLex (i, j) <;> simp [mapTIt, TriIt.get, mapE, h0, hk]
  · rfl

theorem tloop_map (h0 : c 0 = 0) (n : ℕ) (it : TriIt R) : TriIt.loop n (mapTIt c it) = (TriIt.loop n it).map (List.map (mapE c)) := by
  induction n generalizing it with
  | zero => rfl
  | succ n ih =>
    have hne : (mapTIt c it).notEnd = it.notEnd := by
      obtain ⟨dm, dM, tri, skip⟩ := it
      cases dm <;> cases dM <;> rfl
    rw [TriIt.loop, TriIt.loop, hne]
    split_ifs
    · rw [tget_map h0, tincr_map]
      cases it.get with
      | none => rfl
      | some e =>
        cases it.incr with
        | none => rfl
        | some it' =>
          simp only [Option.map_some, Option.bind_some, ih]
          cases TriIt.loop n it' <;> rfl
    · rfl

theorem triEntries_map (h0 : c 0 = 0) (hg : HessGrad R) (skip : Bool) :
    (mapHG c hg).triEntries skip = (hg.triEntries skip).map (List.map (mapE c)) := by
  have hf : (mapHG c hg).fuel = hg.fuel := by simp [HessGrad.fuel, mapHG, length_mapVal]
  unfold HessGrad.triEntries
  rw [hf, mapHG, tstart_map]
  cases TriIt.start hg.diagmap hg.trimap skip with
  | none => rfl
  | some it => exact tloop_map h0 _ it

end

theorem foldl_hom {A A' B B' : Type*} (φ : A → A') (ψ : B → B') {f : A → B → A} {g : A' → B' → A'}
    (h : ∀ a b, g (φ a) (ψ b) = φ (f a b)) (l : List B) (a : A) : (l.map ψ).foldl g (φ a) = φ (l.foldl f a) := by
  induction l generalizing a with
  | nil => rfl
  | cons b t ih => simp only [List.map_cons, List.foldl_cons, h, ih]

theorem forTails_hom {A A' B B' : Type*} (φ : A → A') (ψ : B → B') {f : A → B → List B → A} {g : A' → B' → List B' → A'}
    (h : ∀ a b t, g (φ a) (ψ b) (t.map ψ) = φ (f a b t)) (l : List B) (a : A) : forTails g (φ a) (l.map ψ) = φ (forTails f a l) := by
  induction l generalizing a with
  | nil => rfl
  | cons b t ih => simp only [List.map_cons, forTails, h, ih]

/-- converted element of the map -/
def mapP (c : R → S) (p : VId × Diag R) : VId × Diag S := (p.1, mapD c p.2)

/-! ## moments -/

section
variable [Zero R] [Add R] [Sub R] [Mul R] [NatCast R] [Zero S] [Add S] [Sub S] [Mul S] [NatCast S] {c : R → S} (hc : OpHom c)
include hc

theorem lit_hom (n : ℕ) : (lit n : S) = c (lit n) := (hc.nat n).symm

theorem m1_hom (hg : HessGrad R) : m1 (mapHG c hg) = c (m1 hg) := by
  unfold m1
  rw [← hc.zero]
  exact foldl_hom c (mapP c) (fun a b => (hc.add _ _).symm) hg.diagmap 0

theorem m2A_hom (m : R) (d : Diag R) : m2A (c m) (mapD c d) = c (m2A m d) := by simp only [m2A, mapD, mapM, lit_hom hc, hc.add, hc.mul]
theorem m2B_hom (m : R) (e : Ent R) : m2B (c m) (mapE c e) = c (m2B m e) := by simp only [m2B, mapE, mapD, mapM, lit_hom hc, hc.add, hc.mul]
theorem m3A_hom (m : R) (d : Diag R) : m3A (c m) (mapD c d) = c (m3A m d) := by simp only [m3A, mapD, mapM, lit_hom hc, hc.add, hc.mul]
theorem m3B_hom (m : R) (d d' : Diag R) : m3B (c m) (mapD c d) (mapD c d') = c (m3B m d d') := by simp only [m3B, mapD, mapM, lit_hom hc, hc.add, hc.mul]
theorem m3C_hom (m : R) (d d' d'' : Diag R) : m3C (c m) (mapD c d) (mapD c d') (mapD c d'') = c (m3C m d d' d'') := by
  simp only [m3C, mapD, mapM, lit_hom hc, hc.add, hc.mul]
theorem m3F_hom (m : R) (it : VId × Diag R) (e : Ent R) : m3F (c m) (mapP c it) (mapE c e) = c (m3F m it e) := by
  simp only [m3F, mapP, mapE, mapD, lit_hom hc]
  split_ifs <;> simp only [hc.add, hc.mul]
theorem m3D_hom (m : R) (e : Ent R) : m3D (c m) (mapE c e) = c (m3D m e) := by simp only [m3D, mapE, mapD, mapM, lit_hom hc, hc.add, hc.mul]

omit [Add R] [Sub R] [Mul R] [NatCast R] [Add S] [Sub S] [Mul S] [NatCast S] hc in
theorem triGet_hom (h0 : c 0 = 0) (hg : HessGrad R) (i j : VId) : (mapHG c hg).triGet i j = (hg.triGet i j).map c := by
  simp only [HessGrad.triGet, mapHG, find?_mapVal]
  split_ifs
  · cases find? hg.trimap (toLex (i, j)) <;> simp [h0]
  · rfl

omit [Zero R] [Add R] [Sub R] [Mul R] [NatCast R] [Zero S] [Add S] [Sub S] [Mul S] [NatCast S] hc in
theorem triFind_hom (hg : HessGrad R) (i j : VId) : (mapHG c hg).triFind i j = (hg.triFind i j).map c := by
  simp only [HessGrad.triFind, mapHG, find?_mapVal]

theorem m3E_hom (hg : HessGrad R) (m : R) (e e2 : Ent R) : m3E (mapHG c hg) (c m) (mapE c e) (mapE c e2) = (m3E hg m e e2).map c := by
  simp only [m3E, mapE, triGet_hom hc.zero, Option.map_map]
  cases hg.triGet e.id2 e2.id2 with
  | none => rfl
  | some h => simp only [Option.map_some, Function.comp, lit_hom hc, hc.add, hc.mul]

theorem m2_hom (hg : HessGrad R) : m2 (mapHG c hg) = (m2 hg).map c := by
  unfold m2
  rw [triEntries_map hc.zero, Option.map_map, Option.map_map]
  congr 1
  funext es
  simp only [Function.comp]
  rw [← foldl_hom c (mapE c) (m2B_hom hc)]
  congr 1
  conv_lhs => rw [← hc.zero]
  exact foldl_hom c (mapP c) (fun a b => m2A_hom hc a b.2) hg.diagmap 0

theorem m3_hom (hg : HessGrad R) : m3 (mapHG c hg) = (m3 hg).map c := by
  unfold m3
  rw [triEntries_map hc.zero]
  cases hg.triEntries true with
  | none => rfl
  | some es =>
    simp only [Option.map_some, Option.bind_some]
    have e1 : forTails (fun m it rest =>
        (es.map (mapE c)).foldl (fun m it2 => m3F m it it2) (forTails (fun m it2 rest2 =>
            rest2.foldl (fun m it3 => m3C m it.2 it2.2 it3.2) (m3B m it.2 it2.2)) (m3A m it.2) rest)) 0 (mapHG c hg).diagmap =
        c (forTails (fun m it rest =>
        es.foldl (fun m it2 => m3F m it it2) (forTails (fun m it2 rest2 =>
            rest2.foldl (fun m it3 => m3C m it.2 it2.2 it3.2) (m3B m it.2 it2.2)) (m3A m it.2) rest)) 0 hg.diagmap) := by
      conv_lhs => rw [← hc.zero]
      refine forTails_hom c (mapP c) (fun a b t => ?_) hg.diagmap 0
      rw [show (mapP c b).2 = mapD c b.2 from rfl, m3A_hom hc]
      rw [forTails_hom c (mapP c) (f := fun m it2 rest2 => rest2.foldl (fun m it3 => m3C m b.2 it2.2 it3.2) (m3B m b.2 it2.2)) (fun a' b' t' => by
        rw [show (mapP c b').2 = mapD c b'.2 from rfl, m3B_hom hc]
        exact foldl_hom c (mapP c) (fun a'' b'' => m3C_hom hc a'' _ _ _) t' _)]
      exact foldl_hom c (mapE c) (fun a' e => m3F_hom hc a' b e) es _
    rw [e1]
    refine forTails_hom (Option.map c) (mapE c) (fun a b t => ?_) es (some _)
    cases a with
    | none => rfl
    | some a =>
      simp only [Option.map_some, Option.bind_some]
      have e2 : (t.map (mapE c)).takeWhile (fun it2 => decide (it2.id1 = (mapE c b).id1)) = (t.takeWhile fun it2 => decide (it2.id1 = b.id1)).map (mapE c) := by
        rw [List.takeWhile_map]; rfl
      rw [e2, m3D_hom hc]
      exact foldlM_map c (mapE c) (fun a' b' => m3E_hom hc hg a' b b') _ _

theorem m4A_hom (m : R) (d : Diag R) : m4A (c m) (mapD c d) = c (m4A m d) := by simp only [m4A, mapD, mapM, lit_hom hc, hc.add, hc.mul]
theorem m4B_hom (m : R) (d d2 : Diag R) : m4B (c m) (mapD c d) (mapD c d2) = c (m4B m d d2) := by simp only [m4B, mapD, mapM, lit_hom hc, hc.add, hc.mul]
theorem m4C_hom (m : R) (d d2 d3 : Diag R) : m4C (c m) (mapD c d) (mapD c d2) (mapD c d3) = c (m4C m d d2 d3) := by
  simp only [m4C, mapD, mapM, lit_hom hc, hc.add, hc.mul]
theorem m4D_hom (m : R) (d d2 d3 d4 : Diag R) : m4D (c m) (mapD c d) (mapD c d2) (mapD c d3) (mapD c d4) = c (m4D m d d2 d3 d4) := by
  simp only [m4D, mapD, mapM, lit_hom hc, hc.add, hc.mul]
theorem m4F_hom (m : R) (it : VId × Diag R) (e : Ent R) : m4F (c m) (mapP c it) (mapE c e) = c (m4F m it e) := by
  simp only [m4F, mapP, mapE, mapD, mapM, lit_hom hc]
  split_ifs <;> simp only [hc.add, hc.mul]
theorem m4E_hom (m : R) (e : Ent R) : m4E (c m) (mapE c e) = c (m4E m e) := by simp only [m4E, mapE, mapD, mapM, lit_hom hc, hc.add, hc.mul]
theorem m4G2_hom (m : R) (e : Ent R) (d : Diag R) (h : R) : m4G2 (c m) (mapE c e) (mapD c d) (c h) = c (m4G2 m e d h) := by
  simp only [m4G2, mapE, mapD, mapM, lit_hom hc, hc.add, hc.mul]
theorem m4G3_hom (m : R) (e : Ent R) (d : Diag R) (h : R) : m4G3 (c m) (mapE c e) (mapD c d) (c h) = c (m4G3 m e d h) := by
  simp only [m4G3, mapE, mapD, mapM, lit_hom hc, hc.add, hc.mul]
theorem m4H_hom (m : R) (e : Ent R) (h h' : R) : m4H (c m) (mapE c e) (c h) (c h') = c (m4H m e h h') := by
  simp only [m4H, mapE, mapD, mapM, lit_hom hc, hc.add, hc.mul]
theorem m4J_hom (m : R) (e : Ent R) (k : VId) (h h' : R) (p : VId × Diag R) : m4J (c m) (mapE c e) k (c h) (c h') (mapP c p) = c (m4J m e k h h' p) := by
  simp only [m4J, mapE, mapP, mapD, lit_hom hc]
  split_ifs <;> simp only [hc.add, hc.mul]
theorem m4L_hom (m : R) (e : Ent R) (d : Diag R) (p : VId × Diag R) : m4L (c m) (mapE c e) (mapD c d) (mapP c p) = c (m4L m e d p) := by
  simp only [m4L, mapE, mapP, mapD, lit_hom hc]
  split_ifs <;> simp only [hc.add, hc.mul]

theorem m4G_hom (hg : HessGrad R) (m : R) (e : Ent R) (p : VId × Diag R) (t : SMap VId (Diag R)) :
    m4G (mapHG c hg) (c m) (mapE c e) (mapP c p) (t.map (mapP c)) = c (m4G hg m e p t) := by
  unfold m4G
  rw [show (mapP c p).1 = p.1 from rfl, show (mapE c e).id1 = e.id1 from rfl, show (mapE c e).id2 = e.id2 from rfl,
    show (mapP c p).2 = mapD c p.2 from rfl]
  simp only [triFind_hom]
  split_ifs
  · rfl
  · have fin : ∀ m, (t.map (mapP c)).foldl (fun m it3 => m4L m (mapE c e) (mapD c p.2) it3) (c m) = c (t.foldl (fun m it3 => m4L m e p.2 it3) m) := fun m =>
      foldl_hom c (mapP c) (fun a b => m4L_hom hc a e p.2 b) t m
    cases hg.triFind e.id1 p.1 <;> cases hg.triFind e.id2 p.1 <;> simp only [Option.map_none, Option.map_some, m4G2_hom hc, m4G3_hom hc, m4H_hom hc, fin]
    rename_i h h'
    rw [show (mapHG c hg).diagmap = hg.diagmap.map (mapP c) from rfl,
      foldl_hom c (mapP c) (f := fun m it3 => m4J m e p.1 h h' it3) (fun a b => m4J_hom hc a e p.1 h h' b), fin]

theorem m4I_hom (hg : HessGrad R) (m : R) (e e2 : Ent R) : m4I (mapHG c hg) (c m) (mapE c e) (mapE c e2) = c (m4I hg m e e2) := by
  simp only [m4I, mapE, triFind_hom]
  split_ifs
  · rfl
  · cases hg.triFind e.id1 e2.id1 <;> cases hg.triFind e.id2 e2.id2 <;> cases hg.triFind e.id1 e2.id2 <;> cases hg.triFind e.id2 e2.id1 <;>
      simp only [Option.map_none, Option.map_some, lit_hom hc, hc.add, hc.mul]

theorem m4_hom (hg : HessGrad R) : m4 (mapHG c hg) = (m4 hg).map c := by
  unfold m4
  rw [triEntries_map hc.zero]
  cases hg.triEntries true with
  | none => rfl
  | some es =>
    simp only [Option.map_some, Option.some.injEq]
    rw [show (mapHG c hg).diagmap = hg.diagmap.map (mapP c) from rfl]
    conv_lhs => rw [← hc.zero]
    rw [foldl_hom c (mapP c) (f := fun m it =>
        es.foldl (fun m it2 => m4F m it it2) (forTails (fun m it2 rest2 =>
            if it.1 = it2.1 then m
            else
            forTails (fun m it3 rest3 =>
                if it.1 = it3.1 then m
                else
                rest3.foldl (fun m it4 =>
                  if it.1 = it4.1 then m
                  else m4D m it.2 it2.2 it3.2 it4.2) (m4C m it.2 it2.2 it3.2)) (m4B m it.2 it2.2) rest2) (m4A m it.2) hg.diagmap)) (fun a b => by
      rw [show (mapP c b).2 = mapD c b.2 from rfl, m4A_hom hc]
      rw [forTails_hom c (mapP c) (f := fun m it2 rest2 =>
            if b.1 = it2.1 then m
            else
            forTails (fun m it3 rest3 =>
                if b.1 = it3.1 then m
                else
                rest3.foldl (fun m it4 =>
                  if b.1 = it4.1 then m
                  else m4D m b.2 it2.2 it3.2 it4.2) (m4C m b.2 it2.2 it3.2)) (m4B m b.2 it2.2) rest2) (fun a' b' t' => by
        rw [show (mapP c b').2 = mapD c b'.2 from rfl, show (mapP c b).1 = b.1 from rfl, show (mapP c b').1 = b'.1 from rfl]
        split_ifs
        · rfl
        · rw [m4B_hom hc]
          exact forTails_hom c (mapP c) (fun a2 b2 t2 => by
            rw [show (mapP c b2).2 = mapD c b2.2 from rfl, show (mapP c b2).1 = b2.1 from rfl]
            split_ifs
            · rfl
            · rw [m4C_hom hc]
              exact foldl_hom c (mapP c) (fun a3 b3 => by
                rw [show (mapP c b3).2 = mapD c b3.2 from rfl, show (mapP c b3).1 = b3.1 from rfl]
                split_ifs
                · rfl
                · exact m4D_hom hc _ _ _ _ _) t2 _) t' _)]
      exact foldl_hom c (mapE c) (fun a' e => m4F_hom hc a' b e) es _)]
    refine foldl_hom c (mapE c) (fun a b => ?_) es _
    rw [m4E_hom hc, forTails_hom c (mapP c) (f := fun m it2 rest => m4G hg m b it2 rest) (fun a' b' t' => m4G_hom hc hg a' b b' t')]
    exact foldl_hom c (mapE c) (fun a' e => m4I_hom hc hg a' b e) es _

theorem compute_hom (hg : HessGrad R) (n : ℕ) : compute (mapHG c hg) n = (compute hg n).map c := by
  unfold compute
  split
  · rw [m1_hom hc]; rfl
  · exact m2_hom hc hg
  · exact m3_hom hc hg
  · exact m4_hom hc hg
  · rfl

theorem updateMom_hom (hg : HessGrad R) (l : List R) : UReal2.updateMom (mapHG c hg) (l.map c) = (UReal2.updateMom hg l).map (List.map c) := by
  rcases l with _ | ⟨a, _ | ⟨b, _ | ⟨d, _ | ⟨e, t⟩⟩⟩⟩
  · simp only [UReal2.updateMom, List.map_nil, compute_hom hc]; cases compute hg 1 <;> rfl
  · simp only [UReal2.updateMom, List.map_nil, List.map_cons, compute_hom hc]
    cases compute hg 2 <;> simp [hc.sub, hc.mul, hc.add, lit_hom hc]
  · simp only [UReal2.updateMom, List.map_nil, List.map_cons, compute_hom hc]
    cases compute hg 3 <;> simp [hc.sub, hc.mul, hc.add, lit_hom hc]
  · simp only [UReal2.updateMom, List.map_nil, List.map_cons, compute_hom hc]
    cases compute hg 4 <;> simp [hc.sub, hc.mul, hc.add, lit_hom hc]
  · rfl

theorem momArray_hom (hg : HessGrad R) (n : ℕ) : UReal2.momArray (mapHG c hg) n = (UReal2.momArray hg n).map (List.map c) := by
  induction n with
  | zero => rfl
  | succ n ih =>
    rw [UReal2.momArray, UReal2.momArray, ih]
    cases UReal2.momArray hg n with
    | none => rfl
    | some l => exact updateMom_hom hc hg l

theorem m_hom (x : UReal2 R) (n : ℕ) : (mapU c x).m n = (x.m n).map c := by
  unfold UReal2.m
  split_ifs
  · rw [mapU, momArray_hom hc]
    cases UReal2.momArray x.hg n with
    | none => rfl
    | some l => simp
  · rfl

theorem c2A_hom (m : R) (a b : SMap VId (Diag R)) : c2A (c m) (a.map (mapP c)) (b.map (mapP c)) = c (c2A m a b) := by
  induction hn : a.length + b.length using Nat.strong_induction_on generalizing a b m with
  | _ n ih =>
  rcases a with _ | ⟨⟨i, d⟩, ta⟩
  · simp [c2A]
  rcases b with _ | ⟨⟨j, e⟩, tb⟩
  · simp [c2A]
  simp only [List.map_cons, mapP]
  rw [c2A, c2A]
  split_ifs
  · exact ih _ (by subst hn; simp) m ta ((j, e) :: tb) rfl
  · exact ih _ (by subst hn; simp) m ((i, d) :: ta) tb rfl
  · rw [← ih _ (by subst hn; simp; omega) _ ta tb rfl]
    simp only [mapD, mapM, hc.add, hc.mul]

theorem c2B_hom (m : R) (a b : List (Ent R)) : c2B (c m) (a.map (mapE c)) (b.map (mapE c)) = (c2B m a b).map c := by
  induction hn : a.length + b.length using Nat.strong_induction_on generalizing a b m with
  | _ n ih =>
  rcases a with _ | ⟨d, ta⟩
  · simp [c2B]
  rcases b with _ | ⟨e, tb⟩
  · simp [c2B]
  simp only [List.map_cons]
  rw [c2B, c2B, show (mapE c d).id1 = d.id1 from rfl, show (mapE c d).id2 = d.id2 from rfl, show (mapE c e).id1 = e.id1 from rfl, show (mapE c e).id2 = e.id2 from rfl]
  dsimp only
  split_ifs
  · rfl
  · exact ih _ (by subst hn; simp) m ta (e :: tb) rfl
  · exact ih _ (by subst hn; simp) m (d :: ta) tb rfl
  · rw [← ih _ (by subst hn; simp; omega) _ ta tb rfl]
    simp only [lit_hom hc, mapE, hc.add, hc.mul]

theorem c2C_hom (m : R) (a b : SMap VId (Diag R)) : c2C (c m) (a.map (mapP c)) (b.map (mapP c)) = c (c2C m a b) := by
  unfold c2C
  refine foldl_hom c (mapP c) (fun a' p => ?_) a m
  refine foldl_hom c (mapP c) (fun a'' q => ?_) b a'
  rw [show (mapP c p).1 = p.1 from rfl, show (mapP c q).1 = q.1 from rfl]
  split_ifs
  · exact (by simp only [mapP, mapD, hc.add, hc.mul])
  · rfl

theorem c2_hom (a b : HessGrad R) : c2 (mapHG c a) (mapHG c b) = (c2 a b).map c := by
  unfold c2
  rw [triEntries_map hc.zero, triEntries_map hc.zero]
  cases a.triEntries true with
  | none => rfl
  | some ea =>
    cases b.triEntries true with
    | none => rfl
    | some eb =>
      simp only [Option.map_some, Option.bind_some]
      rw [show (mapHG c a).diagmap = a.diagmap.map (mapP c) from rfl, show (mapHG c b).diagmap = b.diagmap.map (mapP c) from rfl]
      conv_lhs => rw [← hc.zero]
      rw [c2A_hom hc, c2B_hom hc, Option.map_map, Option.map_map]
      congr 1
      funext m
      exact c2C_hom hc m _ _

theorem cov_hom (x y : UReal2 R) : UReal2.cov (mapU c x) (mapU c y) = (UReal2.cov x y).map c := by
  unfold UReal2.cov
  rw [m_hom hc, m_hom hc, show (mapU c x).hg = mapHG c x.hg from rfl, show (mapU c y).hg = mapHG c y.hg from rfl, c2_hom hc]
  cases c2 x.hg y.hg <;> cases x.m 1 <;> cases y.m 1 <;> simp [hc.sub, hc.mul]

/-! ## propagation -/

theorem unaryStep_hom (u : Moments R) (dfdx h : R) (res : HessGrad R) (e : Ent R) :
    UReal2.unaryStep (mapM c u) (c dfdx) (c h) (mapHG c res) (mapE c e) = (UReal2.unaryStep u dfdx h res e).map (mapHG c) := by
  obtain ⟨i, j, d1, d2, v⟩ := e
  simp only [UReal2.unaryStep, mapE]
  rw [modHhess_map hc.zero u res i j (f := fun _ => h * d1.grad * d2.grad + dfdx * v) (fun v => by simp [mapD, hc.add, hc.mul])]
  cases res.modHhess u i j (fun _ => h * d1.grad * d2.grad + dfdx * v) with
  | none => rfl
  | some r =>
    simp only [Option.map_some]
    by_cases hij : i = j
    · simp only [hij, if_true]
      rw [← hij]
      rw [modDiag_map u (mapM c u) r i (f := fun d => { d with mom := d1.mom, grad := dfdx * d1.grad }) (by simp [mapD, newDiag, hc.zero, hc.mul])
        (fun v => by simp [mapD, hc.mul])]
    · simp only [hij, if_false]

theorem binaryYNew_hom (u : Moments R) (res : HessGrad R) (e : Ent R) :
    UReal2.binaryYNew (mapM c u) (mapHG c res) (mapE c e) = (UReal2.binaryYNew u res e).map (mapHG c) := by
  obtain ⟨i, j, d1, d2, v⟩ := e
  simp only [UReal2.binaryYNew, mapE]
  rw [modHhess_map hc.zero u res i j (f := fun _ => 0) (fun v => by simp [hc.zero])]
  cases res.modHhess u i j (fun _ => 0) with
  | none => rfl
  | some r =>
    simp only [Option.map_some]
    by_cases hij : i = j
    · simp only [hij, if_true]
      rw [← hij]
      rw [modDiag_map u (mapM c u) r i (f := fun d => { d with mom := d1.mom }) (by simp [mapD, newDiag, hc.zero]) (fun v => by simp [mapD])]
    · simp only [hij, if_false]

theorem binaryY_hom (u : Moments R) (dfdy h : R) (res : HessGrad R) (e : Ent R) :
    UReal2.binaryY (mapM c u) (c dfdy) (c h) (mapHG c res) (mapE c e) = (UReal2.binaryY u dfdy h res e).map (mapHG c) := by
  obtain ⟨i, j, d1, d2, v⟩ := e
  simp only [UReal2.binaryY, mapE]
  rw [modHhess_map hc.zero u res i j (f := fun w => w + h * d1.grad * d2.grad + dfdy * v) (fun v => by simp [mapD, hc.add, hc.mul])]
  cases res.modHhess u i j (fun w => w + h * d1.grad * d2.grad + dfdy * v) with
  | none => rfl
  | some r =>
    simp only [Option.map_some]
    by_cases hij : i = j
    · simp only [hij, if_true]
      rw [← hij]
      rw [modDiag_map u (mapM c u) r i (f := fun d => { d with grad := d.grad + dfdy * d1.grad }) (by simp [mapD, newDiag, hc.zero, hc.add, hc.mul])
        (fun v => by simp [mapD, hc.add, hc.mul])]
    · simp only [hij, if_false]

theorem binaryLoop_hom (u : Moments R) (fx fy hx hy : R) (ex ey : List (Ent R)) (res : HessGrad R) :
    UReal2.binaryLoop (mapM c u) (c fx) (c fy) (c hx) (c hy) (mapHG c res) (ex.map (mapE c)) (ey.map (mapE c)) =
      (UReal2.binaryLoop u fx fy hx hy res ex ey).map (mapHG c) := by
  have hX : ∀ res e, UReal2.binaryX (mapM c u) (c fx) (c hx) (mapHG c res) (mapE c e) = (UReal2.binaryX u fx hx res e).map (mapHG c) := unaryStep_hom hc u fx hx
  have hN := binaryYNew_hom hc u
  have hY := binaryY_hom hc u fy hy
  induction hn : ex.length + ey.length using Nat.strong_induction_on generalizing ex ey res with
  | _ n ih =>
  rcases ex with _ | ⟨a, tx⟩ <;> rcases ey with _ | ⟨b, ty⟩
  · simp [UReal2.binaryLoop]
  · simp only [List.map_nil, List.map_cons]
    rw [UReal2.binaryLoop, UReal2.binaryLoop, show (mapE c b).id1 = b.id1 from rfl, show (mapE c b).id2 = b.id2 from rfl]
    split_ifs
    · rw [hN]
      cases UReal2.binaryYNew u res b with
      | none => rfl
      | some r =>
        simp only [Option.map_some, Option.bind_some, hY]
        cases UReal2.binaryY u fy hy r b with
        | none => rfl
        | some r' => exact ih _ (by subst hn; simp) [] ty r' rfl
    · rfl
  · simp only [List.map_nil, List.map_cons]
    rw [UReal2.binaryLoop, UReal2.binaryLoop, show (mapE c a).id1 = a.id1 from rfl, show (mapE c a).id2 = a.id2 from rfl]
    split_ifs
    · rw [hX]
      cases UReal2.binaryX u fx hx res a with
      | none => rfl
      | some r => exact ih _ (by subst hn; simp) tx [] r rfl
    · rfl
  · simp only [List.map_cons]
    rw [UReal2.binaryLoop, UReal2.binaryLoop, show (mapE c a).id1 = a.id1 from rfl, show (mapE c a).id2 = a.id2 from rfl,
      show (mapE c b).id1 = b.id1 from rfl, show (mapE c b).id2 = b.id2 from rfl]
    split_ifs
    · rw [hX]
      cases UReal2.binaryX u fx hx res a with
      | none => rfl
      | some r => exact ih _ (by subst hn; simp) tx (b :: ty) r rfl
    · rw [hN]
      cases UReal2.binaryYNew u res b with
      | none => rfl
      | some r =>
        simp only [Option.map_some, Option.bind_some, hY]
        cases UReal2.binaryY u fy hy r b with
        | none => rfl
        | some r' => exact ih _ (by subst hn; simp) (a :: tx) ty r' rfl
    · rw [hX]
      cases UReal2.binaryX u fx hx res a with
      | none => rfl
      | some r =>
        simp only [Option.map_some, Option.bind_some, hY]
        cases UReal2.binaryY u fy hy r b with
        | none => rfl
        | some r' => exact ih _ (by subst hn; simp; omega) tx ty r' rfl

theorem mixedStep_hom (u : Moments R) (h : R) (res : HessGrad R) (px py : VId × Diag R) :
    UReal2.mixedStep (mapM c u) (c h) (mapHG c res) (mapP c px) (mapP c py) = (UReal2.mixedStep u h res px py).map (mapHG c) := by
  obtain ⟨i, d⟩ := px
  obtain ⟨j, e⟩ := py
  change UReal2.mixedStep (mapM c u) (c h) (mapHG c res) (i, mapD c d) (j, mapD c e) = _
  simp only [UReal2.mixedStep]
  by_cases hm : min i j ≠ max i j
  · rw [if_pos hm, if_pos hm]
    exact modTri_map hc.zero res _ _ (f := fun v => v + h * d.grad * e.grad) fun v => by simp [mapD, hc.add, hc.mul]
  · rw [if_neg hm, if_neg hm, modDiag_map u (mapM c u) res (min i j)
      (f := fun w => { w with hhess := w.hhess + Mom.lit 2 * (h * d.grad * e.grad) })
      (by simp only [mapD, newDiag, lit_hom hc, hc.zero, hc.add, hc.mul]) (fun v => by simp only [mapD, lit_hom hc, hc.add, hc.mul])]
    rfl

theorem mixedLoop_hom (u : Moments R) (h : R) (res : HessGrad R) (x y : SMap VId (Diag R)) :
    UReal2.mixedLoop (mapM c u) (c h) (mapHG c res) (x.map (mapP c)) (y.map (mapP c)) = (UReal2.mixedLoop u h res x y).map (mapHG c) := by
  unfold UReal2.mixedLoop
  refine foldlM_map (mapHG c) (mapP c) (fun r px => ?_) x res
  exact foldlM_map (mapHG c) (mapP c) (fun r' py => mixedStep_hom hc u h r' px py) y r

end

/-! ## the same with the comparisons given from outside -/

section
variable [Zero R] [Add R] [Mul R] [NatCast R]

/-- `unary` with the result of the comparison of the second derivative with 0 and half the second derivative given -/
def unaryG (skip : Bool) (u : Moments R) (x : UReal2 R) (f fx h : R) : Option (UReal2 R) :=
  (x.hg.hessEntries skip).bind fun es => (es.foldlM (UReal2.unaryStep u fx h) HessGrad.empty).map fun hg => ⟨hg, f⟩

/-- `binary` with the results of the comparisons and half the second derivatives given -/
def binaryG (sx sy sxy : Bool) (u : Moments R) (x y : UReal2 R) (f fx fy hx hy hxy : R) : Option (UReal2 R) :=
  (x.hg.hessEntries sx).bind fun ex => (y.hg.hessEntries sy).bind fun ey =>
  (UReal2.binaryLoop u fx fy hx hy HessGrad.empty ex ey).bind fun hg =>
  (if !sxy then UReal2.mixedLoop u hxy hg x.hg.diagmap y.hg.diagmap else some hg).map fun hg => ⟨hg, f⟩

theorem unary_G [Div R] [CCmp R] (u : Moments R) (x : UReal2 R) (f fx fxx : R) :
    UReal2.unary u x f fx fxx = unaryG (CCmp.eqb (fxx / lit 2) 0) u x f fx (fxx / lit 2) := rfl

theorem binary_G [Div R] [CCmp R] (u : Moments R) (x y : UReal2 R) (f fx fy fxx fyy fxy : R) :
    UReal2.binary u x y f fx fy fxx fyy fxy =
      binaryG (CCmp.eqb (fxx / lit 2) 0) (CCmp.eqb (fyy / lit 2) 0) (CCmp.eqb (fxy / lit 2) 0) u x y f fx fy (fxx / lit 2) (fyy / lit 2) (fxy / lit 2) := rfl

end

section
variable [Zero R] [Add R] [Sub R] [Mul R] [NatCast R] [Zero S] [Add S] [Sub S] [Mul S] [NatCast S] {c : R → S} (hc : OpHom c)
include hc

theorem unaryG_hom (skip : Bool) (u : Moments R) (x : UReal2 R) (f fx h : R) :
    unaryG skip (mapM c u) (mapU c x) (c f) (c fx) (c h) = (unaryG skip u x f fx h).map (mapU c) := by
  unfold unaryG
  rw [mapU, hessEntries_map hc.zero]
  cases x.hg.hessEntries skip with
  | none => rfl
  | some es =>
    simp only [Option.map_some, Option.bind_some]
    have := foldlM_map (mapHG c) (mapE c) (unaryStep_hom hc u fx h) es HessGrad.empty
    have he : mapHG c (HessGrad.empty : HessGrad R) = HessGrad.empty := rfl
    rw [he] at this
    rw [this, Option.map_map, Option.map_map]
    rfl

theorem binaryG_hom (sx sy sxy : Bool) (u : Moments R) (x y : UReal2 R) (f fx fy hx hy hxy : R) :
    binaryG sx sy sxy (mapM c u) (mapU c x) (mapU c y) (c f) (c fx) (c fy) (c hx) (c hy) (c hxy) = (binaryG sx sy sxy u x y f fx fy hx hy hxy).map (mapU c) := by
  unfold binaryG
  rw [mapU, mapU, hessEntries_map hc.zero, hessEntries_map hc.zero]
  cases x.hg.hessEntries sx with
  | none => rfl
  | some ex =>
    cases y.hg.hessEntries sy with
    | none => rfl
    | some ey =>
      simp only [Option.map_some, Option.bind_some]
      have := binaryLoop_hom hc u fx fy hx hy ex ey HessGrad.empty
      have he : mapHG c (HessGrad.empty : HessGrad R) = HessGrad.empty := rfl
      rw [he] at this
      rw [this]
      cases UReal2.binaryLoop u fx fy hx hy HessGrad.empty ex ey with
      | none => rfl
      | some r =>
        simp only [Option.map_some, Option.bind_some]
        split_ifs
        · have := mixedLoop_hom hc u hxy r x.hg.diagmap y.hg.diagmap
          rw [show (mapHG c x.hg).diagmap = x.hg.diagmap.map (mapP c) from rfl,
            show (mapHG c y.hg).diagmap = y.hg.diagmap.map (mapP c) from rfl, this, Option.map_map, Option.map_map]
          rfl
        · rfl

end

end Unc
