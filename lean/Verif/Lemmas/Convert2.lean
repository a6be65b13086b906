import Verif.Lemmas.Same2

/-!
# Conversion of second-order values to another numeric type
-/

namespace Unc
open HessGrad SMap Expect Sums Mom

variable {R S : Type*}

/-- converted moments -/
def mapM (c : R → S) (m : Moments R) : Moments S := ⟨c m.v3, c m.v4, c m.v5, c m.v6, c m.v7, c m.v8⟩
/-- converted diagonal element -/
def mapD (c : R → S) (d : Diag R) : Diag S := ⟨c d.grad, c d.hhess, mapM c d.mom⟩
/-- converted entry -/
def mapE (c : R → S) (e : Ent R) : Ent S := ⟨e.id1, e.id2, mapD c e.d1, mapD c e.d2, c e.val⟩
/-- converted maps -/
def mapHG (c : R → S) (hg : HessGrad R) : HessGrad S := ⟨mapVal (mapD c) hg.diagmap, mapVal c hg.trimap⟩
/-- converted value -/
def mapU (c : R → S) (x : UReal2 R) : UReal2 S := ⟨mapHG c x.hg, c x.mu⟩

/-- Assigning all entries of a sorted map to an empty one copies it, whatever value a new element has. -/
theorem foldl_upsert_copy' {K V W : Type*} [LinearOrder K] (c : V → W) (d : W) (m : SMap K V) (hm : Sorted m) :
    m.foldl (fun z p => upsert z p.1 d (fun _ => c p.2)) ([] : SMap K W) = m.mapVal c := by
  have append : ∀ (z : SMap K W) (k : K) (f : W → W), (∀ j ∈ keys z, j < k) → upsert z k d f = z ++ [(k, f d)] := by
    intro z k f
    induction z with
    | nil => intro _; rfl
    | cons p t ih =>
      intro h
      obtain ⟨k', v⟩ := p
      have hk : k' < k := h k' (by simp)
      unfold upsert
      rw [if_neg (not_lt.2 hk.le), if_neg hk.ne, ih (fun j hj => h j (by simp [hj]))]
      rfl
  have gen : ∀ (z : SMap K W), (∀ j ∈ keys z, ∀ i ∈ keys m, j < i) →
      m.foldl (fun z p => upsert z p.1 d (fun _ => c p.2)) z = z ++ m.mapVal c := by
    induction m with
    | nil => intro z _; simp
    | cons p t ih =>
      intro z h
      have h' := sorted_cons.1 hm
      simp only [List.foldl_cons, mapVal_cons]
      rw [append z p.1 _ (fun j hj => h j hj p.1 (by simp)), ih h'.2]
      · simp
      · intro j hj i hi
        simp only [keys, List.map_append, List.mem_append, List.map_cons, List.map_nil, List.mem_singleton] at hj
        rcases hj with hj | hj
        · exact h j hj i (by simp [hi])
        · rw [hj]; exact h'.1 i hi
  simpa using gen [] (by simp)

theorem hconvert_eq [Zero S] (u : Moments S) (c : R → S) {hg : HessGrad R} (hv : hg.Valid) : hg.convert u c = mapHG c hg := by
  unfold HessGrad.convert mapHG
  rw [← foldl_upsert_copy' c 0 _ hv.tsorted, ← foldl_upsert_copy' (mapD c) (newDiag u) _ hv.dsorted]
  rfl

theorem uconvert_eq [Zero S] (u : Moments S) (c : R → S) {x : UReal2 R} (hv : x.hg.Valid) : x.convert u c = mapU c x := by
  unfold UReal2.convert mapU
  rw [hconvert_eq u c hv]

theorem vars_mapHG (c : R → S) (hg : HessGrad R) : (mapHG c hg).vars = hg.vars := by
  simp [HessGrad.vars, mapHG]

theorem valid_mapHG (c : R → S) {hg : HessGrad R} (h : hg.Valid) : (mapHG c hg).Valid :=
  ⟨by simpa [mapHG] using h.dsorted, by simpa [mapHG] using h.tsorted, by simpa [mapHG] using h.tri⟩

theorem ok_mapU (c : R → S) {x : UReal2 R} (h : Ok2 x) : Ok2 (mapU c x) :=
  ⟨valid_mapHG c h.valid, by simpa [mapU, mapHG, Below] using h.below⟩

/-! ## iterators -/

section
variable [Zero R] [Zero S] {c : R → S}

theorem seekDiag_map (k : VId) (dm : SMap VId (Diag R)) :
    seekDiag k (mapVal (mapD c) dm) = (seekDiag k dm).map (mapVal (mapD c)) := by
  induction dm with
  | nil => rfl
  | cons p t ih =>
    simp only [mapVal_cons, seekDiag]
    split_ifs
    · exact ih
    · rfl
    · rfl

/-- converted iterator -/
def mapIt (c : R → S) (it : HessIt R) : HessIt S := ⟨mapVal (mapD c) it.diagmin, mapVal (mapD c) it.diagmax, mapVal c it.tri, it.skip⟩

omit [Zero R] [Zero S] in
theorem length_mapVal {K V W : Type*} (f : V → W) (m : SMap K V) : (mapVal f m).length = m.length := by simp [mapVal]

theorem hincr_map (it : HessIt R) : (mapIt c it).incr = it.incr.map (mapIt c) := by
  obtain ⟨dm, dM, tri, skip⟩ := it
  rcases dm with _ | ⟨⟨i, d⟩, dm⟩
  · rfl
  rcases dM with _ | ⟨⟨j, e⟩, dM⟩
  · rfl
  simp only [mapIt, HessIt.incr, mapVal_cons, List.length_cons, length_mapVal]
  by_cases hl : dm.length + 1 = dM.length + 1
  · simp only [hl, if_true, Option.bind_some]
    rcases tri with _ | ⟨⟨k, h⟩, t⟩
    · rfl
    rcases dM with _ | ⟨⟨j', e'⟩, dM⟩
    · rfl
    simp only [mapVal_cons]
    split_ifs
    · rfl
    · rfl
    · simp only [*, if_true]
      rw [← mapVal_cons (mapD c) (j', e') dM, seekDiag_map, Option.map_map, Option.map_map]
      rfl
    · simp only [*, if_false]
      rfl
  · simp only [hl, if_false]
    rcases tri with _ | ⟨⟨k0, h0⟩, t0⟩
    · rfl
    simp only [mapVal_cons, Option.bind_some]
    rcases t0 with _ | ⟨⟨k, h⟩, t⟩
    · rfl
    simp only [mapVal_cons]
    split_ifs
    · rfl
    · rfl
    · simp only [*, if_true]
      rw [← mapVal_cons (mapD c) (j, e) dM, seekDiag_map, Option.map_map, Option.map_map]
      rfl
    · simp only [*, if_false]
      rfl

theorem hget_map (h0 : c 0 = 0) (it : HessIt R) : (mapIt c it).get = it.get.map (mapE c) := by
  obtain ⟨dm, dM, tri, skip⟩ := it
  rcases dm with _ | ⟨⟨i, d⟩, dm⟩
  · rfl
  rcases dM with _ | ⟨⟨j, e⟩, dM⟩
  · rfl
  simp only [mapIt, HessIt.get, mapVal_cons, List.length_cons, length_mapVal]
  by_cases hl : dm.length + 1 = dM.length + 1
  · simp only [hl, if_true]
    rfl
  simp only [hl, if_false]
  rcases tri with _ | ⟨⟨k, h⟩, t⟩ <;> cases skip
  · simp [mapE, h0]
  · rfl
  · by_cases hk : k = toLex (i, j) <;> simp [mapE, h0, hk]
  · rfl

theorem hloop_map (h0 : c 0 = 0) (n : ℕ) (it : HessIt R) : HessIt.loop n (mapIt c it) = (HessIt.loop n it).map (List.map (mapE c)) := by
  induction n generalizing it with
  | zero => rfl
  | succ n ih =>
    have hne : (mapIt c it).notEnd = it.notEnd := by
      obtain ⟨dm, dM, tri, skip⟩ := it
      cases dm <;> cases dM <;> rfl
    rw [HessIt.loop, HessIt.loop, hne]
    split_ifs
    · rw [hget_map h0, hincr_map]
      cases it.get with
      | none => rfl
      | some e =>
        cases it.incr with
        | none => rfl
        | some it' =>
          simp only [Option.map_some, Option.bind_some, ih]
          cases HessIt.loop n it' <;> rfl
    · rfl

theorem hessEntries_map (h0 : c 0 = 0) (hg : HessGrad R) (skip : Bool) :
    (mapHG c hg).hessEntries skip = (hg.hessEntries skip).map (List.map (mapE c)) := by
  have hf : (mapHG c hg).fuel = hg.fuel := by simp [HessGrad.fuel, mapHG, length_mapVal]
  unfold HessGrad.hessEntries
  rw [hf, ← hloop_map h0]
  rfl

/-! ## writing -/

omit [Zero R] [Zero S] in
theorem upsert_map {K V W : Type*} [LinearOrder K] (c : V → W) (m : SMap K V) (k : K) (d : V) (d' : W) (f : V → V) (g : W → W)
    (hd : g d' = c (f d)) (hf : ∀ v, g (c v) = c (f v)) : upsert (mapVal c m) k d' g = mapVal c (upsert m k d f) := by
  induction m with
  | nil => simp [upsert, hd]
  | cons p t ih =>
    simp only [mapVal_cons, upsert]
    split_ifs
    · simp [hd]
    · simp [hf]
    · simp [ih]

theorem modDiag_map (u : Moments R) (u' : Moments S) (hg : HessGrad R) (i : VId) {f : Diag R → Diag R} {g : Diag S → Diag S}
    (hd : g (newDiag u') = mapD c (f (newDiag u))) (hf : ∀ v, g (mapD c v) = mapD c (f v)) :
    (mapHG c hg).modDiag u' i g = mapHG c (hg.modDiag u i f) := by
  simp only [HessGrad.modDiag, mapHG]
  rw [upsert_map (mapD c) _ _ _ _ _ _ hd hf]

theorem modTri_map (h0 : c 0 = 0) (hg : HessGrad R) (i j : VId) {f : R → R} {g : S → S} (hf : ∀ v, g (c v) = c (f v)) :
    (mapHG c hg).modTri i j g = (hg.modTri i j f).map (mapHG c) := by
  simp only [HessGrad.modTri, mapHG]
  split_ifs
  · rw [upsert_map c _ _ _ _ _ _ (by rw [← hf, h0]) hf]
    rfl
  · rfl

theorem newDiag_map (h0 : c 0 = 0) (u : Moments R) : newDiag (mapM c u) = mapD c (newDiag u) := by
  simp [newDiag, mapD, h0]

theorem modHhess_map (h0 : c 0 = 0) (u : Moments R) (hg : HessGrad R) (i j : VId) {f : R → R} {g : S → S} (hf : ∀ v, g (c v) = c (f v)) :
    (mapHG c hg).modHhess (mapM c u) i j g = (hg.modHhess u i j f).map (mapHG c) := by
  simp only [HessGrad.modHhess]
  have hf' : ∀ v : Diag R, ({ mapD c v with hhess := g (mapD c v).hhess } : Diag S) = mapD c { v with hhess := f v.hhess } := by
    intro v; simp [mapD, hf]
  split_ifs
  · exact modTri_map h0 hg i j hf
  · rw [modDiag_map u (mapM c u) hg i (f := fun d => { d with hhess := f d.hhess }) (by rw [newDiag_map h0]; exact hf' _) hf']
    rfl

end

theorem foldlM_map {A A' B B' : Type*} (φ : A → A') (ψ : B → B') {f : A → B → Option A} {g : A' → B' → Option A'}
    (h : ∀ a b, g (φ a) (ψ b) = (f a b).map φ) (l : List B) (a : A) : (l.map ψ).foldlM g (φ a) = (l.foldlM f a).map φ := by
  induction l generalizing a with
  | nil => rfl
  | cons b t ih =>
    simp only [List.map_cons, List.foldlM_cons, h]
    cases f a b with
    | none => rfl
    | some a' => exact ih a'

/-! ## the operations -/

section
variable [Field R] [LinearOrder R] [Field S] [LinearOrder S] (c : R →+* S)

theorem eqb_map (a : R) : CCmp.eqb (c a) 0 = CCmp.eqb a 0 := by
  rw [Bool.eq_iff_iff, eqb_iff, eqb_iff, map_eq_zero]

theorem unaryStep_map (u : Moments R) (dfdx h : R) (res : HessGrad R) (e : Ent R) :
    UReal2.unaryStep (mapM c u) (c dfdx) (c h) (mapHG c res) (mapE c e) = (UReal2.unaryStep u dfdx h res e).map (mapHG c) := by
  obtain ⟨i, j, d1, d2, v⟩ := e
  simp only [UReal2.unaryStep, mapE]
  rw [modHhess_map (map_zero c) u res i j (f := fun _ => h * d1.grad * d2.grad + dfdx * v) (fun v => by simp [mapD])]
  cases res.modHhess u i j (fun _ => h * d1.grad * d2.grad + dfdx * v) with
  | none => rfl
  | some r =>
    simp only [Option.map_some]
    by_cases hij : i = j
    · simp only [hij, if_true]
      rw [← hij]
      rw [modDiag_map u (mapM c u) r i (f := fun d => { d with mom := d1.mom, grad := dfdx * d1.grad }) (by simp [mapD, newDiag]) (fun v => by simp [mapD])]
    · simp only [hij, if_false]

theorem unary_map (u : Moments R) (x : UReal2 R) (f fx fxx : R) :
    UReal2.unary (mapM c u) (mapU c x) (c f) (c fx) (c fxx) = (UReal2.unary u x f fx fxx).map (mapU c) := by
  simp only [UReal2.unary]
  have e2 : c fxx / Mom.lit 2 = c (fxx / Mom.lit 2) := by simp only [Mom.lit, map_div₀, map_natCast]
  rw [e2, eqb_map, mapU, hessEntries_map (map_zero c)]
  cases x.hg.hessEntries (CCmp.eqb (fxx / Mom.lit 2) 0) with
  | none => rfl
  | some es =>
    simp only [Option.map_some, Option.bind_some]
    have := foldlM_map (mapHG c) (mapE c) (unaryStep_map c u fx (fxx / Mom.lit 2)) es HessGrad.empty
    have he : mapHG c (HessGrad.empty : HessGrad R) = HessGrad.empty := rfl
    rw [he] at this
    rw [this, Option.map_map, Option.map_map]
    rfl

theorem binaryX_map (u : Moments R) (dfdx h : R) (res : HessGrad R) (e : Ent R) :
    UReal2.binaryX (mapM c u) (c dfdx) (c h) (mapHG c res) (mapE c e) = (UReal2.binaryX u dfdx h res e).map (mapHG c) :=
  unaryStep_map c u dfdx h res e

theorem binaryYNew_map (u : Moments R) (res : HessGrad R) (e : Ent R) :
    UReal2.binaryYNew (mapM c u) (mapHG c res) (mapE c e) = (UReal2.binaryYNew u res e).map (mapHG c) := by
  obtain ⟨i, j, d1, d2, v⟩ := e
  simp only [UReal2.binaryYNew, mapE]
  rw [modHhess_map (map_zero c) u res i j (f := fun _ => 0) (fun v => by simp [mapD])]
  cases res.modHhess u i j (fun _ => 0) with
  | none => rfl
  | some r =>
    simp only [Option.map_some]
    by_cases hij : i = j
    · simp only [hij, if_true]
      rw [← hij]
      rw [modDiag_map u (mapM c u) r i (f := fun d => { d with mom := d1.mom }) (by simp [mapD, newDiag]) (fun v => by simp [mapD])]
    · simp only [hij, if_false]

theorem binaryY_map (u : Moments R) (dfdy h : R) (res : HessGrad R) (e : Ent R) :
    UReal2.binaryY (mapM c u) (c dfdy) (c h) (mapHG c res) (mapE c e) = (UReal2.binaryY u dfdy h res e).map (mapHG c) := by
  obtain ⟨i, j, d1, d2, v⟩ := e
  simp only [UReal2.binaryY, mapE]
  rw [modHhess_map (map_zero c) u res i j (f := fun w => w + h * d1.grad * d2.grad + dfdy * v) (fun v => by simp [mapD])]
  cases res.modHhess u i j (fun w => w + h * d1.grad * d2.grad + dfdy * v) with
  | none => rfl
  | some r =>
    simp only [Option.map_some]
    by_cases hij : i = j
    · simp only [hij, if_true]
      rw [← hij]
      rw [modDiag_map u (mapM c u) r i (f := fun d => { d with grad := d.grad + dfdy * d1.grad }) (by simp [mapD, newDiag]) (fun v => by simp [mapD])]
    · simp only [hij, if_false]

theorem binaryLoop_map (u : Moments R) (fx fy hx hy : R) (ex ey : List (Ent R)) (res : HessGrad R) :
    UReal2.binaryLoop (mapM c u) (c fx) (c fy) (c hx) (c hy) (mapHG c res) (ex.map (mapE c)) (ey.map (mapE c)) =
      (UReal2.binaryLoop u fx fy hx hy res ex ey).map (mapHG c) := by
  induction hn : ex.length + ey.length using Nat.strong_induction_on generalizing ex ey res with
  | _ n ih =>
  rcases ex with _ | ⟨a, tx⟩ <;> rcases ey with _ | ⟨b, ty⟩
  · simp [UReal2.binaryLoop]
  · simp only [List.map_nil, List.map_cons]
    rw [UReal2.binaryLoop, UReal2.binaryLoop]
    by_cases h : toLex (b.id1, b.id2) < toLex (maxId, maxId)
    · rw [if_pos h, if_pos (show toLex ((mapE c b).id1, (mapE c b).id2) < toLex (maxId, maxId) from h), binaryYNew_map]
      cases UReal2.binaryYNew u res b with
      | none => rfl
      | some r =>
        simp only [Option.map_some, Option.bind_some, binaryY_map]
        cases UReal2.binaryY u fy hy r b with
        | none => rfl
        | some r' => exact ih _ (by subst hn; simp) [] ty r' rfl
    · rw [if_neg h, if_neg (show ¬ toLex ((mapE c b).id1, (mapE c b).id2) < toLex (maxId, maxId) from h)]; rfl
  · simp only [List.map_nil, List.map_cons]
    rw [UReal2.binaryLoop, UReal2.binaryLoop]
    by_cases h : toLex (a.id1, a.id2) < toLex (maxId, maxId)
    · rw [if_pos h, if_pos (show toLex ((mapE c a).id1, (mapE c a).id2) < toLex (maxId, maxId) from h), binaryX_map]
      cases UReal2.binaryX u fx hx res a with
      | none => rfl
      | some r => exact ih _ (by subst hn; simp) tx [] r rfl
    · rw [if_neg h, if_neg (show ¬ toLex ((mapE c a).id1, (mapE c a).id2) < toLex (maxId, maxId) from h)]; rfl
  · simp only [List.map_cons]
    rw [UReal2.binaryLoop, UReal2.binaryLoop]
    by_cases h : toLex (a.id1, a.id2) < toLex (b.id1, b.id2)
    · simp only [h, show toLex ((mapE c a).id1, (mapE c a).id2) < toLex ((mapE c b).id1, (mapE c b).id2) from h, if_true]
      rw [binaryX_map]
      cases UReal2.binaryX u fx hx res a with
      | none => rfl
      | some r => exact ih _ (by subst hn; simp) tx (b :: ty) r rfl
    by_cases h' : toLex (b.id1, b.id2) < toLex (a.id1, a.id2)
    · simp only [h, show ¬ toLex ((mapE c a).id1, (mapE c a).id2) < toLex ((mapE c b).id1, (mapE c b).id2) from h, h', show toLex ((mapE c b).id1, (mapE c b).id2) < toLex ((mapE c a).id1, (mapE c a).id2) from h', if_true, if_false]
      rw [binaryYNew_map]
      cases UReal2.binaryYNew u res b with
      | none => rfl
      | some r =>
        simp only [Option.map_some, Option.bind_some, binaryY_map]
        cases UReal2.binaryY u fy hy r b with
        | none => rfl
        | some r' => exact ih _ (by subst hn; simp) (a :: tx) ty r' rfl
    · simp only [h, show ¬ toLex ((mapE c a).id1, (mapE c a).id2) < toLex ((mapE c b).id1, (mapE c b).id2) from h, h', show ¬ toLex ((mapE c b).id1, (mapE c b).id2) < toLex ((mapE c a).id1, (mapE c a).id2) from h', if_false]
      rw [binaryX_map]
      cases UReal2.binaryX u fx hx res a with
      | none => rfl
      | some r =>
        simp only [Option.map_some, Option.bind_some, binaryY_map]
        cases UReal2.binaryY u fy hy r b with
        | none => rfl
        | some r' => exact ih _ (by subst hn; simp; omega) tx ty r' rfl

theorem mixedStep_map (u : Moments R) (h : R) (res : HessGrad R) (px py : VId × Diag R) :
    UReal2.mixedStep (mapM c u) (c h) (mapHG c res) (px.1, mapD c px.2) (py.1, mapD c py.2) =
      (UReal2.mixedStep u h res px py).map (mapHG c) := by
  simp only [UReal2.mixedStep]
  split_ifs
  · exact modTri_map (map_zero c) res _ _ fun v => by simp [mapD]
  · rw [modDiag_map u (mapM c u) res (min px.1 py.1)
      (f := fun d => { d with hhess := d.hhess + Mom.lit 2 * (h * px.2.grad * py.2.grad) })
      (by simp [mapD, newDiag, Mom.lit, map_ofNat]) (fun v => by simp [mapD, Mom.lit, map_ofNat])]
    rfl

theorem mixedLoop_map (u : Moments R) (h : R) (res : HessGrad R) (x y : SMap VId (Diag R)) :
    UReal2.mixedLoop (mapM c u) (c h) (mapHG c res) (mapVal (mapD c) x) (mapVal (mapD c) y) =
      (UReal2.mixedLoop u h res x y).map (mapHG c) := by
  unfold UReal2.mixedLoop
  refine foldlM_map (mapHG c) (fun p : VId × Diag R => (p.1, mapD c p.2)) (fun r px => ?_) x res
  exact foldlM_map (mapHG c) (fun p : VId × Diag R => (p.1, mapD c p.2)) (fun r' py => mixedStep_map c u h r' px py) y r

theorem binary_map (u : Moments R) (x y : UReal2 R) (f fx fy fxx fyy fxy : R) :
    UReal2.binary (mapM c u) (mapU c x) (mapU c y) (c f) (c fx) (c fy) (c fxx) (c fyy) (c fxy) =
      (UReal2.binary u x y f fx fy fxx fyy fxy).map (mapU c) := by
  simp only [UReal2.binary]
  have e2 : ∀ a : R, c a / Mom.lit 2 = c (a / Mom.lit 2) := fun a => by simp only [Mom.lit, map_div₀, map_natCast]
  rw [e2, e2, e2, eqb_map, eqb_map, eqb_map, mapU, mapU, hessEntries_map (map_zero c), hessEntries_map (map_zero c)]
  cases x.hg.hessEntries (CCmp.eqb (fxx / Mom.lit 2) 0) with
  | none => rfl
  | some ex =>
    cases y.hg.hessEntries (CCmp.eqb (fyy / Mom.lit 2) 0) with
    | none => rfl
    | some ey =>
      simp only [Option.map_some, Option.bind_some]
      have := binaryLoop_map c u fx fy (fxx / Mom.lit 2) (fyy / Mom.lit 2) ex ey HessGrad.empty
      have he : mapHG c (HessGrad.empty : HessGrad R) = HessGrad.empty := rfl
      rw [he] at this
      rw [this]
      cases UReal2.binaryLoop u fx fy (fxx / Mom.lit 2) (fyy / Mom.lit 2) HessGrad.empty ex ey with
      | none => rfl
      | some r =>
        simp only [Option.map_some, Option.bind_some]
        split_ifs
        · have := mixedLoop_map c u (fxy / Mom.lit 2) r x.hg.diagmap y.hg.diagmap
          rw [show (mapHG c x.hg).diagmap = mapVal (mapD c) x.hg.diagmap from rfl,
            show (mapHG c y.hg).diagmap = mapVal (mapD c) y.hg.diagmap from rfl, this, Option.map_map, Option.map_map]
          rfl
        · rfl

end

/-! ## moments -/

section
variable [CommRing R] [CommRing S] (c : R →+* S)

theorem G_mapHG (hg : HessGrad R) (i : VId) : (mapHG c hg).G i = c (hg.G i) := by
  simp only [HessGrad.G, mapHG, find?_mapVal]
  cases find? hg.diagmap i <;> simp [mapD]

theorem H_mapHG (hg : HessGrad R) (i j : VId) : (mapHG c hg).H i j = c (hg.H i j) := by
  simp only [HessGrad.H, mapHG, find?_mapVal]
  split_ifs
  · cases find? hg.diagmap i <;> simp [mapD]
  · rw [get_mapVal (map_zero c)]

theorem momOf_mapHG (hg : HessGrad R) (i : VId) : (mapHG c hg).momOf i = (hg.momOf i).map (mapM c) := by
  simp only [HessGrad.momOf, mapHG, find?_mapVal]
  cases find? hg.diagmap i <;> simp [mapD]

theorem mus_mapHG {hg : HessGrad R} {i : VId} (hi : i ∈ hg.vars) (k : ℕ) : mus (mapHG c hg) i k = c (mus hg i k) := by
  have h1 := momOf_dOf hi
  have h2 := momOf_dOf (a := mapHG c hg) (by rwa [vars_mapHG])
  rw [momOf_mapHG, h1] at h2
  simp only [Option.map_some, Option.some.injEq] at h2
  simp only [mus, ← h2]
  unfold mseq mapM
  split <;> simp

theorem E_map {σ : Type*} [DecidableEq σ] (mu : σ → ℕ → R) (p : MvPolynomial σ R) :
    E (fun i k => c (mu i k)) (MvPolynomial.map c p) = c (E mu p) := by
  rw [p.as_sum, map_sum, map_sum, map_sum, map_sum]
  refine Finset.sum_congr rfl fun s _ => ?_
  rw [MvPolynomial.map_monomial, E, E, wsum_monomial, wsum_monomial, map_mul, wt, wt, map_prod]

theorem poly_mapHG (hg : HessGrad R) : poly (mapHG c hg) = MvPolynomial.map c (poly hg) := by
  simp [poly, Q, vars_mapHG, G_mapHG, H_mapHG]

theorem m_mapU {x : UReal2 R} (hv : x.hg.Valid) (k : ℕ) : (mapU c x).m k = (x.m k).map c := by
  have hk : ∀ i ∈ (mapU c x).hg.vars, ∀ k, (fun i k => c (mus x.hg i k)) i k = mus (mapU c x).hg i k := fun i hi k =>
    (mus_mapHG c (by simpa [mapU, vars_mapHG] using hi) k).symm
  obtain ⟨a1, a2, a3, a4⟩ := m_table hv (mu := mus x.hg) fun _ _ _ => rfl
  obtain ⟨b1, b2, b3, b4⟩ := m_table (valid_mapHG c hv : (mapU c x).hg.Valid) hk
  have hp : poly (mapU c x).hg = MvPolynomial.map c (poly x.hg) := poly_mapHG c x.hg
  have hE := E_map c (mus x.hg)
  have key : ∀ n : ℕ, E (fun i k => c (mus x.hg i k)) ((poly (mapU c x).hg - MvPolynomial.C (E (fun i k => c (mus x.hg i k)) (poly (mapU c x).hg))) ^ n) =
      c (E (mus x.hg) ((poly x.hg - MvPolynomial.C (E (mus x.hg) (poly x.hg))) ^ n)) := by
    intro n
    rw [hp, hE, ← hE ((poly x.hg - MvPolynomial.C (E (mus x.hg) (poly x.hg))) ^ n)]
    simp only [map_pow, map_sub, MvPolynomial.map_C]
  by_cases h : 1 ≤ k ∧ k ≤ 4
  · obtain ⟨h1, h4⟩ := h
    interval_cases k
    · rw [a1, b1, hp, hE]; rfl
    · rw [a2, b2, key]; rfl
    · rw [a3, b3, key]; rfl
    · rw [a4, b4, key]; rfl
  · simp [UReal2.m, h]

theorem cov_mapU {x y : UReal2 R} (hx : x.hg.Valid) (hy : y.hg.Valid) : (mapU c x).cov (mapU c y) = (x.cov y).map c := by
  rw [cov_form hx hy (Finset.subset_union_left (s₂ := y.hg.vars)) Finset.subset_union_right,
    cov_form (S := x.hg.vars ∪ y.hg.vars) (valid_mapHG c hx : (mapU c x).hg.Valid) (valid_mapHG c hy : (mapU c y).hg.Valid)
      (by simp [mapU, vars_mapHG]) (by simp [mapU, vars_mapHG])]
  simp only [Option.map_some, Option.some.injEq]
  have hmu : ∀ i ∈ x.hg.vars ∪ y.hg.vars, ∀ k, mixMu (mapHG c x.hg) (mapHG c y.hg) i k = c (mixMu x.hg y.hg i k) := by
    intro i hi k
    unfold mixMu
    rw [vars_mapHG]
    split_ifs with h
    · exact mus_mapHG c h k
    · exact mus_mapHG c ((Finset.mem_union.1 hi).resolve_left h) k
  have hG := G_mapHG c
  have hH := H_mapHG c
  unfold covForm S2
  simp only [mapU, hG, hH, map_add, map_sum]
  refine congrArg₂ _ (Finset.sum_congr rfl fun i hi => ?_) (Finset.sum_congr rfl fun i hi => Finset.sum_congr rfl fun j hj => ?_)
  · simp [hmu i hi]
  · split_ifs <;> simp [map_ofNat]

end

end Unc
