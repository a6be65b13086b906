import Verif.Lemmas.Natural2

/-!
# Second-order values with the uncertainties of the variables changed

`vscU t x` is the value `x` when the uncertainty of each variable `i` is multiplied by `t i`: the gradient stored at `i` is multiplied by `t i`, the
element of the hessian stored at `i`, `j` by `t i * t j`.  The propagation commutes with this, whether or not the iterators see all elements.
-/

namespace Unc
open HessGrad SMap Mom

variable {R : Type*} [CommRing R] {t : VId → R}

/-- diagonal element at `i` -/
def vscD (t : VId → R) (i : VId) (d : Diag R) : Diag R := ⟨t i * d.grad, t i * t i * d.hhess, d.mom⟩
/-- element of the diagonal map -/
def vscP (t : VId → R) (p : VId × Diag R) : VId × Diag R := (p.1, vscD t p.1 p.2)
/-- element of the off-diagonal map -/
def vscQ (t : VId → R) (p : IdPair × R) : IdPair × R := (p.1, t (ofLex p.1).1 * t (ofLex p.1).2 * p.2)
/-- entry seen by the iterators -/
def vscE (t : VId → R) (e : Ent R) : Ent R := ⟨e.id1, e.id2, vscD t e.id1 e.d1, vscD t e.id2 e.d2, t e.id1 * t e.id2 * e.val⟩
/-- both maps -/
def vscHG (t : VId → R) (hg : HessGrad R) : HessGrad R := ⟨hg.diagmap.map (vscP t), hg.trimap.map (vscQ t)⟩
/-- value -/
def vscU (t : VId → R) (x : UReal2 R) : UReal2 R := ⟨vscHG t x.hg, x.mu⟩
/-- iterator -/
def vscIt (t : VId → R) (it : HessIt R) : HessIt R := ⟨it.diagmin.map (vscP t), it.diagmax.map (vscP t), it.tri.map (vscQ t), it.skip⟩

/-! ## iterators -/

theorem seekDiag_vsc (k : VId) (dm : SMap VId (Diag R)) : seekDiag k (dm.map (vscP t)) = (seekDiag k dm).map (List.map (vscP t)) := by
  induction dm with
  | nil => rfl
  | cons p q ih =>
    obtain ⟨i, d⟩ := p
    simp only [List.map_cons, vscP, seekDiag]
    split_ifs
    · exact ih
    · rfl
    · rfl

theorem hincr_vsc (it : HessIt R) : (vscIt t it).incr = it.incr.map (vscIt t) := by
  obtain ⟨dm, dM, tri, skip⟩ := it
  rcases dm with _ | ⟨⟨i, d⟩, dm⟩
  · rfl
  rcases dM with _ | ⟨⟨j, e⟩, dM⟩
  · rfl
  simp only [vscIt, HessIt.incr, List.map_cons, vscP, List.length_cons, List.length_map]
  by_cases hl : dm.length + 1 = dM.length + 1
  · simp only [hl, if_true, Option.bind_some]
    rcases tri with _ | ⟨⟨k, h⟩, q⟩
    · rfl
    rcases dM with _ | ⟨⟨j', e'⟩, dM⟩
    · rfl
    simp only [List.map_cons, vscQ, vscP]
    split_ifs
    · rfl
    · rfl
    · simp only [*, if_true]
      rw [show ((j', vscD t j' e') :: List.map (vscP t) dM) = List.map (vscP t) ((j', e') :: dM) from rfl, seekDiag_vsc, Option.map_map, Option.map_map]
      rfl
    · simp only [*, if_false]
      rfl
  · simp only [hl, if_false]
    rcases tri with _ | ⟨⟨k0, h0⟩, t0⟩
    · rfl
    simp only [List.map_cons, Option.bind_some]
    rcases t0 with _ | ⟨⟨k, h⟩, q⟩
    · rfl
    simp only [List.map_cons, vscQ]
    split_ifs
    · rfl
    · rfl
    · simp only [*, if_true]
      rw [show ((j, vscD t j e) :: List.map (vscP t) dM) = List.map (vscP t) ((j, e) :: dM) from rfl, seekDiag_vsc, Option.map_map, Option.map_map]
      rfl
    · simp only [*, if_false]
      rfl

/-- the column is at or after the row; off the diagonal, the off-diagonal iterator of an iterator which skips the missing elements is at that place -/
def AtKey (it : HessIt R) : Prop :=
  it.diagmax <:+ it.diagmin ∧ (it.skip = true → ∀ i d dm j e dM k h q, it.diagmin = (i, d) :: dm → it.diagmax = (j, e) :: dM → it.tri = (k, h) :: q →
    it.diagmin.length ≠ it.diagmax.length → k = toLex (i, j))

theorem atKey_start (hg : HessGrad R) (skip : Bool) : AtKey (HessIt.start hg.diagmap hg.trimap skip) :=
  ⟨List.suffix_refl _, fun _ _ _ _ _ _ _ _ _ _ _ _ _ h => absurd rfl h⟩

theorem seekDiag_head {k : VId} : ∀ {dm r : SMap VId (Diag R)}, seekDiag k dm = some r → ∃ d q, r = (k, d) :: q
  | [], _, h => by simp [seekDiag] at h
  | (i, d) :: q, r, h => by
    simp only [seekDiag] at h
    split_ifs at h with h1 h2
    · exact seekDiag_head h
    · subst h2; exact ⟨d, q, by simpa using h.symm⟩

theorem seekDiag_suffix {k : VId} : ∀ {dm r : SMap VId (Diag R)}, seekDiag k dm = some r → r <:+ dm
  | [], _, h => by simp [seekDiag] at h
  | (i, d) :: q, r, h => by
    simp only [seekDiag] at h
    split_ifs at h with h1 h2
    · exact (seekDiag_suffix h).trans (List.suffix_cons _ _)
    · cases h; exact List.suffix_refl _

theorem atKey_incr {it it' : HessIt R} (hk : AtKey it) (h : it.incr = some it') : AtKey it' := by
  obtain ⟨dm, dM, tri, skip⟩ := it
  have hsuf := hk.1
  rcases dm with _ | ⟨⟨i, d⟩, dm⟩
  · simp [HessIt.incr] at h
  rcases dM with _ | ⟨⟨j, e⟩, dM⟩
  · simp [HessIt.incr] at h
  simp only [HessIt.incr] at h
  obtain ⟨⟨M, T⟩, hst, h⟩ := Option.bind_eq_some_iff.1 h
  have hM : M <:+ (i, d) :: dm := by
    split_ifs at hst with hl
    · simp only [Option.some.injEq, Prod.mk.injEq] at hst
      rw [← hst.1]
      exact (List.suffix_cons _ _).trans hsuf
    · rcases tri with _ | ⟨_, _⟩
      · simp at hst
      · simp only [Option.some.injEq, Prod.mk.injEq] at hst
        rw [← hst.1]
        exact hsuf
  clear hst
  rcases T with _ | ⟨⟨k, v⟩, q⟩
  · simp only [Option.some.injEq] at h
    subst h
    exact ⟨List.suffix_refl _, fun _ _ _ _ _ _ _ _ _ _ _ _ _ hne => absurd rfl hne⟩
  rcases M with _ | ⟨⟨j', e'⟩, M⟩
  · simp at h
  simp only at h
  split_ifs at h with h1 h2 h3
  · simp only [Option.some.injEq] at h
    subst h
    exact ⟨List.suffix_refl _, fun _ _ _ _ _ _ _ _ _ _ _ _ _ hne => absurd rfl hne⟩
  · obtain ⟨r, hr, rfl⟩ := Option.map_eq_some_iff.1 h
    obtain ⟨d', q', rfl⟩ := seekDiag_head hr
    refine ⟨(seekDiag_suffix hr).trans hM, ?_⟩
    intro _ i1 d1 dm1 j1 e1 dM1 k1 v1 q1 E1 E2 E3 _
    simp only [List.cons.injEq, Prod.mk.injEq] at E1 E2 E3
    obtain ⟨⟨rfl, -⟩, -⟩ := E1
    obtain ⟨⟨rfl, -⟩, -⟩ := E2
    obtain ⟨⟨rfl, -⟩, -⟩ := E3
    have h4 : i ≤ (ofLex k).1 := by
      rcases Prod.Lex.le_iff.1 (not_lt.1 h1) with h | h
      · exact le_of_lt h
      · exact le_of_eq h.1
    have h5 : (ofLex k).1 = i := le_antisymm (not_lt.1 h2) h4
    rw [← h5]; rfl
  · simp only [Option.some.injEq] at h
    subst h
    refine ⟨hM, fun hs => ?_⟩
    simp only at hs
    exact absurd hs h3

theorem hget_vsc {it : HessIt R} (hk : AtKey it) : (vscIt t it).get = it.get.map (vscE t) := by
  obtain ⟨dm, dM, tri, skip⟩ := it
  rcases dm with _ | ⟨⟨i, d⟩, dm⟩
  · rfl
  rcases dM with _ | ⟨⟨j, e⟩, dM⟩
  · rfl
  simp only [vscIt, HessIt.get, List.map_cons, vscP, List.length_cons, List.length_map]
  by_cases hl : dm.length + 1 = dM.length + 1
  · simp only [hl, if_true, Option.map_some]
    have := hk.1.eq_of_length (by simpa using (Nat.succ_injective hl).symm)
    simp only [List.cons.injEq, Prod.mk.injEq] at this
    obtain ⟨⟨rfl, -⟩, -⟩ := this
    rfl
  · simp only [hl, if_false]
    rcases tri with _ | ⟨⟨k, h⟩, q⟩
    · cases skip <;> simp [vscE]
    · cases skip
      · simp only [List.map_cons, vscQ, Option.map_some, Bool.false_eq_true, if_false, vscE]
        by_cases hkk : k = toLex (i, j)
        · subst hkk; simp
        · simp [hkk]
      · have := hk.2 rfl i d dm j e dM k h q rfl rfl rfl (by simpa using hl)
        subst this
        simp [vscQ, vscE]

theorem hloop_vsc (n : ℕ) {it : HessIt R} (hk : AtKey it) : HessIt.loop n (vscIt t it) = (HessIt.loop n it).map (List.map (vscE t)) := by
  induction n generalizing it with
  | zero => rfl
  | succ n ih =>
    have hn : (vscIt t it).notEnd = it.notEnd := by simp [HessIt.notEnd, vscIt]
    simp only [HessIt.loop, hn]
    split_ifs
    · rw [hget_vsc hk, hincr_vsc]
      cases it.get with
      | none => rfl
      | some e =>
        cases hi : it.incr with
        | none => rfl
        | some it' =>
          simp only [Option.map_some, Option.bind_some, ih (atKey_incr hk hi)]
          cases HessIt.loop n it' <;> rfl
    · rfl

theorem hessEntries_vsc (hg : HessGrad R) (skip : Bool) : (vscHG t hg).hessEntries skip = (hg.hessEntries skip).map (List.map (vscE t)) := by
  have hf : (vscHG t hg).fuel = hg.fuel := by simp [HessGrad.fuel, vscHG]
  unfold HessGrad.hessEntries
  rw [hf, ← hloop_vsc _ (atKey_start hg skip)]
  rfl

/-! ## changing the maps -/

theorem upsert_vsc {K V : Type*} [LinearOrder K] (c : K → V → V) (m : SMap K V) (k : K) (d : V) (f g : V → V) (hd : g d = c k (f d))
    (hf : ∀ v, g (c k v) = c k (f v)) : upsert (m.map fun p => (p.1, c p.1 p.2)) k d g = (upsert m k d f).map fun p => (p.1, c p.1 p.2) := by
  induction m with
  | nil => simp [upsert, hd]
  | cons p q ih =>
    obtain ⟨k', v⟩ := p
    simp only [List.map_cons, upsert]
    split_ifs with h1 h2
    · simp [hd]
    · subst h2; simp [hf]
    · simp [ih]

theorem modDiag_vsc (u : Moments R) (res : HessGrad R) (i : VId) {f g : Diag R → Diag R} (hd : g (newDiag u) = vscD t i (f (newDiag u)))
    (hf : ∀ v, g (vscD t i v) = vscD t i (f v)) : (vscHG t res).modDiag u i g = vscHG t (res.modDiag u i f) := by
  unfold HessGrad.modDiag vscHG
  rw [show vscP t = fun p : VId × Diag R => (p.1, vscD t p.1 p.2) from rfl, upsert_vsc (vscD t) res.diagmap i _ f g hd hf]

theorem modTri_vsc (res : HessGrad R) (i j : VId) {f g : R → R} (hf : ∀ v, g (t i * t j * v) = t i * t j * f v) :
    (vscHG t res).modTri i j g = (res.modTri i j f).map (vscHG t) := by
  unfold HessGrad.modTri
  split_ifs
  · simp only [vscHG, Option.map_some]
    rw [show vscQ t = fun p : IdPair × R => (p.1, (fun k v => t (ofLex k).1 * t (ofLex k).2 * v) p.1 p.2) from rfl,
      upsert_vsc (fun k v => t (ofLex k).1 * t (ofLex k).2 * v) res.trimap (toLex (i, j)) 0 f g (by simpa using hf 0) hf]
  · rfl

theorem modHhess_vsc (u : Moments R) (res : HessGrad R) (i j : VId) {f g : R → R} (hf : ∀ v, g (t i * t j * v) = t i * t j * f v) :
    (vscHG t res).modHhess u i j g = (res.modHhess u i j f).map (vscHG t) := by
  unfold HessGrad.modHhess
  split_ifs with h
  · exact modTri_vsc res i j hf
  · rw [not_ne_iff] at h
    subst h
    rw [Option.map_some, modDiag_vsc (t := t) u res i (f := fun d => { d with hhess := f d.hhess })]
    · simpa [newDiag, vscD] using hf 0
    · intro v; simp [vscD, hf]

/-! ## propagation -/

theorem unaryStep_vsc (u : Moments R) (dfdx h : R) (res : HessGrad R) (e : Ent R) :
    UReal2.unaryStep u dfdx h (vscHG t res) (vscE t e) = (UReal2.unaryStep u dfdx h res e).map (vscHG t) := by
  obtain ⟨i, j, d1, d2, v⟩ := e
  simp only [UReal2.unaryStep, vscE]
  rw [modHhess_vsc u res i j (f := fun _ => h * d1.grad * d2.grad + dfdx * v) (fun v => by simp only [vscD]; ring)]
  cases res.modHhess u i j (fun _ => h * d1.grad * d2.grad + dfdx * v) with
  | none => rfl
  | some r =>
    simp only [Option.map_some]
    by_cases hij : i = j
    · subst hij
      simp only [if_true]
      rw [modDiag_vsc u r i (f := fun d => { d with mom := d1.mom, grad := dfdx * d1.grad }) (by simp [vscD, newDiag]; ring) (fun v => by simp [vscD]; ring)]
    · simp only [hij, if_false]

theorem binaryYNew_vsc (u : Moments R) (res : HessGrad R) (e : Ent R) :
    UReal2.binaryYNew u (vscHG t res) (vscE t e) = (UReal2.binaryYNew u res e).map (vscHG t) := by
  obtain ⟨i, j, d1, d2, v⟩ := e
  simp only [UReal2.binaryYNew, vscE]
  rw [modHhess_vsc u res i j (f := fun _ => 0) (fun v => by simp)]
  cases res.modHhess u i j (fun _ => 0) with
  | none => rfl
  | some r =>
    simp only [Option.map_some]
    by_cases hij : i = j
    · subst hij
      simp only [if_true]
      rw [modDiag_vsc u r i (f := fun d => { d with mom := d1.mom }) (by simp [vscD, newDiag]) (fun v => by simp [vscD])]
    · simp only [hij, if_false]

theorem binaryY_vsc (u : Moments R) (dfdy h : R) (res : HessGrad R) (e : Ent R) :
    UReal2.binaryY u dfdy h (vscHG t res) (vscE t e) = (UReal2.binaryY u dfdy h res e).map (vscHG t) := by
  obtain ⟨i, j, d1, d2, v⟩ := e
  simp only [UReal2.binaryY, vscE]
  rw [modHhess_vsc u res i j (f := fun w => w + h * d1.grad * d2.grad + dfdy * v) (fun v => by simp only [vscD]; ring)]
  cases res.modHhess u i j (fun w => w + h * d1.grad * d2.grad + dfdy * v) with
  | none => rfl
  | some r =>
    simp only [Option.map_some]
    by_cases hij : i = j
    · subst hij
      simp only [if_true]
      rw [modDiag_vsc u r i (f := fun d => { d with grad := d.grad + dfdy * d1.grad }) (by simp [vscD, newDiag]; ring) (fun v => by simp [vscD]; ring)]
    · simp only [hij, if_false]

theorem binaryLoop_vsc (u : Moments R) (fx fy hx hy : R) (ex ey : List (Ent R)) (res : HessGrad R) :
    UReal2.binaryLoop u fx fy hx hy (vscHG t res) (ex.map (vscE t)) (ey.map (vscE t)) = (UReal2.binaryLoop u fx fy hx hy res ex ey).map (vscHG t) := by
  have hX : ∀ res e, UReal2.binaryX u fx hx (vscHG t res) (vscE t e) = (UReal2.binaryX u fx hx res e).map (vscHG t) := unaryStep_vsc u fx hx
  have hN := binaryYNew_vsc (t := t) u
  have hY := binaryY_vsc (t := t) u fy hy
  induction hn : ex.length + ey.length using Nat.strong_induction_on generalizing ex ey res with
  | _ n ih =>
  rcases ex with _ | ⟨a, tx⟩ <;> rcases ey with _ | ⟨b, ty⟩
  · simp [UReal2.binaryLoop]
  · simp only [List.map_nil, List.map_cons]
    rw [UReal2.binaryLoop, UReal2.binaryLoop, show (vscE t b).id1 = b.id1 from rfl, show (vscE t b).id2 = b.id2 from rfl]
    split_ifs
    · rw [hN]
      cases UReal2.binaryYNew u res b with
      | none => rfl
      | some r =>
        simp only [Option.map_some, Option.bind_some, hY]
        cases UReal2.binaryY u fy hy r b with
        | none => rfl
        | some r' => exact ih _ (by subst hn; simp) [] ty r' rfl
    · rfl
  · simp only [List.map_nil, List.map_cons]
    rw [UReal2.binaryLoop, UReal2.binaryLoop, show (vscE t a).id1 = a.id1 from rfl, show (vscE t a).id2 = a.id2 from rfl]
    split_ifs
    · rw [hX]
      cases UReal2.binaryX u fx hx res a with
      | none => rfl
      | some r => exact ih _ (by subst hn; simp) tx [] r rfl
    · rfl
  · simp only [List.map_cons]
    rw [UReal2.binaryLoop, UReal2.binaryLoop, show (vscE t a).id1 = a.id1 from rfl, show (vscE t a).id2 = a.id2 from rfl,
      show (vscE t b).id1 = b.id1 from rfl, show (vscE t b).id2 = b.id2 from rfl]
    split_ifs
    · rw [hX]
      cases UReal2.binaryX u fx hx res a with
      | none => rfl
      | some r => exact ih _ (by subst hn; simp) tx (b :: ty) r rfl
    · rw [hN]
      cases UReal2.binaryYNew u res b with
      | none => rfl
      | some r =>
        simp only [Option.map_some, Option.bind_some, hY]
        cases UReal2.binaryY u fy hy r b with
        | none => rfl
        | some r' => exact ih _ (by subst hn; simp) (a :: tx) ty r' rfl
    · rw [hX]
      cases UReal2.binaryX u fx hx res a with
      | none => rfl
      | some r =>
        simp only [Option.map_some, Option.bind_some, hY]
        cases UReal2.binaryY u fy hy r b with
        | none => rfl
        | some r' => exact ih _ (by subst hn; simp; omega) tx ty r' rfl

theorem mixedStep_vsc (u : Moments R) (h : R) (res : HessGrad R) (px py : VId × Diag R) :
    UReal2.mixedStep u h (vscHG t res) (vscP t px) (vscP t py) = (UReal2.mixedStep u h res px py).map (vscHG t) := by
  obtain ⟨i, d⟩ := px
  obtain ⟨j, e⟩ := py
  change UReal2.mixedStep u h (vscHG t res) (i, vscD t i d) (j, vscD t j e) = _
  simp only [UReal2.mixedStep]
  by_cases hm : min i j ≠ max i j
  · rw [if_pos hm, if_pos hm]
    refine modTri_vsc res _ _ (f := fun v => v + h * d.grad * e.grad) fun v => ?_
    have : t (min i j) * t (max i j) = t i * t j := by
      rcases le_total i j with hij | hij
      · rw [min_eq_left hij, max_eq_right hij]
      · rw [min_eq_right hij, max_eq_left hij, mul_comm]
    rw [this]
    simp only [vscD]
    ring
  · rw [if_neg hm, if_neg hm]
    have hij : i = j := by
      rw [not_not] at hm
      rcases le_total i j with h | h
      · rw [min_eq_left h, max_eq_right h] at hm; exact hm
      · rw [min_eq_right h, max_eq_left h] at hm; exact hm.symm
    subst hij
    rw [min_self, modDiag_vsc u res i (f := fun w => { w with hhess := w.hhess + Mom.lit 2 * (h * d.grad * e.grad) })
      (by simp only [vscD, newDiag, mul_zero, zero_add, Diag.mk.injEq, true_and, and_true]; ring)
      (fun v => by simp only [vscD, Diag.mk.injEq, true_and, and_true]; ring)]
    rfl

theorem mixedLoop_vsc (u : Moments R) (h : R) (res : HessGrad R) (x y : SMap VId (Diag R)) :
    UReal2.mixedLoop u h (vscHG t res) (x.map (vscP t)) (y.map (vscP t)) = (UReal2.mixedLoop u h res x y).map (vscHG t) := by
  unfold UReal2.mixedLoop
  refine foldlM_map (vscHG t) (vscP t) (fun r px => ?_) x res
  exact foldlM_map (vscHG t) (vscP t) (fun r' py => mixedStep_vsc u h r' px py) y r

theorem unaryG_vsc (skip : Bool) (u : Moments R) (x : UReal2 R) (f fx h : R) :
    unaryG skip u (vscU t x) f fx h = (unaryG skip u x f fx h).map (vscU t) := by
  unfold unaryG
  rw [vscU, hessEntries_vsc]
  cases x.hg.hessEntries skip with
  | none => rfl
  | some es =>
    simp only [Option.map_some, Option.bind_some]
    have := foldlM_map (vscHG t) (vscE t) (unaryStep_vsc u fx h) es HessGrad.empty
    have he : vscHG t (HessGrad.empty : HessGrad R) = HessGrad.empty := rfl
    rw [he] at this
    rw [this, Option.map_map, Option.map_map]
    rfl

theorem binaryG_vsc (sx sy sxy : Bool) (u : Moments R) (x y : UReal2 R) (f fx fy hx hy hxy : R) :
    binaryG sx sy sxy u (vscU t x) (vscU t y) f fx fy hx hy hxy = (binaryG sx sy sxy u x y f fx fy hx hy hxy).map (vscU t) := by
  unfold binaryG
  rw [vscU, vscU, hessEntries_vsc, hessEntries_vsc]
  cases x.hg.hessEntries sx with
  | none => rfl
  | some ex =>
    cases y.hg.hessEntries sy with
    | none => rfl
    | some ey =>
      simp only [Option.map_some, Option.bind_some]
      have := binaryLoop_vsc (t := t) u fx fy hx hy ex ey HessGrad.empty
      have he : vscHG t (HessGrad.empty : HessGrad R) = HessGrad.empty := rfl
      rw [he] at this
      rw [this]
      cases UReal2.binaryLoop u fx fy hx hy HessGrad.empty ex ey with
      | none => rfl
      | some r =>
        simp only [Option.map_some, Option.bind_some]
        split_ifs
        · have := mixedLoop_vsc (t := t) u hxy r x.hg.diagmap y.hg.diagmap
          rw [show (vscHG t x.hg).diagmap = x.hg.diagmap.map (vscP t) from rfl,
            show (vscHG t y.hg).diagmap = y.hg.diagmap.map (vscP t) from rfl, this, Option.map_map, Option.map_map]
          rfl
        · rfl

/-! ## the derivatives -/

theorem keys_vscP (m : SMap VId (Diag R)) : keys (m.map (vscP t)) = keys m := by simp [keys, vscP, Function.comp_def]

theorem keys_vscQ (m : SMap IdPair R) : keys (m.map (vscQ t)) = keys m := by simp [keys, vscQ, Function.comp_def]

theorem find_vscP (m : SMap VId (Diag R)) (i : VId) : find? (m.map (vscP t)) i = (find? m i).map (vscD t i) := by
  induction m with
  | nil => rfl
  | cons p q ih =>
    obtain ⟨k, d⟩ := p
    simp only [List.map_cons, vscP, find?]
    split_ifs with h
    · subst h; rfl
    · exact ih

theorem find_vscQ (m : SMap IdPair R) (k : IdPair) : find? (m.map (vscQ t)) k = (find? m k).map (t (ofLex k).1 * t (ofLex k).2 * ·) := by
  induction m with
  | nil => rfl
  | cons p q ih =>
    obtain ⟨k', d⟩ := p
    simp only [List.map_cons, vscQ, find?]
    split_ifs with h
    · subst h; rfl
    · exact ih

theorem vars_vsc (hg : HessGrad R) : (vscHG t hg).vars = hg.vars := by
  rw [HessGrad.vars, HessGrad.vars, vscHG, keys_vscP]

theorem momOf_vsc (hg : HessGrad R) (i : VId) : (vscHG t hg).momOf i = hg.momOf i := by
  rw [HessGrad.momOf, HessGrad.momOf, vscHG, find_vscP]
  cases find? hg.diagmap i <;> rfl

theorem G_vsc (hg : HessGrad R) (i : VId) : (vscHG t hg).G i = t i * hg.G i := by
  rw [HessGrad.G, HessGrad.G, vscHG, find_vscP]
  cases find? hg.diagmap i <;> simp [vscD]

theorem H_vsc (hg : HessGrad R) (i j : VId) : (vscHG t hg).H i j = t i * t j * hg.H i j := by
  rw [HessGrad.H, HessGrad.H, vscHG]
  split_ifs with h
  · subst h
    rw [find_vscP]
    cases find? hg.diagmap i <;> simp [vscD]
  · have : t (min i j) * t (max i j) = t i * t j := by
      rcases le_total i j with hij | hij
      · rw [min_eq_left hij, max_eq_right hij]
      · rw [min_eq_right hij, max_eq_left hij, mul_comm]
    simp only [SMap.get, find_vscQ, ofLex_toLex, this]
    cases find? hg.trimap (toLex (min i j, max i j)) <;> simp

theorem valid_vsc {hg : HessGrad R} (h : hg.Valid) : (vscHG t hg).Valid :=
  ⟨by simpa [Sorted, vscHG, keys_vscP] using h.dsorted, by simpa [Sorted, vscHG, keys_vscQ] using h.tsorted, by simpa [vscHG, keys_vscP, keys_vscQ] using h.tri⟩

end Unc
