import Verif.Lemmas.Scale2

/-!
# The operators on scaled second-order values

Each operand has its own scale, the derivatives are scaled accordingly.
-/

namespace Unc
open HessGrad SMap Mom

variable {R : Type*}

/-- scaled iterator -/
def scH (σ : ℤ → R → R) (κ : ℤ) (it : HessIt R) : HessIt R := ⟨mapVal (scD σ κ) it.diagmin, mapVal (scD σ κ) it.diagmax, mapVal (σ κ) it.tri, it.skip⟩

section
variable [Zero R] {σ : ℤ → R → R} {κ : ℤ}

theorem hincr_sc (it : HessIt R) : (scH σ κ it).incr = it.incr.map (scH σ κ) := by
  obtain ⟨dm, dM, tri, skip⟩ := it
  rcases dm with _ | ⟨⟨i, d⟩, dm⟩
  · rfl
  rcases dM with _ | ⟨⟨j, e⟩, dM⟩
  · rfl
  simp only [scH, HessIt.incr, mapVal_cons, List.length_cons, length_mapVal]
  by_cases hl : dm.length + 1 = dM.length + 1
  · simp only [hl, if_true, Option.bind_some]
    rcases tri with _ | ⟨⟨k, h⟩, t⟩
    · rfl
    rcases dM with _ | ⟨⟨j', e'⟩, dM⟩
    · rfl
    simp only [mapVal_cons]
    split_ifs
    · rfl
    · rfl
    · simp only [*, if_true]
      rw [← mapVal_cons (scD σ κ) (j', e') dM, seekDiag_sc, Option.map_map, Option.map_map]
      rfl
    · simp only [*, if_false]
      rfl
  · simp only [hl, if_false]
    rcases tri with _ | ⟨⟨k0, h0⟩, t0⟩
    · rfl
    simp only [mapVal_cons, Option.bind_some]
    rcases t0 with _ | ⟨⟨k, h⟩, t⟩
    · rfl
    simp only [mapVal_cons]
    split_ifs
    · rfl
    · rfl
    · simp only [*, if_true]
      rw [← mapVal_cons (scD σ κ) (j, e) dM, seekDiag_sc, Option.map_map, Option.map_map]
      rfl
    · simp only [*, if_false]
      rfl

theorem hget_sc (h0 : σ κ 0 = 0) (it : HessIt R) : (scH σ κ it).get = it.get.map (scE σ κ) := by
  obtain ⟨dm, dM, tri, skip⟩ := it
  rcases dm with _ | ⟨⟨i, d⟩, dm⟩
  · rfl
  rcases dM with _ | ⟨⟨j, e⟩, dM⟩
  · rfl
  simp only [scH, HessIt.get, mapVal_cons, List.length_cons, length_mapVal]
  by_cases hl : dm.length + 1 = dM.length + 1
  · simp only [hl, if_true]
    rfl
  simp only [hl, if_false]
  rcases tri with _ | ⟨⟨k, h⟩, t⟩ <;> cases skip
  · simp [scE, h0]
  · rfl
  · by_cases hk : k = toLex (i, j) <;> simp [scE, h0, hk]
  · rfl

theorem hloop_sc (h0 : σ κ 0 = 0) (n : ℕ) (it : HessIt R) : HessIt.loop n (scH σ κ it) = (HessIt.loop n it).map (List.map (scE σ κ)) := by
  induction n generalizing it with
  | zero => rfl
  | succ n ih =>
    have hne : (scH σ κ it).notEnd = it.notEnd := by
      obtain ⟨dm, dM, tri, skip⟩ := it
      cases dm <;> cases dM <;> rfl
    rw [HessIt.loop, HessIt.loop, hne]
    split_ifs
    · rw [hget_sc h0, hincr_sc]
      cases it.get with
      | none => rfl
      | some e =>
        cases it.incr with
        | none => rfl
        | some it' =>
          simp only [Option.map_some, Option.bind_some, ih]
          cases HessIt.loop n it' <;> rfl
    · rfl

theorem hessEntries_sc (h0 : σ κ 0 = 0) (hg : HessGrad R) (skip : Bool) :
    (scHG σ κ hg).hessEntries skip = (hg.hessEntries skip).map (List.map (scE σ κ)) := by
  have hf : (scHG σ κ hg).fuel = hg.fuel := by simp [HessGrad.fuel, scHG, length_mapVal]
  unfold HessGrad.hessEntries
  rw [hf, ← hloop_sc h0]
  rfl

end

section
variable [Zero R] {σ : ℤ → R → R} {m : ℤ}

theorem modDiag_sc (u : Moments R) (hg : HessGrad R) (i : VId) {f g : Diag R → Diag R}
    (hd : g (newDiag u) = scD σ m (f (newDiag u))) (hf : ∀ v, g (scD σ m v) = scD σ m (f v)) :
    (scHG σ m hg).modDiag u i g = scHG σ m (hg.modDiag u i f) := by
  simp only [HessGrad.modDiag, scHG]
  rw [upsert_map (scD σ m) _ _ _ _ _ _ hd hf]

theorem modTri_sc (h0 : σ m 0 = 0) (hg : HessGrad R) (i j : VId) {f g : R → R} (hf : ∀ v, g (σ m v) = σ m (f v)) :
    (scHG σ m hg).modTri i j g = (hg.modTri i j f).map (scHG σ m) := by
  simp only [HessGrad.modTri, scHG]
  split_ifs
  · rw [upsert_map (σ m) _ _ _ _ _ _ (by rw [← hf, h0]) hf]
    rfl
  · rfl

theorem newDiag_sc (h0 : σ m 0 = 0) (u : Moments R) : newDiag u = scD σ m (newDiag u) := by
  simp [newDiag, scD, h0]

theorem modHhess_sc (h0 : σ m 0 = 0) (u : Moments R) (hg : HessGrad R) (i j : VId) {f g : R → R} (hf : ∀ v, g (σ m v) = σ m (f v)) :
    (scHG σ m hg).modHhess u i j g = (hg.modHhess u i j f).map (scHG σ m) := by
  simp only [HessGrad.modHhess]
  have hf' : ∀ v : Diag R, ({ scD σ m v with hhess := g (scD σ m v).hhess } : Diag R) = scD σ m { v with hhess := f v.hhess } := by
    intro v; simp [scD, hf]
  split_ifs
  · exact modTri_sc h0 hg i j hf
  · rw [modDiag_sc u hg i (f := fun d => { d with hhess := f d.hhess }) (by
      have := hf' (newDiag u)
      rwa [← newDiag_sc h0] at this) hf']
    rfl

end

section
variable [Zero R] [Add R] [Sub R] [Mul R] [NatCast R] {σ : ℤ → R → R} (hc : Scaling σ) {m k p q : ℤ}
include hc

theorem sig2 {a b : R} {n : ℤ} (h : p + k = n) : σ p a * σ k b = σ n (a * b) := by
  rw [hc.mulL, hc.mulR, hc.comp, h]

theorem unaryStep_sc (hp : p + k = m) (hq : q + k + k = m) (u : Moments R) (dfdx h : R) (res : HessGrad R) (e : Ent R) :
    UReal2.unaryStep u (σ p dfdx) (σ q h) (scHG σ m res) (scE σ k e) = (UReal2.unaryStep u dfdx h res e).map (scHG σ m) := by
  obtain ⟨i, j, d1, d2, v⟩ := e
  simp only [UReal2.unaryStep, scE]
  have e1 : ∀ a b : R, σ p a * σ k b = σ m (a * b) := fun a b => sig2 hc hp
  have e2 : ∀ a b : R, σ q a * σ k b = σ (q + k) (a * b) := fun a b => sig2 hc rfl
  have e3 : ∀ a b : R, σ (q + k) a * σ k b = σ m (a * b) := fun a b => sig2 hc hq
  rw [modHhess_sc (hc.zero m) u res i j (f := fun _ => h * d1.grad * d2.grad + dfdx * v) (fun v => by simp only [scD, e1, e2, e3, hc.add])]
  cases res.modHhess u i j (fun _ => h * d1.grad * d2.grad + dfdx * v) with
  | none => rfl
  | some r =>
    simp only [Option.map_some]
    by_cases hij : i = j
    · simp only [hij, if_true]
      rw [← hij]
      rw [modDiag_sc u r i (f := fun d => { d with mom := d1.mom, grad := dfdx * d1.grad }) (by simp only [scD, newDiag, hc.zero, e1])
        (fun v => by simp only [scD, e1])]
    · simp only [hij, if_false]

theorem binaryYNew_sc (u : Moments R) (res : HessGrad R) (e : Ent R) :
    UReal2.binaryYNew u (scHG σ m res) (scE σ k e) = (UReal2.binaryYNew u res e).map (scHG σ m) := by
  obtain ⟨i, j, d1, d2, v⟩ := e
  simp only [UReal2.binaryYNew, scE]
  rw [modHhess_sc (hc.zero m) u res i j (f := fun _ => 0) (fun v => by simp [hc.zero])]
  cases res.modHhess u i j (fun _ => 0) with
  | none => rfl
  | some r =>
    simp only [Option.map_some]
    by_cases hij : i = j
    · simp only [hij, if_true]
      rw [← hij]
      rw [modDiag_sc u r i (f := fun d => { d with mom := d1.mom }) (by simp [scD, newDiag, hc.zero]) (fun v => by simp [scD])]
    · simp only [hij, if_false]

theorem binaryY_sc (hp : p + k = m) (hq : q + k + k = m) (u : Moments R) (dfdy h : R) (res : HessGrad R) (e : Ent R) :
    UReal2.binaryY u (σ p dfdy) (σ q h) (scHG σ m res) (scE σ k e) = (UReal2.binaryY u dfdy h res e).map (scHG σ m) := by
  obtain ⟨i, j, d1, d2, v⟩ := e
  simp only [UReal2.binaryY, scE]
  have e1 : ∀ a b : R, σ p a * σ k b = σ m (a * b) := fun a b => sig2 hc hp
  have e2 : ∀ a b : R, σ q a * σ k b = σ (q + k) (a * b) := fun a b => sig2 hc rfl
  have e3 : ∀ a b : R, σ (q + k) a * σ k b = σ m (a * b) := fun a b => sig2 hc hq
  rw [modHhess_sc (hc.zero m) u res i j (f := fun w => w + h * d1.grad * d2.grad + dfdy * v) (fun v => by simp only [scD, e1, e2, e3, hc.add])]
  cases res.modHhess u i j (fun w => w + h * d1.grad * d2.grad + dfdy * v) with
  | none => rfl
  | some r =>
    simp only [Option.map_some]
    by_cases hij : i = j
    · simp only [hij, if_true]
      rw [← hij]
      have z : (0 : R) = σ m 0 := (hc.zero m).symm
      rw [modDiag_sc u r i (f := fun d => { d with grad := d.grad + dfdy * d1.grad }) (by
          simp only [scD, newDiag, e1]
          rw [← hc.add, hc.zero])
        (fun v => by simp only [scD, e1, hc.add])]
    · simp only [hij, if_false]

variable {l p' q' : ℤ}

theorem binaryLoop_sc (hp : p + k = m) (hq : q + k + k = m) (hp' : p' + l = m) (hq' : q' + l + l = m) (u : Moments R) (fx fy hx hy : R) (ex ey : List (Ent R))
    (res : HessGrad R) :
    UReal2.binaryLoop u (σ p fx) (σ p' fy) (σ q hx) (σ q' hy) (scHG σ m res) (ex.map (scE σ k)) (ey.map (scE σ l)) =
      (UReal2.binaryLoop u fx fy hx hy res ex ey).map (scHG σ m) := by
  have hX : ∀ res e, UReal2.binaryX u (σ p fx) (σ q hx) (scHG σ m res) (scE σ k e) = (UReal2.binaryX u fx hx res e).map (scHG σ m) :=
    unaryStep_sc hc hp hq u fx hx
  have hN : ∀ res e, UReal2.binaryYNew u (scHG σ m res) (scE σ l e) = (UReal2.binaryYNew u res e).map (scHG σ m) := binaryYNew_sc hc u
  have hY := binaryY_sc hc hp' hq' u fy hy
  induction hn : ex.length + ey.length using Nat.strong_induction_on generalizing ex ey res with
  | _ n ih =>
  rcases ex with _ | ⟨a, tx⟩ <;> rcases ey with _ | ⟨b, ty⟩
  · simp [UReal2.binaryLoop]
  · simp only [List.map_nil, List.map_cons]
    rw [UReal2.binaryLoop, UReal2.binaryLoop, show (scE σ l b).id1 = b.id1 from rfl, show (scE σ l b).id2 = b.id2 from rfl]
    split_ifs
    · rw [hN]
      cases UReal2.binaryYNew u res b with
      | none => rfl
      | some r =>
        simp only [Option.map_some, Option.bind_some, hY]
        cases UReal2.binaryY u fy hy r b with
        | none => rfl
        | some r' => exact ih _ (by subst hn; simp) [] ty r' rfl
    · rfl
  · simp only [List.map_nil, List.map_cons]
    rw [UReal2.binaryLoop, UReal2.binaryLoop, show (scE σ k a).id1 = a.id1 from rfl, show (scE σ k a).id2 = a.id2 from rfl]
    split_ifs
    · rw [hX]
      cases UReal2.binaryX u fx hx res a with
      | none => rfl
      | some r => exact ih _ (by subst hn; simp) tx [] r rfl
    · rfl
  · simp only [List.map_cons]
    rw [UReal2.binaryLoop, UReal2.binaryLoop, show (scE σ k a).id1 = a.id1 from rfl, show (scE σ k a).id2 = a.id2 from rfl,
      show (scE σ l b).id1 = b.id1 from rfl, show (scE σ l b).id2 = b.id2 from rfl]
    split_ifs
    · rw [hX]
      cases UReal2.binaryX u fx hx res a with
      | none => rfl
      | some r => exact ih _ (by subst hn; simp) tx (b :: ty) r rfl
    · rw [hN]
      cases UReal2.binaryYNew u res b with
      | none => rfl
      | some r =>
        simp only [Option.map_some, Option.bind_some, hY]
        cases UReal2.binaryY u fy hy r b with
        | none => rfl
        | some r' => exact ih _ (by subst hn; simp) (a :: tx) ty r' rfl
    · rw [hX]
      cases UReal2.binaryX u fx hx res a with
      | none => rfl
      | some r =>
        simp only [Option.map_some, Option.bind_some, hY]
        cases UReal2.binaryY u fy hy r b with
        | none => rfl
        | some r' => exact ih _ (by subst hn; simp; omega) tx ty r' rfl

theorem mixedStep_sc {r : ℤ} (hr : r + k + l = m) (u : Moments R) (h : R) (res : HessGrad R) (px py : VId × Diag R) :
    UReal2.mixedStep u (σ r h) (scHG σ m res) (scP σ k px) (scP σ l py) = (UReal2.mixedStep u h res px py).map (scHG σ m) := by
  obtain ⟨i, d⟩ := px
  obtain ⟨j, e⟩ := py
  change UReal2.mixedStep u (σ r h) (scHG σ m res) (i, scD σ k d) (j, scD σ l e) = _
  simp only [UReal2.mixedStep]
  have e2 : ∀ a b : R, σ r a * σ k b = σ (r + k) (a * b) := fun a b => sig2 hc rfl
  have e3 : ∀ a b : R, σ (r + k) a * σ l b = σ m (a * b) := fun a b => sig2 hc hr
  by_cases hm : min i j ≠ max i j
  · rw [if_pos hm, if_pos hm]
    exact modTri_sc (hc.zero m) res _ _ (f := fun v => v + h * d.grad * e.grad) fun v => by simp only [scD, e2, e3, hc.add]
  · rw [if_neg hm, if_neg hm, modDiag_sc u res (min i j)
      (f := fun w => { w with hhess := w.hhess + Mom.lit 2 * (h * d.grad * e.grad) })
      (by
        simp only [scD, newDiag, e2, e3, hc.mulR]
        rw [← hc.add, hc.zero]) (fun v => by simp only [scD, e2, e3, hc.mulR, hc.add])]
    rfl

theorem mixedLoop_sc {r : ℤ} (hr : r + k + l = m) (u : Moments R) (h : R) (res : HessGrad R) (x y : SMap VId (Diag R)) :
    UReal2.mixedLoop u (σ r h) (scHG σ m res) (x.map (scP σ k)) (y.map (scP σ l)) = (UReal2.mixedLoop u h res x y).map (scHG σ m) := by
  unfold UReal2.mixedLoop
  refine foldlM_map (scHG σ m) (scP σ k) (fun r px => ?_) x res
  exact foldlM_map (scHG σ m) (scP σ l) (fun r' py => mixedStep_sc hc hr u h r' px py) y r

/-- scaled value -/
def scU (σ : ℤ → R → R) (κ : ℤ) (x : UReal2 R) : UReal2 R := ⟨scHG σ κ x.hg, σ κ x.mu⟩

theorem unaryG_sc (hp : p + k = m) (hq : q + k + k = m) (skip : Bool) (u : Moments R) (x : UReal2 R) (f fx h : R) :
    unaryG skip u (scU σ k x) (σ m f) (σ p fx) (σ q h) = (unaryG skip u x f fx h).map (scU σ m) := by
  unfold unaryG
  rw [scU, hessEntries_sc (hc.zero k)]
  cases x.hg.hessEntries skip with
  | none => rfl
  | some es =>
    simp only [Option.map_some, Option.bind_some]
    have := foldlM_map (scHG σ m) (scE σ k) (unaryStep_sc hc hp hq u fx h) es HessGrad.empty
    have he : scHG σ m (HessGrad.empty : HessGrad R) = HessGrad.empty := rfl
    rw [he] at this
    rw [this, Option.map_map, Option.map_map]
    rfl

theorem binaryG_sc {r : ℤ} (hp : p + k = m) (hq : q + k + k = m) (hp' : p' + l = m) (hq' : q' + l + l = m) (hr : r + k + l = m) (sx sy sxy : Bool)
    (u : Moments R) (x y : UReal2 R) (f fx fy hx hy hxy : R) :
    binaryG sx sy sxy u (scU σ k x) (scU σ l y) (σ m f) (σ p fx) (σ p' fy) (σ q hx) (σ q' hy) (σ r hxy) =
      (binaryG sx sy sxy u x y f fx fy hx hy hxy).map (scU σ m) := by
  unfold binaryG
  rw [scU, scU, hessEntries_sc (hc.zero k), hessEntries_sc (hc.zero l)]
  cases x.hg.hessEntries sx with
  | none => rfl
  | some ex =>
    cases y.hg.hessEntries sy with
    | none => rfl
    | some ey =>
      simp only [Option.map_some, Option.bind_some]
      have := binaryLoop_sc hc hp hq hp' hq' u fx fy hx hy ex ey HessGrad.empty
      have he : scHG σ m (HessGrad.empty : HessGrad R) = HessGrad.empty := rfl
      rw [he] at this
      rw [this]
      cases UReal2.binaryLoop u fx fy hx hy HessGrad.empty ex ey with
      | none => rfl
      | some res =>
        simp only [Option.map_some, Option.bind_some]
        split_ifs
        · have := mixedLoop_sc hc hr u hxy res x.hg.diagmap y.hg.diagmap
          rw [show (scHG σ k x.hg).diagmap = x.hg.diagmap.map (scP σ k) from rfl,
            show (scHG σ l y.hg).diagmap = y.hg.diagmap.map (scP σ l) from rfl, this, Option.map_map, Option.map_map]
          rfl
        · rfl

end

end Unc
