import Verif.Lemmas.Shift
import Verif.Model.UReal2

/-!
# Order preserving changes of the identifiers: second order
-/

namespace Unc
open SMap HessGrad

variable {R : Type*} {ρ : ℤ → ℤ}

/-- a pair of identifiers with other identifiers -/
def shiftP (ρ : ℤ → ℤ) (k : IdPair) : IdPair := toLex (ρ (ofLex k).1, ρ (ofLex k).2)

theorem shiftP_toLex (i j : ℤ) : (toLex (ρ i, ρ j) : IdPair) = shiftP ρ (toLex (i, j)) := rfl

theorem Shift.pmono (h : Shift ρ) : StrictMono (shiftP ρ) := by
  intro a b hab
  rw [Prod.Lex.lt_iff] at hab ⊢
  rcases hab with h1 | ⟨h1, h2⟩
  · exact Or.inl (h.mono h1)
  · exact Or.inr ⟨congrArg ρ h1, h.mono h2⟩

theorem Shift.plt (h : Shift ρ) (a b : IdPair) : shiftP ρ a < shiftP ρ b ↔ a < b := h.pmono.lt_iff_lt
theorem Shift.peq (h : Shift ρ) (a b : IdPair) : shiftP ρ a = shiftP ρ b ↔ a = b := h.pmono.injective.eq_iff

/-- the entry with other identifiers -/
def Ent.shift (ρ : ℤ → ℤ) (e : Ent R) : Ent R := ⟨ρ e.id1, ρ e.id2, e.d1, e.d2, e.val⟩

theorem seekDiag_shift (h : Shift ρ) (k : ℤ) (l : SMap VId (Diag R)) :
    seekDiag (ρ k) (mapKey ρ l) = (seekDiag k l).map (mapKey ρ) := by
  induction l with
  | nil => rfl
  | cons p t ih =>
    obtain ⟨i, d⟩ := p
    simp only [mapKey_cons, seekDiag, h.lt, h.eq, ih]
    split_ifs <;> simp

namespace TriIt

/-- the iterator over the maps with other identifiers -/
def shift (ρ : ℤ → ℤ) (it : TriIt R) : TriIt R := ⟨mapKey ρ it.diagmin, mapKey ρ it.diagmax, mapKey (shiftP ρ) it.tri, it.skip⟩

theorem updateDiag_shift (h : Shift ρ) (it : TriIt R) : (it.shift ρ).updateDiag = it.updateDiag.map (shift ρ) := by
  obtain ⟨dm, dM, tri, skip⟩ := it
  cases tri with
  | nil => rfl
  | cons p t =>
    obtain ⟨k, v⟩ := p
    simp only [updateDiag, shift, mapKey_cons]
    rw [show (ofLex (shiftP ρ k)).1 = ρ (ofLex k).1 from rfl, show (ofLex (shiftP ρ k)).2 = ρ (ofLex k).2 from rfl, seekDiag_shift h]
    cases h1 : seekDiag (ofLex k).1 dm with
    | none => rfl
    | some l =>
      simp only [Option.map_some, Option.bind_some, seekDiag_shift h, Option.map_map]
      cases seekDiag (ofLex k).2 l <;> rfl

theorem start_shift (h : Shift ρ) (d : SMap VId (Diag R)) (t : SMap IdPair R) (skip : Bool) :
    start (mapKey ρ d) (mapKey (shiftP ρ) t) skip = (start d t skip).map (shift ρ) := by
  unfold start
  cases skip with
  | true => exact updateDiag_shift h ⟨d, d, t, true⟩
  | false =>
    rcases d with _ | ⟨⟨i, a⟩, _ | ⟨⟨j, b⟩, d⟩⟩ <;> rfl

theorem dropWhile_shift (h : Shift ρ) (k : IdPair) (t : SMap IdPair R) :
    (mapKey (shiftP ρ) t).dropWhile (fun p => decide (p.1 < shiftP ρ k)) = mapKey (shiftP ρ) (t.dropWhile fun p => decide (p.1 < k)) := by
  induction t with
  | nil => rfl
  | cons p t ih =>
    obtain ⟨k', v⟩ := p
    by_cases hk : k' < k
    · rw [mapKey_cons, List.dropWhile_cons_of_pos (by simpa [h.plt] using hk), List.dropWhile_cons_of_pos (by simpa using hk), ih]
    · rw [mapKey_cons, List.dropWhile_cons_of_neg (by simpa [h.plt] using hk), List.dropWhile_cons_of_neg (by simpa using hk), mapKey_cons]

theorem incr_shift (h : Shift ρ) (it : TriIt R) : (it.shift ρ).incr = it.incr.map (shift ρ) := by
  obtain ⟨dm, dM, tri, skip⟩ := it
  cases skip with
  | true =>
    cases tri with
    | nil => rfl
    | cons p t => exact updateDiag_shift h ⟨dm, dM, t, true⟩
  | false =>
    rcases dM with _ | ⟨⟨j, b⟩, dM⟩
    · rcases dm with _ | ⟨⟨i, a⟩, dm⟩ <;> rfl
    rcases dm with _ | ⟨⟨i, a⟩, dm⟩
    · rfl
    rcases dM with _ | ⟨⟨j', b'⟩, dM⟩
    · rcases dm with _ | ⟨⟨i', a'⟩, _ | ⟨⟨i2, a2⟩, dm⟩⟩
      · rfl
      · rfl
      · exact congrArg (fun t => some (⟨(ρ i', a') :: (ρ i2, a2) :: mapKey ρ dm, (ρ i2, a2) :: mapKey ρ dm, t, false⟩ : TriIt R))
          (dropWhile_shift h (toLex (i', i2)) tri)
    · exact congrArg (fun t => some (⟨(ρ i, a) :: mapKey ρ dm, (ρ j', b') :: mapKey ρ dM, t, false⟩ : TriIt R))
        (dropWhile_shift h (toLex (i, j')) tri)

theorem notEnd_shift (it : TriIt R) : (it.shift ρ).notEnd = it.notEnd := by simp [notEnd, shift]

theorem get_shift [Zero R] (h : Shift ρ) (it : TriIt R) : (it.shift ρ).get = it.get.map (Ent.shift ρ) := by
  obtain ⟨dm, dM, tri, skip⟩ := it
  rcases dm with _ | ⟨⟨i, a⟩, dm⟩
  · rfl
  rcases dM with _ | ⟨⟨j, b⟩, dM⟩
  · rfl
  cases skip with
  | true => rcases tri with _ | ⟨⟨k, v⟩, t⟩ <;> rfl
  | false =>
    rcases tri with _ | ⟨⟨k, v⟩, t⟩
    · rfl
    · simp only [get, shift, mapKey_cons, Bool.false_eq_true, if_false, shiftP_toLex, h.peq, Option.map_some]
      rfl

theorem loop_shift [Zero R] (h : Shift ρ) (n : ℕ) (it : TriIt R) : loop n (it.shift ρ) = (loop n it).map (List.map (Ent.shift ρ)) := by
  induction n generalizing it with
  | zero => rfl
  | succ n ih =>
    simp only [loop, notEnd_shift, get_shift h, incr_shift h]
    split_ifs
    · cases it.get with
      | none => rfl
      | some e =>
        cases it.incr with
        | none => rfl
        | some it' =>
          simp only [Option.map_some, Option.bind_some, ih]
          cases loop n it' <;> rfl
    · rfl

end TriIt

namespace HessIt

/-- the iterator over the maps with other identifiers -/
def shift (ρ : ℤ → ℤ) (it : HessIt R) : HessIt R := ⟨mapKey ρ it.diagmin, mapKey ρ it.diagmax, mapKey (shiftP ρ) it.tri, it.skip⟩

theorem notEnd_shift (it : HessIt R) : (it.shift ρ).notEnd = it.notEnd := by simp [notEnd, shift]

theorem get_shift [Zero R] (h : Shift ρ) (it : HessIt R) : (it.shift ρ).get = it.get.map (Ent.shift ρ) := by
  obtain ⟨dm, dM, tri, skip⟩ := it
  rcases dm with _ | ⟨⟨i, a⟩, dm⟩
  · rfl
  rcases dM with _ | ⟨⟨j, b⟩, dM⟩
  · rfl
  simp only [get, shift, mapKey_cons, List.length_cons, length_mapKey]
  by_cases hl : dm.length + 1 = dM.length + 1
  · simp only [hl, if_true]
    rfl
  · simp only [hl, if_false]
    rcases tri with _ | ⟨⟨k, v⟩, t⟩
    · cases skip <;> rfl
    · cases skip
      · simp only [mapKey_cons, Bool.false_eq_true, if_false, shiftP_toLex, h.peq, Option.map_some]
        rfl
      · rfl

theorem incr_shift (h : Shift ρ) (it : HessIt R) : (it.shift ρ).incr = it.incr.map (shift ρ) := by
  obtain ⟨dm, dM, tri, skip⟩ := it
  rcases dm with _ | ⟨⟨i, a⟩, dm⟩
  · rfl
  rcases dM with _ | ⟨⟨j, b⟩, dM⟩
  · rfl
  have tail : ∀ (st : SMap VId (Diag R)) (t : SMap IdPair R),
      (match mapKey (shiftP ρ) t, mapKey ρ st with
        | [], _ => some (⟨mapKey ρ dm, mapKey ρ dm, [], skip⟩ : HessIt R)
        | _ :: _, [] => none
        | (k, v) :: t, (j, e) :: dM' =>
          if k < toLex (ρ i, j) then none
          else if (ofLex k).1 > ρ i then some ⟨mapKey ρ dm, mapKey ρ dm, (k, v) :: t, skip⟩
          else if skip then
            (seekDiag (ofLex k).2 ((j, e) :: dM')).map fun dM'' => ⟨(ρ i, a) :: mapKey ρ dm, dM'', (k, v) :: t, skip⟩
          else some ⟨(ρ i, a) :: mapKey ρ dm, (j, e) :: dM', (k, v) :: t, skip⟩) =
      (match t, st with
        | [], _ => some (⟨dm, dm, [], skip⟩ : HessIt R)
        | _ :: _, [] => none
        | (k, v) :: t, (j, e) :: dM' =>
          if k < toLex (i, j) then none
          else if (ofLex k).1 > i then some ⟨dm, dm, (k, v) :: t, skip⟩
          else if skip then
            (seekDiag (ofLex k).2 ((j, e) :: dM')).map fun dM'' => ⟨(i, a) :: dm, dM'', (k, v) :: t, skip⟩
          else some ⟨(i, a) :: dm, (j, e) :: dM', (k, v) :: t, skip⟩).map (shift ρ) := by
    intro st t
    rcases t with _ | ⟨⟨k, v⟩, t⟩
    · rfl
    rcases st with _ | ⟨⟨j', e⟩, st⟩
    · rfl
    have hs := seekDiag_shift h (ofLex k).2 ((j', e) :: st)
    simp only [mapKey_cons] at hs ⊢
    rw [shiftP_toLex, show (ofLex (shiftP ρ k)).1 = ρ (ofLex k).1 from rfl, show (ofLex (shiftP ρ k)).2 = ρ (ofLex k).2 from rfl, hs]
    simp only [h.plt, gt_iff_lt, h.lt]
    split_ifs
    · rfl
    · rfl
    · cases seekDiag (ofLex k).2 ((j', e) :: st) <;> rfl
    · rfl
  simp only [incr, shift, mapKey_cons, List.length_cons, length_mapKey]
  by_cases hl : dm.length + 1 = dM.length + 1
  · simp only [hl, if_true, Option.bind_some]
    exact tail dM tri
  · simp only [hl, if_false]
    rcases tri with _ | ⟨⟨k, v⟩, t⟩
    · rfl
    · simp only [mapKey_cons, Option.bind_some]
      exact tail ((j, b) :: dM) t

theorem loop_shift [Zero R] (h : Shift ρ) (n : ℕ) (it : HessIt R) : loop n (it.shift ρ) = (loop n it).map (List.map (Ent.shift ρ)) := by
  induction n generalizing it with
  | zero => rfl
  | succ n ih =>
    simp only [loop, notEnd_shift, get_shift h, incr_shift h]
    split_ifs
    · cases it.get with
      | none => rfl
      | some e =>
        cases it.incr with
        | none => rfl
        | some it' =>
          simp only [Option.map_some, Option.bind_some, ih]
          cases loop n it' <;> rfl
    · rfl

end HessIt

namespace HessGrad

/-- derivatives with other identifiers -/
def shift (ρ : ℤ → ℤ) (hg : HessGrad R) : HessGrad R := ⟨mapKey ρ hg.diagmap, mapKey (shiftP ρ) hg.trimap⟩

theorem fuel_shift (hg : HessGrad R) : (hg.shift ρ).fuel = hg.fuel := by simp [fuel, shift]

theorem triEntries_shift [Zero R] (h : Shift ρ) (hg : HessGrad R) (skip : Bool) :
    (hg.shift ρ).triEntries skip = (hg.triEntries skip).map (List.map (Ent.shift ρ)) := by
  unfold triEntries
  rw [fuel_shift]
  simp only [shift, TriIt.start_shift h]
  cases TriIt.start hg.diagmap hg.trimap skip with
  | none => rfl
  | some it => exact TriIt.loop_shift h _ it

theorem hessEntries_shift [Zero R] (h : Shift ρ) (hg : HessGrad R) (skip : Bool) :
    (hg.shift ρ).hessEntries skip = (hg.hessEntries skip).map (List.map (Ent.shift ρ)) := by
  unfold hessEntries
  rw [fuel_shift]
  exact HessIt.loop_shift h _ (HessIt.start hg.diagmap hg.trimap skip)

theorem min_shift (h : Shift ρ) (i j : ℤ) : min (ρ i) (ρ j) = ρ (min i j) := (h.mono.monotone.map_min).symm
theorem max_shift (h : Shift ρ) (i j : ℤ) : max (ρ i) (ρ j) = ρ (max i j) := (h.mono.monotone.map_max).symm

theorem diagGet_shift [Zero R] (h : Shift ρ) (u : Moments R) (hg : HessGrad R) (i : ℤ) : (hg.shift ρ).diagGet u (ρ i) = hg.diagGet u i := by
  simp only [diagGet, shift, find?_mapKey h.mono.injective]

theorem triFind_shift (h : Shift ρ) (hg : HessGrad R) (i j : ℤ) : (hg.shift ρ).triFind (ρ i) (ρ j) = hg.triFind i j := by
  simp only [triFind, shift, min_shift h, max_shift h, shiftP_toLex, find?_mapKey h.pmono.injective]

theorem triGet_shift [Zero R] (h : Shift ρ) (hg : HessGrad R) (i j : ℤ) : (hg.shift ρ).triGet (ρ i) (ρ j) = hg.triGet i j := by
  simp only [triGet, shift, h.lt, shiftP_toLex, find?_mapKey h.pmono.injective]

theorem hhessGet_shift [Zero R] (h : Shift ρ) (u : Moments R) (hg : HessGrad R) (i j : ℤ) :
    (hg.shift ρ).hhessGet u (ρ i) (ρ j) = hg.hhessGet u i j := by
  simp only [hhessGet, ne_eq, h.eq, min_shift h, max_shift h, triGet_shift h, diagGet_shift h]

theorem modDiag_shift [Zero R] (h : Shift ρ) (u : Moments R) (hg : HessGrad R) (i : ℤ) (f : Diag R → Diag R) :
    (hg.shift ρ).modDiag u (ρ i) f = (hg.modDiag u i f).shift ρ := by
  simp only [modDiag, shift, upsert_mapKey h.mono]

theorem modTri_shift [Zero R] (h : Shift ρ) (hg : HessGrad R) (i j : ℤ) (f : R → R) :
    (hg.shift ρ).modTri (ρ i) (ρ j) f = (hg.modTri i j f).map (shift ρ) := by
  simp only [modTri, shift, h.lt, shiftP_toLex, upsert_mapKey h.pmono]
  split_ifs <;> rfl

theorem modHhess_shift [Zero R] (h : Shift ρ) (u : Moments R) (hg : HessGrad R) (i j : ℤ) (f : R → R) :
    (hg.shift ρ).modHhess u (ρ i) (ρ j) f = (hg.modHhess u i j f).map (shift ρ) := by
  simp only [modHhess, ne_eq, h.eq, modTri_shift h, modDiag_shift h]
  split_ifs <;> rfl

theorem shift_congr {ρ' : ℤ → ℤ} {hg : HessGrad R} (hv : hg.Valid) (h' : ∀ i ∈ keys hg.diagmap, ρ i = ρ' i) : hg.shift ρ = hg.shift ρ' := by
  have h2 : ∀ k ∈ keys hg.trimap, shiftP ρ k = shiftP ρ' k := by
    intro k hk
    obtain ⟨-, h1, h2⟩ := hv.triOf k hk
    simp only [shiftP, h' _ h1, h' _ h2]
  simp only [shift, mapKey_congr _ h', mapKey_congr _ h2]

end HessGrad

/-! ## moments -/

namespace Mom
variable [Zero R] [Add R] [Mul R] [NatCast R]

theorem forTails_map {α β γ : Type*} (F : γ → β → List β → γ) (G : γ → α → List α → γ) (g : α → β)
    (hFG : ∀ m a t, F m (g a) (t.map g) = G m a t) (m : γ) (l : List α) : forTails F m (l.map g) = forTails G m l := by
  induction l generalizing m with
  | nil => rfl
  | cons a t ih => simp only [List.map_cons, forTails, hFG, ih]

theorem m1_shift (hg : HessGrad R) : m1 (hg.shift ρ) = m1 hg := by
  simp only [m1, HessGrad.shift, foldl_mapKey]

theorem m2_shift (h : Shift ρ) (hg : HessGrad R) : m2 (hg.shift ρ) = m2 hg := by
  have e : ∀ (m : R) (e : Ent R), m2B m (e.shift ρ) = m2B m e := fun _ _ => rfl
  simp only [m2, triEntries_shift h, Option.map_map, Function.comp_def, List.foldl_map, e]
  simp only [HessGrad.shift, foldl_mapKey]

theorem m3F_shift (h : Shift ρ) (m : R) (i : ℤ) (d : Diag R) (e : Ent R) : m3F m (ρ i, d) (e.shift ρ) = m3F m (i, d) e := by
  simp only [m3F, Ent.shift, h.eq]

theorem m3E_shift (h : Shift ρ) (hg : HessGrad R) (m : R) (e e' : Ent R) : m3E (hg.shift ρ) m (e.shift ρ) (e'.shift ρ) = m3E hg m e e' := by
  simp only [m3E, Ent.shift, triGet_shift h]

theorem m3_shift (h : Shift ρ) (hg : HessGrad R) : m3 (hg.shift ρ) = m3 hg := by
  have hd : ∀ (m : R) (e : Ent R), m3D m (e.shift ρ) = m3D m e := fun _ _ => rfl
  unfold m3
  rw [triEntries_shift h]
  cases hg.triEntries true with
  | none => rfl
  | some es =>
    simp only [Option.map_some, Option.bind_some]
    rw [show (hg.shift ρ).diagmap = hg.diagmap.map fun p => (ρ p.1, p.2) from rfl]
    rw [forTails_map _ (fun m it rest => List.foldl (fun m it2 => m3F m it it2) (forTails (fun m it2 rest2 =>
      List.foldl (fun m it3 => m3C m it.2 it2.2 it3.2) (m3B m it.2 it2.2) rest2) (m3A m it.2) rest) es) _ ?_]
    · refine forTails_map _ _ _ (fun m a t => ?_) _ es
      congr 1
      funext m
      rw [hd]
      have ht : (t.map (Ent.shift ρ)).takeWhile (fun it2 => decide (it2.id1 = (a.shift ρ).id1)) =
          (t.takeWhile fun it2 => decide (it2.id1 = a.id1)).map (Ent.shift ρ) := by
        rw [List.takeWhile_map]
        congr 2
        funext e
        simp only [Function.comp, Ent.shift, h.eq]
      rw [ht, List.foldlM_map]
      simp only [m3E_shift h]
    · intro m a t
      simp only [List.foldl_map, m3F_shift h]
      congr 1
      exact forTails_map _ _ _ (fun m a t => by simp only [List.foldl_map]) _ t

theorem m4F_shift (h : Shift ρ) (m : R) (i : ℤ) (d : Diag R) (e : Ent R) : m4F m (ρ i, d) (e.shift ρ) = m4F m (i, d) e := by
  simp only [m4F, Ent.shift, h.eq]

theorem m4J_shift (h : Shift ρ) (m : R) (e : Ent R) (k : ℤ) (a b : R) (i : ℤ) (d : Diag R) :
    m4J m (e.shift ρ) (ρ k) a b (ρ i, d) = m4J m e k a b (i, d) := by
  simp only [m4J, Ent.shift, h.eq]

theorem m4L_shift (h : Shift ρ) (m : R) (e : Ent R) (d : Diag R) (i : ℤ) (d' : Diag R) : m4L m (e.shift ρ) d (ρ i, d') = m4L m e d (i, d') := by
  simp only [m4L, Ent.shift, h.eq]

theorem m4I_shift (h : Shift ρ) (hg : HessGrad R) (m : R) (e e' : Ent R) : m4I (hg.shift ρ) m (e.shift ρ) (e'.shift ρ) = m4I hg m e e' := by
  simp only [m4I, Ent.shift, h.eq, triFind_shift h]

theorem m4G_shift (h : Shift ρ) (hg : HessGrad R) (m : R) (e : Ent R) (i : ℤ) (d : Diag R) (rest : SMap VId (Diag R)) :
    m4G (hg.shift ρ) m (e.shift ρ) (ρ i, d) (mapKey ρ rest) = m4G hg m e (i, d) rest := by
  have e2 : ∀ m a, m4G2 m (e.shift ρ) d a = m4G2 m e d a := fun _ _ => rfl
  have e3 : ∀ m a, m4G3 m (e.shift ρ) d a = m4G3 m e d a := fun _ _ => rfl
  have eH : ∀ (m a b : R), m4H m (e.shift ρ) a b = m4H m e a b := fun _ _ _ => rfl
  have f1 : (hg.shift ρ).triFind (e.shift ρ).id1 (ρ i) = hg.triFind e.id1 i := triFind_shift h hg _ _
  have f2 : (hg.shift ρ).triFind (e.shift ρ).id2 (ρ i) = hg.triFind e.id2 i := triFind_shift h hg _ _
  have g1 : (ρ i = (e.shift ρ).id1) = (i = e.id1) := by rw [Ent.shift]; exact propext (h.eq _ _)
  have g2 : (ρ i = (e.shift ρ).id2) = (i = e.id2) := by rw [Ent.shift]; exact propext (h.eq _ _)
  unfold m4G
  simp only [f1, f2, g1, g2, e2, e3, eH, foldl_mapKey, m4L_shift h]
  simp only [HessGrad.shift, foldl_mapKey, m4J_shift h]

theorem m4_shift (h : Shift ρ) (hg : HessGrad R) : m4 (hg.shift ρ) = m4 hg := by
  have hE : ∀ (m : R) (e : Ent R), m4E m (e.shift ρ) = m4E m e := fun _ _ => rfl
  unfold m4
  rw [triEntries_shift h, Option.map_map]
  congr 1
  funext es
  simp only [Function.comp, List.foldl_map, hE, m4I_shift h]
  have hd : (hg.shift ρ).diagmap = hg.diagmap.map fun p => (ρ p.1, p.2) := rfl
  rw [hd]
  simp only [List.foldl_map, m4F_shift h]
  have k1 : ∀ (it : Ent R) (m : R), forTails (fun m it2 rest => m4G (hg.shift ρ) m (it.shift ρ) it2 rest) m (hg.diagmap.map fun p => (ρ p.1, p.2)) =
      forTails (fun m it2 rest => m4G hg m it it2 rest) m hg.diagmap :=
    fun it m => forTails_map _ _ _ (fun m a t => m4G_shift h hg m it a.1 a.2 t) m _
  simp only [k1]
  congr 1
  congr 1
  funext m it
  congr 1
  refine forTails_map _ _ _ (fun m a t => ?_) _ _
  simp only [h.eq]
  split_ifs
  · rfl
  · refine forTails_map _ _ _ (fun m a t => ?_) _ _
    simp only [h.eq, List.foldl_map]

theorem compute_shift (h : Shift ρ) (hg : HessGrad R) (n : ℕ) : compute (hg.shift ρ) n = compute hg n := by
  unfold compute
  split
  · rw [m1_shift]
  · exact m2_shift h hg
  · exact m3_shift h hg
  · exact m4_shift h hg
  · rfl

theorem c2A_shift (h : Shift ρ) (m : R) (a b : SMap VId (Diag R)) : c2A m (mapKey ρ a) (mapKey ρ b) = c2A m a b := by
  induction hn : a.length + b.length using Nat.strong_induction_on generalizing m a b with
  | _ n ih =>
    rcases a with _ | ⟨⟨i, d⟩, ta⟩
    · simp [c2A]
    rcases b with _ | ⟨⟨j, e⟩, tb⟩
    · simp [c2A]
    have r1 := fun m => ih _ (by simp at hn ⊢; omega) m ta tb rfl
    have r2 := fun m => ih _ (by simp at hn ⊢; omega) m ta ((j, e) :: tb) rfl
    have r3 := fun m => ih _ (by simp at hn ⊢; omega) m ((i, d) :: ta) tb rfl
    simp only [mapKey_cons] at r1 r2 r3 ⊢
    rw [c2A, c2A]
    simp only [h.lt, r1, r2, r3]

theorem c2B_shift (h : Shift ρ) (m : R) (a b : List (Ent R)) : c2B m (a.map (Ent.shift ρ)) (b.map (Ent.shift ρ)) = c2B m a b := by
  induction hn : a.length + b.length using Nat.strong_induction_on generalizing m a b with
  | _ n ih =>
    rcases a with _ | ⟨d, ta⟩
    · simp [c2B]
    rcases b with _ | ⟨e, tb⟩
    · simp [c2B]
    have r1 := fun m => ih _ (by simp at hn ⊢; omega) m ta tb rfl
    have r2 := fun m => ih _ (by simp at hn ⊢; omega) m ta (e :: tb) rfl
    have r3 := fun m => ih _ (by simp at hn ⊢; omega) m (d :: ta) tb rfl
    simp only [List.map_cons] at r1 r2 r3 ⊢
    rw [c2B, c2B]
    simp only [r1, r2, r3]
    simp only [Ent.shift, h.lt, shiftP_toLex, h.plt]

theorem c2_shift (h : Shift ρ) (a b : HessGrad R) : c2 (a.shift ρ) (b.shift ρ) = c2 a b := by
  have e : ∀ m, c2C m (a.shift ρ).diagmap (b.shift ρ).diagmap = c2C m a.diagmap b.diagmap := by
    intro m
    simp only [c2C, HessGrad.shift, foldl_mapKey, ne_eq, h.eq]
  unfold c2
  rw [triEntries_shift h, triEntries_shift h]
  cases a.triEntries true with
  | none => rfl
  | some ea =>
    cases b.triEntries true with
    | none => rfl
    | some eb =>
      simp only [Option.map_some, Option.bind_some, c2B_shift h, e]
      simp only [HessGrad.shift, c2A_shift h]

end Mom

/-! ## values -/

namespace UReal2

/-- the value with other identifiers -/
def shift (ρ : ℤ → ℤ) (x : UReal2 R) : UReal2 R := ⟨x.hg.shift ρ, x.mu⟩

section moments
variable [Zero R] [Add R] [Sub R] [Mul R] [NatCast R]

theorem momArray_shift (h : Shift ρ) (hg : HessGrad R) (n : ℕ) : momArray (hg.shift ρ) n = momArray hg n := by
  induction n with
  | zero => rfl
  | succ n ih =>
    rw [momArray, momArray, ih]
    congr 1
    funext l
    unfold updateMom
    simp only [Mom.compute_shift h]

theorem m_shift (h : Shift ρ) (x : UReal2 R) (n : ℕ) : (x.shift ρ).m n = x.m n := by
  simp only [m, shift, momArray_shift h]

theorem cov_shift (h : Shift ρ) (x y : UReal2 R) : cov (x.shift ρ) (y.shift ρ) = cov x y := by
  simp only [cov, m_shift h]
  simp only [shift, Mom.c2_shift h]

end moments

section deriv
variable [Zero R] [One R] [Neg R] [Add R] [Sub R] [Mul R] [Div R] [NatCast R] [CCmp R]

omit [One R] [Neg R] [Add R] [Sub R] [Mul R] [NatCast R] [CCmp R] in
theorem grad_shift (h : Shift ρ) (u : Moments R) (x y : UReal2 R) : grad u (x.shift ρ) (y.shift ρ) = grad u x y := by
  unfold grad
  simp only [shift]
  rcases hy : y.hg.diagmap with _ | ⟨⟨i, d⟩, _ | ⟨q, t⟩⟩ <;> simp only [HessGrad.shift, hy, mapKey_nil, mapKey_cons]
  · rw [← diagGet_shift h u x.hg i]
    rfl
  · rfl

theorem hess_shift (h : Shift ρ) (u : Moments R) (t x y : UReal2 R) : hess u (t.shift ρ) (x.shift ρ) (y.shift ρ) = hess u t x y := by
  unfold hess
  rcases hx : x.hg.diagmap with _ | ⟨⟨i, d⟩, _ | ⟨q, l⟩⟩ <;> rcases hy : y.hg.diagmap with _ | ⟨⟨j, e⟩, _ | ⟨q', l'⟩⟩ <;>
    simp only [shift, HessGrad.shift, hx, hy, mapKey_nil, mapKey_cons] <;> try rfl
  have h1 : ∀ a b, (⟨mapKey ρ t.hg.diagmap, mapKey (shiftP ρ) t.hg.trimap⟩ : HessGrad R).hhessGet u (ρ a) (ρ b) = t.hg.hhessGet u a b :=
    fun a b => hhessGet_shift h u t.hg a b
  have h2 : ∀ a, (⟨mapKey ρ t.hg.diagmap, mapKey (shiftP ρ) t.hg.trimap⟩ : HessGrad R).diagGet u (ρ a) = t.hg.diagGet u a :=
    fun a => diagGet_shift h u t.hg a
  simp only [h1, h2, ne_eq, h.eq]

theorem unaryStep_shift (h : Shift ρ) (u : Moments R) (a b : R) (res : HessGrad R) (e : Ent R) :
    unaryStep u a b (res.shift ρ) (e.shift ρ) = (unaryStep u a b res e).map (HessGrad.shift ρ) := by
  simp only [unaryStep, Ent.shift, modHhess_shift h, h.eq, Option.map_map]
  congr 1
  funext r
  simp only [Function.comp, modDiag_shift h]
  split_ifs <;> rfl

theorem binaryX_shift (h : Shift ρ) (u : Moments R) (a b : R) (res : HessGrad R) (e : Ent R) :
    binaryX u a b (res.shift ρ) (e.shift ρ) = (binaryX u a b res e).map (HessGrad.shift ρ) := by
  simp only [binaryX, Ent.shift, modHhess_shift h, h.eq, Option.map_map]
  congr 1
  funext r
  simp only [Function.comp, modDiag_shift h]
  split_ifs <;> rfl

theorem binaryYNew_shift (h : Shift ρ) (u : Moments R) (res : HessGrad R) (e : Ent R) :
    binaryYNew u (res.shift ρ) (e.shift ρ) = (binaryYNew u res e).map (HessGrad.shift ρ) := by
  simp only [binaryYNew, Ent.shift, modHhess_shift h, h.eq, Option.map_map]
  congr 1
  funext r
  simp only [Function.comp, modDiag_shift h]
  split_ifs <;> rfl

theorem binaryY_shift (h : Shift ρ) (u : Moments R) (a b : R) (res : HessGrad R) (e : Ent R) :
    binaryY u a b (res.shift ρ) (e.shift ρ) = (binaryY u a b res e).map (HessGrad.shift ρ) := by
  simp only [binaryY, Ent.shift, modHhess_shift h, h.eq, Option.map_map]
  congr 1
  funext r
  simp only [Function.comp, modDiag_shift h]
  split_ifs <;> rfl

theorem foldlM_shift {α β γ : Type*} (g : α → β) (s : γ → γ) (F : γ → β → Option γ) (G : γ → α → Option γ)
    (hFG : ∀ c a, F (s c) (g a) = (G c a).map s) (l : List α) (c : γ) : (l.map g).foldlM F (s c) = (l.foldlM G c).map s := by
  induction l generalizing c with
  | nil => rfl
  | cons a t ih =>
    simp only [List.map_cons, List.foldlM_cons, hFG]
    cases G c a with
    | none => rfl
    | some c' => exact ih c'

theorem unary_shift (h : Shift ρ) (u : Moments R) (x : UReal2 R) (f fx fxx : R) :
    unary u (x.shift ρ) f fx fxx = (unary u x f fx fxx).map (shift ρ) := by
  unfold unary
  simp only [shift, hessEntries_shift h]
  cases x.hg.hessEntries (CCmp.eqb (fxx / Mom.lit 2) 0) with
  | none => rfl
  | some es =>
    simp only [Option.map_some, Option.bind_some]
    rw [show (HessGrad.empty : HessGrad R) = HessGrad.shift ρ HessGrad.empty from rfl,
      foldlM_shift (Ent.shift ρ) (HessGrad.shift ρ) _ _ (unaryStep_shift h u fx (fxx / Mom.lit 2)) es]
    simp only [Option.map_map]
    rfl

/-- the identifiers of the entry are under the sentinel, before and after the change -/
def Under (ρ : ℤ → ℤ) (e : Ent R) : Prop := e.id1 < maxId ∧ ρ e.id1 < maxId

omit [Zero R] [One R] [Neg R] [Add R] [Sub R] [Mul R] [Div R] [NatCast R] [CCmp R] in
theorem under_lt {e : Ent R} (he : Under ρ e) : (toLex (e.id1, e.id2) : IdPair) < toLex (maxId, maxId) ∧
    (toLex ((e.shift ρ).id1, (e.shift ρ).id2) : IdPair) < toLex (maxId, maxId) :=
  ⟨Prod.Lex.lt_iff.2 (Or.inl he.1), Prod.Lex.lt_iff.2 (Or.inl he.2)⟩

theorem binaryLoop_shift (h : Shift ρ) (u : Moments R) (a b c d : R) (res : HessGrad R) (ex ey : List (Ent R))
    (hx : ∀ e ∈ ex, Under ρ e) (hy : ∀ e ∈ ey, Under ρ e) :
    binaryLoop u a b c d (res.shift ρ) (ex.map (Ent.shift ρ)) (ey.map (Ent.shift ρ)) = (binaryLoop u a b c d res ex ey).map (HessGrad.shift ρ) := by
  induction hn : ex.length + ey.length using Nat.strong_induction_on generalizing res ex ey with
  | _ n ih =>
    rcases ex with _ | ⟨e, tx⟩ <;> rcases ey with _ | ⟨e', ty⟩
    · simp [binaryLoop]
    · obtain ⟨h1, h2⟩ := under_lt (hy e' (by simp))
      have r := fun res => ih _ (by simp at hn ⊢; omega) res [] ty hx (fun e he => hy e (by simp [he])) rfl
      simp only [List.map_cons, List.map_nil] at r ⊢
      rw [binaryLoop, binaryLoop, if_pos h1, if_pos h2, binaryYNew_shift h]
      cases binaryYNew u res e' with
      | none => rfl
      | some r1 =>
        simp only [Option.map_some, Option.bind_some]
        rw [binaryY_shift h]
        cases binaryY u b d r1 e' with
        | none => rfl
        | some r2 => exact r r2
    · obtain ⟨h1, h2⟩ := under_lt (hx e (by simp))
      have r := fun res => ih _ (by simp at hn ⊢; omega) res tx [] (fun e he => hx e (by simp [he])) hy rfl
      simp only [List.map_cons, List.map_nil] at r ⊢
      rw [binaryLoop, binaryLoop, if_pos h1, if_pos h2, binaryX_shift h]
      cases binaryX u a c res e with
      | none => rfl
      | some r1 => exact r r1
    · have r1 := fun res => ih _ (by simp at hn ⊢; omega) res tx ty (fun e he => hx e (by simp [he])) (fun e he => hy e (by simp [he])) rfl
      have r2 := fun res => ih _ (by simp at hn ⊢; omega) res (e :: tx) ty hx (fun e he => hy e (by simp [he])) rfl
      have r3 := fun res => ih _ (by simp at hn ⊢; omega) res tx (e' :: ty) (fun e he => hx e (by simp [he])) hy rfl
      simp only [List.map_cons] at r1 r2 r3 ⊢
      rw [binaryLoop, binaryLoop]
      have p1 : ((toLex ((e.shift ρ).id1, (e.shift ρ).id2) : IdPair) < toLex ((e'.shift ρ).id1, (e'.shift ρ).id2)) =
          ((toLex (e.id1, e.id2) : IdPair) < toLex (e'.id1, e'.id2)) := propext (h.plt (toLex (e.id1, e.id2)) (toLex (e'.id1, e'.id2)))
      have p2 : ((toLex ((e'.shift ρ).id1, (e'.shift ρ).id2) : IdPair) < toLex ((e.shift ρ).id1, (e.shift ρ).id2)) =
          ((toLex (e'.id1, e'.id2) : IdPair) < toLex (e.id1, e.id2)) := propext (h.plt (toLex (e'.id1, e'.id2)) (toLex (e.id1, e.id2)))
      simp only [p1, p2]
      split_ifs
      · rw [binaryX_shift h]
        cases binaryX u a c res e with
        | none => rfl
        | some r1 => exact r3 r1
      · rw [binaryYNew_shift h]
        cases binaryYNew u res e' with
        | none => rfl
        | some s1 =>
          simp only [Option.map_some, Option.bind_some]
          rw [binaryY_shift h]
          cases binaryY u b d s1 e' with
          | none => rfl
          | some s2 => exact r2 s2
      · rw [binaryX_shift h]
        cases binaryX u a c res e with
        | none => rfl
        | some s1 =>
          simp only [Option.map_some, Option.bind_some]
          rw [binaryY_shift h]
          cases binaryY u b d s1 e' with
          | none => rfl
          | some s2 => exact r1 s2

theorem mixedStep_shift (h : Shift ρ) (u : Moments R) (c : R) (res : HessGrad R) (px py : VId × Diag R) :
    mixedStep u c (res.shift ρ) (ρ px.1, px.2) (ρ py.1, py.2) = (mixedStep u c res px py).map (HessGrad.shift ρ) := by
  simp only [mixedStep, min_shift h, max_shift h, ne_eq, h.eq, modTri_shift h, modDiag_shift h]
  split_ifs <;> rfl

theorem mixedLoop_shift (h : Shift ρ) (u : Moments R) (c : R) (res : HessGrad R) (x y : SMap VId (Diag R)) :
    mixedLoop u c (res.shift ρ) (mapKey ρ x) (mapKey ρ y) = (mixedLoop u c res x y).map (HessGrad.shift ρ) :=
  foldlM_shift (fun p : VId × Diag R => (ρ p.1, p.2)) (HessGrad.shift ρ) _ _
    (fun r px => foldlM_shift (fun p : VId × Diag R => (ρ p.1, p.2)) (HessGrad.shift ρ) _ _ (fun r py => mixedStep_shift h u c r px py) y r) x res

theorem binary_shift (h : Shift ρ) (u : Moments R) {x y : UReal2 R} (f fx fy fxx fyy fxy : R)
    (vx : x.hg.Valid) (vy : y.hg.Valid) (hx : ∀ i ∈ keys x.hg.diagmap, i < maxId ∧ ρ i < maxId) (hy : ∀ i ∈ keys y.hg.diagmap, i < maxId ∧ ρ i < maxId) :
    binary u (x.shift ρ) (y.shift ρ) f fx fy fxx fyy fxy = (binary u x y f fx fy fxx fyy fxy).map (shift ρ) := by
  unfold binary
  simp only [shift, hessEntries_shift h, hessEntries_eq _ vx, hessEntries_eq _ vy, Option.map_some, Option.bind_some]
  have hl := binaryLoop_shift h u fx fy (fxx / Mom.lit 2) (fyy / Mom.lit 2) HessGrad.empty
    (hessSpec (CCmp.eqb (fxx / Mom.lit 2) 0) x.hg.dOf x.hg.diagmap x.hg.trimap) (hessSpec (CCmp.eqb (fyy / Mom.lit 2) 0) y.hg.dOf y.hg.diagmap y.hg.trimap)
    (fun e he => hx _ ((entries_facts vx _).1 e he).2.1) (fun e he => hy _ ((entries_facts vy _).1 e he).2.1)
  rw [show HessGrad.shift ρ (HessGrad.empty : HessGrad R) = HessGrad.empty from rfl] at hl
  rw [hl]
  generalize binaryLoop u fx fy (fxx / Mom.lit 2) (fyy / Mom.lit 2) HessGrad.empty _ _ = o
  cases o with
  | none => rfl
  | some r =>
    simp only [Option.map_some, Option.bind_some]
    have := mixedLoop_shift h u (fxy / Mom.lit 2) r x.hg.diagmap y.hg.diagmap
    cases CCmp.eqb (fxy / Mom.lit 2) (0 : R)
    · simp only [Bool.not_false, if_true]
      rw [show (HessGrad.shift ρ x.hg).diagmap = mapKey ρ x.hg.diagmap from rfl, show (HessGrad.shift ρ y.hg).diagmap = mapKey ρ y.hg.diagmap from rfl,
        this, Option.map_map, Option.map_map]
      rfl
    · rfl

theorem shift_congr {ρ' : ℤ → ℤ} {x : UReal2 R} (hv : x.hg.Valid) (h' : ∀ i ∈ keys x.hg.diagmap, ρ i = ρ' i) : x.shift ρ = x.shift ρ' := by
  simp only [shift, HessGrad.shift_congr hv h']

end deriv
end UReal2
end Unc
