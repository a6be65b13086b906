import Verif.Lemmas.TrackRun
import Verif.Lemmas.Range
import Verif.Spec.Range2

/-!
# Lemmas on calculations at second order with numbers of limited range
-/

namespace Unc
open Unc.Spec HessGrad SMap Mom Unc.Props

/-! ## moments exist, whatever the numbers -/

section
variable {R : Type*} [Zero R] [Add R] [Sub R] [Mul R] [NatCast R]

/-- a number beside a real number -/
structure Beside (R : Type*) where
  /-- the number -/
  a : R
  /-- the real number -/
  b : ℝ

namespace Beside
noncomputable instance : Zero (Beside R) := ⟨⟨0, 0⟩⟩
noncomputable instance : Add (Beside R) := ⟨fun x y => ⟨x.a + y.a, x.b + y.b⟩⟩
noncomputable instance : Sub (Beside R) := ⟨fun x y => ⟨x.a - y.a, x.b - y.b⟩⟩
noncomputable instance : Mul (Beside R) := ⟨fun x y => ⟨x.a * y.a, x.b * y.b⟩⟩
noncomputable instance : NatCast (Beside R) := ⟨fun n => ⟨n, n⟩⟩
theorem a_hom : OpHom (Beside.a (R := R)) := ⟨rfl, fun _ _ => rfl, fun _ _ => rfl, fun _ _ => rfl, fun _ => rfl⟩
theorem b_hom : OpHom (Beside.b (R := R)) := ⟨rfl, fun _ _ => rfl, fun _ _ => rfl, fun _ _ => rfl, fun _ => rfl⟩
/-- beside zero -/
noncomputable def of (a : R) : Beside R := ⟨a, 0⟩
end Beside

theorem m_isSome_any {x : UReal2 R} (hx : Ok2 x) {n : ℕ} (hn : 1 ≤ n ∧ n ≤ 4) : (x.m n).isSome := by
  have e : x = mapU Beside.a (mapU Beside.of x) := by rw [mapU_mapU]; exact (mapU_id (fun _ => rfl) _).symm
  have h := m_isSome (ok_mapU Beside.b (ok_mapU (Beside.of (R := R)) hx)) hn
  rw [m_hom Beside.b_hom, Option.isSome_map] at h
  rw [e, m_hom Beside.a_hom, Option.isSome_map]
  exact h

theorem cov_isSome_any {x y : UReal2 R} (hx : Ok2 x) (hy : Ok2 y) : (UReal2.cov x y).isSome := by
  have e : ∀ x : UReal2 R, x = mapU Beside.a (mapU Beside.of x) := fun x => by rw [mapU_mapU]; exact (mapU_id (fun _ => rfl) _).symm
  have h := cov_form (ok_mapU Beside.b (ok_mapU (Beside.of (R := R)) hx)).valid (ok_mapU Beside.b (ok_mapU (Beside.of (R := R)) hy)).valid
    (Finset.subset_union_left (s₂ := (mapU Beside.b (mapU Beside.of y)).hg.vars)) Finset.subset_union_right
  rw [cov_hom Beside.b_hom] at h
  obtain ⟨a, ha, -⟩ := Option.map_eq_some_iff.1 h
  rw [e x, e y, cov_hom Beside.a_hom, ha]; rfl

end

namespace Ext
variable {f : Fmt} {M : ℝ}

/-! ## what is not finite stays so -/

theorem not_fin_add_left {a b : Ext f M} (h : ¬ Finite a) : ¬ Finite (a + b) := by
  rintro ⟨v, c, hc, e, -⟩
  rw [add_def] at e
  rcases a with _ | s | ⟨a, ha⟩
  · rcases b with _ | t | ⟨b, hb⟩ <;> cases e
  · rcases b with _ | t | ⟨b, hb⟩ <;> simp only [add'] at e <;> first | cases e | (split_ifs at e)
  · exact h ⟨_, a, ha, rfl, rfl⟩

theorem not_fin_add_right {a b : Ext f M} (h : ¬ Finite b) : ¬ Finite (a + b) := by
  rintro ⟨v, c, hc, e, -⟩
  rw [add_def] at e
  rcases b with _ | s | ⟨b, hb⟩
  · rcases a with _ | t | ⟨b, hb⟩ <;> cases e
  · rcases a with _ | t | ⟨b, hb⟩ <;> simp only [add'] at e <;> first | cases e | (split_ifs at e)
  · exact h ⟨_, b, hb, rfl, rfl⟩

theorem not_fin_sub_left {a b : Ext f M} (h : ¬ Finite a) : ¬ Finite (a - b) := by
  rintro ⟨v, c, hc, e, -⟩
  rw [sub_def] at e
  rcases a with _ | s | ⟨a, ha⟩
  · rcases b with _ | t | ⟨b, hb⟩ <;> cases e
  · rcases b with _ | t | ⟨b, hb⟩ <;> simp only [sub'] at e <;> first | cases e | (split_ifs at e)
  · exact h ⟨_, a, ha, rfl, rfl⟩

theorem not_fin_sub_right {a b : Ext f M} (h : ¬ Finite b) : ¬ Finite (a - b) := by
  rintro ⟨v, c, hc, e, -⟩
  rw [sub_def] at e
  rcases b with _ | s | ⟨b, hb⟩
  · rcases a with _ | t | ⟨b, hb⟩ <;> cases e
  · rcases a with _ | t | ⟨b, hb⟩ <;> simp only [sub'] at e <;> first | cases e | (split_ifs at e)
  · exact h ⟨_, b, hb, rfl, rfl⟩

theorem not_fin_mul_left {a b : Ext f M} (h : ¬ Finite a) : ¬ Finite (a * b) := by
  rintro ⟨v, c, hc, e, -⟩
  rw [mul_def] at e
  rcases a with _ | s | ⟨a, ha⟩
  · rcases b with _ | t | ⟨b, hb⟩ <;> cases e
  · rcases b with _ | t | ⟨b, hb⟩ <;> simp only [mul'] at e <;> first | cases e | (split_ifs at e)
  · exact h ⟨_, a, ha, rfl, rfl⟩

theorem not_fin_mul_right {a b : Ext f M} (h : ¬ Finite b) : ¬ Finite (a * b) := by
  rintro ⟨v, c, hc, e, -⟩
  rw [mul_def] at e
  rcases b with _ | s | ⟨b, hb⟩
  · rcases a with _ | t | ⟨b, hb⟩ <;> cases e
  · rcases a with _ | t | ⟨b, hb⟩ <;> simp only [mul'] at e <;> first | cases e | (split_ifs at e)
  · exact h ⟨_, b, hb, rfl, rfl⟩

theorem not_fin_neg {a : Ext f M} (h : ¬ Finite a) : ¬ Finite (-a) := by
  rintro ⟨v, c, hc, e, -⟩
  rcases a with _ | s | ⟨a, ha⟩
  · cases e
  · cases e
  · exact h ⟨_, a, ha, rfl, rfl⟩

theorem not_fin_div_left {a b : Ext f M} (h : ¬ Finite a) : ¬ Finite (a / b) := by
  rintro ⟨v, c, hc, e, -⟩
  rw [div_def] at e
  rcases a with _ | s | ⟨a, ha⟩
  · rcases b with _ | t | ⟨b, hb⟩ <;> cases e
  · rcases b with _ | t | ⟨b, hb⟩ <;> cases e
  · exact h ⟨_, a, ha, rfl, rfl⟩

theorem not_fin_sqrt {a : Ext f M} (h : ¬ Finite a) : ¬ Finite (CSqrt.sqrt a) := by
  rintro ⟨v, c, hc, e, -⟩
  rcases a with _ | s | ⟨a, ha⟩
  · cases e
  · cases s <;> cases e
  · exact h ⟨_, a, ha, rfl, rfl⟩

/-! ## pairs -/

/-- a number with limits on the range beside the one without -/
structure Two (f : Fmt) (M : ℝ) where
  /-- with limits -/
  x : Ext f M
  /-- without -/
  y : FP f
  weak : Weak x y

namespace Two
noncomputable instance : Zero (Two f M) := ⟨⟨0, 0, weak_ofFP _⟩⟩
noncomputable instance : Add (Two f M) := ⟨fun a b => ⟨a.x + b.x, a.y + b.y, weak_add a.weak b.weak⟩⟩
noncomputable instance : Sub (Two f M) := ⟨fun a b => ⟨a.x - b.x, a.y - b.y, weak_sub a.weak b.weak⟩⟩
noncomputable instance : Mul (Two f M) := ⟨fun a b => ⟨a.x * b.x, a.y * b.y, weak_mul a.weak b.weak⟩⟩
noncomputable instance : NatCast (Two f M) := ⟨fun n => ⟨n, n, weak_ofFP _⟩⟩
theorem x_hom : OpHom (Two.x (f := f) (M := M)) := ⟨rfl, fun _ _ => rfl, fun _ _ => rfl, fun _ _ => rfl, fun _ => rfl⟩
theorem y_hom : OpHom (Two.y (f := f) (M := M)) := ⟨rfl, fun _ _ => rfl, fun _ _ => rfl, fun _ _ => rfl, fun _ => rfl⟩
/-- a given number -/
noncomputable def of (M : ℝ) (a : FP f) : Two f M := ⟨ofFP M a, a, weak_ofFP _⟩
end Two

/-- a second derivative which is not an ordinary number -/
def Bad (x : UReal2 (Ext f M)) : Prop := ∃ i d, find? x.hg.diagmap i = some d ∧ ¬ Finite d.hhess

/-- the results with and without limits on the range -/
structure Beside2 (x : UReal2 (Ext f M)) (y : UReal2 (FP f)) : Prop where
  ok : Ok2 x
  ok' : Ok2 y
  mu : Weak x.mu y.mu
  vars : keys x.hg.diagmap = keys y.hg.diagmap
  all : (∃ Z : UReal2 (Two f M), mapU Two.x Z = x ∧ mapU Two.y Z = y) ∨ Bad x

theorem beside_of (Z : UReal2 (Two f M)) (h : Ok2 Z) : Beside2 (mapU Two.x Z) (mapU Two.y Z) :=
  ⟨ok_mapU _ h, ok_mapU _ h, Z.mu.weak, by simp [mapU, mapHG], Or.inl ⟨Z, rfl, rfl⟩⟩

/-! ## what is bad stays so -/

theorem bad_mixedStep (u : Moments (Ext f M)) (h : Ext f M) {res z : HessGrad (Ext f M)} (hv : res.Valid) {px py : VId × Diag (Ext f M)} (hx : px.1 ∈ keys res.diagmap)
    (hy : py.1 ∈ keys res.diagmap) (e : UReal2.mixedStep u h res px py = some z) :
    z.Valid ∧ (∀ i ∈ keys res.diagmap, i ∈ keys z.diagmap) ∧ ∀ i d, find? res.diagmap i = some d → ¬ Finite d.hhess → ∃ d', find? z.diagmap i = some d' ∧ ¬ Finite d'.hhess := by
  obtain ⟨z', e', v', d', -⟩ := mixedStep_spec u h hv hx hy
  rw [e', Option.some_inj] at e
  subst e
  refine ⟨v', fun i hi => ?_, fun i d hd hb => ?_⟩
  · rw [← find?_isSome] at hi ⊢
    rw [d', Option.isSome_map]; exact hi
  · rw [d', hd, Option.map_some]
    refine ⟨_, rfl, ?_⟩
    split_ifs
    · exact not_fin_add_left hb
    · exact hb

theorem bad_mixedInner (u : Moments (Ext f M)) (h : Ext f M) (px : VId × Diag (Ext f M)) : ∀ (y : SMap VId (Diag (Ext f M))) {res z : HessGrad (Ext f M)}, res.Valid → px.1 ∈ keys res.diagmap →
    (∀ i ∈ keys y, i ∈ keys res.diagmap) → y.foldlM (fun res py => UReal2.mixedStep u h res px py) res = some z →
    z.Valid ∧ (∀ i ∈ keys res.diagmap, i ∈ keys z.diagmap) ∧ ∀ i d, find? res.diagmap i = some d → ¬ Finite d.hhess → ∃ d', find? z.diagmap i = some d' ∧ ¬ Finite d'.hhess
  | [], res, z, hv, _, _, e => by
    rw [List.foldlM_nil] at e
    cases e
    exact ⟨hv, fun _ h => h, fun i d hd hb => ⟨d, hd, hb⟩⟩
  | py :: y, res, z, hv, hx, hy, e => by
    rw [List.foldlM_cons] at e
    obtain ⟨r, e1, e2⟩ := Option.bind_eq_some_iff.1 e
    obtain ⟨v1, k1, b1⟩ := bad_mixedStep u h hv hx (hy _ (by simp)) e1
    obtain ⟨v2, k2, b2⟩ := bad_mixedInner u h px y v1 (k1 _ hx) (fun i hi => k1 _ (hy i (by simp [hi]))) e2
    refine ⟨v2, fun i hi => k2 _ (k1 _ hi), fun i d hd hb => ?_⟩
    obtain ⟨d1, h1, hb1⟩ := b1 i d hd hb
    exact b2 i d1 h1 hb1

theorem bad_mixedLoop (u : Moments (Ext f M)) (h : Ext f M) (y : SMap VId (Diag (Ext f M))) : ∀ (x : SMap VId (Diag (Ext f M))) {res z : HessGrad (Ext f M)}, res.Valid →
    (∀ i ∈ keys x, i ∈ keys res.diagmap) → (∀ i ∈ keys y, i ∈ keys res.diagmap) → UReal2.mixedLoop u h res x y = some z →
    ∀ i d, find? res.diagmap i = some d → ¬ Finite d.hhess → ∃ d', find? z.diagmap i = some d' ∧ ¬ Finite d'.hhess
  | [], res, z, hv, _, _, e => by
    cases e
    exact fun i d hd hb => ⟨d, hd, hb⟩
  | px :: x, res, z, hv, hx, hy, e => by
    unfold UReal2.mixedLoop at e
    rw [List.foldlM_cons] at e
    obtain ⟨r, e1, e2⟩ := Option.bind_eq_some_iff.1 e
    obtain ⟨v1, k1, b1⟩ := bad_mixedInner u h px y hv (hx _ (by simp)) hy e1
    intro i d hd hb
    obtain ⟨d1, h1, hb1⟩ := b1 i d hd hb
    exact bad_mixedLoop u h y x v1 (fun i hi => k1 _ (hx i (by simp [hi]))) (fun i hi => k1 _ (hy i hi)) e2 i d1 h1 hb1

theorem bad_unary {x : UReal2 (Ext f M)} (hx : Ok2 x) (b : Bad x) (m fx fxx : Ext f M) {z : UReal2 (Ext f M)} (e : ∀ u, UReal2.unary u x m fx fxx = some z) : Bad z := by
  obtain ⟨z', e', -, -, d', -⟩ := unary_cells ⟨0, 0, 0, 0, 0, 0⟩ hx.valid m fx fxx
  rw [e, Option.some_inj] at e'
  subst e'
  obtain ⟨i, d, hd, hb⟩ := b
  refine ⟨i, _, by rw [d', hd]; rfl, not_fin_add_right (not_fin_mul_right hb)⟩

theorem bad_binary {x y : UReal2 (Ext f M)} (hx : Ok2 x) (hy : Ok2 y) (m fx fy fxx fyy fxy : Ext f M) (b : Bad x ∨ Bad y ∨ (¬ Finite (fyy / lit 2) ∧ y.hg.diagmap ≠ []))
    {z : UReal2 (Ext f M)} (e : ∀ u, UReal2.binary u x y m fx fy fxx fyy fxy = some z) : Bad z := by
  have e := e ⟨0, 0, 0, 0, 0, 0⟩
  unfold UReal2.binary at e
  simp only [hessEntries_eq _ hx.valid, hessEntries_eq _ hy.valid, Option.bind_some] at e
  obtain ⟨r, e', v, d, -⟩ := binaryLoop_cells ⟨0, 0, 0, 0, 0, 0⟩ hx.valid hy.valid hx.below hy.below
    (CCmp.eqb (fxx / Mom.lit 2) 0) (CCmp.eqb (fyy / Mom.lit 2) 0) fx fy (fxx / Mom.lit 2) (fyy / Mom.lit 2)
  rw [e', Option.bind_some] at e
  have key : ∃ i d, find? r.diagmap i = some d ∧ ¬ Finite d.hhess := by
    rcases b with ⟨i, d0, h0, hb⟩ | ⟨i, d0, h0, hb⟩ | ⟨hb, hne⟩
    · refine ⟨i, ?_⟩
      rw [d, h0]
      cases find? y.hg.diagmap i with
      | none => exact ⟨_, rfl, not_fin_add_right (not_fin_mul_right hb)⟩
      | some d1 => exact ⟨_, rfl, not_fin_add_left (not_fin_add_left (not_fin_add_right (not_fin_mul_right hb)))⟩
    · refine ⟨i, ?_⟩
      rw [d, h0]
      cases find? x.hg.diagmap i with
      | none => exact ⟨_, rfl, not_fin_add_right (not_fin_mul_right hb)⟩
      | some d1 => exact ⟨_, rfl, not_fin_add_right (not_fin_mul_right hb)⟩
    · obtain ⟨p, l, hl⟩ := List.exists_cons_of_ne_nil hne
      have h0 : find? y.hg.diagmap p.1 = some p.2 := by rw [hl]; simp [find?]
      refine ⟨p.1, ?_⟩
      rw [d, h0]
      cases find? x.hg.diagmap p.1 with
      | none => exact ⟨_, rfl, not_fin_add_left (not_fin_add_right (not_fin_mul_left (not_fin_mul_left hb)))⟩
      | some d1 => exact ⟨_, rfl, not_fin_add_left (not_fin_add_right (not_fin_mul_left (not_fin_mul_left hb)))⟩
  have hk : ∀ i, i ∈ keys r.diagmap ↔ i ∈ keys x.hg.diagmap ∨ i ∈ keys y.hg.diagmap := by
    intro i
    rw [← find?_isSome, ← find?_isSome, ← find?_isSome, d]
    cases find? x.hg.diagmap i <;> cases find? y.hg.diagmap i <;> simp [diagMerge]
  obtain ⟨w, ew, rfl⟩ := Option.map_eq_some_iff.1 e
  obtain ⟨i, d0, h0, hb⟩ := key
  split_ifs at ew
  · obtain ⟨d1, h1, hb1⟩ := bad_mixedLoop _ _ _ _ v (fun i hi => (hk i).2 (Or.inl hi)) (fun i hi => (hk i).2 (Or.inr hi)) ew i d0 h0 hb
    exact ⟨i, d1, h1, hb1⟩
  · cases ew
    exact ⟨i, d0, h0, hb⟩

theorem bad_m1 {x : UReal2 (Ext f M)} (b : Bad x) : ¬ Finite (m1 x.hg) := by
  obtain ⟨i, d, hd, hb⟩ := b
  have hm : (i, d) ∈ x.hg.diagmap := find?_some_mem hd
  unfold m1
  generalize (0 : Ext f M) = a0
  generalize x.hg.diagmap = L at hm
  induction L generalizing a0 with
  | nil => cases hm
  | cons p l ih =>
    rw [List.foldl_cons]
    rcases List.mem_cons.1 hm with h | h
    · have : ∀ (l : List (VId × Diag (Ext f M))) (a : Ext f M), ¬ Finite a → ¬ Finite (l.foldl (fun m it => m + it.2.hhess) a) := by
        intro l
        induction l with
        | nil => exact fun a h => h
        | cons q l ih => exact fun a h => ih _ (not_fin_add_left h)
      refine this l _ ?_
      rw [← h]
      exact not_fin_add_right hb
    · exact ih _ h

/-- with a bad second derivative no central moment is an ordinary number -/
theorem bad_m {x : UReal2 (Ext f M)} (b : Bad x) {n : ℕ} {a : Ext f M} (h : x.m n = some a) : ¬ Finite a := by
  have b1 := bad_m1 b
  unfold UReal2.m at h
  split_ifs at h with hn
  obtain ⟨l, h1, h2⟩ := Option.bind_eq_some_iff.1 h
  obtain ⟨n1, n4⟩ := hn
  have e1 : compute x.hg 1 = some (m1 x.hg) := rfl
  interval_cases n
  · simp only [UReal2.momArray, UReal2.updateMom, e1, Option.bind_some, Option.map_some, Option.some_inj] at h1
    subst h1
    simp only [Nat.sub_self, List.getElem?_cons_zero, Option.some_inj] at h2
    rw [← h2]; exact b1
  all_goals
    cases e2 : compute x.hg 2 with
    | none => simp [UReal2.momArray, UReal2.updateMom, e1, e2] at h1
    | some c2 => ?_
  · simp only [UReal2.momArray, UReal2.updateMom, e1, e2, Option.bind_some, Option.map_some, Option.some_inj] at h1
    subst h1
    simp at h2
    rw [← h2]; exact not_fin_sub_right (not_fin_mul_left b1)
  all_goals
    cases e3 : compute x.hg 3 with
    | none => simp [UReal2.momArray, UReal2.updateMom, e1, e2, e3] at h1
    | some c3 => ?_
  · simp only [UReal2.momArray, UReal2.updateMom, e1, e2, e3, Option.bind_some, Option.map_some, Option.some_inj] at h1
    subst h1
    simp at h2
    rw [← h2]; exact not_fin_sub_right (not_fin_mul_left b1)
  · cases e4 : compute x.hg 4 with
    | none => simp [UReal2.momArray, UReal2.updateMom, e1, e2, e3, e4] at h1
    | some c4 =>
      simp only [UReal2.momArray, UReal2.updateMom, e1, e2, e3, e4, Option.bind_some, Option.map_some, Option.some_inj] at h1
      subst h1
      simp at h2
      rw [← h2]; exact not_fin_sub_right (not_fin_mul_left b1)

end Ext
end Unc
