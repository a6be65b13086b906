import Verif.Lemmas.UReal2Ops
import Verif.Props.SecondOrder

/-! # Every contribution to an element of the Hessian is kept as it is, or left out (C71) -/

namespace Unc
open SMap HessGrad
variable {R : Type*} [CommRing R] [Div R] [CCmp R]

/-- `r` is the sum of the two contributions of an operand to an element of the Hessian, of its first term only, or 0. -/
def Part (t1 t2 r : R) : Prop := ∃ p q : R, (p = 0 ∨ p = 1) ∧ (q = 0 ∨ q = p) ∧ r = p * t1 + q * t2

theorem Part.zero (t1 t2 : R) : Part t1 t2 0 := ⟨0, 0, Or.inl rfl, Or.inl rfl, by ring⟩

theorem ents_part {hg : HessGrad R} (hv : hg.Valid) {skip : Bool} {a b : VId} (hab : a < b) {e : Ent R} (he : e ∈ entsAt skip hg a b) (hxx fx : R) :
    Part (hxx * hg.G a * hg.G b) (fx * hg.H a b) (hxx * e.d1.grad * e.d2.grad + fx * e.val) := by
  cases skip with
  | true =>
    have := hessSpec_off_filter hg.dOf hab hg.diagmap hg.trimap hv.dsorted hv.triOf hv.tsorted fun i hi => find_dOf hi
    unfold entsAt at he
    rw [this] at he
    cases hf : find? hg.trimap (toLex (a, b)) with
    | none => rw [hf] at he; simp at he
    | some h =>
      rw [hf] at he
      simp only [Option.toList_some, List.map_cons, List.map_nil, List.mem_singleton] at he
      subst he
      refine ⟨1, 1, Or.inr rfl, Or.inr rfl, ?_⟩
      rw [H_lt _ hab, hf]
      simp [G_dOf]
  | false =>
    have := hessSpec_nonskip_filter hg.dOf hab hg.diagmap hg.trimap hv.dsorted hv.triOf hv.tsorted fun i hi => find_dOf hi
    unfold entsAt at he
    rw [this] at he
    split_ifs at he with hn
    · obtain ⟨p, hp, rfl⟩ := List.mem_map.1 he
      by_cases hk : p.1 = toLex (a, b)
      · refine ⟨1, 1, Or.inr rfl, Or.inr rfl, ?_⟩
        have hf : find? hg.trimap (toLex (a, b)) = some p.2 := by
          rw [← hk]; exact find?_of_mem hv.tsorted (List.mem_filter.1 hp).1
        rw [H_lt _ hab, hf]
        simp [G_dOf, hk]
      · refine ⟨1, 0, Or.inr rfl, Or.inl rfl, ?_⟩
        simp [G_dOf, hk]
    · simp at he

theorem hProc_part {fx fy hxx hyy t1 t2 t3 t4 : R} (ex ey : List (Ent R))
    (hx : ∀ e ∈ ex, Part t1 t2 (hxx * e.d1.grad * e.d2.grad + fx * e.val))
    (hy : ∀ e ∈ ey, Part t3 t4 (hyy * e.d1.grad * e.d2.grad + fy * e.val)) (o : Option R)
    (ho : ∃ r s, Part t1 t2 r ∧ Part t3 t4 s ∧ o.getD 0 = r + s) :
    ∃ r s, Part t1 t2 r ∧ Part t3 t4 s ∧ (hProc fx fy hxx hyy o ex ey).getD 0 = r + s := by
  obtain ⟨n, hn⟩ : ∃ n, n = ex.length + ey.length := ⟨_, rfl⟩
  induction n using Nat.strong_induction_on generalizing ex ey o with
  | _ n ih =>
  match ex, ey with
  | [], [] => simpa [hProc] using ho
  | e :: tx, [] =>
    rw [hProc]
    refine ih _ (by simp [hn]) tx [] (fun e h => hx e (by simp [h])) (by simp) _ ⟨_, 0, hx e (by simp), .zero _ _, ?_⟩ rfl
    simp [valX]
  | [], e :: ty =>
    rw [hProc]
    refine ih _ (by simp [hn]) [] ty (by simp) (fun e h => hy e (by simp [h])) _ ⟨0, _, .zero _ _, hy e (by simp), ?_⟩ rfl
    simp
  | e :: tx, e' :: ty =>
    rw [hProc]
    refine ih _ (by simp [hn]; omega) tx ty (fun e h => hx e (by simp [h])) (fun e h => hy e (by simp [h])) _ ⟨_, _, hx e (by simp), hy e' (by simp), ?_⟩ rfl
    simp [valX]; ring

theorem unary_part {x : UReal2 R} (hv : x.hg.Valid) {f fx fxx : R} {z : UReal2 R} {u : Moments R} (hz : UReal2.unary u x f fx fxx = some z) (a b : VId) :
    Part (fxx / Mom.lit 2 * x.hg.G a * x.hg.G b) (fx * x.hg.H a b) (z.hg.H a b) := by
  obtain ⟨z', e, m, v, d, t⟩ := unary_cells u hv f fx fxx
  obtain rfl : z' = z := Option.some_inj.1 (e.symm.trans hz)
  have hoff : ∀ a b, a < b → Part (fxx / Mom.lit 2 * x.hg.G a * x.hg.G b) (fx * x.hg.H a b) (z'.hg.H a b) := by
    intro a b hab
    rw [H_lt z'.hg hab, t a b hab]
    cases hl : (entsAt (CCmp.eqb (fxx / Mom.lit 2) 0) x.hg a b).getLast? with
    | none => simpa using Part.zero _ _
    | some e => exact ents_part hv hab (List.mem_of_getLast? hl) _ _
  rcases lt_trichotomy a b with hab | rfl | hab
  · exact hoff a b hab
  · refine ⟨1, 1, Or.inr rfl, Or.inr rfl, ?_⟩
    rw [H_diag, d, H_diag, G_def]
    cases find? x.hg.diagmap a <;> simp
  · rw [H_comm z'.hg, H_comm x.hg, show fxx / Mom.lit 2 * x.hg.G a * x.hg.G b = fxx / Mom.lit 2 * x.hg.G b * x.hg.G a by ring]
    exact hoff b a hab

theorem binary_part {x y : UReal2 R} (hx : Ok2 x) (hy : Ok2 y) {f fx fy fxx fyy fxy : R} (eqb0 : ∀ r : R, CCmp.eqb r 0 = true → r = 0)
    {z : UReal2 R} {u : Moments R} (hz : UReal2.binary u x y f fx fy fxx fyy fxy = some z) (a b : VId) :
    ∃ r s, Part (fxx / Mom.lit 2 * x.hg.G a * x.hg.G b) (fx * x.hg.H a b) r ∧
      Part (fyy / Mom.lit 2 * y.hg.G a * y.hg.G b) (fy * y.hg.H a b) s ∧
      z.hg.H a b = r + s + fxy / Mom.lit 2 * (x.hg.G a * y.hg.G b + x.hg.G b * y.hg.G a) := by
  unfold UReal2.binary at hz
  simp only [hessEntries_eq _ hx.valid, hessEntries_eq _ hy.valid, Option.bind_some] at hz
  obtain ⟨w, e, v, d, t⟩ := binaryLoop_cells u hx.valid hy.valid hx.below hy.below
    (CCmp.eqb (fxx / Mom.lit 2) 0) (CCmp.eqb (fyy / Mom.lit 2) 0) fx fy (fxx / Mom.lit 2) (fyy / Mom.lit 2)
  rw [e, Option.bind_some] at hz
  have hoff : ∀ a b, a < b → ∃ r s, Part (fxx / Mom.lit 2 * x.hg.G a * x.hg.G b) (fx * x.hg.H a b) r ∧
      Part (fyy / Mom.lit 2 * y.hg.G a * y.hg.G b) (fy * y.hg.H a b) s ∧ w.H a b = r + s := by
    intro a b hab
    rw [H_lt w hab, t a b hab]
    exact hProc_part _ _ (fun e he => ents_part hx.valid hab he _ _) (fun e he => ents_part hy.valid hab he _ _) none
      ⟨0, 0, .zero _ _, .zero _ _, by simp⟩
  have hw : ∃ r s, Part (fxx / Mom.lit 2 * x.hg.G a * x.hg.G b) (fx * x.hg.H a b) r ∧
      Part (fyy / Mom.lit 2 * y.hg.G a * y.hg.G b) (fy * y.hg.H a b) s ∧ w.H a b = r + s := by
    rcases lt_trichotomy a b with hab | rfl | hab
    · exact hoff a b hab
    · refine ⟨_, _, ⟨1, 1, Or.inr rfl, Or.inr rfl, rfl⟩, ⟨1, 1, Or.inr rfl, Or.inr rfl, rfl⟩, ?_⟩
      rw [H_diag, d, H_diag, H_diag, G_def, G_def]
      cases find? x.hg.diagmap a <;> cases find? y.hg.diagmap a <;> simp [diagMerge]; ring
    · rw [H_comm w, H_comm x.hg, H_comm y.hg, show fxx / Mom.lit 2 * x.hg.G a * x.hg.G b = fxx / Mom.lit 2 * x.hg.G b * x.hg.G a by ring,
        show fyy / Mom.lit 2 * y.hg.G a * y.hg.G b = fyy / Mom.lit 2 * y.hg.G b * y.hg.G a by ring]
      exact hoff b a hab
  obtain ⟨r, s, hr, hs, hw⟩ := hw
  refine ⟨r, s, hr, hs, ?_⟩
  have hk : ∀ i, i ∈ keys w.diagmap ↔ i ∈ keys x.hg.diagmap ∨ i ∈ keys y.hg.diagmap := by
    intro i
    rw [← find?_isSome, ← find?_isSome, ← find?_isSome, d]
    cases find? x.hg.diagmap i <;> cases find? y.hg.diagmap i <;> simp [diagMerge]
  cases hb : CCmp.eqb (fxy / Mom.lit 2) (0 : R) with
  | true =>
    rw [hb] at hz
    simp only [Bool.not_true, Bool.false_eq_true, if_false, Option.map_some, Option.some_inj] at hz
    subst hz
    rw [hw, eqb0 _ hb]; ring
  | false =>
    obtain ⟨z2, e2, a2⟩ := mixedLoop_added (fxy / Mom.lit 2) x.hg.diagmap y.hg.diagmap v
      (fun i hi => (hk i).2 (Or.inl hi)) (fun i hi => (hk i).2 (Or.inr hi))
    rw [hb, e2 u] at hz
    simp only [Bool.not_false, if_true, Option.map_some, Option.some_inj] at hz
    subst hz
    rw [a2.H, hw, mixedAdd_eq _ _ hx.valid hy.valid]

end Unc
