import Verif.Lemmas.UReal2Ops

/-!
# Variables without derivatives stay so

Also with the second-order iteration as it is written: the entries shown at a pair have either the stored value or 0.
-/

namespace Unc
open SMap HessGrad

section zero
variable {R : Type*} [Zero R]

theorem hessSpec_val (skip : Bool) (lk : VId → Diag R) (dm : SMap VId (Diag R)) :
    ∀ (tri : SMap IdPair R), Sorted dm → TriOf dm tri → Sorted tri → ∀ e ∈ hessSpec skip lk dm tri, e.id1 < e.id2 →
      e.val = 0 ∨ (e.key, e.val) ∈ tri := by
  induction dm with
  | nil => intro tri _ _ _ e he; simp [hessSpec] at he
  | cons p t ih =>
    intro tri hs htri hst e he hlt
    obtain ⟨i, d⟩ := p
    have hs' := sorted_cons.1 hs
    simp only [hessSpec, List.mem_cons, List.mem_append, List.mem_map] at he
    rcases he with rfl | ⟨q, hq, rfl⟩ | he
    · exact absurd hlt (lt_irrefl _)
    · obtain ⟨h1, h2, -, -⟩ := row_take htri hq
      unfold rowEnt at hlt ⊢
      cases skip with
      | true =>
        right
        simp only [if_true, Ent.key]
        have : toLex (i, (ofLex q.1).2) = q.1 := by rw [← h2]; rfl
        rw [this]
        exact h1
      | false =>
        cases t with
        | nil => simp
        | cons r t =>
          simp only [Bool.false_eq_true, if_false, Ent.key]
          by_cases hk : q.1 = toLex (i, r.1)
          · rw [if_pos hk]; right; rw [← hk]; exact h1
          · rw [if_neg hk]; exact Or.inl rfl
    · obtain ⟨h1, h2, _⟩ := row_drop hs htri hst
      exact (ih _ hs'.2 h1 h2 e he hlt).imp_right fun h => (List.dropWhile_sublist _).subset h

end zero

section ring
variable {R : Type*} [CommRing R] [Div R] [CCmp R]

theorem entsAt_mem {hg : HessGrad R} (hv : hg.Valid) {skip : Bool} {a b : VId} (hab : a < b) {e : Ent R}
    (he : e ∈ entsAt skip hg a b) : e.d1 = hg.dOf a ∧ e.d2 = hg.dOf b ∧ (e.val = 0 ∨ e.val = hg.H a b) := by
  obtain ⟨h1, h2⟩ := List.mem_filter.1 he
  obtain ⟨rfl, rfl⟩ := key_eq_iff.1 (of_decide_eq_true h2)
  obtain ⟨-, -, -, h3, h4⟩ := (entries_facts hv skip).1 e h1
  refine ⟨h3, h4, (hessSpec_val skip _ _ _ hv.dsorted hv.triOf hv.tsorted e h1 hab).imp_right fun h => ?_⟩
  have hf := find?_of_mem hv.tsorted h
  rw [of_decide_eq_true h2] at hf
  rw [H_lt _ hab, hf]
  rfl

/-- What the entry writes is 0 if the derivatives are. -/
theorem entsAt_zero {hg : HessGrad R} (hv : hg.Valid) {skip : Bool} {a b : VId} (hab : a < b)
    (hG : hg.G a = 0 ∨ hg.G b = 0) (hH : hg.H a b = 0) {e : Ent R} (he : e ∈ entsAt skip hg a b) (fx hxx : R) :
    e.d1.grad * e.d2.grad = 0 ∧ e.val = 0 ∧ valX fx hxx e = 0 := by
  obtain ⟨h1, h2, h3⟩ := entsAt_mem hv hab he
  have hg0 : e.d1.grad * e.d2.grad = 0 := by
    rw [h1, h2, G_dOf, G_dOf]
    rcases hG with h | h <;> rw [h] <;> simp
  have hv0 : e.val = 0 := h3.elim _root_.id fun h => h.trans hH
  exact ⟨hg0, hv0, by rw [valX, mul_assoc, hg0, hv0]; simp⟩

theorem hProc_zero {fx fy hxx hyy : R} (o : Option R) (ex ey : List (Ent R)) (ho : o.getD 0 = 0)
    (hx : ∀ e ∈ ex, valX fx hxx e = 0) (hy : ∀ e ∈ ey, e.d1.grad * e.d2.grad = 0 ∧ e.val = 0) :
    (hProc fx fy hxx hyy o ex ey).getD 0 = 0 := by
  obtain ⟨n, hn⟩ : ∃ n, n = ex.length + ey.length := ⟨_, rfl⟩
  induction n using Nat.strong_induction_on generalizing ex ey o with
  | _ n ih =>
  match ex, ey with
  | [], [] => simpa [hProc] using ho
  | e :: ex, [] =>
    rw [hProc]
    exact ih _ (by simp at hn ⊢; omega) _ _ _ (by simpa using hx e (by simp)) (fun e' h' => hx e' (by simp [h'])) (by simp) rfl
  | [], e :: ey =>
    rw [hProc]
    obtain ⟨h1, h2⟩ := hy e (by simp)
    exact ih _ (by simp at hn ⊢; omega) _ _ _ (by simp [mul_assoc, h1, h2]) (by simp) (fun e' h' => hy e' (by simp [h'])) rfl
  | e :: ex, e' :: ey =>
    rw [hProc]
    obtain ⟨h1, h2⟩ := hy e' (by simp)
    exact ih _ (by simp at hn ⊢; omega) _ _ _ (by simp [mul_assoc, h1, h2, hx e (by simp)])
      (fun e' h' => hx e' (by simp [h'])) (fun e' h' => hy e' (by simp [h'])) rfl

theorem unary_H_zero {x : UReal2 R} (hv : x.hg.Valid) {f fx fxx : R} {z : UReal2 R} {u : Moments R}
    (hz : UReal2.unary u x f fx fxx = some z) {a b : VId} (hG : x.hg.G a = 0 ∨ x.hg.G b = 0) (hH : x.hg.H a b = 0) :
    z.hg.H a b = 0 := by
  obtain ⟨z', e, m, v, d, t⟩ := unary_cells u hv f fx fxx
  obtain rfl : z' = z := Option.some_inj.1 (e.symm.trans hz)
  have hoff : ∀ a b, a < b → (x.hg.G a = 0 ∨ x.hg.G b = 0) → x.hg.H a b = 0 → z'.hg.H a b = 0 := by
    intro a b hab hG hH
    rw [H_lt _ hab, t a b hab]
    cases hl : (entsAt (CCmp.eqb (fxx / Mom.lit 2) 0) x.hg a b).getLast? with
    | none => rfl
    | some e => exact (entsAt_zero hv hab hG hH (List.mem_of_getLast? hl) _ _).2.2
  rcases lt_trichotomy a b with hab | rfl | hab
  · exact hoff a b hab hG hH
  · rw [H_diag, d]
    rw [G_def, or_self] at hG
    rw [H_diag] at hH
    cases hf : find? x.hg.diagmap a with
    | none => simp
    | some dd => simp [hf] at hG hH; simp [hG, hH]
  · rw [H_comm]
    exact hoff b a hab hG.symm (by rw [H_comm]; exact hH)

theorem binary_H_zero {x y : UReal2 R} (hx : Ok2 x) (hy : Ok2 y) {f fx fy fxx fyy fxy : R} {a b : VId}
    {z : UReal2 R} {u : Moments R} (hz : UReal2.binary u x y f fx fy fxx fyy fxy = some z)
    (hGx : x.hg.G a = 0) (hGy : y.hg.G a = 0) (hHx : x.hg.H a b = 0) (hHy : y.hg.H a b = 0) :
    z.hg.H a b = 0 := by
  unfold UReal2.binary at hz
  simp only [hessEntries_eq _ hx.valid, hessEntries_eq _ hy.valid, Option.bind_some] at hz
  obtain ⟨w, e, v, d, t⟩ := binaryLoop_cells u hx.valid hy.valid hx.below hy.below
    (CCmp.eqb (fxx / Mom.lit 2) 0) (CCmp.eqb (fyy / Mom.lit 2) 0) fx fy (fxx / Mom.lit 2) (fyy / Mom.lit 2)
  rw [e, Option.bind_some] at hz
  have hw : w.H a b = 0 := by
    rcases lt_trichotomy a b with hab | rfl | hab
    · rw [H_lt _ hab, t a b hab]
      exact hProc_zero _ _ _ rfl (fun e he => (entsAt_zero hx.valid hab (Or.inl hGx) hHx he _ _).2.2)
        fun e he => ⟨(entsAt_zero hy.valid hab (Or.inl hGy) hHy he 0 0).1, (entsAt_zero hy.valid hab (Or.inl hGy) hHy he 0 0).2.1⟩
    · rw [H_diag, d]
      rw [G_def] at hGx hGy
      rw [H_diag] at hHx hHy
      cases hfx : find? x.hg.diagmap a <;> cases hfy : find? y.hg.diagmap a <;> simp [hfx] at hGx hHx <;>
        simp [hfy] at hGy hHy <;> simp [diagMerge, *]
    · rw [H_comm] at hHx hHy
      rw [H_comm, H_lt _ hab, t b a hab]
      exact hProc_zero _ _ _ rfl (fun e he => (entsAt_zero hx.valid hab (Or.inr hGx) hHx he _ _).2.2)
        fun e he => ⟨(entsAt_zero hy.valid hab (Or.inr hGy) hHy he 0 0).1, (entsAt_zero hy.valid hab (Or.inr hGy) hHy he 0 0).2.1⟩
  have hk : ∀ i, i ∈ keys w.diagmap ↔ i ∈ keys x.hg.diagmap ∨ i ∈ keys y.hg.diagmap := by
    intro i
    rw [← find?_isSome, ← find?_isSome, ← find?_isSome, d]
    cases find? x.hg.diagmap i <;> cases find? y.hg.diagmap i <;> simp [diagMerge]
  cases hb : CCmp.eqb (fxy / Mom.lit 2) (0 : R) with
  | true =>
    rw [hb] at hz
    simp only [Bool.not_true, Bool.false_eq_true, if_false, Option.map_some, Option.some_inj] at hz
    subst hz
    exact hw
  | false =>
    obtain ⟨z2, e2, a2⟩ := mixedLoop_added (fxy / Mom.lit 2) x.hg.diagmap y.hg.diagmap v
      (fun i hi => (hk i).2 (Or.inl hi)) (fun i hi => (hk i).2 (Or.inr hi))
    rw [hb, e2 u] at hz
    simp only [Bool.not_false, if_true, Option.map_some, Option.some_inj] at hz
    subst hz
    rw [a2.H, hw, mixedAdd_eq _ _ hx.valid hy.valid, hGx, hGy]
    ring

end ring
end Unc
