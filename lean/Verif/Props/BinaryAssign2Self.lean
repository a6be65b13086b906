import Verif.Lemmas.Assign2Self
import Verif.Props.BinaryAssign2

/-!
# C34: in-place `binary_assign` of `UReal2` with the same object as both arguments
-/

namespace Unc.Props
open Unc SMap HessGrad

section
variable {R : Type*} [Field R] [LinearOrder R] [IsStrictOrderedRing R]

theorem self_loop (u : Moments R) {x : HessGrad R} (hx : x.Valid) (bx : x.Below) (fx fy hxx hyy : R) (s t : Bool) :
    ∃ X0 Y0 T T' z, x.hessEntries s = some X0 ∧ x.hessEntries t = some Y0 ∧ idsT T = idsE X0 ∧ idsT T' = idsE Y0 ∧
      (∀ i j b, ((i, j), b) ∈ T → i ≠ j → b = false → s = false ∧ ∃ c, i < j ∧ j < c ∧ i ∈ keys x.diagmap ∧ j ∈ keys x.diagmap ∧ c ∈ keys x.diagmap) ∧
      (∀ i j b, ((i, j), b) ∈ T' → i ≠ j → b = false → t = false ∧ ∃ c, i < j ∧ j < c ∧ i ∈ keys x.diagmap ∧ j ∈ keys x.diagmap ∧ c ∈ keys x.diagmap) ∧
      UReal2.assignSelfLoop u fx fy hxx hyy (x.fuel + x.fuel) x (KeyIt.start x s) (KeyIt.start x t) = some z ∧ z.Srt ∧
      InvO u x fx fy hxx hyy T T' z [] [] := by
  have one : ∀ s : Bool, ∃ X0 T0, x.hessEntries s = some X0 ∧ idsT T0 = idsE X0 ∧ (HessIt.start x.diagmap x.trimap s).trace x.fuel = some T0 ∧
      PosS x T0 ∧ (∀ a, (a, a) ∈ idsT T0 ↔ a ∈ keys x.diagmap) ∧ T0.length < x.fuel := by
    intro s
    obtain ⟨X0, T0, Y0, -, ex, -, hids, L, -⟩ := assignLoop_spec u fx fy hxx hyy hx hx bx bx s s
    obtain ⟨T1, hT, h1⟩ := trace_of_loop _ _ _ ex
    have he : idsT T1 = idsT T0 := h1.trans hids.symm
    have hm : ∀ p ∈ T1, p.1.1 ≤ p.1.2 ∧ p.1.1 ∈ keys x.diagmap ∧ p.1.2 ∈ keys x.diagmap := by
      intro p hp
      have : p.1 ∈ idsT T0 := he ▸ List.mem_map.2 ⟨p, hp, rfl⟩
      obtain ⟨q, hq, hqp⟩ := List.mem_map.1 this
      exact hqp ▸ L.memT q hq
    refine ⟨X0, T1, ex, h1, hT, ⟨hm, ?_, fun a => by rw [he]; exact L.oneT a, fun p hp => Prod.Lex.lt_iff.2 (Or.inl (bx _ (hm p hp).2.1))⟩,
      fun a => ⟨fun h => ?_, fun h => ?_⟩, ?_⟩
    · have h2 : (idsT T0).Pairwise fun p p' => (toLex p : IdPair) ≤ toLex p' := by
        rw [List.pairwise_map]; exact L.sortT
      rw [← he, List.pairwise_map] at h2
      exact h2
    · obtain ⟨q, hq, hqp⟩ := List.mem_map.1 h
      have := (hm q hq).2.1
      rw [hqp] at this
      exact this
    · rw [he]; exact L.diagT a h
    · have hl : T1.length = X0.length := by simpa using congrArg List.length h1
      rw [hl]; exact loop_length' _ _ _ ex
  obtain ⟨X0, T, ex, iT, hT, pT, mT, lT⟩ := one s
  obtain ⟨Y0, T', ey, iT', hT', pT', mT', lT'⟩ := one t
  have start : InvO u x fx fy hxx hyy T T' x T T' := by
    refine ⟨⟨pT, pT', fun a => (mT a).trans (mT' a).symm, fun _ _ => rfl, fun a ha => ?_, fun a b hab h => ?_⟩, List.suffix_refl _, List.suffix_refl _,
      fun _ _ _ h => h, fun _ _ _ h => h, fun _ _ _ => rfl, fun p _ h1 h2 => by simp [selfH, h1, h2]⟩
    · rw [mT, mem_vars_iff_cell u] at ha
      rw [Option.not_isSome_iff_eq_none.1 ha]; rfl
    · exact (hx.tri a b ((mem_tri_iff_cell u _ hab).2 h)).2
  obtain ⟨z, ez, sz, pz⟩ := self_run (u := u) (fx := fx) (fy := fy) (hxx := hxx) (hyy := hyy) (InvO u x fx fy hxx hyy T T')
    (fun _ _ _ _ _ _ _ h hl o => h.stepX pT (fun a => (mT a).2) hl o) (fun _ _ _ _ _ _ _ h hl o => h.stepY pT' (fun a => (mT' a).2) hl o)
    (fun _ _ _ _ _ _ _ _ _ h o o' => h.stepXY pT (fun a => (mT a).2) o o') (x.fuel + x.fuel) _ _ _ _ _ _ _ _ _ hT hT' (SimIt.start hx s) (SimIt.start hx t) hx.srt
    pT.below pT'.below start (by omega)
  exact ⟨X0, Y0, T, T', z, ex, ey, iT, iT', trace_flags hx.srt _ _ _ _ hT (SimIt.start hx s), trace_flags hx.srt _ _ _ _ hT' (SimIt.start hx t), ez, sz, pz⟩

/-- The result of `binary_assign(x, x, …)`, before its mixed second derivatives are worked out. -/
theorem self_parts (u : Moments R) {x : UReal2 R} (hx : Ok2 x) (f fx fy fxx fyy fxy : R) :
    ∃ X0 Y0 T T' w z, x.hg.hessEntries (CCmp.eqb (fxx / Mom.lit 2) 0) = some X0 ∧ x.hg.hessEntries (CCmp.eqb (fyy / Mom.lit 2) 0) = some Y0 ∧
      idsT T = idsE X0 ∧ idsT T' = idsE Y0 ∧
      (∀ i j b, ((i, j), b) ∈ T → i ≠ j → b = false → CCmp.eqb (fxx / Mom.lit 2) (0 : R) = false ∧
        ∃ c, i < j ∧ j < c ∧ i ∈ keys x.hg.diagmap ∧ j ∈ keys x.hg.diagmap ∧ c ∈ keys x.hg.diagmap) ∧
      (∀ i j b, ((i, j), b) ∈ T' → i ≠ j → b = false → CCmp.eqb (fyy / Mom.lit 2) (0 : R) = false ∧
        ∃ c, i < j ∧ j < c ∧ i ∈ keys x.hg.diagmap ∧ j ∈ keys x.hg.diagmap ∧ c ∈ keys x.hg.diagmap) ∧
      UReal2.binaryAssignSelf u x f fx fy fxx fyy fxy = some z ∧ Ok2 z ∧ z.mu = f ∧ z.hg.vars = x.hg.vars ∧
      (∀ i, z.hg.momOf i = x.hg.momOf i) ∧ (∀ i, z.hg.G i = (1 + fx) * (1 + fy) * x.hg.G i) ∧
      (∀ a, w.cell u a a = (x.hg.cell u a a).map (selfDiag fx fy (fxx / Mom.lit 2) (fyy / Mom.lit 2))) ∧
      (∀ p, GoodS T T' p → hAt u w p.1 p.2 = selfH u x.hg fx fy (fxx / Mom.lit 2) (fyy / Mom.lit 2) T T' p) ∧
      ∀ a b, a ≤ b → hAt u z.hg a b = hAt u w a b + fxy * (z.hg.G a * z.hg.G b) := by
  obtain ⟨X0, Y0, T, T', w, ex, ey, iT, iT', fT, fT', ew, sw, iw⟩ := self_loop u hx.valid hx.below fx fy (fxx / Mom.lit 2) (fyy / Mom.lit 2)
    (CCmp.eqb (fxx / Mom.lit 2) 0) (CCmp.eqb (fyy / Mom.lit 2) 0)
  have cw : ∀ a, w.cell u a a = (x.hg.cell u a a).map (selfDiag fx fy (fxx / Mom.lit 2) (fyy / Mom.lit 2)) := fun a => iw.diag.done a (by simp)
  have hwv : ∀ a, a ∈ keys w.diagmap ↔ a ∈ keys x.hg.diagmap := fun a => by rw [mem_vars_iff_cell u, mem_vars_iff_cell u, cw]; simp
  have hG : ∀ a, w.G a = (1 + fx) * (1 + fy) * x.hg.G a := fun a => by
    rw [G_eq_cell u, cw, G_eq_cell u]; cases x.hg.cell u a a <;> simp [selfDiag]
  have hM : ∀ a, w.momOf a = x.hg.momOf a := fun a => by
    rw [momOf_eq_cell u, cw, momOf_eq_cell u]; cases x.hg.cell u a a <;> simp [selfDiag]
  obtain ⟨z, ez, mz⟩ : ∃ z, (if !CCmp.eqb (fxy / Mom.lit 2) (0 : R) then UReal2.assignMixed u (fxy / Mom.lit 2) w w.diagmap.keys w
      else some w) = some z ∧ MixP u w z (fun a b => a ∈ keys w.diagmap ∧ b ∈ keys w.diagmap ∧ a ≤ b)
      (fun a b => if a ∈ keys w.diagmap ∧ b ∈ keys w.diagmap ∧ a ≤ b then fxy / Mom.lit 2 * (w.G a * w.G b + w.G b * w.G a) else 0) := by
    cases h0 : CCmp.eqb (fxy / Mom.lit 2) (0 : R) with
    | false =>
      simp only [Bool.not_false, if_true]
      exact assignMixed_spec u _ w _ w sw sw.1 fun _ h => h
    | true =>
      rw [(eqb_iff _ _).1 h0]
      exact ⟨w, rfl, sw, fun _ => rfl, fun _ _ => by simp, fun _ _ _ h => Or.inl h⟩
  have hzv : ∀ i, i ∈ keys z.diagmap ↔ i ∈ keys x.hg.diagmap := fun i => (mz.keys i).trans (hwv i)
  refine ⟨X0, Y0, T, T', w, ⟨z, f⟩, ex, ey, iT, iT', fT, fT', ?_, ⟨?_, ?_⟩, rfl, ?_, fun i => ?_, fun i => (mz.G i).trans (hG i), cw, fun p gp => iw.done p gp (by simp) (by simp),
    fun a b hab => ?_⟩
  · unfold UReal2.binaryAssignSelf
    simp only [ew, Option.bind_some, ez, Option.map_some]
  · refine valid_of_cells u mz.srt fun a b hab h => ?_
    rw [← mem_vars_iff_cell, ← mem_vars_iff_cell, hzv, hzv]
    rcases mz.some a b hab h with h | h
    · exact iw.diag.orig a b hab h
    · exact ⟨(hwv a).1 h.1, (hwv b).1 h.2.1⟩
  · exact fun i hi => hx.below i ((hzv i).1 hi)
  · ext i
    simp only [vars, List.mem_toFinset]
    exact hzv i
  · rw [← hM i, momOf_eq_cell u, momOf_eq_cell u]
    have := congrArg (fun o => o.map Prod.snd) (mz.diag i)
    simpa [Option.map_map, Function.comp_def] using this
  · simp only
    rw [mz.hh, mz.G, mz.G]
    congr 1
    have h2 : (Mom.lit 2 : R) = 2 := by simp [Mom.lit]
    by_cases h : a ∈ keys w.diagmap ∧ b ∈ keys w.diagmap
    · rw [if_pos ⟨h.1, h.2, hab⟩, h2]; ring
    · have zero : ∀ a, a ∉ keys w.diagmap → w.G a = 0 := fun a ha => by simp [G, find?_eq_none.2 ha]
      rw [if_neg fun h' => h ⟨h'.1, h'.2.1⟩]
      rcases not_and_or.1 h with h | h
      · simp [zero a h]
      · simp [zero b h]

/-- **C34** `binary_assign(x, x, …)` succeeds for all `x` and leaves a usable value with the variables of `x` and their moments.  Each first
derivative of `x` gets multiplied by `(1 + dfdx) * (1 + dfdy)` instead of `dfdx + dfdy`; the unmixed second derivatives left are given too,
the right ones being `(dfdx + dfdy) * D2 x i i + (ddfdxdx + 2 * ddfdxdy + ddfdydy) * G x i ^ 2`. -/
theorem C34_same (u : Moments R) {x : UReal2 R} (hx : Ok2 x) (f fx fy fxx fyy fxy : R) :
    ∃ z, UReal2.binaryAssignSelf u x f fx fy fxx fyy fxy = some z ∧ Ok2 z ∧ z.mu = f ∧ z.hg.vars = x.hg.vars ∧
      (∀ i, z.hg.momOf i = x.hg.momOf i) ∧ (∀ i, z.hg.G i = (1 + fx) * (1 + fy) * x.hg.G i) ∧
      ∀ i, D2 z i i = (1 + fx) * (1 + fy) * (D2 x i i + (fxx + (1 + fx) * fyy) * x.hg.G i ^ 2) +
        2 * fxy * ((1 + fx) * (1 + fy) * x.hg.G i) ^ 2 := by
  obtain ⟨-, -, -, -, w, z, -, -, -, -, -, -, ez, hz, hmu, hv, hM, hG, cw, -, hh⟩ := self_parts u hx f fx fy fxx fyy fxy
  refine ⟨z, ez, hz, hmu, hv, hM, hG, fun i => ?_⟩
  have hH : ∀ hg : HessGrad R, hg.H i i = hAt u hg i i := fun hg => by
    rw [H_eq_cell u, min_self, max_self]; rfl
  have h2 : (Mom.lit 2 : R) = 2 := by simp [Mom.lit]
  have hw : hAt u w i i = (1 + fy) * ((1 + fx) * (hAt u x.hg i i + fxx / 2 * x.hg.G i * x.hg.G i) +
      fyy / 2 * ((1 + fx) * x.hg.G i) * ((1 + fx) * x.hg.G i)) := by
    rw [G_eq_cell u]
    unfold hAt
    rw [cw]
    cases x.hg.cell u i i <;> simp [selfDiag, h2]
  unfold D2
  rw [hH, hH, hh i i le_rfl, hw, hG]
  ring

/-- **C34** The mixed second derivatives `binary_assign(x, x, …)` leaves, if the iterations over `x` work.  Where `x` does not store an element
for the pair and `ddfdydy` is 0, the iterator of `y` does not stop at the element inserted before.  The right ones are
`(dfdx + dfdy) * D2 x a b + (ddfdxdx + 2 * ddfdxdy + ddfdydy) * G x a * G x b`. -/
theorem C34_same_mixed (u : Moments R) {x : UReal2 R} (hx : Ok2 x) (f fx fy : R) {fxx fyy : R} (fxy : R) (hix : IterOk x fxx) (hiy : IterOk x fyy) :
    ∃ z, UReal2.binaryAssignSelf u x f fx fy fxx fyy fxy = some z ∧ (∀ i, z.hg.G i = (1 + fx) * (1 + fy) * x.hg.G i) ∧
      ∀ a b, a < b → D2 z a b = (if fyy = 0 ∧ toLex (a, b) ∉ keys x.hg.trimap then 1 else 1 + fy) * ((1 + fx) * (D2 x a b + fxx * z.hg.G a * x.hg.G b) +
        fyy * z.hg.G a * x.hg.G b) + 2 * fxy * z.hg.G a * z.hg.G b := by
  obtain ⟨X0, Y0, T, T', w, z, ex, ey, iT, iT', fT, fT', ez, -, -, -, -, hG, -, hw, hh⟩ := self_parts u hx f fx fy fxx fyy fxy
  refine ⟨z, ez, hG, fun a b hab => ?_⟩
  obtain ⟨x1, -, x3⟩ := iter_visits hx hix ex
  obtain ⟨y1, -, y3⟩ := iter_visits hx hiy ey
  have flag : ∀ {g : R} {L : List ((VId × VId) × Bool)}, IterOk x g → (∀ i j b, ((i, j), b) ∈ L → i ≠ j → b = false → CCmp.eqb (g / Mom.lit 2) (0 : R) = false ∧
        ∃ c, i < j ∧ j < c ∧ i ∈ keys x.hg.diagmap ∧ j ∈ keys x.hg.diagmap ∧ c ∈ keys x.hg.diagmap) → ∀ c, ((a, b), c) ∈ L → c = true := by
    intro g L hi hL c hc
    by_contra h
    obtain ⟨h1, c, i1, i2, m1, m2, m3⟩ := hL a b c hc hab.ne (by simpa using h)
    have h3 : 3 ≤ x.hg.size := by
      have : ({a, b, c} : Finset VId) ⊆ x.hg.vars := by
        intro k hk
        simp only [Finset.mem_insert, Finset.mem_singleton] at hk
        simp only [vars, List.mem_toFinset]
        rcases hk with rfl | rfl | rfl <;> assumption
      have hc := Finset.card_le_card this
      rw [Finset.card_insert_of_notMem (by simp; omega), Finset.card_insert_of_notMem (by simp; omega), Finset.card_singleton] at hc
      refine hc.trans ((List.toFinset_card_le _).trans ?_)
      simp [size]
    rcases hi with h0 | h0 | h0
    · rw [h0, zero_div, (eqb_iff (0 : R) 0).2 rfl] at h1
      simp at h1
    · omega
    · omega
  have good : GoodS T T' (a, b) := ⟨hab, by rw [iT]; exact x1 a b, by rw [iT']; exact y1 a b, flag hix fT, flag hiy fT'⟩
  have hH : ∀ hg : HessGrad R, hg.H a b = hAt u hg a b := fun hg => by
    rw [H_eq_cell u, min_eq_left hab.le, max_eq_right hab.le]; rfl
  have h2 : (Mom.lit 2 : R) = 2 := by simp [Mom.lit]
  have G0 : ∀ i : VId, i ∉ x.hg.vars → x.hg.G i = 0 := by
    intro i h
    simp only [vars, List.mem_toFinset] at h
    simp [G, find?_eq_none.2 h]
  have stored : fyy = 0 → ((a, b) ∈ idsT T' ↔ toLex (a, b) ∈ keys x.hg.trimap) := by
    intro h0
    rw [h0, zero_div, (eqb_iff (0 : R) 0).2 rfl] at ey
    obtain ⟨es, he, v⟩ := C46_skip hx.valid
    obtain rfl : es = Y0 := Option.some_inj.1 (he.symm.trans ey)
    rw [iT', idsE, List.mem_map]
    simp only [Prod.mk.injEq]
    rw [v.all a b]
    exact ⟨fun h => h.resolve_left fun h => hab.ne h.1, Or.inr⟩
  have eX : (if (a, b) ∈ idsT T then (1 + fx) * (hAt u x.hg a b + fxx / 2 * z.hg.G a * x.hg.G b) else hAt u x.hg a b) =
      (1 + fx) * (hAt u x.hg a b + fxx / 2 * z.hg.G a * x.hg.G b) := by
    split_ifs with h1
    · rfl
    · obtain ⟨n1, n2⟩ := x3 a b hab.le (by rw [← iT]; exact h1)
      rw [← hH, n1]
      rcases n2 with n2 | n2 | n2
      · simp [n2]
      · simp [hG, G0 a n2]
      · simp [G0 b n2]
  have e := hw (a, b) good
  simp only [selfH, h2, ← hG] at e
  rw [eX] at e
  unfold D2
  rw [hH z.hg, hh a b hab.le, e, hH x.hg]
  by_cases hT' : (a, b) ∈ idsT T'
  · rw [if_pos hT', if_neg fun h => h.2 ((stored h.1).1 hT')]
    ring
  · obtain ⟨n1, n2⟩ := y3 a b hab.le (by rw [← iT']; exact hT')
    rw [hH] at n1
    rw [if_neg hT', n1]
    by_cases h0 : fyy = 0
    · rw [if_pos ⟨h0, fun h => hT' ((stored h0).2 h)⟩, h0]; ring
    · rcases n2.resolve_left h0 with n | n
      · simp [hG, G0 a n]
      · simp [hG, G0 b n]

/-- **C34** The unmixed second derivatives `binary_assign(x, y, …)` leaves with different objects, for all operands, whether the iterations work or
not.  The right ones are `fx * x_aa + fxx * x_a ^ 2 + 2 * fxy * x_a * y_a + fyy * y_a ^ 2 + fy * y_aa`. -/
theorem C34_unmixed (u : Moments R) {x y : UReal2 R} (hx : Ok2 x) (hy : Ok2 y) (f fx fy fxx fyy fxy : R) :
    ∃ z, UReal2.binaryAssign u x y f fx fy fxx fyy fxy = some z ∧
      ∀ a, D2 z a a = (1 + fx) * (D2 x a a + fxx * x.hg.G a ^ 2) + fyy * y.hg.G a ^ 2 + fy * D2 y a a +
        2 * fxy * ((1 + fx) * x.hg.G a + fy * y.hg.G a) * y.hg.G a := by
  obtain ⟨X0, T0, Y0, w, z, -, -, -, L, -, ez, -, -, done, -, hG, -, hh⟩ := assign_parts u hx hy f fx fy fxx fyy fxy
  refine ⟨z, ez, fun a => ?_⟩
  have hH : ∀ hg : HessGrad R, hg.H a a = hAt u hg a a := fun hg => by
    rw [H_eq_cell u, min_self, max_self]; rfl
  have h2 : (Mom.lit 2 : R) = 2 := by simp [Mom.lit]
  have hw : hAt u w a a = newH u x.hg y.hg fx fy (fxx / Mom.lit 2) (fyy / Mom.lit 2) T0 Y0 (a, a) := (done _ (L.good_diag a)).hhess
  have absent : ∀ (t : HessGrad R), a ∉ keys t.diagmap → t.G a = 0 ∧ t.H a a = 0 := fun t h => by
    simp [G, H, find?_eq_none.2 h]
  unfold D2
  rw [hH z.hg, hh a a le_rfl, hw, newH, hG]
  simp only [h2, lt_irrefl, if_false]
  rw [show ((x.hg.cell u a a).map Diag.hhess).getD 0 = x.hg.H a a from (hH x.hg).symm]
  have eX : (if (a, a) ∈ idsT T0 then (1 + fx) * (x.hg.H a a + fxx / 2 * x.hg.G a * x.hg.G a) else x.hg.H a a) =
      (1 + fx) * (x.hg.H a a + fxx / 2 * x.hg.G a * x.hg.G a) := by
    split_ifs with h
    · rfl
    · obtain ⟨h1, h3⟩ := absent x.hg fun h0 => h (L.diagT a h0)
      rw [h1, h3]; ring
  have eY : (if (a, a) ∈ idsE Y0 then fyy / 2 * y.hg.G a * y.hg.G a + fy * y.hg.H a a else 0) = fyy / 2 * y.hg.G a * y.hg.G a + fy * y.hg.H a a := by
    split_ifs with h
    · rfl
    · obtain ⟨h1, h3⟩ := absent y.hg fun h0 => h (L.diagY a h0)
      rw [h1, h3]; ring
  rw [eX, eY]
  ring

/-- The full statement with the same object as both arguments: `binary_assign(x, x, …)` leaves `x` equal to `binary(x, x, …)`. -/
def C34_same_statement (R : Type*) [Zero R] [One R] [Neg R] [Add R] [Sub R] [Mul R] [Div R] [NatCast R] [CCmp R] : Prop :=
  ∀ (u : Moments R) (x : UReal2 R) (f fx fy fxx fyy fxy : R), Ok2 x →
    UReal2.binaryAssignSelf u x f fx fy fxx fyy fxy = UReal2.binary u x x f fx fy fxx fyy fxy

/-- **C34** With the same object as both arguments the first derivatives left are those of `binary(x, x, …)` if and only if they are all zero
in `x` or `dfdx * dfdy = -1`. -/
theorem C34_same_gradient (u : Moments R) {x : UReal2 R} (hx : Ok2 x) (f fx fy fxx fyy fxy : R) :
    ∃ z z', UReal2.binaryAssignSelf u x f fx fy fxx fyy fxy = some z ∧ UReal2.binary u x x f fx fy fxx fyy fxy = some z' ∧
      ((∀ i, z.hg.G i = z'.hg.G i) ↔ (∀ i, x.hg.G i = 0) ∨ fx * fy = -1) := by
  obtain ⟨z, e, -, -, -, -, g, -⟩ := C34_same u hx f fx fy fxx fyy fxy
  obtain ⟨z', e', -⟩ := binary_lawfree hx hx f fx fy fxx fyy fxy
  have g' := (C22_binary hx hx (e' u)).2.1
  refine ⟨z, z', e, e' u, fun h => ?_, fun h i => ?_⟩
  · by_contra hc
    push Not at hc
    obtain ⟨⟨i, hi⟩, h1⟩ := hc
    have := h i
    rw [g, g'] at this
    have h0 : (fx * fy + 1) * x.hg.G i = 0 := by linear_combination this
    rcases mul_eq_zero.1 h0 with h2 | h2
    · exact h1 (by linear_combination h2)
    · exact hi h2
  · rw [g, g']
    rcases h with h | h
    · rw [h]; ring
    · linear_combination x.hg.G i * h

/-- **C34** So it is wrong for every function which does not have `dfdx * dfdy = -1`. -/
theorem C34_same_wrong (u : Moments R) {x : UReal2 R} (hx : Ok2 x) (f : R) {fx fy : R} (fxx fyy fxy : R) {i : VId} (hi : x.hg.G i ≠ 0) (h : fx * fy ≠ -1) :
    UReal2.binaryAssignSelf u x f fx fy fxx fyy fxy ≠ UReal2.binary u x x f fx fy fxx fyy fxy := by
  intro hc
  obtain ⟨z, z', e, e', g⟩ := C34_same_gradient u hx f fx fy fxx fyy fxy
  obtain rfl : z = z' := Option.some_inj.1 (e.symm.trans (hc.trans e'))
  exact (g.1 fun _ => rfl).elim (fun h0 => hi (h0 i)) h

/-- **C34** The square of any value with an uncertainty, written `binary_assign(x, x, …)`, is wrong. -/
theorem C34_same_square (u : Moments R) {x : UReal2 R} (hx : Ok2 x) {i : VId} (hi : x.hg.G i ≠ 0) :
    UReal2.binaryAssignSelf u x (x.mu * x.mu) x.mu x.mu 0 0 1 ≠ UReal2.binary u x x (x.mu * x.mu) x.mu x.mu 0 0 1 :=
  C34_same_wrong u hx _ 0 0 1 hi (by nlinarith [mul_self_nonneg x.mu])

end

/-- a variable with mean 3 and uncertainty 2 -/
def exSame : UReal2 ℝ := ⟨⟨[(1, ⟨2, 0, exN⟩)], []⟩, 3⟩

theorem exSame_ok : Ok2 exSame := ⟨⟨by simp [exSame, Sorted], by simp [exSame], by simp [exSame]⟩, by intro k hk; simp [exSame] at hk; subst hk; decide⟩

theorem exSame_G : exSame.hg.G 1 = 2 := by simp [exSame, G, find?]

/-- **C34** is false also with the same object as both arguments. -/
theorem C34_same_false : ¬ C34_same_statement ℝ := fun h =>
  C34_same_square exN exSame_ok (i := 1) (by rw [exSame_G]; exact two_ne_zero) (h _ _ _ _ _ _ _ _ exSame_ok)

/-- the square of 3 ± 2: the first derivative is 32 instead of 12 -/
example : ∃ z, UReal2.binaryAssignSelf exN exSame 9 3 3 0 0 1 = some z ∧ z.mu = 9 ∧ z.hg.G 1 = 32 := by
  obtain ⟨z, e, -, m, -, -, g, -⟩ := C34_same exN exSame_ok 9 3 3 0 0 1
  exact ⟨z, e, m, by rw [g, exSame_G]; norm_num⟩

/-- `x - x`: the first derivatives are right -/
example : ∃ z z', UReal2.binaryAssignSelf exN exSame 0 1 (-1) 0 0 0 = some z ∧ UReal2.binary exN exSame exSame 0 1 (-1) 0 0 0 = some z' ∧
    ∀ i, z.hg.G i = z'.hg.G i := by
  obtain ⟨z, z', e, e', h⟩ := C34_same_gradient exN exSame_ok 0 1 (-1) 0 0 0
  exact ⟨z, z', e, e', h.2 (Or.inr (by norm_num))⟩

/-- a sum of two variables -/
def exSame2 : UReal2 ℝ := ⟨⟨[(1, ⟨2, 0, exN⟩), (2, ⟨1, 0, exN⟩)], []⟩, 3⟩

theorem exSame2_ok : Ok2 exSame2 := ⟨⟨by simp [exSame2, Sorted], by simp [exSame2], by simp [exSame2]⟩, by
  intro k hk
  simp [exSame2] at hk
  rcases hk with rfl | rfl <;> decide⟩

/-- its square: the mixed second derivative is 2 * 32 * 16 instead of 4 -/
example : ∃ z, UReal2.binaryAssignSelf exN exSame2 9 3 3 0 0 1 = some z ∧ D2 z 1 2 = 1024 := by
  obtain ⟨z, e, g, h⟩ := C34_same_mixed exN exSame2_ok 9 3 3 1 (Or.inl rfl) (Or.inl rfl)
  have g1 : exSame2.hg.G 1 = 2 := by simp [exSame2, G, find?]
  have g2 : exSame2.hg.G 2 = 1 := by simp [exSame2, G, find?]
  have d : D2 exSame2 1 2 = 0 := by simp [exSame2, D2, H, SMap.get, find?]
  refine ⟨z, e, ?_⟩
  rw [h 1 2 (by norm_num), g 1, g 2, g1, g2, d, if_pos ⟨rfl, by simp [exSame2]⟩]
  norm_num

/-- a product: the second derivative is 56 instead of 8 -/
example : ∃ z, UReal2.binaryAssign exN exSame exSame2 9 3 3 0 0 1 = some z ∧ D2 z 1 1 = 56 := by
  obtain ⟨z, e, h⟩ := C34_unmixed exN exSame_ok exSame2_ok 9 3 3 0 0 1
  have g1 : exSame2.hg.G 1 = 2 := by simp [exSame2, G, find?]
  have d : D2 exSame2 1 1 = 0 := by simp [exSame2, D2, H, find?]
  have d' : D2 exSame 1 1 = 0 := by simp [exSame, D2, H, find?]
  refine ⟨z, e, ?_⟩
  rw [h, g1, exSame_G, d, d']
  norm_num

end Unc.Props
