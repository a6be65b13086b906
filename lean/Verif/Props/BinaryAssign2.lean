import Verif.Model.BinaryAssign2
import Verif.Props.SecondOrder
import Verif.Lemmas.Assign2Val

/-!
# In-place `binary_assign` of `UReal2` (C34)
-/

namespace Unc.Props
open Unc SMap HessGrad

theorem upsert_fresh {K V : Type*} [LinearOrder K] {m : SMap K V} {k : K} {d : V} {f g : V → V}
    (hk : k ∉ keys m) (h : f d = g d) : upsert m k d f = upsert m k d g := by
  induction m with
  | nil => simp [upsert, h]
  | cons p t ih =>
    simp only [keys_cons, List.mem_cons, not_or] at hk
    simp only [upsert, ih hk.2, h, if_neg (Ne.symm hk.1)]

theorem loop_length {R : Type*} [Zero R] : ∀ (n : ℕ) (it : HessIt R) (es : List (Ent R)), it.loop n = some es → es.length < n
  | 0, _, _, h => by simp [HessIt.loop] at h
  | n + 1, it, es, h => by
    unfold HessIt.loop at h
    split at h
    · simp only [Option.bind_eq_some_iff, Option.map_eq_some_iff] at h
      obtain ⟨e, -, it', -, es', h, rfl⟩ := h
      simpa using loop_length n it' es' h
    · simp only [Option.some.injEq] at h
      subst h
      simp

section
variable {R : Type*} [Zero R] [One R] [Neg R] [Add R] [Sub R] [Mul R] [Div R] [NatCast R] [CCmp R]

theorem assignYNew_fresh (u : Moments R) {hg : HessGrad R} {e : Ent R} (h : hg.cell u e.id1 e.id2 = none) :
    UReal2.assignYNew u hg e = UReal2.binaryYNew u hg e := by
  unfold UReal2.assignYNew UReal2.binaryYNew
  congr 1
  unfold modHhess
  by_cases hij : e.id1 = e.id2
  · simp only [cell, hij, if_true, find?_eq_none] at h
    simp only [hij, ne_eq, not_true_eq_false, if_false, Option.some.injEq]
    unfold modDiag
    exact congrArg (HessGrad.mk · _) (upsert_fresh h rfl)
  · simp only [cell, hij, if_false, Option.map_eq_none_iff, find?_eq_none] at h
    simp only [ne_eq, hij, not_false_eq_true, if_true]
    unfold modTri
    split_ifs with hlt
    · exact congrArg (fun t => some (HessGrad.mk _ t)) (upsert_fresh h rfl)
    · rfl

theorem assignLoop_const (u : Moments R) (fx fy hxx hyy : R) (s : Bool) : ∀ (ey : List (Ent R)) (fuel : ℕ) (hg : HessGrad R), hg.Srt →
    (∀ e ∈ ey, e.id1 ≤ e.id2) → (ey.Pairwise fun e e' => e.id1 < e'.id1 ∨ (e.id1 = e'.id1 ∧ e.id2 < e'.id2)) →
    (∀ e ∈ ey, hg.cell u e.id1 e.id2 = none) → ey.length < fuel →
    UReal2.assignLoop u fx fy hxx hyy fuel hg ⟨none, none, none, s⟩ ey = UReal2.binaryLoop u fx fy hxx hyy hg [] ey
  | _, 0, _, _, _, _, _, h => by simp at h
  | [], n + 1, hg, _, _, _, _, _ => by simp [UReal2.assignLoop, KeyIt.notEnd, UReal2.binaryLoop]
  | e :: ty, n + 1, hg, hs, hle, hp, hf, hl => by
    rw [UReal2.binaryLoop]
    simp only [UReal2.assignLoop, KeyIt.notEnd, Option.isSome_none, Bool.false_and]
    split_ifs
    · rw [assignYNew_fresh u (hf e (by simp))]
      obtain ⟨h1, e1, s1, c1, -⟩ := at_binaryYNew u (hle e (by simp)) hg hs
      simp only at e1
      obtain ⟨h2, e2, s2, c2, -⟩ := at_binaryY u fy hyy (hle e (by simp)) h1 s1
      simp only at e2
      have e3 : UReal2.assignY u fy hyy h1 e = some h2 := e2
      simp only [e1, e2, e3, Option.bind_some]
      rw [List.pairwise_cons] at hp
      refine assignLoop_const u fx fy hxx hyy s ty n h2 s2 (fun e' he' => hle e' (by simp [he'])) hp.2 (fun e' he' => ?_)
        (by simpa using hl)
      have hne : (e'.id1, e'.id2) ≠ (e.id1, e.id2) := by
        intro h
        simp only [Prod.mk.injEq] at h
        have := hp.1 e' he'
        omega
      rw [c2 _ _ hne, c1 _ _ hne]
      exact hf e' (by simp [he'])
    · rfl

end

/-- The full statement: `binary_assign(x, y, …)` leaves `x` equal to `binary(x, y, …)`. -/
def C34_statement (R : Type*) [Zero R] [One R] [Neg R] [Add R] [Sub R] [Mul R] [Div R] [NatCast R] [CCmp R] : Prop :=
  ∀ (u : Moments R) (x y : UReal2 R) (f fx fy fxx fyy fxy : R), Ok2 x → Ok2 y →
    UReal2.binaryAssign u x y f fx fy fxx fyy fxy = UReal2.binary u x y f fx fy fxx fyy fxy

section
variable {R : Type*} [Field R] [LinearOrder R] [IsStrictOrderedRing R]

/-- **C34** (partial) if `x` is a constant, the mixed derivative is 0, and the iteration over `y` works.  Missing: all other `x`, for
which it is false (`C34_elementary`, `C34_false`), and a non-zero mixed derivative (`C34_mixed_false`). -/
theorem C34_const_partial (u : Moments R) (n : R) {y : UReal2 R} (hy : Ok2 y) (f fx fy fxx : R) {fyy : R} (hi : IterOk y fyy) :
    UReal2.binaryAssign u (UReal2.const n) y f fx fy fxx fyy 0 = UReal2.binary u (UReal2.const n) y f fx fy fxx fyy 0 := by
  obtain ⟨es, he, P, hv⟩ : ∃ es, y.hg.hessEntries (CCmp.eqb (fyy / Mom.lit 2) 0) = some es ∧ ∃ P, Visits y.hg es P := by
    by_cases h0 : fyy = 0
    · subst h0
      rw [zero_div, (eqb_iff (0 : R) 0).2 rfl]
      obtain ⟨es, h, v⟩ := C46_skip hy.valid
      exact ⟨es, h, _, v⟩
    · have hne : CCmp.eqb (fyy / Mom.lit 2) (0 : R) = false := by
        rw [← Bool.not_eq_true, eqb_iff]
        exact div_ne_zero h0 lit2_ne
      rw [hne]
      obtain ⟨es, h, v⟩ := C46_full_partial hy.valid (hi.resolve_left h0)
      exact ⟨es, h, _, v⟩
  have hle : ∀ e ∈ es, e.id1 ≤ e.id2 := by
    rw [hessEntries_eq _ hy.valid, Option.some_inj] at he
    subst he
    exact fun e h => ((entries_facts hy.valid _).1 e h).1
  have hx : ∀ s : Bool, (UReal2.const n).hg.hessEntries s = some [] := by
    intro s
    rw [hessEntries_eq _ ⟨by simp [UReal2.const, empty], by simp [UReal2.const, empty], by simp [UReal2.const, empty]⟩]
    simp [UReal2.const, empty, hessSpec]
  have hlen := loop_length _ _ _ he
  unfold UReal2.binaryAssign UReal2.binary
  simp only [he, hx, Option.bind_some, zero_div, (eqb_iff (0 : R) 0).2 rfl, Bool.not_true, Bool.false_eq_true, if_false]
  rw [show KeyIt.start (UReal2.const n : UReal2 R).hg (CCmp.eqb (fxx / Mom.lit 2) 0) =
    ⟨none, none, none, CCmp.eqb (fxx / Mom.lit 2) 0⟩ from rfl, show (UReal2.const n : UReal2 R).hg = HessGrad.empty from rfl,
    assignLoop_const u fx fy _ _ _ es _ HessGrad.empty srt_empty hle hv.once (fun e _ => by simp)]
  refine lt_of_lt_of_le hlen (le_trans ?_ (Nat.le_mul_self _))
  omega

/-- **C34** What the function does to an elementary variable of standard deviation `s`, the other operand being a constant: the
derivatives of the old `x` are not removed, and the second derivative gets multiplied too.  The right values are `dfdx * s` and
`ddfdxdx * s ^ 2`. -/
theorem C34_elementary (u : Moments R) {i : VId} (hi : i < maxId) (m : Moments R) (mu n s f fx fy fxx fyy fxy : R) :
    ∃ z, UReal2.binaryAssign u ⟨⟨[(i, ⟨s, 0, m⟩)], []⟩, mu⟩ (UReal2.const n) f fx fy fxx fyy fxy = some z ∧
      z.mu = f ∧ z.hg.G i = (1 + fx) * s ∧ D2 z i i = (1 + fx) * (fxx * s ^ 2) := by
  have hy : ∀ s : Bool, (UReal2.const n : UReal2 R).hg.hessEntries s = some [] := by
    intro s
    rw [hessEntries_eq _ ⟨by simp [UReal2.const, empty], by simp [UReal2.const, empty], by simp [UReal2.const, empty]⟩]
    simp [UReal2.const, empty, hessSpec]
  have hlt : toLex (i, i) < (toLex (maxId, maxId) : IdPair) := by
    rw [Prod.Lex.toLex_lt_toLex]; exact Or.inl hi
  obtain ⟨k, hk⟩ : ∃ k, ((⟨[(i, ⟨s, 0, m⟩)], []⟩ : HessGrad R).fuel + (UReal2.const n : UReal2 R).hg.fuel) *
      ((⟨[(i, ⟨s, 0, m⟩)], []⟩ : HessGrad R).fuel + (UReal2.const n : UReal2 R).hg.fuel) = k + 2 :=
    ⟨14, by simp [HessGrad.fuel, UReal2.const, empty]⟩
  have hg0 : ∀ j, ((UReal2.const n : UReal2 R).hg.diagGet u j).grad = 0 := fun j => rfl
  have h2 : (2 : R) ≠ 0 := two_ne_zero
  unfold UReal2.binaryAssign
  simp only [hy, Option.bind_some, hk]
  simp only [UReal2.assignLoop, KeyIt.start, keys_cons, keys_nil, List.head?_cons, List.head?_nil, KeyIt.notEnd, KeyIt.ids,
    Option.isSome_some, Option.isSome_none, Bool.and_self, hlt, if_true, UReal2.assignX, modHhess, ne_eq, not_true_eq_false, if_false, KeyIt.get, find?,
    modDiag, upsert, lt_self_iff_false, Option.bind_some, Option.map_some, KeyIt.incr, nextKey,
    List.filter_cons, List.filter_nil, decide_false, Bool.false_eq_true, Bool.false_and]
  split_ifs
  · refine ⟨_, by simp [UReal2.assignMixed, UReal2.assignMixedStep, modHhess, modDiag, upsert, hg0]; rfl, rfl, ?_, ?_⟩
    · simp [G, find?]; ring
    · simp [D2, H, find?, Mom.lit]; field_simp
  · refine ⟨_, rfl, rfl, ?_, ?_⟩
    · simp [G, find?]; ring
    · simp [D2, H, find?, Mom.lit]; field_simp

/-- **C34** So for an elementary `x` with nonzero standard deviation and constant `y` the function is never right. -/
theorem C34_elementary_wrong (u : Moments R) {i : VId} (hi : i < maxId) (m : Moments R) (mu n f fx fy fxx fyy fxy : R) {s : R} (hs : s ≠ 0) :
    UReal2.binaryAssign u ⟨⟨[(i, ⟨s, 0, m⟩)], []⟩, mu⟩ (UReal2.const n) f fx fy fxx fyy fxy ≠
      UReal2.binary u ⟨⟨[(i, ⟨s, 0, m⟩)], []⟩, mu⟩ (UReal2.const n) f fx fy fxx fyy fxy := by
  intro h
  have hx : Ok2 (⟨⟨[(i, ⟨s, 0, m⟩)], []⟩, mu⟩ : UReal2 R) := ⟨⟨by simp [Sorted], by simp, by simp⟩, by simpa [Below] using hi⟩
  have hy : Ok2 (UReal2.const n : UReal2 R) := ⟨⟨by simp [UReal2.const, empty], by simp [UReal2.const, empty],
    by simp [UReal2.const, empty]⟩, by intro k hk; simp [UReal2.const, empty] at hk⟩
  obtain ⟨z, e, -, g, -⟩ := C34_elementary u hi m mu n s f fx fy fxx fyy fxy
  have := (C22_binary hx hy (h.symm.trans e)).2.1 i
  rw [g] at this
  simp only [G, find?, if_true, UReal2.const, empty] at this
  exact hs (by linear_combination this)

/-! ### The behaviour for all operands -/

/-- The result of `binary_assign` on valid operands, before its second derivatives are worked out. -/
theorem assign_parts (u : Moments R) {x y : UReal2 R} (hx : Ok2 x) (hy : Ok2 y) (f fx fy fxx fyy fxy : R) :
    ∃ X0 T0 Y0 w z, x.hg.hessEntries (CCmp.eqb (fxx / Mom.lit 2) 0) = some X0 ∧ y.hg.hessEntries (CCmp.eqb (fyy / Mom.lit 2) 0) = some Y0 ∧
      idsT T0 = idsE X0 ∧ Lists x.hg y.hg T0 Y0 ∧
      (∀ i j b, ((i, j), b) ∈ T0 → i ≠ j → b = false → CCmp.eqb (fxx / Mom.lit 2) (0 : R) = false ∧
        ∃ c, i < j ∧ j < c ∧ i ∈ keys x.hg.diagmap ∧ j ∈ keys x.hg.diagmap ∧ c ∈ keys x.hg.diagmap) ∧
      UReal2.binaryAssign u x y f fx fy fxx fyy fxy = some z ∧ z.mu = f ∧ Ok2 z ∧
      (∀ p, GoodP y.hg T0 Y0 p → DoneP u x.hg y.hg fx fy (fxx / Mom.lit 2) (fyy / Mom.lit 2) T0 Y0 p (w.cell u p.1 p.2)) ∧
      (∀ i, i ∈ z.hg.vars ↔ i ∈ x.hg.vars ∨ i ∈ y.hg.vars) ∧
      (∀ i, z.hg.G i = (1 + fx) * x.hg.G i + fy * y.hg.G i) ∧ (∀ i, z.hg.momOf i = (x.hg.momOf i).or (y.hg.momOf i)) ∧
      (∀ a b, a ≤ b → hAt u z.hg a b = hAt u w a b + fxy / 2 * (z.hg.G a * y.hg.G b + z.hg.G b * y.hg.G a)) := by
  obtain ⟨X0, T0, Y0, w, ex, ey, hids, L, flags, ew, sw, orig, done⟩ :=
    assignLoop_spec u fx fy (fxx / Mom.lit 2) (fyy / Mom.lit 2) hx.valid hy.valid hx.below hy.below
      (CCmp.eqb (fxx / Mom.lit 2) 0) (CCmp.eqb (fyy / Mom.lit 2) 0)
  have hwv : ∀ a, a ∈ keys w.diagmap ↔ a ∈ keys x.hg.diagmap ∨ a ∈ keys y.hg.diagmap := by
    intro a
    rw [mem_vars_iff_cell u, (done (a, a) (L.good_diag a)).some, ← mem_vars_iff_cell u]
    constructor
    · rintro (h | h | h)
      · exact Or.inl h
      · obtain ⟨p, hp, hpe⟩ := List.mem_map.1 h
        have := (L.memT p hp).2.1
        rw [hpe] at this
        exact Or.inl this
      · obtain ⟨e, he, hee⟩ := List.mem_map.1 h
        simp only [Prod.mk.injEq] at hee
        exact Or.inr (hee.1 ▸ (L.memY e he).2.1)
    · rintro (h | h)
      · exact Or.inl h
      · exact Or.inr (Or.inr (L.diagY a h))
  have hwo : ∀ a b, a ≠ b → (w.cell u a b).isSome → a ∈ keys w.diagmap ∧ b ∈ keys w.diagmap := by
    intro a b hab h
    rw [hwv, hwv]
    rcases orig (a, b) h with h | h | h
    · have := hx.valid.tri a b ((mem_tri_iff_cell u _ hab).2 h)
      exact ⟨Or.inl this.2.1, Or.inl this.2.2⟩
    · obtain ⟨p, hp, hpe⟩ := List.mem_map.1 h
      have := L.memT p hp
      rw [hpe] at this
      exact ⟨Or.inl this.2.1, Or.inl this.2.2⟩
    · obtain ⟨e, he, hee⟩ := List.mem_map.1 h
      simp only [Prod.mk.injEq] at hee
      have := L.memY e he
      rw [hee.1, hee.2] at this
      exact ⟨Or.inr this.2.1, Or.inr this.2.2.1⟩
  have hG : ∀ i, w.G i = (1 + fx) * x.hg.G i + fy * y.hg.G i := fun i => by
    rw [G_eq_cell u]; exact (done (i, i) (L.good_diag i)).grad rfl
  have hM : ∀ i, w.momOf i = (x.hg.momOf i).or (y.hg.momOf i) := fun i => by
    rw [momOf_eq_cell u]; exact (done (i, i) (L.good_diag i)).mom rfl
  obtain ⟨z, ez, mz⟩ : ∃ z, (if !CCmp.eqb (fxy / Mom.lit 2) (0 : R) then UReal2.assignMixed u (fxy / Mom.lit 2) y.hg w.diagmap.keys w
      else some w) = some z ∧ MixP u w z (fun a b => a ∈ keys w.diagmap ∧ b ∈ keys w.diagmap ∧ a ≤ b)
      (fun a b => if a ∈ keys w.diagmap ∧ b ∈ keys w.diagmap ∧ a ≤ b then fxy / Mom.lit 2 * (w.G a * y.hg.G b + w.G b * y.hg.G a) else 0) := by
    cases h0 : CCmp.eqb (fxy / Mom.lit 2) (0 : R) with
    | false =>
      simp only [Bool.not_false, if_true]
      exact assignMixed_spec u _ y.hg _ w sw sw.1 fun _ h => h
    | true =>
      rw [(eqb_iff _ _).1 h0]
      exact ⟨w, rfl, sw, fun _ => rfl, fun _ _ => by simp, fun _ _ _ h => Or.inl h⟩
  have hzv : ∀ i, i ∈ keys z.diagmap ↔ i ∈ keys x.hg.diagmap ∨ i ∈ keys y.hg.diagmap := fun i => (mz.keys i).trans (hwv i)
  refine ⟨X0, T0, Y0, w, ⟨z, f⟩, ex, ey, hids, L, flags, ?_, rfl, ⟨?_, ?_⟩, done, ?_, fun i => (mz.G i).trans (hG i), fun i => ?_,
    fun a b hab => ?_⟩
  · unfold UReal2.binaryAssign
    simp only [ey, ew, Option.bind_some, ez, Option.map_some]
  · refine valid_of_cells u mz.srt fun a b hab h => ?_
    rw [← mem_vars_iff_cell, ← mem_vars_iff_cell, mz.keys, mz.keys]
    rcases mz.some a b hab h with h | h
    · exact hwo a b hab h
    · exact ⟨h.1, h.2.1⟩
  · intro i hi
    rcases (hzv i).1 hi with h | h
    · exact hx.below i h
    · exact hy.below i h
  · intro i
    simp only [vars, List.mem_toFinset]
    exact hzv i
  · rw [← hM i, momOf_eq_cell u, momOf_eq_cell u]
    have := congrArg (fun o => o.map Prod.snd) (mz.diag i)
    simpa [Option.map_map, Function.comp_def] using this
  · simp only
    rw [mz.hh, mz.G, mz.G]
    congr 1
    have h2 : (Mom.lit 2 : R) = 2 := by simp [Mom.lit]
    by_cases h : a ∈ keys w.diagmap ∧ b ∈ keys w.diagmap
    · simp [h.1, h.2, hab, h2]
    · have zero : ∀ a, a ∉ keys w.diagmap → w.G a = 0 ∧ y.hg.G a = 0 := by
        intro a ha
        refine ⟨by simp [G, find?_eq_none.2 ha], ?_⟩
        rw [hwv] at ha
        simp [G, find?_eq_none.2 fun h => ha (Or.inr h)]
      rw [if_neg fun h' => h ⟨h'.1, h'.2.1⟩]
      rcases not_and_or.1 h with h | h
      · simp [zero a h]
      · simp [zero b h]

/-- **C34** For all operands the function succeeds and leaves a usable value, whose gradient is wrong by the gradient of `x`; the variables
and their moments are right. -/
theorem C34_gradient (u : Moments R) {x y : UReal2 R} (hx : Ok2 x) (hy : Ok2 y) (f fx fy fxx fyy fxy : R) :
    ∃ z, UReal2.binaryAssign u x y f fx fy fxx fyy fxy = some z ∧ Ok2 z ∧ z.mu = f ∧
      z.hg.vars = x.hg.vars ∪ y.hg.vars ∧ (∀ i, z.hg.momOf i = (x.hg.momOf i).or (y.hg.momOf i)) ∧
      ∀ i, z.hg.G i = fx * x.hg.G i + fy * y.hg.G i + x.hg.G i := by
  obtain ⟨-, -, -, -, z, -, -, -, -, -, ez, hmu, hz, -, hv, hG, hM, -⟩ := assign_parts u hx hy f fx fy fxx fyy fxy
  exact ⟨z, ez, hz, hmu, by ext i; simp [hv i], hM, fun i => by rw [hG]; ring⟩

/-- **C34** So the function is wrong whenever `x` has a non-zero first derivative. -/
theorem C34_wrong (u : Moments R) {x y : UReal2 R} (hx : Ok2 x) (hy : Ok2 y) (f fx fy fxx fyy fxy : R) {i : VId} (hi : x.hg.G i ≠ 0) :
    UReal2.binaryAssign u x y f fx fy fxx fyy fxy ≠ UReal2.binary u x y f fx fy fxx fyy fxy := by
  intro h
  obtain ⟨z, e, -, -, -, -, g⟩ := C34_gradient u hx hy f fx fy fxx fyy fxy
  have := (C22_binary hx hy (h.symm.trans e)).2.1 i
  rw [g i] at this
  exact hi (by linear_combination this)

/-- the iteration over an operand of which every pair is shown once, with its data -/
theorem iter_visits {x : UReal2 R} (hx : Ok2 x) {fxx : R} (hi : IterOk x fxx) {es : List (Ent R)}
    (he : x.hg.hessEntries (CCmp.eqb (fxx / Mom.lit 2) 0) = some es) :
    (∀ a b, (idsE es).count (a, b) ≤ 1) ∧ (∀ e ∈ es, e.val = x.hg.H e.id1 e.id2) ∧
    (∀ a b, a ≤ b → (a, b) ∉ idsE es → x.hg.H a b = 0 ∧ (fxx = 0 ∨ a ∉ x.hg.vars ∨ b ∉ x.hg.vars)) := by
  have ids : ∀ {P : VId → VId → Prop}, Visits x.hg es P → (∀ a b, (idsE es).count (a, b) ≤ 1) ∧
      (∀ e ∈ es, e.val = x.hg.H e.id1 e.id2) ∧ ∀ a b, (a, b) ∈ idsE es ↔ P a b := by
    intro P v
    refine ⟨fun a b => ?_, fun e he => (v.data e he).2.2, fun a b => ?_⟩
    · refine List.nodup_iff_count_le_one.1 ?_ (a, b)
      rw [List.Nodup, List.pairwise_map]
      refine v.once.imp fun h h' => ?_
      simp only [Prod.mk.injEq] at h'
      omega
    · rw [← v.all a b, List.mem_map]
      simp only [Prod.mk.injEq]
  have H0 : ∀ a b, a ≤ b → (a ∉ x.hg.vars ∨ b ∉ x.hg.vars) → x.hg.H a b = 0 := by
    intro a b hab h
    simp only [vars, List.mem_toFinset] at h
    unfold H
    by_cases h0 : a = b
    · subst h0
      rw [if_pos rfl, find?_eq_none.2 (by simpa using h)]
    · rw [if_neg h0, min_eq_left hab, max_eq_right hab, get_of_not_mem fun hm => ?_]
      have := hx.valid.tri a b hm
      rcases h with h | h
      · exact h this.2.1
      · exact h this.2.2
  by_cases h0 : fxx = 0
  · subst h0
    rw [zero_div, (eqb_iff (0 : R) 0).2 rfl] at he
    obtain ⟨es', he', v⟩ := C46_skip hx.valid
    obtain rfl : es' = es := Option.some_inj.1 (he'.symm.trans he)
    obtain ⟨i1, i2, i3⟩ := ids v
    refine ⟨i1, i2, fun a b hab h => ⟨?_, Or.inl rfl⟩⟩
    rw [i3] at h
    by_cases h0 : a = b
    · subst h0
      exact H0 a a le_rfl (Or.inl fun hm => h (Or.inl ⟨rfl, hm⟩))
    · unfold H
      rw [if_neg h0, min_eq_left hab, max_eq_right hab, get_of_not_mem fun hm => h (Or.inr hm)]
  · have hne : CCmp.eqb (fxx / Mom.lit 2) (0 : R) = false := by
      rw [← Bool.not_eq_true, eqb_iff]
      exact div_ne_zero h0 lit2_ne
    rw [hne] at he
    obtain ⟨es', he', v⟩ := C46_full_partial hx.valid (hi.resolve_left h0)
    obtain rfl : es' = es := Option.some_inj.1 (he'.symm.trans he)
    obtain ⟨i1, i2, i3⟩ := ids v
    refine ⟨i1, i2, fun a b hab h => ?_⟩
    rw [i3] at h
    have : a ∉ x.hg.vars ∨ b ∉ x.hg.vars := by
      by_contra hc
      rw [not_or, not_not, not_not] at hc
      exact h ⟨hc.1, hc.2, hab⟩
    exact ⟨H0 a b hab this, Or.inr this⟩

/-- **C34** All second derivatives the function leaves, for operands over which the iteration works.  The right ones are
`fxx * x_a * x_b + fyy * y_a * y_b + fxy * (x_a * y_b + x_b * y_a) + fx * x_ab + fy * y_ab`. -/
theorem C34_behaviour (u : Moments R) {x y : UReal2 R} (hx : Ok2 x) (hy : Ok2 y) (f fx fy : R) {fxx fyy : R} (fxy : R)
    (hix : IterOk x fxx) (hiy : IterOk y fyy) :
    ∃ z, UReal2.binaryAssign u x y f fx fy fxx fyy fxy = some z ∧
      (∀ i, z.hg.G i = (1 + fx) * x.hg.G i + fy * y.hg.G i) ∧
      ∀ a b, a ≤ b → D2 z a b =
        (1 + fx) * (D2 x a b + fxx * (if a = b ∨ a ∉ x.hg.vars then x.hg.G a else z.hg.G a) * x.hg.G b) +
        fyy * y.hg.G a * y.hg.G b + fy * D2 y a b + fxy * (z.hg.G a * y.hg.G b + z.hg.G b * y.hg.G a) := by
  obtain ⟨X0, T0, Y0, w, z, ex, ey, hids, L, flags, ez, -, -, done, -, hG, -, hh⟩ := assign_parts u hx hy f fx fy fxx fyy fxy
  refine ⟨z, ez, hG, fun a b hab => ?_⟩
  obtain ⟨x1, -, x3⟩ := iter_visits hx hix ex
  obtain ⟨y1, y2, y3⟩ := iter_visits hy hiy ey
  have good : GoodP y.hg T0 Y0 (a, b) := by
    refine ⟨by rw [hids]; exact x1 a b, y1 a b, fun c hc hne => ?_, fun e he hp => ?_⟩
    · by_contra h
      obtain ⟨h1, c, i1, i2, m1, m2, m3⟩ := flags a b c hc hne (by simpa using h)
      have h3 : 3 ≤ x.hg.size := by
        have : ({a, b, c} : Finset VId) ⊆ x.hg.vars := by
          intro k hk
          simp only [Finset.mem_insert, Finset.mem_singleton] at hk
          simp only [vars, List.mem_toFinset]
          rcases hk with rfl | rfl | rfl <;> assumption
        have hc := Finset.card_le_card this
        rw [Finset.card_insert_of_notMem (by simp; omega), Finset.card_insert_of_notMem (by simp; omega), Finset.card_singleton] at hc
        refine hc.trans ((List.toFinset_card_le _).trans ?_)
        simp [size]
      rcases hix with h0 | h0 | h0
      · rw [h0, zero_div, (eqb_iff (0 : R) 0).2 rfl] at h1
        simp at h1
      · omega
      · omega
    · simp only [Prod.mk.injEq] at hp
      rw [y2 e he, hp.1, hp.2]
  have hH : ∀ hg : HessGrad R, hg.H a b = hAt u hg a b := fun hg => by
    rw [H_eq_cell u, min_eq_left hab, max_eq_right hab]; rfl
  have hw : hAt u w a b = newH u x.hg y.hg fx fy (fxx / Mom.lit 2) (fyy / Mom.lit 2) T0 Y0 (a, b) := (done _ good).hhess
  have h2 : (Mom.lit 2 : R) = 2 := by simp [Mom.lit]
  have G0 : ∀ (t : UReal2 R) (i : VId), i ∉ t.hg.vars → t.hg.G i = 0 := by
    intro t i h
    simp only [vars, List.mem_toFinset] at h
    simp [G, find?_eq_none.2 h]
  have hnG : ∀ i, newG x.hg y.hg fx fy i = z.hg.G i := fun i => (hG i).symm
  unfold D2
  rw [hH z.hg, hh a b hab, hw, newH]
  simp only [hnG, h2]
  rw [show ((x.hg.cell u a b).map Diag.hhess).getD 0 = x.hg.H a b from (hH x.hg).symm]
  have eX : (if (a, b) ∈ idsT T0 then (1 + fx) * (x.hg.H a b + fxx / 2 * (if a < b then z.hg.G a else x.hg.G a) * x.hg.G b) else x.hg.H a b) =
      (1 + fx) * (x.hg.H a b + fxx / 2 * (if a = b ∨ a ∉ x.hg.vars then x.hg.G a else z.hg.G a) * x.hg.G b) := by
    split_ifs with h1 h3 h4 h4
    · obtain ⟨p, hp, hpe⟩ := List.mem_map.1 h1
      have := (L.memT p hp).2.1
      rw [hpe] at this
      rcases h4 with h4 | h4
      · omega
      · exact absurd (by simpa [vars] using this) h4
    · rfl
    · rfl
    · exact absurd (le_antisymm hab (not_lt.1 h3)) fun h => h4 (Or.inl h)
    · obtain ⟨n1, n2⟩ := x3 a b hab (by rw [← hids]; exact h1)
      rw [n1]
      rename_i h5
      rcases n2 with n2 | n2 | n2
      · simp [n2]
      · simp [G0 x a n2]
      · simp [G0 x b n2]
    · obtain ⟨n1, n2⟩ := x3 a b hab (by rw [← hids]; exact h1)
      rw [n1]
      rcases n2 with n2 | n2 | n2
      · simp [n2]
      · exact absurd (Or.inr n2) ‹¬ (a = b ∨ a ∉ x.hg.vars)›
      · simp [G0 x b n2]
  have eY : (if (a, b) ∈ idsE Y0 then fyy / 2 * y.hg.G a * y.hg.G b + fy * y.hg.H a b else 0) =
      fyy / 2 * y.hg.G a * y.hg.G b + fy * y.hg.H a b := by
    split_ifs with h1
    · rfl
    · obtain ⟨n1, n2⟩ := y3 a b hab h1
      rw [n1]
      rcases n2 with n2 | n2 | n2
      · simp [n2]
      · simp [G0 y a n2]
      · simp [G0 y b n2]
  rw [eX, eY]
  ring

/-- **C34** Where the iterations work, the function is right exactly for an `x` without first derivatives, whose second derivatives
make up for the use of the new first derivatives in the mixed term. -/
theorem C34_right_iff (u : Moments R) {x y : UReal2 R} (hx : Ok2 x) (hy : Ok2 y) (f fx fy : R) {fxx fyy : R} (fxy : R)
    (hix : IterOk x fxx) (hiy : IterOk y fyy) :
    ∃ z, UReal2.binaryAssign u x y f fx fy fxx fyy fxy = some z ∧
      (((∀ i, z.hg.G i = fx * x.hg.G i + fy * y.hg.G i) ∧ Chain2 x y z fx fy fxx fyy fxy) ↔
        (∀ i, x.hg.G i = 0) ∧ ∀ a b, D2 x a b = -2 * fxy * fy * (y.hg.G a * y.hg.G b)) := by
  obtain ⟨z, ez, hG, hD⟩ := C34_behaviour u hx hy f fx fy fxy hix hiy
  have sym : ∀ (t : UReal2 R) a b, D2 t a b = D2 t b a := by
    intro t a b
    unfold D2 H
    by_cases h : a = b
    · subst h; rfl
    · rw [if_neg h, if_neg (Ne.symm h), min_comm, max_comm]
  refine ⟨z, ez, ⟨fun ⟨h1, h2⟩ => ?_, fun ⟨h1, h2⟩ => ⟨fun i => ?_, fun a b => ?_⟩⟩⟩
  · have hx0 : ∀ i, x.hg.G i = 0 := fun i => by
      have := h1 i
      rw [hG] at this
      linear_combination this
    have key : ∀ a b, a ≤ b → D2 x a b = -2 * fxy * fy * (y.hg.G a * y.hg.G b) := by
      intro a b hab
      have := h2 a b
      rw [hD a b hab, hG a, hG b, hx0 a, hx0 b] at this
      simp only [mul_zero, add_zero, zero_add, zero_mul] at this
      linear_combination this
    refine ⟨hx0, fun a b => ?_⟩
    rcases le_total a b with h | h
    · exact key a b h
    · rw [sym, key b a h]; ring
  · rw [hG, h1]; ring
  · have key : ∀ a b, a ≤ b → D2 z a b = fxx * x.hg.G a * x.hg.G b + fyy * y.hg.G a * y.hg.G b +
        fxy * (x.hg.G a * y.hg.G b + x.hg.G b * y.hg.G a) + fx * D2 x a b + fy * D2 y a b := by
      intro a b hab
      rw [hD a b hab, hG a, hG b, h1 a, h1 b, h2 a b]
      ring
    rcases le_total a b with h | h
    · exact key a b h
    · rw [sym, key b a h, sym x b a, sym y b a]; ring

end

/-- **C34** is false: `x += 1` written with `binary_assign` doubles the standard deviation of `x`. -/
theorem C34_false : ¬ C34_statement ℝ := fun h =>
  C34_elementary_wrong exN (i := 1) (by decide) exN 3 1 4 1 1 0 0 0 (s := 2) two_ne_zero
    (h _ _ _ _ _ _ _ _ _ ⟨⟨by simp [Sorted], by simp, by simp⟩, by intro k hk; simp at hk; subst hk; decide⟩
      ⟨⟨by simp [UReal2.const, empty], by simp [UReal2.const, empty], by simp [UReal2.const, empty]⟩,
        by intro k hk; simp [UReal2.const, empty] at hk⟩)

example : UReal2.binaryAssign exN ⟨⟨[(1, ⟨2, 0, exN⟩)], []⟩, 3⟩ (UReal2.const 1) 4 1 1 0 0 0 ≠
    UReal2.binary exN ⟨⟨[(1, ⟨2, 0, exN⟩)], []⟩, 3⟩ (UReal2.const (1 : ℝ)) 4 1 1 0 0 0 :=
  C34_elementary_wrong exN (i := 1) (by decide) exN 3 1 4 1 1 0 0 0 two_ne_zero

example : ∃ z, UReal2.binaryAssign exN ⟨⟨[(1, ⟨2, 0, exN⟩)], []⟩, 3⟩ (UReal2.const 1) 4 1 1 0 0 0 = some z ∧ z.mu = 4 ∧ z.hg.G 1 = 4 := by
  obtain ⟨z, e, m, g, -⟩ := C34_elementary (R := ℝ) exN (i := 1) (by decide) exN 3 1 2 4 1 1 0 0 0
  exact ⟨z, e, m, by rw [g]; norm_num⟩

/-- a sum with a constant on the left, any second operand -/
example : UReal2.binaryAssign exN (UReal2.const 5) ex2a 8 1 1 0 0 0 = UReal2.add exN (UReal2.const 5) ex2a := by
  rw [C34_const_partial exN 5 ok_ex2a 8 1 1 0 (Or.inl rfl)]
  simp only [UReal2.add]
  norm_num [UReal2.const, ex2a]

/-- **C34** With a non-zero mixed derivative a constant `x` is wrong too: `2 * y`, `y` elementary with standard deviation 3, gets the second
derivative `2 * 2 * 3 * 3` instead of 0 (the mixed loop multiplies the new gradient of `x` by the one of `y`). -/
theorem C34_mixed_false : ∃ z w, UReal2.binaryAssign exN (UReal2.const 2) ⟨⟨[(1, ⟨3, 0, exN⟩)], []⟩, 5⟩ 10 5 2 0 0 1 = some z ∧
    UReal2.binary exN (UReal2.const 2) ⟨⟨[(1, ⟨3, 0, exN⟩)], []⟩, 5⟩ 10 5 2 0 0 1 = some w ∧ D2 z 1 1 = (36 : ℝ) ∧ D2 w 1 1 = 0 := by
  have vx : Ok2 (UReal2.const 2 : UReal2 ℝ) := ⟨⟨by simp [UReal2.const, empty], by simp [UReal2.const, empty],
    by simp [UReal2.const, empty]⟩, by intro k hk; simp [UReal2.const, empty] at hk⟩
  have vy : Ok2 (⟨⟨[(1, ⟨3, 0, exN⟩)], []⟩, 5⟩ : UReal2 ℝ) :=
    ⟨⟨by simp [Sorted], by simp, by simp⟩, by intro k hk; simp at hk; subst hk; decide⟩
  obtain ⟨w, e, -⟩ := C21_binary vx vy (10 : ℝ) 5 2 0 0 1
  have hc := C23_binary_partial vx vy (Or.inl rfl) (Or.inl rfl) (e exN) 1 1
  have hy : ∀ s : Bool, (⟨[(1, ⟨3, 0, exN⟩)], []⟩ : HessGrad ℝ).hessEntries s = some [⟨1, 1, ⟨3, 0, exN⟩, ⟨3, 0, exN⟩, 0⟩] := by
    intro s
    rw [hessEntries_eq _ vy.valid]
    simp [hessSpec, rowEnt]
  obtain ⟨k, hk⟩ : ∃ k, ((UReal2.const 2 : UReal2 ℝ).hg.fuel + (⟨[(1, ⟨3, 0, exN⟩)], []⟩ : HessGrad ℝ).fuel) *
      ((UReal2.const 2 : UReal2 ℝ).hg.fuel + (⟨[(1, ⟨3, 0, exN⟩)], []⟩ : HessGrad ℝ).fuel) = k + 2 :=
    ⟨14, by simp [HessGrad.fuel, UReal2.const, empty]⟩
  have hlt : toLex ((1 : VId), (1 : VId)) < (toLex (maxId, maxId) : IdPair) := by decide
  have hne : CCmp.eqb (1 / Mom.lit 2 : ℝ) 0 = false := by
    rw [← Bool.not_eq_true, eqb_iff]; norm_num [Mom.lit]
  have hz : ∃ z, UReal2.binaryAssign exN (UReal2.const 2) ⟨⟨[(1, ⟨3, 0, exN⟩)], []⟩, 5⟩ 10 5 2 0 0 1 = some z ∧ D2 z 1 1 = (36 : ℝ) := by
    unfold UReal2.binaryAssign
    simp only [hy, Option.bind_some, hk]
    simp only [UReal2.const, empty, UReal2.assignLoop, KeyIt.start, keys_cons, keys_nil, List.head?_nil, KeyIt.notEnd,
      Option.isSome_none, Bool.and_self, hlt, if_true, UReal2.assignYNew, UReal2.assignY, modHhess, ne_eq, not_true_eq_false, if_false, find?,
      modDiag, upsert, lt_self_iff_false, Option.bind_some, Option.map_some, hne, Bool.not_false, UReal2.assignMixed,
      List.foldlM_cons, List.foldlM_nil, UReal2.assignMixedStep, diagGet, Option.getD_some]
    exact ⟨_, rfl, by simp [D2, H, find?, Mom.lit, newDiag]; norm_num⟩
  obtain ⟨z, ez, dz⟩ := hz
  refine ⟨z, w, ez, e exN, dz, ?_⟩
  rw [hc]
  simp [D2, H, G, find?, UReal2.const, empty]

/-- two values with a common variable, any derivatives -/
example : ∃ z, UReal2.binaryAssign exN ex2a ex2b 1 2 3 4 5 6 = some z ∧ Ok2 z ∧ z.hg.G 2 = 2 * -1 + 3 * 3 + -1 := by
  obtain ⟨z, e, k, -, -, -, g⟩ := C34_gradient exN ok_ex2a ok_ex2b 1 2 3 4 5 6
  refine ⟨z, e, k, ?_⟩
  rw [g]
  norm_num [ex2a, ex2b, exH, exH3, HessGrad.G, find?]
example : UReal2.binaryAssign exN ex2a ex2b 2 1 1 0 0 0 ≠ UReal2.add exN ex2a ex2b := by
  have h := C34_wrong exN ok_ex2a ok_ex2b (ex2a.mu + ex2b.mu) 1 1 0 0 0 (i := 2) (by norm_num [ex2a, exH, HessGrad.G, find?])
  have h2 : ex2a.mu + ex2b.mu = 2 := by norm_num [ex2a, ex2b]
  rw [h2] at h
  simpa only [UReal2.add, h2] using h
/-- all terms of a mixed derivative, variable 2 common, variable 5 of `y` only -/
example : ∃ z, UReal2.binaryAssign exN ex2b ex2a 1 2 3 4 0 6 = some z ∧
    D2 z 2 5 = 3 * (8 + 4 * 6 * 1) + 6 * (3 * -1) := by
  obtain ⟨z, e, g, d⟩ := C34_behaviour exN ok_ex2b ok_ex2a 1 2 3 (fxx := 4) (fyy := 0) 6
    (Or.inr (Or.inr ⟨rfl, by simp [ex2b, exH3]⟩)) (Or.inl rfl)
  refine ⟨z, e, ?_⟩
  rw [d 2 5 (by decide), g, g]
  norm_num [D2, ex2a, ex2b, exH, exH3, HessGrad.G, HessGrad.H, find?, SMap.get, key_eq_iff, vars]
/-- a value whose derivatives are all 0, no mixed derivative: right -/
example : ∃ z, UReal2.binaryAssign exN ⟨⟨[(1, ⟨0, 0, exN⟩)], []⟩, 3⟩ ex2a 1 2 3 4 0 0 = some z ∧ Chain2 ⟨⟨[(1, ⟨0, 0, exN⟩)], []⟩, 3⟩ ex2a z 2 3 4 0 0 := by
  obtain ⟨z, e, h⟩ := C34_right_iff exN (x := ⟨⟨[(1, ⟨0, 0, exN⟩)], []⟩, 3⟩)
    ⟨⟨by simp [Sorted], by simp, by simp⟩, by intro k hk; simp at hk; subst hk; decide⟩ ok_ex2a 1 2 3 (fxx := 4) (fyy := 0) 0
    (Or.inr (Or.inl (by simp [size]))) (Or.inl rfl)
  refine ⟨z, e, (h.2 ⟨fun i => ?_, fun a b => ?_⟩).2⟩
  · by_cases hi : i = 1
    · subst hi; simp [HessGrad.G, find?]
    · simp [HessGrad.G, find?, hi]
      split_ifs <;> simp
  · by_cases hi : a = b
    · subst hi
      simp [D2, HessGrad.H, find?]
      split_ifs <;> simp
    · simp [D2, HessGrad.H, hi, SMap.get, find?]

end Unc.Props
