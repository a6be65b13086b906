import Verif.Spec.Sparse
import Verif.Props.SecondOrder
import Mathlib.Data.Finset.Powerset
import Mathlib.Data.Int.Interval

/-!
# C74: second-order values are sparse
-/

namespace Unc.Props
open Unc Unc.Spec SMap HessGrad

section
variable {R : Type*} [Zero R] [One R] [Neg R] [Add R] [Sub R] [Mul R] [Div R] [NatCast R] [CCmp R]

/-- The off-diagonal elements the full-hessian iterator visits: the stored ones if elements which are not stored are skipped; otherwise
those next to the diagonal, in the rows which have a stored element. -/
def Visited (hg : HessGrad R) (skip : Bool) (a b : VId) : Prop :=
  if skip then toLex (a, b) ∈ keys hg.trimap else nextIn hg.diagmap a = some b ∧ ∃ c : VId, toLex (a, c) ∈ keys hg.trimap

omit [One R] [Neg R] [Add R] [Sub R] [Mul R] [Div R] [NatCast R] [CCmp R] in
theorem entsAt_visited {hg : HessGrad R} (hv : hg.Valid) (skip : Bool) {a b : VId} (hab : a < b) :
    entsAt skip hg a b ≠ [] ↔ Visited hg skip a b := by
  unfold entsAt Visited
  cases skip with
  | true =>
    rw [hessSpec_off_filter _ hab _ _ hv.dsorted hv.triOf hv.tsorted fun _ hi => find_dOf hi, ← find?_isSome]
    cases find? hg.trimap (toLex (a, b)) <;> simp
  | false =>
    rw [hessSpec_nonskip_filter _ hab _ _ hv.dsorted hv.triOf hv.tsorted fun _ hi => find_dOf hi]
    simp only [Bool.false_eq_true, if_false]
    split_ifs with h
    · simp only [h, true_and, ne_eq, List.map_eq_nil_iff, List.filter_eq_nil_iff, decide_eq_true_eq, not_forall, not_not]
      constructor
      · rintro ⟨⟨k, v⟩, hk, e⟩
        refine ⟨(ofLex k).2, ?_⟩
        have : toLex (a, (ofLex k).2) = k := by rw [← e]; rfl
        rw [this]
        exact List.mem_map_of_mem hk
      · rintro ⟨c, hc⟩
        obtain ⟨⟨k, v⟩, hk, e⟩ := List.mem_map.1 hc
        exact ⟨(k, v), hk, by rw [show k = toLex (a, c) from e]; rfl⟩
    · simp [h]

theorem hProc_isSome (fx fy hxx hyy : R) (o : Option R) (ex ey : List (Ent R)) :
    (hProc fx fy hxx hyy o ex ey).isSome ↔ o.isSome ∨ ex ≠ [] ∨ ey ≠ [] := by
  obtain ⟨n, hn⟩ : ∃ n, n = ex.length + ey.length := ⟨_, rfl⟩
  induction n using Nat.strong_induction_on generalizing ex ey o with
  | _ n ih =>
  match ex, ey with
  | [], [] => simp [hProc]
  | e :: tx, [] => rw [hProc, ih _ (by simp [hn]) _ tx [] rfl]; simp
  | [], e :: ty => rw [hProc, ih _ (by simp [hn]) _ [] ty rfl]; simp
  | e :: tx, e' :: ty => rw [hProc, ih _ (by simp [hn]; omega) _ tx ty rfl]; simp

/-- which elements the mixed-derivative loops write -/
theorem mixedLoop_keys (h : R) (u : Moments R) (x y : SMap VId (Diag R)) {res z : HessGrad R} (hv : res.Valid)
    (hx : ∀ i ∈ keys x, i ∈ keys res.diagmap) (hy : ∀ i ∈ keys y, i ∈ keys res.diagmap)
    (hz : UReal2.mixedLoop u h res x y = some z) {a b : VId} (hab : a < b) :
    toLex (a, b) ∈ keys z.trimap ↔ toLex (a, b) ∈ keys res.trimap ∨
      ∃ i ∈ keys x, ∃ j ∈ keys y, a = min i j ∧ b = max i j := by
  have inner : ∀ (px : VId × Diag R) (y : SMap VId (Diag R)) (res z : HessGrad R), res.Valid →
      px.1 ∈ keys res.diagmap → (∀ i ∈ keys y, i ∈ keys res.diagmap) →
      y.foldlM (fun res py => UReal2.mixedStep u h res px py) res = some z → z.Valid ∧
      (∀ i, i ∈ keys z.diagmap ↔ i ∈ keys res.diagmap) ∧
      (toLex (a, b) ∈ keys z.trimap ↔ toLex (a, b) ∈ keys res.trimap ∨ ∃ j ∈ keys y, a = min px.1 j ∧ b = max px.1 j) := by
    intro px y
    induction y with
    | nil => intro res z hv _ _ hz; simp only [List.foldlM_nil, Option.pure_def, Option.some_inj] at hz; subst hz; exact ⟨hv, fun _ => Iff.rfl, by simp⟩
    | cons py y ih =>
      intro res z hv hx hy hz
      obtain ⟨z1, e1, v1, d1, t1⟩ := mixedStep_spec u h hv (px := px) (py := py) hx (hy _ (by simp))
      rw [List.foldlM_cons, e1 u] at hz
      have k1 : ∀ i, i ∈ keys z1.diagmap ↔ i ∈ keys res.diagmap := fun i => by
        rw [← find?_isSome, ← find?_isSome, d1]; simp
      obtain ⟨v2, k2, t2⟩ := ih z1 z v1 ((k1 _).2 hx) (fun i hi => (k1 i).2 (hy i (by simp [hi]))) hz
      refine ⟨v2, fun i => (k2 i).trans (k1 i), ?_⟩
      rw [t2, ← find?_isSome, t1 a b hab]
      split_ifs with hc
      · simp only [Option.isSome_some, true_or, true_iff]
        exact Or.inr ⟨py.1, by simp, hc⟩
      · rw [find?_isSome]
        constructor
        · rintro (h | ⟨j, hj, h⟩)
          · exact Or.inl h
          · exact Or.inr ⟨j, by simp [hj], h⟩
        · rintro (h | ⟨j, hj, h⟩)
          · exact Or.inl h
          · obtain ⟨q1, q2⟩ := py
            rw [keys_cons, List.mem_cons] at hj
            rcases hj with rfl | hj
            · exact absurd h hc
            · exact Or.inr ⟨j, hj, h⟩
  unfold UReal2.mixedLoop at hz
  induction x generalizing res with
  | nil => simp only [List.foldlM_nil, Option.pure_def, Option.some_inj] at hz; subst hz; simp
  | cons px x ih =>
    rw [List.foldlM_cons] at hz
    obtain ⟨z1, e1, hz⟩ := Option.bind_eq_some_iff.1 hz
    obtain ⟨v1, k1, t1⟩ := inner px y res z1 hv (hx _ (by simp)) hy e1
    have ih' := ih v1 (fun i hi => (k1 i).2 (hx i (by obtain ⟨q1, q2⟩ := px; simp [hi]))) (fun i hi => (k1 i).2 (hy i hi)) hz
    refine ih'.trans ?_
    rw [t1]
    obtain ⟨q1, q2⟩ := px
    simp only [keys_cons, List.mem_cons, or_assoc]
    constructor
    · rintro (h | h | ⟨i, hi, h⟩)
      · exact Or.inl h
      · exact Or.inr ⟨q1, Or.inl rfl, h⟩
      · exact Or.inr ⟨i, Or.inr hi, h⟩
    · rintro (h | ⟨i, rfl | hi, h⟩)
      · exact Or.inl h
      · exact Or.inr (Or.inl h)
      · exact Or.inr (Or.inr ⟨i, hi, h⟩)

/-- **C74** exactly which off-diagonal elements `unary` stores, in any arithmetic: the ones it visits, never more than `x` has. -/
theorem C74_unary_stored {x z : UReal2 R} (hx : Ok2 x) {u : Moments R} {f fx fxx : R} (hz : UReal2.unary u x f fx fxx = some z)
    {a b : VId} (hab : a < b) :
    toLex (a, b) ∈ keys z.hg.trimap ↔ Visited x.hg (CCmp.eqb (fxx / Mom.lit 2) 0) a b := by
  obtain ⟨z', e, -, -, -, t⟩ := unary_cells u hx.valid f fx fxx
  obtain rfl : z' = z := Option.some_inj.1 (e.symm.trans hz)
  rw [← entsAt_visited hx.valid _ hab, ← find?_isSome, t a b hab, Option.isSome_map]
  simp

/-- **C74** exactly which off-diagonal elements `binary` stores: those it visits of each operand and, if the mixed derivative is not
zero, each pair of a variable of `x` and a different variable of `y`. -/
theorem C74_binary_stored {x y z : UReal2 R} (hx : Ok2 x) (hy : Ok2 y) {u : Moments R} {f fx fy fxx fyy fxy : R}
    (hz : UReal2.binary u x y f fx fy fxx fyy fxy = some z) {a b : VId} (hab : a < b) :
    toLex (a, b) ∈ keys z.hg.trimap ↔ Visited x.hg (CCmp.eqb (fxx / Mom.lit 2) 0) a b ∨
      Visited y.hg (CCmp.eqb (fyy / Mom.lit 2) 0) a b ∨ (CCmp.eqb (fxy / Mom.lit 2) 0 = false ∧
        ((a ∈ x.hg.vars ∧ b ∈ y.hg.vars) ∨ (a ∈ y.hg.vars ∧ b ∈ x.hg.vars))) := by
  unfold UReal2.binary at hz
  simp only [hessEntries_eq _ hx.valid, hessEntries_eq _ hy.valid, Option.bind_some] at hz
  obtain ⟨z1, e1, v1, d1, t1⟩ := binaryLoop_cells u hx.valid hy.valid hx.below hy.below
    (CCmp.eqb (fxx / Mom.lit 2) 0) (CCmp.eqb (fyy / Mom.lit 2) 0) fx fy (fxx / Mom.lit 2) (fyy / Mom.lit 2)
  rw [e1, Option.bind_some] at hz
  have hk : ∀ i, i ∈ keys z1.diagmap ↔ i ∈ keys x.hg.diagmap ∨ i ∈ keys y.hg.diagmap := by
    intro i
    rw [← find?_isSome, ← find?_isSome, ← find?_isSome, d1]
    cases find? x.hg.diagmap i <;> cases find? y.hg.diagmap i <;> simp [diagMerge]
  have ht : toLex (a, b) ∈ keys z1.trimap ↔ Visited x.hg (CCmp.eqb (fxx / Mom.lit 2) 0) a b ∨
      Visited y.hg (CCmp.eqb (fyy / Mom.lit 2) 0) a b := by
    rw [← find?_isSome, t1 a b hab, hProc_isSome, entsAt_visited hx.valid _ hab, entsAt_visited hy.valid _ hab]
    simp
  cases hb : CCmp.eqb (fxy / Mom.lit 2) (0 : R) with
  | true =>
    simp only [hb, Bool.not_true, Bool.false_eq_true, if_false, Option.map_some, Option.some_inj] at hz
    subst hz
    simp [ht]
  | false =>
    simp only [hb, Bool.not_false, if_true] at hz
    obtain ⟨z2, e2, rfl⟩ := Option.map_eq_some_iff.1 hz
    rw [mixedLoop_keys _ u _ _ v1 (fun i hi => (hk i).2 (Or.inl hi)) (fun i hi => (hk i).2 (Or.inr hi)) e2 hab, ht, or_assoc]
    refine or_congr_right (or_congr_right ?_)
    simp only [true_and, HessGrad.vars, List.mem_toFinset]
    constructor
    · rintro ⟨i, hi, j, hj, rfl, rfl⟩
      rcases le_total i j with h | h
      · rw [min_eq_left h, max_eq_right h]; exact Or.inl ⟨hi, hj⟩
      · rw [min_eq_right h, max_eq_left h]; exact Or.inr ⟨hj, hi⟩
    · rintro (⟨h1, h2⟩ | ⟨h1, h2⟩)
      · exact ⟨a, h1, b, h2, by rw [min_eq_left hab.le], by rw [max_eq_right hab.le]⟩
      · exact ⟨b, h2, a, h1, by rw [min_eq_right hab.le], by rw [max_eq_left hab.le]⟩

/-- the value has the variables of the shape, and its stored pairs are among those of the shape -/
structure Fits (x : UReal2 R) (s : Coupling) : Prop where
  vars : x.hg.vars = s.vars
  pairs : ∀ a b : VId, toLex (a, b) ∈ keys x.hg.trimap → (a, b) ∈ s.pairs

omit [One R] [Neg R] [Add R] [Sub R] [Mul R] [Div R] [NatCast R] [CCmp R] in
theorem visited_cross {hg : HessGrad R} (hv : hg.Valid) {skip : Bool} {a b : VId} (h : Visited hg skip a b) :
    (a, b) ∈ Coupling.cross hg.vars hg.vars := by
  have key : a < b ∧ a ∈ keys hg.diagmap ∧ b ∈ keys hg.diagmap := by
    unfold Visited at h
    split_ifs at h
    · exact hv.tri _ _ h
    · obtain ⟨h1, c, hc⟩ := h
      unfold nextIn at h1
      have hm := List.mem_of_mem_head? h1
      obtain ⟨h2, h3⟩ := List.mem_filter.1 hm
      exact ⟨by simpa using h3, (hv.tri _ _ hc).2.1, h2⟩
  simp [Coupling.cross, HessGrad.vars, key]

omit [One R] [Neg R] [Add R] [Sub R] [Mul R] in
theorem Fits.part {x : UReal2 R} {s : Coupling} {fxx : R} {a b : VId} (h : Fits x s) (hx : Ok2 x)
    (hvis : Visited x.hg (CCmp.eqb (fxx / Mom.lit 2) 0) a b) :
    (a, b) ∈ (if SWorld.Null fxx then s.pairs else Coupling.cross s.vars s.vars) := by
  cases hn : SWorld.Null fxx with
  | true =>
    rw [show CCmp.eqb (fxx / Mom.lit 2) 0 = true from hn] at hvis
    exact h.pairs _ _ (by simpa [Visited] using hvis)
  | false =>
    simp only [Bool.false_eq_true, if_false]
    rw [← h.vars]; exact visited_cross hx.valid hvis

theorem Fits.unary {x z : UReal2 R} {s : Coupling} (h : Fits x s) (hx : Ok2 x) {u : Moments R} {f fx fxx : R}
    (hz : UReal2.unary u x f fx fxx = some z) : Fits z (.unary (SWorld.Null fxx) s) := by
  obtain ⟨z', e, -, v, k, -⟩ := unary_lawfree hx.valid f fx fxx
  obtain rfl : z' = z := Option.some_inj.1 ((e u).symm.trans hz)
  refine ⟨by simp only [HessGrad.vars, k, Coupling.unary]; exact h.vars, fun a b hm => ?_⟩
  exact h.part hx ((C74_unary_stored hx hz (v.tri _ _ hm).1).1 hm)

theorem Fits.binary {x y z : UReal2 R} {s t : Coupling} (h : Fits x s) (h' : Fits y t) (hx : Ok2 x) (hy : Ok2 y) {u : Moments R}
    {f fx fy fxx fyy fxy : R} (hz : UReal2.binary u x y f fx fy fxx fyy fxy = some z) :
    Fits z (.binary (SWorld.Null fxx) (SWorld.Null fyy) (SWorld.Null fxy) s t) := by
  obtain ⟨z', e, -, v, k, -⟩ := binary_lawfree hx hy f fx fy fxx fyy fxy
  obtain rfl : z' = z := Option.some_inj.1 ((e u).symm.trans hz)
  refine ⟨?_, fun a b hm => ?_⟩
  · simp only [Coupling.binary, ← h.vars, ← h'.vars]
    ext i
    simp [HessGrad.vars, k]
  · have hab := (v.tri _ _ hm).1
    simp only [Coupling.binary, Finset.mem_union]
    rcases (C74_binary_stored hx hy hz hab).1 hm with h1 | h1 | ⟨h1, h2⟩
    · exact Or.inl (Or.inl (h.part hx h1))
    · exact Or.inl (Or.inr (h'.part hy h1))
    · refine Or.inr ?_
      rw [if_neg (by simp only [SWorld.Null]; intro h; exact Bool.false_ne_true (h1.symm.trans h))]
      simp only [Coupling.cross, ← h.vars, ← h'.vars, Finset.mem_filter, Finset.mem_union, Finset.mem_product]
      exact ⟨h2, hab⟩

/-- **C74** the loop of `unary`, and each of the two iterators in the loop of `binary`, make as many steps as there are stored
elements, in both modes. -/
theorem C74_iterations {x : UReal2 R} (hx : Ok2 x) (skip : Bool) :
    ∃ es, x.hg.hessEntries skip = some es ∧ es.length = x.hg.diagmap.length + x.hg.trimap.length := by
  refine ⟨_, hessEntries_eq _ hx.valid skip, ?_⟩
  have : ∀ (dm : SMap VId (Diag R)) (tri : SMap IdPair R), Sorted dm → TriOf dm tri → Sorted tri →
      (hessSpec skip x.hg.dOf dm tri).length = dm.length + tri.length := by
    intro dm
    induction dm with
    | nil =>
      intro tri _ ht _
      cases tri with
      | nil => rfl
      | cons p t => exact absurd (ht p.1 (by simp)).2.1 (by simp)
    | cons p t ih =>
      intro tri hs ht hst
      obtain ⟨i, d⟩ := p
      obtain ⟨h1, h2, -⟩ := row_drop hs ht hst
      rw [hessSpec, List.length_cons, List.length_append, List.length_map, ih _ (sorted_cons.1 hs).2 h1 h2]
      have := congrArg List.length (List.takeWhile_append_dropWhile (p := fun p : IdPair × R => decide ((ofLex p.1).1 = i)) (l := tri))
      rw [List.length_append] at this
      simp only [List.length_cons]
      omega
  exact this _ _ hx.valid.dsorted hx.valid.triOf hx.valid.tsorted

omit [One R] [Neg R] [Add R] [Sub R] [Mul R] [Div R] [NatCast R] [CCmp R] in
/-- **C74** the loops over the pairs of variables, in the mean and the moments: one step for each stored element if the others are
skipped, one for each of the `n (n - 1) / 2` pairs otherwise. -/
theorem C74_pair_iterations {x : UReal2 R} (hx : Ok2 x) :
    (∃ es, x.hg.triEntries true = some es ∧ es.length = x.hg.trimap.length) ∧
    ∃ es, x.hg.triEntries false = some es ∧ es.length = x.hg.diagmap.length * (x.hg.diagmap.length - 1) / 2 := by
  refine ⟨⟨_, triEntries_skip _ hx.valid, by simp⟩, _, triEntries_full _ hx.valid, ?_⟩
  rw [List.length_map, ← Nat.choose_two_right]
  generalize x.hg.diagmap = dm
  induction dm with
  | nil => rfl
  | cons p t ih => simp [pairsFrom, ih, Nat.choose_succ_succ']

omit [One R] [Neg R] [Add R] [Sub R] [Mul R] [Div R] [NatCast R] [CCmp R] in
/-- a value with `n` variables stores at most `n (n - 1) / 2` off-diagonal elements -/
theorem tri_size {x : UReal2 R} (hx : x.hg.Valid) : x.hg.trimap.length ≤ x.hg.diagmap.length.choose 2 := by
  have h1 : x.hg.trimap.length = (keys x.hg.trimap).toFinset.card := by
    rw [List.toFinset_card_of_nodup (Sorted.nodup hx.tsorted)]; simp [keys]
  have h2 : x.hg.diagmap.length = x.hg.vars.card := by
    unfold HessGrad.vars
    rw [List.toFinset_card_of_nodup (Sorted.nodup hx.dsorted)]; simp [keys]
  rw [h1, h2, ← Finset.card_powersetCard]
  refine Finset.card_le_card_of_injOn (fun k => {(ofLex k).1, (ofLex k).2}) ?_ ?_
  · intro k hk
    obtain ⟨h, ha, hb⟩ := hx.triOf k (by simpa using hk)
    rw [Finset.mem_coe, Finset.mem_powersetCard]
    refine ⟨?_, Finset.card_pair h.ne⟩
    intro i hi
    simp only [Finset.mem_insert, Finset.mem_singleton] at hi
    rcases hi with rfl | rfl <;> simpa [HessGrad.vars]
  · intro k hk l hl he
    obtain ⟨h, -, -⟩ := hx.triOf k (by simpa using hk)
    obtain ⟨h', -, -⟩ := hx.triOf l (by simpa using hl)
    simp only at he
    have e1 : (ofLex k).1 ∈ ({(ofLex l).1, (ofLex l).2} : Finset ℤ) := he ▸ by simp
    have e2 : (ofLex k).2 ∈ ({(ofLex l).1, (ofLex l).2} : Finset ℤ) := he ▸ by simp
    simp only [Finset.mem_insert, Finset.mem_singleton] at e1 e2
    have : ofLex k = ofLex l := by
      refine Prod.ext ?_ ?_ <;> omega
    exact this

variable [CSqrt R]

theorem fits_step {solve : (ℕ → ℕ → R) → Option (List R)} (hs : LowerOnly solve) {w : World2 R} {n : ℕ} {tab : VId → Moments R}
    (h : Inv2 w n tab) {σ : SWorld} (hc : σ.count = n) (hf : ∀ r, Fits (w.regs r) (σ.regs r)) (st : Step2 R) (ht : ThresholdOk st)
    (hn : n + countNew2 [st] < 2147483647) {k : Junk R} {w' : World2 R} {o : Out R} (e : w.step solve k st = some (w', o)) :
    (∀ r, Fits (w'.regs r) ((σ.step (st, o)).regs r)) ∧ w'.lastId = (σ.step (st, o)).count := by
  have below : ∀ r, Ok2 (w.regs r) := fun r => ⟨h.valid r, fun i hi => by
    have := (h.ids r i hi).2
    have h' : (n : ℤ) < 2147483647 := by exact_mod_cast (lt_of_le_of_lt (Nat.le_add_right _ _) hn)
    exact lt_of_le_of_lt this h'⟩
  have setF : ∀ (r : Reg) (z : UReal2 R) (s : Coupling), Fits z s → ∀ q, Fits ((w.set r z).regs q) ((σ.set r s).regs q) := by
    intro r z s hz q
    simp only [World2.set, SWorld.set]
    split_ifs
    · exact hz
    · exact hf q
  have newF : ∀ (r : Reg) (mu : R) (res : Except Exn (UReal2 R)), n < 2147483646 →
      (∀ x, res = .ok x → ∃ d, x = ⟨⟨[(nextId w.lastId, d)], []⟩, mu⟩) →
      (∀ q, Fits ((w.finish r res).1.regs q) ((match (w.finish r res).2 with
        | .threw _ => σ
        | _ => { σ with count := σ.count + 1 }.set r (.single (σ.count + 1)) : SWorld).regs q)) ∧
      (w.finish r res).1.lastId = (match (w.finish r res).2 with
        | .threw _ => σ
        | _ => { σ with count := σ.count + 1 }.set r (.single (σ.count + 1)) : SWorld).count := by
    intro r mu res hn' hres
    have en : nextId w.lastId = ((n + 1 : ℕ) : ℤ) := by rw [h.count]; exact nextId_nat (by omega)
    cases res with
    | error e => exact ⟨hf, by simp only [World2.finish]; rw [h.count, hc]⟩
    | ok x =>
      obtain ⟨d, rfl⟩ := hres x rfl
      refine ⟨fun q => ?_, by simp only [World2.finish, World2.set, SWorld.set]; rw [en, hc]⟩
      simp only [World2.finish, World2.set, SWorld.set]
      split_ifs
      · refine ⟨?_, by simp⟩
        simp only [HessGrad.vars, Coupling.single, keys_cons, keys_nil, List.toFinset_cons, List.toFinset_nil]
        rw [en, hc]; rfl
      · exact hf q
  cases st with
  | newCentral r m mo t =>
    obtain ⟨res, e1, h1⟩ := mkCentral_spec hs (nextId w.lastId) m mo ht
    simp only [World2.step, e1, Option.map_some, Option.some_inj] at e
    obtain rfl : (w.finish r res).1 = w' := by rw [e]
    obtain rfl : (w.finish r res).2 = o := by rw [e]
    exact newF r m res (by simp [countNew2] at hn; omega) h1
  | newStd r m sd mo t =>
    obtain ⟨res, e1, h1⟩ := mkStd_spec hs (nextId w.lastId) m sd mo ht
    simp only [World2.step, e1, Option.map_some, Option.some_inj] at e
    obtain rfl : (w.finish r res).1 = w' := by rw [e]
    obtain rfl : (w.finish r res).2 = o := by rw [e]
    exact newF r m res (by simp [countNew2] at hn; omega) h1
  | const r m =>
    simp only [World2.step, Option.some_inj, Prod.mk.injEq] at e
    obtain ⟨rfl, rfl⟩ := e
    exact ⟨setF r _ _ ⟨rfl, by simp [UReal2.const, empty]⟩, by simp only [World2.set, SWorld.step, SWorld.set]; rw [h.count, hc]⟩
  | copy r a =>
    simp only [World2.step, Option.some_inj, Prod.mk.injEq] at e
    obtain ⟨rfl, rfl⟩ := e
    exact ⟨setF r _ _ (hf a), by simp only [World2.set, SWorld.step, SWorld.set]; rw [h.count, hc]⟩
  | unary r a f fx fxx =>
    simp only [World2.step] at e
    obtain ⟨z, ez, e⟩ := Option.map_eq_some_iff.1 e
    simp only [Prod.mk.injEq] at e
    obtain ⟨rfl, rfl⟩ := e
    exact ⟨setF r _ _ ((hf a).unary (below a) ez), by simp only [World2.set, SWorld.step, SWorld.set]; rw [h.count, hc]⟩
  | binary r a b f fx fy fxx fyy fxy =>
    simp only [World2.step] at e
    obtain ⟨z, ez, e⟩ := Option.map_eq_some_iff.1 e
    simp only [Prod.mk.injEq] at e
    obtain ⟨rfl, rfl⟩ := e
    exact ⟨setF r _ _ ((hf a).binary (hf b) (below a) (below b) ez), by simp only [World2.set, SWorld.step, SWorld.set]; rw [h.count, hc]⟩
  | otherNew =>
    simp only [World2.step, Option.some_inj, Prod.mk.injEq] at e
    obtain ⟨rfl, rfl⟩ := e
    refine ⟨hf, ?_⟩
    simp only [SWorld.step]
    rw [h.count, nextId_nat (by simp [countNew2] at hn; omega), hc]

/-- **C74** in any program, with any arithmetic: a value stores exactly the variables it was computed from, and an off-diagonal element
only for a pair of variables which some call with a second derivative that is not zero may have coupled. -/
theorem C74_sparse {solve : (ℕ → ℕ → R) → Option (List R)} (hs : LowerOnly solve)
    (p : List (Step2 R × Junk R)) (ht : ∀ st ∈ p.map Prod.fst, ThresholdOk st) (hc : countNew2 (p.map Prod.fst) < 2147483647) :
    ∃ w os, (World2.init : World2 R).run solve p = some (w, os) ∧ os.length = p.length ∧
      ∀ r, Fits (w.regs r) ((SWorld.init.run ((p.map Prod.fst).zip os)).regs r) := by
  have gen : ∀ (p : List (Step2 R × Junk R)) (w : World2 R) (n : ℕ) (tab : VId → Moments R) (σ : SWorld), Inv2 w n tab → σ.count = n →
      (∀ r, Fits (w.regs r) (σ.regs r)) → (∀ st ∈ p.map Prod.fst, ThresholdOk st) → n + countNew2 (p.map Prod.fst) < 2147483647 →
      ∃ w' os, w.run solve p = some (w', os) ∧ os.length = p.length ∧
        ∀ r, Fits (w'.regs r) ((σ.run ((p.map Prod.fst).zip os)).regs r) := by
    intro p
    induction p with
    | nil => intro w n tab σ _ _ hf _ _; exact ⟨w, [], rfl, rfl, hf⟩
    | cons q p ih =>
      intro w n tab σ h hcn hf ht hn
      obtain ⟨st, k⟩ := q
      rw [List.map_cons, countNew2_cons] at hn; simp only at hn
      obtain ⟨w1, o, n1, tab1, e1, h1, h2, i1⟩ := h.step hs st (ht st (by simp)) (by omega)
      obtain ⟨f1, c1⟩ := fits_step hs h hcn hf st (ht st (by simp)) (by omega) (e1 k)
      have : (σ.step (st, o)).count = n1 := by
        rw [i1.count] at c1; exact_mod_cast c1.symm
      obtain ⟨w2, os, e2, l2, f2⟩ := ih w1 n1 tab1 (σ.step (st, o)) i1 this f1 (fun s hs' => ht s (by simp [hs'])) (by omega)
      refine ⟨w2, o :: os, ?_, by simp [l2], f2⟩
      rw [World2.run, e1 k, Option.bind_some]
      show Option.map _ (w1.run solve p) = _
      rw [e2]; rfl
  refine gen p _ 0 (fun _ => ⟨0, 0, 0, 0, 0, 0⟩) SWorld.init ?_ rfl ?_ ht (by omega)
  · exact ⟨rfl, fun r => ⟨by simp [World2.init, UReal2.default', empty], by simp [World2.init, UReal2.default', empty],
      by simp [World2.init, UReal2.default', empty]⟩, by simp [World2.init, UReal2.default', empty],
      by simp [SharedMoments, World2.init, UReal2.default', empty, momOf, find?]⟩
  · exact fun r => ⟨rfl, by simp [World2.init, UReal2.default', empty]⟩

/-- **C74** a program which only gives second derivatives equal to zero, as sums, differences and products by numbers do, stores no
off-diagonal element at all, whatever the number of variables. -/
theorem C74_linear {solve : (ℕ → ℕ → R) → Option (List R)} (hs : LowerOnly solve)
    (p : List (Step2 R × Junk R)) (ht : ∀ st ∈ p.map Prod.fst, ThresholdOk st) (hc : countNew2 (p.map Prod.fst) < 2147483647)
    (hl : ∀ st ∈ p.map Prod.fst, AllLinear st) :
    ∃ w os, (World2.init : World2 R).run solve p = some (w, os) ∧ ∀ r, (w.regs r).hg.trimap = [] := by
  obtain ⟨w, os, e, -, hf⟩ := C74_sparse hs p ht hc
  have key : ∀ (l : List (Step2 R)) (os : List (Out R)) (σ : SWorld), (∀ st ∈ l, AllLinear st) → (∀ r, (σ.regs r).pairs = ∅) →
      ∀ r, ((σ.run (l.zip os)).regs r).pairs = ∅ := by
    intro l
    induction l with
    | nil => intro os σ _ h; simpa [SWorld.run] using h
    | cons st l ih =>
      intro os σ hl h
      cases os with
      | nil => simpa [SWorld.run] using h
      | cons o os =>
        refine ih os (σ.step (st, o)) (fun s hs' => hl s (by simp [hs'])) ?_
        have hst := hl st (by simp)
        have setE : ∀ (σ : SWorld) r (s : Coupling), (∀ r, (σ.regs r).pairs = ∅) → s.pairs = ∅ → ∀ q, ((σ.set r s).regs q).pairs = ∅ := by
          intro σ r s hσ hs' q
          simp only [SWorld.set]
          split_ifs
          · exact hs'
          · exact hσ q
        cases st with
        | newCentral r => cases o <;> first | exact h | exact setE _ _ _ h rfl
        | newStd r => cases o <;> first | exact h | exact setE _ _ _ h rfl
        | const r => exact setE _ _ _ h rfl
        | copy r a => exact setE _ _ _ h (h a)
        | unary r a f fx fxx =>
          refine setE _ _ _ h ?_
          simp only [AllLinear] at hst
          simp [Coupling.unary, hst, h]
        | binary r a b f fx fy fxx fyy fxy =>
          refine setE _ _ _ h ?_
          simp only [AllLinear] at hst
          simp [Coupling.binary, hst, h]
        | otherNew => exact h
  refine ⟨w, os, e, fun r => ?_⟩
  have h0 := key (p.map Prod.fst) os SWorld.init hl (fun r => rfl) r
  cases ht : (w.regs r).hg.trimap with
  | nil => rfl
  | cons q t =>
    have := (hf r).pairs (ofLex q.1).1 (ofLex q.1).2 (by rw [ht]; simp)
    rw [h0] at this
    simp at this

/-- **C74** size of the values of a program: at most one diagonal element for each construction, and `n (n - 1) / 2` off-diagonal elements
for a value with `n` variables. -/
theorem C74_size {solve : (ℕ → ℕ → R) → Option (List R)} (hs : LowerOnly solve)
    (p : List (Step2 R × Junk R)) (ht : ∀ st ∈ p.map Prod.fst, ThresholdOk st) (hc : countNew2 (p.map Prod.fst) < 2147483647) :
    ∃ w os, (World2.init : World2 R).run solve p = some (w, os) ∧ ∀ r,
      (w.regs r).hg.diagmap.length ≤ countNew2 (p.map Prod.fst) ∧
      (w.regs r).hg.trimap.length ≤ (w.regs r).hg.diagmap.length * ((w.regs r).hg.diagmap.length - 1) / 2 := by
  have gen : ∀ (p : List (Step2 R × Junk R)) (w : World2 R) (n : ℕ) (tab : VId → Moments R), Inv2 w n tab →
      (∀ st ∈ p.map Prod.fst, ThresholdOk st) → n + countNew2 (p.map Prod.fst) < 2147483647 →
      ∃ w' os n' tab', w.run solve p = some (w', os) ∧ n' ≤ n + countNew2 (p.map Prod.fst) ∧ Inv2 w' n' tab' := by
    intro p
    induction p with
    | nil => intro w n tab h _ _; exact ⟨w, [], n, tab, rfl, by simp [countNew2], h⟩
    | cons q p ih =>
      intro w n tab h ht hn
      obtain ⟨st, k⟩ := q
      rw [List.map_cons, countNew2_cons] at hn; simp only at hn
      obtain ⟨w1, o, n1, tab1, e1, h1, h2, i1⟩ := h.step hs st (ht st (by simp)) (by omega)
      obtain ⟨w2, os, n2, tab2, e2, h3, i2⟩ := ih w1 n1 tab1 i1 (fun s hs' => ht s (by simp [hs'])) (by omega)
      refine ⟨w2, o :: os, n2, tab2, ?_, by rw [List.map_cons, countNew2_cons]; simp only; omega, i2⟩
      rw [World2.run, e1 k, Option.bind_some]
      show Option.map _ (w1.run solve p) = _
      rw [e2]; rfl
  obtain ⟨w, os, n, tab, e, hn, i⟩ := gen p World2.init 0 (fun _ => ⟨0, 0, 0, 0, 0, 0⟩) (⟨rfl, fun r => ⟨by simp [World2.init, UReal2.default', empty],
      by simp [World2.init, UReal2.default', empty], by simp [World2.init, UReal2.default', empty]⟩, by simp [World2.init, UReal2.default', empty],
      by simp [SharedMoments, World2.init, UReal2.default', empty, momOf, find?]⟩) ht (by omega)
  refine ⟨w, os, e, fun r => ⟨?_, ?_⟩⟩
  · refine le_trans ?_ (by omega : n ≤ countNew2 (p.map Prod.fst))
    have h2 : (w.regs r).hg.diagmap.length = (w.regs r).hg.vars.card := by
      unfold HessGrad.vars
      rw [List.toFinset_card_of_nodup (Sorted.nodup (i.valid r).dsorted)]; simp [keys]
    rw [h2]
    calc (w.regs r).hg.vars.card ≤ (Finset.Icc (1 : ℤ) n).card := Finset.card_le_card fun j hj => by
          have := i.ids r j (by simpa [HessGrad.vars] using hj)
          simpa using this
      _ = n := by simp
  · rw [← Nat.choose_two_right]; exact tri_size (i.valid r)

end

/-! Examples. -/

/-- three variables `a`, `b`, `c`; `d = (a + b) - c`; if `nl`, `e = a * b + c` -/
noncomputable def exSparse (nl : Bool) : List (Step2 ℝ) :=
  [.newStd ⟨0, 0⟩ 1 1 (fun _ => 3) (-1), .newStd ⟨0, 1⟩ 1 1 (fun _ => 3) (-1), .newStd ⟨0, 2⟩ 1 1 (fun _ => 3) (-1),
    .binary ⟨0, 3⟩ ⟨0, 0⟩ ⟨0, 1⟩ 2 1 1 0 0 0, .binary ⟨0, 3⟩ ⟨0, 3⟩ ⟨0, 2⟩ 1 1 (-1) 0 0 0] ++
    if nl then [.binary ⟨0, 4⟩ ⟨0, 0⟩ ⟨0, 1⟩ 1 1 1 0 0 1, .binary ⟨0, 4⟩ ⟨0, 4⟩ ⟨0, 2⟩ 2 1 1 0 0 0] else []

/-- with something in the storage which is not initialised -/
noncomputable def exSparseJ (nl : Bool) : List (Step2 ℝ × Junk ℝ) := (exSparse nl).map fun st => (st, ⟨⟨7, 7, 7, 7, 7, 7⟩, fun _ _ => 7⟩)

theorem exSparse_ok (nl : Bool) : (exSparseJ nl).map Prod.fst = exSparse nl ∧ (∀ st ∈ exSparse nl, ThresholdOk st) ∧
    countNew2 (exSparse nl) < 2147483647 := by
  have h1 : CCmp.ltb (-1 : ℝ) 0 = true := by simp [ltb_iff]
  refine ⟨by simp [exSparseJ, Function.comp_def], ?_⟩
  cases nl <;> simp [exSparse, ThresholdOk, h1, countNew2]

theorem null_zero : SWorld.Null (0 : ℝ) = true := by simp [SWorld.Null, eqb_iff]
theorem null_one : SWorld.Null (1 : ℝ) = false := by
  rw [← Bool.not_eq_true]; simp [SWorld.Null, eqb_iff]

/-- a variable 1, 2, 4 with pairs (1, 2), (1, 4): a square stores (1, 2) only because it is next to the diagonal of a row with elements,
and loses (1, 4) -/
example : ∃ z, UReal2.unary exE ex2a 1 2 3 = some z ∧ toLex ((1 : ℤ), (2 : ℤ)) ∈ keys z.hg.trimap ∧
    toLex ((1 : ℤ), (4 : ℤ)) ∉ keys z.hg.trimap ∧ toLex ((2 : ℤ), (4 : ℤ)) ∉ keys z.hg.trimap := by
  obtain ⟨z, e, -⟩ := C21_unary ok_ex2a 1 2 3
  have h : CCmp.eqb ((3 : ℝ) / Mom.lit 2) 0 = false := by
    rw [← Bool.not_eq_true, eqb_iff]; norm_num [Mom.lit]
  refine ⟨z, e exE, ?_, ?_, ?_⟩
  · rw [C74_unary_stored ok_ex2a (e exE) (by norm_num), h]
    exact ⟨by simp [ex2a, exH, nextIn], 2, by simp [ex2a, exH]⟩
  · rw [C74_unary_stored ok_ex2a (e exE) (by norm_num), h]
    rintro ⟨h, -⟩
    simp [ex2a, exH, nextIn] at h
  · rw [C74_unary_stored ok_ex2a (e exE) (by norm_num), h]
    rintro ⟨-, c, h⟩
    simp [ex2a, exH] at h

/-- a product: (4, 5) is stored because of the mixed derivative, though neither factor has it -/
example : ∃ z, UReal2.binary exE ex2a ex2b 1 2 3 0 0 1 = some z ∧ toLex ((4 : ℤ), (5 : ℤ)) ∈ keys z.hg.trimap ∧
    toLex ((1 : ℤ), (6 : ℤ)) ∉ keys z.hg.trimap := by
  obtain ⟨z, e, -⟩ := C21_binary ok_ex2a ok_ex2b 1 2 3 0 0 1
  have h : CCmp.eqb ((1 : ℝ) / Mom.lit 2) 0 = false := by
    rw [← Bool.not_eq_true, eqb_iff]; norm_num [Mom.lit]
  have h0 : CCmp.eqb ((0 : ℝ) / Mom.lit 2) 0 = true := by rw [eqb_iff]; norm_num
  refine ⟨z, e exE, ?_, ?_⟩
  · rw [C74_binary_stored ok_ex2a ok_ex2b (e exE) (by norm_num), h]
    exact Or.inr (Or.inr ⟨rfl, Or.inl ⟨by simp [ex2a, exH, HessGrad.vars], by simp [ex2b, exH3, HessGrad.vars]⟩⟩)
  · rw [C74_binary_stored ok_ex2a ok_ex2b (e exE) (by norm_num), h, h0]
    simp [Visited, ex2a, exH, ex2b, exH3, HessGrad.vars]

/-- three variables, two pairs: 5 steps in both modes; of the loops over pairs, 2 steps or 3 -/
example : (∀ skip, ∃ es, ex2a.hg.hessEntries skip = some es ∧ es.length = 5) ∧
    (∃ es, ex2a.hg.triEntries true = some es ∧ es.length = 2) ∧ ∃ es, ex2a.hg.triEntries false = some es ∧ es.length = 3 :=
  ⟨fun skip => C74_iterations ok_ex2a skip, C74_pair_iterations ok_ex2a⟩

/-- the linear program stores no pair; the complete one at most 3 variables and 3 pairs -/
example : (∃ w os, (World2.init : World2 ℝ).run (fun _ => some []) (exSparseJ false) = some (w, os) ∧ ∀ r, (w.regs r).hg.trimap = []) ∧
    ∃ w os, (World2.init : World2 ℝ).run (fun _ => some []) (exSparseJ true) = some (w, os) ∧ (w.regs ⟨0, 4⟩).hg.diagmap.length ≤ 3 := by
  constructor
  · have ok := exSparse_ok false
    exact C74_linear (fun _ _ _ => rfl) _ (ok.1 ▸ ok.2.1) (ok.1 ▸ ok.2.2) (by rw [ok.1]; simp [exSparse, AllLinear, null_zero])
  · have ok := exSparse_ok true
    obtain ⟨w, os, e, h⟩ := C74_size (R := ℝ) (solve := fun _ => some []) (fun _ _ _ => rfl) _ (ok.1 ▸ ok.2.1) (ok.1 ▸ ok.2.2)
    refine ⟨w, os, e, (h ⟨0, 4⟩).1.trans ?_⟩
    rw [ok.1]; simp [exSparse, countNew2]

/-- `e` stores at most the pair (1, 2) of its three variables: (1, 3) and (2, 3) are not coupled -/
example : ∃ w os, (World2.init : World2 ℝ).run (fun _ => some []) (exSparseJ true) = some (w, os) ∧
    (w.regs ⟨0, 4⟩).hg.vars = {1, 2, 3} ∧ ∀ a b : VId, toLex (a, b) ∈ keys (w.regs ⟨0, 4⟩).hg.trimap → (a, b) = (1, 2) := by
  have ok := exSparse_ok true
  obtain ⟨w, os, e, hl, hf⟩ := C74_sparse (R := ℝ) (solve := fun _ => some []) (fun _ _ _ => rfl) _ (ok.1 ▸ ok.2.1) (ok.1 ▸ ok.2.2)
  have h0 : CCmp.ltb (1 : ℝ) 0 = false := by rw [← Bool.not_eq_true, ltb_iff]; norm_num
  have h1 : CCmp.ltb (-1 : ℝ) 0 = true := by simp [ltb_iff]
  have hn : ∀ i (m : ℕ → ℝ) (u : Moments ℝ) j, UReal2.mkStd (fun _ => some []) j u i 1 1 m (-1) = some (.ok (UReal2.buildStd u i 1 1 m)) := by
    intro i m u j
    simp only [UReal2.mkStd, Check.ctorCheck, h0, h1, if_true, Bool.false_eq_true, if_false, Option.map_some]
    rfl
  have hos : ∃ o1 o2 o3 o4, os = [.done, .done, .done, o1, o2, o3, o4] := by
    have e' := e
    simp only [exSparseJ, exSparse, List.map_cons, List.cons_append, List.nil_append, if_true, World2.run, World2.step, hn, Option.map_some,
      Option.bind_some, World2.finish] at e'
    obtain ⟨⟨w1, os1⟩, e1, e'⟩ := Option.map_eq_some_iff.1 e'
    obtain ⟨⟨w2, os2⟩, e2, e1⟩ := Option.map_eq_some_iff.1 e1
    obtain ⟨⟨w3, os3⟩, e3, e2⟩ := Option.map_eq_some_iff.1 e2
    simp only [Prod.mk.injEq] at e' e1 e2
    obtain ⟨-, rfl⟩ := e'
    obtain ⟨-, rfl⟩ := e1
    obtain ⟨-, rfl⟩ := e2
    have : os3.length = 4 := by simpa [exSparseJ, exSparse] using hl
    match os3, this with
    | [o1, o2, o3, o4], _ => exact ⟨o1, o2, o3, o4, rfl⟩
  obtain ⟨o1, o2, o3, o4, rfl⟩ := hos
  have key := hf ⟨0, 4⟩
  rw [ok.1] at key
  simp only [exSparse, if_true, List.cons_append, List.nil_append, List.zip_cons_cons, List.zip_nil_right, SWorld.run, List.foldl_cons,
    List.foldl_nil, SWorld.step, SWorld.set, SWorld.init, null_zero, null_one] at key
  refine ⟨w, _, e, ?_, fun a b hm => ?_⟩
  · rw [key.vars]; simp [Coupling.binary, Coupling.single]
  · have := key.pairs a b hm
    simp [Coupling.binary, Coupling.single, Coupling.cross] at this
    ext <;> omega

end Unc.Props
