import Verif.Model.Cost2
import Verif.Props.MomCost

/-!
# C91: the number of operations of the propagation to second order

`Verif/Model/Cost2.lean` counts the additions and multiplications; here the counts are given exactly in terms of the numbers of variables of the
operands and of the pairs stored.
-/

namespace Unc.Props
open Unc Unc.Spec HessGrad SMap TallyOps

section
variable {R : Type*} [Zero R] [Add R] [Sub R] [Mul R] [NatCast R]

@[simp] theorem val_zero : (0 : Tally R).val = 0 := rfl
@[simp] theorem val_lit (n : ℕ) : (Mom.lit n : Tally R).val = Mom.lit n := rfl
@[simp] theorem val_add (a b : Tally R) : (a + b).val = a.val + b.val := rfl
@[simp] theorem val_mul (a b : Tally R) : (a * b).val = a.val * b.val := rfl
@[simp] theorem val_of_free (a : R) : (Tally.free a).val = a := rfl
@[simp] theorem ops_of_free (a : R) : (Tally.free a).ops = 0 := rfl

/-- what an element of the first operand costs -/
def priceX (e : Ent R) : ℕ := 4 + if e.id1 = e.id2 then 1 else 0
/-- what an element of the second operand costs -/
def priceY (e : Ent R) : ℕ := 5 + if e.id1 = e.id2 then 2 else 0

theorem assignX_eq (u : Moments R) (a b : R) (z : HessGrad R × ℕ) (e : Ent R) :
    Cost2.assignX u a b z e = (UReal2.binaryX u a b z.1 e).map fun hg => (hg, z.2 + priceX e) := by
  unfold Cost2.assignX UReal2.binaryX Cost2.hhess priceX
  simp only [Option.map_map, val_add, val_mul, val_of_free, ops_add, ops_mul, ops_of_free]
  congr 1
  funext hg
  simp only [Function.comp]
  split_ifs <;> simp [Cost2.diag]

theorem newY_eq (u : Moments R) (z : HessGrad R × ℕ) (e : Ent R) :
    Cost2.newY u z e = (UReal2.binaryYNew u z.1 e).map fun hg => (hg, z.2) := by
  unfold Cost2.newY UReal2.binaryYNew Cost2.hhess
  simp only [Option.map_map, val_zero, ops_zero]
  congr 1
  funext hg
  simp only [Function.comp]
  split_ifs <;> simp [Cost2.diag]

theorem addY_eq (u : Moments R) (a b : R) (z : HessGrad R × ℕ) (e : Ent R) :
    Cost2.addY u a b z e = (UReal2.binaryY u a b z.1 e).map fun hg => (hg, z.2 + priceY e) := by
  unfold Cost2.addY UReal2.binaryY Cost2.hhess priceY
  simp only [Option.map_map, val_add, val_mul, val_of_free, ops_add, ops_mul, ops_of_free]
  congr 1
  funext hg
  simp only [Function.comp]
  split_ifs <;> simp [Cost2.diag]

theorem foldlM_priced {α : Type*} {f' : HessGrad R × ℕ → α → Option (HessGrad R × ℕ)} {f : HessGrad R → α → Option (HessGrad R)} {c : α → ℕ}
    (h : ∀ z e, f' z e = (f z.1 e).map fun hg => (hg, z.2 + c e)) (l : List α) (z : HessGrad R × ℕ) :
    l.foldlM f' z = (l.foldlM f z.1).map fun hg => (hg, z.2 + (l.map c).sum) := by
  induction l generalizing z with
  | nil => simp
  | cons e l ih =>
    simp only [List.foldlM_cons, h, List.map_cons, List.sum_cons]
    cases f z.1 e with
    | none => rfl
    | some hg =>
      simp only [Option.map_some, Option.bind_eq_bind, Option.bind_some, ih]
      simp [Nat.add_assoc]

theorem binaryLoop_eq (u : Moments R) (a b c d : R) (ex ey : List (Ent R)) (z : HessGrad R × ℕ) :
    Cost2.binaryLoop u a b c d z ex ey =
      (UReal2.binaryLoop u a b c d z.1 ex ey).map fun hg => (hg, z.2 + (ex.map priceX).sum + (ey.map priceY).sum) := by
  fun_induction Cost2.binaryLoop u a b c d z ex ey with
  | case1 z => simp [UReal2.binaryLoop]
  | case2 z e tx h ih =>
    rw [UReal2.binaryLoop, if_pos h, assignX_eq]
    cases UReal2.binaryX u a c z.1 e with
    | none => rfl
    | some hg => simp only [Option.map_some, Option.bind_some, ih]; congr 1; funext g; simp; omega
  | case3 z e tx h => rw [UReal2.binaryLoop, if_neg h]; rfl
  | case4 z e ty h ih =>
    rw [UReal2.binaryLoop, if_pos h, newY_eq]
    cases UReal2.binaryYNew u z.1 e with
    | none => rfl
    | some hg =>
      simp only [Option.map_some, Option.bind_some, addY_eq]
      cases UReal2.binaryY u b d hg e with
      | none => rfl
      | some hg => simp only [Option.map_some, Option.bind_some, ih]; congr 1; funext g; simp; omega
  | case5 z e ty h => rw [UReal2.binaryLoop, if_neg h]; rfl
  | case6 z e tx e' ty idx idy h ih =>
    rw [UReal2.binaryLoop, if_pos h, assignX_eq]
    cases UReal2.binaryX u a c z.1 e with
    | none => rfl
    | some hg => simp only [Option.map_some, Option.bind_some, ih]; congr 1; funext g; simp; omega
  | case7 z e tx e' ty idx idy h h' ih =>
    rw [UReal2.binaryLoop, if_neg h, if_pos h', newY_eq]
    cases UReal2.binaryYNew u z.1 e' with
    | none => rfl
    | some hg =>
      simp only [Option.map_some, Option.bind_some, addY_eq]
      cases UReal2.binaryY u b d hg e' with
      | none => rfl
      | some hg => simp only [Option.map_some, Option.bind_some, ih]; congr 1; funext g; simp; omega
  | case8 z e tx e' ty idx idy h h' ih =>
    rw [UReal2.binaryLoop, if_neg h, if_neg h', assignX_eq]
    cases UReal2.binaryX u a c z.1 e with
    | none => rfl
    | some hg =>
      simp only [Option.map_some, Option.bind_some, addY_eq]
      cases UReal2.binaryY u b d hg e' with
      | none => rfl
      | some hg => simp only [Option.map_some, Option.bind_some, ih]; congr 1; funext g; simp; omega

/-- what a pair of variables of the two operands costs if there is a mixed derivative -/
def priceM (px py : VId × Diag R) : ℕ := 3 + if px.1 = py.1 then 1 else 0

theorem mixedStep_eq (u : Moments R) (h : R) (z : HessGrad R × ℕ) (px py : VId × Diag R) :
    Cost2.mixedStep u h z px py = (UReal2.mixedStep u h z.1 px py).map fun hg => (hg, z.2 + priceM px py) := by
  have e : min px.1 py.1 ≠ max px.1 py.1 ↔ px.1 ≠ py.1 := by
    rcases le_total px.1 py.1 with h | h <;> simp [h, eq_comm]
  unfold Cost2.mixedStep UReal2.mixedStep priceM
  obtain ⟨i, d⟩ := px
  obtain ⟨j, d'⟩ := py
  simp only at e ⊢
  by_cases hk : i = j
  · subst hk
    simp [Cost2.hhess, HessGrad.modHhess]
  · simp only [if_pos (e.2 hk), if_neg hk, Cost2.hhess, HessGrad.modHhess]
    simp

/-- the number of diagonal elements shown by the iterator -/
theorem diag_count (skip : Bool) (lk : VId → Diag R) (price : Ent R → ℕ) (a b : ℕ) (h1 : ∀ e, price e = a + if e.id1 = e.id2 then b else 0) :
    ∀ (dm : SMap VId (Diag R)) (tri : SMap IdPair R), Sorted dm → TriOf dm tri → Sorted tri →
      ((hessSpec skip lk dm tri).map price).sum = (a + b) * dm.length + a * tri.length := by
  intro dm
  induction dm with
  | nil =>
    intro tri _ ht _
    cases tri with
    | nil => rfl
    | cons p t => exact absurd (ht p.1 (by simp)).2.1 (by simp)
  | cons p t ih =>
    intro tri hs ht hst
    obtain ⟨i, d⟩ := p
    obtain ⟨g1, g2, -⟩ := row_drop hs ht hst
    have hs' := sorted_cons.1 hs
    rw [hessSpec, List.map_cons, List.sum_cons, List.map_append, List.sum_append, ih _ hs'.2 g1 g2, h1, if_pos rfl, List.map_map]
    have row : ∀ q ∈ tri.takeWhile (fun p => decide ((ofLex p.1).1 = i)), (price ∘ rowEnt skip lk i d t) q = a := by
      intro q hq
      have h2 : (ofLex q.1).1 = i := by simpa using List.mem_takeWhile_imp hq
      obtain ⟨h3, -, h4⟩ := ht q.1 (List.mem_map_of_mem ((List.takeWhile_sublist _).subset hq))
      have h5 : (ofLex q.1).2 ∈ keys t := by
        rw [keys_cons, List.mem_cons] at h4
        rcases h4 with h4 | h4
        · omega
        · exact h4
      obtain ⟨e1, e2, -⟩ := rowEnt_ids (skip := skip) (lk := lk) (d := d) hs h5
      rw [Function.comp, h1, e1, if_neg e2.ne, Nat.add_zero]
    rw [List.map_congr_left row, List.map_const', List.sum_replicate]
    have := congrArg List.length (List.takeWhile_append_dropWhile (p := fun p : IdPair × R => decide ((ofLex p.1).1 = i)) (l := tri))
    rw [List.length_append] at this
    rw [List.length_cons, ← this]
    simp only [smul_eq_mul]
    ring

variable [Div R] [CCmp R]

theorem unary_eq (u : Moments R) (x : UReal2 R) (hx : x.hg.Valid) [One R] [Neg R] (f fx fxx : R) :
    Cost2.unary u x f fx fxx = (UReal2.unary u x f fx fxx).map fun z => (z, 5 * x.hg.diagmap.length + 4 * x.hg.trimap.length) := by
  unfold Cost2.unary UReal2.unary
  simp only [hessEntries_eq _ hx, Option.bind_some]
  rw [foldlM_priced (f := UReal2.unaryStep u fx (fxx / Mom.lit 2)) (c := priceX) (fun z e => assignX_eq u fx _ z e),
    diag_count _ _ priceX 4 1 (fun _ => rfl) _ _ hx.dsorted hx.triOf hx.tsorted, Option.map_map, Option.map_map]
  congr 1
  funext hg
  simp

/-- the variables in common -/
theorem mixed_sum (x y : SMap VId (Diag R)) (hx : Sorted x) (hy : Sorted y) :
    (x.map fun px => (y.map fun py => priceM px py).sum).sum = 3 * (x.length * y.length) + ((keys x).toFinset ∩ (keys y).toFinset).card := by
  have inner : ∀ px : VId × Diag R, (y.map fun py => priceM px py).sum = 3 * y.length + if px.1 ∈ keys y then 1 else 0 := by
    intro px
    clear hx
    induction y with
    | nil => simp
    | cons q y ih =>
      obtain ⟨j, d⟩ := q
      have hy' := sorted_cons.1 hy
      rw [List.map_cons, List.sum_cons, ih hy'.2, List.length_cons, keys_cons]
      by_cases h : px.1 = j
      · have : px.1 ∉ keys y := fun hm => absurd (hy'.1 _ hm) (by rw [h]; exact lt_irrefl _)
        simp only [priceM, h, if_true, List.mem_cons, true_or]
        rw [h] at this
        rw [if_neg this]; ring
      · simp only [priceM, List.mem_cons, h, false_or, if_false]; ring
  simp only [inner]
  induction x with
  | nil => simp
  | cons p x ih =>
    obtain ⟨i, d⟩ := p
    have hx' := sorted_cons.1 hx
    rw [List.map_cons, List.sum_cons, ih hx'.2, List.length_cons, keys_cons, List.toFinset_cons]
    have hi : i ∉ keys x := fun hm => absurd (hx'.1 _ hm) (lt_irrefl _)
    by_cases h : i ∈ keys y
    · rw [if_pos h, Finset.insert_inter_of_mem (by simpa using h), Finset.card_insert_of_notMem (by simp [hi])]; ring
    · rw [if_neg h, Finset.insert_inter_of_notMem (by simpa using h)]; ring

theorem binary_eq (u : Moments R) {x y : UReal2 R} (hx : x.hg.Valid) (hy : y.hg.Valid) [One R] [Neg R] (f fx fy fxx fyy fxy : R) :
    Cost2.binary u x y f fx fy fxx fyy fxy = (UReal2.binary u x y f fx fy fxx fyy fxy).map fun z => (z,
      5 * x.hg.diagmap.length + 4 * x.hg.trimap.length + 7 * y.hg.diagmap.length + 5 * y.hg.trimap.length +
        if CCmp.eqb (fxy / Mom.lit 2) 0 then 0 else 3 * (x.hg.diagmap.length * y.hg.diagmap.length) + (x.hg.vars ∩ y.hg.vars).card) := by
  unfold Cost2.binary UReal2.binary
  simp only [hessEntries_eq _ hx, hessEntries_eq _ hy, Option.bind_some]
  rw [binaryLoop_eq, diag_count _ _ priceX 4 1 (fun _ => rfl) _ _ hx.dsorted hx.triOf hx.tsorted,
    diag_count _ _ priceY 5 2 (fun _ => rfl) _ _ hy.dsorted hy.triOf hy.tsorted]
  simp only
  cases UReal2.binaryLoop u fx fy (fxx / Mom.lit 2) (fyy / Mom.lit 2) HessGrad.empty _ _ with
  | none => rfl
  | some hg =>
    simp only [Option.map_some, Option.bind_some]
    cases CCmp.eqb (fxy / Mom.lit 2) (0 : R) with
    | true => simp; omega
    | false =>
      simp only [Bool.not_false, if_true, UReal2.mixedLoop, Bool.false_eq_true, if_false]
      rw [foldlM_priced (f := fun res px => y.hg.diagmap.foldlM (fun res py => UReal2.mixedStep u (fxy / Mom.lit 2) res px py) res)
        (c := fun px => (y.hg.diagmap.map fun py => priceM px py).sum)
        (fun z px => foldlM_priced (fun z py => mixedStep_eq u _ z px py) _ z), mixed_sum _ _ hx.dsorted hy.dsorted, Option.map_map, Option.map_map]
      congr 1
      funext hg
      simp [HessGrad.vars]; omega

variable [One R] [Neg R]

/-- **C91** The instrumented functions compute the same results. -/
theorem C91_erase (u : Moments R) {x y : UReal2 R} (hx : x.hg.Valid) (hy : y.hg.Valid) (f fx fy fxx fyy fxy : R) :
    (Cost2.unary u x f fx fxx).map Prod.fst = UReal2.unary u x f fx fxx ∧
    (Cost2.binary u x y f fx fy fxx fyy fxy).map Prod.fst = UReal2.binary u x y f fx fy fxx fyy fxy := by
  rw [unary_eq u x hx, binary_eq u hx hy, Option.map_map, Option.map_map]
  exact ⟨Option.map_id', Option.map_id'⟩

/-- **C91** A function of one argument with `n` variables and `t` stored pairs takes `5 n + 4 t` operations, also if its second derivative is not 0
(the pairs not stored, which then have a second derivative, are not computed: C33). -/
theorem C91_unary (u : Moments R) {x : UReal2 R} (hx : x.hg.Valid) (f fx fxx : R) :
    ∃ z, UReal2.unary u x f fx fxx = some z ∧ Cost2.unary u x f fx fxx = some (z, 5 * x.hg.vars.card + 4 * (keys x.hg.trimap).length) := by
  obtain ⟨z, e, -⟩ := unary_cells u hx f fx fxx
  refine ⟨z, e, ?_⟩
  rw [unary_eq u x hx, e, card_vars hx]
  simp [keys]

/-- **C91** A function of two arguments with `n` and `m` variables and `s` and `t` stored pairs takes `5 n + 4 s + 7 m + 5 t` operations, and if there is a
mixed derivative three more for each variable of the first and each of the second argument, and one for each variable in common. -/
theorem C91_binary (u : Moments R) {x y : UReal2 R} (hx : Ok2 x) (hy : Ok2 y) (f fx fy fxx fyy fxy : R) :
    ∃ z, UReal2.binary u x y f fx fy fxx fyy fxy = some z ∧ Cost2.binary u x y f fx fy fxx fyy fxy = some (z,
      5 * x.hg.vars.card + 4 * (keys x.hg.trimap).length + 7 * y.hg.vars.card + 5 * (keys y.hg.trimap).length +
        if CCmp.eqb (fxy / Mom.lit 2) 0 then 0 else 3 * (x.hg.vars.card * y.hg.vars.card) + (x.hg.vars ∩ y.hg.vars).card) := by
  obtain ⟨z, e, -⟩ := binary_lawfree hx hy f fx fy fxx fyy fxy
  refine ⟨z, e u, ?_⟩
  rw [binary_eq u hx.valid hy.valid, e u, card_vars hx.valid, card_vars hy.valid]
  simp [keys]

/-- **C91** (TODO.md:296) The derivatives take a number of operations at most quadratic in the number of variables. -/
theorem C91_quadratic (u : Moments R) {x y : UReal2 R} (hx : Ok2 x) (hy : Ok2 y) (f fx fy fxx fyy fxy : R) {n : ℕ}
    (h1 : x.hg.vars.card ≤ n) (h2 : y.hg.vars.card ≤ n) :
    (∃ z c, Cost2.unary u x f fx fxx = some (z, c) ∧ c ≤ 5 * n ^ 2) ∧ ∃ z c, Cost2.binary u x y f fx fy fxx fyy fxy = some (z, c) ∧ c ≤ 16 * n ^ 2 := by
  obtain ⟨z, -, e⟩ := C91_unary u hx.valid f fx fxx
  obtain ⟨z', -, e'⟩ := C91_binary u hx hy f fx fy fxx fyy fxy
  have pairs : ∀ {x : UReal2 R}, Ok2 x → x.hg.vars.card ≤ n → 2 * (keys x.hg.trimap).length ≤ n * (n - 1) := by
    intro x hx h
    have := tri_size hx.valid
    rw [← card_vars hx.valid] at this
    have h3 : x.hg.vars.card.choose 2 ≤ n.choose 2 := Nat.choose_le_choose 2 h
    have h4 : n.choose 2 * 2 = n * (n - 1) := by rw [Nat.choose_two_right]; exact Nat.div_mul_cancel (Nat.even_mul_pred_self n).two_dvd
    simp only [keys, List.length_map]
    omega
  have p1 := pairs hx h1
  have p2 := pairs hy h2
  have p3 : (x.hg.vars ∩ y.hg.vars).card ≤ n := (Finset.card_le_card Finset.inter_subset_left).trans h1
  have p4 := Nat.mul_le_mul h1 h2
  have sq : n * (n - 1) + n = n ^ 2 := by cases n with
    | zero => rfl
    | succ k => simp; ring
  rw [← pow_two] at p4
  have sq' : n ≤ n ^ 2 := by nlinarith
  refine ⟨⟨z, _, e, by omega⟩, z', _, e', ?_⟩
  split_ifs <;> omega

/-- a variable: one value with one identifier -/
structure IsVar (v : UReal2 R) (i : VId) : Prop where
  ok : Ok2 v
  vars : v.hg.vars = {i}

omit [Add R] [Sub R] [Mul R] [NatCast R] [Div R] [CCmp R] [One R] [Neg R] in
theorem IsVar.tri {v : UReal2 R} {i : VId} (h : IsVar v i) : v.hg.trimap = [] := by
  have := tri_size h.ok.valid
  rw [← card_vars h.ok.valid, h.vars] at this
  exact List.length_eq_zero_iff.1 (by simpa using this)

theorem binary_fine2 {x y : UReal2 R} (hx : Ok2 x) (hy : Ok2 y) {u : Moments R} {f fx fy fxx fyy fxy : R} {z : UReal2 R}
    (hz : UReal2.binary u x y f fx fy fxx fyy fxy = some z) : Ok2 z ∧ z.hg.vars = x.hg.vars ∪ y.hg.vars := by
  obtain ⟨z', e, -, v, k, -⟩ := binary_lawfree hx hy f fx fy fxx fyy fxy
  obtain rfl : z' = z := Option.some_inj.1 ((e u).symm.trans hz)
  refine ⟨⟨v, fun i hi => ?_⟩, ?_⟩
  · rcases (k i).1 hi with h | h
    · exact hx.below i h
    · exact hy.below i h
  · ext i
    simp [HessGrad.vars, k]

/-- **C91** The loop `x = x + u` over `n` different variables, from a value with no pairs and `m` variables, takes `n (5 m + 7) + 5 n (n - 1) / 2` operations, as at first order a multiple of
the square. -/
theorem C91_sum (h0 : CCmp.eqb ((0 : R) / Mom.lit 2) 0 = true) (u : Moments R) (vs : List (UReal2 R × VId)) : ∀ {x : UReal2 R}, Ok2 x → x.hg.trimap = [] →
    (∀ p ∈ vs, IsVar p.1 p.2 ∧ p.2 ∉ x.hg.vars) → (vs.map Prod.snd).Nodup →
    ∃ z c, Cost2.sumLoop u x (vs.map Prod.fst) = some (z, c) ∧ (vs.map Prod.fst).foldlM (fun x v => UReal2.add u x v) x = some z ∧
      z.hg.trimap = [] ∧ 2 * c + 5 * vs.length = 2 * vs.length * (5 * x.hg.vars.card + 7) + 5 * vs.length ^ 2 := by
  induction vs with
  | nil => intro x _ ht _ _; exact ⟨x, 0, rfl, rfl, ht, by simp⟩
  | cons p vs ih =>
    intro x hx ht hv hd
    obtain ⟨v, i⟩ := p
    obtain ⟨hv1, hv2⟩ : IsVar v i ∧ i ∉ x.hg.vars := hv (v, i) (by simp)
    rw [List.map_cons, List.nodup_cons] at hd
    obtain ⟨z, e1, e2⟩ := C91_binary u hx hv1.ok (x.mu + v.mu) 1 1 0 0 0
    obtain ⟨ok, vars⟩ := binary_fine2 hx hv1.ok e1
    have tz : z.hg.trimap = [] := by
      cases hl : z.hg.trimap with
      | nil => rfl
      | cons q t =>
        exfalso
        have hm : q.1 ∈ keys z.hg.trimap := by rw [hl]; simp
        have hm' : toLex ((ofLex q.1).1, (ofLex q.1).2) ∈ keys z.hg.trimap := hm
        have := (C74_binary_stored hx hv1.ok e1 (ok.valid.tri _ _ hm').1).1 hm'
        simp [Visited, h0, ht, hv1.tri] at this
    obtain ⟨w, c, f1, f2, f3, f4⟩ := ih ok tz (fun q hq => by
      obtain ⟨a, b⟩ := hv q (by simp [hq])
      refine ⟨a, ?_⟩
      rw [vars, hv1.vars, Finset.mem_union, Finset.mem_singleton, not_or]
      exact ⟨b, fun e => hd.1 (List.mem_map.2 ⟨q, hq, e⟩)⟩) hd.2
    have card : z.hg.vars.card = x.hg.vars.card + 1 := by
      rw [vars, hv1.vars, Finset.card_union_of_disjoint (by simpa using hv2)]; simp
    rw [h0, if_pos rfl, ht, hv1.tri, hv1.vars] at e2
    refine ⟨w, _, by simp only [List.map_cons, Cost2.sumLoop, e2, Option.bind_some, f1, Option.map_some]; rfl, ?_, f3, ?_⟩
    · rw [List.map_cons, List.foldlM_cons]
      simp only [UReal2.add, e1]
      exact f2
    · rw [card] at f4
      simp only [List.length_cons, keys, List.map_nil, List.length_nil, Finset.card_singleton]
      nlinarith

/-- all pairs of the variables of `x` are stored -/
def AllPairs (x : UReal2 R) : Prop := ∀ a ∈ x.hg.vars, ∀ b ∈ x.hg.vars, a < b → toLex (a, b) ∈ keys x.hg.trimap

omit [Add R] [Sub R] [Mul R] [NatCast R] [Div R] [CCmp R] [One R] [Neg R] in
theorem AllPairs.length {x : UReal2 R} (hx : Ok2 x) (h : AllPairs x) : (keys x.hg.trimap).length = x.hg.vars.card.choose 2 := by
  refine le_antisymm ?_ ?_
  · have := tri_size hx.valid
    rw [← card_vars hx.valid] at this
    simpa [keys] using this
  · rw [← List.toFinset_card_of_nodup (Sorted.nodup hx.valid.tsorted), ← Finset.card_powersetCard]
    refine Finset.card_le_card_of_surjOn (fun k => {(ofLex k).1, (ofLex k).2}) ?_
    intro s hs
    rw [Finset.mem_coe, Finset.mem_powersetCard, Finset.card_eq_two] at hs
    obtain ⟨hs, a, b, hab, rfl⟩ := hs
    have ha : a ∈ x.hg.vars := hs (by simp)
    have hb : b ∈ x.hg.vars := hs (by simp)
    rcases lt_or_gt_of_ne hab with h1 | h1
    · exact ⟨toLex (a, b), by simpa using h a ha b hb h1, rfl⟩
    · exact ⟨toLex (b, a), by simpa using h b hb a ha h1, by simp [Finset.pair_comm]⟩

/-- **C91** The loop `x = x * u` over `n` different variables, from a number, takes `n (n - 1) (2 n - 1) / 3 + 3 n (n - 1) + 7 n` operations: a multiple of the cube of `n`, because all pairs are stored. -/
theorem C91_product (h0 : CCmp.eqb ((0 : R) / Mom.lit 2) 0 = true) (h1 : CCmp.eqb ((1 : R) / Mom.lit 2) 0 = false) (u : Moments R) (vs : List (UReal2 R × VId)) :
    ∀ {x : UReal2 R}, Ok2 x → AllPairs x → (∀ p ∈ vs, IsVar p.1 p.2 ∧ p.2 ∉ x.hg.vars) → (vs.map Prod.snd).Nodup →
    ∃ z c, Cost2.mulLoop u x (vs.map Prod.fst) = some (z, c) ∧ (vs.map Prod.fst).foldlM (fun x v => UReal2.mul u x v) x = some z ∧
      AllPairs z ∧ c = ∑ k ∈ Finset.range vs.length, (2 * (x.hg.vars.card + k) ^ 2 + 6 * (x.hg.vars.card + k) + 7) := by
  induction vs with
  | nil => intro x _ ht _ _; exact ⟨x, 0, rfl, rfl, ht, by simp⟩
  | cons p vs ih =>
    intro x hx ht hv hd
    obtain ⟨v, i⟩ := p
    obtain ⟨hv1, hv2⟩ : IsVar v i ∧ i ∉ x.hg.vars := hv (v, i) (by simp)
    rw [List.map_cons, List.nodup_cons] at hd
    obtain ⟨z, e1, e2⟩ := C91_binary u hx hv1.ok (x.mu * v.mu) v.mu x.mu 0 0 1
    obtain ⟨ok, vars⟩ := binary_fine2 hx hv1.ok e1
    have tz : AllPairs z := by
      intro a ha b hb hab
      rw [C74_binary_stored hx hv1.ok e1 hab]
      rw [vars, hv1.vars, Finset.mem_union, Finset.mem_singleton] at ha hb
      rw [h0, h1, hv1.vars]
      rcases ha with ha | ha <;> rcases hb with hb | hb
      · exact Or.inl (by simpa [Visited] using ht a ha b hb hab)
      · exact Or.inr (Or.inr ⟨rfl, Or.inl ⟨ha, by simpa using hb⟩⟩)
      · exact Or.inr (Or.inr ⟨rfl, Or.inr ⟨by simpa using ha, hb⟩⟩)
      · omega
    obtain ⟨w, c, f1, f2, f3, f4⟩ := ih ok tz (fun q hq => by
      obtain ⟨a, b⟩ := hv q (by simp [hq])
      refine ⟨a, ?_⟩
      rw [vars, hv1.vars, Finset.mem_union, Finset.mem_singleton, not_or]
      exact ⟨b, fun e => hd.1 (List.mem_map.2 ⟨q, hq, e⟩)⟩) hd.2
    have card : z.hg.vars.card = x.hg.vars.card + 1 := by
      rw [vars, hv1.vars, Finset.card_union_of_disjoint (by simpa using hv2)]; simp
    have dis : (x.hg.vars ∩ v.hg.vars).card = 0 := by rw [hv1.vars, Finset.inter_singleton_of_notMem hv2]; rfl
    rw [h1, if_neg (by simp), ht.length hx, dis, hv1.tri, hv1.vars] at e2
    refine ⟨w, _, by simp only [List.map_cons, Cost2.mulLoop, e2, Option.bind_some, f1, Option.map_some]; rfl, ?_, f3, ?_⟩
    · rw [List.map_cons, List.foldlM_cons]
      simp only [UReal2.mul, e1]
      exact f2
    · rw [card] at f4
      rw [f4, List.length_cons, Finset.sum_range_succ']
      have h4 : x.hg.vars.card.choose 2 * 2 = x.hg.vars.card * (x.hg.vars.card - 1) := by
        rw [Nat.choose_two_right]; exact Nat.div_mul_cancel (Nat.even_mul_pred_self _).two_dvd
      simp only [keys, List.map_nil, List.length_nil, Finset.card_singleton]
      rw [Finset.sum_congr rfl fun k _ => by rw [show x.hg.vars.card + 1 + k = x.hg.vars.card + (k + 1) by omega], Nat.add_comm]
      congr 1
      generalize x.hg.vars.card = n at *
      cases n with
      | zero => simp at *
      | succ k =>
        simp only [Nat.add_sub_cancel] at h4
        nlinarith

end

/-! ## examples -/

/-- `exp` of a value with three variables and two stored pairs: 23 operations -/
example : ∃ z, UReal2.unary ⟨0, 0, 0, 0, 0, 0⟩ ex2a 1 2 3 = some z ∧ Cost2.unary ⟨0, 0, 0, 0, 0, 0⟩ ex2a 1 2 3 = some (z, 23) := by
  obtain ⟨z, e, e'⟩ := C91_unary ⟨0, 0, 0, 0, 0, 0⟩ ok_ex2a.valid 1 2 3
  refine ⟨z, e, ?_⟩
  rw [e', card_vars ok_ex2a.valid]
  rfl

example : (Cost2.unary ⟨0, 0, 0, 0, 0, 0⟩ ex2a 1 2 3).map Prod.fst = UReal2.unary ⟨0, 0, 0, 0, 0, 0⟩ ex2a 1 2 3 :=
  (C91_erase _ ok_ex2a.valid ok_ex2b.valid 1 2 0 3 0 0).1

/-- a sum and a product with a value with two variables, one of them in common, and a stored pair -/
example : (∃ z c, Cost2.binary ⟨0, 0, 0, 0, 0, 0⟩ ex2a ex2b 2 1 1 0 0 0 = some (z, c) ∧ c ≤ 144) ∧
    ∃ z, Cost2.binary ⟨0, 0, 0, 0, 0, 0⟩ ex2a ex2b (-3) (-1) 3 0 0 1 = some (z, 61) := by
  have ca : ex2a.hg.vars.card = 3 := card_vars ok_ex2a.valid
  have cb : ex2b.hg.vars.card = 2 := card_vars ok_ex2b.valid
  refine ⟨(C91_quadratic (n := 3) _ ok_ex2a ok_ex2b 2 1 1 0 0 0 ca.le (by omega)).2, ?_⟩
  obtain ⟨z, -, e⟩ := C91_binary ⟨0, 0, 0, 0, 0, 0⟩ ok_ex2a ok_ex2b (-3) (-1) 3 0 0 1
  refine ⟨z, ?_⟩
  have h1 : CCmp.eqb ((1 : ℝ) / Mom.lit 2) 0 = false := by rw [Bool.eq_false_iff, Ne, eqb_iff]; simp [Mom.lit]
  have h2 : (ex2a.hg.vars ∩ ex2b.hg.vars).card = 1 := by
    simp only [ex2a, ex2b, exH, exH3, HessGrad.vars, keys_cons, keys_nil]
    decide
  rw [e, h1, h2, ca, cb]
  rfl

/-- a variable with mean and uncertainty 1 -/
noncomputable def exVar2 (i : ℕ) : UReal2 ℝ × VId := (⟨⟨[((i : ℤ), ⟨1, 0, ⟨0, 3, 0, 15, 0, 105⟩⟩)], []⟩, 1⟩, i)

theorem exVar2_ok {i : ℕ} (hi : i < 2147483647) : IsVar (exVar2 i).1 (exVar2 i).2 := by
  refine ⟨⟨⟨by simp [exVar2, SMap.Sorted], by simp [exVar2, SMap.Sorted], by simp [exVar2, TriOf]⟩, ?_⟩, by simp [exVar2, HessGrad.vars]⟩
  intro j hj
  simp only [exVar2, keys_cons, keys_nil, List.mem_singleton] at hj
  subst hj
  simp only [maxId]
  omega

theorem number_ok2 (c : ℝ) : Ok2 (UReal2.const c) :=
  ⟨⟨by simp [UReal2.const, HessGrad.empty, SMap.Sorted], by simp [UReal2.const, HessGrad.empty, SMap.Sorted], by simp [UReal2.const, HessGrad.empty, TriOf]⟩,
    by intro i hi; simp [UReal2.const, HessGrad.empty] at hi⟩

/-- 100 variables: 25450 operations for the sum, 687100 for the product -/
example : (∃ z c, Cost2.sumLoop ⟨0, 0, 0, 0, 0, 0⟩ (UReal2.const (0 : ℝ)) (((List.range 100).map exVar2).map Prod.fst) = some (z, c) ∧ c = 25450) ∧
    ∃ z c, Cost2.mulLoop ⟨0, 0, 0, 0, 0, 0⟩ (UReal2.const (1 : ℝ)) (((List.range 100).map exVar2).map Prod.fst) = some (z, c) ∧ c = 687100 := by
  have h0 : CCmp.eqb ((0 : ℝ) / Mom.lit 2) 0 = true := by rw [eqb_iff]; simp
  have h1 : CCmp.eqb ((1 : ℝ) / Mom.lit 2) 0 = false := by rw [Bool.eq_false_iff, Ne, eqb_iff]; simp [Mom.lit]
  have hv : ∀ c : ℝ, ∀ p ∈ (List.range 100).map exVar2, IsVar p.1 p.2 ∧ p.2 ∉ (UReal2.const c).hg.vars := by
    intro c p hp
    obtain ⟨i, hi, rfl⟩ := List.mem_map.1 hp
    rw [List.mem_range] at hi
    exact ⟨exVar2_ok (by omega), by simp [UReal2.const, HessGrad.empty, HessGrad.vars]⟩
  have hd : (((List.range 100).map exVar2).map Prod.snd).Nodup := by
    rw [List.map_map]
    exact List.nodup_range.map fun a b h => by simpa [exVar2] using h
  have card : ∀ c : ℝ, (UReal2.const c).hg.vars.card = 0 := fun c => by simp [UReal2.const, HessGrad.empty, HessGrad.vars]
  refine ⟨?_, ?_⟩
  · obtain ⟨z, c, e, -, -, h⟩ := C91_sum h0 ⟨0, 0, 0, 0, 0, 0⟩ _ (number_ok2 0) rfl (hv 0) hd
    refine ⟨z, c, e, ?_⟩
    rw [card] at h
    simp at h
    omega
  · obtain ⟨z, c, e, -, -, h⟩ := C91_product h0 h1 ⟨0, 0, 0, 0, 0, 0⟩ _ (number_ok2 1) (fun a ha => by simp [UReal2.const, HessGrad.empty, HessGrad.vars] at ha) (hv 1) hd
    refine ⟨z, c, e, ?_⟩
    rw [h, card, List.length_map, List.length_range]
    decide +kernel

end Unc.Props
