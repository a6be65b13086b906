import Verif.Lemmas.TrackBin
import Verif.Props.FloatExact

/-!
# The elements of the results of the second-order operators, with rounding
-/

namespace Unc
open Unc.Spec HessGrad SMap Mom Unc.Props

section lawfree
variable {R : Type*} [Zero R] [One R] [Neg R] [Add R] [Sub R] [Mul R] [Div R] [NatCast R] [CCmp R]

/-- adding to an element which may be missing -/
def addO : Option R → Option R → Option R
  | o, none => o
  | o, some c => some (o.getD 0 + c)

/-- a product of derivatives of both operands -/
def crossO (h : R) : Option (Diag R) → Option (Diag R) → Option R
  | some d, some e => some (h * d.grad * e.grad)
  | _, _ => none

/-- the diagonal after the loop of the mixed derivative -/
def diagCross (h : R) (dx dy : Option (Diag R)) (d : Diag R) : Diag R :=
  match crossO h dx dy with
  | some c => { d with hhess := d.hhess + lit 2 * c }
  | none => d

theorem mixedInner_cells (h : R) (px : VId × Diag R) (y : SMap VId (Diag R)) (hy : Sorted y) : ∀ {res : HessGrad R}, res.Valid → px.1 ∈ keys res.diagmap → (∀ i ∈ keys y, i ∈ keys res.diagmap) →
    ∃ z, (∀ u, y.foldlM (fun res py => UReal2.mixedStep u h res px py) res = some z) ∧ z.Valid ∧
      (∀ i, find? z.diagmap i = (find? res.diagmap i).map fun d => if i = px.1 then diagCross h (some px.2) (find? y i) d else d) ∧
      (∀ a b, a < b → find? z.trimap (toLex (a, b)) = addO (find? res.trimap (toLex (a, b)))
        (if a = px.1 then crossO h (some px.2) (find? y b) else if b = px.1 then crossO h (some px.2) (find? y a) else none)) := by
  induction y with
  | nil =>
    intro res hv _ _
    refine ⟨res, fun u => rfl, hv, fun i => ?_, fun a b _ => ?_⟩
    · cases find? res.diagmap i <;> simp [find?, diagCross, crossO]
    · simp [find?, crossO, addO]
  | cons py y ih =>
    intro res hv hx hy'
    obtain ⟨k, e⟩ := py
    obtain ⟨hk, hs⟩ := sorted_cons.1 hy
    have hn : find? y k = none := find?_eq_none.2 fun hm => (hk k hm).false
    obtain ⟨z1, e1, v1, d1, t1⟩ := mixedStep_spec e.mom h hv (px := px) (py := (k, e)) hx (hy' _ (by simp [keys]))
    have kk : ∀ i, i ∈ keys res.diagmap → i ∈ keys z1.diagmap := by
      intro i hi
      rw [← find?_isSome] at hi ⊢
      rw [d1, Option.isSome_map]; exact hi
    obtain ⟨z2, e2, v2, d2, t2⟩ := ih hs v1 (kk _ hx) fun i hi => kk i (hy' i (by simp only [keys, List.map_cons, List.mem_cons]; exact Or.inr hi))
    refine ⟨z2, fun u => by rw [List.foldlM_cons, e1 u]; exact e2 u, v2, fun i => ?_, fun a b hab => ?_⟩
    · rw [d2, d1, Option.map_map]
      congr 1; funext d
      simp only [Function.comp]
      by_cases h1 : i = px.1
      · by_cases h2 : i = k
        · rw [if_pos h1, if_pos h1, if_pos ⟨h1, h2⟩, h2, hn, find?, if_pos rfl]
          simp [diagCross, crossO]
        · rw [if_pos h1, if_pos h1, if_neg (fun hc => h2 hc.2), find?, if_neg (Ne.symm h2)]
      · rw [if_neg h1, if_neg h1, if_neg (fun hc => h1 hc.1)]
    · rw [t2 a b hab, t1 a b hab]
      by_cases ha : a = px.1
      · rw [if_pos ha, if_pos ha]
        by_cases hb : b = k
        · have : a = min px.1 k ∧ b = max px.1 k := by rw [← ha, ← hb]; exact ⟨(min_eq_left hab.le).symm, (max_eq_right hab.le).symm⟩
          rw [if_pos this, hb, hn, find?, if_pos rfl]
          simp [crossO, addO]
        · have : ¬ (a = min px.1 k ∧ b = max px.1 k) := by
            rintro ⟨-, h2⟩
            rcases max_choice px.1 k with h3 | h3
            · rw [h3, ← ha] at h2; exact hab.ne h2.symm
            · exact hb (h2.trans h3)
          rw [if_neg this, find?, if_neg (Ne.symm hb)]
      · rw [if_neg ha, if_neg ha]
        by_cases hb : b = px.1
        · rw [if_pos hb, if_pos hb]
          by_cases hak : a = k
          · have : a = min px.1 k ∧ b = max px.1 k := by rw [← hb, ← hak]; exact ⟨(min_eq_right hab.le).symm, (max_eq_left hab.le).symm⟩
            rw [if_pos this, hak, hn, find?, if_pos rfl]
            simp [crossO, addO]
          · have : ¬ (a = min px.1 k ∧ b = max px.1 k) := by
              rintro ⟨h2, -⟩
              rcases min_choice px.1 k with h3 | h3
              · exact ha (h2.trans h3)
              · exact hak (h2.trans h3)
            rw [if_neg this, find?, if_neg (Ne.symm hak)]
        · rw [if_neg hb, if_neg hb]
          have : ¬ (a = min px.1 k ∧ b = max px.1 k) := by
            rintro ⟨h1, h2⟩
            rcases le_total px.1 k with h3 | h3
            · rw [min_eq_left h3] at h1; exact ha h1
            · rw [max_eq_left h3] at h2; exact hb h2
          rw [if_neg this]

/-- The loop of the mixed derivative: at each pair of different variables at most two products are added, in the order of the variables of the first operand. -/
theorem mixedLoop_cells (h : R) (x y : SMap VId (Diag R)) (hx : Sorted x) (hy : Sorted y) : ∀ {res : HessGrad R}, res.Valid → (∀ i ∈ keys x, i ∈ keys res.diagmap) → (∀ i ∈ keys y, i ∈ keys res.diagmap) →
    ∃ z, (∀ u, UReal2.mixedLoop u h res x y = some z) ∧ z.Valid ∧
      (∀ i, find? z.diagmap i = (find? res.diagmap i).map (diagCross h (find? x i) (find? y i))) ∧
      (∀ a b, a < b → find? z.trimap (toLex (a, b)) = addO (addO (find? res.trimap (toLex (a, b))) (crossO h (find? x a) (find? y b))) (crossO h (find? x b) (find? y a))) := by
  unfold UReal2.mixedLoop
  induction x with
  | nil =>
    intro res hv _ _
    refine ⟨res, fun u => rfl, hv, fun i => ?_, fun a b _ => ?_⟩
    · cases find? res.diagmap i <;> simp [find?, diagCross, crossO]
    · simp [find?, crossO, addO]
  | cons px x ih =>
    intro res hv hx' hy'
    obtain ⟨k, d0⟩ := px
    obtain ⟨hk, hs⟩ := sorted_cons.1 hx
    have hn : ∀ j ≤ k, find? x j = none := fun j hj => find?_eq_none.2 fun hm => ((hk j hm).trans_le hj).false
    obtain ⟨z1, e1, v1, d1, t1⟩ := mixedInner_cells h (k, d0) y hy hv (hx' _ (by simp [keys])) hy'
    have kk : ∀ i, i ∈ keys res.diagmap → i ∈ keys z1.diagmap := by
      intro i hi
      rw [← find?_isSome] at hi ⊢
      rw [d1, Option.isSome_map]; exact hi
    obtain ⟨z2, e2, v2, d2, t2⟩ := ih hs v1 (fun i hi => kk i (hx' i (by simp only [keys, List.map_cons, List.mem_cons]; exact Or.inr hi))) fun i hi => kk i (hy' i hi)
    refine ⟨z2, fun u => by rw [List.foldlM_cons, e1 u]; exact e2 u, v2, fun i => ?_, fun a b hab => ?_⟩
    · rw [d2, d1, Option.map_map]
      congr 1; funext d
      simp only [Function.comp]
      by_cases h1 : i = k
      · subst h1
        rw [if_pos rfl, hn i le_rfl, find?, if_pos rfl]
        simp [diagCross, crossO]
      · rw [if_neg h1, find?, if_neg (Ne.symm h1)]
    · rw [t2 a b hab, t1 a b hab]
      simp only [find?]
      by_cases ha : a = k
      · subst ha
        rw [if_pos rfl, hn a le_rfl, if_pos rfl, if_neg hab.ne]
        simp [crossO, addO]
      · rw [if_neg ha, if_neg (Ne.symm ha)]
        by_cases hb : b = k
        · subst hb
          rw [if_pos rfl, if_pos rfl, hn a hab.le, hn b le_rfl]
          simp [crossO, addO]
        · rw [if_neg hb, if_neg (Ne.symm hb)]
          simp [addO]

theorem entsAt_true {hg : HessGrad R} (hv : hg.Valid) {a b : VId} (hab : a < b) :
    entsAt true hg a b = match find? hg.trimap (toLex (a, b)) with
      | some h => [⟨a, b, hg.dOf a, hg.dOf b, h⟩]
      | none => [] := hessSpec_off_filter hg.dOf hab hg.diagmap hg.trimap hv.dsorted hv.triOf hv.tsorted fun _ hi => find_dOf hi

end lawfree

variable {f : Fmt}

/-- the sum of multiples of elements which may be missing -/
def linO (a b : FP f) : Option (FP f) → Option (FP f) → Option (FP f)
  | none, none => none
  | some s, none => some (a * s)
  | none, some t => some (b * t)
  | some s, some t => some (a * s + b * t)

/-- the same for the diagonal -/
def linD (a b : FP f) : Option (Diag (FP f)) → Option (Diag (FP f)) → Option (Diag (FP f))
  | none, none => none
  | some d, none => some ⟨a * d.grad, a * d.hhess, d.mom⟩
  | none, some e => some ⟨b * e.grad, b * e.hhess, e.mom⟩
  | some d, some e => some ⟨a * d.grad + b * e.grad, a * d.hhess + b * e.hhess, d.mom⟩

theorem diagMerge_zero (a b : FP f) (x y : Option (Diag (FP f))) : diagMerge a b 0 0 x y = linD a b x y := by
  cases x <;> cases y <;> simp [diagMerge, linD, fp_zero_mul, fp_zero_add, fp_add_zero]

theorem hProc_zero' {x y : HessGrad (FP f)} (hx : x.Valid) (hy : y.Valid) (a b : FP f) {i j : VId} (hij : i < j) :
    hProc a b 0 0 none (entsAt true x i j) (entsAt true y i j) = linO a b (find? x.trimap (toLex (i, j))) (find? y.trimap (toLex (i, j))) := by
  rw [entsAt_true hx hij, entsAt_true hy hij]
  cases find? x.trimap (toLex (i, j)) <;> cases find? y.trimap (toLex (i, j)) <;> simp [hProc, valX, linO, fp_zero_mul, fp_zero_add, fp_add_zero]

/-- `unary` with second derivative 0 -/
theorem unary_linear {x : UReal2 (FP f)} (hx : x.hg.Valid) (m a : FP f) :
    ∃ z, (∀ u, UReal2.unary u x m a 0 = some z) ∧ z.mu = m ∧ z.hg.Valid ∧ (∀ i, find? z.hg.diagmap i = (find? x.hg.diagmap i).map fun d => ⟨a * d.grad, a * d.hhess, d.mom⟩) ∧
      ∀ i j, i < j → find? z.hg.trimap (toLex (i, j)) = (find? x.hg.trimap (toLex (i, j))).map (a * ·) := by
  obtain ⟨z, e, -, -, k, -⟩ := unary_lawfree hx m a (0 : FP f)
  obtain ⟨z', e', m', v', d', t'⟩ := unary_cells ⟨0, 0, 0, 0, 0, 0⟩ hx m a (0 : FP f)
  obtain rfl : z = z' := Option.some_inj.1 ((e _).symm.trans e')
  refine ⟨z, e, m', v', fun i => ?_, fun i j hij => ?_⟩
  · rw [d', fp_zero_half]
    congr 1; funext d
    rw [fp_zero_mul, fp_zero_mul, fp_zero_add]
  · rw [t' i j hij, fp_zero_half, eqb_zero_fp, entsAt_true hx hij]
    cases find? x.hg.trimap (toLex (i, j)) <;> simp [valX, fp_zero_mul, fp_zero_add]

/-- `binary` with second derivatives 0 and the half mixed derivative `h` -/
theorem binary_bilinear {x y : UReal2 (FP f)} (hx : Ok2 x) (hy : Ok2 y) (m a b c : FP f) :
    ∃ z, (∀ u, UReal2.binary u x y m a b 0 0 c = some z) ∧ z.mu = m ∧ z.hg.Valid ∧
      (∀ i, find? z.hg.diagmap i = (linD a b (find? x.hg.diagmap i) (find? y.hg.diagmap i)).map (if CCmp.eqb (c / lit 2) 0 then _root_.id else diagCross (c / lit 2) (find? x.hg.diagmap i) (find? y.hg.diagmap i))) ∧
      ∀ i j, i < j → find? z.hg.trimap (toLex (i, j)) = if CCmp.eqb (c / lit 2) 0 then linO a b (find? x.hg.trimap (toLex (i, j))) (find? y.hg.trimap (toLex (i, j)))
        else addO (addO (linO a b (find? x.hg.trimap (toLex (i, j))) (find? y.hg.trimap (toLex (i, j)))) (crossO (c / lit 2) (find? x.hg.diagmap i) (find? y.hg.diagmap j)))
          (crossO (c / lit 2) (find? x.hg.diagmap j) (find? y.hg.diagmap i)) := by
  obtain ⟨z, e, -, -, -⟩ := binary_lawfree hx hy m a b (0 : FP f) 0 c
  have e0 := e ⟨0, 0, 0, 0, 0, 0⟩
  unfold UReal2.binary at e0
  simp only [hessEntries_eq _ hx.valid, hessEntries_eq _ hy.valid, Option.bind_some, fp_zero_half, eqb_zero_fp] at e0
  obtain ⟨w, ew, vw, dw, tw⟩ := binaryLoop_cells ⟨0, 0, 0, 0, 0, 0⟩ hx.valid hy.valid hx.below hy.below true true a b (0 : FP f) 0
  rw [ew, Option.bind_some] at e0
  simp only [diagMerge_zero] at dw
  have hk : ∀ i, i ∈ keys w.diagmap ↔ i ∈ keys x.hg.diagmap ∨ i ∈ keys y.hg.diagmap := by
    intro i
    rw [← find?_isSome, ← find?_isSome, ← find?_isSome, dw]
    cases find? x.hg.diagmap i <;> cases find? y.hg.diagmap i <;> simp [linD]
  cases hb : CCmp.eqb (c / lit 2) 0 with
  | true =>
    rw [hb] at e0
    simp only [Bool.not_true, Bool.false_eq_true, if_false, Option.map_some, Option.some_inj] at e0
    subst e0
    refine ⟨_, e, rfl, vw, fun i => ?_, fun i j hij => ?_⟩
    · simp only [if_true, Option.map_id, id_eq]; exact dw i
    · simp only [if_true]; rw [tw i j hij, hProc_zero' hx.valid hy.valid _ _ hij]
  | false =>
    obtain ⟨z2, e2, v2, d2, t2⟩ := mixedLoop_cells (c / lit 2) x.hg.diagmap y.hg.diagmap hx.valid.dsorted hy.valid.dsorted vw (fun i hi => (hk i).2 (Or.inl hi)) fun i hi => (hk i).2 (Or.inr hi)
    rw [hb, e2] at e0
    simp only [Bool.not_false, if_true, Option.map_some, Option.some_inj] at e0
    subst e0
    refine ⟨_, e, rfl, v2, fun i => ?_, fun i j hij => ?_⟩
    · simp only [Bool.false_eq_true, if_false]; rw [← dw]; exact d2 i
    · simp only [Bool.false_eq_true, if_false]; rw [t2 i j hij, tw i j hij, hProc_zero' hx.valid hy.valid _ _ hij]

theorem ureal2_ext {R : Type*} {x y : UReal2 R} (hx : x.hg.Valid) (hy : y.hg.Valid) (hm : x.mu = y.mu) (hd : ∀ i, find? x.hg.diagmap i = find? y.hg.diagmap i)
    (ht : ∀ i j, i < j → find? x.hg.trimap (toLex (i, j)) = find? y.hg.trimap (toLex (i, j))) : x = y := by
  have := hg_ext hx hy hd ht
  cases x; cases y
  simp_all

end Unc
