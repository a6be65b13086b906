import Verif.Lemmas.FloatExact2
import Verif.Lemmas.TrackFun
import Verif.Props.MomCost

/-!
# C90: identities which hold exactly with rounding, second order
-/

namespace Unc.Props
open Unc Unc.Spec HessGrad SMap Mom UReal2 FP

variable {f : Fmt}

/-- Doubling is exact: true of binary formats as long as nothing overflows or underflows. -/
def BinaryFmt (f : Fmt) : Prop := ∀ t, f.rd (t / 2) = f.rd t / 2

theorem binary_half (hs : BinaryFmt f) : HasHalf f := by
  have h1 := hs 2
  rw [div_self two_ne_zero, f.one] at h1
  have h2 := hs 1
  rw [f.one] at h2
  exact ⟨by linarith, h2⟩

theorem binary_two (hs : BinaryFmt f) (t : ℝ) : f.rd (2 * t) = 2 * f.rd t := by
  have := hs (2 * t)
  rw [mul_div_cancel_left₀ _ two_ne_zero] at this
  linarith

theorem binary_bits (p : ℕ) (hp : 1 ≤ p) : BinaryFmt (bits p hp) := by
  have key : ∀ t : ℝ, 0 < t → bitsPos p (t / 2) = bitsPos p t / 2 := by
    intro t ht
    obtain ⟨a1, a2⟩ := log_bounds ht
    have b : ∀ k : ℤ, (2 : ℝ) ^ (k - 1) = 2 ^ k / 2 := fun k => by rw [zpow_sub_one₀ two_ne_zero]; ring
    rw [bitsPos_eq (e := Int.log 2 t - 1) (by rw [b]; linarith) (by rw [show Int.log 2 t - 1 + 1 = (Int.log 2 t + 1) - 1 by ring, b]; linarith), bitsPos_eq a1 a2,
      show Int.log 2 t - 1 - (p : ℤ) + 1 = (Int.log 2 t - p + 1) - 1 by ring, b, div_div_div_cancel_right₀ two_ne_zero]
    ring
  intro t
  show bitsRd p (t / 2) = bitsRd p t / 2
  unfold bitsRd
  rcases lt_trichotomy t 0 with h | h | h
  · rw [if_neg (by linarith), if_pos (by linarith), if_neg (by linarith), if_pos h, show -(t / 2) = -t / 2 by ring, key _ (by linarith)]; ring
  · subst h; simp
  · rw [if_pos (by linarith), if_pos h, key _ h]

theorem fp_mul_zero_right (a : FP f) : a * 0 = 0 := by rw [fp_mul_comm, fp_zero_mul]
theorem fp_sub_add (a b : FP f) : a - b = a + -b := FP.ext (by rw [val_sub, val_add, val_neg, sub_eq_add_neg])
theorem fp_sub_zero (a : FP f) : a - 0 = a := by rw [fp_sub_add, fp_neg_zero, fp_add_zero]

theorem ok_number (a : FP f) : Ok2 (const a) :=
  ⟨⟨by simp [const, HessGrad.empty], by simp [const, HessGrad.empty], by simp [const, HessGrad.empty]⟩, fun _ h => absurd h (by simp [const, HessGrad.empty, keys])⟩

variable {x y : UReal2 (FP f)} (u : Moments (FP f))

theorem linD_comm (ha : AgreeMoments x.hg y.hg) (a b : FP f) (i : VId) : linD a b (find? x.hg.diagmap i) (find? y.hg.diagmap i) = linD b a (find? y.hg.diagmap i) (find? x.hg.diagmap i) := by
  have := ha i
  simp only [momOf] at this
  cases hx : find? x.hg.diagmap i <;> cases hy : find? y.hg.diagmap i <;> simp only [linD]
  rw [hx, hy] at this
  rw [this _ _ rfl rfl, fp_add_comm (a * _), fp_add_comm (a * _)]

theorem linO_comm (a b : FP f) (s t : Option (FP f)) : linO a b s t = linO b a t s := by
  cases s <;> cases t <;> simp only [linO]
  rw [fp_add_comm]

/-- **C90**: the sum does not depend on the order of the operands, in the last digit: means, first and second derivatives. -/
theorem C90_add_comm (hx : Ok2 x) (hy : Ok2 y) (ha : AgreeMoments x.hg y.hg) : ∃ z, add u x y = some z ∧ add u y x = some z := by
  obtain ⟨z, e, m, v, d, t⟩ := binary_bilinear hx hy (x.mu + y.mu) 1 1 0
  obtain ⟨z', e', m', v', d', t'⟩ := binary_bilinear hy hx (y.mu + x.mu) 1 1 0
  simp only [fp_zero_half, eqb_zero_fp, if_true, Option.map_id, id_eq] at d t d' t'
  refine ⟨z, e u, (e' u).trans (congrArg some (ureal2_ext v' v (by rw [m, m', fp_add_comm]) (fun i => ?_) fun i j hij => ?_))⟩
  · rw [d, d', linD_comm ha]
  · rw [t i j hij, t' i j hij, linO_comm]

/-- **C90**: changing the sign twice gives the same value back. -/
theorem C90_neg_neg (hx : Ok2 x) : (neg u x).bind (neg u) = some x := by
  obtain ⟨z, e, m, v, d, t⟩ := unary_linear hx.valid (-x.mu) (-1)
  obtain ⟨z', e', m', v', d', t'⟩ := unary_linear v (-z.mu) (-1)
  rw [neg, e u, Option.bind_some, neg, e' u]
  refine congrArg some (ureal2_ext v' hx.valid (by rw [m', m, fp_neg_neg]) (fun i => ?_) fun i j hij => ?_)
  · rw [d', d, Option.map_map]
    cases find? x.hg.diagmap i <;> simp [fp_neg_one_mul, fp_neg_neg]
  · rw [t' i j hij, t i j hij, Option.map_map]
    cases find? x.hg.trimap (toLex (i, j)) <;> simp [fp_neg_one_mul, fp_neg_neg]

/-- **C90**: the difference is the sum with the opposite, and changes sign if the operands are exchanged. -/
theorem C90_sub (hx : Ok2 x) (hy : Ok2 y) (ha : AgreeMoments x.hg y.hg) :
    (∃ z, sub u x y = some z ∧ (neg u y).bind (add u x) = some z) ∧ ∃ z, sub u x y = some z ∧ (sub u y x).bind (neg u) = some z := by
  obtain ⟨z, e, m, v, d, t⟩ := binary_bilinear hx hy (x.mu - y.mu) 1 (-1) 0
  simp only [fp_zero_half, eqb_zero_fp, if_true, Option.map_id, id_eq] at d t
  constructor
  · obtain ⟨w, ew, mw, vw, dw, tw⟩ := unary_linear hy.valid (-y.mu) (-1)
    have bw : Ok2 w := ⟨vw, fun i hi => hy.below i (by
      rw [← find?_isSome, dw, Option.isSome_map, find?_isSome] at hi; exact hi)⟩
    obtain ⟨z', e', m', v', d', t'⟩ := binary_bilinear hx bw (x.mu + w.mu) 1 1 0
    simp only [fp_zero_half, eqb_zero_fp, if_true, Option.map_id, id_eq] at d' t'
    refine ⟨z, e u, ?_⟩
    rw [neg, ew u, Option.bind_some, add, e' u]
    refine congrArg some (ureal2_ext v' v (by rw [m', m, mw, fp_sub_add]) (fun i => ?_) fun i j hij => ?_)
    · rw [d, d', dw]
      cases find? x.hg.diagmap i <;> cases find? y.hg.diagmap i <;> simp [linD, fp_one_mul]
    · rw [t i j hij, t' i j hij, tw i j hij]
      cases find? x.hg.trimap (toLex (i, j)) <;> cases find? y.hg.trimap (toLex (i, j)) <;> simp [linO, fp_one_mul]
  · obtain ⟨w, ew, mw, vw, dw, tw⟩ := binary_bilinear hy hx (y.mu - x.mu) 1 (-1) 0
    simp only [fp_zero_half, eqb_zero_fp, if_true, Option.map_id, id_eq] at dw tw
    obtain ⟨z', e', m', v', d', t'⟩ := unary_linear vw (-w.mu) (-1)
    refine ⟨z, e u, ?_⟩
    rw [sub, ew u, Option.bind_some, neg, e' u]
    refine congrArg some (ureal2_ext v' v (by rw [m', m, mw, fp_neg_sub]) (fun i => ?_) fun i j hij => ?_)
    · rw [d, d', dw, linD_comm ha]
      cases find? x.hg.diagmap i <;> cases find? y.hg.diagmap i <;> simp [linD, fp_one_mul, fp_neg_one_mul, fp_neg_neg, fp_neg_add]
    · rw [t i j hij, t' i j hij, tw i j hij, linO_comm]
      cases find? x.hg.trimap (toLex (i, j)) <;> cases find? y.hg.trimap (toLex (i, j)) <;> simp [linO, fp_one_mul, fp_neg_one_mul, fp_neg_neg, fp_neg_add]

theorem mixedLoop_nil (h : FP f) (res : HessGrad (FP f)) (xs : SMap VId (Diag (FP f))) : mixedLoop u h res xs [] = some res := by
  unfold mixedLoop
  induction xs with
  | nil => rfl
  | cons p t ih => rw [List.foldlM_cons]; exact ih

theorem entsAt_const (a : FP f) (s : Bool) (i j : VId) : entsAt s (const a).hg i j = [] := by
  simp [entsAt, const, HessGrad.empty, hessSpec]

/-- an operation with a constant as second operand -/
theorem binary_const_right (hx : Ok2 x) (k b c e : FP f) : UReal2.binary u x (const k) x.mu 1 b 0 c e = some x := by
  unfold UReal2.binary
  simp only [hessEntries_eq _ hx.valid, hessEntries_eq _ (ok_number k).valid, Option.bind_some, fp_zero_half, eqb_zero_fp]
  obtain ⟨w, ew, vw, dw, tw⟩ := binaryLoop_cells u hx.valid (ok_number k).valid hx.below (ok_number k).below true (CCmp.eqb (c / lit 2) 0) 1 b (0 : FP f) (c / lit 2)
  have : w = x.hg := by
    refine hg_ext vw hx.valid (fun i => ?_) fun i j hij => ?_
    · rw [dw]
      cases hd : find? x.hg.diagmap i <;> simp [const, HessGrad.empty, find?, diagMerge, fp_zero_mul, fp_zero_add, fp_one_mul]
    · rw [tw i j hij, entsAt_const, entsAt_true hx.valid hij]
      cases find? x.hg.trimap (toLex (i, j)) <;> simp [hProc, valX, fp_zero_mul, fp_zero_add, fp_one_mul]
  rw [ew, Option.bind_some, this]
  have hm : mixedLoop u (e / lit 2) x.hg x.hg.diagmap (const k).hg.diagmap = some x.hg := mixedLoop_nil u _ _ _
  rw [hm, ite_self, Option.map_some]

/-- an operation with a constant as first operand -/
theorem binary_const_left (hx : Ok2 x) (k b e : FP f) : UReal2.binary u (const k) x x.mu b 1 0 0 e = some x := by
  unfold UReal2.binary
  simp only [hessEntries_eq _ hx.valid, hessEntries_eq _ (ok_number k).valid, Option.bind_some, fp_zero_half, eqb_zero_fp]
  obtain ⟨w, ew, vw, dw, tw⟩ := binaryLoop_cells u (ok_number k).valid hx.valid (ok_number k).below hx.below true true b 1 (0 : FP f) 0
  have : w = x.hg := by
    refine hg_ext vw hx.valid (fun i => ?_) fun i j hij => ?_
    · rw [dw]
      cases hd : find? x.hg.diagmap i <;> simp [const, HessGrad.empty, find?, diagMerge, fp_zero_mul, fp_zero_add, fp_one_mul]
    · rw [tw i j hij, entsAt_const, entsAt_true hx.valid hij]
      cases find? x.hg.trimap (toLex (i, j)) <;> simp [hProc, fp_zero_mul, fp_zero_add, fp_one_mul]
  rw [ew, Option.bind_some, this]
  have hm : mixedLoop u (e / lit 2) x.hg (const k).hg.diagmap x.hg.diagmap = some x.hg := rfl
  rw [hm, ite_self, Option.map_some]

/-- **C90**: adding and subtracting zero, multiplying and dividing by one return the same value, in the last digit. -/
theorem C90_units (hx : Ok2 x) : add u x (const 0) = some x ∧ add u (const 0) x = some x ∧ sub u x (const 0) = some x ∧ mul u x (const 1) = some x ∧ mul u (const 1) x = some x ∧
    div u x (const 1) = some x := by
  refine ⟨?_, ?_, ?_, ?_, ?_, ?_⟩
  · have := binary_const_right u hx 0 1 0 0
    rwa [add, show x.mu + (const (0 : FP f)).mu = x.mu from fp_add_zero _]
  · have := binary_const_left u hx 0 1 0
    rwa [add, show (const (0 : FP f)).mu + x.mu = x.mu from fp_zero_add _]
  · have := binary_const_right u hx 0 (-1) 0 0
    rwa [sub, show x.mu - (const (0 : FP f)).mu = x.mu from fp_sub_zero _]
  · have := binary_const_right u hx 1 x.mu 0 1
    rwa [mul, show x.mu * (const (1 : FP f)).mu = x.mu from fp_mul_one _]
  · have := binary_const_left u hx 1 x.mu 1
    rwa [mul, show (const (1 : FP f)).mu * x.mu = x.mu from fp_one_mul _]
  · have := binary_const_right u hx 1 (-x.mu * 1) (lit 2 * x.mu * 1 * 1) (-1)
    have h1 : (1 : FP f) / (const (1 : FP f)).mu = 1 := fp_div_one _
    rwa [div, h1, show x.mu / (const (1 : FP f)).mu = x.mu from fp_div_one _, show (1 : FP f) * 1 = 1 from fp_mul_one _]

/-! ## a difference of equal values -/

/-- A value without uncertainty, as far as the derivatives, the central moments and the covariances tell. -/
def IsZero2 (z : UReal2 (FP f)) : Prop :=
  z.mu = 0 ∧ (∀ i d, find? z.hg.diagmap i = some d → d.grad = 0 ∧ d.hhess = 0) ∧ (∀ p ∈ z.hg.trimap, p.2 = 0) ∧
    z.m 1 = some 0 ∧ z.m 2 = some 0 ∧ z.m 3 = some 0 ∧ z.m 4 = some 0 ∧ (∀ p, z.n p = some 0) ∧ ∀ w : UReal2 (FP f), w.hg.Valid → cov z w = some 0 ∧ cov w z = some 0

theorem m1_zero {hg : HessGrad (FP f)} (h : ∀ p ∈ hg.diagmap, p.2.hhess = 0) : m1 hg = 0 := by
  unfold m1
  have : ∀ (l : SMap VId (Diag (FP f))), (∀ p ∈ l, p.2.hhess = 0) → l.foldl (fun m it => m + it.2.hhess) 0 = 0 := by
    intro l
    induction l with
    | nil => intro _; rfl
    | cons p t ih =>
      intro hl
      rw [List.foldl_cons, hl p (by simp), fp_add_zero]
      exact ih fun q hq => hl q (by simp [hq])
  exact this _ h

theorem c2A_zero {a b : SMap VId (Diag (FP f))} (h : (∀ p ∈ a, p.2.grad = 0 ∧ p.2.hhess = 0) ∨ ∀ p ∈ b, p.2.grad = 0 ∧ p.2.hhess = 0) (m : FP f) : c2A m a b = m := by
  induction hn : a.length + b.length using Nat.strong_induction_on generalizing a b m with
  | _ n ih =>
  rcases a with _ | ⟨⟨i, d⟩, ta⟩
  · simp [c2A]
  rcases b with _ | ⟨⟨j, e⟩, tb⟩
  · simp [c2A]
  rw [c2A]
  split_ifs
  · exact ih _ (by simp at hn ⊢; omega) (h.imp (fun h p hp => h p (by simp [hp])) _root_.id) m rfl
  · exact ih _ (by simp at hn ⊢; omega) (h.imp _root_.id fun h p hp => h p (by simp [hp])) m rfl
  · have e0 : m + d.grad * e.grad + d.hhess * e.grad * d.mom.v3 + d.grad * e.hhess * d.mom.v3 + d.hhess * e.hhess * d.mom.v4 = m := by
      rcases h with h | h
      · obtain ⟨h1, h2⟩ := h (i, d) (by simp)
        simp only at h1 h2
        simp only [h1, h2, fp_zero_mul, fp_add_zero]
      · obtain ⟨h1, h2⟩ := h (j, e) (by simp)
        simp only at h1 h2
        simp only [h1, h2, fp_zero_mul, fp_mul_zero_right, fp_add_zero]
    simp only
    rw [e0]
    exact ih _ (by simp at hn ⊢; omega) (h.imp (fun h p hp => h p (by simp [hp])) fun h p hp => h p (by simp [hp])) m rfl

theorem c2B_zero {a b : List (Ent (FP f))} (ha : ∀ e ∈ a, e.id1 < e.id2) (hb : ∀ e ∈ b, e.id1 < e.id2) (h : (∀ e ∈ a, e.val = 0) ∨ ∀ e ∈ b, e.val = 0) (m : FP f) : c2B m a b = some m := by
  induction hn : a.length + b.length using Nat.strong_induction_on generalizing a b m with
  | _ n ih =>
  rcases a with _ | ⟨d, ta⟩
  · simp [c2B]
  rcases b with _ | ⟨e, tb⟩
  · simp [c2B]
  rw [c2B, if_neg (by simp [ha d (by simp), hb e (by simp)])]
  have ha' : ∀ e ∈ ta, e.id1 < e.id2 := fun e he => ha e (by simp [he])
  have hb' : ∀ e ∈ tb, e.id1 < e.id2 := fun e he => hb e (by simp [he])
  simp only
  split_ifs
  · exact ih _ (by simp at hn ⊢; omega) ha' hb (h.imp (fun h p hp => h p (by simp [hp])) _root_.id) m rfl
  · exact ih _ (by simp at hn ⊢; omega) ha hb' (h.imp _root_.id fun h p hp => h p (by simp [hp])) m rfl
  · have e0 : m + lit (2 * 2) * d.val * e.val = m := by
      rcases h with h | h
      · rw [h d (by simp), fp_mul_zero_right, fp_zero_mul, fp_add_zero]
      · rw [h e (by simp), fp_mul_zero_right, fp_add_zero]
    rw [e0]
    exact ih _ (by simp at hn ⊢; omega) ha' hb' (h.imp (fun h p hp => h p (by simp [hp])) fun h p hp => h p (by simp [hp])) m rfl

theorem foldl_id {α : Type*} (g : FP f → α → FP f) (l : List α) (h : ∀ a ∈ l, ∀ m, g m a = m) (m : FP f) : l.foldl g m = m := by
  induction l with
  | nil => rfl
  | cons a t ih => rw [List.foldl_cons, h a (by simp)]; exact ih fun b hb => h b (by simp [hb])

theorem c2C_zero {a b : SMap VId (Diag (FP f))} (h : (∀ p ∈ a, p.2.hhess = 0) ∨ ∀ p ∈ b, p.2.hhess = 0) (m : FP f) : c2C m a b = m := by
  refine foldl_id _ _ (fun p hp m => foldl_id _ _ (fun q hq m => ?_) m) m
  split_ifs
  · rcases h with h | h
    · simp only [h p hp, fp_zero_mul, fp_add_zero]
    · simp only [h q hq, fp_mul_zero_right, fp_add_zero]
  · rfl

theorem ents_lt {hg : HessGrad (FP f)} (hv : hg.Valid) : ∀ e ∈ hg.trimap.map (entOf hg.dOf), e.id1 < e.id2 := by
  intro e he
  obtain ⟨p, hp, rfl⟩ := List.mem_map.1 he
  exact (hv.tri (ofLex p.1).1 (ofLex p.1).2 (List.mem_map.2 ⟨p, hp, rfl⟩)).1

theorem m_one_eq (x : UReal2 (FP f)) : x.m 1 = some (m1 x.hg) := by
  simp [UReal2.m, momArray, updateMom, compute]

theorem forTails_id {α : Type*} (g : FP f → α → List α → FP f) (l : List α) (h : ∀ a ∈ l, ∀ t, (∀ b ∈ t, b ∈ l) → ∀ m, g m a t = m) (m : FP f) : forTails g m l = m := by
  have key : ∀ l' : List α, (∀ a ∈ l', a ∈ l) → forTails g m l' = m := by
    intro l'
    induction l' with
    | nil => intro _; rfl
    | cons a t ih =>
      intro hl
      rw [forTails, h a (hl a (by simp)) t fun b hb => hl b (by simp [hb])]
      exact ih fun b hb => hl b (by simp [hb])
  exact key l fun _ h => h

theorem forTails_opt {α : Type*} (g : Option (FP f) → α → List α → Option (FP f)) (c : FP f) (l : List α) (h : ∀ a ∈ l, ∀ t, ∀ o, (o = none ∨ o = some c) → g o a t = none ∨ g o a t = some c)
    (o : Option (FP f)) (ho : o = none ∨ o = some c) : forTails g o l = none ∨ forTails g o l = some c := by
  induction l generalizing o with
  | nil => exact ho
  | cons a t ih => exact ih (fun b hb => h b (by simp [hb])) _ (h a (by simp) t o ho)

theorem m3_zero {hg : HessGrad (FP f)} (hz : hg.Valid) (hd : ∀ p ∈ hg.diagmap, p.2.grad = 0 ∧ p.2.hhess = 0) (t0 : ∀ e ∈ hg.trimap.map (entOf hg.dOf), e.val = 0) : m3 hg = some 0 := by
  obtain ⟨m, hm⟩ := m3_some hz
  have key : m3 hg = none ∨ m3 hg = some 0 := by
    rw [m3, triEntries_skip _ hz, Option.bind_some]
    simp only
    rw [forTails_id _ hg.diagmap]
    · refine forTails_opt _ 0 _ (fun e he t o ho => ?_) _ (.inr rfl)
      rcases ho with rfl | rfl
      · exact .inl rfl
      · rw [Option.bind_some]
        have e0 : m3D 0 e = 0 := by simp only [m3D, t0 e he, fp_mul_zero_right, fp_zero_mul, fp_add_zero]
        rw [e0]
        generalize (t.takeWhile fun it2 => decide (it2.id1 = e.id1)) = l
        induction l with
        | nil => exact .inr rfl
        | cons a l ih =>
          rw [List.foldlM_cons]
          have : m3E hg 0 e a = none ∨ m3E hg 0 e a = some 0 := by
            unfold m3E
            cases hg.triGet e.id2 a.id2 with
            | none => exact .inl rfl
            | some w => right; simp only [Option.map_some, t0 e he, fp_mul_zero_right, fp_zero_mul, fp_add_zero]
          rcases this with h | h
          · rw [h]; exact .inl rfl
          · rw [h]; exact ih
    · intro p hp t ht m
      obtain ⟨g1, g2⟩ := hd p hp
      have a1 : m3A m p.2 = m := by simp only [m3A, g1, g2, fp_mul_zero_right, fp_zero_mul, fp_add_zero]
      rw [a1, forTails_id _ t, foldl_id]
      · intro e he m
        simp only [m3F, g2, fp_mul_zero_right, fp_zero_mul, fp_add_zero, ite_self]
      · intro q hq t' ht' m
        obtain ⟨r1, r2⟩ := hd q (ht q hq)
        have b1 : m3B m p.2 q.2 = m := by simp only [m3B, g1, g2, r1, r2, fp_mul_zero_right, fp_zero_mul, fp_add_zero]
        rw [b1]
        refine foldl_id _ _ (fun w hw m => ?_) m
        simp only [m3C, g2, fp_mul_zero_right, fp_zero_mul, fp_add_zero]
  rw [hm] at key
  rw [hm]
  rcases key with h | h
  · exact absurd h (by simp)
  · exact h

theorem m4_zero {hg : HessGrad (FP f)} (hz : hg.Valid) (hd : ∀ p ∈ hg.diagmap, p.2.grad = 0 ∧ p.2.hhess = 0) (t0 : ∀ e ∈ hg.trimap.map (entOf hg.dOf), e.val = 0) : m4 hg = some 0 := by
  rw [m4, triEntries_skip _ hz, Option.map_some]
  congr 1
  simp only
  rw [foldl_id _ hg.diagmap, foldl_id]
  · intro e he m
    have v0 := t0 e he
    have e0 : m4E m e = m := by simp only [m4E, v0, fp_mul_zero_right, fp_zero_mul, fp_add_zero]
    rw [e0, forTails_id _ hg.diagmap, foldl_id]
    · intro w hw m
      unfold m4I
      split_ifs
      · rfl
      · simp only [v0, fp_mul_zero_right, fp_zero_mul, fp_add_zero]
        cases hg.triFind e.id1 w.id1 <;> cases hg.triFind e.id2 w.id2 <;> cases hg.triFind e.id1 w.id2 <;> cases hg.triFind e.id2 w.id1 <;> rfl
    · intro q hq t ht m
      obtain ⟨r1, r2⟩ := hd q hq
      have j0 : ∀ (m b c : FP f), hg.diagmap.foldl (fun m it3 => m4J m e q.1 b c it3) (m4H m e b c) = m := by
        intro m b c
        rw [foldl_id]
        · simp only [m4H, v0, fp_mul_zero_right, fp_zero_mul, fp_add_zero]
        · intro w hw m
          simp only [m4J, v0, fp_mul_zero_right, fp_zero_mul, fp_add_zero, ite_self]
      have l0 : ∀ m : FP f, t.foldl (fun m it3 => m4L m e q.2 it3) m = m := foldl_id _ _ fun w hw m => by
        simp only [m4L, v0, fp_mul_zero_right, fp_zero_mul, fp_add_zero, ite_self]
      have g2 : ∀ m b : FP f, m4G2 m e q.2 b = m := fun m b => by simp only [m4G2, v0, fp_mul_zero_right, fp_zero_mul, fp_add_zero]
      have g3 : ∀ m b : FP f, m4G3 m e q.2 b = m := fun m b => by simp only [m4G3, v0, fp_mul_zero_right, fp_zero_mul, fp_add_zero]
      unfold m4G
      split_ifs
      · rfl
      · simp only [l0]
        cases hg.triFind e.id1 q.1 <;> cases hg.triFind e.id2 q.1 <;> simp only [g2, g3, j0]
  · intro p hp m
    obtain ⟨g1, g2⟩ := hd p hp
    have a1 : m4A m p.2 = m := by simp only [m4A, g1, g2, fp_mul_zero_right, fp_zero_mul, fp_add_zero]
    rw [a1, forTails_id _ hg.diagmap, foldl_id]
    · intro e he m
      simp only [m4F, t0 e he, fp_mul_zero_right, fp_zero_mul, fp_add_zero, ite_self]
    · intro q hq t ht m
      obtain ⟨r1, r2⟩ := hd q hq
      have b1 : m4B m p.2 q.2 = m := by simp only [m4B, g1, g2, r1, r2, fp_mul_zero_right, fp_zero_mul, fp_add_zero]
      rw [b1]
      split_ifs
      · rfl
      refine forTails_id _ _ (fun w hw t' ht' m => ?_) m
      obtain ⟨s1, s2⟩ := hd w (ht w hw)
      have c1 : m4C m p.2 q.2 w.2 = m := by simp only [m4C, g1, g2, r1, r2, s1, s2, fp_mul_zero_right, fp_zero_mul, fp_add_zero]
      rw [c1]
      split_ifs
      · rfl
      refine foldl_id _ _ (fun v hv m => ?_) m
      simp only [m4D, g2, fp_mul_zero_right, fp_zero_mul, fp_add_zero, ite_self]

theorem isZero2_of {z : UReal2 (FP f)} (hz : z.hg.Valid) (hm : z.mu = 0) (hd : ∀ i d, find? z.hg.diagmap i = some d → d.grad = 0 ∧ d.hhess = 0)
    (ht : ∀ p ∈ z.hg.trimap, p.2 = 0) : IsZero2 z := by
  have hd' : ∀ p ∈ z.hg.diagmap, p.2.grad = 0 ∧ p.2.hhess = 0 := fun p hp => hd p.1 p.2 (find?_of_mem hz.dsorted hp)
  have h1 : m1 z.hg = 0 := m1_zero fun p hp => (hd' p hp).2
  have z0 : (0 : FP f) - 0 = 0 := fp_sub_zero 0
  have h2 : m2 z.hg = some 0 := by
    rw [m2, triEntries_full _ hz, Option.map_some]
    congr 1
    rw [foldl_id (fun m (it : VId × Diag (FP f)) => m2A m it.2), foldl_id m2B]
    · intro e he m
      obtain ⟨p, hp, rfl⟩ := List.mem_map.1 he
      obtain ⟨q1, q2⟩ := pairsFrom_mem hp
      have hv : SMap.get z.hg.trimap (toLex (p.1.1, p.2.1)) = 0 := by
        unfold SMap.get
        cases hf : find? z.hg.trimap (toLex (p.1.1, p.2.1)) with
        | none => rfl
        | some v => exact ht _ (find?_some_mem hf)
      simp only [m2B, entPair, hv, (hd' _ q1).2, fp_mul_zero_right, fp_zero_mul, fp_add_zero]
    · intro p hp m
      obtain ⟨g1, g2⟩ := hd' p hp
      simp only [m2A, g1, g2, fp_mul_zero_right, fp_zero_mul, fp_add_zero]
  have t0 : ∀ e ∈ z.hg.trimap.map (entOf z.hg.dOf), e.val = 0 := by
    intro e he
    obtain ⟨p, hp, rfl⟩ := List.mem_map.1 he
    exact ht p hp
  have h3 := m3_zero hz hd' t0
  have h4 := m4_zero hz hd' t0
  refine ⟨hm, hd, ht, by rw [m_one_eq, h1], ?_, ?_, ?_, fun p => ?_, fun w hw => ?_⟩
  · simp [UReal2.m, momArray, updateMom, compute, h1, h2, fp_mul_zero_right, z0]
  · simp [UReal2.m, momArray, updateMom, compute, h1, h2, h3, fp_zero_mul, z0]
  · simp [UReal2.m, momArray, updateMom, compute, h1, h2, h3, h4, fp_zero_mul, z0]
  · rw [UReal2.n, m_one_eq, h1, hm]
    cases p <;> simp [fp_neg_zero, fp_add_zero]
  · constructor
    · rw [cov, c2, triEntries_skip _ hz, triEntries_skip _ hw, Option.bind_some, Option.bind_some, c2A_zero (.inl hd'), c2B_zero (ents_lt hz) (ents_lt hw) (.inl t0), Option.map_some,
        Option.bind_some, c2C_zero (.inl fun p hp => (hd' p hp).2), m_one_eq, m_one_eq, h1, Option.bind_some, Option.map_some, fp_zero_mul, z0]
    · rw [cov, c2, triEntries_skip _ hz, triEntries_skip _ hw, Option.bind_some, Option.bind_some, c2A_zero (.inr hd'), c2B_zero (ents_lt hw) (ents_lt hz) (.inr t0), Option.map_some,
        Option.bind_some, c2C_zero (.inr fun p hp => (hd' p hp).2), m_one_eq, m_one_eq, h1, Option.bind_some, Option.map_some, fp_mul_zero_right, z0]

/-- **C90**: a value minus itself is zero without uncertainty, whatever its first and second derivatives, uncorrelated to everything. -/
theorem C90_sub_self (hx : Ok2 x) : ∃ z, sub u x x = some z ∧ IsZero2 z ∧ keys z.hg.diagmap = keys x.hg.diagmap := by
  obtain ⟨z, e, m, v, d, t⟩ := binary_bilinear hx hx (x.mu - x.mu) 1 (-1) 0
  simp only [fp_zero_half, eqb_zero_fp, if_true, Option.map_id, id_eq] at d t
  refine ⟨z, e u, isZero2_of v (by rw [m, fp_sub_add, fp_add_neg]) (fun i w hw => ?_) (fun p hp => ?_), ?_⟩
  · rw [d] at hw
    cases hd : find? x.hg.diagmap i <;> simp only [hd, linD, reduceCtorEq, Option.some_inj] at hw
    subst hw
    simp [fp_one_mul, fp_neg_one_mul, fp_add_neg]
  · have hk := v.tri (ofLex p.1).1 (ofLex p.1).2 (List.mem_map.2 ⟨p, hp, rfl⟩)
    have hf : find? z.hg.trimap (toLex ((ofLex p.1).1, (ofLex p.1).2)) = some p.2 := find?_of_mem v.tsorted hp
    rw [t _ _ hk.1] at hf
    cases hd : find? x.hg.trimap (toLex ((ofLex p.1).1, (ofLex p.1).2)) <;> simp only [hd, linO, reduceCtorEq, Option.some_inj] at hf
    rw [← hf]
    simp [fp_one_mul, fp_neg_one_mul, fp_add_neg]
  · refine keys_eq_of_mem v.dsorted hx.valid.dsorted fun i => ?_
    rw [← find?_isSome, ← find?_isSome, d]
    cases find? x.hg.diagmap i <;> simp [linD]

/-! ## products -/

theorem crossO_comm (hs : BinaryFmt f) (a b : Option (Diag (FP f))) : crossO (1 / lit 2) a b = crossO (1 / lit 2 : FP f) b a := by
  cases a <;> cases b <;> simp only [crossO]
  rename_i d e
  have key : ∀ g h : FP f, ((1 / lit 2 : FP f) * g * h).val = f.rd (g.val * h.val) / 2 := by
    intro g h
    rw [val_mul, val_mul, fp_half (binary_half hs), show (1 / 2 : ℝ) * g.val = g.val / 2 by ring, hs, g.rep, show g.val / 2 * h.val = g.val * h.val / 2 by ring, hs]
  congr 1
  apply FP.ext
  rw [key, key, mul_comm]

/-- **C90**: the product does not depend on the order of the operands, in the last digit, if no two variables are shared by the operands between which one of them
has a mixed second derivative: for instance if the operands share at most one variable, or are linear. -/
theorem C90_mul_comm_partial (hs : BinaryFmt f) (hx : Ok2 x) (hy : Ok2 y) (ha : AgreeMoments x.hg y.hg)
    (h : ∀ i j, i < j → i ∈ x.hg.vars → j ∈ x.hg.vars → i ∈ y.hg.vars → j ∈ y.hg.vars →
      (∀ t, find? x.hg.trimap (toLex (i, j)) = some t → t = 0) ∧ ∀ t, find? y.hg.trimap (toLex (i, j)) = some t → t = 0) : ∃ z, mul u x y = some z ∧ mul u y x = some z := by
  obtain ⟨z, e, m, v, d, t⟩ := binary_bilinear hx hy (x.mu * y.mu) y.mu x.mu 1
  obtain ⟨z', e', m', v', d', t'⟩ := binary_bilinear hy hx (y.mu * x.mu) x.mu y.mu 1
  simp only [eqb_half_fp (binary_half hs), Bool.false_eq_true, if_false] at d t d' t'
  refine ⟨z, e u, (e' u).trans (congrArg some (ureal2_ext v' v (by rw [m, m', fp_mul_comm]) (fun i => ?_) fun i j hij => ?_))⟩
  · rw [d, d', linD_comm ha]
    congr 1; funext w
    simp only [diagCross, crossO_comm hs (find? y.hg.diagmap i)]
  · rw [t i j hij, t' i j hij, linO_comm x.mu, crossO_comm hs (find? y.hg.diagmap i), crossO_comm hs (find? y.hg.diagmap j)]
    have h' := h i j hij
    simp only [HessGrad.vars, List.mem_toFinset, ← find?_isSome] at h'
    cases hxi : find? x.hg.diagmap i <;> cases hxj : find? x.hg.diagmap j <;> cases hyi : find? y.hg.diagmap i <;> cases hyj : find? y.hg.diagmap j <;> simp only [crossO, addO]
    rw [hxi, hxj, hyi, hyj] at h'
    obtain ⟨h1, h2⟩ := h' rfl rfl rfl rfl
    have : (linO y.mu x.mu (find? x.hg.trimap (toLex (i, j))) (find? y.hg.trimap (toLex (i, j)))).getD 0 = 0 := by
      cases q1 : find? x.hg.trimap (toLex (i, j)) <;> cases q2 : find? y.hg.trimap (toLex (i, j)) <;> simp only [linO, Option.getD_some, Option.getD_none]
      · rw [h2 _ q2, fp_mul_zero_right]
      · rw [h1 _ q1, fp_mul_zero_right]
      · rw [h1 _ q1, h2 _ q2, fp_mul_zero_right, fp_mul_zero_right, fp_add_zero]
    rw [this]
    simp only [Option.getD_some, fp_zero_add]
    rw [fp_add_comm]

/-! ## covariances -/

/-- No second derivatives with respect to one variable. -/
def NoDiag (x : UReal2 (FP f)) : Prop := ∀ p ∈ x.hg.diagmap, p.2.hhess = 0

theorem c2A_comm {a b : SMap VId (Diag (FP f))} (ha : ∀ p ∈ a, p.2.hhess = 0) (hb : ∀ p ∈ b, p.2.hhess = 0) (m : FP f) : c2A m a b = c2A m b a := by
  induction hn : a.length + b.length using Nat.strong_induction_on generalizing a b m with
  | _ n ih =>
  rcases a with _ | ⟨⟨i, d⟩, ta⟩
  · simp [c2A]
  rcases b with _ | ⟨⟨j, e⟩, tb⟩
  · simp [c2A]
  have ha' : ∀ p ∈ ta, p.2.hhess = 0 := fun p hp => ha p (by simp [hp])
  have hb' : ∀ p ∈ tb, p.2.hhess = 0 := fun p hp => hb p (by simp [hp])
  rw [c2A, c2A]
  rcases lt_trichotomy i j with h | h | h
  · rw [if_pos h, if_neg h.not_gt, if_pos h]
    exact ih _ (by simp at hn ⊢; omega) ha' hb m rfl
  · subst h
    simp only [lt_irrefl, if_false]
    have h1 : d.hhess = 0 := ha (i, d) (by simp)
    have h2 : e.hhess = 0 := hb (i, e) (by simp)
    simp only [h1, h2, fp_zero_mul, fp_mul_zero_right, fp_add_zero]
    rw [fp_mul_comm d.grad]
    exact ih _ (by simp at hn ⊢; omega) ha' hb' _ rfl
  · rw [if_neg h.not_gt, if_pos h, if_pos h]
    exact ih _ (by simp at hn ⊢; omega) ha hb' m rfl

theorem lit4_val (hs : BinaryFmt f) : (lit (2 * 2) : FP f).val = 4 := by
  show f.rd ((2 * 2 : ℕ) : ℝ) = 4
  have := binary_two hs 2
  rw [(binary_half hs).1] at this
  rw [show ((2 * 2 : ℕ) : ℝ) = 2 * 2 by norm_num, this]; norm_num

theorem four_mul (hs : BinaryFmt f) (a b : FP f) : (lit (2 * 2) * a * b).val = 4 * f.rd (a.val * b.val) := by
  rw [val_mul, val_mul, lit4_val hs, show (4 : ℝ) * a.val = 2 * (2 * a.val) by ring, binary_two hs, binary_two hs, a.rep,
    show 2 * (2 * a.val) * b.val = 2 * (2 * (a.val * b.val)) by ring, binary_two hs, binary_two hs]
  ring

theorem c2B_comm (hs : BinaryFmt f) {a b : List (Ent (FP f))} (m : FP f) : c2B m a b = c2B m b a := by
  induction hn : a.length + b.length using Nat.strong_induction_on generalizing a b m with
  | _ n ih =>
  rcases a with _ | ⟨d, ta⟩
  · simp [c2B]
  rcases b with _ | ⟨e, tb⟩
  · simp [c2B]
  rw [c2B, c2B]
  have h0 : (¬ d.id1 < d.id2 ∨ ¬ e.id1 < e.id2) ↔ (¬ e.id1 < e.id2 ∨ ¬ d.id1 < d.id2) := or_comm
  simp only [h0]
  split_ifs with h1 h2 h3 h3 h3
  · rfl
  · exact absurd h3 h2.not_gt
  · exact ih _ (by simp at hn ⊢; omega) m rfl
  · exact ih _ (by simp at hn ⊢; omega) m rfl
  · rw [show lit (2 * 2) * d.val * e.val = lit (2 * 2) * e.val * d.val from FP.ext (by rw [four_mul hs, four_mul hs, mul_comm d.val.val])]
    exact ih _ (by simp at hn ⊢; omega) _ rfl

/-- **C90**: the covariance does not depend on the order of the operands, in the last digit, for values without second derivatives with respect to one variable:
for instance linear ones and products of independent ones. -/
theorem C90_cov_partial (hs : BinaryFmt f) (hx : x.hg.Valid) (hy : y.hg.Valid) (nx : NoDiag x) (ny : NoDiag y) : ∃ c, cov x y = some c ∧ cov y x = some c := by
  have key : cov x y = cov y x := by
    rw [cov, cov, c2, c2, triEntries_skip _ hx, triEntries_skip _ hy]
    simp only [Option.bind_some, m_one_eq, Option.map_some, c2C_zero (.inl nx), c2C_zero (.inl ny)]
    rw [c2A_comm nx ny, c2B_comm hs, fp_mul_comm (m1 x.hg)]
  obtain ⟨m, hm⟩ := c2_some hx hy
  have hc : cov x y = some (m - m1 x.hg * m1 y.hg) := by rw [cov, hm, m_one_eq, m_one_eq]; rfl
  exact ⟨_, hc, key ▸ hc⟩

theorem ents_filter {hg : HessGrad (FP f)} (hv : hg.Valid) :
    ((pairsFrom hg.diagmap).map (entPair hg.trimap)).filter (fun e => decide (toLex (e.id1, e.id2) ∈ keys hg.trimap)) = hg.trimap.map (entOf hg.dOf) := by
  obtain ⟨es, h1, v1⟩ := C45_full hv
  obtain ⟨es', h2, v2⟩ := C45_skip hv
  rw [triEntries_full _ hv, Option.some_inj] at h1
  rw [triEntries_skip _ hv, Option.some_inj] at h2
  rw [h1, h2]
  have irr : ∀ l : List (Ent (FP f)), (l.Pairwise fun e e' => e.id1 < e'.id1 ∨ (e.id1 = e'.id1 ∧ e.id2 < e'.id2)) → l.Nodup :=
    fun l hl => hl.imp fun {a b} h hab => by subst hab; rcases h with h | h; exacts [h.false, h.2.false]
  have sh : ∀ e e' : Ent (FP f), Shows hg e → Shows hg e' → e.id1 = e'.id1 → e.id2 = e'.id2 → e = e' := by
    rintro ⟨i, j, d, d2, v⟩ ⟨i', j', d', d2', v'⟩ ⟨q1, q2, q3⟩ ⟨r1, r2, r3⟩ (rfl : i = i') (rfl : j = j')
    simp only at q1 q2 q3 r1 r2 r3
    rw [q1, Option.some_inj] at r1
    rw [q2, Option.some_inj] at r2
    rw [r1, r2, q3, r3]
  have o1 := v1.once.filter (fun e => decide (toLex (e.id1, e.id2) ∈ keys hg.trimap))
  refine List.Perm.eq_of_pairwise (le := fun e e' => e.id1 < e'.id1 ∨ (e.id1 = e'.id1 ∧ e.id2 < e'.id2)) ?_ o1 v2.once ((List.perm_ext_iff_of_nodup (irr _ o1) (irr _ v2.once)).2 fun e => ?_)
  · intro a b _ _ h h'
    exfalso; omega
  · rw [List.mem_filter, decide_eq_true_iff]
    constructor
    · rintro ⟨he, hk⟩
      obtain ⟨e', he', q1, q2⟩ := (v2.all e.id1 e.id2).2 hk
      rwa [sh e e' (v1.data e he) (v2.data e' he') q1.symm q2.symm]
    · intro he
      have hk := (v2.all e.id1 e.id2).1 ⟨e, he, rfl, rfl⟩
      have := hv.tri e.id1 e.id2 hk
      obtain ⟨e', he', q1, q2⟩ := (v1.all e.id1 e.id2).2 ⟨by rw [HessGrad.vars, List.mem_toFinset]; exact this.2.1, by rw [HessGrad.vars, List.mem_toFinset]; exact this.2.2, this.1⟩
      rw [sh e e' (v2.data e he) (v1.data e' he') q1.symm q2.symm]
      exact ⟨he', by rw [q1, q2]; exact hk⟩

theorem foldl_filter_id {α : Type*} (g : FP f → α → FP f) (q : α → Bool) (l : List α) (h : ∀ a ∈ l, q a = false → ∀ m, g m a = m) (m : FP f) : l.foldl g m = (l.filter q).foldl g m := by
  induction l generalizing m with
  | nil => rfl
  | cons a t ih =>
    have ih' := fun m => ih (fun b hb => h b (by simp [hb])) m
    cases hq : q a with
    | true => rw [List.filter_cons_of_pos hq, List.foldl_cons, List.foldl_cons, ih']
    | false => rw [List.filter_cons_of_neg (by simp [hq]), List.foldl_cons, h a (by simp) hq, ih']

theorem c2A_self {a : SMap VId (Diag (FP f))} (ha : ∀ p ∈ a, p.2.hhess = 0) (m : FP f) : c2A m a a = a.foldl (fun m it => m2A m it.2) m := by
  induction a generalizing m with
  | nil => simp [c2A]
  | cons p t ih =>
    obtain ⟨i, d⟩ := p
    have h1 : d.hhess = 0 := ha (i, d) (by simp)
    rw [c2A, if_neg (lt_irrefl i), if_neg (lt_irrefl i), List.foldl_cons]
    simp only [h1, m2A, fp_zero_mul, fp_mul_zero_right, fp_add_zero]
    exact ih (fun q hq => ha q (by simp [hq])) _

theorem c2B_self (hs : BinaryFmt f) {l : List (Ent (FP f))} (hl : ∀ e ∈ l, e.id1 < e.id2) (h0 : ∀ e ∈ l, e.d1.hhess = 0) (m : FP f) : c2B m l l = some (l.foldl m2B m) := by
  induction l generalizing m with
  | nil => simp [c2B]
  | cons e t ih =>
    rw [c2B, if_neg (by simp [hl e (by simp)]), List.foldl_cons]
    simp only [lt_irrefl, if_false]
    rw [ih (fun q hq => hl q (by simp [hq])) fun q hq => h0 q (by simp [hq])]
    congr 2
    simp only [m2B, h0 e (by simp), fp_zero_mul, fp_zero_add]
    congr 1
    apply FP.ext
    have l2 : (lit 2 : FP f).val = 2 := lit2_val (binary_half hs)
    rw [four_mul hs, val_mul, val_mul, val_mul, l2, binary_two hs e.val.val, e.val.rep, show 2 * e.val.val * e.val.val = 2 * (e.val.val * e.val.val) by ring, binary_two hs (e.val.val * e.val.val), binary_two hs, binary_two hs, f.idem]
    ring

/-- **C90**: the variance is the covariance of the value with itself, in the last digit, for values without second derivatives with respect to one variable. -/
theorem C90_var_partial (hs : BinaryFmt f) (hx : x.hg.Valid) (nx : NoDiag x) : ∃ c, x.var = some c ∧ cov x x = some c := by
  have d0 : ∀ e ∈ x.hg.trimap.map (entOf x.hg.dOf), e.d1.hhess = 0 := by
    intro e he
    obtain ⟨p, hp, rfl⟩ := List.mem_map.1 he
    have := hx.tri (ofLex p.1).1 (ofLex p.1).2 (List.mem_map.2 ⟨p, hp, rfl⟩)
    exact nx _ (find?_some_mem (find_dOf this.2.1))
  have h1 : m1 x.hg = 0 := m1_zero nx
  have h2 : m2 x.hg = c2 x.hg x.hg := by
    rw [m2, c2, triEntries_full _ hx, triEntries_skip _ hx, Option.map_some, Option.bind_some, Option.bind_some, c2A_self nx, c2B_self hs (ents_lt hx) d0, Option.map_some, c2C_zero (.inl nx),
      foldl_filter_id m2B (fun e => decide (toLex (e.id1, e.id2) ∈ keys x.hg.trimap)), ents_filter hx]
    intro e he hk m
    obtain ⟨p, hp, rfl⟩ := List.mem_map.1 he
    have hv : SMap.get x.hg.trimap (toLex (p.1.1, p.2.1)) = 0 := by
      rw [decide_eq_false_iff_not] at hk
      have hk' : toLex (p.1.1, p.2.1) ∉ keys x.hg.trimap := hk
      rw [SMap.get, find?_eq_none.2 hk']; rfl
    simp only [m2B, entPair, hv, nx _ (pairsFrom_mem hp).1, fp_mul_zero_right, fp_zero_mul, fp_add_zero]
  obtain ⟨c, hc⟩ := c2_some hx hx
  refine ⟨c - 0 * 0, ?_, ?_⟩
  · simp [var, UReal2.m, momArray, updateMom, compute, h1, h2, hc]
  · rw [cov, hc, m_one_eq, h1]; rfl

/-! ## what fails -/

/-- 2⁻⁶⁰ -/
noncomputable def fpTiny : FP binary64 := ⟨1 / 2 ^ 60, rep_double (-60) (2 ^ 52) (by norm_num) (by norm_num) (by norm_num)⟩
/-- 2 -/
noncomputable def fpTwo64 : FP binary64 := ⟨2, two_double⟩

theorem one_tiny : (1 : FP binary64) + fpTiny = 1 := FP.ext (by
  rw [val_add, val_one]
  change binary64.rd (1 + 1 / 2 ^ 60) = 1
  rw [bits_val _ 0 (2 ^ 52) (by norm_num) (by norm_num) (by norm_num) (by norm_num)]
  norm_num)

/-- moments of a variable with two values -/
noncomputable def exMom : Moments (FP binary64) := ⟨1, fpTwo64, 0, 0, 0, 0⟩

/-- a value depending on one variable with two values -/
noncomputable def exOne (g h : FP binary64) : UReal2 (FP binary64) := ⟨⟨[(1, ⟨g, h, exMom⟩)], []⟩, 0⟩

theorem exOne_ok (g h : FP binary64) : Ok2 (exOne g h) :=
  ⟨⟨by simp [exOne, Sorted, keys], by simp [exOne, Sorted, keys], by simp [exOne, keys]⟩, fun i hi => by
    simp only [exOne, keys, List.map_cons, List.map_nil, List.mem_singleton] at hi; subst hi; decide⟩

theorem binary_double : BinaryFmt binary64 := binary_bits 53 _

theorem half_two (h : FP binary64) : h * fpTwo64 / lit 2 = h := FP.ext (by
  have l2 : (lit 2 : FP binary64).val = 2 := lit2_val (binary_half binary_double)
  rw [val_div, val_mul, l2, show fpTwo64.val = 2 from rfl, mul_comm, binary_two binary_double, h.rep, mul_div_cancel_left₀ _ two_ne_zero, h.rep])

/-- the values are results of functions of one variable -/
theorem exOne_run (u : Moments (FP binary64)) (g h : FP binary64) : unary u (exOne 1 0) 0 g (h * fpTwo64) = some (exOne g h) := by
  obtain ⟨z, e, m, v, d, t⟩ := unary_cells u (exOne_ok 1 0).valid 0 g (h * fpTwo64)
  rw [e]
  refine congrArg some (ureal2_ext v (exOne_ok g h).valid m (fun i => ?_) fun i j hij => ?_)
  · rw [d, half_two]
    by_cases hi : 1 = i
    · simp [exOne, find?, hi, fp_mul_one, fp_mul_zero_right, fp_add_zero]
    · simp [exOne, find?, hi]
  · have : find? (exOne g h).hg.trimap (toLex (i, j)) = none := rfl
    rw [t i j hij, this]
    by_contra hc
    have : entsAt (CCmp.eqb (h * fpTwo64 / lit 2) 0) (exOne 1 0).hg i j ≠ [] := by
      intro hn; rw [hn] at hc; exact hc rfl
    obtain ⟨q1, q2⟩ := entsAt_vars (exOne_ok 1 0).valid this
    simp only [exOne, keys, List.map_cons, List.map_nil, List.mem_singleton] at q1 q2
    rw [q1, q2] at hij
    exact lt_irrefl _ hij

theorem cov_one (g h g' h' : FP binary64) : cov (exOne g h) (exOne g' h') = some (g * g' + h * g' + g * h' + h * h' * fpTwo64 - h * h') := by
  rw [cov, c2, triEntries_skip _ (exOne_ok g h).valid, triEntries_skip _ (exOne_ok g' h').valid, m_one_eq, m_one_eq]
  simp [exOne, exMom, c2A, c2B, c2C, m1, fp_zero_add, fp_mul_one]

theorem fp_neg_mul (a b : FP f) : -a * b = -(a * b) := FP.ext (by rw [val_mul, val_neg, val_neg, val_mul, neg_mul, f.odd])

theorem tiny_two : (fpTiny * fpTwo64).val = 2 / 2 ^ 60 := by
  rw [val_mul, mul_comm]
  change binary64.rd (2 * fpTiny.val) = _
  rw [binary_two binary_double, fpTiny.rep]
  show 2 * (1 / 2 ^ 60 : ℝ) = _
  ring

/-- **C90**, what fails: the covariance depends on the order of the operands, even in its being zero.  The witnesses depend on one variable which has two values. -/
theorem C90_cov_false (u : Moments (FP binary64)) : ∃ x y t : UReal2 (FP binary64), Ok2 t ∧ unary u t 0 1 (-1 * fpTwo64) = some x ∧ unary u t 0 1 (fpTiny * fpTwo64) = some y ∧
    cov x y = some 0 ∧ ∃ c, cov y x = some c ∧ c.val = -1 / 2 ^ 60 := by
  refine ⟨_, _, exOne 1 0, exOne_ok 1 0, exOne_run u 1 (-1), exOne_run u 1 fpTiny, ?_, _, cov_one _ _ _ _, ?_⟩
  · rw [cov_one]
    simp only [fp_mul_one, fp_one_mul, fp_neg_mul, fp_add_neg, fp_zero_add]
    congr 1
    have e1 : fpTiny + -(fpTiny * fpTwo64) = -fpTiny := FP.ext (by
      rw [val_add, val_neg, tiny_two, show fpTiny.val + -(2 / 2 ^ 60) = -fpTiny.val by show (1 / 2 ^ 60 : ℝ) + _ = -(1 / 2 ^ 60); ring, binary64.odd, fpTiny.rep, val_neg])
    rw [e1, fp_sub_add, fp_neg_neg, fp_add_comm, fp_add_neg]
  · simp only [fp_mul_one, fp_one_mul, fp_mul_neg_one, one_tiny, fp_add_neg, fp_zero_add, fp_neg_mul]
    rw [fp_sub_add, fp_neg_neg, val_add, val_neg, tiny_two, show -(2 / 2 ^ 60) + fpTiny.val = -fpTiny.val by show _ + (1 / 2 ^ 60 : ℝ) = -(1 / 2 ^ 60); ring, binary64.odd, fpTiny.rep]
    show -(1 / 2 ^ 60 : ℝ) = _
    ring

/-- 3 · 2⁻⁵⁵ -/
noncomputable def fpThird : FP binary64 := ⟨3 / 2 ^ 55, rep_double (-54) (3 * 2 ^ 51) (by norm_num) (by norm_num) (by norm_num)⟩

theorem third_sq : (fpThird * fpThird).val = 9 / 2 ^ 110 := by
  rw [val_mul]
  change binary64.rd (3 / 2 ^ 55 * (3 / 2 ^ 55)) = _
  rw [bits_val _ (-107) (9 * 2 ^ 49) (by norm_num) (by norm_num) (by norm_num) (by norm_num)]
  norm_num

theorem third_sq_two : (fpThird * fpThird * fpTwo64).val = 9 / 2 ^ 109 := by
  rw [val_mul, mul_comm]
  change binary64.rd (2 * (fpThird * fpThird).val) = _
  rw [binary_two binary_double, (fpThird * fpThird).rep, third_sq]
  norm_num

theorem one_third : (1 : FP binary64) + fpThird = 1 := FP.ext (by
  rw [val_add, val_one]
  change binary64.rd (1 + 3 / 2 ^ 55) = 1
  rw [bits_val _ 0 (2 ^ 52) (by norm_num) (by norm_num) (by norm_num) (by norm_num)]
  norm_num)

theorem one_sq : (1 : FP binary64) + fpThird * fpThird * fpTwo64 = 1 := FP.ext (by
  rw [val_add, val_one, third_sq_two]
  change binary64.rd _ = 1
  rw [bits_val _ 0 (2 ^ 52) (by norm_num) (by norm_num) (by norm_num) (by norm_num)]
  norm_num)

theorem one_sub_sq : (1 : FP binary64) - fpThird * fpThird = 1 := FP.ext (by
  rw [val_sub, val_one, third_sq]
  change binary64.rd _ = 1
  rw [bits_val _ (-1) (2 ^ 53) (by norm_num) (by norm_num) (by norm_num) (by norm_num)]
  norm_num)

theorem var_one (g h : FP binary64) : (exOne g h).var = some (g * g + lit 2 * g * h + h * h * fpTwo64 - h * h) := by
  have : m2 (exOne g h).hg = some (g * g + lit 2 * g * h + h * h * fpTwo64) := by
    rw [m2, triEntries_full _ (exOne_ok g h).valid]
    simp [exOne, exMom, m2A, pairsFrom, fp_zero_add, fp_mul_one]
  have h1 : m1 (exOne g h).hg = h := by simp [m1, exOne, fp_zero_add]
  simp [var, UReal2.m, momArray, updateMom, compute, h1, this]

/-- **C90**, what fails: the variance of a value differs from its covariance with itself in the last digit. -/
theorem C90_var_false (u : Moments (FP binary64)) : ∃ x t : UReal2 (FP binary64), Ok2 t ∧ unary u t 0 1 (fpThird * fpTwo64) = some x ∧ cov x x = some 1 ∧
    ∃ v, x.var = some v ∧ v.val = 1 + 1 / 2 ^ 52 := by
  refine ⟨_, exOne 1 0, exOne_ok 1 0, exOne_run u 1 fpThird, ?_, _, var_one _ _, ?_⟩
  · rw [cov_one]
    simp only [fp_mul_one, fp_one_mul, one_third, one_sq, one_sub_sq]
  · simp only [fp_mul_one, fp_one_mul]
    have l2 : (lit 2 : FP binary64).val = 2 := lit2_val (binary_half binary_double)
    have e1 : ((1 : FP binary64) + lit 2 * fpThird).val = 1 + 1 / 2 ^ 52 := by
      rw [val_add, val_mul, l2, binary_two binary_double, fpThird.rep, val_one]
      change binary64.rd (1 + 2 * (3 / 2 ^ 55)) = _
      rw [bits_val _ 0 (2 ^ 52 + 1) (by norm_num) (by norm_num) (by norm_num) (by norm_num)]
      norm_num
    have e2 : ((1 : FP binary64) + lit 2 * fpThird + fpThird * fpThird * fpTwo64).val = 1 + 1 / 2 ^ 52 := by
      rw [val_add, e1, third_sq_two]
      change binary64.rd _ = _
      rw [bits_val _ 0 (2 ^ 52 + 1) (by norm_num) (by norm_num) (by norm_num) (by norm_num)]
      norm_num
    rw [val_sub, e2, third_sq]
    change binary64.rd _ = _
    rw [bits_val _ 0 (2 ^ 52 + 1) (by norm_num) (by norm_num) (by norm_num) (by norm_num)]
    norm_num

/-- a variable -/
noncomputable def exVar64 (i : VId) : UReal2 (FP binary64) := ⟨⟨[(i, ⟨1, 0, exMom⟩)], []⟩, 0⟩

theorem exVar64_ok {i : VId} (h : i < maxId) : Ok2 (exVar64 i) :=
  ⟨⟨by simp [exVar64, Sorted, keys], by simp [exVar64, Sorted, keys], by simp [exVar64, keys]⟩, fun j hj => by
    simp only [exVar64, keys, List.map_cons, List.map_nil, List.mem_singleton] at hj; subst hj; exact h⟩

/-- 2⁻⁵⁹ -/
noncomputable def fpTiny2 : FP binary64 := ⟨1 / 2 ^ 59, rep_double (-59) (2 ^ 52) (by norm_num) (by norm_num) (by norm_num)⟩

/-- **C90**, what fails: the mixed second derivative of a product of values sharing two variables depends on the order of the factors, even in its being zero. -/
theorem C90_mul_false (u : Moments (FP binary64)) : ∃ x y : UReal2 (FP binary64), binary u (exVar64 1) (exVar64 2) 0 fpTwo64 fpTiny2 0 0 fpTwo64 = some x ∧ binary u (exVar64 1) (exVar64 2) 1 1 (-1) 0 0 0 = some y ∧
    Ok2 x ∧ Ok2 y ∧ AgreeMoments x.hg y.hg ∧ ∃ z w, mul u x y = some z ∧ mul u y x = some w ∧ find? z.hg.trimap (toLex (1, 2)) = some fpTiny ∧ find? w.hg.trimap (toLex (1, 2)) = some 0 := by
  have o1 : Ok2 (exVar64 1) := exVar64_ok (by decide)
  have o2 : Ok2 (exVar64 2) := exVar64_ok (by decide)
  obtain ⟨x, ex, mx, vx, dx, tx⟩ := binary_bilinear o1 o2 0 fpTwo64 fpTiny2 fpTwo64
  obtain ⟨y, ey, my, vy, dy, ty⟩ := binary_bilinear o1 o2 1 1 (-1) 0
  have l2 : (lit 2 : FP binary64).val = 2 := lit2_val (binary_half binary_double)
  have h2 : fpTwo64 / lit 2 = 1 := FP.ext (by rw [val_div, l2]; show binary64.rd (2 / 2) = 1; rw [div_self two_ne_zero]; exact binary64.one)
  have n1 : CCmp.eqb (1 : FP binary64) 0 = false := by rw [← Bool.not_eq_true, FP.eqb_fp, val_one, val_zero]; norm_num
  simp only [h2, n1, Bool.false_eq_true, if_false] at dx tx
  simp only [fp_zero_half, eqb_zero_fp, if_true, Option.map_id, id_eq] at dy ty
  have f1 : ∀ i, find? (exVar64 1).hg.diagmap i = if 1 = i then some ⟨1, 0, exMom⟩ else none := fun i => rfl
  have f2 : ∀ i, find? (exVar64 2).hg.diagmap i = if 2 = i then some ⟨1, 0, exMom⟩ else none := fun i => rfl
  have only : ∀ i : VId, i ≠ 1 → i ≠ 2 → find? x.hg.diagmap i = none ∧ find? y.hg.diagmap i = none := by
    intro i h1 h2
    rw [dx, dy, f1, f2, if_neg h1.symm, if_neg h2.symm]
    exact ⟨rfl, rfl⟩
  have x1 : find? x.hg.diagmap 1 = some ⟨fpTwo64, 0, exMom⟩ := by rw [dx, f1, f2]; simp [linD, diagCross, crossO, fp_mul_one, fp_mul_zero_right]
  have x2 : find? x.hg.diagmap 2 = some ⟨fpTiny2, 0, exMom⟩ := by rw [dx, f1, f2]; simp [linD, diagCross, crossO, fp_mul_one, fp_mul_zero_right]
  have y1 : find? y.hg.diagmap 1 = some ⟨1, 0, exMom⟩ := by rw [dy, f1, f2]; simp [linD, fp_mul_one, fp_mul_zero_right]
  have y2 : find? y.hg.diagmap 2 = some ⟨-1, 0, exMom⟩ := by rw [dy, f1, f2]; simp [linD, fp_mul_one, fp_mul_zero_right]
  have t1 : find? x.hg.trimap (toLex (1, 2)) = some 1 := by
    rw [tx 1 2 (by decide), f1, f2, f1, f2]
    simp [linO, exVar64, find?, crossO, addO, fp_mul_one, fp_zero_add]
  have t2 : find? y.hg.trimap (toLex (1, 2)) = none := by
    rw [ty 1 2 (by decide)]
    simp [linO, exVar64, find?]
  have ok : ∀ {z : UReal2 (FP binary64)}, z.hg.Valid → (∀ i : VId, i ≠ 1 → i ≠ 2 → find? z.hg.diagmap i = none) → Ok2 z := by
    refine fun hv hz => ⟨hv, fun i hi => ?_⟩
    by_cases h1 : i = 1
    · subst h1; decide
    by_cases h2 : i = 2
    · subst h2; decide
    · exact absurd hi (find?_eq_none.1 (hz i h1 h2))
  have ox := ok vx fun i h1 h2 => (only i h1 h2).1
  have oy := ok vy fun i h1 h2 => (only i h1 h2).2
  have half : ∀ g h : FP binary64, ((1 / lit 2 : FP binary64) * g * h).val = binary64.rd (g.val * h.val) / 2 := by
    intro g h
    rw [val_mul, val_mul, fp_half (binary_half binary_double), show (1 / 2 : ℝ) * g.val = g.val / 2 by ring, binary_double, g.rep, show g.val / 2 * h.val = g.val * h.val / 2 by ring, binary_double]
  have c12 : (1 / lit 2 : FP binary64) * fpTwo64 * -1 = -1 := FP.ext (by
    rw [half, val_neg, val_one]
    show binary64.rd (2 * -1) / 2 = -1
    rw [mul_neg_one, binary64.odd, two_double]; norm_num)
  have c12' : (1 / lit 2 : FP binary64) * -1 * fpTwo64 = -1 := FP.ext (by
    rw [half, val_neg, val_one]
    show binary64.rd (-1 * 2) / 2 = -1
    rw [neg_one_mul, binary64.odd, two_double]; norm_num)
  have c21 : (1 / lit 2 : FP binary64) * fpTiny2 * 1 = fpTiny := FP.ext (by
    rw [half, val_one, mul_one, fpTiny2.rep]
    show (1 / 2 ^ 59 : ℝ) / 2 = 1 / 2 ^ 60
    norm_num)
  have c21' : (1 / lit 2 : FP binary64) * 1 * fpTiny2 = fpTiny := FP.ext (by
    rw [half, val_one, one_mul, fpTiny2.rep]
    show (1 / 2 ^ 59 : ℝ) / 2 = 1 / 2 ^ 60
    norm_num)
  refine ⟨x, y, ex u, ey u, ox, oy, fun i a b ha hb => ?_, ?_⟩
  · by_cases h1 : i = 1
    · subst h1
      simp only [momOf, x1, y1, Option.map_some, Option.some_inj] at ha hb
      rw [← ha, ← hb]
    by_cases h2 : i = 2
    · subst h2
      simp only [momOf, x2, y2, Option.map_some, Option.some_inj] at ha hb
      rw [← ha, ← hb]
    · simp [momOf, (only i h1 h2).1] at ha
  · obtain ⟨z, ez, -, -, -, tz⟩ := binary_bilinear ox oy (x.mu * y.mu) y.mu x.mu 1
    obtain ⟨w, ew, -, -, -, tw⟩ := binary_bilinear oy ox (y.mu * x.mu) x.mu y.mu 1
    refine ⟨z, w, ez u, ew u, ?_, ?_⟩
    · rw [tz 1 2 (by decide), eqb_half_fp (binary_half binary_double), t1, t2, x1, x2, y1, y2, my]
      simp only [Bool.false_eq_true, if_false, linO, crossO, addO, Option.getD_some, c12, c21, fp_mul_one, fp_add_neg, fp_zero_add]
    · rw [tw 1 2 (by decide), eqb_half_fp (binary_half binary_double), t1, t2, x1, x2, y1, y2, my]
      simp only [Bool.false_eq_true, if_false, linO, crossO, addO, Option.getD_some, c12', c21']
      simp only [fp_mul_one, one_tiny, fp_add_neg]

/-! ## examples -/

/-- a product of two variables plus one of them, with a mixed second derivative -/
noncomputable def exProd64 : UReal2 (FP binary64) := ⟨⟨[(1, ⟨fpTwo64, 0, exMom⟩), (2, ⟨fpTiny, 0, exMom⟩)], [(toLex (1, 2), fpThird)]⟩, fpTwo64⟩

theorem exProd64_ok : Ok2 exProd64 := by
  refine ⟨⟨by simp [exProd64, Sorted, keys], by simp [exProd64, Sorted, keys], ?_⟩, fun i hi => ?_⟩
  · intro a b h
    simp only [exProd64, keys, List.map_cons, List.map_nil, List.mem_singleton] at h
    obtain ⟨rfl, rfl⟩ := Prod.mk.inj (toLex.injective h)
    simp [exProd64, keys]
  · simp only [exProd64, keys, List.map_cons, List.map_nil, List.mem_cons, List.not_mem_nil, or_false] at hi
    rcases hi with rfl | rfl <;> decide

theorem exProd64_agree (g h : FP binary64) : AgreeMoments exProd64.hg (exOne g h).hg := by
  intro i a b ha hb
  simp only [momOf, exProd64, exOne, find?] at ha hb
  split_ifs at ha hb <;> simp_all

example (u : Moments (FP binary64)) : ∃ z, add u exProd64 (exOne fpThird fpTiny) = some z ∧ add u (exOne fpThird fpTiny) exProd64 = some z :=
  C90_add_comm u exProd64_ok (exOne_ok _ _) (exProd64_agree _ _)

example (u : Moments (FP binary64)) : (neg u exProd64).bind (neg u) = some exProd64 := C90_neg_neg u exProd64_ok

example (u : Moments (FP binary64)) : ∃ z, sub u exProd64 (exOne fpThird fpTiny) = some z ∧ (sub u (exOne fpThird fpTiny) exProd64).bind (neg u) = some z :=
  (C90_sub u exProd64_ok (exOne_ok _ _) (exProd64_agree _ _)).2

example (u : Moments (FP binary64)) : div u exProd64 (const 1) = some exProd64 := (C90_units u exProd64_ok).2.2.2.2.2

example (u : Moments (FP binary64)) : ∃ z, sub u exProd64 exProd64 = some z ∧ IsZero2 z ∧ keys z.hg.diagmap = [1, 2] := C90_sub_self u exProd64_ok

/-- a product of two values sharing one variable -/
example (u : Moments (FP binary64)) : ∃ z, mul u exProd64 (exOne fpThird fpTiny) = some z ∧ mul u (exOne fpThird fpTiny) exProd64 = some z :=
  C90_mul_comm_partial u binary_double exProd64_ok (exOne_ok _ _) (exProd64_agree _ _) fun i j hij _ _ hi hj => by
    simp only [HessGrad.vars, List.mem_toFinset, exOne, keys, List.map_cons, List.map_nil, List.mem_singleton] at hi hj
    omega

theorem exProd64_noDiag : NoDiag exProd64 := by
  intro p hp
  simp only [exProd64, List.mem_cons, List.not_mem_nil, or_false] at hp
  rcases hp with rfl | rfl <;> rfl

example : ∃ c, cov exProd64 (exOne fpThird 0) = some c ∧ cov (exOne fpThird 0) exProd64 = some c :=
  C90_cov_partial binary_double exProd64_ok.valid (exOne_ok _ _).valid exProd64_noDiag fun p hp => by
    simp only [exOne, List.mem_singleton] at hp; subst hp; rfl

example : ∃ c, exProd64.var = some c ∧ cov exProd64 exProd64 = some c := C90_var_partial binary_double exProd64_ok.valid exProd64_noDiag

end Unc.Props
