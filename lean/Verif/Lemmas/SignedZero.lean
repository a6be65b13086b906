import Verif.Spec.SignedZero
import Verif.Lemmas.Range2Run

/-!
# Lemmas on signed zeros
-/

namespace Unc
open Spec UReal Ext

namespace Ext
variable {f : Fmt} {M : ℝ}

theorem alike_refl (a : Ext f M) : Alike a a := by
  by_cases h : Finite a
  · obtain ⟨v, hv⟩ := h
    exact Or.inl ⟨v, hv, hv⟩
  · exact Or.inr ⟨h, h⟩

theorem _root_.Unc.Spec.Alike.symm {a b : Ext f M} (h : Alike a b) : Alike b a := by
  rcases h with ⟨v, h1, h2⟩ | ⟨h1, h2⟩
  · exact Or.inl ⟨v, h2, h1⟩
  · exact Or.inr ⟨h2, h1⟩

theorem _root_.Unc.Spec.Alike.eq {a b : Ext f M} (h : Alike a b) (hf : Finite a) : a = b := by
  rcases h with ⟨v, ⟨c, hc, rfl, h1⟩, ⟨d, hd, rfl, h2⟩⟩ | ⟨h1, -⟩
  · have : c = d := FP.ext (h1.trans h2.symm)
    subst this
    rfl
  · exact absurd hf h1

theorem alike_cases {a b : Ext f M} (h : Alike a b) : a = b ∨ (¬ Finite a ∧ ¬ Finite b) := by
  by_cases hf : Finite a
  · exact Or.inl (h.eq hf)
  · refine Or.inr ⟨hf, fun hb => hf ?_⟩
    rw [← h.symm.eq hb]
    exact hb

theorem _root_.Unc.Spec.Alike.trans {a b c : Ext f M} (h : Alike a b) (h' : Alike b c) : Alike a c := by
  rcases alike_cases h with rfl | ⟨h1, h2⟩
  · exact h'
  · rcases alike_cases h' with rfl | ⟨h3, h4⟩
    · exact h
    · exact Or.inr ⟨h1, h4⟩

theorem alike_add {a b c d : Ext f M} (h : Alike a b) (h' : Alike c d) : Alike (a + c) (b + d) := by
  rcases alike_cases h with rfl | ⟨h1, h2⟩
  · rcases alike_cases h' with rfl | ⟨h3, h4⟩
    · exact alike_refl _
    · exact Or.inr ⟨not_fin_add_right h3, not_fin_add_right h4⟩
  · exact Or.inr ⟨not_fin_add_left h1, not_fin_add_left h2⟩

theorem alike_sub {a b c d : Ext f M} (h : Alike a b) (h' : Alike c d) : Alike (a - c) (b - d) := by
  rcases alike_cases h with rfl | ⟨h1, h2⟩
  · rcases alike_cases h' with rfl | ⟨h3, h4⟩
    · exact alike_refl _
    · exact Or.inr ⟨not_fin_sub_right h3, not_fin_sub_right h4⟩
  · exact Or.inr ⟨not_fin_sub_left h1, not_fin_sub_left h2⟩

theorem alike_mul {a b c d : Ext f M} (h : Alike a b) (h' : Alike c d) : Alike (a * c) (b * d) := by
  rcases alike_cases h with rfl | ⟨h1, h2⟩
  · rcases alike_cases h' with rfl | ⟨h3, h4⟩
    · exact alike_refl _
    · exact Or.inr ⟨not_fin_mul_right h3, not_fin_mul_right h4⟩
  · exact Or.inr ⟨not_fin_mul_left h1, not_fin_mul_left h2⟩

theorem alike_neg {a b : Ext f M} (h : Alike a b) : Alike (-a) (-b) := by
  rcases alike_cases h with rfl | ⟨h1, h2⟩
  · exact alike_refl _
  · exact Or.inr ⟨not_fin_neg h1, not_fin_neg h2⟩

theorem alike_sqrt {a b : Ext f M} (h : Alike a b) : Alike (CSqrt.sqrt a) (CSqrt.sqrt b) := by
  rcases alike_cases h with rfl | ⟨h1, h2⟩
  · exact alike_refl _
  · exact Or.inr ⟨not_fin_sqrt h1, not_fin_sqrt h2⟩

theorem not_fin_abs {a : Ext f M} (h : ¬ Finite a) : ¬ Finite (CSqrt.abs a) := by
  rintro ⟨v, c, hc, e, -⟩
  rcases a with _ | s | ⟨a, ha⟩
  · cases e
  · cases e
  · exact h ⟨_, a, ha, rfl, rfl⟩

theorem alike_abs {a b : Ext f M} (h : Alike a b) : Alike (CSqrt.abs a) (CSqrt.abs b) := by
  rcases alike_cases h with rfl | ⟨h1, h2⟩
  · exact alike_refl _
  · exact Or.inr ⟨not_fin_abs h1, not_fin_abs h2⟩

/-- a quotient by NaN -/
theorem not_fin_div_right {a b : Ext f M} (h : ¬ Finite b) (hi : ¬ Infinite b) : ¬ Finite (a / b) := by
  rintro ⟨v, c, hc, e, -⟩
  rw [div_def] at e
  rcases b with _ | s | ⟨b, hb⟩
  · rcases a with _ | t | ⟨a, ha⟩ <;> cases e
  · exact hi ⟨s, rfl⟩
  · exact h ⟨_, b, hb, rfl, rfl⟩

theorem alike_div {a b c d : Ext f M} (h : Alike a b) (h' : Alike c d) (hc : ¬ Infinite c) (hd : ¬ Infinite d) : Alike (a / c) (b / d) := by
  rcases alike_cases h with rfl | ⟨h1, h2⟩
  · rcases alike_cases h' with rfl | ⟨h3, h4⟩
    · exact alike_refl _
    · exact Or.inr ⟨not_fin_div_right h3 hc, not_fin_div_right h4 hd⟩
  · exact Or.inr ⟨not_fin_div_left h1, not_fin_div_left h2⟩

theorem eqb_not_fin {a : Ext f M} (h : ¬ Finite a) {b : Ext f M} (hb : Finite b) : CCmp.eqb a b = false := by
  obtain ⟨v, b, hb, rfl, rfl⟩ := hb
  rcases a with _ | s | ⟨a, ha⟩
  · simp [CCmp.eqb, cmp', ereal]
  · cases s <;> simp [CCmp.eqb, cmp', ereal]
  · exact absurd ⟨_, a, ha, rfl, rfl⟩ h

theorem alike_eqb {a b : Ext f M} (h : Alike a b) {c : Ext f M} (hc : Finite c) : CCmp.eqb a c = CCmp.eqb b c := by
  rcases alike_cases h with rfl | ⟨h1, h2⟩
  · rfl
  · rw [eqb_not_fin h1 hc, eqb_not_fin h2 hc]

theorem alike_scale (hM : 1 ≤ M) {a b c d : Ext f M} (hab : Alike a b) (hcd : Alike c d) :
    Alike (if CCmp.eqb a 1 then c else c * a) (if CCmp.eqb b 1 then d else d * b) := by
  rw [alike_eqb hab ⟨_, _, _, one_eq hM, rfl⟩]
  split_ifs
  · exact hcd
  · exact alike_mul hcd hab

end Ext

namespace SExt
variable {f : Fmt} {M : ℝ}

theorem v_zero : (0 : SExt f M).v = 0 := rfl
theorem v_one : (1 : SExt f M).v = 1 := rfl
theorem v_nat (n : ℕ) : (n : SExt f M).v = n := rfl
theorem v_neg (a : SExt f M) : (-a).v = -a.v := rfl
theorem v_add (a b : SExt f M) : (a + b).v = a.v + b.v := rfl
theorem v_sub (a b : SExt f M) : (a - b).v = a.v - b.v := rfl
theorem v_mul (a b : SExt f M) : (a * b).v = a.v * b.v := rfl
theorem v_sqrt (a : SExt f M) : (CSqrt.sqrt a).v = CSqrt.sqrt a.v := rfl
theorem v_abs (a : SExt f M) : (CSqrt.abs a).v = CSqrt.abs a.v := rfl
theorem v_div (a b : SExt f M) : (a / b).v = quot a b := rfl

/-- dividing by a number which is not zero -/
theorem v_div_of_ne (a : SExt f M) {b : SExt f M} (h : ¬ Is b.v 0) : (a / b).v = a.v / b.v := by
  rw [v_div, quot]
  have : b.v.isZero = false := by
    cases e : b.v with
    | nan => rfl
    | inf s => rfl
    | fin c hc =>
      simp only [isZero, decide_eq_false_iff_not]
      exact fun h0 => h ⟨c, hc, e, h0⟩
  rw [this]; rfl

/-- the sign of zero changes at most the sign of an infinity -/
theorem alike_quot (a b : SExt f M) : Alike (a / b).v (a.v / b.v) := by
  rw [v_div, quot]
  by_cases hz : b.v.isZero
  · rw [if_pos hz]
    rcases a with ⟨a, s, h⟩
    rcases b with ⟨b, t, h'⟩
    rcases b with _ | u | ⟨b, hb⟩
    · cases hz
    · cases hz
    · have hb0 : b.val = 0 := by simpa [isZero] using hz
      rcases a with _ | w | ⟨a, ha⟩
      · exact alike_refl _
      · refine Or.inr ⟨?_, ?_⟩ <;> rintro ⟨v, c, hc, e, -⟩ <;> cases e
      · simp only [div_def, div', hb0, if_true]
        split_ifs
        · exact alike_refl _
        · refine Or.inr ⟨?_, ?_⟩ <;> rintro ⟨v, c, hc, e, -⟩ <;> cases e
  · rw [if_neg hz]
    exact alike_refl _

/-- the relation between two numbers -/
def Near (a b : SExt f M) : Prop := Alike a.v b.v

theorem near_div {a b c d : SExt f M} (h : Near a b) (h' : Near c d) (hc : ¬ Infinite c.v) (hd : ¬ Infinite d.v) : Near (a / c) (b / d) :=
  (alike_quot a c).trans ((alike_div h h' hc hd).trans (alike_quot b d).symm)

section
variable (hM : 1 ≤ M)
include hM

theorem fresh0 : CCmp.leb (0 : SExt f M) (-1) = false := (weak_rel (f := f) hM).fresh.1
theorem fresh1 : CCmp.ltb (0 : SExt f M) (-1) = false := (weak_rel (f := f) hM).fresh'.1
theorem still0 : CCmp.ltb (0 : SExt f M) 0 = false := (weak_rel (f := f) hM).still.1

theorem scale_v (a c : SExt f M) : (if CCmp.eqb a 1 then c else c * a).v = if CCmp.eqb a.v 1 then c.v else c.v * a.v := by
  show (if CCmp.eqb a.v (1 : SExt f M).v then c else c * a).v = _
  rw [v_one]
  split_ifs <;> rfl

theorem near_rel : OpRel (Near : SExt f M → SExt f M → Prop) where
  zero := alike_refl _
  one := alike_refl _
  neg := alike_neg
  add := alike_add
  sub := alike_sub
  mul := alike_mul
  sqrt := alike_sqrt
  abs := alike_abs
  scale := by
    intro a b c d hab hcd
    unfold Near
    rw [scale_v hM, scale_v hM]
    exact alike_scale hM hab hcd
  fresh := ⟨fresh0 hM, fresh0 hM⟩
  fresh' := ⟨fresh1 hM, fresh1 hM⟩
  still := ⟨still0 hM, still0 hM⟩

/-- without the sign -/
theorem forget_rel : OpRel (fun (a : SExt f M) (b : Ext f M) => a.v = b) where
  zero := rfl
  one := rfl
  neg := fun h => by subst h; rfl
  add := fun h h' => by subst h h'; rfl
  sub := fun h h' => by subst h h'; rfl
  mul := fun h h' => by subst h h'; rfl
  sqrt := fun h => by subst h; rfl
  abs := fun h => by subst h; rfl
  scale := fun h h' => by subst h h'; exact scale_v hM _ _
  fresh := ⟨fresh0 hM, fresh0 (f := f) hM⟩
  fresh' := ⟨fresh1 hM, fresh1 (f := f) hM⟩
  still := ⟨still0 hM, still0 (f := f) hM⟩

theorem near_given {x y : UReal (SExt f M)} (h : SameUpToSign x y) : URel Near x y := by
  obtain ⟨⟨g1, g2, g3⟩, ⟨g1', g2', g3'⟩, h3, h4, h5⟩ := h
  refine ⟨h3, ?_, ?_, ?_, fun h => absurd h (by omega), fun h => ⟨g3 h, g3' (h3 ▸ h)⟩⟩
  · rw [Near, h4]; exact alike_refl _
  · rw [Near, h5]; exact alike_refl _
  · rw [g2, g2']; exact .nil

theorem forget_given {x : UReal (SExt f M)} (h : Given x) : URel (fun (a : SExt f M) (b : Ext f M) => a.v = b) x (noSigns x) := by
  obtain ⟨g1, g2, g3⟩ := h
  refine ⟨rfl, rfl, rfl, ?_, fun h => absurd h (by omega), fun h => ⟨g3 h, ?_⟩⟩
  · simp only [noSigns, g2]; exact .nil
  · simp only [noSigns, g3 h]; rfl

/-- whole computations with inputs which differ in the sign of zeros -/
theorem near_run {env env' : ℕ → UReal (SExt f M)} (h : ∀ i, SameUpToSign (env i) (env' i)) :
    ∀ (t : Calc), TameS env t → TameS env' t → Option.Rel (URel Near) (t.run env) (t.run env')
  | .leaf i, _, _ => .some (near_given hM (h i))
  | .un o a, ht, ht' => by
    have := near_run h a ht ht'
    unfold Calc.run
    generalize a.run env = p at this
    generalize a.run env' = q at this
    cases this with
    | none => exact .none
    | some hr => exact .some (un_rel (near_rel hM) hr o)
  | .bin o a b, ht, ht' => by
    obtain ⟨h1, h2, h3⟩ := ht
    obtain ⟨h1', h2', h3'⟩ := ht'
    have A := near_run h a h1 h1'
    have B := near_run h b h2 h2'
    unfold Calc.run
    generalize a.run env = p at A
    generalize a.run env' = q at A
    cases A with
    | none => exact .none
    | some hr =>
      generalize b.run env = p' at B h3
      generalize b.run env' = q' at B h3'
      cases B with
      | none => exact .none
      | some hr' =>
        exact bin_rel (near_rel hM) hr hr' o (fun ho => near_div (near_rel hM).one hr'.mu (h3 ho _ rfl) (h3' ho _ rfl))

/-- whole computations without and with the sign -/
theorem forget_run {env : ℕ → UReal (SExt f M)} (h : ∀ i, Given (env i)) :
    ∀ (t : Calc), NoZero env t → Option.Rel (URel (fun (a : SExt f M) (b : Ext f M) => a.v = b)) (t.run env) (t.run fun i => noSigns (env i))
  | .leaf i, _ => .some (forget_given hM (h i))
  | .un o a, ht => by
    have := forget_run h a ht
    unfold Calc.run
    generalize a.run env = p at this
    generalize a.run (fun i => noSigns (env i)) = q at this
    cases this with
    | none => exact .none
    | some hr => exact .some (un_rel (forget_rel hM) hr o)
  | .bin o a b, ht => by
    obtain ⟨h1, h2, h3⟩ := ht
    have A := forget_run h a h1
    have B := forget_run h b h2
    unfold Calc.run
    generalize a.run env = p at A
    generalize a.run (fun i => noSigns (env i)) = q at A
    cases A with
    | none => exact .none
    | some hr =>
      generalize b.run env = p' at B h3
      generalize b.run (fun i => noSigns (env i)) = q' at B
      cases B with
      | none => exact .none
      | some hr' =>
        refine bin_rel (forget_rel hM) hr hr' o (fun ho => ?_)
        have e := v_div_of_ne 1 (h3 ho _ rfl)
        rw [UReal.n] at e
        rw [e, hr'.mu]; rfl

end

end SExt
end Unc
