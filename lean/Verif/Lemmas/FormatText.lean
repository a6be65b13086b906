import Verif.Lemmas.FormatAgain
import Verif.Spec.FormatText

/-!
# Lemmas: a text is determined by what it says (C77)
-/

namespace Unc
open Fmt Spec

theorem natVal_inj {a : List Char} : ∀ {b : List Char}, (∀ c ∈ a, c.isDigit) → (∀ c ∈ b, c.isDigit) → a.length = b.length → natVal a = natVal b →
    a = b := by
  intro b ha hb hl hv
  have h1 : Canon ('1' :: a) := ⟨by
    intro c hc
    rcases List.mem_cons.1 hc with rfl | hc
    · decide
    · exact ha c hc, Or.inr ⟨'1', a, rfl, by decide⟩⟩
  have h2 : Canon ('1' :: b) := ⟨by
    intro c hc
    rcases List.mem_cons.1 hc with rfl | hc
    · decide
    · exact hb c hc, Or.inr ⟨'1', b, rfl, by decide⟩⟩
  have := h1.inj h2 (by rw [natVal_cons, natVal_cons, hl, hv])
  simpa using this

/-- a numeral from its parts -/
theorem Spec.Numeral.parts {M : List Char} (h : Numeral M) : M = intPart M ++ (if fracPart M = [] then [] else '.' :: fracPart M) := by
  have e : M = intPart M ++ M.dropWhile fun c => c != '.' := (List.takeWhile_append_dropWhile ..).symm
  have hd : (M.dropWhile fun c => c != '.') = if fracPart M = [] then [] else '.' :: fracPart M := by
    cases hw : M.dropWhile fun c => c != '.' with
    | nil => simp [fracPart, hw]
    | cons c t =>
      have hc : c = '.' := by
        have := List.head_dropWhile_not (fun c => c != '.') (l := M) (by rw [hw]; simp)
        simp only [hw, List.head_cons] at this
        simpa using this
      subst hc
      have hm : '.' ∈ M := by rw [e, hw]; simp
      have hf : fracPart M = t := by simp [fracPart, hw]
      rw [if_neg (h.point hm), hf]
  rw [← hd]; exact e

/-- two numerals with the same value and number of decimals are the same -/
theorem Spec.Numeral.inj {M M' : List Char} (h : Numeral M) (h' : Numeral M') (hd : decimals M = decimals M') (hv : decVal M = decVal M') : M = M' := by
  have hn : natVal (intPart M ++ fracPart M) = natVal (intPart M' ++ fracPart M') := by
    unfold decVal at hv
    rw [hd] at hv
    have h10 : (0 : ℝ) < 10 ^ decimals M' := by positivity
    have := (div_left_inj' h10.ne').1 hv
    exact_mod_cast this
  have hf : (fracPart M).length = (fracPart M').length := hd
  have d1 : ∀ c ∈ intPart M, c.isDigit := fun c hc => h.digits c (List.mem_append_left _ hc)
  have d1' : ∀ c ∈ intPart M', c.isDigit := fun c hc => h'.digits c (List.mem_append_left _ hc)
  have d2 : ∀ c ∈ fracPart M, c.isDigit := fun c hc => h.digits c (List.mem_append_right _ hc)
  have d2' : ∀ c ∈ fracPart M', c.isDigit := fun c hc => h'.digits c (List.mem_append_right _ hc)
  rw [natVal_append, natVal_append, hf] at hn
  have l1 := natVal_lt d2
  have l2 := natVal_lt d2'
  rw [hf] at l1
  have hp : 0 < 10 ^ (fracPart M').length := Nat.pow_pos (by norm_num)
  have e1 : natVal (intPart M) = natVal (intPart M') := by
    have := congrArg (fun v => v / 10 ^ (fracPart M').length) hn
    simp only [Nat.add_comm (_ * _), Nat.add_mul_div_right _ _ hp, Nat.div_eq_of_lt l1, Nat.div_eq_of_lt l2, Nat.zero_add] at this
    exact this
  have e2 : natVal (fracPart M) = natVal (fracPart M') := by rw [e1] at hn; omega
  have i1 : intPart M = intPart M' := Canon.inj ⟨d1, h.head⟩ ⟨d1', h'.head⟩ e1
  have i2 : fracPart M = fracPart M' := natVal_inj d2 d2' hf e2
  rw [h.parts, h'.parts, i1, i2]

theorem expStr_inj {es es' : List Char} {e : ℤ} (h : expStr es e) (h' : expStr es' e) : es = es' := by
  obtain ⟨d, rfl, hn, hd, h0, hv⟩ := h
  obtain ⟨d', rfl, hn', hd', h0', hv'⟩ := h'
  have canon : ∀ {l : List Char}, l ≠ [] → (∀ c ∈ l, c.isDigit) → l.head? ≠ some '0' → Canon l := by
    intro l h1 h2 h3
    refine ⟨h2, Or.inr ?_⟩
    cases l with
    | nil => exact absurd rfl h1
    | cons c t => exact ⟨c, t, rfl, fun h => h3 (by rw [h]; rfl)⟩
  rw [(canon hn hd h0).inj (canon hn' hd' h0') (hv.trans hv'.symm)]

theorem decVal_eq_of {M M' : List Char} {E : Option ℤ} (h : decVal M * 10 ^ scale E = decVal M' * 10 ^ scale E) : decVal M = decVal M' :=
  mul_right_cancel₀ (ten_pos _).ne' h

theorem writes_unique {out out' sep : List Char} {neg : Bool} {m t : ℝ} {km k : ℤ} (h : Writes out sep neg m t km k)
    (h' : Writes out' sep neg m t km k) : out = out' := by
  obtain ⟨M, S, E, hl, hM, hS, vM, vS, dM, dS, hE, hu⟩ := h
  obtain ⟨M', S', E', hl', hM', hS', vM', vS', dM', dS', hE', hu'⟩ := h'
  have e : E = E' := by
    cases E with
    | none =>
      cases E' with
      | none => rfl
      | some e => exact absurd (hu.2 (hu'.1 (by simp))) (by simp)
    | some e =>
      cases E' with
      | none => exact absurd (hu'.2 (hu.1 (by simp))) (by simp)
      | some e' => rw [hE e rfl, hE' e' rfl]
  subst e
  have eM : M = M' := hM.inj hM' (by omega) (decVal_eq_of (vM.trans vM'.symm))
  have eS : S = S' := hS.inj hS' (by omega) (decVal_eq_of (vS.trans vS'.symm))
  subst eM eS
  cases E with
  | none => exact Eq.trans hl hl'.symm
  | some e =>
    obtain ⟨-, es, h1, h2⟩ := hl
    obtain ⟨-, es', h1', h2'⟩ := hl'
    rw [h2, h2', expStr_inj h1 h1']

theorem writes1_unique {out out' : List Char} {m : ℝ} (h : Writes1 out m) (h' : Writes1 out' m) : out = out' := by
  obtain ⟨M, E, hl, hM, vM, dM, hE, hu⟩ := h
  obtain ⟨M', E', hl', hM', vM', dM', hE', hu'⟩ := h'
  have e : E = E' := by
    cases E with
    | none =>
      cases E' with
      | none => rfl
      | some e => exact absurd (hu.2 (hu'.1 (by simp))) (by simp)
    | some e =>
      cases E' with
      | none => exact absurd (hu'.2 (hu.1 (by simp))) (by simp)
      | some e' => rw [hE e rfl, hE' e' rfl]
  subst e
  have eM : M = M' := hM.inj hM' (by omega) (decVal_eq_of (vM.trans vM'.symm))
  subst eM
  cases E with
  | none => exact Eq.trans hl hl'.symm
  | some e =>
    obtain ⟨-, es, h1, h2⟩ := hl
    obtain ⟨-, es', h1', h2'⟩ := hl'
    rw [h2, h2', expStr_inj h1 h1']

/-- what `tostring` prints -/
theorem tostring_text {x : ℝ} (hx : x ≠ 0) : ∃ out m, tostring (.fin x) = some out ∧ RoundsTo (leadPos |x| - 5) |x| m ∧ Writes1 out m := by
  obtain ⟨m, c, hm, cm, vm, lm, -, hc⟩ := mantissa_spec (x := x) (n := 6) (e := leadPos |x|) (Or.inl ⟨hx, rfl⟩)
  obtain ⟨l6, p6⟩ := lm (by norm_num)
  have c01 : c = 0 ∨ c = 1 := hc.imp (fun h => h.1) fun h => h.1
  have r := intMantissa_spec x 6 (leadPos |x|)
  rw [← vm, show leadPos |x| - 6 + 1 = leadPos |x| - 5 by ring] at r
  have run : tostring (.fin x) = some (if leadPos |x| + c ≥ 6 ∨ leadPos |x| + c < -1 then insertDot m 6 0 ++ ('e' :: formatExp (leadPos |x| + c))
      else insertDot m 6 (leadPos |x| + c)) := by
    unfold tostring
    simp only
    rw [if_neg hx, exponent_eq hx, Option.bind_some, hm, Option.map_some]
  have lp : leadPos ((natVal m : ℝ) * 10 ^ (leadPos |x| + c - 6 + 1)) = leadPos |x| + c := by
    obtain ⟨b1, b2⟩ := cm.bounds p6 (N := 5) (by omega)
    rw [leadPos_digits _ b1 b2]; push_cast; ring
  split_ifs at run with hu
  · obtain ⟨n1, n2, n3, n4⟩ := insertDot_spec cm (n := 6) (e := 0) (by norm_num)
    refine ⟨_, _, run, r, _, some (leadPos |x| + c), ⟨by omega, _, formatExp_facts (by omega), rfl⟩, n1, ?_, ?_, ?_, ?_⟩
    · rw [n3, show (0 : ℤ) - 6 + 1 = (leadPos |x| + c - 6 + 1) - (leadPos |x| + c) by ring]
      simp only [scale]
      rw [mul_ten_sub]
    · rw [lp]; simp only [scale]; omega
    · rintro e ⟨⟩; rw [lp]
    · rw [lp]; simp only [ne_eq, reduceCtorEq, not_false_eq_true, true_iff]; omega
  · obtain ⟨n1, n2, n3, n4⟩ := insertDot_spec cm (n := 6) (e := leadPos |x| + c) (by omega)
    refine ⟨_, _, run, r, _, none, rfl, n1, ?_, ?_, by rintro e ⟨⟩, ?_⟩
    · simp only [scale]
      rw [n3, zpow_zero, mul_one]
    · rw [lp]; simp only [scale]; omega
    · rw [lp]; simp only [ne_eq, not_true_eq_false, false_iff]; omega

end Unc
