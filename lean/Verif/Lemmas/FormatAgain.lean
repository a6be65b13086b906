import Verif.Lemmas.Format

/-!
# Lemmas: formatting what was read from a formatted text (C76)
-/

namespace Unc
open Fmt Spec

/-- two strings of digits without needless zeros which write the same number are the same -/
theorem Canon.inj {s t : List Char} (hs : Canon s) (ht : Canon t) (h : natVal s = natVal t) : s = t := by
  have pos : ∀ {c : Char} {l : List Char}, Canon (c :: l) → c ≠ '0' → 1 ≤ natVal (c :: l) := fun hc h0 =>
    le_trans (Nat.one_le_pow _ 10 (by norm_num)) (le_natVal hc.digits h0)
  have same : ∀ (a b : List Char), (∀ c ∈ a, c.isDigit) → (∀ c ∈ b, c.isDigit) → a.length = b.length → natVal a = natVal b → a = b := by
    intro a
    induction a with
    | nil => intro b _ _ hl _; exact (List.length_eq_zero_iff.1 hl.symm).symm
    | cons c a ih =>
      intro b ha hb hl hv
      obtain ⟨d, b, rfl⟩ := List.exists_cons_of_length_eq_add_one hl.symm
      simp only [List.length_cons, Nat.add_right_cancel_iff] at hl
      rw [natVal_cons, natVal_cons, hl] at hv
      have h1 := natVal_lt (s := a) fun x hx => ha x (List.mem_cons_of_mem _ hx)
      have h2 := natVal_lt (s := b) fun x hx => hb x (List.mem_cons_of_mem _ hx)
      rw [hl] at h1
      have e : digitVal c = digitVal d := by
        have := congrArg (fun v => v / 10 ^ b.length) hv
        simp only [Nat.add_comm (_ * _), Nat.add_mul_div_right _ _ (Nat.pow_pos (n := b.length) (show 0 < 10 by norm_num)),
          Nat.div_eq_of_lt h1, Nat.div_eq_of_lt h2, Nat.zero_add] at this
        exact this
      have e' : c = d := by
        have hc := ha c (List.mem_cons_self ..)
        have hd := hb d (List.mem_cons_self ..)
        simp only [Char.isDigit, Bool.and_eq_true, decide_eq_true_eq, digitVal] at hc hd e
        have c1 : 48 ≤ c.toNat := hc.1
        have d1 : 48 ≤ d.toNat := hd.1
        have z : '0'.toNat = 48 := rfl
        rw [z] at e
        exact Char.toNat_inj.1 (by omega)
      rw [e] at hv
      rw [e', ih b (fun x hx => ha x (List.mem_cons_of_mem _ hx)) (fun x hx => hb x (List.mem_cons_of_mem _ hx)) hl (by omega)]
  rcases hs.head with rfl | ⟨c, a, rfl, h0⟩
  · rcases ht.head with rfl | ⟨d, b, rfl, h1⟩
    · rfl
    · have := pos ht h1
      have z : natVal ['0'] = 0 := rfl
      omega
  · have hp := pos hs h0
    rcases ht.head with rfl | ⟨d, b, rfl, h1⟩
    · have z : natVal ['0'] = 0 := rfl
      omega
    · refine same _ _ hs.digits ht.digits ?_ h
      have a1 := natVal_lt hs.digits
      have a2 := le_natVal hs.digits h0
      have b1 := natVal_lt ht.digits
      have b2 := le_natVal ht.digits h1
      simp only [List.length_cons] at *
      have l1 := (Nat.pow_lt_pow_iff_right (by norm_num : 1 < 10)).1 (lt_of_le_of_lt a2 (h ▸ b1))
      have l2 := (Nat.pow_lt_pow_iff_right (by norm_num : 1 < 10)).1 (lt_of_le_of_lt b2 (h ▸ a1))
      omega

theorem insertDot_shift {s : List Char} {n e n' e' : ℤ} (h : e - n = e' - n') : insertDot s n e = insertDot s n' e' := by
  unfold insertDot
  simp only
  rw [show e + (s.length - n) = e' + (s.length - n') by omega]

/-- the text printed when the mean does not carry: sign, the digits of mean and uncertainty, the place of their last digit, the number of digits of
the uncertainty and of the mean as the code counts them (uncertainties/io.hpp:170-188) -/
def runText (neg : Bool) (mm sm : List Char) (pl nd md : ℤ) (sep : List Char) : List Char :=
  let sexp := pl + nd - 1
  let muexp := pl + md - 1
  let base := if md ≥ nd then muexp else sexp
  let sg : List Char := if neg then ['-'] else []
  if (md ≥ nd ∧ (muexp ≥ md ∨ muexp < -1)) ∨ (md < nd ∧ (sexp ≥ nd ∨ sexp < -1)) then
    ['('] ++ sg ++ insertDot mm md (muexp - base) ++ sep ++ insertDot sm nd (sexp - base) ++ [')', 'e'] ++ formatExp base
  else sg ++ insertDot mm md muexp ++ sep ++ insertDot sm nd sexp

theorem runText_small (neg : Bool) (mm sm : List Char) {pl nd md md' : ℤ} (sep : List Char) (hnd : 1 ≤ nd) (h : md ≤ 0) (h' : md' ≤ 1) :
    runText neg mm sm pl nd md sep = runText neg mm sm pl nd md' sep := by
  have hA : ¬ md ≥ nd := by omega
  unfold runText
  simp only [hA, if_false, false_and, false_or]
  have hb : (if md' ≥ nd then pl + md' - 1 else pl + nd - 1) = pl + nd - 1 := by split_ifs <;> omega
  rw [hb]
  have hc : (md < nd ∧ (pl + nd - 1 ≥ nd ∨ pl + nd - 1 < -1)) ↔
      ((md' ≥ nd ∧ (pl + md' - 1 ≥ md' ∨ pl + md' - 1 < -1)) ∨ (md' < nd ∧ (pl + nd - 1 ≥ nd ∨ pl + nd - 1 < -1))) := by
    omega
  rw [insertDot_shift (s := mm) (n := md) (e := pl + md - 1 - (pl + nd - 1)) (n' := md') (e' := pl + md' - 1 - (pl + nd - 1)) (by omega),
    insertDot_shift (s := mm) (n := md) (e := pl + md - 1) (n' := md') (e' := pl + md' - 1) (by omega)]
  by_cases hu : md < nd ∧ (pl + nd - 1 ≥ nd ∨ pl + nd - 1 < -1)
  · rw [if_pos hu, if_pos (hc.1 hu)]
  · rw [if_neg hu, if_neg (fun h => hu (hc.2 h))]

/-- what `format` prints when the mean does not carry -/
theorem formatFin_run {mu s r : ℝ} {nd pl : ℤ} {s' : ℝ} (h : ndigits s r = some (nd, s')) (hs : s' ≠ 0) (hnd : 1 ≤ nd)
    (hpl : (pl = leadPos |s'| - nd + 1 ∧ ¬ Carries (leadPos |s'| - nd + 1) |s'|) ∨
      (pl = leadPos |s'| - nd + 2 ∧ Carries (leadPos |s'| - nd + 1) |s'|))
    (hc : ¬ Carries pl |mu|) (sep : List Char) :
    ∃ mm sm md, formatFin mu s r sep = some (runText (decide (mu < 0)) mm sm pl nd md sep) ∧ Canon mm ∧ Canon sm ∧
      (sm.length : ℤ) = nd ∧ 1 ≤ natVal sm ∧ RoundsTo (leadPos |s'| - nd + 1) |s'| (natVal sm * 10 ^ pl) ∧
      (1 ≤ md → (mm.length : ℤ) = md ∧ 1 ≤ natVal mm) ∧ (md ≤ 0 → natVal mm ≤ 1) ∧ RoundsTo pl |mu| (natVal mm * 10 ^ pl) ∧
      ((mu ≠ 0 ∧ md = leadPos |mu| - pl + 1) ∨ (mu = 0 ∧ md < 0)) := by
  obtain ⟨smant, cs, hsm, cS, vS, lS, -, hcs⟩ := mantissa_spec (x := s') (n := nd) (e := leadPos |s'|) (Or.inl ⟨hs, rfl⟩)
  obtain ⟨lS, pS⟩ := lS hnd
  have hpl' : pl = leadPos |s'| + cs - nd + 1 := by
    rcases hpl with ⟨a, b⟩ | ⟨a, b⟩ <;> rcases hcs with ⟨c, d⟩ | ⟨c, -, d⟩
    · omega
    · exact absurd d b
    · exact absurd b d
    · omega
  have rS := intMantissa_spec s' nd (leadPos |s'|)
  rw [← vS, ← hpl'] at rS
  obtain ⟨muexp, hmu, hmx⟩ : ∃ muexp, (if mu ≠ 0 then exponent mu else some (leadPos |s'| - nd - 1)) = some muexp ∧
      ((mu ≠ 0 ∧ muexp = leadPos |mu|) ∨ (mu = 0 ∧ nd + muexp - (leadPos |s'| + cs) < 0)) := by
    by_cases h0 : mu = 0
    · exact ⟨_, by rw [if_neg (not_not.2 h0)], Or.inr ⟨h0, by omega⟩⟩
    · exact ⟨leadPos |mu|, by rw [if_pos h0, exponent_eq h0], Or.inl ⟨h0, rfl⟩⟩
  obtain ⟨mumant, cm, hmm, cM, vM, lM, zM, hcm⟩ := mantissa_spec (x := mu) (n := nd + muexp - (leadPos |s'| + cs)) (e := muexp) hmx
  have rM := intMantissa_spec mu (nd + muexp - (leadPos |s'| + cs)) muexp
  have e1 : muexp - (nd + muexp - (leadPos |s'| + cs)) + 1 = pl := by omega
  have hcm0 : cm = 0 := by
    rcases hcm with h | ⟨-, -, h⟩
    · exact h.1
    · rw [e1] at h; exact absurd h hc
  rw [← vM, show muexp + cm - (nd + muexp - (leadPos |s'| + cs)) + 1 = pl by omega, e1] at rM
  refine ⟨mumant, smant, nd + muexp - (leadPos |s'| + cs), ?_, cM, cS, lS, pS, rS, lM, zM, rM, ?_⟩
  · rw [formatFin_eval sep h (exponent_eq hs) hmu hsm hmm]
    unfold runText
    simp only [decide_eq_true_eq]
    rw [show pl + nd - 1 = leadPos |s'| + cs by omega,
      show pl + (nd + muexp - (leadPos |s'| + cs)) - 1 = muexp + cm by omega]
  · rcases hmx with ⟨a, b⟩ | ⟨a, b⟩
    · exact Or.inl ⟨a, by omega⟩
    · exact Or.inr ⟨a, b⟩

/-- a number which is written with the digits asked for keeps them -/
theorem ndigits_self {n : ℕ} {p : ℝ} (hp : 0 ≤ p) (hp1 : p < 1) {a : ℕ} {N : ℕ} (pl : ℤ) (h1 : 10 ^ N ≤ a) (h2 : a < 10 ^ (N + 1))
    (h : askedDigits n p (a * 10 ^ pl) = N + 1) :
    leadPos ((a : ℝ) * 10 ^ pl) = pl + N ∧ ndigits (a * 10 ^ pl) (n + p) = some ((N : ℤ) + 1, (a : ℝ) * 10 ^ pl) := by
  have ha : (0 : ℝ) < a := by
    have := Nat.one_le_pow N 10 (by norm_num)
    exact_mod_cast (show 0 < a by omega)
  have hx : (0 : ℝ) < a * 10 ^ pl := mul_pos ha (ten_pos pl)
  have g1 : (10 : ℝ) ^ (N : ℤ) ≤ a := by rw [zpow_natCast]; exact_mod_cast h1
  have g2 : (a : ℝ) < 10 ^ ((N : ℤ) + 1) := by
    rw [show ((N : ℤ) + 1) = ((N + 1 : ℕ) : ℤ) by push_cast; rfl, zpow_natCast]; exact_mod_cast h2
  have la : leadPos (a : ℝ) = N := leadPos_unique g1 g2
  have lp : leadPos ((a : ℝ) * 10 ^ pl) = pl + N := by rw [leadPos_mul ha, la, add_comm]
  refine ⟨lp, ?_⟩
  have hn : naiveNdigits (a * 10 ^ pl) (n + p) = (N : ℤ) + 1 := by rw [naive_eq hx hp hp1, h]; push_cast; rfl
  have hm : intMantissa (a * 10 ^ pl) (N + 1) (pl + N) = a := by
    have e : (a : ℝ) * 10 ^ pl * 10 ^ ((N : ℤ) + 1 - 1 - (pl + N)) = a := by
      rw [mul_assoc, ← zpow_add₀ (by norm_num), show pl + ((N : ℤ) + 1 - 1 - (pl + N)) = 0 by ring]; simp
    apply intMantissa_eval <;> rw [e]
    · exact ha.le
    · push_cast; linarith
    · push_cast; linarith
  unfold ndigits
  simp only
  rw [exponent_eq hx.ne', abs_of_pos hx, lp, Option.map_some, hn, hm]
  have hr : naiveNdigits (((a : ℤ) : ℝ) * 10 ^ (pl + (N : ℤ))) (n + p) = (N : ℤ) + 1 := by
    push_cast
    rw [naive_eq (mul_pos ha (ten_pos _)) hp hp1]
    have : askedDigits n p (a * 10 ^ (pl + (N : ℤ))) = N + 1 := by
      rw [← h]
      unfold askedDigits
      rw [leadDigits_mul ha, leadDigits_mul ha]
    rw [this]; push_cast; rfl
  rw [hr]
  simp

theorem Canon.bounds {s : List Char} (hs : Canon s) (h : 1 ≤ natVal s) {N : ℕ} (hl : s.length = N + 1) :
    10 ^ N ≤ natVal s ∧ natVal s < 10 ^ (N + 1) := by
  refine ⟨?_, hl ▸ natVal_lt hs.digits⟩
  rcases hs.head with rfl | ⟨c, t, rfl, h0⟩
  · exact absurd h (by decide)
  · have := le_natVal hs.digits h0
    rw [List.length_cons, Nat.add_right_cancel_iff] at hl
    rwa [hl] at this

theorem leadPos_digits {a : ℕ} {N : ℕ} (pl : ℤ) (h1 : 10 ^ N ≤ a) (h2 : a < 10 ^ (N + 1)) : leadPos ((a : ℝ) * 10 ^ pl) = pl + N := by
  have ha : (0 : ℝ) < a := by
    have := Nat.one_le_pow N 10 (by norm_num)
    exact_mod_cast (show 0 < a by omega)
  have g1 : (10 : ℝ) ^ (N : ℤ) ≤ a := by rw [zpow_natCast]; exact_mod_cast h1
  have g2 : (a : ℝ) < 10 ^ ((N : ℤ) + 1) := by
    rw [show ((N : ℤ) + 1) = ((N + 1 : ℕ) : ℤ) by push_cast; rfl, zpow_natCast]; exact_mod_cast h2
  rw [leadPos_mul ha, leadPos_unique g1 g2, add_comm]

/-- formatting numbers which have the digits `B` and `A` at the place `pl`, with as many digits as asked for -/
theorem second_run {n : ℕ} {p : ℝ} (hp : 0 ≤ p) (hp1 : p < 1) {A B : List Char} {N : ℕ} (cA : Canon A) (lA : A.length = N + 1) (pA : 1 ≤ natVal A)
    (cB : Canon B) (pl : ℤ) (h : askedDigits n p (natVal A * 10 ^ pl) = N + 1) {mu : ℝ} (hmu : |mu| = natVal B * 10 ^ pl) (sep : List Char) :
    ∃ md, formatFin mu (natVal A * 10 ^ pl) (n + p) sep = some (runText (decide (mu < 0)) B A pl (N + 1) md sep) ∧
      (natVal B = 0 → md < 0) ∧ (1 ≤ natVal B → md = B.length) := by
  obtain ⟨b1, b2⟩ := cA.bounds pA lA
  obtain ⟨lp, nd⟩ := ndigits_self (n := n) hp hp1 pl b1 b2 h
  have hx : (0 : ℝ) < natVal A * 10 ^ pl := mul_pos (by exact_mod_cast pA) (ten_pos pl)
  obtain ⟨mm, sm, md, h1, cm, cs, -, -, rS, -, -, rM, hmd⟩ := formatFin_run (mu := mu) (pl := pl) nd hx.ne' (by omega)
    (Or.inl ⟨by rw [abs_of_pos hx, lp]; ring, by
      rw [abs_of_pos hx, lp, show pl + (N : ℤ) - (N + 1) + 1 = pl by ring]; exact not_carries_mul _ _⟩)
    (by rw [hmu]; exact not_carries_mul _ _) sep
  rw [abs_of_pos hx, lp, show pl + (N : ℤ) - (N + 1) + 1 = pl by ring] at rS
  rw [hmu] at rM
  have eS : sm = A := cs.inj cA (roundsTo_unique rS (roundsTo_self _ _))
  have eM : mm = B := cm.inj cB (roundsTo_unique rM (roundsTo_self _ _))
  subst eS eM
  refine ⟨md, h1, fun h0 => ?_, fun h0 => ?_⟩
  · rcases hmd with ⟨m0, -⟩ | ⟨-, m1⟩
    · rw [h0, Nat.cast_zero, zero_mul] at hmu
      exact absurd (abs_eq_zero.1 hmu) m0
    · exact m1
  · obtain ⟨K, hK⟩ : ∃ K, mm.length = K + 1 := ⟨mm.length - 1, by have := List.length_pos_iff.2 cB.ne; omega⟩
    obtain ⟨c1, c2⟩ := cB.bounds h0 hK
    rcases hmd with ⟨-, m1⟩ | ⟨m0, -⟩
    · rw [hmu, leadPos_digits pl c1 c2] at m1
      rw [m1, hK]; push_cast; ring
    · rw [m0, abs_zero] at hmu
      have : (0 : ℝ) < natVal mm * 10 ^ pl := mul_pos (by exact_mod_cast h0) (ten_pos pl)
      linarith

/-- a numeral without decimals is a string of digits -/
theorem Spec.Numeral.canon {M : List Char} (h : Numeral M) (hd : decimals M = 0) : Canon M ∧ decVal M = natVal M := by
  have hf : fracPart M = [] := List.length_eq_zero_iff.1 hd
  have hp : '.' ∉ M := fun hm => h.point hm hf
  have hi : intPart M = M := by
    unfold intPart
    rw [List.takeWhile_eq_self_iff]
    intro c hc
    have : c ≠ '.' := by rintro rfl; exact hp hc
    simpa using this
  have hdig := h.digits
  have hh := h.head
  rw [hi] at hh
  rw [hi, hf, List.append_nil] at hdig
  refine ⟨⟨hdig, hh⟩, ?_⟩
  rw [decVal, hi, hf, List.append_nil, hd, pow_zero, div_one]

end Unc
