import Verif.Lemmas.FormatAgain
import Verif.Spec.FormatAgain
import Verif.Props.Format

/-!
# C76: formatting what was read from a formatted text

A text which `format` printed, read at face value and formatted again with the same arguments, should come out the same.  Exact arithmetic: see
the head of `Verif/Model/Format.lean`.
-/

namespace Unc.Props
open Unc Unc.Spec Fmt

/-- the two things that can be read in a text, in terms of one way of taking it apart -/
theorem readAs_iff {out M S sep : List Char} {neg : Bool} {E : Option ℤ} (hM : Numeral M) (hS : Numeral S)
    (hl : Layout out neg M S (' ' :: sep) E) (mu s : ℝ) :
    ReadAs out (' ' :: sep) mu s ↔ mu = (if neg then -1 else 1) * (decVal M * 10 ^ scale E) ∧ s = decVal S * 10 ^ scale E := by
  constructor
  · rintro ⟨neg', M', S', E', h, hM', hS', h1, h2⟩
    obtain ⟨rfl, rfl, rfl, rfl⟩ := layout_unique hM hS hM' hS' hl h
    exact ⟨h1, h2⟩
  · rintro ⟨h1, h2⟩
    exact ⟨neg, M, S, E, hl, hM, hS, h1, h2⟩

theorem decVal_nonneg (M : List Char) : 0 ≤ decVal M := by unfold decVal; positivity

/-- Part of C76: the text is the same, if (1) the printed uncertainty asks for the number of digits it was printed with, (2) the mean is not
rounded up to a power of ten, or it is but with its last digit in the units and less digits than the uncertainty, and (3) a negative mean is not
printed as zero.  The full statement would not have these three hypotheses, but it is false without any of them, see `C76_digits_false`,
`C76_carry_false`, `C76_sign_false`. -/
theorem C76_again_partial {mu s p : ℝ} {n : ℕ} (hs : 0 < s) (hp : 0 ≤ p) (hp1 : p < 1) (he : 1 < n + p) {sep out M S : List Char}
    {neg : Bool} {E : Option ℤ} (h : format (.fin mu) (.fin s) (.fin (n + p)) (' ' :: sep) = some (.ok out))
    (hl : Layout out neg M S (' ' :: sep) E) (hM : Numeral M) (hS : Numeral S)
    (hd : askedDigits n p (decVal S * 10 ^ scale E) = sigDigits S)
    (hc : ¬ Carries (scale E - decimals S) |mu| ∨
      (scale E - decimals S = 0 ∧ Carries 0 |mu| ∧ |mu| < 10 ^ ((sigDigits S : ℤ) - 1)))
    (hm : mu < 0 → decVal M ≠ 0) {mu' s' : ℝ} (hr : ReadAs out (' ' :: sep) mu' s') :
    format (.fin mu') (.fin s') (.fin (n + p)) (' ' :: sep) = some (.ok out) := by
  obtain ⟨nd, t, hnd, ht, hnd1⟩ := ndigits_some s hs.ne' he
  obtain ⟨out', M', S', E', cs, pl, h1, h2, h3, h4, h5⟩ := formatFin_shape (mu := mu) hnd ht hnd1 (' ' :: sep)
  have ho : out' = out := by
    rw [format_fin hs.ne' he, h1] at h
    simpa using h
  subst ho
  obtain ⟨rfl, rfl, rfl, rfl⟩ := layout_unique hM hS h5.numM h5.numS hl h2
  obtain ⟨e1, e2⟩ := (readAs_iff hM hS hl mu' s').1 hr
  rw [h5.decS] at hc
  obtain ⟨N, hN⟩ : ∃ N : ℕ, nd = N + 1 := ⟨(nd - 1).toNat, by omega⟩
  have sig : sigDigits S = N + 1 := by have := h5.sigS; omega
  rw [sig] at hd
  have hneg : mu < 0 ↔ mu' < 0 := by
    rw [e1]
    have := mul_nonneg (decVal_nonneg M) (ten_pos (scale E)).le
    by_cases h0 : mu < 0
    · have h6 : decVal M * 10 ^ scale E ≠ 0 := mul_ne_zero (hm h0) (ten_pos _).ne'
      have : 0 < decVal M * 10 ^ scale E := lt_of_le_of_ne this h6.symm
      simp only [h0, decide_true, if_true]
      constructor
      · intro _; linarith
      · intro _; trivial
    · simp only [h0, decide_false]
      constructor
      · intro h; exact h.elim
      · intro h; norm_num at h; linarith
  have habs : |mu'| = decVal M * 10 ^ scale E := by
    rw [e1, abs_mul, abs_of_nonneg (mul_nonneg (decVal_nonneg M) (ten_pos (scale E)).le)]
    split_ifs <;> simp
  by_cases hcar : Carries pl |mu|
  · -- the mean lost a digit
    obtain ⟨hp0, hc0, hlt⟩ : LostDigit pl nd mu := by
      rcases hc with h | ⟨a, b, c⟩
      · exact absurd hcar h
      · exact ⟨a, b, by rw [hN]; rw [sig] at c; exact_mod_cast c⟩
    obtain ⟨rfl, dM, rM⟩ := h5.lost ⟨hp0, hc0, hlt⟩
    have dS : decimals S = 0 := by
      have := h5.decS
      simp only [scale] at this
      omega
    obtain ⟨cM, vM⟩ := hM.canon dM
    obtain ⟨cS, vS⟩ := hS.canon dS
    simp only [scale, zpow_zero, mul_one] at e2 habs hd
    have s0 : sigDigits S = (S.dropWhile fun c => c == '0').length := by
      have hf : fracPart S = [] := List.length_eq_zero_iff.1 dS
      have hi : intPart S = S := by
        have := parts_nodot cS.digits
        exact this.1
      rw [sigDigits, hi, hf, List.append_nil]
    have pS : 1 ≤ natVal S := by
      rcases cS.head with h | ⟨c, u, h, h0⟩
      · subst h
        rw [sig] at s0
        simp at s0
      · subst h
        exact le_trans (Nat.one_le_pow _ 10 (by norm_num)) (le_natVal cS.digits h0)
    have lS : S.length = N + 1 := by rw [← cS.sig pS, ← s0, sig]
    obtain ⟨md, r1, r2, r3⟩ := second_run (n := n) hp hp1 cS lS pS cM 0 (by rw [zpow_zero, mul_one, ← vS]; exact hd) (mu := mu')
      (by rw [zpow_zero, mul_one, ← vM]; exact habs) (' ' :: sep)
    rw [zpow_zero, mul_one, ← vS] at r1
    have hs' : s' ≠ 0 := by rw [e2, vS]; exact_mod_cast (by omega : natVal S ≠ 0)
    rw [format_fin hs' he, e2, r1]
    -- the mean has less digits than the uncertainty
    have hmu0 : 0 < |mu| := by
      rcases (abs_nonneg mu).lt_or_eq with h | h
      · exact h
      · rw [← h] at hc0; exact absurd hc0 not_carries_zero
    have ten := roundsTo_eq (by simpa using rM) (carries_rounds hmu0 hc0)
    have hmd : md < nd := by
      by_cases hb : natVal M = 0
      · have := r2 hb; omega
      · have l1 := r3 (by omega)
        obtain ⟨K, hK⟩ : ∃ K, M.length = K + 1 := ⟨M.length - 1, by have := List.length_pos_iff.2 cM.ne; omega⟩
        have b1 := (cM.bounds (by omega) hK).1
        have l2 : leadPos |mu| < nd - 1 :=
          (zpow_lt_zpow_iff_right₀ (by norm_num : (1 : ℝ) < 10)).1 (lt_of_le_of_lt (leadPos_spec hmu0).1 hlt)
        have b2 : (10 : ℝ) ^ ((K : ℤ) + 1) ≤ 10 ^ (leadPos |mu| + 1) := by
          rw [← ten, vM, ten_succ, zpow_natCast]
          have : ((10 ^ K : ℕ) : ℝ) ≤ natVal M := by exact_mod_cast b1
          push_cast at this
          linarith
        have := (zpow_le_zpow_iff_right₀ (by norm_num : (1 : ℝ) < 10)).1 b2
        omega
    have hlay : out' = (if decide (mu < 0) = true then ['-'] else []) ++ M ++ (' ' :: sep) ++ S := h2
    have i1 : insertDot M md (0 + md - 1) = M := by
      unfold insertDot
      simp only
      rw [if_pos (by omega)]
    have i2 : insertDot S (N + 1) (0 + ((N : ℤ) + 1) - 1) = S := by
      unfold insertDot
      simp only
      rw [if_pos (by omega)]
    have hfin : runText (decide (mu' < 0)) M S 0 (N + 1) md (' ' :: sep) = out' := by
      unfold runText
      simp only
      rw [if_neg (by omega), i1, i2, hlay]
      simp only [hneg]
    rw [hfin]; rfl
  · obtain ⟨mm, sm, md, r0, cm, csm, lsm, psm, rS, lmm, zmm, rM, hmd⟩ := formatFin_run (mu := mu) (pl := pl) hnd ht hnd1
      (by rcases h3 with ⟨a, b⟩ | ⟨a, b⟩
          · exact Or.inl ⟨by omega, b⟩
          · exact Or.inr ⟨by omega, b⟩) hcar (' ' :: sep)
    have hnl : ¬ LostDigit pl nd mu := fun hh => hcar (by rw [hh.1]; exact hh.2.1)
    have eS : s' = natVal sm * 10 ^ pl := by rw [e2]; exact roundsTo_eq h5.valS rS
    have eM : decVal M * 10 ^ scale E = natVal mm * 10 ^ pl := roundsTo_eq (h5.valM hnl) rM
    have hd' : askedDigits n p (natVal sm * 10 ^ pl) = N + 1 := by rw [← eS, e2]; exact hd
    obtain ⟨md', r1, r2, r3⟩ := second_run (n := n) hp hp1 csm (by omega) psm cm pl hd' (mu := mu') (by rw [habs, eM]) (' ' :: sep)
    have hs' : s' ≠ 0 := by rw [eS]; exact (mul_pos (by exact_mod_cast psm) (ten_pos pl)).ne'
    have hout : out' = runText (decide (mu < 0)) mm sm pl nd md (' ' :: sep) := by
      rw [h1] at r0
      simpa using r0
    rw [format_fin hs' he, eS, r1, hout, ← hN, show decide (mu' < 0) = decide (mu < 0) by simp only [hneg]]
    by_cases hmd1 : 1 ≤ md
    · obtain ⟨a, b⟩ := lmm hmd1
      rw [show md' = md by rw [r3 b, a]]
      rfl
    · have hz := zmm (by omega)
      rw [runText_small (decide (mu < 0)) mm sm (' ' :: sep) hnd1 (md := md) (md' := md') (by omega) ?_]
      · rfl
      · rcases Nat.eq_zero_or_pos (natVal mm) with h0 | h0
        · have := r2 h0; omega
        · rw [r3 h0]
          have hl1 : mm.length = 1 := cm.length_iff (n := 0) (by omega) (by omega)
          omega

/-- 9.6 ± 25 is printed as "1 ± 25" (C39), which is at least printed again as "1 ± 25" -/
example : format (.fin 1) (.fin 25) (.fin (3 / 2)) defaultSep = some (.ok ['1', ' ', '±', ' ', '2', '5']) := by
  have e32 : (((1 : ℕ) : ℝ) + 1 / 2) = 3 / 2 := by norm_num
  obtain ⟨q1, q2⟩ := sqrt_ten
  have n1 : Numeral ['1'] := ⟨by decide, Or.inr ⟨'1', [], rfl, by decide⟩, by decide⟩
  have n2 : Numeral ['2', '5'] := ⟨by decide, Or.inr ⟨'2', ['5'], rfl, by decide⟩, by decide⟩
  have hl : Layout ['1', ' ', '±', ' ', '2', '5'] false ['1'] ['2', '5'] defaultSep none := rfl
  have v1 : decVal ['1'] = 1 := by norm_num [decVal, show natVal (intPart ['1'] ++ fracPart ['1']) = 1 from rfl, show decimals ['1'] = 0 from rfl]
  have v2 : decVal ['2', '5'] = 25 := by
    norm_num [decVal, show natVal (intPart ['2', '5'] ++ fracPart ['2', '5']) = 25 from rfl, show decimals ['2', '5'] = 0 from rfl]
  have lp : leadPos (25 : ℝ) = 1 := leadPos_unique (by norm_num) (by norm_num)
  rw [← e32]
  refine C76_again_partial (mu := 48 / 5) (s := 25) (n := 1) (p := 1 / 2) (by norm_num) (by norm_num) (by norm_num) (by norm_num)
    (by rw [e32]; exact nine_six) hl n1 n2 ?_ (Or.inr ⟨rfl, ⟨1, by norm_num, by norm_num [abs_of_pos], by norm_num [abs_of_pos]⟩, ?_⟩) ?_
    ((readAs_iff n1 n2 hl _ _).2 ⟨by norm_num [v1, scale], by norm_num [v2, scale]⟩)
  · have : sigDigits ['2', '5'] = 2 := rfl
    rw [v2, scale, zpow_zero, mul_one, this, askedDigits, leadDigits, lp, if_pos (by norm_num; linarith)]
  · have : sigDigits ['2', '5'] = 2 := rfl
    rw [this]
    norm_num [abs_of_pos]
  · intro h; norm_num at h

/-- what is printed for `mu` and `s` with integer `errdig`, with the place of the last digit -/
theorem integer_place {n : ℕ} (hn : 2 ≤ n) {s : ℝ} (hs : 0 < s) :
    ¬ Crosses n 0 s ∧ sdevDigits n 0 s = n ∧ ∀ x, 0 < x → askedDigits n 0 x = n := by
  have asked : ∀ x : ℝ, 0 < x → askedDigits n 0 x = n := by
    intro x hx
    have := (leadDigits_range hx).1
    rw [askedDigits, if_neg (by rw [Real.rpow_zero]; linarith)]
  refine ⟨?_, ?_, asked⟩
  · rintro ⟨-, y, ⟨⟨m, rfl⟩, -, hm⟩, h⟩
    rcases Nat.eq_zero_or_pos m with rfl | hm0
    · have h1 := (leadPos_spec hs).1
      have h2 : (10 : ℝ) ^ (leadPos s - n + 1) ≤ 10 ^ leadPos s := ten_mono (by omega)
      have h3 := ten_pos (leadPos s)
      rw [Nat.cast_zero, zero_mul, zero_add] at hm
      linarith
    · have := (leadDigits_range (x := m * 10 ^ (leadPos s - n + 1)) (mul_pos (by exact_mod_cast hm0) (ten_pos _))).1
      rw [Real.rpow_zero] at h
      linarith
  · unfold sdevDigits
    rw [asked s hs]
    simp

/-- C76 when `errdig` is an integer, from 2 on: the hypothesis on the digits is not needed. -/
theorem C76_integer_partial {mu s : ℝ} {n : ℕ} (hs : 0 < s) (hn : 2 ≤ n) (sep : List Char)
    (hc : ¬ Carries (place n 0 s) |mu|) (hm : ¬ (-(10 ^ place n 0 s / 2) < mu ∧ mu < 0)) :
    ∃ out, format (.fin mu) (.fin s) (.fin n) (' ' :: sep) = some (.ok out) ∧ (∃ mu' s', ReadAs out (' ' :: sep) mu' s') ∧
      ∀ mu' s', ReadAs out (' ' :: sep) mu' s' → format (.fin mu') (.fin s') (.fin n) (' ' :: sep) = some (.ok out) := by
  obtain ⟨i1, i2, i3⟩ := integer_place hn hs
  have hn' : (2 : ℝ) ≤ n := by exact_mod_cast hn
  obtain ⟨out, M, S, E, h1, h2, h3, t, h4⟩ := good_shape (mu := mu) (n := n) (p := 0) hs (by omega) le_rfl (by norm_num) (by linarith) (Or.inr i1)
    (' ' :: sep)
  have e0 : ((n : ℝ) + 0) = n := add_zero _
  have hnl : ¬ LostDigit (place n 0 s) (sdevDigits n 0 s) mu := fun hh => hc (by rw [hh.1]; exact hh.2.1)
  have rM := h4.valM hnl
  have hS0 : 0 < decVal S * 10 ^ scale E := by
    have : decVal S ≠ 0 := by
      intro h0
      have h5 := h3.2.2
      rw [h0, zero_mul, zero_add] at h5
      have h6 := (leadPos_spec hs).1
      have h7 : place n 0 s ≤ leadPos s := by
        unfold place
        rw [i2]
        split_ifs <;> omega
      have := ten_mono h7
      have := ten_pos (place n 0 s)
      linarith
    exact mul_pos (lt_of_le_of_ne (decVal_nonneg S) this.symm) (ten_pos _)
  refine ⟨out, by rw [← e0]; exact h1, ⟨_, _, (readAs_iff h4.numM h4.numS h2 _ _).2 ⟨rfl, rfl⟩⟩, fun mu' s' hr => ?_⟩
  rw [← e0]
  refine C76_again_partial hs le_rfl (by norm_num) (by linarith) h1 h2 h4.numM h4.numS ?_ (Or.inl ?_) ?_ hr
  · rw [i3 _ hS0]
    have := h4.sigS
    rw [i2] at this
    omega
  · rw [h4.decS]; exact hc
  · intro h0 hM
    rw [hM, zero_mul] at rM
    have := rM.2.2
    rw [abs_of_neg h0, zero_add] at this
    exact hm ⟨by linarith, h0⟩

/-- the digits asked for by the printed uncertainty, with the default `errdig` -/
theorem again_digits {s y : ℝ} (hs : 0 < s) (h : RoundsTo (place 1 (1 / 2) s) s y) :
    0 < y ∧ sdevDigits 1 (1 / 2) y = askedDigits 1 (1 / 2) y ∧
      (askedDigits 1 (1 / 2) y = sdevDigits 1 (1 / 2) s ↔ ¬ (63 / 20 ≤ leadDigits s ∧ leadDigits s < 7 / 2)) := by
  obtain ⟨q1, q2⟩ := sqrt_ten
  have q3 : (10 : ℝ) ^ (1 / 2 : ℝ) < 3163 / 1000 := by
    rw [← Real.sqrt_eq_rpow, Real.sqrt_lt' (by norm_num)]; norm_num
  have q5 : (63 / 20 : ℝ) < 10 ^ (1 / 2 : ℝ) := by
    rw [← Real.sqrt_eq_rpow, Real.lt_sqrt (by norm_num)]; norm_num
  obtain ⟨d1, d2, d3⟩ := leadDigits_range hs
  have tp := ten_pos (leadPos s)
  -- the leading digits of the printed number
  have fin : ∀ L : ℝ, 0 < y → leadDigits y = L → L < 19 / 2 →
      ((if L < 10 ^ (1 / 2 : ℝ) then 2 else 1) = sdevDigits 1 (1 / 2) s ↔ ¬ (63 / 20 ≤ leadDigits s ∧ leadDigits s < 7 / 2)) →
      0 < y ∧ sdevDigits 1 (1 / 2) y = askedDigits 1 (1 / 2) y ∧
      (askedDigits 1 (1 / 2) y = sdevDigits 1 (1 / 2) s ↔ ¬ (63 / 20 ≤ leadDigits s ∧ leadDigits s < 7 / 2)) := by
    intro L hy hL h95 hh
    refine ⟨hy, ?_, ?_⟩
    · rw [sdev_default hy, askedDigits, hL]
      have : ¬ 19 / 2 ≤ L := by linarith
      simp [this]
    · rw [askedDigits, hL]; exact hh
  have sd := sdev_default hs
  obtain ⟨⟨m, rfl⟩, r1, r2⟩ := h
  by_cases hA : leadDigits s < 10 ^ (1 / 2 : ℝ)
  · have ha : askedDigits 1 (1 / 2) s = 2 := by rw [askedDigits, if_pos hA]
    rw [if_pos (Or.inl hA)] at sd
    have hu : ¬ RoundsUp (askedDigits 1 (1 / 2) s) s := by rw [ha]; unfold RoundsUp; norm_num; linarith
    have hpl : place 1 (1 / 2) s = leadPos s - 1 := by rw [place, if_neg hu, sd]; push_cast; ring
    have e10 : (10 : ℝ) ^ leadPos s = 10 * 10 ^ (leadPos s - 1) := by rw [← ten_succ]; congr 1; ring
    rw [hpl] at r1 r2 fin ⊢
    have d4 : s = leadDigits s * (10 * 10 ^ (leadPos s - 1)) := by rw [← e10]; exact d3
    have tp' := ten_pos (leadPos s - 1)
    have g1 : (m : ℝ) - 1 / 2 ≤ 10 * leadDigits s := by
      by_contra hh; push Not at hh; nlinarith
    have g2 : 10 * leadDigits s < (m : ℝ) + 1 / 2 := by
      by_contra hh; push Not at hh; nlinarith
    have m1 : 9 < m := by exact_mod_cast (by linarith : (9 : ℝ) < m)
    have m2 : m < 33 := by exact_mod_cast (by linarith : (m : ℝ) < 33)
    have lp := leadPos_digits (N := 1) (leadPos s - 1) (a := m) (by omega) (by omega)
    have ld : leadDigits ((m : ℝ) * 10 ^ (leadPos s - 1)) = m / 10 := by
      rw [leadDigits, lp, show leadPos s - 1 + ((1 : ℕ) : ℤ) = leadPos s by push_cast; ring, e10]
      field_simp
    have m3 : (m : ℝ) < 33 := by exact_mod_cast m2
    refine fin _ (mul_pos (by exact_mod_cast (by omega : 0 < m)) tp') ld (by linarith) ?_
    rw [sd]
    by_cases hL : leadDigits s < 63 / 20
    · have : m < 32 := by exact_mod_cast (by linarith : (m : ℝ) < 32)
      have : (m : ℝ) ≤ 31 := by exact_mod_cast (by omega : m ≤ 31)
      have q4 : (31 / 10 : ℝ) < 10 ^ (1 / 2 : ℝ) := by
        rw [← Real.sqrt_eq_rpow, Real.lt_sqrt (by norm_num)]; norm_num
      rw [if_pos (by linarith)]
      simp only [true_iff, not_and]
      intro h; linarith
    · have : 31 < m := by exact_mod_cast (by linarith : (31 : ℝ) < m)
      have : (32 : ℝ) ≤ m := by exact_mod_cast (by omega : 32 ≤ m)
      rw [if_neg (by linarith)]
      simp only [OfNat.one_ne_ofNat, false_iff, not_not]
      constructor <;> linarith
  · have ha : askedDigits 1 (1 / 2) s = 1 := by rw [askedDigits, if_neg hA]
    have hpl : place 1 (1 / 2) s = leadPos s := by
      by_cases hB : 19 / 2 ≤ leadDigits s
      · have hu : RoundsUp (askedDigits 1 (1 / 2) s) s := by rw [ha]; unfold RoundsUp; norm_num; linarith
        rw [if_pos (Or.inr hB)] at sd
        rw [place, if_pos hu, sd]; push_cast; ring
      · have hu : ¬ RoundsUp (askedDigits 1 (1 / 2) s) s := by rw [ha]; unfold RoundsUp; norm_num; linarith
        rw [if_neg (by tauto)] at sd
        rw [place, if_neg hu, sd]; push_cast; ring
    rw [hpl] at r1 r2 fin ⊢
    have g1 : (m : ℝ) - 1 / 2 ≤ leadDigits s := by
      by_contra hh; push Not at hh; nlinarith
    have g2 : leadDigits s < (m : ℝ) + 1 / 2 := by
      by_contra hh; push Not at hh; nlinarith
    by_cases hB : 19 / 2 ≤ leadDigits s
    · rw [if_pos (Or.inr hB)] at sd
      have m1 : 9 < m := by exact_mod_cast (by linarith : (9 : ℝ) < m)
      have m2 : m < 11 := by exact_mod_cast (by linarith : (m : ℝ) < 11)
      have m3 : m = 10 := by omega
      subst m3
      have e : ((10 : ℕ) : ℝ) * 10 ^ leadPos s = 10 ^ (leadPos s + 1) := by rw [ten_succ]; norm_num
      refine fin 1 (by rw [e]; exact ten_pos _) (by rw [e]; exact leadDigits_pow _) (by norm_num) ?_
      rw [sd, if_pos (by linarith)]
      simp only [true_iff, not_and, not_lt]
      intro _; linarith
    · rw [if_neg (by tauto)] at sd
      have m1 : 2 < m := by exact_mod_cast (by linarith : (2 : ℝ) < m)
      have m2 : m < 10 := by exact_mod_cast (by linarith : (m : ℝ) < 10)
      have lp := leadPos_digits (N := 0) (leadPos s) (a := m) (by omega) (by omega)
      have ld : leadDigits ((m : ℝ) * 10 ^ leadPos s) = m := by
        rw [leadDigits, lp, Nat.cast_zero, add_zero]
        field_simp
      have m3 : (m : ℝ) ≤ 9 := by exact_mod_cast (by omega : m ≤ 9)
      refine fin _ (mul_pos (by exact_mod_cast (by omega : 0 < m)) tp) ld (by linarith) ?_
      rw [sd]
      by_cases hL : leadDigits s < 7 / 2
      · have : m < 4 := by exact_mod_cast (by linarith : (m : ℝ) < 4)
        have m4 : m = 3 := by omega
        subst m4
        rw [if_pos (by push_cast; linarith)]
        simp only [OfNat.ofNat_ne_one, false_iff, not_not]
        constructor <;> linarith
      · have : 3 < m := by exact_mod_cast (by linarith : (3 : ℝ) < m)
        have : (4 : ℝ) ≤ m := by exact_mod_cast (by omega : 4 ≤ m)
        rw [if_neg (by linarith)]
        simp only [true_iff, not_and]
        intro _ h; linarith

/-- C76 for the stream operator and the default arguments, exactly: what is printed for `x` is printed again, unless the leading digits of the
uncertainty are from 3.15 to 3.5, or the mean is rounded up to a power of ten (and is not one of the means which are printed wrong, C39), or
it is negative and rounds to zero. -/
theorem C76_default_partial (x : UReal ℝ) (hs : 0 < x.s) : ∃ out, ofUReal x = some (.ok out) ∧ (∃ mu' s', 0 < s' ∧ ReadAs out defaultSep mu' s') ∧
    ∀ y : UReal ℝ, ReadAs out defaultSep y.n y.s → (ofUReal y = some (.ok out) ↔
      ¬ (63 / 20 ≤ leadDigits x.s ∧ leadDigits x.s < 7 / 2) ∧
      (¬ Carries (place 1 (1 / 2) x.s) |x.n| ∨ (19 / 2 ≤ |x.n| ∧ |x.n| < 10) ∧ (19 / 2 ≤ x.s ∧ x.s < 10 * 10 ^ (1 / 2 : ℝ))) ∧
      ¬ (-(10 ^ place 1 (1 / 2) x.s / 2) < x.n ∧ x.n < 0)) := by
  obtain ⟨out, M, S, E, h1, h2, h3, t, h4⟩ := good_shape (mu := x.n) (n := 1) (p := 1 / 2) hs le_rfl (by norm_num) (by norm_num) (by norm_num)
    (Or.inl rfl) defaultSep
  obtain ⟨g1, g2, g3⟩ := again_digits hs h3
  have e32 : (((1 : ℕ) : ℝ) + 1 / 2) = 3 / 2 := by norm_num
  refine ⟨out, by rw [ofUReal, ← e32]; exact h1, ⟨_, _, g1, (readAs_iff h4.numM h4.numS h2 _ _).2 ⟨rfl, rfl⟩⟩, fun y hr => ?_⟩
  obtain ⟨e1, e2⟩ := (readAs_iff h4.numM h4.numS h2 y.n y.s).1 hr
  have hsig : sigDigits S = sdevDigits 1 (1 / 2) x.s := by have := h4.sigS; omega
  rw [← loses_default hs]
  have hlost : LostDigit (place 1 (1 / 2) x.s) (sdevDigits 1 (1 / 2) x.s) x.n ↔ MeanLosesDigit 1 (1 / 2) x.s x.n := Iff.rfl
  constructor
  · intro hy
    have hys : 0 < y.s := by rw [e2]; exact g1
    obtain ⟨out', M', S', E', k1, k2, k3, t', k4⟩ := good_shape (mu := y.n) (n := 1) (p := 1 / 2) hys le_rfl (by norm_num) (by norm_num)
      (by norm_num) (Or.inl rfl) defaultSep
    have ho : out' = out := by
      rw [ofUReal, ← e32, k1] at hy
      simpa using hy
    subst ho
    obtain ⟨hneg, rfl, rfl, rfl⟩ := layout_unique h4.numM h4.numS k4.numM k4.numS h2 k2
    have hpl : place 1 (1 / 2) y.s = place 1 (1 / 2) x.s := by rw [← k4.decS, ← h4.decS]
    refine ⟨?_, ?_, ?_⟩
    · rw [← g3, ← g2, ← e2, ← hsig]
      have := k4.sigS
      omega
    · by_contra hcon
      push Not at hcon
      obtain ⟨hcar, hnl⟩ := hcon
      have rM := h4.valM (fun h => hnl (hlost.1 h))
      have dM := h4.decC (fun h => hnl (hlost.1 h)) hcar
      have habs : |y.n| = decVal M * 10 ^ scale E := by
        rw [e1, abs_mul, abs_of_nonneg (mul_nonneg (decVal_nonneg M) (ten_pos (scale E)).le)]
        split_ifs <;> simp
      obtain ⟨b, hb⟩ := rM.1
      have hnc : ¬ Carries (place 1 (1 / 2) y.s) |y.n| := by rw [habs, hb, hpl]; exact not_carries_mul _ _
      have := k4.decM (fun hh => hnc (by rw [hh.1]; exact hh.2.1)) hnc
      omega
    · rintro ⟨a, b⟩
      have habs : |y.n| = decVal M * 10 ^ scale E := by
        rw [e1, abs_mul, abs_of_nonneg (mul_nonneg (decVal_nonneg M) (ten_pos (scale E)).le)]
        split_ifs <;> simp
      have tp := ten_pos (place 1 (1 / 2) x.s)
      have hnl : ¬ LostDigit (place 1 (1 / 2) x.s) (sdevDigits 1 (1 / 2) x.s) x.n := by
        rintro ⟨hp0, ⟨j, hj, hc, -⟩, -⟩
        rw [abs_of_neg b] at hc
        rw [hp0, zpow_zero] at a
        have : (10 : ℝ) ^ (1 : ℤ) ≤ 10 ^ j := ten_mono (by omega)
        norm_num at this hc
        linarith
      have rM := h4.valM hnl
      rw [abs_of_neg b] at rM
      have r0 : RoundsTo (place 1 (1 / 2) x.s) (-x.n) 0 := ⟨⟨0, by simp⟩, by linarith, by linarith⟩
      rw [roundsTo_eq rM r0] at e1
      rw [mul_zero] at e1
      rw [e1] at hneg
      simp only [b, decide_true, lt_self_iff_false, decide_false] at hneg
      cases hneg
  · rintro ⟨c1, c2, c3⟩
    have k := C76_again_partial (n := 1) (p := 1 / 2) hs (by norm_num) (by norm_num) (by norm_num) h1 h2 h4.numM h4.numS
      (by rw [hsig]; exact g3.2 c1)
      (by rw [h4.decS, hsig]; exact c2) ?_ hr
    · rw [ofUReal, ← e32]; exact k
    · intro hneg hM
      apply c3
      refine ⟨?_, hneg⟩
      by_cases hl : LostDigit (place 1 (1 / 2) x.s) (sdevDigits 1 (1 / 2) x.s) x.n
      · have r0 := (h4.lost hl).2.2
        rw [hM] at r0
        have := r0.2.2
        rw [abs_of_neg hneg] at this
        rw [hl.1]
        linarith
      · have r0 := (h4.valM hl).2.2
        rw [hM, zero_mul, zero_add, abs_of_neg hneg] at r0
        linarith

/-- a number with given mean and uncertainty -/
theorem exists_ureal (m : ℝ) {t : ℝ} (ht : 0 ≤ t) : ∃ x : UReal ℝ, x.n = m ∧ x.s = t :=
  ⟨⟨0, t, m, [(0, t)]⟩, rfl, by
    show (if (0 : ℤ) ≥ 0 then |t| else _) = t
    rw [if_pos le_rfl, abs_of_nonneg ht]⟩

/-- 20 ± 7 is printed as "20 ± 7", read as 20 ± 7 and printed again as "20 ± 7". -/
example : ∃ out, ∃ x y : UReal ℝ, x.n = 20 ∧ x.s = 7 ∧ ofUReal x = some (.ok out) ∧ ReadAs out defaultSep y.n y.s ∧ ofUReal y = some (.ok out) := by
  obtain ⟨q1, q2⟩ := sqrt_ten
  obtain ⟨x, x1, x2⟩ := exists_ureal 20 (t := 7) (by norm_num)
  obtain ⟨out, h1, ⟨m, t, ht, h2⟩, h3⟩ := C76_default_partial x (by rw [x2]; norm_num)
  obtain ⟨y, y1, y2⟩ := exists_ureal m ht.le
  refine ⟨out, x, y, x1, x2, h1, by rw [y1, y2]; exact h2, (h3 y (by rw [y1, y2]; exact h2)).2 ⟨?_, Or.inl ?_, ?_⟩⟩
  · rw [x2, leadDigits, leadPos_unique (k := 0) (by norm_num) (by norm_num)]
    norm_num
  · rw [x1, abs_of_pos (by norm_num), carries_iff (by norm_num), leadPos_unique (k := 1) (by norm_num) (by norm_num)]
    rintro ⟨h4, h5⟩
    have : (10 : ℝ) ^ place 1 (1 / 2) x.s ≤ 10 ^ (1 : ℤ) := ten_mono (by omega)
    norm_num at this h5
    linarith
  · rw [x1]; rintro ⟨-, h⟩; norm_num at h

/-- with three digits, 12.345 ± 0.5 -/
example := C76_integer_partial (mu := 12345 / 1000) (s := 1 / 2) (n := 3) (by norm_num) (by norm_num) ['±', ' '] (by
  rw [abs_of_pos (by norm_num), carries_iff (by norm_num), leadPos_unique (k := 1) (by norm_num) (by norm_num)]
  rintro ⟨h4, h5⟩
  have : (10 : ℝ) ^ place 3 0 (1 / 2) ≤ 10 ^ (1 : ℤ) := ten_mono (by omega)
  norm_num at this h5
  linarith) (by rintro ⟨-, h⟩; norm_num at h)

/-- Without the hypothesis on the digits the statement is false: 0 ± 3.3 is printed as "0 ± 3", which is printed again as "0.0 ± 3.0". -/
theorem C76_digits_false : ¬ ∀ (x y : UReal ℝ) (out : List Char), 0 < x.s → ¬ Carries (place 1 (1 / 2) x.s) |x.n| → 0 ≤ x.n →
    ofUReal x = some (.ok out) → ReadAs out defaultSep y.n y.s → ofUReal y = some (.ok out) := by
  intro h
  obtain ⟨x, x1, x2⟩ := exists_ureal 0 (t := 33 / 10) (by norm_num)
  obtain ⟨out, h1, ⟨m, t, ht, h2⟩, h3⟩ := C76_default_partial x (by rw [x2]; norm_num)
  obtain ⟨y, y1, y2⟩ := exists_ureal m ht.le
  rw [← y1, ← y2] at h2
  have := ((h3 y h2).1 (h x y out (by rw [x2]; norm_num) (by rw [x1, abs_zero]; exact not_carries_zero) (by rw [x1]) h1 h2)).1
  apply this
  rw [x2, leadDigits, leadPos_unique (k := 0) (by norm_num) (by norm_num)]
  norm_num

/-- It is also false for a mean which is rounded up to a power of ten: 9.996 ± 0.10 is printed as "10.0 ± 0.10", which is printed again as
"10.00 ± 0.10". -/
theorem C76_carry_false : ¬ ∀ (x y : UReal ℝ) (out : List Char), 0 < x.s → ¬ (63 / 20 ≤ leadDigits x.s ∧ leadDigits x.s < 7 / 2) → 0 ≤ x.n →
    ofUReal x = some (.ok out) → ReadAs out defaultSep y.n y.s → ofUReal y = some (.ok out) := by
  intro h
  obtain ⟨q1, q2⟩ := sqrt_ten
  obtain ⟨x, x1, x2⟩ := exists_ureal (2499 / 250) (t := 1 / 10) (by norm_num)
  obtain ⟨out, h1, ⟨m, t, ht, h2⟩, h3⟩ := C76_default_partial x (by rw [x2]; norm_num)
  obtain ⟨y, y1, y2⟩ := exists_ureal m ht.le
  rw [← y1, ← y2] at h2
  have hlp : leadPos (1 / 10 : ℝ) = -1 := leadPos_unique (by norm_num) (by norm_num)
  have hld : leadDigits (1 / 10 : ℝ) = 1 := by rw [leadDigits, hlp]; norm_num
  have hpl : place 1 (1 / 2) (1 / 10) = -2 := by
    have ha : askedDigits 1 (1 / 2) (1 / 10) = 2 := by rw [askedDigits, hld, if_pos (by linarith)]
    have hu : ¬ RoundsUp 2 (1 / 10) := by unfold RoundsUp; rw [hld]; norm_num
    rw [place, ha, if_neg hu, sdevDigits, ha, if_neg hu, hlp]; norm_num
  have := ((h3 y h2).1 (h x y out (by rw [x2]; norm_num) (by rw [x2, hld]; norm_num) (by rw [x1]; norm_num) h1 h2)).2.1
  rw [x1, x2, hpl] at this
  rcases this with h4 | ⟨-, h4, -⟩
  · apply h4
    exact ⟨1, by norm_num, by norm_num [abs_of_pos], by norm_num [abs_of_pos]⟩
  · norm_num at h4

/-- And for a negative mean which rounds to zero: −0.001 ± 1 is printed as "-0.0 ± 1.0", which is printed again as "0.0 ± 1.0". -/
theorem C76_sign_false : ¬ ∀ (x y : UReal ℝ) (out : List Char), 0 < x.s → ¬ (63 / 20 ≤ leadDigits x.s ∧ leadDigits x.s < 7 / 2) →
    ¬ Carries (place 1 (1 / 2) x.s) |x.n| → ofUReal x = some (.ok out) → ReadAs out defaultSep y.n y.s → ofUReal y = some (.ok out) := by
  intro h
  obtain ⟨q1, q2⟩ := sqrt_ten
  obtain ⟨x, x1, x2⟩ := exists_ureal (-(1 / 1000)) (t := 1) (by norm_num)
  obtain ⟨out, h1, ⟨m, t, ht, h2⟩, h3⟩ := C76_default_partial x (by rw [x2]; norm_num)
  obtain ⟨y, y1, y2⟩ := exists_ureal m ht.le
  rw [← y1, ← y2] at h2
  have hlp : leadPos (1 : ℝ) = 0 := leadPos_unique (by norm_num) (by norm_num)
  have hld : leadDigits (1 : ℝ) = 1 := by rw [leadDigits, hlp]; norm_num
  have hpl : place 1 (1 / 2) 1 = -1 := by
    have ha : askedDigits 1 (1 / 2) 1 = 2 := by rw [askedDigits, hld, if_pos (by linarith)]
    have hu : ¬ RoundsUp 2 1 := by unfold RoundsUp; rw [hld]; norm_num
    rw [place, ha, if_neg hu, sdevDigits, ha, if_neg hu, hlp]; norm_num
  have := ((h3 y h2).1 (h x y out (by rw [x2]; norm_num) (by rw [x2, hld]; norm_num) (by
    rw [x1, x2, hpl]
    rintro ⟨j, hj, hc, -⟩
    have : (10 : ℝ) ^ (0 : ℤ) ≤ 10 ^ j := ten_mono (by omega)
    rw [zpow_zero] at this
    norm_num [abs_of_pos] at hc
    linarith) h1 h2)).2.2
  apply this
  rw [x1, x2, hpl]
  norm_num

end Unc.Props
