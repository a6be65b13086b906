import Verif.Lemmas.FormatQ
import Verif.Props.Format
import Verif.Props.Programs
import Verif.Model.NaN

/-!
# The examples of the documentation (C88)

The examples in the documentation of `UReal` (uncertainties/ureal.hpp:64-166, 241-249), of `format` (uncertainties/io.hpp:26-37) and in README.md,
with arbitrary numbers where the numbers are not the point.
-/

namespace Unc.Props
open UReal Fmt Unc.Spec

/-- An operation on two elementary variables. -/
theorem binary_elems {i j : ℤ} (hi : 0 < i) (hj : 0 < j) (hij : i ≠ j) (mx sx my sy mu dx dy : ℝ) :
    UReal.binary ⟨i, sx, mx, []⟩ ⟨j, sy, my, []⟩ mu dx dy =
      some ⟨-1, -1, mu, if i < j then [(i, dx * sx), (j, dy * sy)] else [(j, dy * sy), (i, dx * sx)]⟩ := by
  rcases lt_or_gt_of_ne hij with h | h
  · simp [UReal.binary, hi, hj, hij, SMap.upsert, h, not_lt.2 h.le, not_lt.2 hi.le, invalidId]
  · simp [UReal.binary, hi, hj, hij, SMap.upsert, h, not_lt.2 h.le, not_lt.2 hi.le, invalidId]

theorem mk_ok {i : ℤ} {m s : ℝ} {x : UReal ℝ} (h : UReal.mk' i m s = .ok x) : 0 ≤ s ∧ x = ⟨i, s, m, []⟩ := by
  unfold UReal.mk' at h
  split_ifs at h with h1
  rw [ltb_iff] at h1
  cases h
  exact ⟨not_lt.1 h1, rfl⟩

theorem cov_elems {i j : ℤ} (hi : 0 < i) (hj : 0 < j) (hij : i ≠ j) (mx sx mu a b : ℝ) :
    UReal.cov (⟨i, sx, mx, []⟩ : UReal ℝ) ⟨-1, -1, mu, if i < j then [(i, a), (j, b)] else [(j, b), (i, a)]⟩ = sx * a := by
  rcases lt_or_gt_of_ne hij with h | h
  · simp [UReal.cov, hi, SMap.find?, h]
  · simp [UReal.cov, hi, SMap.find?, not_lt.2 h.le, hij.symm]

theorem s_elems {i j : ℤ} (mu a b : ℝ) :
    (⟨-1, -1, mu, if i < j then [(i, a), (j, b)] else [(j, b), (i, a)]⟩ : UReal ℝ).s = √(a ^ 2 + b ^ 2) := by
  have h : CCmp.leb (0 : ℝ) (-1) = false := by rw [← Bool.not_eq_true, leb_iff]; norm_num
  split_ifs
  · simp [UReal.s, UReal.s2, h]
    exact congrArg _ (by ring)
  · simp [UReal.s, UReal.s2, h]
    exact congrArg _ (by ring)

/-- **C88** The example of covariance and correlation (uncertainties/ureal.hpp:96-106), with arbitrary means and uncertainties of the two
variables (the identifiers are distinct by C08): with 0.3 and 0.4 the results are 0.09, 0, 0.09, -0.09 and 0.6. -/
theorem C88_cov {i j : ℤ} (hi : 0 < i) (hj : 0 < j) (hij : i ≠ j) {mx sx my sy : ℝ} {x y : UReal ℝ}
    (hx : UReal.mk' i mx sx = .ok x) (hy : UReal.mk' j my sy = .ok y) :
    UReal.cov x x = sx ^ 2 ∧ UReal.var x = x.s * x.s ∧ x.s = sx ∧ UReal.cov x y = 0 ∧
    (∃ z, UReal.add y x = some z ∧ UReal.cov x z = sx ^ 2) ∧ (∃ z, UReal.sub y x = some z ∧ UReal.cov x z = -sx ^ 2) ∧
    ∃ z, UReal.add x y = some z ∧ z.s = √(sx ^ 2 + sy ^ 2) ∧ (0 < sx → UReal.corr x z = sx / √(sx ^ 2 + sy ^ 2)) := by
  obtain ⟨h1, rfl⟩ := mk_ok hx
  obtain ⟨h2, rfl⟩ := mk_ok hy
  have e : (⟨i, sx, mx, []⟩ : UReal ℝ).s = sx := by
    show (if i ≥ 0 then |sx| else _) = sx
    rw [if_pos hi.le, abs_of_nonneg h1]
  have sw : ∀ a b : ℝ, (if j < i then [(j, a), (i, b)] else [(i, b), (j, a)]) = if i < j then [(i, b), (j, a)] else [(j, a), (i, b)] := by
    intro a b
    rcases lt_or_gt_of_ne hij with h | h <;> simp [h, not_lt.2 h.le]
  refine ⟨?_, ?_, e, ?_, ⟨_, binary_elems hj hi hij.symm _ _ _ _ _ _ _, ?_⟩, ⟨_, binary_elems hj hi hij.symm _ _ _ _ _ _ _, ?_⟩,
    ⟨_, binary_elems hi hj hij _ _ _ _ _ _ _, ?_, fun hp => ?_⟩⟩
  · simp [UReal.cov, hi, sq]
  · rw [e]; simp [UReal.var, hi.le]
  · simp [UReal.cov, hi, hj, hij]
  · rw [sw, cov_elems hi hj hij]; ring
  · rw [sw, cov_elems hi hj hij]; ring
  · rw [s_elems]; simp
  · rw [UReal.corr, cov_elems hi hj hij, s_elems, e, one_mul, one_mul, mul_div_mul_left _ _ hp.ne']

/-- the numbers of the documentation -/
example : ∃ x y z : UReal ℝ, UReal.mk' 1 1 (3 / 10) = .ok x ∧ UReal.mk' 2 2 (4 / 10) = .ok y ∧ UReal.add x y = some z ∧
    UReal.cov x x = 9 / 100 ∧ UReal.cov x y = 0 ∧ UReal.corr x z = 6 / 10 := by
  have h3 : CCmp.ltb (3 / 10 : ℝ) 0 = false := by rw [← Bool.not_eq_true, ltb_iff]; norm_num
  have h4 : CCmp.ltb (4 / 10 : ℝ) 0 = false := by rw [← Bool.not_eq_true, ltb_iff]; norm_num
  have ex : UReal.mk' 1 (1 : ℝ) (3 / 10) = .ok ⟨1, 3 / 10, 1, []⟩ := by rw [UReal.mk', h3]; rfl
  have ey : UReal.mk' 2 (2 : ℝ) (4 / 10) = .ok ⟨2, 4 / 10, 2, []⟩ := by rw [UReal.mk', h4]; rfl
  obtain ⟨a, -, -, b, -, -, z, ez, -, c⟩ := C88_cov one_pos two_pos (by norm_num) ex ey
  refine ⟨_, _, z, ex, ey, ez, by rw [a]; norm_num, b, ?_⟩
  rw [c (by norm_num), show ((3 / 10 : ℝ) ^ 2 + (4 / 10) ^ 2) = (1 / 2) ^ 2 by norm_num, Real.sqrt_sq (by norm_num)]
  norm_num

/-- The formula for the covariance in the documentation (uncertainties/ureal.hpp:241-249), a sum over all pairs of variables. -/
noncomputable def docCov (x y : UReal ℝ) : ℝ := ∑ i ∈ x.deps, ∑ j ∈ y.deps, x.coef i * y.coef j

/-- The sum over the common variables. -/
noncomputable def sumCov (x y : UReal ℝ) : ℝ := ∑ i ∈ x.deps ∩ y.deps, x.coef i * y.coef i

/-- **C88** The covariance is the sum over the variables in common ... -/
theorem C88_formula {x y : UReal ℝ} (hx : x.Valid) (hy : y.Valid) : UReal.cov x y = sumCov x y := by
  rw [cov_eq hx.wf hy.wf, sumCov, Unc.Spec.LinForm.cov_eq_sum (supported x) x.deps (by simp [toLin])]
  refine (Finset.sum_subset Finset.inter_subset_left fun i hi hn => ?_).symm
  have := coef_of_not_mem (x := y) (fun h => hn (Finset.mem_inter.2 ⟨hi, h⟩))
  show x.coef i * y.coef i = 0
  rw [this, mul_zero]

example : UReal.cov ex1 ex2 = sumCov ex1 ex2 := C88_formula valid_ex1 valid_ex2

/-- **C88** ... and not the sum in the documentation. -/
theorem C88_formula_false : ¬ ∀ x y : UReal ℝ, x.Valid → y.Valid → UReal.cov x y = docCov x y := by
  intro h
  have := h ⟨1, 1, 0, []⟩ ⟨2, 1, 0, []⟩ (valid_of_nonneg_id ⟨by simp, by simp, by simp [SMap.Sorted], by simp⟩ (by simp))
    (valid_of_nonneg_id ⟨by simp, by simp, by simp [SMap.Sorted], by simp⟩ (by simp))
  simp [UReal.cov, docCov, deps, coef] at this

/-- **C88** The examples of independent and dependent variables (uncertainties/ureal.hpp:135-163), with arbitrary numbers. -/
theorem C88_indep {i j : ℤ} (hi : 0 < i) (hj : 0 < j) (hij : i ≠ j) {mx sx my sy : ℝ} {x y : UReal ℝ}
    (hx : UReal.mk' i mx sx = .ok x) (hy : UReal.mk' j my sy = .ok y) :
    x.isindep = some true ∧ y.isindep = some true ∧ x.indepid = some i ∧ y.indepid = some j ∧
    (∃ z, UReal.add x y = some z ∧ z.isindep = some false ∧ z.indepid = some invalidId) ∧
    (∃ z, UReal.add x x = some z ∧ z.isindep = some true ∧ z.indepid = some i ∧ (0 < sx → UReal.corr x z = 1)) ∧
    (0 < sx → UReal.corr x x = 1) := by
  obtain ⟨h1, rfl⟩ := mk_ok hx
  obtain ⟨h2, rfl⟩ := mk_ok hy
  have e : (⟨i, sx, mx, []⟩ : UReal ℝ).s = sx := by
    show (if i ≥ 0 then |sx| else _) = sx
    rw [if_pos hi.le, abs_of_nonneg h1]
  have e2 : UReal.add (⟨i, sx, mx, []⟩ : UReal ℝ) ⟨i, sx, mx, []⟩ = some ⟨-1, -1, mx + mx, [(i, 1 * sx + 1 * sx)]⟩ := by
    simp [UReal.add, UReal.binary, hi, SMap.upsert, not_lt.2 hi.le, invalidId]
  have hl : CCmp.leb (0 : ℝ) (-1) = false := by rw [← Bool.not_eq_true, leb_iff]; norm_num
  refine ⟨by simp [isindep], by simp [isindep], by simp [indepid, hi.le], by simp [indepid, hj.le],
    ⟨_, binary_elems hi hj hij _ _ _ _ _ _ _, ?_, ?_⟩, ⟨_, e2, by simp [isindep], by simp [indepid], fun hp => ?_⟩, fun hp => ?_⟩
  · split_ifs <;> simp [isindep]
  · split_ifs <;> simp [indepid, invalidId]
  · have : (⟨-1, -1, mx + mx, [(i, 1 * sx + 1 * sx)]⟩ : UReal ℝ).s = 2 * sx := by
      simp only [UReal.s, UReal.s2, hl]
      simp
      rw [← two_mul, Real.sqrt_mul_self (by positivity)]
    rw [UReal.corr, this, e]
    simp [UReal.cov, hi, SMap.find?]
    rw [← two_mul, div_self (by positivity)]
  · rw [UReal.corr, e]
    simp [UReal.cov, hi]
    exact hp.ne'

example : ∃ x y z : UReal ℝ, UReal.mk' 1 1 (1 / 10) = .ok x ∧ UReal.mk' 2 (1 / 2) (2 / 10) = .ok y ∧ UReal.add x y = some z ∧
    x.indepid ≠ y.indepid ∧ z.indepid = some (-1) := by
  have h3 : CCmp.ltb (1 / 10 : ℝ) 0 = false := by rw [← Bool.not_eq_true, ltb_iff]; norm_num
  have h4 : CCmp.ltb (2 / 10 : ℝ) 0 = false := by rw [← Bool.not_eq_true, ltb_iff]; norm_num
  have ex : UReal.mk' 1 (1 : ℝ) (1 / 10) = .ok ⟨1, 1 / 10, 1, []⟩ := by rw [UReal.mk', h3]; rfl
  have ey : UReal.mk' 2 (1 / 2 : ℝ) (2 / 10) = .ok ⟨2, 2 / 10, 1 / 2, []⟩ := by rw [UReal.mk', h4]; rfl
  obtain ⟨-, -, a, b, ⟨z, ez, -, c⟩, -⟩ := C88_indep one_pos two_pos (by norm_num) ex ey
  exact ⟨_, _, z, ex, ey, ez, by rw [a, b]; simp, c⟩

/-- **C88** "So the property of an independent variable is that it has either zero or full (1 or -1) correlation with any other independent
variable" (uncertainties/ureal.hpp:165-166) holds if neither uncertainty is zero. -/
theorem C88_full_partial {x y : UReal ℝ} (hx : x.Valid) (hy : y.Valid) (ix : x.isindep = some true) (iy : y.isindep = some true)
    (hs : x.s ≠ 0) (ht : y.s ≠ 0) : UReal.corr x y = 0 ∨ UReal.corr x y = 1 ∨ UReal.corr x y = -1 := by
  have key : ∀ z : UReal ℝ, z.Valid → z.isindep = some true → z.s ≠ 0 → ∃ k, 0 < k ∧ z.indepid = some k := by
    intro z hz iz h0
    rcases lt_trichotomy z.id 0 with h | h | h
    · unfold isindep at iz
      rw [if_pos (Or.inl h)] at iz
      have hl : z.sigma.length ≤ 1 := by simpa using iz
      rcases hsig : z.sigma with _ | ⟨⟨a, v⟩, _ | ⟨q, t⟩⟩
      · refine absurd ?_ h0
        rw [s_eq hz]
        simp [Unc.Spec.LinForm.var, toLin, deps, h, hsig, not_lt.2 h.le]
      · exact ⟨a, hz.wf.pos a (by simp [hsig]), by simp [indepid, h, not_le.2 h, hsig]⟩
      · rw [hsig] at hl; simp at hl
    · refine absurd ?_ h0
      rw [s_eq hz]
      simp [Unc.Spec.LinForm.var, toLin, deps, h]
    · exact ⟨z.id, h, by simp [indepid, hz.wf.nil h.le, h.le]⟩
  obtain ⟨i, hi, ei⟩ := key x hx ix hs
  obtain ⟨j, hj, ej⟩ := key y hy iy ht
  obtain ⟨a, b⟩ := C03_corr_single hx hy hi hj ei ej
  by_cases h : i = j
  · exact Or.inr (b h hs ht).1
  · left; rw [UReal.corr, a h, zero_div]

example : UReal.corr ex1 ex1 = 0 ∨ UReal.corr ex1 ex1 = 1 ∨ UReal.corr ex1 ex1 = -1 := by
  refine C88_full_partial valid_ex1 valid_ex1 ?_ ?_ ?_ ?_ <;> simp [ex1, isindep, UReal.s]

/-- **C88** Without the hypothesis it fails: two independent variables with zero uncertainty have a correlation which is NaN. -/
theorem C88_full_false : ∃ x y : UReal NReal, UReal.mk' 1 (.val 1) (.val 0) = .ok x ∧ UReal.mk' 2 (.val 2) (.val 0) = .ok y ∧
    x.isindep = some true ∧ y.isindep = some true ∧ UReal.corr x y = .nan := by
  have h : CCmp.ltb (NReal.val 0) 0 = false := by
    show decide ((0 : ℝ) < 0) = false
    simp
  refine ⟨⟨1, .val 0, .val 1, []⟩, ⟨2, .val 0, .val 2, []⟩, by rw [UReal.mk', h]; rfl, by rw [UReal.mk', h]; rfl, by simp [isindep], by simp [isindep], ?_⟩
  have e : ∀ (i : ℤ) (m : NReal), 0 < i → (⟨i, .val 0, m, []⟩ : UReal NReal).s = .val 0 := by
    intro i m hi
    show (if i ≥ 0 then NReal.lift1 (fun _ => True) (|·|) (.val 0) else _) = _
    rw [if_pos hi.le]
    simp [NReal.lift1]
  have c : UReal.cov (⟨1, .val 0, .val 1, []⟩ : UReal NReal) ⟨2, .val 0, .val 2, []⟩ = .val 0 := by
    simp [UReal.cov]; rfl
  have m : (NReal.val 0 * NReal.val 0 : NReal) = .val 0 := by
    show NReal.lift2 (fun _ _ => True) (· * ·) (.val 0) (.val 0) = _
    simp [NReal.lift2]
  rw [UReal.corr, e 1 _ (by norm_num), e 2 _ (by norm_num), c, m]
  show NReal.lift2 (fun _ y => y ≠ 0) (· / ·) (.val 0) (.val 0) = _
  simp [NReal.lift2]

/-- The printed text of a `UReal`: `x.format(errdig)`, with the default separator (uncertainties/ureal.hpp:454-456). -/
noncomputable def docFormat (x : UReal ℝ) (errdig : ℝ) : Option (Except Exn (List Char)) :=
  format (.fin x.n) (.fin x.s) (.fin errdig) defaultSep

/-- **C88** The examples of printing (uncertainties/ureal.hpp:114-121). -/
theorem C88_print {i : ℤ} (hi : 0 < i) {x : UReal ℝ} (hx : UReal.mk' i 13 (4 / 10) = .ok x) :
    ofUReal x = some (.ok "13.0 ± 0.4".toList) ∧ docFormat x 3 = some (.ok "13.000 ± 0.400".toList) := by
  obtain ⟨-, rfl⟩ := mk_ok hx
  have e : (⟨i, 4 / 10, 13, []⟩ : UReal ℝ).s = ((4 / 10 : ℚ) : ℝ) := by
    show (if i ≥ 0 then |(4 / 10 : ℝ)| else _) = _
    rw [if_pos hi.le, abs_of_nonneg (by norm_num)]; norm_num
  have q : ∀ r : ℚ, format (.fin (13 : ℝ)) (.fin ((4 / 10 : ℚ) : ℝ)) (.fin (r : ℝ)) defaultSep = FmtQ.formatQ 13 (4 / 10) r defaultSep := fun r => by
    have := FmtQ.format_rat 13 (4 / 10) r defaultSep
    rwa [show ((13 : ℚ) : ℝ) = 13 by norm_num] at this
  constructor
  · rw [ofUReal, e]
    have := q (3 / 2)
    rw [show (((3 / 2 : ℚ)) : ℝ) = 3 / 2 by norm_num] at this
    show format (.fin (13 : ℝ)) _ _ _ = _
    rw [this]; decide +kernel
  · rw [docFormat, e]
    have := q 3
    rw [show (((3 : ℚ)) : ℝ) = 3 by norm_num] at this
    show format (.fin (13 : ℝ)) _ _ _ = _
    rw [this]; decide +kernel

example : ∃ x, UReal.mk' 1 (13 : ℝ) (4 / 10) = .ok x := by
  have h4 : CCmp.ltb (4 / 10 : ℝ) 0 = false := by rw [← Bool.not_eq_true, ltb_iff]; norm_num
  exact ⟨⟨1, 4 / 10, 13, []⟩, by rw [UReal.mk', h4]; rfl⟩

/-- **C88** The examples in the description of the formatting (uncertainties/io.hpp:26-37). -/
theorem C88_io : format (.fin 1) (.fin (136 / 1000)) (.fin 2) " +/- ".toList = some (.ok "1.00 +/- 0.14".toList) ∧
    format (.fin 1) (.fin (31 / 100)) (.fin (3 / 2)) " +/- ".toList = some (.ok "1.00 +/- 0.31".toList) ∧
    format (.fin 1) (.fin (32 / 100)) (.fin (3 / 2)) " +/- ".toList = some (.ok "1.0 +/- 0.3".toList) := by
  refine ⟨?_, ?_, ?_⟩
  · have := fun sep => FmtQ.format_rat 1 (136 / 1000) 2 sep
    push_cast at this
    rw [this]; decide +kernel
  · have := fun sep => FmtQ.format_rat 1 (31 / 100) (3 / 2) sep
    push_cast at this
    rw [this]; decide +kernel
  · have := fun sep => FmtQ.format_rat 1 (32 / 100) (3 / 2) sep
    push_cast at this
    rw [this]; decide +kernel

/-- 0 ± √2 -/
theorem zero_root_two : format (.fin 0) (.fin √2) (.fin (3 / 2)) defaultSep = some (.ok "0.0 ± 1.4".toList) := by
  obtain ⟨q1, q2⟩ := sqrt_ten
  have h1 : (14 / 10 : ℝ) < √2 := by rw [Real.lt_sqrt (by norm_num)]; norm_num
  have h2 : √2 < (145 / 100 : ℝ) := by rw [Real.sqrt_lt' (by norm_num)]; norm_num
  have h0 : 0 < √2 := by linarith
  have lp : leadPos (√2) = 0 := leadPos_unique (by norm_num) (by norm_num; linarith)
  have ld : leadDigits (√2) = √2 := by rw [leadDigits, lp]; norm_num
  have nd : ndigits (√2) (3 / 2) = some (2, √2) := by
    have := ndigits_max h0 (n := 1) (p := 1 / 2) (by norm_num) (by norm_num) (by rw [ld]; linarith)
    norm_num at this
    norm_num
    exact this
  have i1 : intMantissa (√2) 2 0 = 14 := intMantissa_eval 14 (by positivity) (by norm_num; linarith) (by norm_num; linarith)
  have i2 : intMantissa 0 (-1) (-3) = 0 := intMantissa_eval 0 (by norm_num) (by norm_num) (by norm_num)
  have s1 : intMantissaString 14 = ['1', '4'] := by simp [intMantissaString, digitsLoop, digitChar]
  have s2 : intMantissaString 0 = ['0'] := by simp [intMantissaString, digitsLoop, digitChar]
  rw [format_fin h0.ne' (by norm_num),
    formatFin_eval _ nd (sexp := 0) (exponent_eval 0 (by rw [abs_of_pos h0]; norm_num) (by rw [abs_of_pos h0]; norm_num; linarith))
      (muexp := -3) (smant := ['1', '4']) (sexp' := 0) (mumant := ['0']) (muexp' := -3)
      (by simp) (by simp [mantissa, i1, s1]) (by simp [mantissa, i2, s2])]
  norm_num [insertDot, defaultSep]
  decide

/-- **C88** The example of README.md, with an arbitrary mean: a variable minus itself has no uncertainty, and minus another one with the same mean
and uncertainty 1 it has. -/
theorem C88_readme {i j : ℤ} (hi : 0 < i) (hj : 0 < j) (hij : i ≠ j) {m : ℝ} {x y : UReal ℝ}
    (hx : UReal.mk' i m 1 = .ok x) (hy : UReal.mk' j m 1 = .ok y) :
    (∃ a, UReal.sub x x = some a ∧ ofUReal a = some (.ok "0 ± 0".toList)) ∧
    ∃ b, UReal.sub x y = some b ∧ ofUReal b = some (.ok "0.0 ± 1.4".toList) := by
  obtain ⟨-, rfl⟩ := mk_ok hx
  obtain ⟨-, rfl⟩ := mk_ok hy
  have hl : CCmp.leb (0 : ℝ) (-1) = false := by rw [← Bool.not_eq_true, leb_iff]; norm_num
  have e2 : UReal.sub (⟨i, 1, m, []⟩ : UReal ℝ) ⟨i, 1, m, []⟩ = some ⟨-1, -1, m - m, [(i, 1 * 1 + -1 * 1)]⟩ := by
    simp [UReal.sub, UReal.binary, hi, SMap.upsert, not_lt.2 hi.le, invalidId]
  refine ⟨⟨_, e2, ?_⟩, _, binary_elems hi hj hij _ _ _ _ _ _ _, ?_⟩
  · have e : (⟨-1, -1, m - m, [(i, 1 * 1 + -1 * 1)]⟩ : UReal ℝ).s = 0 := by
      simp [UReal.s, UReal.s2, hl]
    rw [ofUReal, e, UReal.n, sub_self]
    have := FmtQ.format_rat 0 0 (3 / 2) defaultSep
    rw [Rat.cast_zero, show (((3 / 2 : ℚ)) : ℝ) = 3 / 2 by norm_num] at this
    rw [this]; decide +kernel
  · rw [ofUReal, s_elems, UReal.n, sub_self, ← zero_root_two]
    norm_num

example : ∃ x y : UReal ℝ, UReal.mk' 1 2 1 = .ok x ∧ UReal.mk' 2 2 1 = .ok y := by
  have h4 : CCmp.ltb (1 : ℝ) 0 = false := by rw [← Bool.not_eq_true, ltb_iff]; norm_num
  exact ⟨⟨1, 1, 2, []⟩, ⟨2, 1, 2, []⟩, by rw [UReal.mk', h4]; rfl, by rw [UReal.mk', h4]; rfl⟩

end Unc.Props
