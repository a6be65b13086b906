import Verif.Model.FormatSecond
import Verif.Lemmas.FormatQ
import Verif.Props.Format
import Verif.Props.Moments

/-!
# Formatting second-order values: C38, C39, C41, C42, C88 for `UReal2`
-/

namespace Unc.Props
open Unc HessGrad Mom Fmt Unc.Spec MeasureTheory ProbabilityTheory

variable {Ω : Type*} [MeasurableSpace Ω] {P : Measure Ω} {X : VId → Ω → ℝ}

theorem format_total (mu : ℝ) (s : FNum) (r : ℝ) (sep : List Char) :
    (r ≤ 1 → format (.fin mu) s (.fin r) sep = some (.error .invalidArgument)) ∧
    (1 < r → ∃ out, format (.fin mu) s (.fin r) sep = some (.ok out)) :=
  ⟨fun h => (C38_throws _ _ _ _ _).2 ⟨rfl, Or.inl ⟨r, rfl, h⟩⟩, fun h => C38_total _ _ h sep⟩

/-- **C38** for second-order values: whatever the value, the call returns a text, or throws exactly if `errdig <= 1`. -/
theorem C38_second {x : UReal2 ℝ} (hv : x.hg.Valid) (p : PropMode) (r : ℝ) (sep : List Char) :
    (r ≤ 1 → ofUReal2 p x (.fin r) sep = some (.error .invalidArgument)) ∧ (1 < r → ∃ out, ofUReal2 p x (.fin r) sep = some (.ok out)) := by
  obtain ⟨a, ha⟩ := Option.isSome_iff_exists.1 ((C24_range hv 1).2 ⟨le_rfl, by norm_num⟩)
  obtain ⟨b, hb⟩ := Option.isSome_iff_exists.1 ((C24_range hv 2).2 ⟨by norm_num, by norm_num⟩)
  rw [ofUReal2, UReal2.n, ha, hb]
  exact format_total _ _ r sep

example : ∃ out, ofUReal2 .est exMx (.fin 2) defaultSep = some (.ok out) := (C38_second valid_exMx .est 2 defaultSep).2 (by norm_num)
example : ofUReal2 .mean exMx (.fin 1) defaultSep = some (.error .invalidArgument) := (C38_second valid_exMx .mean 1 defaultSep).1 le_rfl

/-- The number the text shows in each mode: `Prop::mean` is the mean of the quadratic expansion, `Prop::est` corrects the value in the other direction. -/
noncomputable def shownMean (p : PropMode) (P : Measure Ω) (X : VId → Ω → ℝ) (x : UReal2 ℝ) : ℝ :=
  match p with
  | .mean => x.mu + ∫ ω, x.hg.rv X ω ∂P
  | .est => x.mu - ∫ ω, x.hg.rv X ω ∂P

/-- The standard deviation of the quadratic expansion. -/
noncomputable def shownSdev (P : Measure Ω) (X : VId → Ω → ℝ) (x : UReal2 ℝ) : ℝ :=
  √(∫ ω, (x.hg.rv X ω - ∫ ω', x.hg.rv X ω' ∂P) ^ 2 ∂P)

theorem ofUReal2_eq {x : UReal2 ℝ} (hv : x.hg.Valid) (h : StdIndep P X x.hg.vars) (hm : HasMoments P X x.hg) (p : PropMode) (r : FNum)
    (sep : List Char) : ofUReal2 p x r sep = format (.fin (shownMean p P X x)) (.fin (shownSdev P X x)) r sep := by
  have hn : x.n p = some (shownMean p P X x) := by
    rw [UReal2.n, (C24_m1 hv h hm).2]
    cases p
    · simp [shownMean, sub_eq_add_neg]
    · simp [shownMean]
  have h2 := C25_var hv h hm
  rw [UReal2.var] at h2
  rw [ofUReal2, hn, h2]
  show format _ (sdevNum _) _ _ = _
  rw [sdevNum, if_neg (not_lt.2 (integral_nonneg fun ω => sq_nonneg _))]
  rfl

/-- **C39** for second-order values and the default arguments: the text shows the mean (or the corrected value) and the standard deviation
of the quadratic expansion rounded to the place of the last digit, with the same exception as for `UReal`. -/
theorem C39_second_partial {x : UReal2 ℝ} (hv : x.hg.Valid) (h : StdIndep P X x.hg.vars) (hm : HasMoments P X x.hg) (p : PropMode)
    (hs : 0 < shownSdev P X x) : ∃ out, ofUReal2 p x (.fin (3 / 2)) defaultSep = some (.ok out) ∧
      (Reads (shownMean p P X x) (shownSdev P X x) (place 1 (1 / 2) (shownSdev P X x)) out defaultSep ↔
        ¬ ((19 / 2 ≤ |shownMean p P X x| ∧ |shownMean p P X x| < 10) ∧ (19 / 2 ≤ shownSdev P X x ∧ shownSdev P X x < 10 * 10 ^ (1 / 2 : ℝ)))) := by
  obtain ⟨out, h1, h2⟩ := C39_exact_partial (mu := shownMean p P X x) (n := 1) (p := 1 / 2) hs le_rfl (by norm_num) (by norm_num) (by norm_num) ['±', ' ']
  refine ⟨out, ?_, ?_⟩
  · rw [ofUReal2_eq hv h hm, defaultSep, ← h1]
    norm_num
  · rw [defaultSep, h2, ← loses_default hs]
    simp

/-- the standard deviation of the concrete value -/
theorem sdev_exMx : shownSdev (Measure.infinitePi fun _ => twoPoint) (fun i (ω : VId → ℝ) => ω i) exMx = √(2189 / 400) := by
  have h := C25_var valid_exMx (twoPoint_indep _) (twoPoint_has mom_exMx)
  rw [var_exMx] at h
  rw [shownSdev, ← Option.some.inj h]

/-- the shown mean of the concrete value -/
theorem mean_exMx : shownMean .mean (Measure.infinitePi fun _ => twoPoint) (fun i (ω : VId → ℝ) => ω i) exMx = 47 / 6 := by
  have h := (C24_m1 valid_exMx (twoPoint_indep _) (twoPoint_has mom_exMx)).2
  rw [C24_trace valid_exMx] at h
  rw [shownMean, ← Option.some.inj h]
  simp [exMx, vars, SMap.keys, HessGrad.H, SMap.find?]
  norm_num

example : ∃ out, ofUReal2 .mean exMx (.fin (3 / 2)) defaultSep = some (.ok out) ∧
    Reads (47 / 6) (√(2189 / 400)) (place 1 (1 / 2) (√(2189 / 400))) out defaultSep := by
  have hs : 0 < shownSdev (Measure.infinitePi fun _ => twoPoint) (fun i (ω : VId → ℝ) => ω i) exMx := by
    rw [sdev_exMx]; positivity
  obtain ⟨out, h1, h2⟩ := C39_second_partial valid_exMx (twoPoint_indep _) (twoPoint_has mom_exMx) .mean hs
  rw [sdev_exMx, mean_exMx] at h2
  refine ⟨out, h1, h2.2 ?_⟩
  rintro ⟨⟨h, -⟩, -⟩
  norm_num [abs_of_pos] at h

/-- **C42** for second-order values and the default arguments: one digit of the standard deviation, or two if its leading digits are below 3.16
or from 9.5. -/
theorem C42_second {x : UReal2 ℝ} (hv : x.hg.Valid) (h : StdIndep P X x.hg.vars) (hm : HasMoments P X x.hg) (p : PropMode)
    (hs : 0 < shownSdev P X x) : ∃ out M S E, ofUReal2 p x (.fin (3 / 2)) defaultSep = some (.ok out) ∧
      Layout out (decide (shownMean p P X x < 0)) M S defaultSep E ∧ Numeral M ∧ Numeral S ∧
      sigDigits S = if leadDigits (shownSdev P X x) < 10 ^ (1 / 2 : ℝ) ∨ 19 / 2 ≤ leadDigits (shownSdev P X x) then 2 else 1 := by
  obtain ⟨out, M, S, E, h1, h2⟩ := C42_partial (mu := shownMean p P X x) (n := 1) (p := 1 / 2) hs le_rfl (by norm_num) (by norm_num) (by norm_num)
    (Or.inl rfl) defaultSep
  rw [sdev_default hs] at h2
  refine ⟨out, M, S, E, ?_, h2⟩
  rw [ofUReal2_eq hv h hm, ← h1]
  norm_num

example := C42_second valid_exMx (twoPoint_indep _) (twoPoint_has mom_exMx) .est (by rw [sdev_exMx]; positivity)

/-- **C41** for second-order values: the text begins with a minus sign exactly if the shown mean is negative, provided that the standard deviation is not zero. -/
theorem C41_second_partial {x : UReal2 ℝ} (hv : x.hg.Valid) (h : StdIndep P X x.hg.vars) (hm : HasMoments P X x.hg) (p : PropMode)
    (hs : shownSdev P X x ≠ 0) {r : ℝ} (hr : 1 < r) (sep : List Char) :
    ∃ out, ofUReal2 p x (.fin r) sep = some (.ok out) ∧ (StartsMinus out ↔ shownMean p P X x < 0) := by
  rw [ofUReal2_eq hv h hm]
  exact C41_partial hs hr sep

example := C41_second_partial valid_exMx (twoPoint_indep _) (twoPoint_has mom_exMx) .est (by rw [sdev_exMx]; positivity) (r := 2) (by norm_num) defaultSep

/-- an elementary second-order variable (uncertainties/ureal2.hpp:562-566) -/
def elemTwo (i : VId) (m s : ℝ) (mom : Moments ℝ) : UReal2 ℝ := ⟨⟨[(i, ⟨s, 0, mom⟩)], []⟩, m⟩

/-- **C88** The examples of printing for `UReal2` (uncertainties/ureal2.hpp:381-388), in both modes and for any distribution with the
mean and the standard deviation of the example. -/
theorem C88_print_second (i : VId) (mom : Moments ℝ) (p : PropMode) :
    ofUReal2 p (elemTwo i 13 (4 / 10) mom) (.fin (3 / 2)) defaultSep = some (.ok "13.0 ± 0.4".toList) ∧
    ofUReal2 p (elemTwo i 13 (4 / 10) mom) (.fin 3) defaultSep = some (.ok "13.000 ± 0.400".toList) := by
  have hv : (elemTwo i 13 (4 / 10) mom).hg.Valid :=
    ⟨by simp [elemTwo, SMap.Sorted, SMap.keys], by simp [elemTwo, SMap.Sorted, SMap.keys], by simp [elemTwo]⟩
  have h1 : (elemTwo i 13 (4 / 10) mom).m 1 = some 0 := by
    rw [C24_trace hv]
    simp [elemTwo, vars, SMap.keys, HessGrad.H, SMap.find?]
  have h2 : (elemTwo i 13 (4 / 10) mom).m 2 = some (16 / 100) := by
    have := C25_closed hv (fun _ => mom.v3) (fun _ => mom.v4) (fun j m h => by
      simp only [momOf, elemTwo, SMap.find?] at h
      split_ifs at h <;> simp_all)
    rw [UReal2.var] at this
    rw [this]
    simp [elemTwo, vars, SMap.keys, HessGrad.H, HessGrad.G, SMap.find?]
    norm_num
  have hn : (elemTwo i 13 (4 / 10) mom).n p = some 13 := by
    rw [UReal2.n, h1]
    cases p <;> simp [elemTwo]
  have hs : sdevNum (16 / 100) = .fin (4 / 10) := by
    rw [sdevNum, if_neg (by norm_num), show (16 / 100 : ℝ) = (4 / 10) ^ 2 by norm_num, Real.sqrt_sq (by norm_num)]
  have e : ∀ r : FNum, ofUReal2 p (elemTwo i 13 (4 / 10) mom) r defaultSep = format (.fin 13) (.fin (4 / 10)) r defaultSep := by
    intro r
    rw [ofUReal2, hn, h2, ← hs]
    rfl
  constructor
  · have := FmtQ.format_rat 13 (4 / 10) (3 / 2) defaultSep
    push_cast at this
    rw [e, this]; decide +kernel
  · have := FmtQ.format_rat 13 (4 / 10) 3 defaultSep
    push_cast at this
    rw [e, this]; decide +kernel

/-- the normal distribution of the example -/
example := C88_print_second 1 ⟨0, 3, 0, 15, 0, 105⟩ .est

end Unc.Props
