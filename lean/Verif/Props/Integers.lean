import Verif.Lemmas.Integers
import Verif.Lemmas.FormatFP

/-!
# C92: calculations with integers do not round
-/

namespace Unc.Props
open Spec UReal
variable {f : Fmt} {N : ℕ}

/-- **C92**: a calculation with sums, differences, products and the assignments, from values with integer means and uncertainties, in a format which has the integers up to `N`.  It
never fails; the mean is the exact integer if its size is at most `N`; the coefficient of each elementary variable is the exact derivative times the uncertainty if its size is
at most `N`; and if also the size of the variance is at most `N`, the variance is exact and the uncertainty is the correctly rounded square root of the exact variance.  Intermediate
results may be larger than `N`. -/
theorem C92_exact (hf : Ints f N) {g : ℕ → IVar} {env : ℕ → UReal (FP f)} (h : ∀ i, Holds (env i) (g i)) {t : Calc} (ht : t.noDiv) :
    ∃ x, t.run env = some x ∧ (t.meanSize g ≤ N → x.n.val = t.mean g) ∧ (∀ k, t.slopeSize g k ≤ N → (x.coef k).val = t.slope g k) ∧
      (covSize g t t ≤ N → x.var.val = covI g t t ∧ x.s.val = f.rd (Real.sqrt (covI g t t))) := by
  obtain ⟨x, e, hx⟩ := tells_run hf h t ht
  refine ⟨x, e, hx.mean.2, fun k => (hx.slope k).2, fun hN => ?_⟩
  have hd := (tells_dot hf hx hx).2 hN
  rcases lt_trichotomy x.id 0 with h0 | h0 | h0
  · have er : x.repr' = x.sigma := by unfold repr'; rw [if_neg (by omega), if_pos h0]
    have hs2 : x.s2.val = covI g t t := by rw [s2_dot hx.wf, ← er]; exact hd
    have hs := hx.fresh h0
    constructor
    · unfold var
      rw [if_neg, hs2]
      rw [hs, leb_fresh]; simp [h0]
    · unfold UReal.s
      rw [if_neg (by omega), hs, leb_fresh, if_neg (by simp), FP.val_sqrt, hs2]
  · have ei : t.ids g = ∅ := by rw [← hx.deps]; unfold deps; simp [h0]
    have ec : covI g t t = 0 := by simp [covI, ei]
    have hs := hx.wf.zero_sdev h0
    constructor
    · unfold var
      rw [if_pos (Or.inl h0.ge), hs, fpi_mul_zero, ec]; simp
    · unfold UReal.s
      rw [if_pos h0.ge, hs, ec]; simp [f.rd_zero]
  · have ei : t.ids g = {x.id} := by rw [← hx.deps]; unfold deps; simp [h0]
    have ec : covI g t t = t.slope g x.id * t.slope g x.id := by simp [covI, ei]
    have em : covSize g t t = t.slopeSize g x.id * t.slopeSize g x.id := by simp [covSize, ei]
    have hw : Wk N (t.slope g x.id) (t.slopeSize g x.id) x.sdev := by
      have := hx.slope x.id
      unfold coef at this
      simpa [h0] using this
    constructor
    · unfold var
      rw [if_pos (Or.inl h0.le), ec]
      exact (hw.mul hf hw).2 (em ▸ hN)
    · unfold UReal.s
      have hv := hw.2 ((Nat.le_mul_self _).trans (em ▸ hN))
      rw [if_pos h0.le, FP.val_abs, hv, ec]
      push_cast
      rw [Real.sqrt_mul_self_eq_abs, ← Int.cast_abs]
      refine (hf _ ?_).symm
      rw [Int.natAbs_abs]
      exact hw.1.trans ((Nat.le_mul_self _).trans (em ▸ hN))

/-- **C92**: the covariances are exact in the same way. -/
theorem C92_cov (hf : Ints f N) {g : ℕ → IVar} {env : ℕ → UReal (FP f)} (h : ∀ i, Holds (env i) (g i)) {s t : Calc} (hs : s.noDiv) (ht : t.noDiv)
    (hN : covSize g s t ≤ N) {x y : UReal (FP f)} (ex : s.run env = some x) (ey : t.run env = some y) : (cov x y).val = covI g s t := by
  obtain ⟨x', e, hx⟩ := tells_run hf h s hs
  obtain ⟨y', e', hy⟩ := tells_run hf h t ht
  rw [ex] at e
  rw [ey] at e'
  cases e
  cases e'
  rw [cov_dot hx.wf hy.wf]
  exact (tells_dot hf hx hy).2 hN

/-- **C92**: `double` has the integers up to 2^53 and `float` those up to 2^24; not one more. -/
theorem C92_formats : (Ints dblFmt (2 ^ 53) ∧ ¬ Ints dblFmt (2 ^ 53 + 1)) ∧ Ints fltFmt (2 ^ 24) ∧ ¬ Ints fltFmt (2 ^ 24 + 1) := by
  have up : ∀ (p : ℕ) (emin : ℤ) (hp : 1 ≤ p) (he : emin ≤ 0), emin - p + 1 ≤ 0 → Ints (ieee p emin hp he) (2 ^ p) := by
    intro p emin hp he hk n hn
    have hn' : |n| ≤ 2 ^ p := by rw [Int.abs_eq_natAbs]; exact_mod_cast hn
    rcases hn'.lt_or_eq with h1 | h1
    · simpa using ieee_int hp he n 0 h1 hk
    · have key := ieee_int hp he 1 p (by rw [abs_one]; exact one_lt_pow₀ (by norm_num) (by omega)) (by omega)
      have key' : (ieee p emin hp he).rd (2 ^ p : ℝ) = 2 ^ p := by simpa using key
      rcases abs_choice n with h2 | h2
      · have : n = 2 ^ p := by rw [← h2, h1]
        rw [this]; push_cast; exact key'
      · have : n = -2 ^ p := by rw [← h1, h2]; ring
        rw [this]; push_cast; rw [Fmt.odd, key']
  have no : ∀ (p : ℕ) (emin : ℤ) (hp : 1 ≤ p) (he : emin ≤ 0), ¬ Ints (ieee p emin hp he) (2 ^ p + 1) := by
    intro p emin hp he h
    have h1 := h (2 ^ p + 1) (by rw [show ((2 : ℤ) ^ p + 1).natAbs = 2 ^ p + 1 by
      rw [show ((2 : ℤ) ^ p + 1) = ((2 ^ p + 1 : ℕ) : ℤ) by push_cast; rfl, Int.natAbs_natCast]])
    push_cast at h1
    have h0 : (0 : ℝ) < 2 ^ p + 1 := by positivity
    have h2 : (ieee p emin hp he).rd ((2 : ℝ) ^ p + 1) = ieeePos p emin (2 ^ p + 1) := by
      show (if _ then _ else _) = _
      rw [if_pos h0]
    have e : expo emin ((2 : ℝ) ^ p + 1) = p := by
      have hl : Int.log 2 ((2 : ℝ) ^ p + 1) = p := by
        apply le_antisymm
        · have := (Int.lt_zpow_iff_log_lt (b := 2) (by norm_num) h0 (x := (p : ℤ) + 1)).1 (by
            push_cast
            rw [zpow_add₀ (by norm_num), zpow_natCast, zpow_one]
            have : (2 : ℝ) ≤ 2 ^ p := by
              calc (2 : ℝ) = 2 ^ 1 := by norm_num
                _ ≤ 2 ^ p := pow_le_pow_right₀ (by norm_num) hp
            linarith)
          omega
        · exact (Int.zpow_le_iff_le_log (b := 2) (by norm_num) h0).1 (by push_cast; rw [zpow_natCast]; linarith)
      unfold expo
      rw [hl]
      exact max_eq_left (by omega)
    rw [h2, ieeePos, e, show (p : ℤ) - p + 1 = 1 by ring, zpow_one] at h1
    have h3 : nearEven (((2 : ℝ) ^ p + 1) / 2) * 2 = 2 ^ p + 1 := by exact_mod_cast h1
    have h4 : (2 : ℤ) ^ p = 2 * 2 ^ (p - 1) := by rw [← pow_succ']; congr 1; omega
    omega
  exact ⟨⟨up 53 _ _ _ (by norm_num), no 53 _ _ _⟩, up 24 _ _ _ (by norm_num), no 24 _ _ _⟩

/-- the loop `for (i = 0; i < n; ++i) x += UReal(means[i], devs[i])` with new variables (the loop of test/accumulate.cpp:11-14) -/
def accumulate {R : Type*} [Zero R] [One R] [Neg R] [Add R] [Mul R] [CCmp R] (v : ℕ → UReal R) : ℕ → UReal R
  | 0 => default'
  | n + 1 => addAssign (accumulate v n) (v n)

/-- **C92**: the sum of `n` new variables with integer means and uncertainties, accumulated in a loop: the mean is the exact sum, the variance the exact sum of the squares and the
uncertainty its correctly rounded square root, as long as the sums of the absolute values of the means and of the squares are at most `N`. -/
theorem C92_accumulate (hf : Ints f N) {v : ℕ → UReal (FP f)} {m : ℕ → ℤ} {s : ℕ → ℕ} (n : ℕ) (h : ∀ i < n, Holds (v i) ⟨i + 1, m i, s i⟩)
    (h1 : ∑ i ∈ Finset.range n, (m i).natAbs ≤ N) (h2 : ∑ i ∈ Finset.range n, s i * s i ≤ N) :
    (accumulate v n).n.val = (∑ i ∈ Finset.range n, m i : ℤ) ∧ (accumulate v n).var.val = (∑ i ∈ Finset.range n, (s i : ℤ) * s i : ℤ) ∧
      (accumulate v n).s.val = f.rd (Real.sqrt (∑ i ∈ Finset.range n, (s i : ℤ) * s i : ℤ)) := by
  let g : ℕ → IVar := fun i => match i with
    | 0 => ⟨0, 0, 0⟩
    | i + 1 => if i < n then ⟨i + 1, m i, s i⟩ else ⟨0, 0, 0⟩
  let env : ℕ → UReal (FP f) := fun i => match i with
    | 0 => default'
    | i + 1 => if i < n then v i else default'
  have gs : ∀ i, i < n → g (i + 1) = ⟨i + 1, m i, s i⟩ := fun i hi => if_pos hi
  let t : ℕ → Calc := fun n => Nat.rec (.leaf 0) (fun i a => .bin .addTo a (.leaf (i + 1))) n
  have h0 : Holds (default' : UReal (FP f)) ⟨0, 0, 0⟩ := ⟨rfl, le_rfl, by simp [maxId], by simp [default'], by simp [default'], fun _ => rfl, rfl⟩
  have hh : ∀ i, Holds (env i) (g i) := by
    rintro (_ | i)
    · exact h0
    · show Holds (if i < n then v i else default') (if i < n then ⟨i + 1, m i, s i⟩ else ⟨0, 0, 0⟩)
      split_ifs with hi
      · exact h i hi
      · exact h0
  have hrun : ∀ j ≤ n, (t j).run env = some (accumulate v j) ∧ (t j).noDiv := by
    intro j
    induction j with
    | zero => exact fun _ => ⟨rfl, trivial⟩
    | succ j ih =>
      intro hj
      have ih := ih (by omega)
      refine ⟨?_, rfl, ih.2, trivial⟩
      show ((t j).run env).bind (fun x => (some (if j < n then v j else default')).bind fun y => some (addAssign x y)) = _
      rw [ih.1, if_pos (by omega)]; rfl
  have hids : ∀ j ≤ n, ∀ k, k ∈ (t j).ids g ↔ 0 < k ∧ k ≤ j := by
    intro j
    induction j with
    | zero => intro _ k; simp [t, Calc.ids, g]
    | succ j ih =>
      intro hj k
      show k ∈ (t j).ids g ∪ Calc.ids g (.leaf (j + 1)) ↔ _
      rw [Finset.mem_union, ih (by omega)]
      simp only [Calc.ids]
      rw [gs j (by omega), if_pos (by show (0 : ℤ) < j + 1; omega), Finset.mem_singleton]
      push_cast
      omega
  have hmean : ∀ j ≤ n, (t j).mean g = ∑ i ∈ Finset.range j, m i ∧ (t j).meanSize g = ∑ i ∈ Finset.range j, (m i).natAbs := by
    intro j
    induction j with
    | zero => exact fun _ => ⟨rfl, rfl⟩
    | succ j ih =>
      intro hj
      have ih := ih (by omega)
      have e1 : (t (j + 1)).mean g = (t j).mean g + (g (j + 1)).mean := rfl
      have e2 : (t (j + 1)).meanSize g = (t j).meanSize g + (g (j + 1)).mean.natAbs := rfl
      rw [e1, e2, gs j (by omega), Finset.sum_range_succ, Finset.sum_range_succ, ← ih.1, ← ih.2]
      exact ⟨rfl, rfl⟩
  have hslope : ∀ j ≤ n, ∀ k, (t j).slope g k = (if 0 < k ∧ k ≤ j then (s (k - 1).toNat : ℤ) else 0) ∧
      (t j).slopeSize g k = if 0 < k ∧ k ≤ j then s (k - 1).toNat else 0 := by
    intro j
    induction j with
    | zero => intro _ k; rw [if_neg (by omega), if_neg (by omega)]; simp [t, Calc.slope, Calc.slopeSize, g]
    | succ j ih =>
      intro hj k
      obtain ⟨i1, i2⟩ := ih (by omega) k
      have e1 : (t (j + 1)).slope g k = (t j).slope g k + Calc.slope g k (.leaf (j + 1)) := rfl
      have e2 : (t (j + 1)).slopeSize g k = (t j).slopeSize g k + Calc.slopeSize g k (.leaf (j + 1)) := rfl
      have e3 : Calc.slope g k (.leaf (j + 1)) = if (0 : ℤ) < j + 1 ∧ k = j + 1 then (s j : ℤ) else 0 := by simp only [Calc.slope, gs j (by omega)]
      have e4 : Calc.slopeSize g k (.leaf (j + 1)) = if (0 : ℤ) < j + 1 ∧ k = j + 1 then s j else 0 := by simp only [Calc.slopeSize, gs j (by omega)]
      rw [e1, e2, e3, e4, i1, i2]
      by_cases hk : k = j + 1
      · have a1 : ¬ (0 < k ∧ k ≤ j) := by omega
        have a2 : (0 : ℤ) < j + 1 ∧ k = j + 1 := by omega
        have a3 : 0 < k ∧ k ≤ ((j + 1 : ℕ) : ℤ) := by push_cast; omega
        have a4 : (k - 1).toNat = j := by omega
        rw [if_neg a1, if_neg a1, if_pos a2, if_pos a2, if_pos a3, if_pos a3, a4]
        simp
      · have a2 : ¬ ((0 : ℤ) < j + 1 ∧ k = j + 1) := by omega
        rw [if_neg a2, if_neg a2, add_zero, add_zero]
        have a3 : (0 < k ∧ k ≤ ((j + 1 : ℕ) : ℤ)) ↔ (0 < k ∧ k ≤ j) := by push_cast; omega
        simp only [a3]
        exact ⟨trivial, trivial⟩
  have hset : (t n).ids g = (Finset.range n).image fun i : ℕ => ((i : ℤ) + 1 : VId) := by
    ext k
    rw [hids n le_rfl, Finset.mem_image]
    constructor
    · rintro ⟨h1, h2⟩
      exact ⟨(k - 1).toNat, Finset.mem_range.2 (by omega), by omega⟩
    · rintro ⟨i, hi, rfl⟩
      have := Finset.mem_range.1 hi
      omega
  have hinj : Set.InjOn (fun i : ℕ => ((i : ℤ) + 1 : VId)) (Finset.range n) := fun a _ b _ hab => by simpa using hab
  have hcov : covI g (t n) (t n) = ∑ i ∈ Finset.range n, (s i : ℤ) * s i := by
    unfold covI
    rw [hset, Finset.sum_image hinj]
    refine Finset.sum_congr rfl fun i hi => ?_
    have := Finset.mem_range.1 hi
    rw [(hslope n le_rfl _).1, if_pos (by omega)]; simp
  have hcovS : covSize g (t n) (t n) = ∑ i ∈ Finset.range n, s i * s i := by
    unfold covSize
    rw [hset, Finset.sum_image hinj]
    refine Finset.sum_congr rfl fun i hi => ?_
    have := Finset.mem_range.1 hi
    rw [(hslope n le_rfl _).2, if_pos (by omega)]; simp
  obtain ⟨x, e, hx1, -, hx2⟩ := C92_exact hf hh (hrun n le_rfl).2
  rw [(hrun n le_rfl).1] at e
  cases e
  rw [(hmean n le_rfl).1, (hmean n le_rfl).2] at hx1
  rw [hcov, hcovS] at hx2
  exact ⟨hx1 h1, hx2 h2⟩

/-- **C92**: the bound is sharp: `UReal(N) + UReal(1)` is not the exact sum if the next integer is missing in the format. -/
theorem C92_sharp (hf : Ints f N) (hn : ¬ Ints f (N + 1)) {x y : UReal (FP f)} (hx : x.mu.val = N) (hy : y.mu.val = 1) {z : UReal (FP f)} (h : add x y = some z) :
    z.n.val ≠ N + 1 := by
  have hz : z.mu = x.mu + y.mu := by
    unfold add binary at h
    obtain ⟨w, -, rfl⟩ := Option.map_eq_some_iff.1 h
    rfl
  show z.mu.val ≠ _
  rw [hz, FP.val_add, hx, hy]
  intro e
  apply hn
  intro n hle
  rcases Nat.lt_or_ge n.natAbs (N + 1) with h1 | h1
  · exact hf n (by omega)
  · have h2 : n.natAbs = N + 1 := le_antisymm hle h1
    rcases Int.natAbs_eq n with h3 | h3
    · rw [h3, h2]; push_cast; exact e
    · rw [h3, h2]; push_cast; rw [f.odd, e]

/-! ## examples -/

/-- an integer in `double` -/
noncomputable def dI (n : ℤ) (h : n.natAbs ≤ 2 ^ 53) : FP dblFmt := ⟨n, C92_formats.1.1 n h⟩

/-- 3 ± 2 and -5 ± 1 -/
def exG : ℕ → IVar
  | 0 => ⟨1, 3, 2⟩
  | 1 => ⟨2, -5, 1⟩
  | _ => ⟨0, 7, 0⟩

/-- the same in `double` -/
noncomputable def exI : ℕ → UReal (FP dblFmt)
  | 0 => ⟨1, dI 2 (by norm_num), dI 3 (by norm_num), []⟩
  | 1 => ⟨2, dI 1 (by norm_num), dI (-5) (by norm_num), []⟩
  | _ => ⟨0, 0, dI 7 (by norm_num), []⟩

theorem exI_holds : ∀ i, Holds (exI i) (exG i)
  | 0 => ⟨rfl, by decide, by decide, by simp [exI, exG, dI], by simp [exI, exG, dI], by decide, rfl⟩
  | 1 => ⟨rfl, by decide, by decide, by simp [exI, exG, dI], by simp [exI, exG, dI], by decide, rfl⟩
  | _ + 2 => ⟨rfl, by simp [exG], by simp [exG, maxId], by simp [exI, exG, dI], by simp [exI, exG], by simp [exG], rfl⟩

/-- `t = a * b - 7 * a; t *= t` -/
def exT : Calc := .un .square (.bin .sub (.bin .mul (.leaf 0) (.leaf 1)) (.bin .mul (.leaf 2) (.leaf 0)))

/-- `t = a; t -= b` -/
def exS : Calc := .bin .subTo (.leaf 0) (.leaf 1)

/-- (-15 - 21)² = 1296; the coefficients are 2 · (-36) · (-12) · 2 and 2 · (-36) · 3 · 1 -/
example : ∃ x, exT.run exI = some x ∧ x.n.val = 1296 ∧ (x.coef 1).val = 1728 ∧ (x.coef 2).val = -216 ∧ x.var.val = 3032640 := by
  obtain ⟨x, e, h1, h2, h3⟩ := C92_exact C92_formats.1.1 exI_holds (t := exT) (by simp [exT, Calc.noDiv, BinOp.divides])
  refine ⟨x, e, (h1 (by decide)).trans ?_, (h2 1 (by decide)).trans ?_, (h2 2 (by decide)).trans ?_, (h3 (by decide)).1.trans ?_⟩
  · rw [show Calc.mean exG exT = 1296 by decide]; norm_num
  · rw [show Calc.slope exG 1 exT = 1728 by decide]; norm_num
  · rw [show Calc.slope exG 2 exT = -216 by decide]; norm_num
  · rw [show covI exG exT exT = 3032640 by decide]; norm_num

/-- a calculation whose intermediate result is larger than the bound: in a format with the integers up to 8, `(a * b) -= (a * b)` has mean 0 -/
example (hf : Ints f 8) {env : ℕ → UReal (FP f)} (h : ∀ i, Holds (env i) (exG i)) :
    ∃ x, (Calc.un .cancel (.bin .mul (.leaf 0) (.leaf 1))).run env = some x ∧ x.n.val = 0 ∧ x.s.val = 0 := by
  obtain ⟨x, e, h1, -, h3⟩ := C92_exact hf h (t := .un .cancel (.bin .mul (.leaf 0) (.leaf 1))) (by simp [Calc.noDiv, BinOp.divides])
  have hc : covI exG (.un .cancel (.bin .mul (.leaf 0) (.leaf 1))) (.un .cancel (.bin .mul (.leaf 0) (.leaf 1))) = 0 := by decide
  refine ⟨x, e, (h1 (by decide)).trans (by simp [Calc.mean]), (h3 (by decide)).2.trans ?_⟩
  rw [hc]; simp [f.rd_zero]

example {x y : UReal (FP dblFmt)} (ex : exS.run exI = some x) (ey : exT.run exI = some y) : (cov x y).val = 3672 := by
  rw [C92_cov C92_formats.1.1 exI_holds (by simp [exS, Calc.noDiv, BinOp.divides]) (by simp [exT, Calc.noDiv, BinOp.divides]) (by decide) ex ey,
    show covI exG exS exT = 3672 by decide]
  norm_num

/-- the numbers of test/accumulate.cpp: the sum of a million variables 1 ± 1 is 1000000 ± 1000 -/
example : (accumulate (fun i : ℕ => (⟨i + 1, 1, 1, []⟩ : UReal (FP dblFmt))) 1000000).n.val = 1000000 ∧
    (accumulate (fun i : ℕ => (⟨i + 1, 1, 1, []⟩ : UReal (FP dblFmt))) 1000000).s.val = 1000 := by
  have h := C92_accumulate (C92_formats.1.1) (v := fun i : ℕ => (⟨i + 1, 1, 1, []⟩ : UReal (FP dblFmt))) (m := fun _ => 1) (s := fun _ => 1) 1000000
    (fun i hi => ⟨rfl, by show (0 : ℤ) ≤ i + 1; omega, by show (i : ℤ) + 1 < maxId; unfold maxId; omega, by simp, by simp,
      fun h0 => absurd h0 (by show ¬ (i : ℤ) + 1 = 0; omega), rfl⟩)
    (by simp) (by simp)
  refine ⟨h.1.trans (by simp), h.2.2.trans ?_⟩
  have e : Real.sqrt ((∑ i ∈ Finset.range 1000000, (((1 : ℕ) : ℤ)) * ((1 : ℕ) : ℤ) : ℤ) : ℝ) = ((1000 : ℤ) : ℝ) := by
    rw [Real.sqrt_eq_iff_mul_self_eq (by simp) (by simp)]
    simp; norm_num
  rw [e, C92_formats.1.1 1000 (by norm_num)]
  norm_num

/-- 2^53 + 1 -/
example {z : UReal (FP dblFmt)} (h : add (const (dI (2 ^ 53) (by norm_num))) (const 1) = some z) : z.n.val ≠ 2 ^ 53 + 1 := by
  have := C92_sharp C92_formats.1.1 C92_formats.1.2 (by simp [const, dI]) (by simp [const]) h
  intro e
  exact this (by rw [e]; norm_num)

end Unc.Props
