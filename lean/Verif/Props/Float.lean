import Verif.Lemmas.Float
import Mathlib.Tactic.NormNum

/-!
# C61: rounding errors of the uncertainty, the variance, the covariance and the correlation

The theorems are about the model functions run on the numbers of a floating point format, each operation of which is rounded with relative error at most `u`
(`u = 2 ^ -53` for `double`).  The exact quantities are those of the linear form which has the stored coefficients (`exactL`).
-/

namespace Unc.Props
open Unc.Spec UReal FP
variable {f : Fmt} {u : ℝ}

/-- the binary formats satisfy the hypothesis on the rounding -/
theorem acc_bits (p : ℕ) (hp : 1 ≤ p) : Acc (bits p hp).rd ((1 / 2) ^ p) where
  nonneg := by positivity
  lt := pow_lt_one₀ (by norm_num) (by norm_num) (by omega)
  err := bits_err p hp

/-- `double` -/
noncomputable abbrev binary64 : Fmt := bits 53 (by norm_num)

theorem acc_double : Acc binary64.rd ((1 / 2) ^ 53) := acc_bits 53 _

/-! ## nothing negative -/

/-- **C61**: in every format the variance and the uncertainty are never negative, and the number under the square root neither, whatever the rounding errors. -/
theorem C61_nonneg (x : UReal (FP f)) : 0 ≤ x.s2.val ∧ 0 ≤ x.var.val ∧ 0 ≤ x.s.val ∧ 0 ≤ x.sCache.1.val ∧ 0 ≤ x.varCache.1.val := by
  have h2 := s2_nonneg x
  refine ⟨h2, ?_, ?_, ?_, ?_⟩
  · unfold UReal.var
    split_ifs
    · exact f.rd_nonneg (mul_self_nonneg _)
    · exact h2
  · unfold UReal.s
    split_ifs with h1 h3
    · exact abs_nonneg _
    · exact (leb_fp _ _).1 h3
    · exact f.rd_nonneg (Real.sqrt_nonneg _)
  · unfold sCache
    split_ifs with h1 h3
    · exact abs_nonneg _
    · exact f.rd_nonneg (Real.sqrt_nonneg _)
    · simpa using h3
  · unfold varCache
    by_cases h1 : x.id ≥ 0
    · rw [if_pos h1]; exact f.rd_nonneg (mul_self_nonneg _)
    · rw [if_neg h1]; exact f.rd_nonneg (mul_self_nonneg _)

/-! ## covariance -/

/-- **C61**: the rounding error of the covariance: one rounding for each common variable, relative to the sum of the absolute values of the terms. -/
theorem C61_cov (hu : Acc f.rd u) {x y : UReal (FP f)} (hx : x.WF) (hy : y.WF) :
    |(cov x y).val - (exactL x).cov (exactL y)| ≤ ((1 + u) ^ (x.deps ∩ y.deps).card - 1) * absCov (exactL x) (exactL y) := by
  have h := dot_err hu (pairs x.repr' y.repr')
  rw [← cov_dot hx hy, pairs_length _ _ (repr_sorted hx), repr_keys, repr_keys, sumV_pairs hx hy, absV_pairs hx hy] at h
  exact h

/-- **C61**: without common variables the covariance is exactly zero. -/
theorem C61_cov_zero {x y : UReal (FP f)} (hx : x.WF) (hy : y.WF) (h : x.deps ∩ y.deps = ∅) : cov x y = 0 := by
  have e : (pairs x.repr' y.repr').length = 0 := by
    rw [pairs_length _ _ (repr_sorted hx), repr_keys, repr_keys, h]; rfl
  rw [cov_dot hx hy, List.length_eq_zero_iff.1 e]
  rfl

/-! ## variance and uncertainty -/

theorem var_elem {x : UReal (FP f)} (hx : x.WF) (h : 0 ≤ x.id) : (exactL x).var = x.sdev.val * x.sdev.val := by
  rcases h.eq_or_lt with h | h
  · have : x.deps = ∅ := by simp [deps, ← h]
    simp [exactL, LinForm.var, this, hx.zero_sdev h.symm]
  · have : x.deps = {x.id} := by simp [deps, h]
    simp [exactL, LinForm.var, this, coef, h]

/-- **C61**: relative error of the variance of a variable, or of a result the uncertainty of which was not computed yet. -/
theorem C61_var (hu : Acc f.rd u) {x : UReal (FP f)} (hx : x.WF) (h : 0 ≤ x.id ∨ x.sdev.val < 0) :
    (1 - u) ^ x.deps.card * (exactL x).var ≤ x.var.val ∧ x.var.val ≤ (1 + u) ^ x.deps.card * (exactL x).var := by
  by_cases h0 : 0 ≤ x.id
  · rw [var_elem hx h0]
    have e : x.var = x.sdev * x.sdev := by unfold UReal.var; rw [if_pos (Or.inl h0)]
    rw [e, val_mul]
    rcases h0.eq_or_lt with h1 | h1
    · rw [hx.zero_sdev h1.symm]; simp [f.rd_zero]
    · have : x.deps.card = 1 := by simp [deps, h1]
      rw [this, pow_one, pow_one]
      exact rd_bounds hu (mul_self_nonneg _)
  · have hs := h.resolve_left h0
    have e : x.var = x.s2 := by
      unfold UReal.var
      rw [if_neg]
      simp only [ge_iff_le, h0, false_or, leb_fp, val_zero]
      linarith
    rw [e]
    exact s2_bounds hu hx (by omega)

theorem s_uncached {x : UReal (FP f)} (h0 : x.id < 0) (h : x.sdev.val < 0) : x.s.val = f.rd (Real.sqrt x.s2.val) := by
  have e : x.s = CSqrt.sqrt x.s2 := by
    unfold UReal.s
    rw [if_neg (by omega), if_neg]
    simp only [leb_fp, val_zero]
    linarith
  rw [e, val_sqrt]

/-- square of a rounded square root -/
theorem sq_rd_sqrt (hu : Acc f.rd u) {a : ℝ} (ha : 0 ≤ a) :
    (1 - u) ^ 2 * a ≤ f.rd (Real.sqrt a) ^ 2 ∧ f.rd (Real.sqrt a) ^ 2 ≤ (1 + u) ^ 2 * a := by
  have u1 := hu.lt
  obtain ⟨h1, h2⟩ := rd_bounds hu (Real.sqrt_nonneg a)
  have h0 : 0 ≤ (1 - u) * Real.sqrt a := mul_nonneg (by linarith) (Real.sqrt_nonneg _)
  have hs := Real.sq_sqrt ha
  constructor
  · calc (1 - u) ^ 2 * a = ((1 - u) * Real.sqrt a) ^ 2 := by rw [mul_pow, hs]
      _ ≤ _ := pow_le_pow_left₀ h0 h1 2
  · calc f.rd (Real.sqrt a) ^ 2 ≤ ((1 + u) * Real.sqrt a) ^ 2 := pow_le_pow_left₀ (h0.trans h1) h2 2
      _ = _ := by rw [mul_pow, hs]

theorem varE_nonneg (a : LinForm ℝ) : 0 ≤ a.var := Finset.sum_nonneg (fun _ _ => mul_self_nonneg _)

/-- **C61**: relative error of the uncertainty, stated for the square. -/
theorem C61_s (hu : Acc f.rd u) {x : UReal (FP f)} (hx : x.WF) (h : 0 ≤ x.id ∨ x.sdev.val < 0) :
    (1 - u) ^ (x.deps.card + 2) * (exactL x).var ≤ x.s.val ^ 2 ∧ x.s.val ^ 2 ≤ (1 + u) ^ (x.deps.card + 2) * (exactL x).var := by
  have u0 := hu.nonneg
  have u1 := hu.lt
  have v0 := varE_nonneg (exactL x)
  by_cases h0 : 0 ≤ x.id
  · have e : x.s = CSqrt.abs x.sdev := by unfold UReal.s; rw [if_pos h0]
    rw [e, val_abs, sq_abs, sq, ← var_elem hx h0]
    constructor
    · exact mul_le_of_le_one_left v0 (pow_le_one₀ (by linarith) (by linarith))
    · exact le_mul_of_one_le_left v0 (one_le_pow₀ (by linarith))
  · have hid : x.id < 0 := by omega
    have hs := h.resolve_left h0
    rw [s_uncached hid hs]
    obtain ⟨a, b⟩ := sq_rd_sqrt hu (s2_nonneg x)
    obtain ⟨c, d⟩ := s2_bounds hu hx hid
    rw [pow_add, pow_add]
    constructor
    · refine le_trans ?_ a
      rw [mul_comm ((1 - u) ^ _) ((1 - u) ^ 2), mul_assoc]
      exact mul_le_mul_of_nonneg_left c (by positivity)
    · refine b.trans ?_
      rw [mul_comm ((1 + u) ^ _) ((1 + u) ^ 2), mul_assoc]
      exact mul_le_mul_of_nonneg_left d (by positivity)

/-- **C61**: `s()` stores what it returns, so the next calls give exactly the same number. -/
theorem C61_s_again (x : UReal (FP f)) : x.sCache.1 = x.s ∧ x.sCache.2.s = x.s ∧ x.sCache.2.sCache.1 = x.s := by
  have key : ∀ x : UReal (FP f), x.sCache.1 = x.s := by
    intro x
    unfold sCache UReal.s
    by_cases h : x.id ≥ 0
    · rw [if_pos h, if_pos h]
    · rw [if_neg h, if_neg h]
      by_cases h1 : x.sdev.val < 0
      · have a : CCmp.ltb x.sdev 0 = true := (ltb_fp _ _).2 h1
        have b : ¬ CCmp.leb 0 x.sdev = true := by rw [leb_fp]; exact not_le.2 h1
        simp only [a, if_true, if_neg b]
      · have a : ¬ CCmp.ltb x.sdev 0 = true := by rw [ltb_fp]; exact h1
        have b : CCmp.leb 0 x.sdev = true := (leb_fp _ _).2 (not_lt.1 h1)
        simp only [if_neg a, if_pos b]
  have key2 : x.sCache.2.s = x.s := by
    rw [← key x]
    unfold sCache
    by_cases h : x.id ≥ 0
    · simp only [if_pos h]
      unfold UReal.s
      rw [if_pos h]
    · simp only [if_neg h]
      have hn := (C61_nonneg x).2.2.2.1
      unfold sCache at hn
      simp only [if_neg h] at hn
      unfold UReal.s
      rw [if_neg (by split_ifs <;> exact h), if_pos ((leb_fp _ _).2 hn)]
  exact ⟨key x, key2, (key _).trans key2⟩

/-- **C61**: relative error of the variance after the uncertainty was computed: it is the rounded square of the stored uncertainty. -/
theorem C61_var_after (hu : Acc f.rd u) {x : UReal (FP f)} (hx : x.WF) (h : 0 ≤ x.id ∨ x.sdev.val < 0) :
    (1 - u) ^ (x.deps.card + 3) * (exactL x).var ≤ x.sCache.2.var.val ∧ x.sCache.2.var.val ≤ (1 + u) ^ (x.deps.card + 3) * (exactL x).var := by
  have u0 := hu.nonneg
  have u1 := hu.lt
  have e : x.sCache.2.var.val = f.rd (x.s.val * x.s.val) := by
    rw [← (C61_s_again x).1]
    have hn := (C61_nonneg x).2.2.2.1
    unfold sCache at hn ⊢
    by_cases h0 : x.id ≥ 0
    · simp only [if_pos h0]
      unfold UReal.var
      rw [if_pos (Or.inl h0), val_mul, val_abs, abs_mul_abs_self]
    · simp only [if_neg h0] at hn ⊢
      unfold UReal.var
      rw [if_pos (Or.inr ((leb_fp _ _).2 hn)), val_mul]
  obtain ⟨a, b⟩ := C61_s hu hx h
  obtain ⟨c, d⟩ := rd_bounds hu (mul_self_nonneg x.s.val)
  rw [e]
  constructor
  · refine le_trans ?_ c
    rw [show x.deps.card + 3 = (x.deps.card + 2) + 1 from rfl, pow_succ, mul_comm _ (1 - u), mul_assoc, ← sq]
    exact mul_le_mul_of_nonneg_left a (by linarith)
  · refine d.trans ?_
    rw [show x.deps.card + 3 = (x.deps.card + 2) + 1 from rfl, pow_succ, mul_comm _ (1 + u), mul_assoc, ← sq]
    exact mul_le_mul_of_nonneg_left b (by linarith)

/-! ## correlation -/

theorem absCov_le (a b : LinForm ℝ) (ha : a.Supported) (hb : b.Supported) : absCov a b ^ 2 ≤ a.var * b.var := by
  have h := Finset.sum_mul_sq_le_sq_mul_sq (a.deps ∪ b.deps) (fun i => |a.coef i|) (fun i => |b.coef i|)
  have e1 : ∑ i ∈ a.deps ∪ b.deps, |a.coef i| * |b.coef i| = absCov a b := Finset.sum_congr rfl (fun i _ => (abs_mul _ _).symm)
  have e2 : ∑ i ∈ a.deps ∪ b.deps, |a.coef i| ^ 2 = a.var := by
    rw [LinForm.var, Finset.sum_subset (s₁ := a.deps) (s₂ := a.deps ∪ b.deps) Finset.subset_union_left (fun i _ hi => by rw [ha i hi, mul_zero])]
    exact Finset.sum_congr rfl (fun i _ => by rw [sq_abs, sq])
  have e3 : ∑ i ∈ a.deps ∪ b.deps, |b.coef i| ^ 2 = b.var := by
    rw [LinForm.var, Finset.sum_subset (s₁ := b.deps) (s₂ := a.deps ∪ b.deps) Finset.subset_union_right (fun i _ hi => by rw [hb i hi, mul_zero])]
    exact Finset.sum_congr rfl (fun i _ => by rw [sq_abs, sq])
  rwa [e1, e2, e3] at h

theorem absCov_nonneg (a b : LinForm ℝ) : 0 ≤ absCov a b := Finset.sum_nonneg (fun _ _ => abs_nonneg _)

/-- **C61**: the correlation can exceed 1 only by the rounding errors: one for each common variable, half for each variable of the two values, and four more. -/
theorem C61_corr_partial (hu : Acc f.rd u) {x y : UReal (FP f)} (hx : x.WF) (hy : y.WF) (hx' : 0 ≤ x.id ∨ x.sdev.val < 0)
    (hy' : 0 ≤ y.id ∨ y.sdev.val < 0) (h0 : (x.s * y.s).val ≠ 0) :
    (1 - u) ^ (x.deps.card + y.deps.card + 6) * (corr x y).val ^ 2 ≤ (1 + u) ^ (2 * (x.deps ∩ y.deps).card + 2) := by
  have u0 := hu.nonneg
  have u1 := hu.lt
  set c := (x.deps ∩ y.deps).card with hc
  have A0 := absCov_nonneg (exactL x) (exactL y)
  have CS := absCov_le _ _ (supported_exactL x) (supported_exactL y)
  -- the covariance
  have hcov : |(cov x y).val| ≤ (1 + u) ^ c * absCov (exactL x) (exactL y) := by
    have h1 := C61_cov hu hx hy
    have h2 : |(exactL x).cov (exactL y)| ≤ absCov (exactL x) (exactL y) := Finset.abs_sum_le_sum_abs _ _
    have h3 := abs_add_le ((cov x y).val - (exactL x).cov (exactL y)) ((exactL x).cov (exactL y))
    rw [sub_add_cancel] at h3
    linarith
  obtain ⟨sx, -⟩ := C61_s hu hx hx'
  obtain ⟨sy, -⟩ := C61_s hu hy hy'
  have nx := (C61_nonneg x).2.2.1
  have ny := (C61_nonneg y).2.2.1
  obtain ⟨p1, -⟩ := rd_bounds hu (mul_nonneg nx ny)
  have vx := varE_nonneg (exactL x)
  have vy := varE_nonneg (exactL y)
  have e : (corr x y).val = f.rd ((cov x y).val / f.rd (x.s.val * y.s.val)) := rfl
  rw [e]
  set P := f.rd (x.s.val * y.s.val) with hP
  have P0 : 0 ≤ P := f.rd_nonneg (mul_nonneg nx ny)
  have hP0 : 0 < P := lt_of_le_of_ne P0 (Ne.symm h0)
  have hr := rd_le hu ((cov x y).val / P)
  have q0 := abs_nonneg (f.rd ((cov x y).val / P))
  have step1 : f.rd ((cov x y).val / P) ^ 2 * P ^ 2 ≤ ((1 + u) ^ (c + 1) * absCov (exactL x) (exactL y)) ^ 2 := by
    rw [← sq_abs (f.rd _), ← mul_pow]
    refine pow_le_pow_left₀ (by positivity) ?_ 2
    calc |f.rd ((cov x y).val / P)| * P ≤ (1 + u) * |(cov x y).val / P| * P := mul_le_mul_of_nonneg_right hr P0
      _ = (1 + u) * |(cov x y).val| := by rw [abs_div, abs_of_pos hP0]; field_simp
      _ ≤ (1 + u) * ((1 + u) ^ c * absCov (exactL x) (exactL y)) := mul_le_mul_of_nonneg_left hcov (by linarith)
      _ = _ := by rw [pow_succ]; ring
  have step2 : (1 - u) ^ (x.deps.card + y.deps.card + 6) * ((exactL x).var * (exactL y).var) ≤ P ^ 2 := by
    calc (1 - u) ^ (x.deps.card + y.deps.card + 6) * ((exactL x).var * (exactL y).var)
        = (1 - u) ^ 2 * (((1 - u) ^ (x.deps.card + 2) * (exactL x).var) * ((1 - u) ^ (y.deps.card + 2) * (exactL y).var)) := by
          rw [show x.deps.card + y.deps.card + 6 = 2 + (x.deps.card + 2) + (y.deps.card + 2) by ring, pow_add, pow_add]; ring
      _ ≤ (1 - u) ^ 2 * (x.s.val ^ 2 * y.s.val ^ 2) := by
          refine mul_le_mul_of_nonneg_left ?_ (by positivity)
          exact mul_le_mul sx sy (mul_nonneg (pow_nonneg (by linarith) _) vy) (by positivity)
      _ = ((1 - u) * (x.s.val * y.s.val)) ^ 2 := by ring
      _ ≤ P ^ 2 := pow_le_pow_left₀ (mul_nonneg (by linarith) (mul_nonneg nx ny)) p1 2
  set K := (1 - u) ^ (x.deps.card + y.deps.card + 6) with hK
  have K0 : 0 ≤ K := pow_nonneg (by linarith) _
  set q := f.rd ((cov x y).val / P) with hq
  -- multiply by P²
  refine le_of_mul_le_mul_right ?_ (pow_pos hP0 2)
  calc K * q ^ 2 * P ^ 2 = K * (q ^ 2 * P ^ 2) := by ring
    _ ≤ K * ((1 + u) ^ (c + 1) * absCov (exactL x) (exactL y)) ^ 2 := mul_le_mul_of_nonneg_left step1 K0
    _ = (1 + u) ^ (2 * c + 2) * (K * absCov (exactL x) (exactL y) ^ 2) := by
        rw [mul_pow, ← pow_mul, show (c + 1) * 2 = 2 * c + 2 by ring]; ring
    _ ≤ (1 + u) ^ (2 * c + 2) * (K * ((exactL x).var * (exactL y).var)) := by
        refine mul_le_mul_of_nonneg_left (mul_le_mul_of_nonneg_left CS K0) (by positivity)
    _ ≤ (1 + u) ^ (2 * c + 2) * P ^ 2 := mul_le_mul_of_nonneg_left step2 (by positivity)

/-! ## the operations -/

/-- **C61**: `unary` rounds each coefficient once. -/
theorem C61_unary (hu : Acc f.rd u) (x : UReal (FP f)) (mu dx : FP f) (i : ℤ) :
    |((unary x mu dx).coef i).val - dx.val * (x.coef i).val| ≤ u * |dx.val * (x.coef i).val| := by
  have key : ∀ a : FP f, |(a * dx).val - dx.val * a.val| ≤ u * |dx.val * a.val| := by
    intro a
    have := hu.err (dx.val * a.val)
    rwa [val_mul, mul_comm a.val]
  have z : ((0 : FP f) * dx) = 0 := FP.ext (by rw [val_mul, val_zero, zero_mul, f.rd_zero])
  unfold unary
  rcases lt_trichotomy x.id 0 with h | h | h
  · have e : SMap.get (x.sigma.mapVal (fun v => v * dx)) i = SMap.get x.sigma i * dx := SMap.get_mapVal z
    simp only [coef, not_lt.2 h.le, h, if_false, if_true, e]
    exact key _
  · simp [coef, h]
  · simp only [coef, h, if_true]
    split_ifs
    · exact key _
    · simp

/-- **C61**: `binary` rounds each coefficient at most twice. -/
theorem C61_binary (hu : Acc f.rd u) {x y : UReal (FP f)} (hx : x.WF) (hy : y.WF) (bx : x.Below maxId) (by' : y.Below maxId) (mu dx dy : FP f) :
    ∃ z, binary x y mu dx dy = some z ∧ z.mu = mu ∧ z.deps = x.deps ∪ y.deps ∧
      ∀ i, |(z.coef i).val - (dx.val * (x.coef i).val + dy.val * (y.coef i).val)| ≤
        ((1 + u) ^ 2 - 1) * (|dx.val * (x.coef i).val| + |dy.val * (y.coef i).val|) := by
  have u0 := hu.nonneg
  obtain ⟨z, hz, -, hd, hm, -, -, hc⟩ := binary_spec hx hy bx by' mu dx dy
  refine ⟨z, hz, hm, hd, fun i => ?_⟩
  rw [hc i, coef_eq_lookup, coef_eq_lookup]
  have one : ∀ a : ℝ, |f.rd a - a| ≤ ((1 + u) ^ 2 - 1) * |a| := by
    intro a
    have := hu.err a
    have h := abs_nonneg a
    have h2 : u * |a| ≤ ((1 + u) ^ 2 - 1) * |a| := mul_le_mul_of_nonneg_right (by nlinarith) h
    linarith
  cases x.lookup i with
  | none =>
    cases y.lookup i with
    | none => simp
    | some b =>
      have e : (0 + dy * b).val = f.rd (dy.val * b.val) := by rw [val_add, val_mul, val_zero, zero_add, f.idem]
      simp only [Option.getD_none, Option.getD_some, val_zero, mul_zero, zero_add, abs_zero, e]
      exact one _
  | some a =>
    cases y.lookup i with
    | none =>
      simp only [Option.getD_none, Option.getD_some, val_zero, mul_zero, add_zero, abs_zero, val_mul]
      exact one _
    | some b =>
      have h := dot_err hu [(dx, a), (dy, b)]
      have e : (dot [(dx, a), (dy, b)] (0 : FP f)).val = (dx * a + dy * b).val := by
        simp only [dot, List.foldl_cons, List.foldl_nil]
        rw [val_add, val_add, val_mul, val_mul, val_add, val_mul, val_mul, val_zero, zero_add, f.idem]
      rw [e] at h
      simpa [sumV, absV] using h

/-! ## what is lost -/

/-- value of a rounding to `p` binary digits -/
theorem bits_val {p : ℕ} (hp : 1 ≤ p) {x : ℝ} (e : ℤ) (N : ℤ) (h1 : (2 : ℝ) ^ e ≤ x) (h2 : x < 2 ^ (e + 1))
    (h3 : (N - 1 / 2) * 2 ^ (e - p + 1) ≤ x) (h4 : x < (N + 1 / 2) * 2 ^ (e - p + 1)) : (bits p hp).rd x = N * 2 ^ (e - p + 1) := by
  have hx : 0 < x := lt_of_lt_of_le (two_zpow_pos _) h1
  change bitsRd p x = _
  have hq := two_zpow_pos (e - p + 1)
  have : ⌊x / 2 ^ (e - p + 1) + 1 / 2⌋ = N := by
    rw [Int.floor_eq_iff]
    rw [← le_div_iff₀ hq] at h3
    rw [← div_lt_iff₀ hq] at h4
    constructor <;> linarith
  rw [bitsRd, if_pos hx, bitsPos_eq h1 h2, this]

/-- the sum of three variables with uncertainty 1 -/
noncomputable def exThree (f : Fmt) : UReal (FP f) := ⟨-1, -1, 0, [(1, 1), (2, 1), (3, 1)]⟩

theorem fp_mul_one (a : FP f) : a * 1 = a := FP.ext (by rw [val_mul, val_one, mul_one, a.rep])
theorem fp_one_mul (a : FP f) : 1 * a = a := FP.ext (by rw [val_mul, val_one, one_mul, a.rep])
theorem fp_zero_add (a : FP f) : 0 + a = a := FP.ext (by rw [val_add, val_zero, zero_add, a.rep])
theorem fp_add_zero (a : FP f) : a + 0 = a := FP.ext (by rw [val_add, val_zero, add_zero, a.rep])

/-- it is what a program gets -/
theorem exThree_run (f : Fmt) : ((add (⟨1, 1, 0, []⟩ : UReal (FP f)) ⟨2, 1, 0, []⟩).bind (fun w => add w ⟨3, 1, 0, []⟩)) = some (exThree f) := by
  simp [add, binary, SMap.upsert, fp_one_mul, fp_zero_add, invalidId, exThree]

theorem exThree_wf (f : Fmt) : (exThree f).WF :=
  ⟨by simp [exThree], by simp [exThree], by simp [exThree, SMap.sorted_cons], by simp [exThree]⟩

theorem two_double : binary64.rd 2 = 2 := by
  rw [bits_val _ 1 (2 ^ 52) (by norm_num) (by norm_num) (by norm_num) (by norm_num)]; norm_num

theorem three_double : binary64.rd 3 = 3 := by
  rw [bits_val _ 1 (3 * 2 ^ 51) (by norm_num) (by norm_num) (by norm_num) (by norm_num)]; norm_num

theorem exThree_s2 : (exThree binary64).s2.val = 3 := by
  have e : (exThree binary64).s2 = 1 + 1 + 1 := by simp [s2, exThree, fp_mul_one, fp_zero_add]
  rw [e, val_add, val_add, val_one, show (1 : ℝ) + 1 = 2 by norm_num, two_double, show (2 : ℝ) + 1 = 3 by norm_num, three_double]

theorem exThree_s : (exThree binary64).s.val = 7800463371553962 / 2 ^ 52 := by
  rw [s_uncached (by simp [exThree]) (by simp [exThree]), exThree_s2]
  have a : (7800463371553962 - 1 / 2) / 2 ^ 52 ≤ Real.sqrt 3 := Real.le_sqrt_of_sq_le (by norm_num)
  have b : Real.sqrt 3 < (7800463371553962 + 1 / 2) / 2 ^ 52 := by
    rw [Real.sqrt_lt' (by norm_num)]; norm_num
  rw [bits_val _ 0 7800463371553962 (by norm_num at a ⊢ <;> linarith) (by norm_num at b ⊢ <;> linarith) (by norm_num at a ⊢ <;> linarith) (by norm_num at b ⊢ <;> linarith)]
  norm_num

theorem exThree_prod : ((exThree binary64).s * (exThree binary64).s).val = 6755399441055743 / 2 ^ 51 := by
  rw [val_mul, exThree_s, bits_val _ 1 6755399441055743 (by norm_num) (by norm_num) (by norm_num) (by norm_num)]
  norm_num

/-- **C61**, what fails: in `double` the correlation of a value with itself can exceed 1: the sum of three variables with uncertainty 1. -/
theorem C61_corr_false : 1 < (corr (exThree binary64) (exThree binary64)).val := by
  have e : cov (exThree binary64) (exThree binary64) = (exThree binary64).s2 := by
    rw [cov_dot (exThree_wf _) (exThree_wf _), s2_dot (exThree_wf _)]
    simp [repr', exThree]
  rw [corr, val_div, e, exThree_s2, exThree_prod,
    bits_val _ 0 (2 ^ 52 + 1) (by norm_num) (by norm_num) (by norm_num) (by norm_num)]
  norm_num

/-- **C61**, what fails: asking for the uncertainty changes the variance: 3 before, 3 - 2⁻⁵¹ after. -/
theorem C61_cache_false : (exThree binary64).var.val = 3 ∧ (exThree binary64).sCache.2.var.val = 3 - 1 / 2 ^ 51 := by
  constructor
  · have e : (exThree binary64).var = (exThree binary64).s2 := by
      unfold UReal.var
      rw [if_neg]
      simp [exThree]
    rw [e, exThree_s2]
  · have e : (exThree binary64).sCache.2.var = (exThree binary64).s * (exThree binary64).s := by
      have h1 : (exThree binary64).sCache.2 = ⟨-1, (exThree binary64).s, 0, [(1, 1), (2, 1), (3, 1)]⟩ := by
        rw [← (C61_s_again _).1]
        unfold sCache
        simp [exThree]
      rw [h1, UReal.var, if_pos]
      exact Or.inr ((leb_fp _ _).2 (C61_nonneg _).2.2.1)
    rw [e, exThree_prod]
    norm_num

/-! ## examples -/

example : (1 - (1 / 2 : ℝ) ^ 53) ^ 12 * (corr (exThree binary64) (exThree binary64)).val ^ 2 ≤ (1 + (1 / 2) ^ 53) ^ 8 := by
  have hd : (exThree binary64).deps = {1, 2, 3} := by simp [deps, exThree]
  have   := C61_corr_partial acc_double (exThree_wf _) (exThree_wf _) (Or.inr (by simp [exThree])) (Or.inr (by simp [exThree])) (by rw [exThree_prod]; norm_num)
  rw [hd] at this
  simpa using this

example : |(cov (exThree binary64) (exThree binary64)).val - 3| ≤ ((1 + (1 / 2) ^ 53) ^ 3 - 1) * 3 := by
  have hd : (exThree binary64).deps = {1, 2, 3} := by simp [deps, exThree]
  have := C61_cov acc_double (exThree_wf _) (exThree_wf _)
  simp only [LinForm.cov, absCov, exactL, hd, Finset.union_idempotent, Finset.inter_self] at this
  simp [coef, exThree, SMap.get, SMap.find?] at this
  norm_num at this ⊢
  exact this

example : (1 - (1 / 2 : ℝ) ^ 53) ^ 5 * (exactL (exThree binary64)).var ≤ (exThree binary64).s.val ^ 2 := by
  have hd : (exThree binary64).deps = {1, 2, 3} := by simp [deps, exThree]
  have := (C61_s acc_double (exThree_wf _) (Or.inr (by simp [exThree]))).1
  rw [hd] at this
  simpa using this

example : (cov (exThree binary64) ⟨4, 1, 1, []⟩) = 0 :=
  C61_cov_zero (exThree_wf _) ⟨by simp, fun _ => rfl, by simp, by simp⟩ (by simp [deps, exThree])

example : (1 - (1 / 2 : ℝ) ^ 53) ^ 3 * (exactL (exThree binary64)).var ≤ (exThree binary64).var.val := by
  have hd : (exThree binary64).deps = {1, 2, 3} := by simp [deps, exThree]
  have := (C61_var acc_double (exThree_wf _) (Or.inr (by simp [exThree]))).1
  rw [hd] at this
  simpa using this

example : (1 - (1 / 2 : ℝ) ^ 53) ^ 6 * (exactL (exThree binary64)).var ≤ (exThree binary64).sCache.2.var.val := by
  have hd : (exThree binary64).deps = {1, 2, 3} := by simp [deps, exThree]
  have := (C61_var_after acc_double (exThree_wf _) (Or.inr (by simp [exThree]))).1
  rw [hd] at this
  simpa using this

example : |((unary (exThree binary64) 0 (FP.round _ (1 / 3))).coef 2).val - (FP.round binary64 (1 / 3)).val * ((exThree binary64).coef 2).val| ≤
    (1 / 2) ^ 53 * |(FP.round binary64 (1 / 3)).val * ((exThree binary64).coef 2).val| :=
  C61_unary acc_double _ 0 _ 2

example : ∃ z, binary (exThree binary64) (⟨2, 1, 0, []⟩ : UReal (FP binary64)) 0 (FP.round _ (1 / 3)) (FP.round _ (1 / 7)) = some z ∧ z.deps = {1, 2, 3} := by
  obtain ⟨z, e, -, h, -⟩ := C61_binary (y := (⟨2, 1, 0, []⟩ : UReal (FP binary64))) acc_double (exThree_wf _) ⟨by simp, fun _ => rfl, by simp, by simp⟩
    (by intro i hi; simp [deps, exThree] at hi; rcases hi with h | h | h <;> subst h <;> decide)
    (by intro i hi; simp [deps] at hi; subst hi; decide) 0 (FP.round _ (1 / 3)) (FP.round _ (1 / 7))
  refine ⟨z, e, h.trans ?_⟩
  simp [deps, exThree]
  decide

example : (exThree binary64).sCache.2.sCache.1 = (exThree binary64).s := (C61_s_again _).2.2

example : 0 ≤ (exThree binary64).s.val := (C61_nonneg _).2.2.1

end Unc.Props
