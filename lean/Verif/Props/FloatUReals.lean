import Verif.Lemmas.FloatUReals
import Mathlib.Tactic.Positivity
import Mathlib.Tactic.FinCases

/-!
# C85: `ureals` in floating point

The model of `ureals` run on the numbers of a floating point format, each operation of which is rounded.  The decomposition is an argument; the real matrix which it
stands for is `prodLdlt (realLdlt r)`.
-/

namespace Unc.Props
open Unc Unc.Spec UReal UReals FP FloatUReals
variable {f : Fmt} {u : ℝ}

/-- **C85**: in every format, `ureals` throws exactly as in exact arithmetic: `std::invalid_argument` iff the sizes do not match, `std::runtime_error` iff they do and
the decomposition of a matrix which is not empty fails or is not positive. -/
theorem C85_throws_iff (last n : ℕ) (mu : Fin n → FP f) (sz : ℕ) (cv : ℕ → FP f) (junk : Fin n → Fin n → FP f) (eigen : (Fin n → Fin n → FP f) → Ldlt n (FP f))
    (heig : LdltShape (eigen (fillV cv junk))) :
    (ureals last n mu sz cv junk eigen = .error .invalidArgument ↔ sz ≠ n * n) ∧
    (ureals last n mu sz cv junk eigen = .error .runtimeError ↔ sz = n * n ∧ n ≠ 0 ∧
      ((eigen (fillV cv junk)).success = false ∨ (eigen (fillV cv junk)).isPositive = false)) := by
  unfold ureals
  have hb := badSizes_iff n sz
  by_cases h1 : sz = n * n
  · have hb' : badSizes n sz = false := by rw [← Bool.not_eq_true, hb]; simp [h1]
    subst h1
    simp only [hb', Bool.false_eq_true, if_false, ne_eq, not_true_eq_false, iff_false, true_and]
    by_cases hn : n = 0
    · simp [hn]
    · simp only [hn, if_false, not_false_eq_true, true_and]
      set r := eigen (fillV cv junk) with hr
      by_cases hs : r.success = false
      · simp [hs]
      · by_cases hp : r.isPositive = false
        · simp [hs, hp]
        · have hD := heig.diag_nonneg (by simpa using hs) (by simpa using hp)
          simp only [hs, hp, if_false, or_self, iff_false]
          have hx : mkX (last : ℤ) r.D = some (.ok fun i => ⟨nextId^[i.1 + 1] (last : ℤ), CSqrt.sqrt (r.D i), 0, []⟩) := by
            unfold mkX
            rw [if_pos (fun i => (leb_fp _ _).2 (hD i)), if_pos]
            intro i
            rw [← Bool.not_eq_true, ltb_fp, val_sqrt]
            exact not_lt.2 (f.rd_nonneg (Real.sqrt_nonneg _))
          rw [hx]
          simp only [Bool.not_eq_false] at hs hp
          simp only [hs, hp, reduceCtorEq, if_false]
          constructor <;> (split_ifs <;> simp)
  · have hb' : badSizes n sz = true := hb.2 h1
    simp [hb', h1]

/-- **C85**: in every format, when the decomposition succeeds `ureals` returns (no undefined behaviour, no failed assert), the means are exactly the ones asked for, and
the coefficients are the products of the numbers of the decomposition, each rounded once after the rounded square root. -/
theorem C85_returns (last n : ℕ) (hl : last + n < 2147483647) (mu : Fin n → FP f) (sz : ℕ) (cv : ℕ → FP f) (junk : Fin n → Fin n → FP f)
    (eigen : (Fin n → Fin n → FP f) → Ldlt n (FP f)) {r : Ldlt n (FP f)} (hr : eigen (fillV cv junk) = r) (heig : LdltShape r) (hsz : sz = n * n)
    (hs : r.success = true) (hp : r.isPositive = true) :
    ∃ (out : Fin n → UReal (FP f)) (d : Fin n → ℤ), ureals last n mu sz cv junk eigen = .ok (some out) ∧ Function.Injective d ∧
      ∀ i, (out i).WF ∧ (out i).n = mu i ∧ (out i).id < 0 ∧ (out i).sdev = -1 ∧ (out i).deps ⊆ Finset.univ.image d ∧
        ∀ k, ((out i).coef (d k)).val = f.rd ((r.L ((permOf r.perm)⁻¹ i) k).val * f.rd (Real.sqrt (r.D k).val)) := by
  have hb' : badSizes n sz = false := by rw [← Bool.not_eq_true, badSizes_iff]; simp [hsz]
  by_cases hn : n = 0
  · subst hn
    refine ⟨fun _ => UReal.default', fun i => i.elim0, ?_, fun i => i.elim0, fun i => i.elim0⟩
    unfold ureals
    simp [hb']
  obtain ⟨cD, cU, cL⟩ := heig
  obtain ⟨x, d, hx, hd, fx, dx, cx⟩ := mkX_float last n hl r.D (cD hs hp)
  have spec := mkOut_float r.L x fx hd dx cU cL
  choose y hy oky dy cy using spec
  have hsome : ∀ i, (mkOut r.L x i).isSome := fun i => by rw [hy]; rfl
  have hout : (fun i => (mkOut r.L x i).get (hsome i)) = y := by
    funext i; simp [hy]
  have hperm : permute r.perm y = y ∘ ⇑((permOf r.perm)⁻¹) := permute_eq _ _
  refine ⟨fun i => addAssign (y ((permOf r.perm)⁻¹ i)) (UReal.const (mu i)), d, ?_, hd, fun i => ?_⟩
  · unfold ureals
    simp only [hb', Bool.false_eq_true, if_false, hn, hr, hs, hp, reduceCtorEq, hx, hsome, implies_true, dite_true, hout, hperm]
    rfl
  · set a := (permOf r.perm)⁻¹ i with ha
    have wy := (oky a).wf
    refine ⟨wf_binaryAssign wy (wf_const _) _ _ _, ?_, by simp [addAssign, binaryAssign, invalidId], rfl, ?_, fun k => ?_⟩
    · change (y a).mu + mu i = mu i
      rw [(oky a).mu, fp_zero_add]
    · have e : (addAssign (y a) (UReal.const (mu i))).deps = (y a).deps ∪ (UReal.const (mu i)).deps := deps_binaryAssign wy _ _ _
      change (addAssign (y a) (UReal.const (mu i))).deps ⊆ _
      rw [e]
      simpa [deps, UReal.const] using dy a
    · have c0 : (UReal.const (mu i)).coef (d k) = 0 := by simp [coef, UReal.const]
      have e : (addAssign (y a) (UReal.const (mu i))).coef (d k) = 1 * (y a).coef (d k) + 1 * (UReal.const (mu i)).coef (d k) :=
        binaryAssign_coef wy (wf_const _) _ _ _ _
      change ((addAssign (y a) (UReal.const (mu i))).coef (d k)).val = _
      rw [e, c0, fp_mul_comm 1 0, fp_zero_mul, fp_add_zero, fp_one_mul, cy, cx, val_mul, val_sqrt]

/-! ## the error of the coefficients -/

theorem coef_err (hu : Acc f.rd u) (l : ℝ) {D : ℝ} :
    |f.rd (l * f.rd (Real.sqrt D)) - l * Real.sqrt D| ≤ ((1 + u) ^ 2 - 1) * |l * Real.sqrt D| := by
  have u0 := hu.nonneg
  have s0 := Real.sqrt_nonneg D
  have h1 := hu.err (l * f.rd (Real.sqrt D))
  have h2 := hu.err (Real.sqrt D)
  have h3 := rd_le hu (Real.sqrt D)
  rw [abs_of_nonneg s0] at h2 h3
  have l0 := abs_nonneg l
  have e : f.rd (l * f.rd (Real.sqrt D)) - l * Real.sqrt D = (f.rd (l * f.rd (Real.sqrt D)) - l * f.rd (Real.sqrt D)) + l * (f.rd (Real.sqrt D) - Real.sqrt D) := by ring
  rw [e, abs_mul, abs_of_nonneg s0]
  refine (abs_add_le _ _).trans ?_
  rw [abs_mul] at h1 ⊢
  have h4 : u * (|l| * |f.rd (Real.sqrt D)|) ≤ u * (|l| * ((1 + u) * Real.sqrt D)) := by gcongr
  have h5 : |l| * |f.rd (Real.sqrt D) - Real.sqrt D| ≤ |l| * (u * Real.sqrt D) := by gcongr
  nlinarith

theorem prod_err {c c' a a' v : ℝ} (v0 : 0 ≤ v) (h : |c - a| ≤ ((1 + v) - 1) * |a|) (h' : |c' - a'| ≤ ((1 + v) - 1) * |a'|) :
    |c * c' - a * a'| ≤ ((1 + v) ^ 2 - 1) * |a * a'| := by
  have hc : |c'| ≤ (1 + v) * |a'| := by
    have := abs_add_le (c' - a') a'
    rw [sub_add_cancel] at this
    linarith
  have e : c * c' - a * a' = (c - a) * c' + a * (c' - a') := by ring
  rw [e, abs_mul a]
  refine (abs_add_le _ _).trans ?_
  rw [abs_mul, abs_mul]
  have h1 : |c - a| * |c'| ≤ (((1 + v) - 1) * |a|) * ((1 + v) * |a'|) :=
    mul_le_mul h hc (abs_nonneg _) ((abs_nonneg _).trans h)
  have h2 : |a| * |c' - a'| ≤ |a| * (((1 + v) - 1) * |a'|) := by gcongr
  nlinarith

/-- the sum of the absolute values of the terms of an element of the product -/
theorem absTerms_le {n : ℕ} (r : Ldlt n ℝ) (hD : ∀ k, 0 ≤ r.D k) (i j : Fin n) :
    ∑ k, |r.L ((permOf r.perm)⁻¹ i) k * Real.sqrt (r.D k) * (r.L ((permOf r.perm)⁻¹ j) k * Real.sqrt (r.D k))| ≤
      Real.sqrt (prodLdlt r i i) * Real.sqrt (prodLdlt r j j) := by
  set a : Fin n → ℝ := fun k => r.L ((permOf r.perm)⁻¹ i) k * Real.sqrt (r.D k) with ha
  set b : Fin n → ℝ := fun k => r.L ((permOf r.perm)⁻¹ j) k * Real.sqrt (r.D k) with hb
  have e : ∀ i, prodLdlt r i i = ∑ k, |r.L ((permOf r.perm)⁻¹ i) k * Real.sqrt (r.D k)| ^ 2 := by
    intro i
    refine Finset.sum_congr rfl (fun k _ => ?_)
    rw [sq_abs, mul_pow, Real.sq_sqrt (hD k)]
    ring
  have h := Finset.sum_mul_sq_le_sq_mul_sq Finset.univ (fun k => |a k|) (fun k => |b k|)
  rw [e i, e j, ← Real.sqrt_mul (Finset.sum_nonneg fun _ _ => by positivity)]
  refine Real.le_sqrt_of_sq_le ?_
  rw [Finset.sum_congr rfl (fun k _ => abs_mul (a k) (b k))]
  exact h

/-- **C85**: in a format with relative rounding error `u`, the covariance of two elements of the result of `ureals` for `n` variables differs from the element of the
matrix which the decomposition stands for by at most `n + 4` roundings, relative to the product of the two standard deviations; and the square of the uncertainty
of each element is its variance up to `n + 6` roundings. -/
theorem C85_cov (hu : Acc f.rd u) (last n : ℕ) (hl : last + n < 2147483647) (mu : Fin n → FP f) (sz : ℕ) (cv : ℕ → FP f) (junk : Fin n → Fin n → FP f)
    (eigen : (Fin n → Fin n → FP f) → Ldlt n (FP f)) {r : Ldlt n (FP f)} (hr : eigen (fillV cv junk) = r) (heig : LdltShape r) {out : Fin n → UReal (FP f)}
    (ho : ureals last n mu sz cv junk eigen = .ok (some out)) (i j : Fin n) :
    |(cov (out i) (out j)).val - prodLdlt (realLdlt r) i j| ≤
        ((1 + u) ^ (n + 4) - 1) * (Real.sqrt (prodLdlt (realLdlt r) i i) * Real.sqrt (prodLdlt (realLdlt r) j j)) ∧
      (1 - u) ^ (n + 6) * prodLdlt (realLdlt r) i i ≤ (out i).s.val ^ 2 ∧ (out i).s.val ^ 2 ≤ (1 + u) ^ (n + 6) * prodLdlt (realLdlt r) i i := by
  have u0 := hu.nonneg
  have u1 := hu.lt
  have hth := C85_throws_iff last n mu sz cv junk eigen (hr ▸ heig)
  have hsz : sz = n * n := by
    by_contra h; rw [hth.1.2 h] at ho; cases ho
  have hn : n ≠ 0 := by rintro rfl; exact i.elim0
  have hs : r.success = true := by
    by_contra h
    rw [hth.2.2 ⟨hsz, hn, Or.inl (by rw [hr]; simpa using h)⟩] at ho; cases ho
  have hp : r.isPositive = true := by
    by_contra h
    rw [hth.2.2 ⟨hsz, hn, Or.inr (by rw [hr]; simpa using h)⟩] at ho; cases ho
  obtain ⟨out', d, ho', hd, H⟩ := C85_returns last n hl mu sz cv junk eigen hr heig hsz hs hp
  rw [ho] at ho'
  cases Option.some.inj (Except.ok.inj ho')
  have hD := heig.diag_nonneg hs hp
  set R := realLdlt r with hR
  set S := Finset.univ.image d with hS
  have hcard : S.card ≤ n := by
    have := Finset.card_image_le (s := Finset.univ) (f := d)
    simpa using this
  let a : Fin n → Fin n → ℝ := fun i k => R.L ((permOf R.perm)⁻¹ i) k * Real.sqrt (R.D k)
  let c : Fin n → Fin n → ℝ := fun i k => ((out i).coef (d k)).val
  have hc : ∀ i k, |c i k - a i k| ≤ ((1 + ((1 + u) ^ 2 - 1)) - 1) * |a i k| := by
    intro i k
    rw [show (1 + ((1 + u) ^ 2 - 1)) - 1 = (1 + u) ^ 2 - 1 by ring]
    simp only [c, (H i).2.2.2.2.2 k]
    exact coef_err hu _
  have v0 : 0 ≤ (1 + u) ^ 2 - 1 := by nlinarith
  have hprod : ∀ i j k, |c i k * c j k - a i k * a j k| ≤ ((1 + u) ^ 4 - 1) * |a i k * a j k| := by
    intro i j k
    have := prod_err v0 (hc i k) (hc j k)
    rwa [show (1 + ((1 + u) ^ 2 - 1)) ^ 2 = (1 + u) ^ 4 by ring] at this
  have sumS : ∀ g : ℤ → ℝ, ∑ q ∈ S, g q = ∑ k, g (d k) := by
    intro g
    rw [hS, Finset.sum_image (fun a _ b _ h => hd h)]
  have zero : ∀ i q, q ∉ (out i).deps → ((out i).coef q).val = 0 := fun i => supported_exactL (out i)
  have eprod : ∀ i j, prodLdlt R i j = ∑ k, a i k * a j k := by
    intro i j
    refine Finset.sum_congr rfl (fun k _ => ?_)
    have := Real.mul_self_sqrt (hD k)
    change _ = (_ * Real.sqrt (r.D k).val) * (_ * Real.sqrt (r.D k).val)
    rw [mul_mul_mul_comm, this]
    change _ * (r.D k).val * _ = _
    ring
  have ecov : (exactL (out i)).cov (exactL (out j)) = ∑ k, c i k * c j k := by
    rw [LinForm.cov_eq_sum (supported_exactL _) S (H i).2.2.2.2.1, sumS]
    rfl
  have evar : ∀ i, (exactL (out i)).var = ∑ k, c i k * c i k := by
    intro i
    rw [← LinForm.cov_self, LinForm.cov_eq_sum (supported_exactL _) S (H i).2.2.2.2.1, sumS]
    rfl
  have eabs : absCov (exactL (out i)) (exactL (out j)) = ∑ k, |c i k * c j k| := by
    rw [absCov, Finset.sum_subset (s₁ := (exactL (out i)).deps ∪ (exactL (out j)).deps) (s₂ := S)
      (Finset.union_subset (H i).2.2.2.2.1 (H j).2.2.2.2.1) (fun q _ hq => ?_), sumS]
    · rfl
    · have : ((out i).coef q).val = 0 := zero i q (fun h => hq (Finset.mem_union_left _ h))
      change |((out i).coef q).val * _| = 0
      rw [this, zero_mul, abs_zero]
  constructor
  · set T := ∑ k, |a i k * a j k| with hT
    have T0 : 0 ≤ T := Finset.sum_nonneg fun _ _ => abs_nonneg _
    have hTle : T ≤ Real.sqrt (prodLdlt R i i) * Real.sqrt (prodLdlt R j j) := absTerms_le R hD i j
    have h1 := C61_cov hu (H i).1 (H j).1
    rw [ecov, eabs] at h1
    have h2 : |∑ k, c i k * c j k - ∑ k, a i k * a j k| ≤ ((1 + u) ^ 4 - 1) * T := by
      rw [← Finset.sum_sub_distrib, hT, Finset.mul_sum]
      exact (Finset.abs_sum_le_sum_abs _ _).trans (Finset.sum_le_sum fun k _ => hprod i j k)
    have h3 : ∑ k, |c i k * c j k| ≤ (1 + u) ^ 4 * T := by
      rw [hT, Finset.mul_sum]
      refine Finset.sum_le_sum fun k _ => ?_
      have := abs_add_le (c i k * c j k - a i k * a j k) (a i k * a j k)
      rw [sub_add_cancel] at this
      have := hprod i j k
      linarith
    have hcard' : ((out i).deps ∩ (out j).deps).card ≤ n :=
      (Finset.card_le_card (Finset.inter_subset_left.trans (H i).2.2.2.2.1)).trans hcard
    have h4 : (1 + u) ^ ((out i).deps ∩ (out j).deps).card ≤ (1 + u) ^ n := pow_le_pow_right₀ (by linarith) hcard'
    have one : (1 : ℝ) ≤ (1 + u) ^ n := one_le_pow₀ (by linarith)
    have h5 : ((1 + u) ^ ((out i).deps ∩ (out j).deps).card - 1) * ∑ k, |c i k * c j k| ≤ ((1 + u) ^ n - 1) * ((1 + u) ^ 4 * T) :=
      mul_le_mul (by linarith) h3 (Finset.sum_nonneg fun _ _ => abs_nonneg _) (by linarith)
    have h6 : |(cov (out i) (out j)).val - prodLdlt R i j| ≤ ((1 + u) ^ (n + 4) - 1) * T := by
      rw [eprod]
      have h7 := abs_sub_le (cov (out i) (out j)).val (∑ k, c i k * c j k) (∑ k, a i k * a j k)
      refine h7.trans ((add_le_add (h1.trans h5) h2).trans (le_of_eq ?_))
      rw [pow_add]; ring
    refine h6.trans (mul_le_mul_of_nonneg_left hTle ?_)
    have : (1 : ℝ) ≤ (1 + u) ^ (n + 4) := one_le_pow₀ (by linarith)
    linarith
  · have hs2 := C61_s hu (H i).1 (Or.inr (by rw [(H i).2.2.2.1]; simp))
    rw [evar] at hs2
    have hcardi : (out i).deps.card ≤ n := (Finset.card_le_card (H i).2.2.2.2.1).trans hcard
    have lo : ∀ k, (1 - u) ^ 4 * (a i k * a i k) ≤ c i k * c i k := by
      intro k
      have g1 : ∀ x, (1 - u) * |x| ≤ |f.rd x| := by
        intro x
        have := hu.err x
        have h := abs_sub_abs_le_abs_sub x (f.rd x)
        rw [abs_sub_comm] at h
        linarith
      have g2 : (1 - u) ^ 2 * |a i k| ≤ |c i k| := by
        simp only [c, (H i).2.2.2.2.2 k]
        refine le_trans ?_ (g1 _)
        have := g1 (Real.sqrt (r.D k).val)
        change (1 - u) ^ 2 * |(r.L ((permOf r.perm)⁻¹ i) k).val * Real.sqrt (r.D k).val| ≤ _
        rw [abs_mul, abs_mul]
        have l0 := abs_nonneg (r.L ((permOf r.perm)⁻¹ i) k).val
        calc (1 - u) ^ 2 * (|(r.L ((permOf r.perm)⁻¹ i) k).val| * |Real.sqrt (r.D k).val|)
            = (1 - u) * (|(r.L ((permOf r.perm)⁻¹ i) k).val| * ((1 - u) * |Real.sqrt (r.D k).val|)) := by ring
          _ ≤ _ := by
            refine mul_le_mul_of_nonneg_left (mul_le_mul_of_nonneg_left this l0) (by linarith)
      have g3 := pow_le_pow_left₀ (by positivity) g2 2
      rw [mul_pow, sq_abs, sq_abs] at g3
      calc (1 - u) ^ 4 * (a i k * a i k) = ((1 - u) ^ 2) ^ 2 * a i k ^ 2 := by ring
        _ ≤ c i k ^ 2 := g3
        _ = _ := sq _
    have hi : ∀ k, c i k * c i k ≤ (1 + u) ^ 4 * (a i k * a i k) := by
      intro k
      have h := le_trans (le_abs_self _) (hprod i i k)
      rw [abs_of_nonneg (mul_self_nonneg (a i k))] at h
      linarith
    have A0 : 0 ≤ prodLdlt R i i := by rw [eprod]; exact Finset.sum_nonneg fun k _ => mul_self_nonneg _
    have lo' : (1 - u) ^ 4 * prodLdlt R i i ≤ ∑ k, c i k * c i k := by
      rw [eprod, Finset.mul_sum]; exact Finset.sum_le_sum fun k _ => lo k
    have hi' : ∑ k, c i k * c i k ≤ (1 + u) ^ 4 * prodLdlt R i i := by
      rw [eprod, Finset.mul_sum]; exact Finset.sum_le_sum fun k _ => hi k
    constructor
    · refine le_trans ?_ hs2.1
      calc (1 - u) ^ (n + 6) * prodLdlt R i i = (1 - u) ^ (n + 2) * ((1 - u) ^ 4 * prodLdlt R i i) := by ring
        _ ≤ (1 - u) ^ ((out i).deps.card + 2) * ∑ k, c i k * c i k := by
          refine mul_le_mul (pow_le_pow_of_le_one (by linarith) (by linarith) (by omega)) lo' ?_ (pow_nonneg (by linarith) _)
          exact mul_nonneg (pow_nonneg (by linarith) _) A0
    · refine hs2.2.trans ?_
      calc (1 + u) ^ ((out i).deps.card + 2) * ∑ k, c i k * c i k ≤ (1 + u) ^ (n + 2) * ((1 + u) ^ 4 * prodLdlt R i i) :=
          mul_le_mul (pow_le_pow_right₀ (by linarith) (by omega)) hi' (Finset.sum_nonneg fun k _ => mul_self_nonneg _) (by positivity)
        _ = _ := by ring

/-! ## with the error of the decomposition -/

theorem prodLdlt_near {n : ℕ} {ε : ℝ} {cv : ℕ → FP f} {junk : Fin n → Fin n → FP f} {r : Ldlt n ℝ} (h : LdltNear ε (fun i j => (fillV cv junk i j).val) r)
    (hs : r.success = true) (i j : Fin n) : |(asked cv i j : FP f).val - prodLdlt r i j| ≤ ε := by
  have h3 := h.near hs ((permOf r.perm)⁻¹ i) ((permOf r.perm)⁻¹ j)
  rw [show permOf r.perm ((permOf r.perm)⁻¹ i) = i from Equiv.apply_symm_apply _ _,
    show permOf r.perm ((permOf r.perm)⁻¹ j) = j from Equiv.apply_symm_apply _ _] at h3
  refine le_trans (le_of_eq ?_) h3
  congr 2
  simp only [symLower, fillV, asked]
  split_ifs with h4 h5
  · rfl
  · rfl
  · exact absurd (le_of_lt (not_le.1 h4)) h5

/-- **C85**: if the numbers given back by the decomposition satisfy its equation within `ε`, the covariances of the result of `ureals` are the ones asked for within
`ε` and `n + 4` roundings; the means are exact. -/
theorem C85_near (hu : Acc f.rd u) (last n : ℕ) (hl : last + n < 2147483647) (mu : Fin n → FP f) (sz : ℕ) (cv : ℕ → FP f) (junk : Fin n → Fin n → FP f)
    (eigen : (Fin n → Fin n → FP f) → Ldlt n (FP f)) (ε : ℝ) (heig : LdltNear ε (fun i j => (fillV cv junk i j).val) (realLdlt (eigen (fillV cv junk))))
    (hsz : sz = n * n) (hs : (eigen (fillV cv junk)).success = true) (hp : (eigen (fillV cv junk)).isPositive = true) :
    ∃ out, ureals last n mu sz cv junk eigen = .ok (some out) ∧ (∀ i, (out i).n = mu i) ∧
      ∀ i j : Fin n, |(cov (out i) (out j)).val - (asked cv i j : FP f).val| ≤
        ε + ((1 + u) ^ (n + 4) - 1) * (Real.sqrt ((asked cv i i : FP f).val + ε) * Real.sqrt ((asked cv j j : FP f).val + ε)) := by
  have u0 := hu.nonneg
  have sh : LdltShape (eigen (fillV cv junk)) :=
    ⟨fun a b i => heig.diag_nonneg a b i, fun i => FP.ext (heig.unit i), fun i j h => FP.ext (heig.lower i j h)⟩
  obtain ⟨out, d, ho, -, H⟩ := C85_returns last n hl mu sz cv junk eigen rfl sh hsz hs hp
  refine ⟨out, ho, fun i => (H i).2.1, fun i j => ?_⟩
  have h := (C85_cov hu last n hl mu sz cv junk eigen rfl sh ho i j).1
  have hn := prodLdlt_near heig hs
  have up : ∀ i, prodLdlt (realLdlt (eigen (fillV cv junk))) i i ≤ (asked cv i i : FP f).val + ε := by
    intro i
    have := abs_le.1 (hn i i)
    linarith [this.1]
  have one : (1 : ℝ) ≤ (1 + u) ^ (n + 4) := one_le_pow₀ (by linarith)
  have h2 : ((1 + u) ^ (n + 4) - 1) * (Real.sqrt (prodLdlt (realLdlt (eigen (fillV cv junk))) i i) * Real.sqrt (prodLdlt (realLdlt (eigen (fillV cv junk))) j j)) ≤
      ((1 + u) ^ (n + 4) - 1) * (Real.sqrt ((asked cv i i : FP f).val + ε) * Real.sqrt ((asked cv j j : FP f).val + ε)) := by
    refine mul_le_mul_of_nonneg_left ?_ (by linarith)
    exact mul_le_mul (Real.sqrt_le_sqrt (up i)) (Real.sqrt_le_sqrt (up j)) (Real.sqrt_nonneg _) (Real.sqrt_nonneg _)
  have h3 := abs_sub_le (cov (out i) (out j)).val (prodLdlt (realLdlt (eigen (fillV cv junk))) i j) (asked cv i j : FP f).val
  have h4 := hn i j
  rw [abs_sub_comm] at h4
  linarith

/-! ## what fails -/

/-- 2 as a `double` -/
noncomputable def fpTwo : FP binary64 := ⟨2, rep_double 1 (2 ^ 52) (by norm_num) (by norm_num) (by norm_num)⟩

theorem rd_sqrt_two : binary64.rd (Real.sqrt 2) = 6369051672525773 / 2 ^ 52 := by
  have h := bits_val (p := 53) (by norm_num) (x := Real.sqrt 2) 0 6369051672525773 (by
    rw [Real.le_sqrt' (by norm_num)]; norm_num) (by
    rw [Real.sqrt_lt' (by norm_num)]; norm_num) (by
    rw [Real.le_sqrt' (by norm_num)]; norm_num) (by
    rw [Real.sqrt_lt' (by norm_num)]; norm_num)
  refine h.trans ?_
  norm_num

/-- the exact decomposition of the matrix (2) -/
noncomputable def ldltTwo : Ldlt 1 (FP binary64) := ⟨true, true, fun _ _ => 1, fun _ => fpTwo, fun i => i⟩

theorem permOf_one (perm : Fin 1 → Fin 1) : permOf perm = 1 := Subsingleton.elim _ _

theorem ldltTwo_exact : LdltNear 0 (fun i j : Fin 1 => (fillV (fun _ => fpTwo) (fun _ _ => 0) i j).val) (realLdlt ldltTwo) := by
  refine ⟨fun _ _ i => by simp [realLdlt, ldltTwo, fpTwo], fun i => by simp [realLdlt, ldltTwo], fun i j h => absurd h (by simp [Subsingleton.elim i j]), fun _ i j => ?_⟩
  have : i = 0 := Subsingleton.elim _ _
  have : j = 0 := Subsingleton.elim _ _
  subst_vars
  simp [realLdlt, ldltTwo, fpTwo, symLower, fillV]

/-- **C85** is not an equality: in `double`, one variable with variance 2, with the exact decomposition of the matrix (2), gets a variance which is not 2. -/
theorem C85_false : LdltNear 0 (fun i j : Fin 1 => (fillV (fun _ => fpTwo) (fun _ _ => 0) i j).val) (realLdlt ldltTwo) ∧
    ∃ out, ureals (0 : ℕ) 1 (fun _ => (0 : FP binary64)) 1 (fun _ => fpTwo) (fun _ _ => 0) (fun _ => ldltTwo) = .ok (some out) ∧
      2 < (cov (out 0) (out 0)).val := by
  refine ⟨ldltTwo_exact, ?_⟩
  have sh : LdltShape ldltTwo :=
    ⟨fun a b i => ldltTwo_exact.diag_nonneg a b i, fun i => rfl, fun i j h => absurd h (by simp [Subsingleton.elim i j])⟩
  obtain ⟨out, d, ho, -, H⟩ := C85_returns 0 1 (by norm_num) (fun _ => (0 : FP binary64)) 1 (fun _ => fpTwo) (fun _ _ => 0) (fun _ => ldltTwo) rfl sh rfl rfl rfl
  refine ⟨out, ho, ?_⟩
  obtain ⟨w, -, -, -, dd, c⟩ := H 0
  have hc : ((out 0).coef (d 0)).val = 6369051672525773 / 2 ^ 52 := by
    rw [c]
    change binary64.rd ((1 : FP binary64).val * binary64.rd (Real.sqrt 2)) = _
    rw [val_one, one_mul, binary64.idem, rd_sqrt_two]
  have hv : (exactL (out 0)).cov (exactL (out 0)) = (6369051672525773 / 2 ^ 52) * (6369051672525773 / 2 ^ 52) := by
    rw [LinForm.cov_eq_sum (supported_exactL _) _ dd]
    simp only [Finset.univ_unique, Finset.image_singleton, Finset.sum_singleton]
    change ((out 0).coef (d 0)).val * ((out 0).coef (d 0)).val = _
    rw [hc]
  have ha : absCov (exactL (out 0)) (exactL (out 0)) = (6369051672525773 / 2 ^ 52) * (6369051672525773 / 2 ^ 52) := by
    rw [← hv, absCov, LinForm.cov]
    exact Finset.sum_congr rfl (fun q _ => abs_of_nonneg (mul_self_nonneg _))
  have h := C61_cov acc_double w w
  have hcard : ((out 0).deps ∩ (out 0).deps).card ≤ 1 := by
    rw [Finset.inter_self]
    have := Finset.card_le_card dd
    simpa using this
  rw [hv, ha] at h
  have h2 : (1 + (1 / 2 : ℝ) ^ 53) ^ ((out 0).deps ∩ (out 0).deps).card ≤ (1 + (1 / 2 : ℝ) ^ 53) ^ 1 := pow_le_pow_right₀ (by norm_num) hcard
  have h3 := (abs_le.1 h).1
  norm_num at h2 h3 ⊢
  linarith

/-! ## examples -/

/-- `m / 8` as a `double`, for the numbers of the examples -/
noncomputable def fp4 : FP binary64 := ⟨4, rep_double 2 (2 ^ 52) (by norm_num) (by norm_num) (by norm_num)⟩
noncomputable def fp6 : FP binary64 := ⟨6, rep_double 2 (3 * 2 ^ 51) (by norm_num) (by norm_num) (by norm_num)⟩
noncomputable def fp16 : FP binary64 := ⟨16, rep_double 4 (2 ^ 52) (by norm_num) (by norm_num) (by norm_num)⟩
noncomputable def fp38 : FP binary64 := ⟨3 / 8, rep_double (-2) (3 * 2 ^ 51) (by norm_num) (by norm_num) (by norm_num)⟩
noncomputable def fp74 : FP binary64 := ⟨7 / 4, rep_double 0 (7 * 2 ^ 50) (by norm_num) (by norm_num) (by norm_num)⟩

/-- the matrix (4, 6; 6, 16) by columns -/
noncomputable def cvEx (k : ℕ) : FP binary64 := ([fp4, fp6, fp6, fp16] : List (FP binary64)).getD k 0

/-- its decomposition, with the pivot on the second variable; the square root of 7/4 is rounded -/
noncomputable def ldltEx : Ldlt 2 (FP binary64) :=
  ⟨true, true, fun i j => if i = j then 1 else if j < i then fp38 else 0, fun i => if i = 0 then fp16 else fp74, fun _ => 1⟩

theorem ldltEx_near : LdltNear 0 (fun i j : Fin 2 => (fillV cvEx (fun _ _ => fp74) i j).val) (realLdlt ldltEx) := by
  have hp : ∀ k : Fin 2, permOf (fun _ : Fin 2 => (1 : Fin 2)) k = if k = 0 then 1 else 0 := by decide
  refine ⟨?_, by simp [realLdlt, ldltEx], ?_, ?_⟩
  · intro _ _ i; simp only [realLdlt, ldltEx]; split_ifs <;> simp [fp16, fp74] <;> norm_num
  · intro i j h; simp [realLdlt, ldltEx, h.ne, not_lt.2 h.le]
  · intro _ i j
    simp only [realLdlt, ldltEx, hp, symLower, fillV]
    fin_cases i <;> fin_cases j <;> simp [Fin.sum_univ_two, cvEx, fp4, fp6, fp16, fp38, fp74] <;> norm_num

theorem ldltEx_shape : LdltShape ldltEx :=
  ⟨fun a b i => ldltEx_near.diag_nonneg a b i, fun i => FP.ext (ldltEx_near.unit i), fun i j h => FP.ext (ldltEx_near.lower i j h)⟩

example : ∃ out, ureals (5 : ℕ) 2 (fun i => if i = 0 then fp4 else fp38) 4 cvEx (fun _ _ => fp74) (fun _ => ldltEx) = .ok (some out) ∧
    (out 0).n = fp4 ∧ (out 1).n = fp38 ∧
    |(cov (out 0) (out 1)).val - 6| ≤ 0 + ((1 + (1 / 2) ^ 53) ^ (2 + 4) - 1) * (Real.sqrt (4 + 0) * Real.sqrt (16 + 0)) := by
  obtain ⟨out, h, hm, hc⟩ := C85_near acc_double 5 2 (by norm_num) (fun i => if i = 0 then fp4 else fp38) 4 cvEx (fun _ _ => fp74) (fun _ => ldltEx) 0
    ldltEx_near rfl rfl rfl
  exact ⟨out, h, hm 0, hm 1, hc 0 1⟩

/-- the first element is `L_10 sqrt(D_0) x_0 + sqrt(D_1) x_1`: 3/2 and the rounded square root of 7/4 -/
example : ∃ (out : Fin 2 → UReal (FP binary64)) (d : Fin 2 → ℤ),
    ureals (5 : ℕ) 2 (fun i => if i = 0 then fp4 else fp38) 4 cvEx (fun _ _ => fp74) (fun _ => ldltEx) = .ok (some out) ∧ d 0 ≠ d 1 ∧
      ((out 0).coef (d 1)).val = binary64.rd (1 * binary64.rd (Real.sqrt (7 / 4))) ∧
      (1 - (1 / 2) ^ 53) ^ (2 + 6) * prodLdlt (realLdlt ldltEx) 0 0 ≤ (out 0).s.val ^ 2 := by
  obtain ⟨out, d, ho, hd, H⟩ := C85_returns 5 2 (by norm_num) (fun i => if i = 0 then fp4 else fp38) 4 cvEx (fun _ _ => fp74) (fun _ => ldltEx) rfl ldltEx_shape
    rfl rfl rfl
  refine ⟨out, d, ho, fun h => absurd (hd h) (by decide), ?_, (C85_cov acc_double 5 2 (by norm_num) _ 4 cvEx _ _ rfl ldltEx_shape ho 0 0).2.1⟩
  rw [(H 0).2.2.2.2.2 1]
  have : (permOf ldltEx.perm)⁻¹ 0 = 1 := by
    rw [Equiv.Perm.inv_eq_iff_eq]
    change (0 : Fin 2) = permOf (fun _ : Fin 2 => (1 : Fin 2)) 1
    decide
  rw [this]
  rfl

/-- a matrix of the wrong size, and one the decomposition of which is not positive -/
example : ureals (5 : ℕ) 2 (fun _ => fp4) 3 cvEx (fun _ _ => fp74) (fun _ => ldltEx) = .error .invalidArgument ∧
    ureals (5 : ℕ) 2 (fun _ => fp4) 4 cvEx (fun _ _ => fp74) (fun _ => { ldltEx with isPositive := false }) = .error .runtimeError :=
  ⟨(C85_throws_iff 5 2 _ 3 cvEx _ _ ldltEx_shape).1.2 (by norm_num),
   (C85_throws_iff 5 2 _ 4 cvEx _ (fun _ => { ldltEx with isPositive := false })
    ⟨fun _ h => by simp at h, ldltEx_shape.unit, ldltEx_shape.lower⟩).2.2 ⟨rfl, by norm_num, Or.inr rfl⟩⟩

end Unc.Props
