import Verif.Lemmas.FloatMatrix
import Verif.Props.FloatExact
import Verif.Props.FloatUReals
import Verif.Props.URealsMore
import Verif.Props.Stat

/-!
# C95: covariance and correlation matrices in floating point

The full statement is that `cov_matrix` and `corr_matrix` are positive semidefinite, as those of exact numbers (C17), and that the matrix can be given back to `ureals`.  It is false (C95_false,
C95_ureals_false).  What holds is that they are symmetric and positive but for the rounding errors.
-/

namespace Unc.Props
open Unc.Spec UReal FP Stat UReals

variable {f : Fmt} {u : ℝ}

/-- **C95** The covariance matrix computed with rounding, for values with at most `K` variables each: it is exactly symmetric, each element has an error of `K` roundings relative to the product of the
uncertainties, and its quadratic form is not less than minus that error. -/
theorem C95_cov_partial (hu : Acc f.rd u) {x : List (UReal (FP f))} (hx : ∀ a ∈ x, a.WF) (hn : x.length < 4294967296) {K : ℕ} (hK : ∀ a ∈ x, a.deps.card ≤ K) :
    ∃ m, covMatrix x = some m ∧ m.length = x.length * x.length ∧ ∃ M : Fin x.length → Fin x.length → FP f,
      (∀ i j : Fin x.length, m[x.length * i.1 + j.1]? = some (M i j)) ∧ (∀ i j, M i j = M j i) ∧ (∀ i, 0 ≤ (M i i).val) ∧
      (∀ i j, |(M i j).val - (exactL x[i]).cov (exactL x[j])| ≤ ((1 + u) ^ K - 1) * (Real.sqrt (exactL x[i]).var * Real.sqrt (exactL x[j]).var)) ∧
      ∀ c : Fin x.length → ℝ, -(((1 + u) ^ K - 1) * (∑ i, |c i| * Real.sqrt (exactL x[i]).var) ^ 2) ≤ ∑ i, ∑ j, c i * c j * (M i j).val := by
  obtain ⟨m, e, hl, h⟩ := C17_cov_matrix_entries x hn
  have hw : ∀ i : Fin x.length, (x[i]).WF := fun i => hx _ (List.getElem_mem _)
  have hk : ∀ i : Fin x.length, (x[i]).deps.card ≤ K := fun i => hK _ (List.getElem_mem _)
  have near : ∀ i j : Fin x.length, |(cov x[i] x[j]).val - (exactL x[i]).cov (exactL x[j])| ≤ ((1 + u) ^ K - 1) * (Real.sqrt (exactL x[i]).var * Real.sqrt (exactL x[j]).var) :=
    fun i j => cov_near hu (hw i) (hw j) (hk i)
  refine ⟨m, e, hl, fun i j => cov x[i] x[j], fun i j => h i j i.2 j.2, fun i j => (C62_cov_comm _ _).1, fun i => ?_, near, fun c => ?_⟩
  · show 0 ≤ (cov x[i] x[i]).val
    rw [cov_dot (hw i) (hw i)]
    exact dot_nonneg _ (pairs_self_eq _ (repr_sorted (hw i))) le_rfl
  · exact quad_near (A := fun i j => (exactL x[i]).cov (exactL x[j])) (σ := fun i => Real.sqrt (exactL x[i]).var) near
      (lin_psd (fun i : Fin x.length => exactL x[i]) (fun i => supported_exactL _) c)

/-- **C95** The covariance matrix becomes positive semidefinite if its diagonal is multiplied by `1 + δ`, with `δ` of the order of `n K u`. -/
theorem C95_jitter_partial (hu : Acc f.rd u) {x : List (UReal (FP f))} (hx : ∀ a ∈ x, a.WF) (hn : x.length < 4294967296) {K : ℕ} (hK : ∀ a ∈ x, a.deps.card ≤ K) :
    ∃ m, covMatrix x = some m ∧ ∃ M : Fin x.length → Fin x.length → FP f, (∀ i j : Fin x.length, m[x.length * i.1 + j.1]? = some (M i j)) ∧
      Semidefinite fun i j => if i = j then (1 + x.length * ((1 + u) ^ K - 1) / (1 - u) ^ K) * (M i j).val else (M i j).val := by
  obtain ⟨m, e, -, M, h, -, -, -, hq⟩ := C95_cov_partial hu hx hn hK
  obtain ⟨m', e', -, h'⟩ := C17_cov_matrix_entries x hn
  obtain rfl : m' = m := Option.some.inj (e'.symm.trans e)
  have hw : ∀ i : Fin x.length, (x[i]).WF := fun i => hx _ (List.getElem_mem _)
  have hk : ∀ i : Fin x.length, (x[i]).deps.card ≤ K := fun i => hK _ (List.getElem_mem _)
  have u0 := hu.nonneg
  have u1 := hu.lt
  have d : (0 : ℝ) < (1 - u) ^ K := pow_pos (by linarith) _
  have γ0 : 0 ≤ (1 + u) ^ K - 1 := by linarith [one_le_pow₀ (show (1 : ℝ) ≤ 1 + u by linarith) (n := K)]
  have hd : ∀ i : Fin x.length, ((1 : ℝ) - u) ^ K * (exactL x[i]).var ≤ (M i i).val := by
    intro i
    have hM : M i i = cov x[i] x[i] := Option.some.inj ((h i i).symm.trans (h' i i i.2 i.2))
    have b := (dot_sq hu (pairs (x[i]).repr' (x[i]).repr') (pairs_self_eq _ (repr_sorted (hw i)))).1
    rw [length_self (hw i), sumV_pairs (hw i) (hw i), LinForm.cov_self, ← cov_dot (hw i) (hw i), ← hM] at b
    refine le_trans (mul_le_mul_of_nonneg_right ?_ (varE_nonneg _)) b
    exact pow_le_pow_of_le_one (sub_nonneg.2 u1.le) (sub_le_self 1 u0) (hk i)
  refine ⟨m', e, M, h, fun c => ?_⟩
  have q := hq c
  have q2 := sum_sq_le c fun i => Real.sqrt (exactL x[i]).var
  simp only [Real.sq_sqrt (varE_nonneg _)] at q2
  have q3 : ∑ i, c i ^ 2 * (exactL x[i]).var ≤ (∑ i, c i ^ 2 * (M i i).val) / (1 - u) ^ K := by
    rw [le_div_iff₀ d, Finset.sum_mul]
    refine Finset.sum_le_sum fun i _ => ?_
    have := mul_le_mul_of_nonneg_left (hd i) (sq_nonneg (c i))
    linarith
  have e1 : ∑ i, ∑ j, c i * (if i = j then (1 + x.length * ((1 + u) ^ K - 1) / (1 - u) ^ K) * (M i j).val else (M i j).val) * c j =
      ∑ i, ∑ j, c i * c j * (M i j).val + x.length * ((1 + u) ^ K - 1) / (1 - u) ^ K * ∑ i, c i ^ 2 * (M i i).val := by
    rw [Finset.mul_sum, ← Finset.sum_add_distrib]
    refine Finset.sum_congr rfl fun i _ => ?_
    rw [← Finset.sum_ite_eq Finset.univ i (fun j => x.length * ((1 + u) ^ K - 1) / (1 - u) ^ K * (c i ^ 2 * (M i i).val)) |>.trans (if_pos (Finset.mem_univ i)),
      ← Finset.sum_add_distrib]
    refine Finset.sum_congr rfl fun j _ => ?_
    split_ifs with hij
    · subst hij; ring
    · ring
  rw [e1]
  have q4 := mul_le_mul_of_nonneg_left (q2.trans (mul_le_mul_of_nonneg_left q3 (Nat.cast_nonneg _))) γ0
  have e2 : ((1 + u) ^ K - 1) * (x.length * ((∑ i, c i ^ 2 * (M i i).val) / (1 - u) ^ K)) = x.length * ((1 + u) ^ K - 1) / (1 - u) ^ K * ∑ i, c i ^ 2 * (M i i).val := by ring
  linarith

/-- **C95** The correlation matrix computed with rounding, if no uncertainty is zero: it is exactly symmetric, each element is within `2 K + 4` roundings of the exact correlation of the stored values, and the
quadratic form is not less than minus that error. -/
theorem C95_corr_partial (hu : Acc f.rd u) {x : List (UReal (FP f))} (hx : ∀ a ∈ x, a.WF) (hn : x.length < 4294967296) {K : ℕ} (hK : ∀ a ∈ x, a.deps.card ≤ K)
    (hi : ∀ a ∈ x, 0 ≤ a.id ∨ a.sdev.val < 0) (hs : ∀ a ∈ x, a.s.val ≠ 0) :
    ∃ m, corrMatrix x = some m ∧ m.length = x.length * x.length ∧ ∃ M : Fin x.length → Fin x.length → FP f,
      (∀ i j : Fin x.length, m[x.length * i.1 + j.1]? = some (M i j)) ∧ (∀ i j, M i j = M j i) ∧
      (∀ i j, |(M i j).val - (exactL x[i]).cov (exactL x[j]) / (Real.sqrt (exactL x[i]).var * Real.sqrt (exactL x[j]).var)| ≤ (1 / (1 - u)) ^ (K + 4) * (1 + u) ^ K - 1) ∧
      ∀ c : Fin x.length → ℝ, -(((1 / (1 - u)) ^ (K + 4) * (1 + u) ^ K - 1) * (∑ i, |c i|) ^ 2) ≤ ∑ i, ∑ j, c i * c j * (M i j).val := by
  obtain ⟨m, e, hl, h⟩ := C17_corr_matrix_entries x hn
  have u0 := hu.nonneg
  have u1 := hu.lt
  have hw : ∀ i : Fin x.length, (x[i]).WF := fun i => hx _ (List.getElem_mem _)
  have hk : ∀ i : Fin x.length, (x[i]).deps.card ≤ K := fun i => hK _ (List.getElem_mem _)
  have hi' : ∀ i : Fin x.length, 0 ≤ (x[i]).id ∨ (x[i]).sdev.val < 0 := fun i => hi _ (List.getElem_mem _)
  have hs' : ∀ i : Fin x.length, (x[i]).s.val ≠ 0 := fun i => hs _ (List.getElem_mem _)
  have pf : ∀ i j : Fin x.length, Factor u (K + 3) ((x[i]).s * (x[j]).s).val (Real.sqrt (exactL x[i]).var * Real.sqrt (exactL x[j]).var) :=
    fun i j => prod_fac hu (hw i) (hw j) (hi' i) (hi' j) (hk i) (hk j)
  have pos : ∀ i j : Fin x.length, 0 < Real.sqrt (exactL x[i]).var * Real.sqrt (exactL x[j]).var := by
    have : ∀ i : Fin x.length, Real.sqrt (exactL x[i]).var ≠ 0 := by
      intro i h0
      obtain ⟨ρ, -, -, -, e⟩ := pf i i
      rw [h0, mul_zero, mul_zero, FP.val_mul] at e
      obtain ⟨σ, σ0, -, -, e'⟩ := fac_rd hu ((x[i]).s.val * (x[i]).s.val)
      rw [e] at e'
      exact (mul_ne_zero σ0.ne' (mul_ne_zero (hs' i) (hs' i))) e'.symm
    exact fun i j => mul_pos ((Real.sqrt_nonneg _).lt_of_ne' (this i)) ((Real.sqrt_nonneg _).lt_of_ne' (this j))
  have near : ∀ i j : Fin x.length, |(corr x[i] x[j]).val - (exactL x[i]).cov (exactL x[j]) / (Real.sqrt (exactL x[i]).var * Real.sqrt (exactL x[j]).var)| ≤
      ((1 / (1 - u)) ^ (K + 4) * (1 + u) ^ K - 1) * (1 * 1) := by
    intro i j
    have hc := cov_near hu (hw i) (hw j) (hk i)
    have ha : |(exactL x[i]).cov (exactL x[j])| ≤ Real.sqrt (exactL x[i]).var * Real.sqrt (exactL x[j]).var :=
      (abs_cov_le_absCov _ _).trans (absCov_le_sqrt _ _)
    rw [one_mul, mul_one]
    exact ratio_near hu (pos i j) ha hc (pf i j)
  refine ⟨m, e, hl, fun i j => corr x[i] x[j], fun i j => h i j i.2 j.2, fun i j => (C62_cov_comm _ _).2, fun i j => by simpa using near i j, fun c => ?_⟩
  have q := quad_near (B := fun i j => (corr x[i] x[j]).val) (σ := fun _ => 1) near (c := c) ?_
  · simpa using q
  · have := lin_psd (fun i : Fin x.length => exactL x[i]) (fun i => supported_exactL _) fun i => c i / Real.sqrt (exactL x[i]).var
    refine this.trans (le_of_eq (Finset.sum_congr rfl fun i _ => Finset.sum_congr rfl fun j _ => ?_))
    ring

/-- **C95** The matrix given back to `ureals`: if the decomposition succeeds with an error of `ε` for each element, the new values have the same means, and the covariances within `ε` and the rounding errors. -/
theorem C95_back_partial (hu : Acc f.rd u) {x : List (UReal (FP f))} (hn : x.length < 4294967296) {m : List (FP f)} (hm : covMatrix x = some m) (last : ℕ) (hl : last + x.length < 2147483647)
    (junk : Fin x.length → Fin x.length → FP f) (eigen : (Fin x.length → Fin x.length → FP f) → Ldlt x.length (FP f)) (ε : ℝ)
    (heig : LdltNear ε (fun i j => (fillV (fun k => m.getD k 0) junk i j).val) (realLdlt (eigen (fillV (fun k => m.getD k 0) junk))))
    (hs : (eigen (fillV (fun k => m.getD k 0) junk)).success = true) (hp : (eigen (fillV (fun k => m.getD k 0) junk)).isPositive = true) :
    ∃ out, ureals last x.length (fun i => (x[i]).mu) m.length (fun k => m.getD k 0) junk eigen = .ok (some out) ∧ (∀ i, (out i).n = (x[i]).n) ∧
      ∀ i j, |(cov (out i) (out j)).val - (cov x[i] x[j]).val| ≤
        ε + ((1 + u) ^ (x.length + 4) - 1) * (Real.sqrt ((cov x[i] x[i]).val + ε) * Real.sqrt ((cov x[j] x[j]).val + ε)) := by
  obtain ⟨m', e', hlen, h⟩ := C17_cov_matrix_entries x hn
  obtain rfl : m' = m := Option.some.inj (e'.symm.trans hm)
  have ask : ∀ i j : Fin x.length, asked (fun k => m'.getD k 0) i j = cov x[i] x[j] := by
    intro i j
    unfold asked
    beta_reduce
    split_ifs
    · rw [add_comm, List.getD_eq_getElem?_getD, h j i j.2 i.2, (C62_cov_comm x[i] x[j]).1]; rfl
    · rw [add_comm, List.getD_eq_getElem?_getD, h i j i.2 j.2]; rfl
  obtain ⟨out, ho, hmu, hc⟩ := C85_near hu last x.length hl (fun i => (x[i]).mu) m'.length (fun k => m'.getD k 0) junk eigen ε heig hlen hs hp
  refine ⟨out, ho, hmu, fun i j => ?_⟩
  have := hc i j
  rwa [ask, ask, ask] at this

/-! ## what is lost -/

/-- a decomposition without error of a positive matrix -/
theorem asked_semidefinite {n : ℕ} {cv : ℕ → FP f} {junk : Fin n → Fin n → FP f} {r : Ldlt n ℝ} (h : LdltNear 0 (fun i j => (fillV cv junk i j).val) r) (hs : r.success = true)
    (hp : r.isPositive = true) : Semidefinite fun i j : Fin n => (asked cv i j : FP f).val := by
  have e : (fun i j : Fin n => (asked cv i j : FP f).val) = ofLdlt r := by
    funext i j
    have := prodLdlt_near h hs i j
    exact sub_eq_zero.1 (abs_nonpos_iff.1 this)
  rw [e]
  exact ofLdlt_semidefinite r (h.diag_nonneg hs hp)

/-- **C95** A matrix which is not positive semidefinite, whatever the error it comes from, is refused by `ureals` with an exact decomposition. -/
theorem C95_refused (last n : ℕ) (mu : Fin n → FP f) (cv : ℕ → FP f) (junk : Fin n → Fin n → FP f) (eigen : (Fin n → Fin n → FP f) → Ldlt n (FP f))
    (heig : LdltNear 0 (fun i j => (fillV cv junk i j).val) (realLdlt (eigen (fillV cv junk)))) (hv : ¬ Semidefinite fun i j : Fin n => (asked cv i j : FP f).val) :
    ureals last n mu (n * n) cv junk eigen = .error .runtimeError := by
  refine (C85_throws_iff last n mu (n * n) cv junk eigen ⟨fun a b i => heig.diag_nonneg a b i, fun i => FP.ext (heig.unit i), fun i j h => FP.ext (heig.lower i j h)⟩).2.2 ⟨rfl, ?_, ?_⟩
  · rintro rfl; exact hv fun v => by simp
  · by_contra hc
    push Not at hc
    simp only [ne_eq, Bool.not_eq_false] at hc
    exact hv (asked_semidefinite heig hc.1 hc.2)

/-- 1 + 43620761/2⁵² and 1 + 80530636/2⁵² -/
noncomputable def exA : FP binary64 := ⟨(2 ^ 52 + 43620761) / 2 ^ 52, by
  rw [bits_val _ 0 (2 ^ 52 + 43620761) (by norm_num) (by norm_num) (by norm_num) (by norm_num)]; norm_num⟩

noncomputable def exB : FP binary64 := ⟨(2 ^ 52 + 80530636) / 2 ^ 52, by
  rw [bits_val _ 0 (2 ^ 52 + 80530636) (by norm_num) (by norm_num) (by norm_num) (by norm_num)]; norm_num⟩

theorem exAA : (exA * exA).val = (2 ^ 52 + 87241522) / 2 ^ 52 := by
  rw [val_mul]; unfold exA
  rw [bits_val _ 0 (2 ^ 52 + 87241522) (by norm_num) (by norm_num) (by norm_num) (by norm_num)]; norm_num

theorem exBB : (exB * exB).val = (2 ^ 52 + 161061273) / 2 ^ 52 := by
  rw [val_mul]; unfold exB
  rw [bits_val _ 0 (2 ^ 52 + 161061273) (by norm_num) (by norm_num) (by norm_num) (by norm_num)]; norm_num

theorem exAB : (exA * exB).val = (2 ^ 52 + 124151398) / 2 ^ 52 := by
  rw [val_mul]; unfold exA exB
  rw [bits_val _ 0 (2 ^ 52 + 124151398) (by norm_num) (by norm_num) (by norm_num) (by norm_num)]; norm_num

/-- a multiple of a variable with uncertainty 1 -/
noncomputable def exMul (a : FP binary64) : UReal (FP binary64) := ⟨-1, -1, 0, [(1, a)]⟩

theorem exMul_run (a : FP binary64) : mul (const a) (⟨1, 1, 0, []⟩ : UReal (FP binary64)) = some (exMul a) := by
  have h : a * 0 = 0 := FP.ext (by rw [val_mul, val_zero, mul_zero]; exact Fmt.rd_zero _)
  simp [mul, binary, const, SMap.upsert, fp_mul_one, fp_zero_add, invalidId, exMul, h]

theorem exMul_wf (a : FP binary64) : (exMul a).WF := ⟨by simp [exMul], by simp [exMul], by simp [exMul, SMap.sorted_cons], by simp [exMul]⟩

theorem exMul_cov (a b : FP binary64) : cov (exMul a) (exMul b) = a * b := by
  rw [cov_dot (exMul_wf a) (exMul_wf b)]
  simp [repr', exMul, pairs, SMap.find?, dot, fp_zero_add]

/-- **C95**, what fails: in `double`, the covariance matrix of two multiples of one variable has a negative determinant. -/
theorem C95_false : ∃ p q : UReal (FP binary64), mul (const exA) ⟨1, 1, 0, []⟩ = some p ∧ mul (const exB) ⟨1, 1, 0, []⟩ = some q ∧ ∃ a b d, covMatrix [p, q] = some [a, b, b, d] ∧
    0 < a.val ∧ 0 < d.val ∧ a.val * d.val < b.val * b.val := by
  refine ⟨_, _, exMul_run _, exMul_run _, exA * exA, exA * exB, exB * exB, ?_, ?_, ?_, ?_⟩
  · have c := (C62_cov_comm (exMul exA) (exMul exB)).1
    rw [exMul_cov, exMul_cov] at c
    simp [covMatrix, outer, outerSeq, exMul_cov, c, wrap64]
  all_goals simp only [exAA, exAB, exBB]; norm_num

/-- **C95**, what fails: such a matrix, which the library itself has computed, is refused by `ureals`. -/
theorem C95_ureals_false : ∃ p q m, mul (const exA) (⟨1, 1, 0, []⟩ : UReal (FP binary64)) = some p ∧ mul (const exB) (⟨1, 1, 0, []⟩ : UReal (FP binary64)) = some q ∧ covMatrix [p, q] = some m ∧
    ∀ (last : ℕ) (mu : Fin 2 → FP binary64) (junk : Fin 2 → Fin 2 → FP binary64) (eigen : (Fin 2 → Fin 2 → FP binary64) → Ldlt 2 (FP binary64)),
      LdltNear 0 (fun i j => (fillV (fun k => m.getD k 0) junk i j).val) (realLdlt (eigen (fillV (fun k => m.getD k 0) junk))) →
      ureals last 2 mu m.length (fun k => m.getD k 0) junk eigen = .error .runtimeError := by
  obtain ⟨p, q, hp, hq, a, b, d, hm, ha, hd, h⟩ := C95_false
  refine ⟨p, q, _, hp, hq, hm, fun last mu junk eigen heig => C95_refused last 2 mu _ junk eigen heig fun hv => ?_⟩
  have := hv ![b.val, -a.val]
  simp [Fin.sum_univ_two, asked] at this
  nlinarith

/-! ## examples -/

theorem exTwo_wf : ∀ a ∈ [exMul exA, exMul exB], a.WF := by
  simp only [List.mem_cons, List.not_mem_nil, or_false, forall_eq_or_imp, forall_eq]
  exact ⟨exMul_wf _, exMul_wf _⟩

theorem exTwo_deps : ∀ a ∈ [exMul exA, exMul exB], a.deps.card ≤ 1 := by
  simp [deps, exMul]

/-- two multiples of one variable, the matrix of C95_false -/
example : ∃ m, covMatrix [exMul exA, exMul exB] = some m ∧ m.length = 4 ∧ m[1]? = m[2]? := by
  obtain ⟨m, e, hl, M, h, hsym, -, -, -⟩ := C95_cov_partial acc_double exTwo_wf (by norm_num [List.length]) exTwo_deps
  refine ⟨m, e, hl, ?_⟩
  have a := h 0 1
  have b := h 1 0
  rw [hsym 0 1] at a
  exact a.trans b.symm

example : ∃ m, covMatrix [exMul exA, exMul exB] = some m ∧ ∃ M : Fin 2 → Fin 2 → FP binary64, (∀ i j : Fin 2, m[2 * i.1 + j.1]? = some (M i j)) ∧
    Semidefinite fun i j => if i = j then (1 + 2 * ((1 + (1 / 2) ^ 53) ^ 1 - 1) / (1 - (1 / 2) ^ 53) ^ 1) * (M i j).val else (M i j).val :=
  C95_jitter_partial acc_double exTwo_wf (by norm_num [List.length]) exTwo_deps

theorem exMul_s (a : FP binary64) : (exMul a).s.val = binary64.rd (Real.sqrt (a * a).val) := by
  rw [s_uncached (by simp [exMul]) (by simp [exMul])]
  have : (exMul a).s2 = a * a := by simp [s2, exMul, fp_zero_add]
  rw [this]

theorem exMul_s_ne {a : FP binary64} (h : 0 < (a * a).val) : (exMul a).s.val ≠ 0 := by
  rw [exMul_s]
  obtain ⟨ρ, h0, -, -, e⟩ := fac_rd acc_double (Real.sqrt (a * a).val)
  rw [e]
  exact mul_ne_zero h0.ne' (Real.sqrt_pos.2 h).ne'

/-- the correlation of the same two values -/
example : ∃ m, corrMatrix [exMul exA, exMul exB] = some m ∧ ∃ r : FP binary64, m[1]? = some r ∧
    |r.val - (exactL (exMul exA)).cov (exactL (exMul exB)) / (Real.sqrt (exactL (exMul exA)).var * Real.sqrt (exactL (exMul exB)).var)| ≤ (1 / (1 - (1 / 2) ^ 53)) ^ (1 + 4) * (1 + (1 / 2) ^ 53) ^ 1 - 1 := by
  obtain ⟨m, e, -, M, h, -, hn, -⟩ := C95_corr_partial acc_double exTwo_wf (by norm_num [List.length]) exTwo_deps (by simp [exMul]) (by
    simp only [List.mem_cons, List.not_mem_nil, or_false, forall_eq_or_imp, forall_eq]
    exact ⟨exMul_s_ne (by rw [exAA]; norm_num), exMul_s_ne (by rw [exBB]; norm_num)⟩)
  exact ⟨m, e, M 0 1, h 0 1, hn 0 1⟩

/-- the decomposition of the identity, of two variables with uncertainty 1 -/
noncomputable def ldltOne : Ldlt 2 (FP binary64) := ⟨true, true, fun i j => if i = j then 1 else 0, fun _ => 1, fun i => i⟩

theorem permOf_id2 : permOf (fun i : Fin 2 => i) = 1 := by decide

theorem exPair_cov : covMatrix [(⟨1, 1, 0, []⟩ : UReal (FP binary64)), ⟨2, 1, 0, []⟩] = some [1, 0, 0, 1] := by
  simp [covMatrix, outer, outerSeq, wrap64, cov, fp_mul_one, fp_zero_add]

example : ∃ out, ureals (5 : ℕ) 2 (fun _ => 0) 4 (fun k => [(1 : FP binary64), 0, 0, 1].getD k 0) (fun _ _ => 0) (fun _ => ldltOne) = .ok (some out) ∧
    |(cov (out 0) (out 1)).val - (0 : FP binary64).val| ≤ 0 + ((1 + (1 / 2) ^ 53) ^ (2 + 4) - 1) * (Real.sqrt ((1 : FP binary64).val + 0) * Real.sqrt ((1 : FP binary64).val + 0)) := by
  have near : LdltNear 0 (fun i j => (fillV (fun k => [(1 : FP binary64), 0, 0, 1].getD k 0) (fun _ _ => 0) i j).val) (realLdlt ldltOne) := by
    refine ⟨fun _ _ i => by simp [realLdlt, ldltOne], fun i => by simp [realLdlt, ldltOne], fun i j h => by simp [realLdlt, ldltOne, h.ne], fun _ i j => ?_⟩
    change |symLower _ (permOf (fun i : Fin 2 => i) i) (permOf (fun i : Fin 2 => i) j) - _| ≤ 0
    rw [permOf_id2]
    fin_cases i <;> fin_cases j <;> simp [symLower, fillV, realLdlt, ldltOne, Fin.sum_univ_two]
  obtain ⟨out, h, -, hc⟩ := C95_back_partial acc_double (x := [⟨1, 1, 0, []⟩, ⟨2, 1, 0, []⟩]) (by norm_num [List.length]) exPair_cov 5 (by norm_num [List.length]) (fun _ _ => 0) (fun _ => ldltOne) 0
    near rfl rfl
  refine ⟨out, ?_, ?_⟩
  · rw [← h]; congr 1; funext i; fin_cases i <;> rfl
  · have e0 : cov (⟨1, 1, 0, []⟩ : UReal (FP binary64)) ⟨1, 1, 0, []⟩ = 1 := by simp [cov, fp_mul_one, fp_zero_add]
    have e1 : cov (⟨2, 1, 0, []⟩ : UReal (FP binary64)) ⟨2, 1, 0, []⟩ = 1 := by simp [cov, fp_mul_one, fp_zero_add]
    have e2 : cov (⟨1, 1, 0, []⟩ : UReal (FP binary64)) ⟨2, 1, 0, []⟩ = 0 := by simp [cov]
    have t : |(cov (out 0) (out 1)).val - (cov (⟨1, 1, 0, []⟩ : UReal (FP binary64)) ⟨2, 1, 0, []⟩).val| ≤
        0 + ((1 + (1 / 2) ^ 53) ^ (2 + 4) - 1) * (Real.sqrt ((cov (⟨1, 1, 0, []⟩ : UReal (FP binary64)) ⟨1, 1, 0, []⟩).val + 0) * Real.sqrt ((cov (⟨2, 1, 0, []⟩ : UReal (FP binary64)) ⟨2, 1, 0, []⟩).val + 0)) := hc 0 1
    rwa [e0, e1, e2] at t

/-- the matrix (1, 2; 2, 1), decomposed with a negative element on the diagonal: `D = (1, -3)` -/
noncomputable def ldltNeg : Ldlt 2 (FP binary64) := ⟨true, false, fun i j => if i = j then 1 else if j < i then ⟨2, two_double⟩ else 0, fun k => if k = 0 then 1 else -⟨3, three_double⟩, fun i => i⟩

example : ureals (5 : ℕ) 2 (fun _ => (0 : FP binary64)) (2 * 2) (fun k => if k = 0 ∨ k = 3 then 1 else ⟨2, two_double⟩) (fun _ _ => 0) (fun _ => ldltNeg) = .error .runtimeError := by
  refine C95_refused 5 2 _ _ _ _ ⟨fun _ h => by simp [realLdlt, ldltNeg] at h, fun i => by simp [realLdlt, ldltNeg], fun i j h => by simp [realLdlt, ldltNeg, h.ne, h.not_gt], fun _ i j => ?_⟩ fun hv => ?_
  · change |symLower _ (permOf (fun i : Fin 2 => i) i) (permOf (fun i : Fin 2 => i) j) - _| ≤ 0
    rw [permOf_id2]
    fin_cases i <;> fin_cases j <;> simp [symLower, fillV, realLdlt, ldltNeg, Fin.sum_univ_two] <;> norm_num
  · have := hv ![1, -1]
    simp [Fin.sum_univ_two, asked] at this
    norm_num at this

end Unc.Props
