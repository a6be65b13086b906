import Verif.Props.UReals
import Verif.Spec.LdltMore
import Mathlib.Tactic.FieldSimp

/-! # `ureals` with an inexact decomposition, and which matrices it accepts (C19) -/

namespace Unc.Props
open Unc Unc.Spec UReal UReals

/-- the matrix a decomposition stands for -/
noncomputable def ofLdlt {n : ℕ} (r : Ldlt n ℝ) (i j : Fin n) : ℝ :=
  ∑ k, r.L ((permOf r.perm)⁻¹ i) k * r.D k * r.L ((permOf r.perm)⁻¹ j) k

theorem ofLdlt_symm {n : ℕ} (r : Ldlt n ℝ) (i j : Fin n) : ofLdlt r i j = ofLdlt r j i := by
  unfold ofLdlt
  exact Finset.sum_congr rfl fun k _ => by ring

theorem ofLdlt_perm {n : ℕ} (r : Ldlt n ℝ) (i j : Fin n) :
    ofLdlt r (permOf r.perm i) (permOf r.perm j) = ∑ k, r.L i k * r.D k * r.L j k := by
  simp [ofLdlt]

theorem ofLdlt_semidefinite {n : ℕ} (r : Ldlt n ℝ) (h : ∀ i, 0 ≤ r.D i) : Semidefinite (ofLdlt r) := by
  intro v
  have : ∑ i, ∑ j, v i * ofLdlt r i j * v j = ∑ k, r.D k * (∑ i, v i * r.L ((permOf r.perm)⁻¹ i) k) ^ 2 := by
    simp only [ofLdlt, Finset.mul_sum, Finset.sum_mul, sq, Finset.sum_mul_sum]
    rw [Finset.sum_congr rfl fun i _ => Finset.sum_comm, Finset.sum_comm]
    refine Finset.sum_congr rfl fun k _ => Finset.sum_congr rfl fun i _ => Finset.sum_congr rfl fun j _ => by ring
  rw [this]
  exact Finset.sum_nonneg fun k _ => mul_nonneg (h k) (sq_nonneg _)

/-- **C19** with a decomposition that meets its equation only within `ε`: whatever the error, the covariance matrix of the
result is positive semidefinite, within `ε` of the requested one, and the means are the requested ones. -/
theorem C19_ureals_near (last n : ℕ) (hl : last + n < 2147483647) (mu : Fin n → ℝ) (sz : ℕ) (cv : ℕ → ℝ)
    (junk : Fin n → Fin n → ℝ) (eigen : (Fin n → Fin n → ℝ) → Ldlt n ℝ) (ε : ℝ)
    (heig : LdltNear ε (fillV cv junk) (eigen (fillV cv junk)))
    (hsz : sz = n * n) (hs : (eigen (fillV cv junk)).success = true) (hp : (eigen (fillV cv junk)).isPositive = true) :
    ∃ out, ureals last n mu sz cv junk eigen = .ok (some out) ∧ (∀ i, (out i).n = mu i) ∧
      Semidefinite (fun i j => cov (out i) (out j)) ∧
      ∀ i j : Fin n, |(if j ≤ i then cv (i + n * j) else cv (j + n * i)) - cov (out i) (out j)| ≤ ε := by
  obtain ⟨cD, cU, cL, cA⟩ := heig
  set r := eigen (fillV cv junk) with hr
  by_cases hn : n = 0
  · subst hn
    refine ⟨fun _ => UReal.default', ?_, fun i => i.elim0, fun v => by simp, fun i => i.elim0⟩
    unfold ureals
    have : badSizes 0 sz = false := by rw [← Bool.not_eq_true, badSizes_iff]; simp [hsz]
    simp [this]
  have hpos : 0 < n := Nat.pos_of_ne_zero hn
  let cv' : ℕ → ℝ := fun k => ofLdlt r ⟨k % n, Nat.mod_lt _ hpos⟩ ⟨k / n % n, Nat.mod_lt _ hpos⟩
  have hcv : ∀ i j : Fin n, cv' (i + n * j) = ofLdlt r i j := by
    intro i j
    have h1 : ((i : ℕ) + n * j) % n = i := by rw [Nat.add_mul_mod_self_left, Nat.mod_eq_of_lt i.2]
    have h2 : ((i : ℕ) + n * j) / n % n = j := by
      rw [Nat.add_mul_div_left _ _ hpos, Nat.div_eq_of_lt i.2, zero_add, Nat.mod_eq_of_lt j.2]
    simp only [cv', h1, h2, Fin.eta]
  have hc : LdltContract (fillV cv' junk) ((fun _ => r) (fillV cv' junk)) := by
    refine ⟨cD, cU, cL, fun _ i j => ?_⟩
    rw [← ofLdlt_perm]
    simp only [symLower, fillV]
    split_ifs with h1 h2
    · exact hcv _ _
    · rw [hcv]; exact ofLdlt_symm r _ _
    · exact absurd (le_of_lt (not_le.1 h1)) h2
  obtain ⟨out, ho, -, hm, hcov⟩ := C19_ureals_cov last n hl mu sz cv' junk (fun _ => r) hc hsz hs hp
  have hcov' : ∀ i j, cov (out i) (out j) = ofLdlt r i j := by
    intro i j
    rw [hcov]
    split_ifs
    · exact hcv i j
    · rw [hcv]; exact ofLdlt_symm r _ _
  refine ⟨out, ?_, hm, ?_, fun i j => ?_⟩
  · rw [← ho]; simp only [ureals, ← hr]
  · simp only [hcov']; exact ofLdlt_semidefinite r (cD hs hp)
  · rw [hcov']
    have h3 := cA hs ((permOf r.perm)⁻¹ i) ((permOf r.perm)⁻¹ j)
    rw [← ofLdlt_perm, show permOf r.perm ((permOf r.perm)⁻¹ i) = i from Equiv.apply_symm_apply _ _,
      show permOf r.perm ((permOf r.perm)⁻¹ j) = j from Equiv.apply_symm_apply _ _] at h3
    refine le_trans (le_of_eq ?_) h3
    congr 2
    simp only [symLower, fillV]
    split_ifs with h4 h5
    · rfl
    · rfl
    · exact absurd (le_of_lt (not_le.1 h4)) h5

/-- **C19** a matrix that is not positive semidefinite is never accepted: `std::runtime_error`. -/
theorem C19_rejects (last n : ℕ) (mu : Fin n → ℝ) (sz : ℕ) (cv : ℕ → ℝ) (junk : Fin n → Fin n → ℝ)
    (eigen : (Fin n → Fin n → ℝ) → Ldlt n ℝ) (heig : LdltContract (fillV cv junk) (eigen (fillV cv junk))) (hsz : sz = n * n)
    (hv : ¬ Semidefinite (fun i j : Fin n => if j ≤ i then cv (i + n * j) else cv (j + n * i))) :
    ureals last n mu sz cv junk eigen = .error .runtimeError := by
  refine (C19_throws_iff last n mu sz cv junk eigen heig).2.2 ⟨hsz, ?_, ?_⟩
  · rintro rfl; exact hv fun v => by simp
  · by_contra hc
    push Not at hc
    simp only [ne_eq, Bool.not_eq_false] at hc
    apply hv
    have h := ofLdlt_semidefinite _ (heig.diag_nonneg hc.1 hc.2)
    convert h using 1
    funext i j
    have h3 := heig.decomp hc.1 ((permOf (eigen (fillV cv junk)).perm)⁻¹ i) ((permOf (eigen (fillV cv junk)).perm)⁻¹ j)
    rw [← ofLdlt_perm, show permOf (eigen (fillV cv junk)).perm ((permOf (eigen (fillV cv junk)).perm)⁻¹ i) = i from
      Equiv.apply_symm_apply _ _, show permOf (eigen (fillV cv junk)).perm ((permOf (eigen (fillV cv junk)).perm)⁻¹ j) = j from
      Equiv.apply_symm_apply _ _] at h3
    rw [← h3]
    simp only [symLower, fillV]
    split_ifs with h4 h5
    · rfl
    · rfl
    · exact absurd (le_of_lt (not_le.1 h4)) h5

/-- **C19** with a routine that decomposes every positive semidefinite matrix, `ureals` succeeds exactly on arguments of
matching sizes whose matrix is positive semidefinite. -/
theorem C19_accepts_iff (last n : ℕ) (hl : last + n < 2147483647) (mu : Fin n → ℝ) (sz : ℕ) (cv : ℕ → ℝ)
    (junk : Fin n → Fin n → ℝ) (eigen : (Fin n → Fin n → ℝ) → Ldlt n ℝ)
    (heig : LdltContract (fillV cv junk) (eigen (fillV cv junk))) (hcom : Complete eigen) :
    (∃ out, ureals last n mu sz cv junk eigen = .ok (some out)) ↔
      sz = n * n ∧ Semidefinite (fun i j : Fin n => if j ≤ i then cv (i + n * j) else cv (j + n * i)) := by
  constructor
  · rintro ⟨out, ho⟩
    have hsz : sz = n * n := by
      by_contra hc
      rw [(C19_throws_iff last n mu sz cv junk eigen heig).1.2 hc] at ho
      cases ho
    refine ⟨hsz, ?_⟩
    by_contra hc
    rw [C19_rejects last n mu sz cv junk eigen heig hsz hc] at ho
    cases ho
  · rintro ⟨hsz, hv⟩
    have : symLower (fillV cv junk) = fun i j : Fin n => if j ≤ i then cv (i + n * j) else cv (j + n * i) := by
      funext i j
      simp only [symLower, fillV]
      split_ifs with h4 h5
      · rfl
      · rfl
      · exact absurd (le_of_lt (not_le.1 h4)) h5
    obtain ⟨hs, hp⟩ := hcom (fillV cv junk) (by rw [this]; exact hv)
    obtain ⟨out, ho, -⟩ := C19_ureals_cov last n hl mu sz cv junk eigen heig hsz hs hp
    exact ⟨out, ho⟩

/-- a symmetric positive semidefinite matrix has a decomposition `L D L^T`, even without pivoting -/
theorem ldl_exists : ∀ {n : ℕ} (A : Fin n → Fin n → ℝ), (∀ i j, A i j = A j i) → Semidefinite A →
    ∃ (L : Fin n → Fin n → ℝ) (D : Fin n → ℝ), (∀ i, 0 ≤ D i) ∧ (∀ i, L i i = 1) ∧ (∀ i j, i < j → L i j = 0) ∧
      ∀ i j, A i j = ∑ k, L i k * D k * L j k := by
  intro n
  induction n with
  | zero => exact fun A _ _ => ⟨fun i => i.elim0, fun i => i.elim0, fun i => i.elim0, fun i => i.elim0, fun i => i.elim0, fun i => i.elim0⟩
  | succ n ih =>
    intro A hsym hA
    have expand : ∀ (t : ℝ) (w : Fin n → ℝ), 0 ≤ t * A 0 0 * t + 2 * t * ∑ j, A j.succ 0 * w j +
        ∑ i, ∑ j, w i * A i.succ j.succ * w j := by
      intro t w
      have h := hA (Fin.cons t w)
      simp only [Fin.sum_univ_succ, Fin.cons_zero, Fin.cons_succ, Finset.sum_add_distrib] at h
      have h1 : ∑ j : Fin n, t * A 0 j.succ * w j = t * ∑ j, A j.succ 0 * w j := by
        rw [Finset.mul_sum]; exact Finset.sum_congr rfl fun j _ => by rw [hsym 0]; ring
      have h2 : ∑ j : Fin n, w j * A j.succ 0 * t = t * ∑ j, A j.succ 0 * w j := by
        rw [Finset.mul_sum]; exact Finset.sum_congr rfl fun j _ => by ring
      rw [h1, h2] at h
      linarith
    have ha : 0 ≤ A 0 0 := by simpa using expand 1 0
    -- if the pivot is zero its column is zero
    have hz : A 0 0 = 0 → ∀ j : Fin n, A j.succ 0 = 0 := by
      intro h0 j
      have e : ∀ t : ℝ, 0 ≤ 2 * t * A j.succ 0 + A j.succ j.succ := by
        intro t
        have := expand t (Pi.single j 1)
        simpa [h0, Pi.single_apply] using this
      by_contra hc
      have := e (-(A j.succ j.succ + 1) / (2 * A j.succ 0))
      rw [show 2 * (-(A j.succ j.succ + 1) / (2 * A j.succ 0)) * A j.succ 0 = -(A j.succ j.succ + 1) by field_simp] at this
      linarith
    let l : Fin n → ℝ := fun j => A j.succ 0 / A 0 0
    have hl : ∀ j, l j * A 0 0 = A j.succ 0 := by
      intro j
      by_cases h0 : A 0 0 = 0
      · rw [h0, hz h0, mul_zero]
      · exact div_mul_cancel₀ _ h0
    let B : Fin n → Fin n → ℝ := fun i j => A i.succ j.succ - l i * A 0 0 * l j
    have hB : Semidefinite B := by
      intro w
      have h := expand (-∑ j, l j * w j) w
      have e1 : ∑ j, A j.succ 0 * w j = A 0 0 * ∑ j, l j * w j := by
        rw [Finset.mul_sum]; exact Finset.sum_congr rfl fun j _ => by rw [← hl]; ring
      have e2 : ∑ i, ∑ j, w i * B i j * w j = ∑ i, ∑ j, w i * A i.succ j.succ * w j - A 0 0 * ((∑ j, l j * w j) * ∑ j, l j * w j) := by
        rw [Finset.sum_mul_sum, Finset.mul_sum, ← Finset.sum_sub_distrib]
        refine Finset.sum_congr rfl fun i _ => ?_
        rw [Finset.mul_sum, ← Finset.sum_sub_distrib]
        exact Finset.sum_congr rfl fun j _ => by simp only [B]; ring
      rw [e1] at h
      rw [e2]
      linarith
    obtain ⟨L, D, hD, hU, hL, hd⟩ := ih B (fun i j => by simp only [B]; rw [hsym i.succ]; ring) hB
    refine ⟨fun i => Fin.cases (Fin.cons 1 0) (fun i => Fin.cons (l i) (L i)) i, Fin.cons (A 0 0) D, ?_, ?_, ?_, ?_⟩
    · intro i; refine Fin.cases ha (fun i => ?_) i; simpa using hD i
    · intro i; refine Fin.cases rfl (fun i => ?_) i; simpa using hU i
    · intro i j
      refine Fin.cases (fun h => ?_) (fun i => ?_) i
      · obtain ⟨j, rfl⟩ := Fin.exists_succ_eq.2 h.ne'
        simp
      · refine Fin.cases (fun h => absurd h (Fin.not_lt_zero _)) (fun j h => ?_) j
        simpa using hL i j (Fin.succ_lt_succ_iff.1 h)
    · intro i j
      rw [Fin.sum_univ_succ]
      refine Fin.cases ?_ (fun i => ?_) i <;> refine Fin.cases ?_ (fun j => ?_) j
      · simp
      · simp [hsym 0, ← hl]; ring
      · simp [← hl]
      · have := hd i j
        simp only [B] at this
        simp only [Fin.cons_zero, Fin.cases_succ, Fin.cons_succ]
        linarith

/-- **C19** the contract can be met by a routine that decomposes every positive semidefinite matrix, so `C19_accepts_iff` is
about something. -/
theorem C19_contract_complete (n : ℕ) : ∃ eigen : (Fin n → Fin n → ℝ) → Ldlt n ℝ,
    (∀ V, LdltContract V (eigen V)) ∧ Complete eigen := by
  classical
  have hp : permOf (fun i : Fin n => i) = 1 := by
    unfold permOf
    simp only [Equiv.swap_self]
    exact List.prod_eq_one (by simp; intro _; rfl)
  have key : ∀ V : Fin n → Fin n → ℝ, ∃ r : Ldlt n ℝ, LdltContract V r ∧
      (Semidefinite (symLower V) → r.success = true ∧ r.isPositive = true) := by
    intro V
    by_cases h : Semidefinite (symLower V)
    · obtain ⟨L, D, hD, hU, hL, hd⟩ := ldl_exists (symLower V) (fun i j => by
        simp only [symLower]
        split_ifs with h1 h2 h2
        · rw [le_antisymm h1 h2]
        · rfl
        · rfl
        · exact absurd (le_of_lt (not_le.1 h1)) h2) h
      exact ⟨⟨true, true, L, D, fun i => i⟩, ⟨fun _ _ => hD, hU, hL, fun _ i j => by simp only [hp]; exact hd i j⟩, fun _ => ⟨rfl, rfl⟩⟩
    · exact ⟨⟨false, false, fun i j => if i = j then 1 else 0, fun _ => 0, fun i => i⟩,
        ⟨by simp, by simp, fun i j hij => by simp [hij.ne], by simp⟩, fun h' => absurd h' h⟩
  choose f hf using key
  exact ⟨f, fun V => (hf V).1, fun V => (hf V).2⟩

/-- the decomposition of (4, 6; 6, 25) used for (4, 6; 6, 25 + 1/1000), with pivoting -/
example : ∃ out, ureals (5 : ℕ) 2 (fun i => if i = 0 then (10 : ℝ) else -3) 4
    (fun k : ℕ => ([4, 6, 6, 25 + 1 / 1000] : List ℝ).getD k 0) (fun _ _ => 77) (fun _ => exLdlt) = .ok (some out) ∧
    |25 + 1 / 1000 - cov (out 1) (out 1)| ≤ 1 / 1000 ∧ |6 - cov (out 0) (out 1)| ≤ 1 / 1000 := by
  have hp : ∀ k : Fin 2, permOf (fun _ : Fin 2 => (1 : Fin 2)) k = if k = 0 then 1 else 0 := by decide
  obtain ⟨out, h, -, -, hc⟩ := C19_ureals_near 5 2 (by norm_num) (fun i => if i = 0 then (10 : ℝ) else -3) 4
    (fun k : ℕ => ([4, 6, 6, 25 + 1 / 1000] : List ℝ).getD k 0) (fun _ _ => 77) (fun _ => exLdlt) (1 / 1000) (by
      refine ⟨exLdlt_contract.diag_nonneg, exLdlt_contract.unit, exLdlt_contract.lower, fun _ i j => ?_⟩
      simp only [exLdlt, hp, symLower, fillV]
      fin_cases i <;> fin_cases j <;> simp [Fin.sum_univ_two] <;> norm_num [abs_le]) rfl rfl rfl
  exact ⟨out, h, by simpa using hc 1 1, by simpa using hc 0 1⟩

/-- (1, 2; 2, 1) is not a covariance matrix: its decomposition has `D = (1, -3)` -/
example : ureals (5 : ℕ) 2 (fun _ => (0 : ℝ)) 4 (fun k : ℕ => ([1, 2, 2, 1] : List ℝ).getD k 0) (fun _ _ => 77)
    (fun _ => ⟨true, false, fun i j => if i = j then 1 else if j < i then 2 else 0, fun i => if i = 0 then 1 else -3, fun i => i⟩)
      = .error .runtimeError := by
  refine C19_rejects 5 2 _ 4 _ _ _ ?_ rfl ?_
  · have hp : ∀ k : Fin 2, permOf (fun i : Fin 2 => i) k = k := by decide
    refine ⟨by simp, by simp, fun i j h => by simp [h.ne, not_lt.2 h.le], fun _ i j => ?_⟩
    simp only [hp, symLower, fillV]
    fin_cases i <;> fin_cases j <;> simp [Fin.sum_univ_two] <;> norm_num
  · intro h
    have := h (fun i => if i = 0 then 1 else -1)
    simp [Fin.sum_univ_two] at this
    norm_num at this

/-- with such a routine, (4, 6; 6, 25) is accepted and (1, 2; 2, 1) is not -/
example : ∃ eigen : (Fin 2 → Fin 2 → ℝ) → Ldlt 2 ℝ,
    (∃ out, ureals (5 : ℕ) 2 (fun _ => (0 : ℝ)) 4 (fun k : ℕ => ([4, 6, 6, 25] : List ℝ).getD k 0) (fun _ _ => 77) eigen = .ok (some out)) ∧
    ¬ ∃ out, ureals (5 : ℕ) 2 (fun _ => (0 : ℝ)) 4 (fun k : ℕ => ([1, 2, 2, 1] : List ℝ).getD k 0) (fun _ _ => 77) eigen = .ok (some out) := by
  obtain ⟨eigen, hc, hcom⟩ := C19_contract_complete 2
  refine ⟨eigen, (C19_accepts_iff 5 2 (by norm_num) _ 4 _ _ eigen (hc _) hcom).2 ⟨rfl, fun v => ?_⟩, fun h => ?_⟩
  · simp [Fin.sum_univ_two]
    nlinarith [sq_nonneg (v 1 * 5 + v 0 * 6 / 5), sq_nonneg (v 0)]
  · have := ((C19_accepts_iff 5 2 (by norm_num) _ 4 _ _ eigen (hc _) hcom).1 h).2 (fun i => if i = 0 then 1 else -1)
    simp [Fin.sum_univ_two] at this
    norm_num at this

/-- **C19** empty arguments are accepted, whatever the decomposition routine, which is not called; an empty vector of means with a non-empty matrix is not. -/
theorem C19_empty (last : ℤ) (mu : Fin 0 → ℝ) (sz : ℕ) (cv : ℕ → ℝ) (junk : Fin 0 → Fin 0 → ℝ) (eigen : (Fin 0 → Fin 0 → ℝ) → Ldlt 0 ℝ) :
    ((∃ out, ureals last 0 mu sz cv junk eigen = .ok (some out)) ↔ sz = 0) ∧ (sz ≠ 0 → ureals last 0 mu sz cv junk eigen = .error .invalidArgument) := by
  have hb : badSizes 0 sz = true ↔ sz ≠ 0 := by simp [badSizes]
  rcases Nat.eq_zero_or_pos sz with rfl | h
  · exact ⟨⟨fun _ => rfl, fun _ => ⟨fun _ => UReal.default', by simp [ureals, badSizes]⟩⟩, fun h => absurd rfl h⟩
  · have : ureals last 0 mu sz cv junk eigen = .error .invalidArgument := by rw [ureals, if_pos (hb.2 h.ne')]
    exact ⟨⟨fun ⟨o, ho⟩ => (by rw [this] at ho; cases ho), fun h' => absurd h' h.ne'⟩, fun _ => this⟩

/-- even with a routine which always fails -/
example : (∃ out, ureals 5 0 ![] 0 (fun _ => (7 : ℝ)) (fun _ _ => 77) (fun _ => ⟨false, false, 0, 0, fun i => i⟩) = .ok (some out)) ∧
    ureals 5 0 ![] 3 (fun _ => 7) (fun _ _ => (77 : ℝ)) (fun _ => ⟨false, false, 0, 0, fun i => i⟩) = .error .invalidArgument :=
  ⟨(C19_empty 5 ![] 0 _ _ _).1.2 rfl, (C19_empty 5 ![] 3 _ _ _).2 (by norm_num)⟩

end Unc.Props
