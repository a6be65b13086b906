import Verif.Spec.Ldlt
import Verif.Props.Programs
import Verif.Props.Threads

/-! # `ureals` (C19) -/

namespace Unc.Props
open Unc Unc.Spec UReal UReals

theorem badSizes_iff (n sz : ℕ) : badSizes n sz = true ↔ sz ≠ n * n := by
  unfold badSizes
  by_cases hn : n = 0
  · simp [hn]
  · have hp : 0 < n := Nat.pos_of_ne_zero hn
    simp only [ne_eq, hn, not_false_eq_true, if_true, Bool.or_eq_true, decide_eq_true_eq]
    constructor
    · rintro (h | h) rfl
      · exact h (by simp)
      · exact h (by simp [hp])
    · intro h
      by_contra hc
      push Not at hc
      apply h
      rw [← Nat.div_add_mod sz n, hc.1, hc.2, add_zero]

theorem iterate_nextId_from (m k : ℕ) (h : m + k ≤ 2147483647) : nextId^[k] (m : ℤ) = (m + k : ℕ) := by
  induction k with
  | zero => rfl
  | succ k ih => rw [Function.iterate_succ_apply', ih (by omega), nextId_nat (by omega)]; rfl

/-- compound assignment keeps values usable -/
theorem addAssign_ok {x y : UReal ℝ} (hx : Ok x) (hy : Ok y) :
    Ok (addAssign x y) ∧ (addAssign x y).mu = x.mu + y.mu ∧ ∀ i, (addAssign x y).coef i = x.coef i + y.coef i := by
  refine ⟨⟨valid_binaryAssign hx.valid.wf hy.valid.wf _ _ _, ?_⟩, rfl, fun i => ?_⟩
  · intro i hi
    rw [addAssign, deps_binaryAssign hx.valid.wf] at hi
    rcases Finset.mem_union.1 hi with h | h
    exacts [hx.below i h, hy.below i h]
  · have := congrFun (congrArg LinForm.coef (toLin_binaryAssign hx.valid.wf hy.valid.wf (x.mu + y.mu) 1 1)) i
    simp only [LinForm.comb, toLin, one_mul] at this
    exact this

theorem const_ok (n : ℝ) : Ok (UReal.const n) ∧ ∀ i, (UReal.const n).coef i = 0 :=
  ⟨⟨valid_const n, by simp [Below, deps, UReal.const]⟩, fun i => by simp [coef, UReal.const]⟩

/-- one element of the output before permutation -/
theorem mkOut_spec {n : ℕ} (L : Fin n → Fin n → ℝ) (x : Fin n → UReal ℝ) (hx : ∀ i, Ok (x i)) (hmu : ∀ i, (x i).mu = 0)
    (hunit : ∀ i, L i i = 1) (hlow : ∀ i j, i < j → L i j = 0) (i : Fin n) :
    ∃ y, mkOut L x i = some y ∧ Ok y ∧ y.mu = 0 ∧ ∀ k, y.coef k = ∑ j, L i j * (x j).coef k := by
  have key : ∀ (js : List (Fin n)) (y0 : UReal ℝ), Ok y0 → y0.mu = 0 →
      ∃ y, js.foldlM (fun y j => (UReal.mul (UReal.const (L i j)) (x j)).map (UReal.addAssign y)) y0 = some y ∧ Ok y ∧ y.mu = 0 ∧
        ∀ k, y.coef k = y0.coef k + (js.map fun j => L i j * (x j).coef k).sum := by
    intro js
    induction js with
    | nil => intro y0 h0 hm; exact ⟨y0, rfl, h0, hm, fun k => by simp⟩
    | cons j t ih =>
      intro y0 h0 hm
      obtain ⟨z, ez, oz, mz, cz⟩ := binary_ok (const_ok (L i j)).1 (hx j) ((UReal.const (L i j)).mu * (x j).mu) (x j).mu (UReal.const (L i j)).mu
      obtain ⟨o1, m1, c1⟩ := addAssign_ok h0 oz
      obtain ⟨y, e, oy, my, cy⟩ := ih (addAssign y0 z) o1 (by rw [m1, hm, mz, hmu j]; ring)
      refine ⟨y, ?_, oy, my, fun k => ?_⟩
      · simp only [List.foldlM_cons, UReal.mul, ez]
        exact e
      · rw [cy, c1, cz, (const_ok (L i j)).2]
        simp [UReal.const]; ring
  have hdef : Ok (UReal.default' : UReal ℝ) := (const_ok 0).1
  obtain ⟨y, e, oy, my, cy⟩ := key ((List.finRange n).filter (· < i)) UReal.default' hdef rfl
  obtain ⟨o1, m1, c1⟩ := addAssign_ok oy (hx i)
  refine ⟨addAssign y (x i), by simp [mkOut, e], o1, by rw [m1, my, hmu]; ring, fun k => ?_⟩
  rw [c1, cy, show (UReal.default' : UReal ℝ).coef k = 0 from (const_ok 0).2 k, zero_add]
  have h1 : (((List.finRange n).filter (· < i)).map fun j => L i j * (x j).coef k).sum
      = ∑ j ∈ Finset.univ.filter (· < i), L i j * (x j).coef k := by
    rw [← List.sum_toFinset _ ((List.nodup_finRange n).filter _)]
    refine Finset.sum_congr ?_ (fun _ _ => rfl)
    ext j; simp
  rw [h1, ← Finset.sum_filter_add_sum_filter_not Finset.univ (· < i) (fun j => L i j * (x j).coef k)]
  congr 1
  rw [Finset.sum_eq_single i]
  · rw [hunit, one_mul]
  · intro j hj hne
    simp at hj
    rw [hlow i j (lt_of_le_of_ne hj (Ne.symm hne)), zero_mul]
  · intro h; simp at h

theorem swapAt_eq {α : Type*} {n : ℕ} (out : Fin n → α) (a b : Fin n) : swapAt out a b = out ∘ Equiv.swap a b := by
  funext k
  simp only [swapAt, Function.comp, Equiv.swap_apply_def]
  split_ifs <;> rfl

/-- the permutation loop undoes `P` -/
theorem permute_eq {α : Type*} {n : ℕ} (perm : Fin n → Fin n) (out : Fin n → α) :
    permute perm out = out ∘ ⇑((permOf perm)⁻¹) := by
  unfold permute permOf
  have : ∀ (l : List (Fin n)) (out : Fin n → α), l.reverse.foldl (fun out i => swapAt out i (perm i)) out
      = out ∘ ⇑(((l.map fun k => Equiv.swap k (perm k)).prod)⁻¹) := by
    intro l
    induction l with
    | nil => intro out; rfl
    | cons a t ih =>
      intro out
      simp only [List.reverse_cons, List.foldl_append, List.foldl_cons, List.foldl_nil, List.map_cons, List.prod_cons,
        mul_inv_rev, Equiv.swap_inv]
      rw [ih, swapAt_eq]
      rfl
  exact this _ _

/-- covariance of a linear combination -/
theorem cov_lincomb {ι : Type*} [Fintype ι] {y w : UReal ℝ} (hy : y.Valid) (hw : w.Valid) (a : ι → ℝ) (x : ι → UReal ℝ)
    (hx : ∀ i, (x i).Valid) (h : ∀ k, y.coef k = ∑ i, a i * (x i).coef k) : cov y w = ∑ i, a i * cov (x i) w := by
  rw [cov_eq hy.wf hw.wf, LinForm.cov_eq_sum' (supported w) _ subset_rfl]
  have : ∀ i, a i * cov (x i) w = ∑ k ∈ w.toLin.deps, a i * ((x i).toLin.coef k * w.toLin.coef k) := by
    intro i
    rw [cov_eq (hx i).wf hw.wf, LinForm.cov_eq_sum' (supported w) _ subset_rfl, Finset.mul_sum]
  simp only [this]
  rw [Finset.sum_comm]
  refine Finset.sum_congr rfl (fun k _ => ?_)
  rw [show y.toLin.coef k = ∑ i, a i * (x i).coef k from h k, Finset.sum_mul]
  exact Finset.sum_congr rfl (fun i _ => by simp only [toLin]; ring)

/-- the independent variables created by `ureals` -/
theorem mkX_spec (last n : ℕ) (hl : last + n < 2147483647) (D : Fin n → ℝ) (hD : ∀ i, 0 ≤ D i) :
    ∃ x : Fin n → UReal ℝ, mkX (last : ℤ) D = some (.ok x) ∧ (∀ i, Ok (x i)) ∧ (∀ i, (x i).mu = 0) ∧
      ∀ i j, cov (x i) (x j) = if i = j then D i else 0 := by
  obtain ⟨f, hf⟩ : ∃ f : ℕ → ℤ, ∀ k, f k = nextId^[k] (last : ℤ) := ⟨_, fun _ => rfl⟩
  have hid : ∀ i : Fin n, f (i.1 + 1) = ((last + (i.1 + 1) : ℕ) : ℤ) := fun i => by
    rw [hf]; exact iterate_nextId_from _ _ (by have := i.2; omega)
  have hidpos : ∀ i : Fin n, 0 < f (i.1 + 1) := fun i => by rw [hid]; push_cast; omega
  refine ⟨fun i => ⟨f (i.1 + 1), CSqrt.sqrt (D i), 0, []⟩, ?_, ?_, fun _ => rfl, ?_⟩
  · unfold mkX
    rw [if_pos (fun i => (leb_iff _ _).2 (hD i)), if_pos]
    · simp only [hf]
    · intro i
      rw [← Bool.not_eq_true, ltb_iff, csqrt_real]
      exact not_lt.2 (Real.sqrt_nonneg _)
  · intro i
    refine ⟨valid_of_nonneg_id ⟨fun h => absurd h (hidpos i).ne', fun _ => rfl, by simp, by simp⟩ (hidpos i).le, ?_⟩
    intro k hk
    simp only [deps, hidpos i, if_true, Finset.mem_singleton] at hk
    have h2 := i.2
    have h3 : k = ((last + (i.1 + 1) : ℕ) : ℤ) := hk.trans (hid i)
    rw [h3]
    unfold maxId
    omega
  · intro i j
    unfold cov
    simp only [hidpos i, hidpos j, and_self, if_true, csqrt_real]
    by_cases hij : i = j
    · subst hij
      simp [Real.mul_self_sqrt (hD i)]
    · have : f (i.1 + 1) ≠ f (j.1 + 1) := by
        rw [hid, hid]; intro h; apply hij; ext; push_cast at h; omega
      simp [this, hij]

/-- **C19** which exceptions are thrown: `std::invalid_argument` iff the sizes do not match; `std::runtime_error` iff the sizes
match, the matrix is not empty and the decomposition failed or is not positive.  Needs only the Eigen contract. -/
theorem C19_throws_iff (last n : ℕ) (mu : Fin n → ℝ) (sz : ℕ) (cv : ℕ → ℝ) (junk : Fin n → Fin n → ℝ)
    (eigen : (Fin n → Fin n → ℝ) → Ldlt n ℝ) (heig : LdltContract (fillV cv junk) (eigen (fillV cv junk))) :
    (ureals last n mu sz cv junk eigen = .error .invalidArgument ↔ sz ≠ n * n) ∧
    (ureals last n mu sz cv junk eigen = .error .runtimeError ↔ sz = n * n ∧ n ≠ 0 ∧
      ((eigen (fillV cv junk)).success = false ∨ (eigen (fillV cv junk)).isPositive = false)) := by
  unfold ureals
  have hb := badSizes_iff n sz
  by_cases h1 : sz = n * n
  · have hb' : badSizes n sz = false := by rw [← Bool.not_eq_true, hb]; simp [h1]
    subst h1
    simp only [hb', Bool.false_eq_true, if_false, ne_eq, not_true_eq_false, iff_false, true_and]
    by_cases hn : n = 0
    · simp [hn]
    · simp only [hn, if_false, not_false_eq_true, true_and]
      set r := eigen (fillV cv junk) with hr
      by_cases hs : r.success = false
      · simp [hs]
      · by_cases hp : r.isPositive = false
        · simp [hs, hp]
        · have hD := heig.diag_nonneg (by simpa using hs) (by simpa using hp)
          simp only [hs, hp, if_false, or_self, iff_false]
          have hx : mkX (last : ℤ) r.D = some (.ok fun i => ⟨nextId^[i.1 + 1] (last : ℤ), CSqrt.sqrt (r.D i), 0, []⟩) := by
            unfold mkX
            rw [if_pos (fun i => (leb_iff _ _).2 (hD i)), if_pos]
            intro i
            rw [← Bool.not_eq_true, ltb_iff, csqrt_real]
            exact not_lt.2 (Real.sqrt_nonneg _)
          rw [hx]
          simp only [Bool.not_eq_false] at hs hp
          simp only [hs, hp, reduceCtorEq, if_false]
          constructor <;> (split_ifs <;> simp)
  · have hb' : badSizes n sz = true := hb.2 h1
    simp [hb', h1]

/-- **C19** when it returns, means are `mu` and the covariance matrix is the symmetric completion of the entries
`cov[i + n * j]`, `j <= i` (the lower triangle in column-major reading); no undefined behaviour; uninitialised memory has no effect. -/
theorem C19_ureals_cov (last n : ℕ) (hl : last + n < 2147483647) (mu : Fin n → ℝ) (sz : ℕ) (cv : ℕ → ℝ) (junk : Fin n → Fin n → ℝ)
    (eigen : (Fin n → Fin n → ℝ) → Ldlt n ℝ) (heig : LdltContract (fillV cv junk) (eigen (fillV cv junk)))
    (hsz : sz = n * n) (hs : (eigen (fillV cv junk)).success = true) (hp : (eigen (fillV cv junk)).isPositive = true) :
    ∃ out, ureals last n mu sz cv junk eigen = .ok (some out) ∧ (∀ i, Ok (out i)) ∧ (∀ i, (out i).n = mu i) ∧
      ∀ i j : Fin n, cov (out i) (out j) = if j ≤ i then cv (i + n * j) else cv (j + n * i) := by
  by_cases hn : n = 0
  · subst hn
    refine ⟨fun _ => UReal.default', ?_, fun i => i.elim0, fun i => i.elim0, fun i => i.elim0⟩
    unfold ureals
    have : badSizes 0 sz = false := by rw [← Bool.not_eq_true, badSizes_iff]; simp [hsz]
    simp [this]
  have hb' : badSizes n sz = false := by rw [← Bool.not_eq_true, badSizes_iff]; simp [hsz]
  obtain ⟨cD, cU, cL, cA⟩ := heig
  set r := eigen (fillV cv junk) with hr
  have hD := cD hs hp
  obtain ⟨x, hx, okx, mux, covx⟩ := mkX_spec last n hl r.D hD
  have spec := mkOut_spec r.L x okx mux cU cL
  choose y hy oky muy cy using spec
  have hsome : ∀ i, (mkOut r.L x i).isSome := fun i => by rw [hy]; rfl
  have hout : (fun i => (mkOut r.L x i).get (hsome i)) = y := by
    funext i; simp [hy]
  have hperm : permute r.perm y = y ∘ ⇑((permOf r.perm)⁻¹) := permute_eq _ _
  refine ⟨fun i => addAssign (y ((permOf r.perm)⁻¹ i)) (UReal.const (mu i)), ?_, ?_, ?_, ?_⟩
  · unfold ureals
    simp only [hb', Bool.false_eq_true, if_false, hn, ← hr, hs, hp, reduceCtorEq, hx, hsome, implies_true, dite_true, hout, hperm]
    rfl
  · exact fun i => (addAssign_ok (oky _) (const_ok _).1).1
  · intro i
    have := (addAssign_ok (oky ((permOf r.perm)⁻¹ i)) (const_ok (mu i)).1).2.1
    simp only [UReal.n, this, muy]
    simp [UReal.const]
  · intro i j
    set a := (permOf r.perm)⁻¹ i with ha
    set b := (permOf r.perm)⁻¹ j with hb
    have hcoef : ∀ (c : Fin n) (m : ℝ) k, (addAssign (y c) (UReal.const m)).coef k = ∑ l, r.L c l * (x l).coef k := by
      intro c m k
      rw [(addAssign_ok (oky c) (const_ok m).1).2.2, (const_ok m).2, add_zero, cy]
    have hva := (addAssign_ok (oky a) (const_ok (mu i)).1).1.valid
    have hvb := (addAssign_ok (oky b) (const_ok (mu j)).1).1.valid
    rw [cov_lincomb hva hvb (r.L a) x (fun l => (okx l).valid) (hcoef a _)]
    have h2 : ∀ l, cov (x l) (addAssign (y b) (UReal.const (mu j))) = r.D l * r.L b l := by
      intro l
      rw [C02_cov_symm (okx l).valid hvb, cov_lincomb hvb (okx l).valid (r.L b) x (fun l => (okx l).valid) (hcoef b _)]
      rw [Finset.sum_eq_single l]
      · rw [covx, if_pos rfl, mul_comm]
      · intro q _ hq; rw [covx, if_neg hq, mul_zero]
      · intro h; simp at h
    simp only [h2]
    have h3 := cA hs a b
    have ha' : permOf r.perm a = i := Equiv.apply_symm_apply (permOf r.perm) i
    have hb2 : permOf r.perm b = j := Equiv.apply_symm_apply (permOf r.perm) j
    rw [ha', hb2] at h3
    rw [show (∑ l, r.L a l * (r.D l * r.L b l)) = ∑ l, r.L a l * r.D l * r.L b l from
      Finset.sum_congr rfl (fun l _ => by ring), ← h3]
    simp only [symLower, fillV]
    split_ifs with h4 h5
    · rfl
    · rfl
    · exact absurd (le_of_lt (not_le.1 h4)) h5

/-- A decomposition routine meeting the contract exists for every size (a non-vacuous contract): fail on everything but matrices
that are already diagonal. -/
example (n : ℕ) : ∃ eigen : (Fin n → Fin n → ℝ) → Ldlt n ℝ, (∀ V, LdltContract V (eigen V)) ∧
    ∀ d : Fin n → ℝ, (∀ i, 0 ≤ d i) → (eigen fun i j => if i = j then d i else 0).success = true ∧
      (eigen fun i j => if i = j then d i else 0).isPositive = true := by
  classical
  refine ⟨fun V => ⟨decide (∀ i j, j < i → V i j = 0), decide (∀ i, 0 ≤ V i i), fun i j => if i = j then 1 else 0, fun i => V i i, fun i => i⟩,
    fun V => ⟨?_, by simp, ?_, ?_⟩, fun d hd => ?_⟩
  · intro _ h; simpa using h
  · intro i j h; simp [h.ne]
  · intro h i j
    have h' : ∀ i j, j < i → V i j = 0 := by simpa using h
    have hp : permOf (fun i : Fin n => i) = 1 := by
      unfold permOf
      simp only [Equiv.swap_self]
      exact List.prod_eq_one (by simp; intro _; rfl)
    simp only [hp, Equiv.Perm.one_apply, symLower]
    by_cases hij : i = j
    · subst hij; simp
    · have : ∑ x, (if i = x then (1 : ℝ) else 0) * V x x * (if j = x then 1 else 0) = 0 := by
        refine Finset.sum_eq_zero (fun k _ => ?_)
        by_cases h1 : i = k
        · have : j ≠ k := fun h2 => hij (h1.trans h2.symm)
          simp [this]
        · simp [h1]
      rw [this]
      split_ifs with h3
      · exact h' i j (lt_of_le_of_ne h3 (Ne.symm hij))
      · exact h' j i (not_le.1 h3)
  · simp only [decide_eq_true_eq]
    exact ⟨fun i j h => by simp [h.ne'], fun i => by simpa using hd i⟩

/-- a correlated case with a non-trivial permutation: covariance (4, 6; 6, 25), pivot on the second variable: `P` swaps,
`L = (1, 0; 6/25, 1)`, `D = (25, 64/25)`; the never written entry above the diagonal is 77 -/
noncomputable def exLdlt : Ldlt 2 ℝ :=
  ⟨true, true, fun i j => if i = j then 1 else if j < i then 6 / 25 else 0, fun i => if i = 0 then 25 else 64 / 25, fun _ => 1⟩

theorem exLdlt_contract :
    LdltContract (fillV (fun k : ℕ => ([4, 6, 6, 25] : List ℝ).getD k 0) (fun _ _ => 77)) exLdlt := by
  have hp : ∀ k : Fin 2, permOf (fun _ : Fin 2 => (1 : Fin 2)) k = if k = 0 then 1 else 0 := by decide
  refine ⟨?_, by simp [exLdlt], ?_, ?_⟩
  · intro _ _ i; simp only [exLdlt]; split_ifs <;> norm_num
  · intro i j h; simp [exLdlt, h.ne, not_lt.2 h.le]
  · intro _ i j
    simp only [exLdlt, hp, symLower, fillV]
    fin_cases i <;> fin_cases j <;> simp [Fin.sum_univ_two] <;> norm_num

example : ∃ out, ureals (5 : ℕ) 2 (fun i => if i = 0 then (10 : ℝ) else -3) 4 (fun k : ℕ => ([4, 6, 6, 25] : List ℝ).getD k 0)
    (fun _ _ => 77) (fun _ => exLdlt) = .ok (some out) ∧ (out 0).n = 10 ∧ (out 1).n = -3 ∧ cov (out 0) (out 0) = 4 ∧
      cov (out 0) (out 1) = 6 ∧ cov (out 1) (out 0) = 6 ∧ cov (out 1) (out 1) = 25 := by
  obtain ⟨out, h, -, hn, hc⟩ := C19_ureals_cov 5 2 (by norm_num) (fun i => if i = 0 then (10 : ℝ) else -3) 4
    (fun k : ℕ => ([4, 6, 6, 25] : List ℝ).getD k 0) (fun _ _ => 77) (fun _ => exLdlt) exLdlt_contract rfl rfl rfl
  exact ⟨out, h, by simp [hn], by simp [hn], by simp [hc], by simp [hc], by simp [hc], by simp [hc]⟩

/-- wrong size; failed decomposition -/
example : ureals (5 : ℕ) 2 (fun _ => (0 : ℝ)) 3 (fun _ => 0) (fun _ _ => 77) (fun _ => exLdlt) = .error .invalidArgument := by
  simp [ureals, badSizes]

example : ureals (5 : ℕ) 2 (fun _ => (0 : ℝ)) 4 (fun _ => 1) (fun _ _ => 77) (fun _ => { exLdlt with isPositive := false })
    = .error .runtimeError := by
  simp [ureals, badSizes, exLdlt]

example : ureals (5 : ℕ) 2 (fun i => if i = 0 then (10 : ℝ) else -3) 5 (fun k : ℕ => ([4, 6, 6, 25] : List ℝ).getD k 0)
    (fun _ _ => 77) (fun _ => exLdlt) = .error .invalidArgument :=
  (C19_throws_iff 5 2 (fun i => if i = 0 then (10 : ℝ) else -3) 5 (fun k : ℕ => ([4, 6, 6, 25] : List ℝ).getD k 0) (fun _ _ => 77)
    (fun _ => exLdlt) exLdlt_contract).1.2 (by norm_num)

end Unc.Props
