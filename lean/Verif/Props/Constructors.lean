import Verif.Lemmas.Check
import Verif.Props.Moments
import Verif.Model.World2
import Verif.Props.Programs

/-!
# Constructors of `UReal2` and the check of the moments: C10, C30, C31

The eigenvalue solver is an assumption, `EigenSolver` in `Verif/Spec/Check.lean`; arithmetic is exact.
-/

namespace Unc.Props
open Unc SMap HessGrad Mom Check MeasureTheory

/-! ## C31 -/

/-- A solver with the contract exists. -/
noncomputable def exactSolve (M : ℕ → ℕ → ℝ) : Option (List ℝ) := some (symLower M).charpoly.roots.toList

theorem exactSolve_ok : EigenSolver exactSolve := fun M => ⟨_, rfl, Multiset.coe_toList _⟩

/-- **C31** `hamburger` returns what its comment says: 0 if no eigenvalue is negative, 1 if all are, otherwise the
smallest over the largest. -/
theorem C31_hamburger {R : Type*} [Field R] [LinearOrder R] [IsStrictOrderedRing R] (v : List R) (hv : v ≠ []) :
    ((∀ a ∈ v, 0 ≤ a) → hamburger (some v) = .ok 0) ∧
    ((∀ a ∈ v, a < 0) → hamburger (some v) = .ok 1) ∧
    ∀ lo ∈ v, ∀ hi ∈ v, lo < 0 → 0 ≤ hi → (∀ a ∈ v, lo ≤ a) → (∀ a ∈ v, a ≤ hi) →
      hamburger (some v) = .ok (lo / hi) := by
  obtain ⟨b, hb⟩ := List.exists_mem_of_ne_nil v hv
  obtain ⟨h1, h2⟩ := eig_loop v
  unfold hamburger
  dsimp only
  generalize v.foldl eigStep (-1, 1) = st at *
  refine ⟨fun h => ?_, fun h => ?_, fun lo hlo hi hhi l0 h0 hmin hmax => ?_⟩
  · have h1' := h1.resolve_left fun ⟨_, h'⟩ => absurd (h' b hb) (not_lt.2 (h b hb))
    have h2' := h2.resolve_right fun ⟨e, h', _⟩ => absurd e (not_lt.2 (h _ h'))
    rw [if_neg (by simpa [ltb_iff] using h1'.1), if_pos (by rw [ltb_iff, h2'.1]; exact one_pos)]
  · have h1' := h1.resolve_right fun ⟨e, h', _⟩ => absurd (h _ h') (not_lt.2 e)
    rw [if_pos (by rw [ltb_iff, h1'.1]; norm_num)]
  · have h1' := h1.resolve_left fun ⟨_, h'⟩ => absurd (h' hi hhi) (not_lt.2 h0)
    have h2' := h2.resolve_left fun ⟨_, h'⟩ => absurd (h' lo hlo) (not_le.2 l0)
    rw [if_neg (by simpa [ltb_iff] using h1'.1), if_neg (by simpa [ltb_iff] using h2'.1.le),
      le_antisymm (h2'.2.2 lo hlo) (hmin _ h2'.2.1), le_antisymm (hmax _ h1'.2.1) (h1'.2.2 hi hhi)]

example : hamburger (some [2, 0, (1 : ℚ)]) = .ok 0 := (C31_hamburger _ (by simp)).1 (by simp)
example : hamburger (some [-2, -3, (-1 : ℚ)]) = .ok 1 := (C31_hamburger _ (by simp)).2.1 (by simp)
example : hamburger (some [-2, 4, (-1 : ℚ), 1]) = .ok (-2 / 4) :=
  (C31_hamburger _ (by simp)).2.2 (-2) (by simp) 4 (by simp) (by norm_num) (by norm_num) (by norm_num) (by norm_num)

/-- The divisor in `hamburger` is positive, and the check is positive semidefiniteness, up to the threshold. -/
theorem check_core {solve : (ℕ → ℕ → ℝ) → Option (List ℝ)} (hs : EigenSolver solve) {M : ℕ → ℕ → ℝ} {a : ℕ → ℝ}
    (h0 : 0 < a 0) (hM : ∀ i j, j ≤ i → M i j = a (i + j)) :
    ∃ v hi, solve M = some v ∧ (v.foldl eigStep (-1, 1)).1 = hi ∧ 0 < hi ∧ (v : Multiset ℝ) = (hankel a).charpoly.roots ∧
      hi ∈ v ∧ (∀ r ∈ v, r ≤ hi) ∧
      ((∀ r ∈ v, 0 ≤ r) ∧ hamburger (solve M) = .ok 0 ∨
        ∃ lo ∈ v, lo < 0 ∧ (∀ r ∈ v, lo ≤ r) ∧ hamburger (solve M) = .ok (lo / hi)) := by
  obtain ⟨v, e, hv⟩ := hs M
  rw [sym_eq hM] at hv
  obtain ⟨p, hp, hp0⟩ := exists_pos a h0
  have hpv : p ∈ v := by rw [← Multiset.mem_coe, hv]; exact hp
  have hne : v ≠ [] := List.ne_nil_of_mem hpv
  obtain ⟨h1, h2⟩ := eig_loop v
  have h1' := h1.resolve_left fun ⟨_, h'⟩ => absurd (h' p hpv) (not_lt.2 hp0.le)
  refine ⟨v, _, e, rfl, hp0.trans_le (h1'.2.2 p hpv), hv, h1'.2.1, h1'.2.2, ?_⟩
  rw [e]
  rcases h2 with ⟨_, h⟩ | ⟨l, h, h'⟩
  · exact Or.inl ⟨h, (C31_hamburger v hne).1 h⟩
  · exact Or.inr ⟨_, h, l, h', (C31_hamburger v hne).2.2 _ h _ h1'.2.1 l h1'.1 h' h1'.2.2⟩

theorem check_iff {solve : (ℕ → ℕ → ℝ) → Option (List ℝ)} (hs : EigenSolver solve) {o : ℤ} {mom : ℕ → ℝ}
    {junk : ℕ → ℕ → ℝ} {a : ℕ → ℝ} (h0 : 0 < a 0) (hM : ∀ i j, j ≤ i → hkMatrix o mom junk i j = a (i + j)) :
    (HankelPSD a → checkThrow solve junk o mom 0 = some (.ok ())) ∧
    (¬ HankelPSD a → checkThrow solve junk o mom 0 = some (.error .invalidArgument)) := by
  obtain ⟨v, hi, e, -, hpos, hv, -, -, h⟩ := check_core hs h0 hM
  have hr : HankelPSD a ↔ ∀ r ∈ v, 0 ≤ r := by rw [roots_nonneg, ← hv]; simp
  rw [hr]
  unfold checkThrow
  rw [if_neg (by simp [leb_iff])]
  rcases h with ⟨h, e'⟩ | ⟨lo, hlo, l0, -, e'⟩ <;> rw [e'] <;> dsimp only
  · refine ⟨fun _ => ?_, fun hn => absurd h hn⟩
    rw [if_neg]
    simp [ltb_iff]
  · refine ⟨fun hn => absurd (hn lo hlo) (not_le.2 l0), fun _ => ?_⟩
    rw [if_pos]
    simp only [neg_zero, Bool.or_eq_true, ltb_iff]
    exact Or.inl (div_neg_of_neg_of_pos l0 hpos)

/-- **C31** Standardized moments, threshold 0: `check_moments_throw` returns if the Hankel matrix is positive
semidefinite, otherwise it throws `std::invalid_argument`. -/
theorem C31_std {solve : (ℕ → ℕ → ℝ) → Option (List ℝ)} (hs : EigenSolver solve) (v : ℕ → ℝ) (junk : ℕ → ℕ → ℝ) :
    (HankelPSD (seqStd v) → checkThrow solve junk 0 v 0 = some (.ok ())) ∧
    (¬ HankelPSD (seqStd v) → checkThrow solve junk 0 v 0 = some (.error .invalidArgument)) :=
  check_iff hs one_pos fun _ _ h => hk_std v junk h

/-- **C31** Central moments. -/
theorem C31_central {solve : (ℕ → ℕ → ℝ) → Option (List ℝ)} (hs : EigenSolver solve) (m : ℕ → ℝ) (junk : ℕ → ℕ → ℝ) :
    (HankelPSD (seqCentral m) → checkThrow solve junk 1 m 0 = some (.ok ())) ∧
    (¬ HankelPSD (seqCentral m) → checkThrow solve junk 1 m 0 = some (.error .invalidArgument)) :=
  check_iff hs one_pos fun _ _ h => hk_central m junk h

/-- **C31** With a positive threshold the moments are accepted exactly if no eigenvalue is below minus the threshold
times the largest one. -/
theorem C31_threshold {solve : (ℕ → ℕ → ℝ) → Option (List ℝ)} (hs : EigenSolver solve) (v : ℕ → ℝ)
    (junk : ℕ → ℕ → ℝ) {t : ℝ} (ht : 0 ≤ t) :
    checkThrow solve junk 0 v t = some (.ok ()) ↔
      ∃ hi ∈ (Matrix.of fun i j : Fin 5 => seqStd v (i + j)).charpoly.roots,
        ∀ r ∈ (Matrix.of fun i j : Fin 5 => seqStd v (i + j)).charpoly.roots, r ≤ hi ∧ -(t * hi) ≤ r := by
  obtain ⟨l, hi, e, -, hpos, hv, hmem, hmax, h⟩ := check_core hs (a := seqStd v) one_pos fun _ _ h => hk_std v junk h
  unfold hankel at hv
  rw [← hv]
  simp only [Multiset.mem_coe]
  unfold checkThrow
  rw [if_neg (by simpa [leb_iff] using ht)]
  rcases h with ⟨h, e'⟩ | ⟨lo, hlo, l0, hmin, e'⟩ <;> rw [e'] <;> dsimp only
  · refine iff_of_true ?_ ⟨hi, hmem, fun r hr => ⟨hmax r hr, ?_⟩⟩
    · rw [if_neg]
      simp [ltb_iff, ht]
    · have := mul_nonneg ht hpos.le
      linarith [h r hr]
  · have hq : lo / hi < 0 := div_neg_of_neg_of_pos l0 hpos
    have key : (CCmp.ltb (lo / hi) (-t) || CCmp.ltb 0 (lo / hi)) = true ↔ lo < -(t * hi) := by
      rw [Bool.or_eq_true, ltb_iff, ltb_iff, or_iff_left (not_lt.2 hq.le), div_lt_iff₀ hpos, neg_mul]
    constructor
    · intro hh
      refine ⟨hi, hmem, fun r hr => ⟨hmax r hr, ?_⟩⟩
      by_contra hc
      rw [if_pos (key.2 (lt_of_le_of_lt (hmin r hr) (not_le.1 hc)))] at hh
      simp at hh
    · rintro ⟨hi', hm', hh⟩
      obtain rfl : hi' = hi := le_antisymm (hmax _ hm') (hh _ hmem).1
      rw [if_neg]
      rw [key]
      exact not_lt.2 (hh lo hlo).2

/-- **C31** The division by the largest eigenvalue is never by zero, whatever the moments. -/
theorem C31_no_div_zero {solve : (ℕ → ℕ → ℝ) → Option (List ℝ)} (hs : EigenSolver solve) (v : ℕ → ℝ)
    (junk : ℕ → ℕ → ℝ) :
    (∃ l, solve (hkMatrix 0 v junk) = some l ∧ 0 < (l.foldl eigStep (-1, 1)).1) ∧
    ∃ l, solve (hkMatrix 1 v junk) = some l ∧ 0 < (l.foldl eigStep (-1, 1)).1 := by
  obtain ⟨l, hi, e, eh, hpos, -⟩ := check_core hs (a := seqStd v) one_pos fun _ _ h => hk_std v junk h
  obtain ⟨l', hi', e', eh', hpos', -⟩ := check_core hs (a := seqCentral v) one_pos fun _ _ h => hk_central v junk h
  exact ⟨⟨l, e, eh ▸ hpos⟩, ⟨l', e', eh' ▸ hpos'⟩⟩

/-- **C31** A negative threshold disables the check: the solver is not called. -/
theorem C31_disabled {R : Type*} [Zero R] [One R] [Neg R] [Div R] [NatCast R] [CCmp R]
    (solve : (ℕ → ℕ → R) → Option (List R)) (junk : ℕ → ℕ → R) (o : ℤ) (m : ℕ → R) {t : R} (ht : CCmp.ltb t 0 = true) :
    ctorCheck solve junk o m t = some (.ok ()) := by
  simp [ctorCheck, ht]

/-- The Hankel form of the moments of a random variable is an expectation of a square. -/
theorem hankel_of_int {Ω : Type*} [MeasurableSpace Ω] {P : Measure Ω} {Y : Ω → ℝ} {a : ℕ → ℝ}
    (hint : ∀ k ≤ 8, Integrable (fun ω => Y ω ^ k) P) (ha : ∀ k ≤ 8, a k = ∫ ω, Y ω ^ k ∂P) : HankelPSD a := by
  intro c
  have e : ∑ i : Fin 5, ∑ j : Fin 5, c i * c j * a (i + j)
      = ∫ ω, (∑ i : Fin 5, c i * Y ω ^ (i : ℕ)) ^ 2 ∂P := by
    have hk : ∀ i j : Fin 5, (i : ℕ) + j ≤ 8 := fun i j => by omega
    have h1 : ∀ ω, (∑ i : Fin 5, c i * Y ω ^ (i : ℕ)) ^ 2
        = ∑ i : Fin 5, ∑ j : Fin 5, c i * c j * Y ω ^ ((i : ℕ) + j) := by
      intro ω
      rw [pow_two, Finset.sum_mul_sum]
      exact Finset.sum_congr rfl fun i _ => Finset.sum_congr rfl fun j _ => by rw [pow_add]; ring
    simp only [h1]
    rw [integral_finset_sum _ fun i _ => integrable_finset_sum _ fun j _ => (hint _ (hk i j)).const_mul _]
    refine Finset.sum_congr rfl fun i _ => ?_
    rw [integral_finset_sum _ fun j _ => (hint _ (hk i j)).const_mul _]
    exact Finset.sum_congr rfl fun j _ => by rw [integral_const_mul, ha _ (hk i j)]
  rw [e]
  exact integral_nonneg fun ω => sq_nonneg _

theorem int_shift {ν : Measure ℝ} (h : Distribution ν) (m : ℝ) {k : ℕ} (hk : k ≤ 8) :
    Integrable (fun x : ℝ => (x - m) ^ k) ν := by
  have : ∀ x : ℝ, (x - m) ^ k = ∑ i ∈ Finset.range (k + 1), x ^ i * (-m) ^ (k - i) * (k.choose i) := by
    intro x
    rw [sub_eq_add_neg, add_pow]
  simp only [this]
  refine integrable_finset_sum _ fun i hi => ?_
  have hi' : i ≤ 8 := by have := Finset.mem_range.1 hi; omega
  exact ((h.int i hi').mul_const _).mul_const _

theorem int_shift_zero {ν : Measure ℝ} (h : Distribution ν) : ∫ x, (x - dMean ν) ∂ν = 0 := by
  have := h.prob
  have h1 : Integrable (fun x : ℝ => x) ν := by simpa using h.int 1 (by norm_num)
  rw [integral_sub h1 (integrable_const _)]
  simp [dMean]

/-- **C31** The central moments of any distribution with finite eighth moment are accepted. -/
theorem C31_distribution_central {solve : (ℕ → ℕ → ℝ) → Option (List ℝ)} (hs : EigenSolver solve)
    {ν : Measure ℝ} (h : Distribution ν) (junk : ℕ → ℕ → ℝ) :
    checkThrow solve junk 1 (fun k => dCentral ν (k + 2)) 0 = some (.ok ()) := by
  have := h.prob
  refine (C31_central hs _ junk).1 (hankel_of_int (P := ν) (Y := fun x => x - dMean ν) (fun k hk => int_shift h _ hk)
    fun k _ => ?_)
  match k with
  | 0 => simp [seqCentral]
  | 1 => simp [seqCentral, int_shift_zero h]
  | k + 2 => simp [seqCentral, dCentral]

/-- **C31** So are the standardized moments, if the variance is not 0. -/
theorem C31_distribution_std {solve : (ℕ → ℕ → ℝ) → Option (List ℝ)} (hs : EigenSolver solve)
    {ν : Measure ℝ} (h : Distribution ν) (h0 : dCentral ν 2 ≠ 0) (junk : ℕ → ℕ → ℝ) :
    checkThrow solve junk 0 (fun k => dStd ν (k + 3)) 0 = some (.ok ()) := by
  have := h.prob
  have hp : 0 ≤ dCentral ν 2 := integral_nonneg fun x => sq_nonneg _
  have hs0 : Real.sqrt (dCentral ν 2) ≠ 0 := (Real.sqrt_ne_zero hp).2 h0
  have hk : ∀ k, ∫ x, ((x - dMean ν) / Real.sqrt (dCentral ν 2)) ^ k ∂ν = dStd ν k := by
    intro k
    simp only [div_pow, integral_div, dStd, dCentral]
  refine (C31_std hs _ junk).1 (hankel_of_int (P := ν) (Y := fun x => (x - dMean ν) / Real.sqrt (dCentral ν 2))
    (fun k hk => by simpa only [div_pow] using (int_shift h _ hk).div_const _) fun k _ => ?_)
  rw [hk]
  match k with
  | 0 => simp [seqStd, dStd, dCentral]
  | 1 => simp [seqStd, dStd, dCentral, int_shift_zero h]
  | 2 => simp only [seqStd, dStd]; rw [Real.sq_sqrt hp, div_self h0]
  | k + 3 => simp [seqStd]

/-- The two-point distribution is one. -/
theorem twoPoint_dist : Distribution twoPoint := ⟨inferInstance, fun k _ => twoPoint_int k⟩

example (junk) : checkThrow exactSolve junk 1 (fun k => dCentral twoPoint (k + 2)) 0 = some (.ok ()) :=
  C31_distribution_central exactSolve_ok twoPoint_dist junk
example (junk) : checkThrow exactSolve junk 0 (fun k => dStd twoPoint (k + 3)) 0 = some (.ok ()) := by
  refine C31_distribution_std exactSolve_ok twoPoint_dist ?_ junk
  have : dMean twoPoint = 0 := by
    have := twoPoint_mom 1
    norm_num at this
    exact this
  simp only [dCentral, this, sub_zero, twoPoint_mom]
  norm_num

/-- Moments 3 to 8 of the concrete skewed distribution. -/
noncomputable def tpArr : ℕ → ℝ
  | 0 => 3 / 2
  | 1 => 13 / 4
  | 2 => 51 / 8
  | 3 => 205 / 16
  | 4 => 819 / 32
  | 5 => 3277 / 64
  | _ => 0

theorem tpArr_psd : HankelPSD (seqStd tpArr) := by
  refine hankel_of_int (P := twoPoint) (Y := fun x => x) (fun k _ => twoPoint_int k) fun k hk => ?_
  rw [twoPoint_mom]
  interval_cases k <;> norm_num [seqStd, tpArr]

example (junk) : checkThrow exactSolve junk 0 tpArr 0 = some (.ok ()) := (C31_std exactSolve_ok tpArr junk).1 tpArr_psd

/-- A kurtosis below 1 is impossible. -/
theorem low_kurt : ¬ HankelPSD (seqStd fun _ => 0) := by
  intro h
  have := h ![1, 0, -1, 0, 0]
  simp [Fin.sum_univ_five, seqStd] at this
  norm_num at this

example (junk) : checkThrow exactSolve junk 0 (fun _ => 0) 0 = some (.error .invalidArgument) :=
  (C31_std exactSolve_ok _ junk).2 low_kurt
example (junk) : checkThrow exactSolve junk 1 (fun _ => -1) 0 = some (.error .invalidArgument) :=
  (C31_central exactSolve_ok _ junk).2 fun h => by
    have := h ![0, 1, 0, 0, 0]
    simp [Fin.sum_univ_five, seqCentral] at this
    norm_num at this
example (junk) : checkThrow exactSolve junk 0 tpArr 1 = some (.ok ()) := by
  obtain ⟨v, hi, -, -, hpos, hv, hm, hmax, -⟩ := check_core exactSolve_ok (a := seqStd tpArr) one_pos fun _ _ h =>
    hk_std tpArr junk h
  have hv' : (v : Multiset ℝ) = (Matrix.of fun i j : Fin 5 => seqStd tpArr (i + j)).charpoly.roots := hv
  refine (C31_threshold exactSolve_ok tpArr junk zero_le_one).2 ⟨hi, by rw [← hv']; simpa using hm, fun r hr => ?_⟩
  have h0 := (roots_nonneg (seqStd tpArr)).1 tpArr_psd r hr
  exact ⟨hmax r (by rw [← hv'] at hr; simpa using hr), by linarith⟩
example := C31_no_div_zero exactSolve_ok tpArr fun _ _ => 0
example (junk) : ctorCheck exactSolve junk 0 (fun _ => 0) (-1) = some (.ok ()) := C31_disabled _ _ _ _ (by norm_num [ltb_iff])

/-- Moments 3 to 8 equal to those of a fair coin with values 1 and -1, except for the eighth. -/
noncomputable def fakeArr : ℕ → ℝ
  | 1 => 1
  | 3 => 1
  | 5 => 5
  | _ => 0

/-- **C31** The check is weaker than its documentation, "valid moments for a distribution": there are moments
which pass it and which no distribution has.  (A positive semidefinite but singular Hankel matrix does not make the
last moment attainable.) -/
theorem C31_accepts_impossible {solve : (ℕ → ℕ → ℝ) → Option (List ℝ)} (hs : EigenSolver solve) :
    ∃ v : ℕ → ℝ, (∀ junk, checkThrow solve junk 0 v 0 = some (.ok ())) ∧
      ∀ ν : Measure ℝ, Distribution ν → dMean ν = 0 → dCentral ν 2 = 1 → ¬ ∀ k < 6, dCentral ν (k + 3) = v k := by
  refine ⟨fakeArr, fun junk => (C31_std hs _ junk).1 fun c => ?_, fun ν h hm h2 hall => ?_⟩
  · have : ∑ i : Fin 5, ∑ j : Fin 5, c i * c j * seqStd fakeArr (i + j)
        = (c 0 + c 2 + c 4) ^ 2 + 4 * c 4 ^ 2 + (c 1 + c 3) ^ 2 := by
      simp [Fin.sum_univ_five, seqStd, fakeArr]
      ring
    rw [this]
    positivity
  · have hp := h.prob
    have e4 := hall 1 (by norm_num)
    have e8 := hall 5 (by norm_num)
    simp only [dCentral, hm, sub_zero, fakeArr] at e4 e8 h2
    norm_num at e4 e8
    have hsq : ∫ x : ℝ, (x ^ 2 - 1) ^ 2 ∂ν = 0 := by
      have : ∀ x : ℝ, (x ^ 2 - 1) ^ 2 = x ^ 4 - 2 * x ^ 2 + 1 := fun x => by ring
      simp only [this]
      have hd : Integrable (fun x : ℝ => x ^ 4 - 2 * x ^ 2) ν :=
        (h.int 4 (by norm_num)).sub ((h.int 2 (by norm_num)).const_mul 2)
      rw [integral_add hd (integrable_const _), integral_sub (h.int 4 (by norm_num)) ((h.int 2 (by norm_num)).const_mul 2), integral_const_mul, e4, h2]
      simp
      norm_num
    have hint : Integrable (fun x : ℝ => (x ^ 2 - 1) ^ 2) ν := by
      have : ∀ x : ℝ, (x ^ 2 - 1) ^ 2 = x ^ 4 - 2 * x ^ 2 + 1 := fun x => by ring
      simp only [this]
      exact ((h.int 4 (by norm_num)).sub ((h.int 2 (by norm_num)).const_mul 2)).add (integrable_const _)
    have hae := (integral_eq_zero_iff_of_nonneg (fun x => sq_nonneg _) hint).1 hsq
    have h8 : ∫ x : ℝ, x ^ 8 ∂ν = ∫ x : ℝ, (1 : ℝ) ∂ν := by
      refine integral_congr_ae (hae.mono fun x hx => ?_)
      have hx2 : x ^ 2 = 1 := by
        have : (x ^ 2 - 1) ^ 2 = 0 := hx
        have := pow_eq_zero_iff (two_ne_zero) |>.1 this
        linarith
      calc x ^ 8 = (x ^ 2) ^ 4 := by ring
        _ = 1 := by rw [hx2]; norm_num
    rw [e8] at h8
    simp at h8

example := C31_accepts_impossible exactSolve_ok

/-! ## C30 -/

/-- Central moments of a value with one entry and no second derivative. -/
theorem m_elem {R : Type*} [CommRing R] (i : VId) (g n : R) (v : Moments R) :
    let x : UReal2 R := ⟨⟨[(i, ⟨g, 0, v⟩)], []⟩, n⟩
    x.m 1 = some 0 ∧ x.m 2 = some (g ^ 2) ∧ x.m 3 = some (g ^ 3 * v.v3) ∧ x.m 4 = some (g ^ 4 * v.v4) := by
  have ht : ∀ b, (⟨[(i, ⟨g, 0, v⟩)], []⟩ : HessGrad R).triEntries b = some [] := by
    intro b
    cases b <;> rfl
  refine ⟨?_, ?_, ?_, ?_⟩
  all_goals simp [UReal2.m, UReal2.momArray, UReal2.updateMom, compute, lit, m1, m2, m3, m4, ht, forTails, m2A, m3A, m4A]
  all_goals ring

theorem buildStd_eq {R : Type*} [Zero R] (u : Moments R) (id : VId) (n s : R) (v : ℕ → R) :
    UReal2.buildStd u id n s v = ⟨⟨[(id, ⟨s, 0, ⟨v 0, v 1, v 2, v 3, v 4, v 5⟩⟩)], []⟩, n⟩ := rfl

theorem buildCentral_eq {R : Type*} [Zero R] [Mul R] [Div R] [CCmp R] [CSqrt R] (u : Moments R) (id : VId) (n : R)
    (m : ℕ → R) :
    UReal2.buildCentral u id n m = ⟨⟨[(id, ⟨CSqrt.sqrt (m 0), 0,
      if CCmp.ltb 0 (CSqrt.sqrt (m 0)) then UReal2.stdMoments (CSqrt.sqrt (m 0)) m else ⟨0, 0, 0, 0, 0, 0⟩⟩)], []⟩, n⟩ := by
  simp only [UReal2.buildCentral, HessGrad.empty, modDiag, SMap.upsert, newDiag]
  cases CCmp.ltb 0 (CSqrt.sqrt (m 0)) <;> simp

/-- **C30** `UReal2(n, s, {k3..k8})`, whatever the uninitialised memory and the threshold: if the check passes the value
depends on one variable, and `n()`, `s()`, `skew()`, `kurt()` are the numbers given (the last two if `s` is not 0). -/
theorem C30_std {solve : (ℕ → ℕ → ℝ) → Option (List ℝ)} {junk : ℕ → ℕ → ℝ} {u : Moments ℝ} {id : VId} {n s : ℝ}
    {v : ℕ → ℝ} {t : ℝ} {x : UReal2 ℝ} (hx : UReal2.mkStd solve junk u id n s v t = some (.ok x)) :
    (∀ p, x.n p = some n) ∧ x.s = some s ∧ x.var = some (s ^ 2) ∧
      (s ≠ 0 → x.skew = some (v 0) ∧ x.kurt = some (v 1)) ∧
      x.isindep = true ∧ x.indepid = id ∧ x.hg.momOf id = some ⟨v 0, v 1, v 2, v 3, v 4, v 5⟩ := by
  have h : 0 ≤ s ∧ x = UReal2.buildStd u id n s v := by
    unfold UReal2.mkStd at hx
    split at hx
    · simp at hx
    · rename_i hs
      refine ⟨by simpa [ltb_iff] using hs, ?_⟩
      cases hc : ctorCheck solve junk 0 v t with
      | none => simp [hc] at hx
      | some r =>
        cases r with
        | error e => simp [hc, Except.map] at hx
        | ok _ => simp [hc, Except.map] at hx; exact hx.symm
  obtain ⟨hs, rfl⟩ := h
  rw [buildStd_eq]
  obtain ⟨h1, h2, h3, h4⟩ := m_elem id s n (⟨v 0, v 1, v 2, v 3, v 4, v 5⟩ : Moments ℝ)
  have hsd : Real.sqrt (s ^ 2) = s := Real.sqrt_sq hs
  refine ⟨fun p => ?_, ?_, h2, fun h0 => ⟨?_, ?_⟩, rfl, rfl, ?_⟩
  · cases p <;> simp [UReal2.n, h1]
  · simp [UReal2.s, h2, CSqrt.sqrt, hsd]
  · simp only [UReal2.skew, h3, UReal2.s, h2, Option.map_some, Option.bind_some, CSqrt.sqrt, hsd]
    congr 1
    field_simp
  · simp only [UReal2.kurt, h4, h2, Option.map_some, Option.bind_some]
    congr 1
    field_simp
  · simp [momOf, find?]

/-- The represented random variable of an elementary variable. -/
theorem rv_elem {Ω : Type*} (X : VId → Ω → ℝ) (i : VId) (g : ℝ) (v : Moments ℝ) (ω : Ω) :
    (⟨[(i, ⟨g, 0, v⟩)], []⟩ : HessGrad ℝ).rv X ω = g * X i ω := by
  simp [HessGrad.rv, vars, keys, HessGrad.G, HessGrad.H, find?]

theorem stdMoments_mul {g : ℝ} {m : ℕ → ℝ} (h0 : 0 < m 0) (hg : g = Real.sqrt (m 0)) :
    let v := UReal2.stdMoments g m
    g ^ 2 = m 0 ∧ g ^ 3 * v.v3 = m 1 ∧ g ^ 4 * v.v4 = m 2 ∧ g ^ 5 * v.v5 = m 3 ∧ g ^ 6 * v.v6 = m 4 ∧
      g ^ 7 * v.v7 = m 5 ∧ g ^ 8 * v.v8 = m 6 := by
  have h2 : g ^ 2 = m 0 := by rw [hg, Real.sq_sqrt h0.le]
  have hne : g ≠ 0 := by rw [hg]; exact (Real.sqrt_pos.2 h0).ne'
  refine ⟨h2, ?_, ?_, ?_, ?_, ?_, ?_⟩ <;> simp only [UReal2.stdMoments, ← h2] <;> field_simp

/-- What a successful construction from central moments builds. -/
theorem mkCentral_ok {solve : (ℕ → ℕ → ℝ) → Option (List ℝ)} {junk : ℕ → ℕ → ℝ} {u : Moments ℝ} {id : VId} {n : ℝ}
    {m : ℕ → ℝ} {t : ℝ} {x : UReal2 ℝ} (hx : UReal2.mkCentral solve junk u id n m t = some (.ok x)) :
    ctorCheck solve junk 1 m t = some (.ok ()) ∧ x = UReal2.buildCentral u id n m := by
  unfold UReal2.mkCentral at hx
  cases hc : ctorCheck solve junk 1 m t with
  | none => simp [hc] at hx
  | some r =>
    cases r with
    | error e => simp [hc, Except.map] at hx
    | ok _ => simp [hc, Except.map] at hx; exact ⟨rfl, hx.symm⟩

/-- **C30** `UReal2(n, {m2..m8})` with positive variance, any threshold: mean and central moments 2 to 4 are the given ones,
skewness and kurtosis the standardized ones. -/
theorem C30_central {solve : (ℕ → ℕ → ℝ) → Option (List ℝ)} {junk : ℕ → ℕ → ℝ} {u : Moments ℝ} {id : VId} {n : ℝ}
    {m : ℕ → ℝ} {t : ℝ} {x : UReal2 ℝ} (hx : UReal2.mkCentral solve junk u id n m t = some (.ok x)) (h0 : 0 < m 0) :
    (∀ p, x.n p = some n) ∧ x.m 2 = some (m 0) ∧ x.m 3 = some (m 1) ∧ x.m 4 = some (m 2) ∧
      x.s = some (Real.sqrt (m 0)) ∧ x.skew = some (m 1 / Real.sqrt (m 0) ^ 3) ∧ x.kurt = some (m 2 / m 0 ^ 2) ∧
      x.isindep = true ∧ x.indepid = id := by
  obtain ⟨-, rfl⟩ := mkCentral_ok hx
  have hpos : 0 < Real.sqrt (m 0) := Real.sqrt_pos.2 h0
  rw [buildCentral_eq, if_pos (by rw [ltb_iff]; exact hpos)]
  obtain ⟨h1, h2, h3, h4⟩ := m_elem id (Real.sqrt (m 0)) n (UReal2.stdMoments (Real.sqrt (m 0)) m)
  obtain ⟨e2, e3, e4, -⟩ := stdMoments_mul h0 rfl
  rw [e2] at h2
  rw [e3] at h3
  rw [e4] at h4
  refine ⟨fun p => ?_, h2, h3, h4, ?_, ?_, ?_, rfl, rfl⟩
  · cases p <;> simp only [UReal2.n] <;> erw [h1] <;> simp
  · simp only [UReal2.s]
    erw [h2]
    rfl
  · simp only [UReal2.skew, UReal2.s]
    erw [h3, h2]
    simp only [Option.map_some, Option.bind_some, CSqrt.sqrt]
    congr 2
    rw [pow_succ, e2, mul_comm]
  · simp only [UReal2.kurt]
    erw [h4, h2]
    simp only [Option.map_some, Option.bind_some]
    rw [pow_two]

/-- **C30** The stored moments 5 to 8 are right too: the random variable the value stands for has central moments 2 to 8
equal to the given ones. -/
theorem C30_central_distribution {Ω : Type*} [MeasurableSpace Ω] {P : Measure Ω} {X : VId → Ω → ℝ}
    {solve : (ℕ → ℕ → ℝ) → Option (List ℝ)} {junk : ℕ → ℕ → ℝ} {u : Moments ℝ} {id : VId} {n : ℝ}
    {m : ℕ → ℝ} {t : ℝ} {x : UReal2 ℝ} (hx : UReal2.mkCentral solve junk u id n m t = some (.ok x)) (h0 : 0 < m 0)
    (h : StdIndep P X x.hg.vars) (hm : HasMoments P X x.hg) :
    ∫ ω, x.hg.rv X ω ∂P = 0 ∧ ∀ k < 7, ∫ ω, x.hg.rv X ω ^ (k + 2) ∂P = m k := by
  obtain ⟨-, rfl⟩ := mkCentral_ok hx
  have hpos : 0 < Real.sqrt (m 0) := Real.sqrt_pos.2 h0
  have hb : UReal2.buildCentral u id n m = ⟨⟨[(id, ⟨Real.sqrt (m 0), 0, UReal2.stdMoments (Real.sqrt (m 0)) m⟩)], []⟩, n⟩ := by
    rw [buildCentral_eq, if_pos (by rw [ltb_iff]; exact hpos)]
    rfl
  rw [hb] at h hm ⊢
  obtain ⟨e2, e3, e4, e5, e6, e7, e8⟩ := stdMoments_mul h0 rfl
  have hmem : id ∈ (⟨[(id, ⟨Real.sqrt (m 0), 0, UReal2.stdMoments (Real.sqrt (m 0)) m⟩)], []⟩ : HessGrad ℝ).vars := by
    simp [vars, keys]
  obtain ⟨i3, i4, i5, i6, i7, i8⟩ := hm id (UReal2.stdMoments (Real.sqrt (m 0)) m) (by simp [momOf, find?])
  simp only [rv_elem, mul_pow, integral_const_mul]
  refine ⟨by rw [h.mean id hmem, mul_zero], fun k hk => ?_⟩
  interval_cases k
  · rw [h.var id hmem, mul_one]; exact e2
  · rw [i3]; exact e3
  · rw [i4]; exact e4
  · rw [i5]; exact e5
  · rw [i6]; exact e6
  · rw [i7]; exact e7
  · rw [i8]; exact e8

/-- A zero on the diagonal of a positive semidefinite Hankel matrix. -/
theorem psd_zero {a : ℕ → ℝ} (h : HankelPSD a) (i j : Fin 5) (h0 : a (i + i) = 0) : a (i + j) = 0 := by
  have key : ∀ t : ℝ, 0 ≤ t ^ 2 * a (i + i) + 2 * t * a (i + j) + a (j + j) ∨ i = j := by
    intro t
    by_cases hij : i = j
    · exact Or.inr hij
    left
    have := h fun k => (if k = i then t else 0) + if k = j then 1 else 0
    simp only [add_mul, mul_add, Finset.sum_add_distrib, ite_mul, mul_ite, zero_mul, mul_zero,
      Finset.sum_ite_eq', Finset.mem_univ, if_true, one_mul, mul_one] at this
    rw [add_comm (j : ℕ) i] at this
    nlinarith
  by_cases hij : i = j
  · rw [← hij]; exact h0
  · by_contra hne
    have := (key (-(a (j + j) + 1) / (2 * a (i + j)))).resolve_right hij
    have e : 2 * (-(a (j + j) + 1) / (2 * a (i + j))) * a (i + j) = -(a (j + j) + 1) := by
      field_simp
    rw [h0, mul_zero, e] at this
    linarith

/-- **C30** With the check on (threshold 0) the central moments accepted always come back, also for a zero variance; a negative
variance is never accepted. -/
theorem C30_central_checked {solve : (ℕ → ℕ → ℝ) → Option (List ℝ)} (hs : EigenSolver solve) {junk : ℕ → ℕ → ℝ}
    {u : Moments ℝ} {id : VId} {n : ℝ} {m : ℕ → ℝ} {x : UReal2 ℝ}
    (hx : UReal2.mkCentral solve junk u id n m 0 = some (.ok x)) :
    0 ≤ m 0 ∧ (∀ p, x.n p = some n) ∧ x.m 2 = some (m 0) ∧ x.m 3 = some (m 1) ∧ x.m 4 = some (m 2) := by
  obtain ⟨hc, hb⟩ := mkCentral_ok hx
  have hpsd : HankelPSD (seqCentral m) := by
    by_contra hn
    rw [ctorCheck, if_pos (by simp [ltb_zero_real]), (C31_central hs m junk).2 hn] at hc
    simp at hc
  have h0 : 0 ≤ m 0 := by
    have := hpsd ![0, 1, 0, 0, 0]
    simpa [Fin.sum_univ_five, seqCentral] using this
  rcases h0.eq_or_lt with h0' | h0'
  · have e1 : m 1 = 0 := psd_zero hpsd 1 2 h0'.symm
    have e2 : m 2 = 0 := psd_zero hpsd 1 3 h0'.symm
    refine ⟨h0, ?_⟩
    rw [hb, buildCentral_eq]
    obtain ⟨h1, h2, h3, h4⟩ := m_elem id (CSqrt.sqrt (m 0)) n
      (if CCmp.ltb 0 (CSqrt.sqrt (m 0)) then UReal2.stdMoments (CSqrt.sqrt (m 0)) m else ⟨0, 0, 0, 0, 0, 0⟩)
    have hz : CSqrt.sqrt (m 0) = (0 : ℝ) := by rw [← h0']; exact Real.sqrt_zero
    rw [h2, h3, h4, hz, ← h0', e1, e2]
    refine ⟨fun p => ?_, by simp, by simp, by simp⟩
    rw [hz] at h1
    cases p <;> simp only [UReal2.n] <;> erw [h1] <;> simp
  · obtain ⟨h1, h2, h3, h4, -⟩ := C30_central hx h0'
    exact ⟨h0, h1, h2, h3, h4⟩

/-- **C30** With the check off a zero variance silently discards the other moments. -/
theorem C30_unchecked : ∃ (x : UReal2 ℝ) (m : ℕ → ℝ), (∀ solve junk u id, UReal2.mkCentral solve junk u id 0 m (-1) =
    some (.ok (UReal2.buildCentral u id 0 m))) ∧ UReal2.buildCentral ⟨0, 0, 0, 0, 0, 0⟩ 1 0 m = x ∧ m 1 = 1 ∧
    x.m 3 = some 0 := by
  refine ⟨_, fun k => if k = 0 then 0 else 1, fun solve junk u id => ?_, rfl, rfl, ?_⟩
  · rw [UReal2.mkCentral, C31_disabled _ _ _ _ (by rw [ltb_iff]; norm_num)]
    rfl
  · rw [buildCentral_eq]
    obtain ⟨-, -, h3, -⟩ := m_elem 1 (CSqrt.sqrt (0 : ℝ)) 0
      (if CCmp.ltb 0 (CSqrt.sqrt (0 : ℝ)) then UReal2.stdMoments (CSqrt.sqrt 0) (fun k => if k = 0 then 0 else 1)
        else ⟨0, 0, 0, 0, 0, 0⟩)
    refine Eq.trans h3 ?_
    simp [CSqrt.sqrt]

/-- Central moments of the skewed distribution scaled by 2. -/
noncomputable def tpCentral (k : ℕ) : ℝ := if k = 0 then 4 else 2 ^ (k + 2) * tpArr (k - 1)

theorem tpCentral_psd : HankelPSD (seqCentral tpCentral) := by
  refine hankel_of_int (P := twoPoint) (Y := fun x => 2 * x) (fun k _ => by
    simpa only [mul_pow] using (twoPoint_int k).const_mul _) fun k hk => ?_
  simp only [mul_pow, integral_const_mul]
  rw [twoPoint_mom]
  interval_cases k <;> norm_num [seqCentral, tpCentral, tpArr]

theorem mkStd_ex (junk u) : ∃ x, UReal2.mkStd exactSolve junk u 3 5 2 tpArr 0 = some (.ok x) := by
  rw [UReal2.mkStd, if_neg (by norm_num [ltb_iff]), ctorCheck, if_pos (by simp [ltb_zero_real]),
    (C31_std exactSolve_ok tpArr junk).1 tpArr_psd]
  exact ⟨_, rfl⟩
theorem mkCentral_ex (junk u) : ∃ x, UReal2.mkCentral exactSolve junk u 3 5 tpCentral 0 = some (.ok x) := by
  rw [UReal2.mkCentral, ctorCheck, if_pos (by simp [ltb_zero_real]),
    (C31_central exactSolve_ok tpCentral junk).1 tpCentral_psd]
  exact ⟨_, rfl⟩

example (junk : ℕ → ℕ → ℝ) (u : Moments ℝ) : ∃ x : UReal2 ℝ, x.s = some 2 ∧ x.skew = some (3 / 2) ∧ x.kurt = some (13 / 4) := by
  obtain ⟨x, hx⟩ := mkStd_ex junk u
  obtain ⟨-, h1, -, h2, -⟩ := C30_std hx
  obtain ⟨h2, h3⟩ := h2 two_ne_zero
  exact ⟨x, h1, h2, h3⟩
example (junk : ℕ → ℕ → ℝ) (u : Moments ℝ) : ∃ x : UReal2 ℝ, x.m 2 = some 4 ∧ x.m 3 = some 12 ∧ x.m 4 = some 52 := by
  obtain ⟨x, hx⟩ := mkCentral_ex junk u
  obtain ⟨-, h2, h3, h4, -⟩ := C30_central hx (by norm_num [tpCentral])
  refine ⟨x, ?_, ?_, ?_⟩
  · rw [h2]; norm_num [tpCentral]
  · rw [h3]; norm_num [tpCentral, tpArr]
  · rw [h4]; norm_num [tpCentral, tpArr]
example (junk : ℕ → ℕ → ℝ) (u : Moments ℝ) : ∃ x : UReal2 ℝ, x.m 4 = some (tpCentral 2) := by
  obtain ⟨x, hx⟩ := mkCentral_ex junk u
  exact ⟨x, (C30_central_checked exactSolve_ok hx).2.2.2.2⟩
example (junk : ℕ → ℕ → ℝ) (u : Moments ℝ) : ∃ x : UReal2 ℝ, ∫ ω, x.hg.rv (fun i (ω : VId → ℝ) => ω i) ω ^ 8
    ∂(Measure.infinitePi fun _ => twoPoint) = tpCentral 6 := by
  obtain ⟨x, hx⟩ := mkCentral_ex junk u
  refine ⟨x, (C30_central_distribution hx (by norm_num [tpCentral]) (twoPoint_indep _) (twoPoint_has ?_)).2 6 (by norm_num)⟩
  obtain ⟨-, rfl⟩ := mkCentral_ok hx
  have h4 : Real.sqrt (tpCentral 0) = 2 := by
    rw [show tpCentral 0 = 2 ^ 2 by norm_num [tpCentral]]
    exact Real.sqrt_sq (by norm_num)
  intro i m hm
  rw [buildCentral_eq] at hm
  simp only [momOf, find?, CSqrt.sqrt, h4] at hm
  split at hm
  · rw [if_pos (by norm_num [ltb_iff])] at hm
    simp only [Option.map_some, Option.some.injEq] at hm
    rw [← hm]
    norm_num [UReal2.stdMoments, twoPointMom, tpCentral, tpArr]
  · simp at hm

/-! ## C10 for `UReal2` -/

/-- **C10** `UReal2(n, s, moments)` with a negative uncertainty throws, whatever the moments, the threshold and the
arithmetic; nothing changes, not even the counter of ids. -/
theorem C10_second_negative {R : Type*} [Zero R] [One R] [Neg R] [Add R] [Mul R] [Div R] [NatCast R] [CCmp R] [CSqrt R]
    (solve : (ℕ → ℕ → R) → Option (List R)) (w : World2 R) (k : Junk R) (r : Reg) (n s : R) (v : ℕ → R) (t : R)
    (hs : CCmp.ltb s 0 = true) :
    w.step solve k (.newStd r n s v t) = some (w, .threw .invalidArgument) := by
  simp [World2.step, UReal2.mkStd, hs, World2.finish]

/-- **C10** With a non-negative uncertainty and threshold 0 the constructor throws `std::invalid_argument` exactly if the moments
fail the check, and then nothing changes; otherwise one variable gets the new value and one id is taken. -/
theorem C10_second_std {solve : (ℕ → ℕ → ℝ) → Option (List ℝ)} (hs : EigenSolver solve) (w : World2 ℝ) (k : Junk ℝ)
    (r : Reg) (n s : ℝ) (v : ℕ → ℝ) (h0 : 0 ≤ s) :
    (¬ HankelPSD (seqStd v) → w.step solve k (.newStd r n s v 0) = some (w, .threw .invalidArgument)) ∧
    (HankelPSD (seqStd v) → ∃ w', w.step solve k (.newStd r n s v 0) = some (w', .done) ∧
      w'.lastId = nextId w.lastId ∧ (∀ q, q ≠ r → w'.regs q = w.regs q) ∧
      (∀ p, (w'.regs r).n p = some n) ∧ (w'.regs r).s = some s ∧ (w'.regs r).indepid = nextId w.lastId) := by
  have hb : CCmp.ltb s 0 = false := by rw [← Bool.not_eq_true, ltb_iff]; exact not_lt.2 h0
  have hz : CCmp.ltb (0 : ℝ) 0 = false := ltb_zero_real
  constructor
  · intro hn
    simp [World2.step, UReal2.mkStd, hb, ctorCheck, hz, (C31_std hs v k.mat).2 hn, World2.finish, Except.map]
  · intro hp
    have e : UReal2.mkStd solve k.mat k.u (nextId w.lastId) n s v 0
        = some (.ok (UReal2.buildStd k.u (nextId w.lastId) n s v)) := by
      simp [UReal2.mkStd, hb, ctorCheck, hz, (C31_std hs v k.mat).1 hp, Except.map]
    obtain ⟨h1, h2, -, -, -, h3, -⟩ := C30_std e
    refine ⟨_, by rw [World2.step, e]; rfl, rfl, fun q hq => by simp [World2.set, hq], ?_, ?_, ?_⟩ <;>
      simp only [World2.set, if_true] <;> assumption

/-- **C10** The same for central moments. -/
theorem C10_second_central {solve : (ℕ → ℕ → ℝ) → Option (List ℝ)} (hs : EigenSolver solve) (w : World2 ℝ) (k : Junk ℝ)
    (r : Reg) (n : ℝ) (m : ℕ → ℝ) :
    (¬ HankelPSD (seqCentral m) → w.step solve k (.newCentral r n m 0) = some (w, .threw .invalidArgument)) ∧
    (HankelPSD (seqCentral m) → ∃ w', w.step solve k (.newCentral r n m 0) = some (w', .done) ∧
      w'.lastId = nextId w.lastId ∧ (∀ q, q ≠ r → w'.regs q = w.regs q) ∧
      (∀ p, (w'.regs r).n p = some n) ∧ (w'.regs r).var = some (m 0) ∧ (w'.regs r).indepid = nextId w.lastId) := by
  have hz : CCmp.ltb (0 : ℝ) 0 = false := ltb_zero_real
  constructor
  · intro hn
    simp [World2.step, UReal2.mkCentral, ctorCheck, hz, (C31_central hs m k.mat).2 hn, World2.finish, Except.map]
  · intro hp
    have e : UReal2.mkCentral solve k.mat k.u (nextId w.lastId) n m 0
        = some (.ok (UReal2.buildCentral k.u (nextId w.lastId) n m)) := by
      simp [UReal2.mkCentral, ctorCheck, hz, (C31_central hs m k.mat).1 hp, Except.map]
    obtain ⟨-, h1, h2, -⟩ := C30_central_checked hs e
    refine ⟨_, by rw [World2.step, e]; rfl, rfl, fun q hq => by simp [World2.set, hq], ?_, ?_, ?_⟩ <;>
      simp only [World2.set, if_true]
    · exact h1
    · exact h2
    · rw [buildCentral_eq]; rfl

example (k) : (World2.init : World2 ℝ).step exactSolve k (.newStd ⟨0, 0⟩ 1 (-1) tpArr 0)
    = some (World2.init, .threw .invalidArgument) := C10_second_negative _ _ _ _ _ _ _ _ (by norm_num [ltb_iff])
example (k) := (C10_second_std exactSolve_ok World2.init k ⟨0, 0⟩ 1 2 tpArr (by norm_num)).2 tpArr_psd
example (k) := (C10_second_std exactSolve_ok World2.init k ⟨0, 0⟩ 1 2 (fun _ => 0) (by norm_num)).1 low_kurt
example (k) := (C10_second_central exactSolve_ok World2.init k ⟨0, 0⟩ 1 tpCentral).2 tpCentral_psd

end Unc.Props
