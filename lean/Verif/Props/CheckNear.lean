import Verif.Lemmas.CheckNear
import Verif.Props.Constructors
import Verif.Props.Distr

/-!
# C78: the check of the moments with eigenvalues which have an error

C31 is about exact eigenvalues.  Here the eigenvalue routine has a relative error `ε` (`Spec.NearSolver`); the moments and the rest of the
check are exact.
-/

namespace Unc.Props
open Unc SMap HessGrad Mom Check MeasureTheory Spec

/-- An exact solver is one without error. -/
theorem near_zero (solve : (ℕ → ℕ → ℝ) → Option (List ℝ)) : NearSolver 0 solve ↔ EigenSolver solve := by
  constructor
  · intro h M
    obtain ⟨v, E, e, hv, hE, hb⟩ := h M
    obtain ⟨N, -, hN, -⟩ := bound_exists (symLower_herm M)
    have hz : ∀ c, qform E c = 0 := fun c => by
      have := hb N hN c
      simpa using this
    have h0 : E = 0 := by
      ext i j
      have h1 := hz (Pi.single i 1 + Pi.single j 1)
      have h2 := hz (Pi.single i 1)
      have h3 := hz (Pi.single j 1)
      simp only [qform_eq, Matrix.mulVec_add, dotProduct_add, add_dotProduct, Matrix.mulVec_single_one, single_one_dotProduct, Matrix.col_apply] at h1 h2 h3
      have := hE i j
      simp only [Matrix.zero_apply]
      linarith
    exact ⟨v, e, by rw [hv, h0, add_zero]⟩
  · intro h M
    obtain ⟨v, e, hv⟩ := h M
    exact ⟨v, 0, e, by rw [hv, add_zero], fun _ _ => rfl, fun N _ c => by simp [qform]⟩

theorem hankel_form (a : ℕ → ℝ) (c : Fin 5 → ℝ) : qform (hankel a) c = ∑ i : Fin 5, ∑ j : Fin 5, c i * c j * a (i + j) := rfl

/-- What the check sees: the extremes of the form of the perturbed matrix. -/
theorem near_core {M : ℕ → ℕ → ℝ} {a : ℕ → ℝ} (hM : ∀ i j, j ≤ i → M i j = a (i + j)) {E : Matrix (Fin 5) (Fin 5) ℝ} {v : List ℝ}
    (hv : (v : Multiset ℝ) = (symLower M + E).charpoly.roots) (hE : ∀ i j, E i j = E j i) :
    ∃ lo hi,
      (∀ c, lo * lenSq c ≤ qform (hankel a) c + qform E c ∧ qform (hankel a) c + qform E c ≤ hi * lenSq c) ∧
      (∀ k, (∀ c, k * lenSq c ≤ qform (hankel a) c + qform E c) → k ≤ lo) ∧
      (∀ k, (∀ c, qform (hankel a) c + qform E c ≤ k * lenSq c) → hi ≤ k) ∧
      (0 ≤ lo ∧ hamburger (some v) = .ok 0 ∨ hi < 0 ∧ hamburger (some v) = .ok 1 ∨
        lo < 0 ∧ 0 ≤ hi ∧ hamburger (some v) = .ok (lo / hi)) := by
  have hsym : symLower M = hankel a := sym_eq hM
  rw [hsym] at hv
  have hh : (hankel a + E).IsHermitian := (hankel_herm a).add (herm_of_symm hE)
  obtain ⟨lo, hlo, hi, hhi, h1, h2⟩ := extremes hh
  rw [← hv, Multiset.mem_coe] at hlo hhi
  have h1' : ∀ r ∈ v, lo ≤ r ∧ r ≤ hi := fun r hr => h1 r (by rw [← hv]; exact hr)
  simp only [qform_add] at h2
  refine ⟨lo, hi, h2, fun k hk => ?_, fun k hk => ?_, ?_⟩
  · exact (form_lower hh k).2 (fun c => by rw [qform_add]; exact hk c) lo (by rw [← hv]; exact hlo)
  · exact (form_upper hh k).2 (fun c => by rw [qform_add]; exact hk c) hi (by rw [← hv]; exact hhi)
  · obtain ⟨c1, c2, c3⟩ := C31_hamburger v (List.ne_nil_of_mem hlo)
    rcases le_or_gt 0 lo with l | l
    · exact Or.inl ⟨l, c1 fun r hr => l.trans (h1' r hr).1⟩
    · rcases lt_or_ge hi 0 with g | g
      · exact Or.inr (Or.inl ⟨g, c2 fun r hr => (h1' r hr).2.trans_lt g⟩)
      · exact Or.inr (Or.inr ⟨l, g, c3 lo hlo hi hhi l g (fun r hr => (h1' r hr).1) fun r hr => (h1' r hr).2⟩)

/-- the first coordinate vector -/
def axis0 : Fin 5 → ℝ := Pi.single 0 1

theorem axis0_len : lenSq axis0 = 1 := by simp [lenSq, axis0, Pi.single_apply]

theorem axis0_form (a : ℕ → ℝ) : qform (hankel a) axis0 = a 0 := by simp [qform_eq, axis0, Matrix.mulVec_single_one, hankel]

/-- the check as a condition on the extremes, if the largest eigenvalue found is positive -/
theorem near_check' {solve : (ℕ → ℕ → ℝ) → Option (List ℝ)} {o : ℤ} {mom : ℕ → ℝ} {junk : ℕ → ℕ → ℝ}
    {a : ℕ → ℝ} (hM : ∀ i j, j ≤ i → hkMatrix o mom junk i j = a (i + j)) {E : Matrix (Fin 5) (Fin 5) ℝ} {v : List ℝ}
    (e : solve (hkMatrix o mom junk) = some v) (hv : (v : Multiset ℝ) = (symLower (hkMatrix o mom junk) + E).charpoly.roots)
    (hE : ∀ i j, E i j = E j i) {t : ℝ} (ht : 0 ≤ t) :
    ∃ lo hi,
      (∀ c, lo * lenSq c ≤ qform (hankel a) c + qform E c ∧ qform (hankel a) c + qform E c ≤ hi * lenSq c) ∧
      (∀ k, (∀ c, k * lenSq c ≤ qform (hankel a) c + qform E c) → k ≤ lo) ∧
      (∀ k, (∀ c, qform (hankel a) c + qform E c ≤ k * lenSq c) → hi ≤ k) ∧
      (0 ≤ lo → checkThrow solve junk o mom t = some (.ok ())) ∧
      (0 < hi → (-(t * hi) ≤ lo → checkThrow solve junk o mom t = some (.ok ())) ∧
        (lo < -(t * hi) → checkThrow solve junk o mom t = some (.error .invalidArgument))) := by
  obtain ⟨lo, hi, h2, h3, h4, h5⟩ := near_core hM hv hE
  have acc : 0 ≤ lo → checkThrow solve junk o mom t = some (.ok ()) := fun l => by
    have hl : lo ≤ hi := by
      have := h2 axis0
      rw [axis0_len] at this
      linarith
    unfold checkThrow
    rw [if_neg (by simpa [leb_iff] using ht), e]
    rcases h5 with ⟨-, e⟩ | ⟨l', -⟩ | ⟨l', -⟩
    · rw [e]
      dsimp only
      rw [if_neg]
      simp [ltb_iff, ht]
    · linarith
    · linarith
  refine ⟨lo, hi, h2, h3, h4, acc, fun hp => ?_⟩
  have hth := mul_nonneg ht hp.le
  rcases h5 with ⟨l, -⟩ | ⟨l, -⟩ | ⟨l, -, e'⟩
  · exact ⟨fun _ => acc l, fun h => by linarith⟩
  · linarith
  · unfold checkThrow
    rw [if_neg (by simpa [leb_iff] using ht), e, e']
    have hq : lo / hi < 0 := div_neg_of_neg_of_pos l hp
    have key : (CCmp.ltb (lo / hi) (-t) || CCmp.ltb 0 (lo / hi)) = true ↔ lo < -(t * hi) := by
      rw [Bool.or_eq_true, ltb_iff, ltb_iff, or_iff_left (not_lt.2 hq.le), div_lt_iff₀ hp, neg_mul]
    dsimp only
    exact ⟨fun h => by rw [if_neg]; rw [key]; exact not_lt.2 h, fun h => by rw [if_pos (key.2 h)]⟩

theorem near_check {ε : ℝ} {solve : (ℕ → ℕ → ℝ) → Option (List ℝ)} (hs : NearSolver ε solve) {o : ℤ} {mom : ℕ → ℝ} {junk : ℕ → ℕ → ℝ}
    {a : ℕ → ℝ} (hM : ∀ i j, j ≤ i → hkMatrix o mom junk i j = a (i + j)) {t : ℝ} (ht : 0 ≤ t) :
    ∃ E lo hi, (∀ N, FormBound (hankel a) N → FormBound E (ε * N)) ∧
      (∀ c, lo * lenSq c ≤ qform (hankel a) c + qform E c ∧ qform (hankel a) c + qform E c ≤ hi * lenSq c) ∧
      (∀ k, (∀ c, k * lenSq c ≤ qform (hankel a) c + qform E c) → k ≤ lo) ∧
      (∀ k, (∀ c, qform (hankel a) c + qform E c ≤ k * lenSq c) → hi ≤ k) ∧
      (0 ≤ lo → checkThrow solve junk o mom t = some (.ok ())) ∧
      (0 < hi → (-(t * hi) ≤ lo → checkThrow solve junk o mom t = some (.ok ())) ∧
        (lo < -(t * hi) → checkThrow solve junk o mom t = some (.error .invalidArgument))) := by
  obtain ⟨v, E, e, hv, hE, hb⟩ := hs (hkMatrix o mom junk)
  rw [show symLower (hkMatrix o mom junk) = hankel a from sym_eq hM] at hb
  obtain ⟨lo, hi, h⟩ := near_check' hM e hv hE ht
  exact ⟨E, lo, hi, hb, h⟩

/-- both directions for any array which fills the matrix -/
theorem near_accepts {ε : ℝ} (h0 : 0 ≤ ε) (h1 : ε < 1) {solve : (ℕ → ℕ → ℝ) → Option (List ℝ)} (hs : NearSolver ε solve) {o : ℤ} {mom : ℕ → ℝ}
    {junk : ℕ → ℕ → ℝ} {a : ℕ → ℝ} (ha : a 0 = 1) (hM : ∀ i j, j ≤ i → hkMatrix o mom junk i j = a (i + j)) {t : ℝ}
    (ht : ε / (1 - ε) ≤ t) (hp : HankelPSD a) : checkThrow solve junk o mom t = some (.ok ()) := by
  have ht0 : 0 ≤ t := le_trans (div_nonneg h0 (by linarith)) ht
  obtain ⟨E, lo, hi, b1, b2, b3, b4, -, b5⟩ := near_check hs hM ht0
  obtain ⟨lo', hlo', N, hN, c1, c2⟩ := extremes (hankel_herm a)
  have hpos : 1 ≤ N := by
    have := (c2 axis0).2
    rwa [axis0_len, axis0_form, ha, mul_one] at this
  have hb : FormBound (hankel a) N := fun c => by
    rw [abs_of_nonneg (by rw [hankel_form]; exact hp c)]
    exact (c2 c).2
  have hE := b1 N hb
  have l : -(ε * N) ≤ lo := b3 _ fun c => by
    have := (abs_le.1 (hE c)).1
    have := hp c
    rw [← hankel_form] at this
    linarith
  have g : (1 - ε) * N ≤ hi := by
    have : N ≤ hi + ε * N := (form_upper (hankel_herm a) (hi + ε * N)).2 (fun c => by
      have h1 := (abs_le.1 (hE c)).1
      have h2 := (b2 c).2
      linarith) N hN
    linarith
  have hd : 0 < 1 - ε := by linarith
  have hh : 0 < hi := lt_of_lt_of_le (mul_pos hd (by linarith)) g
  refine (b5 hh).1 ?_
  have : ε ≤ t * (1 - ε) := by rwa [div_le_iff₀ hd] at ht
  nlinarith

theorem near_sound {ε N : ℝ} {solve : (ℕ → ℕ → ℝ) → Option (List ℝ)} (hs : NearSolver ε solve) {o : ℤ} {mom : ℕ → ℝ}
    {junk : ℕ → ℕ → ℝ} {a : ℕ → ℝ} (ha : a 0 = 1) (hM : ∀ i j, j ≤ i → hkMatrix o mom junk i j = a (i + j)) {t : ℝ} (ht : 0 ≤ t)
    (hN : FormBound (hankel a) N) (h1 : ε * N < 1) :
    (checkThrow solve junk o mom t = some (.ok ()) → ∀ c, -((t * (1 + ε) + ε) * N) * lenSq c ≤ qform (hankel a) c) ∧
    (checkThrow solve junk o mom t = some (.ok ()) ∨ checkThrow solve junk o mom t = some (.error .invalidArgument)) := by
  obtain ⟨E, lo, hi, b1, b2, b3, b4, -, b5⟩ := near_check hs hM ht
  have hE := b1 N hN
  have hh : 0 < hi := by
    have h2 := (b2 axis0).2
    have h3 := (abs_le.1 (hE axis0)).1
    rw [axis0_form, ha, axis0_len] at h2
    rw [axis0_len] at h3
    linarith
  have g : hi ≤ (1 + ε) * N := b4 _ fun c => by
    have h2 := (abs_le.1 (hE c)).2
    have h3 := (abs_le.1 (hN c)).2
    linarith
  obtain ⟨d1, d2⟩ := b5 hh
  rcases lt_or_ge lo (-(t * hi)) with l | l
  · refine ⟨fun h => ?_, Or.inr (d2 l)⟩
    rw [d2 l] at h
    simp at h
  · refine ⟨fun _ c => ?_, Or.inl (d1 l)⟩
    have h2 := (abs_le.1 (hE c)).2
    have h3 := (b2 c).1
    have h4 := mul_le_mul_of_nonneg_left g ht
    have h5 := mul_le_mul_of_nonneg_right (show -(t * ((1 + ε) * N)) ≤ lo by linarith) (lenSq_nonneg c)
    linarith

theorem near_margin {ε N k : ℝ} {solve : (ℕ → ℕ → ℝ) → Option (List ℝ)} (hs : NearSolver ε solve) {o : ℤ} {mom : ℕ → ℝ}
    {junk : ℕ → ℕ → ℝ} {a : ℕ → ℝ} (hM : ∀ i j, j ≤ i → hkMatrix o mom junk i j = a (i + j)) {t : ℝ} (ht : 0 ≤ t)
    (hN : ∀ c, qform (hankel a) c ≤ N * lenSq c) (hk : ∀ c, k * lenSq c ≤ qform (hankel a) c) (hk0 : 0 < k) (he : ε * N ≤ k) :
    checkThrow solve junk o mom t = some (.ok ()) := by
  obtain ⟨E, lo, hi, b1, -, b3, -, b5, -⟩ := near_check hs hM ht
  have hE := b1 N fun c => by
    rw [abs_of_nonneg (le_trans (mul_nonneg hk0.le (lenSq_nonneg c)) (hk c))]
    exact hN c
  exact b5 (b3 0 fun c => by
    have := (abs_le.1 (hE c)).1
    have := hk c
    have := mul_le_mul_of_nonneg_right he (lenSq_nonneg c)
    linarith)

/-! ## Worst cases -/

/-- the size of the matrix: its smallest bound -/
noncomputable def formSize (M : ℕ → ℕ → ℝ) : ℝ := (bound_exists (symLower_herm M)).choose

/-- a solver which shifts all the eigenvalues by `d` times the size of the matrix -/
noncomputable def shiftSolve (d : ℝ) (M : ℕ → ℕ → ℝ) : Option (List ℝ) :=
  some (symLower M + (d * formSize M) • (1 : Matrix (Fin 5) (Fin 5) ℝ)).charpoly.roots.toList

theorem formSize_spec (M : ℕ → ℕ → ℝ) : 0 ≤ formSize M ∧ FormBound (symLower M) (formSize M) ∧ ∀ N, FormBound (symLower M) N → formSize M ≤ N :=
  (bound_exists (symLower_herm M)).choose_spec

theorem one_symm (k : ℝ) (i j : Fin 5) : (k • (1 : Matrix (Fin 5) (Fin 5) ℝ)) i j = (k • (1 : Matrix (Fin 5) (Fin 5) ℝ)) j i := by
  simp [Matrix.one_apply, eq_comm]

theorem shift_near {d ε : ℝ} (h : |d| ≤ ε) : NearSolver ε (shiftSolve d) := by
  intro M
  obtain ⟨s0, -, s2⟩ := formSize_spec M
  refine ⟨_, _, rfl, Multiset.coe_toList _, one_symm _, fun N hN c => ?_⟩
  rw [qform_smul_one, abs_mul, abs_mul, abs_of_nonneg s0, abs_of_nonneg (lenSq_nonneg c)]
  exact mul_le_mul_of_nonneg_right (mul_le_mul h (s2 N hN) s0 ((abs_nonneg d).trans h)) (lenSq_nonneg c)

/-- If the form of the moments vanishes somewhere, an unlucky solver makes the check fail unless the threshold is large enough. -/
theorem shift_rejects {ε : ℝ} (h0 : 0 < ε) (h1 : ε < 1) {o : ℤ} {mom : ℕ → ℝ} {junk : ℕ → ℕ → ℝ} {a : ℕ → ℝ} (ha : a 0 = 1)
    (hM : ∀ i j, j ≤ i → hkMatrix o mom junk i j = a (i + j)) {t : ℝ} (ht : 0 ≤ t) (ht' : t < ε / (1 - ε)) (hp : HankelPSD a)
    {c : Fin 5 → ℝ} (hc : 0 < lenSq c) (hz : qform (hankel a) c = 0) :
    checkThrow (shiftSolve (-ε)) junk o mom t = some (.error .invalidArgument) := by
  obtain ⟨lo, hi, b2, b3, b4, -, b5⟩ := near_check' (solve := shiftSolve (-ε)) hM rfl (Multiset.coe_toList _) (one_symm _) ht
  obtain ⟨s0, s1, s2⟩ := formSize_spec (hkMatrix o mom junk)
  rw [show symLower (hkMatrix o mom junk) = hankel a from sym_eq hM] at s1 s2
  generalize formSize (hkMatrix o mom junk) = N at *
  simp only [qform_smul_one] at b2 b3 b4
  have hN : 1 ≤ N := by
    have := (abs_le.1 (s1 axis0)).2
    rwa [axis0_len, axis0_form, ha, mul_one] at this
  have hd : 0 < 1 - ε := by linarith
  have g1 : hi ≤ (1 - ε) * N := b4 _ fun c => by
    have := (abs_le.1 (s1 c)).2
    linarith
  have g2 : N ≤ hi + ε * N := s2 _ fun c => by
    rw [abs_of_nonneg (by rw [hankel_form]; exact hp c)]
    have := (b2 c).2
    linarith
  have l : lo ≤ -(ε * N) := by
    have := (b2 c).1
    rw [hz] at this
    by_contra hh
    have := mul_lt_mul_of_pos_right (not_le.1 hh) hc
    linarith
  refine (b5 (by nlinarith)).2 ?_
  rw [lt_div_iff₀ hd] at ht'
  have := mul_le_mul_of_nonneg_left g1 ht
  have := mul_lt_mul_of_pos_right ht' (show 0 < N by linarith)
  linarith

/-! ## The theorems -/

theorem tp_len : 0 < lenSq ![-1, -3 / 2, 1, 0, 0] := by
  simp [lenSq, Fin.sum_univ_five]
  positivity

theorem tp_form : qform (hankel (seqStd tpArr)) ![-1, -3 / 2, 1, 0, 0] = 0 := by
  simp [qform, hankel, Fin.sum_univ_five, seqStd, tpArr]
  norm_num

/-- Part of C78: the moments of every distribution are accepted, if the threshold is not below `ε / (1 - ε)`.  The full statement
has the default threshold 0 and is false (`C78_false`). -/
theorem C78_accepts_partial {ε : ℝ} (h0 : 0 ≤ ε) (h1 : ε < 1) {solve : (ℕ → ℕ → ℝ) → Option (List ℝ)} (hs : NearSolver ε solve)
    (junk : ℕ → ℕ → ℝ) {t : ℝ} (ht : ε / (1 - ε) ≤ t) :
    (∀ v, HankelPSD (seqStd v) → checkThrow solve junk 0 v t = some (.ok ())) ∧
    ∀ m, HankelPSD (seqCentral m) → checkThrow solve junk 1 m t = some (.ok ()) :=
  ⟨fun v hp => near_accepts h0 h1 hs (a := seqStd v) rfl (fun _ _ h => hk_std v junk h) ht hp,
    fun m hp => near_accepts h0 h1 hs (a := seqCentral m) rfl (fun _ _ h => hk_central m junk h) ht hp⟩

/-- What is accepted is not far from possible moments: the form can be negative only by the error of the solver and the threshold, relative to
the size `N` of the matrix.  Otherwise `std::invalid_argument` is thrown and nothing else.  (`ε * N < 1`: if the moments are so large that
the error covers the top left element 1, the solver might find a largest eigenvalue of zero.) -/
theorem C78_rejects {ε N : ℝ} {solve : (ℕ → ℕ → ℝ) → Option (List ℝ)} (hs : NearSolver ε solve) (junk : ℕ → ℕ → ℝ) {t : ℝ} (ht : 0 ≤ t)
    (v : ℕ → ℝ) (hN : ∀ c : Fin 5 → ℝ, |∑ i : Fin 5, ∑ j : Fin 5, c i * c j * seqStd v (i + j)| ≤ N * ∑ i, c i ^ 2) (h1 : ε * N < 1) :
    (checkThrow solve junk 0 v t = some (.ok ()) ∨ checkThrow solve junk 0 v t = some (.error .invalidArgument)) ∧
    ((∃ c : Fin 5 → ℝ, ∑ i : Fin 5, ∑ j : Fin 5, c i * c j * seqStd v (i + j) < -((t * (1 + ε) + ε) * N) * ∑ i, c i ^ 2) →
      checkThrow solve junk 0 v t = some (.error .invalidArgument)) := by
  obtain ⟨a, b⟩ := near_sound hs (a := seqStd v) rfl (fun _ _ h => hk_std v junk h) ht hN h1
  refine ⟨b, fun ⟨c, hc⟩ => b.resolve_left fun h => ?_⟩
  exact absurd (a h c) (not_le.2 hc)

/-- With any threshold smaller than in `C78_accepts_partial` there are a solver with that error and a distribution whose moments are rejected. -/
theorem C78_sharp {ε : ℝ} (h0 : 0 < ε) (h1 : ε < 1) {t : ℝ} (ht : 0 ≤ t) (ht' : t < ε / (1 - ε)) :
    ∃ solve, NearSolver ε solve ∧ ∃ ν : Measure ℝ, Distribution ν ∧ ∃ v : ℕ → ℝ, dCentral ν 2 = 1 ∧ (∀ k < 6, v k = dStd ν (k + 3)) ∧
      ∀ junk, checkThrow solve junk 0 v t = some (.error .invalidArgument) := by
  have hm : dMean twoPoint = 0 := by
    have := twoPoint_mom 1
    norm_num at this
    exact this
  have hc : ∀ k, dCentral twoPoint k = 1 / 5 * 2 ^ k + 4 / 5 * (-1 / 2) ^ k := fun k => by
    simp only [dCentral, hm, sub_zero, twoPoint_mom]
  have h2 : dCentral twoPoint 2 = 1 := by rw [hc]; norm_num
  refine ⟨shiftSolve (-ε), shift_near (by rw [abs_neg, abs_of_pos h0]), twoPoint, twoPoint_dist, tpArr, h2, fun k hk => ?_, fun junk => ?_⟩
  · rw [dStd, h2, Real.sqrt_one, one_pow, div_one, hc]
    interval_cases k <;> norm_num [tpArr]
  · refine shift_rejects h0 h1 (a := seqStd tpArr) rfl (fun _ _ h => hk_std tpArr junk h) ht ht' tpArr_psd tp_len tp_form

/-- The full statement is false: with the default threshold 0, and an error as small as one likes, the moments of a distribution may be
rejected. -/
theorem C78_false {ε : ℝ} (h0 : 0 < ε) (h1 : ε < 1) : ¬ ∀ solve, NearSolver ε solve → ∀ v junk, HankelPSD (seqStd v) →
    checkThrow solve junk 0 v 0 = some (.ok ()) := by
  intro h
  have e := shift_rejects h0 h1 (a := seqStd tpArr) (junk := fun _ _ => 0) rfl (fun _ _ h => hk_std tpArr _ h) le_rfl
    (div_pos h0 (by linarith)) tpArr_psd tp_len tp_form
  rw [h _ (shift_near (by rw [abs_neg, abs_of_pos h0])) tpArr _ tpArr_psd] at e
  simp at e

/-- moments of a fair coin, with the kurtosis below the smallest possible -/
noncomputable def lowArr (η : ℝ) : ℕ → ℝ
  | 1 => 1 - η
  | 3 => 1
  | 5 => 1
  | _ => 0

/-- The other direction is false too: impossible moments may be accepted, with threshold 0. -/
theorem C78_accepts_false {ε : ℝ} (h0 : 0 < ε) (_h1 : ε < 1) : ¬ ∀ solve, NearSolver ε solve → ∀ v junk, ¬ HankelPSD (seqStd v) →
    checkThrow solve junk 0 v 0 = some (.error .invalidArgument) := by
  intro h
  have hn : ¬ HankelPSD (seqStd (lowArr ε)) := fun hp => by
    have := hp ![1, 0, -1, 0, 0]
    simp [Fin.sum_univ_five, seqStd, lowArr] at this
    linarith
  have e := h _ (shift_near (d := ε) (by rw [abs_of_pos h0])) (lowArr ε) (fun _ _ => 0) hn
  have hM : ∀ i j, j ≤ i → hkMatrix 0 (lowArr ε) (fun _ _ => 0) i j = seqStd (lowArr ε) (i + j) := fun _ _ h => hk_std _ _ h
  obtain ⟨lo, hi, -, b3, -, b5, -⟩ := near_check' (solve := shiftSolve ε) hM rfl (Multiset.coe_toList _) (one_symm _) le_rfl
  obtain ⟨s0, s1, -⟩ := formSize_spec (hkMatrix 0 (lowArr ε) fun _ _ => 0)
  rw [show symLower (hkMatrix 0 (lowArr ε) fun _ _ => 0) = hankel (seqStd (lowArr ε)) from sym_eq hM] at s1
  simp only [qform_smul_one] at b3
  generalize formSize (hkMatrix 0 (lowArr ε) fun _ _ => 0) = N at *
  have hN : 1 ≤ N := by
    have := (abs_le.1 (s1 axis0)).2
    rwa [axis0_len, axis0_form, seqStd, mul_one] at this
  rw [b5 (b3 0 fun c => ?_)] at e
  · simp at e
  · have e1 : qform (hankel (seqStd (lowArr ε))) c = (c 0 + c 2 + c 4) ^ 2 + (c 1 + c 3) ^ 2 - ε * (c 2 ^ 2 + 2 * c 0 * c 4 + 2 * c 1 * c 3) := by
      simp [qform, hankel, Fin.sum_univ_five, seqStd, lowArr]
      ring
    have e2 : lenSq c = c 0 ^ 2 + c 1 ^ 2 + c 2 ^ 2 + c 3 ^ 2 + c 4 ^ 2 := by simp [lenSq, Fin.sum_univ_five]
    have e3 : ε * lenSq c ≤ ε * N * lenSq c := mul_le_mul_of_nonneg_right (le_mul_of_one_le_right h0.le hN) (lenSq_nonneg c)
    rw [e2] at e3 ⊢
    rw [e1]
    nlinarith [mul_nonneg h0.le (sq_nonneg (c 0 - c 4)), mul_nonneg h0.le (sq_nonneg (c 1 - c 3)), sq_nonneg (c 0 + c 2 + c 4), sq_nonneg (c 1 + c 3)]

/-! ## The distributions of the library -/

/-- The moments of the standardized chi-square with `w = sqrt(2 / k)`; those of the normal for `w = 0`. -/
def gamSeq (w : ℝ) : ℕ → ℝ
  | 0 => 1
  | 1 => 0
  | 2 => 1
  | 3 => 2 * w
  | 4 => 3 + 6 * w ^ 2
  | 5 => 20 * w + 24 * w ^ 3
  | 6 => 15 + 130 * w ^ 2 + 120 * w ^ 4
  | 7 => 210 * w + 924 * w ^ 3 + 720 * w ^ 5
  | 8 => 105 + 2380 * w ^ 2 + 7308 * w ^ 4 + 5040 * w ^ 6
  | _ => 0

/-- the coordinates with respect to the orthogonal polynomials -/
def gamCoord (w : ℝ) (c : Fin 5 → ℝ) : Fin 5 → ℝ :=
  ![c 0 + c 2 + 2 * w * c 3 + (3 + 6 * w ^ 2) * c 4,
    c 1 + 2 * w * c 2 + (3 + 6 * w ^ 2) * c 3 + (20 * w + 24 * w ^ 3) * c 4,
    c 2 + 6 * w * c 3 + (6 + 36 * w ^ 2) * c 4,
    c 3 + 12 * w * c 4,
    c 4]

/-- the coefficients of the orthogonal polynomials -/
def gamPoly (w : ℝ) : Fin 5 → Fin 5 → ℝ :=
  ![![1, 0, -1, 4 * w, 3 - 18 * w ^ 2],
    ![0, 1, -(2 * w), -3 + 6 * w ^ 2, 28 * w - 24 * w ^ 3],
    ![0, 0, 1, -(6 * w), -6 + 36 * w ^ 2],
    ![0, 0, 0, 1, -(12 * w)],
    ![0, 0, 0, 0, 1]]

theorem gam_form (w : ℝ) (c : Fin 5 → ℝ) : qform (hankel (gamSeq w)) c = gamCoord w c 0 ^ 2 + gamCoord w c 1 ^ 2 +
    2 * (1 + w ^ 2) * gamCoord w c 2 ^ 2 + 6 * (1 + w ^ 2) * (1 + 2 * w ^ 2) * gamCoord w c 3 ^ 2 +
    24 * (1 + w ^ 2) * (1 + 2 * w ^ 2) * (1 + 3 * w ^ 2) * gamCoord w c 4 ^ 2 := by
  simp [qform, hankel, Fin.sum_univ_five, gamSeq, gamCoord]
  ring

theorem gam_inv (w : ℝ) (c : Fin 5 → ℝ) (i : Fin 5) : c i = ∑ n, gamPoly w i n * gamCoord w c n := by
  fin_cases i <;> simp [Fin.sum_univ_five, gamPoly, gamCoord] <;> ring

theorem gam_coord_le (w : ℝ) (c : Fin 5 → ℝ) : ∑ n, gamCoord w c n ^ 2 ≤ qform (hankel (gamSeq w)) c := by
  rw [gam_form, Fin.sum_univ_five]
  have hw := sq_nonneg w
  have k2 : 1 ≤ 2 * (1 + w ^ 2) := by linarith
  have k3 : 1 ≤ 6 * (1 + w ^ 2) * (1 + 2 * w ^ 2) := by nlinarith
  have k4 : 1 ≤ 24 * (1 + w ^ 2) * (1 + 2 * w ^ 2) * (1 + 3 * w ^ 2) := by nlinarith [mul_nonneg hw hw]
  have m2 := mul_le_mul_of_nonneg_right k2 (sq_nonneg (gamCoord w c 2))
  have m3 := mul_le_mul_of_nonneg_right k3 (sq_nonneg (gamCoord w c 3))
  have m4 := mul_le_mul_of_nonneg_right k4 (sq_nonneg (gamCoord w c 4))
  linarith

/-- the smallest eigenvalue is not below the inverse of this -/
theorem gam_low (w : ℝ) (c : Fin 5 → ℝ) : lenSq c ≤ (60 + 408 * w ^ 2 + 312 * w ^ 4 + 576 * w ^ 6) * qform (hankel (gamSeq w)) c := by
  have h1 : ∀ i, c i ^ 2 ≤ (∑ n, gamPoly w i n ^ 2) * ∑ n, gamCoord w c n ^ 2 := fun i => by
    conv_lhs => rw [gam_inv w c i]
    exact Finset.sum_mul_sq_le_sq_mul_sq _ _ _
  have h2 : lenSq c ≤ (∑ i, ∑ n, gamPoly w i n ^ 2) * ∑ n, gamCoord w c n ^ 2 := by
    rw [lenSq, Finset.sum_mul]
    exact Finset.sum_le_sum fun i _ => h1 i
  have h3 : ∑ i, ∑ n, gamPoly w i n ^ 2 = 60 + 408 * w ^ 2 + 312 * w ^ 4 + 576 * w ^ 6 := by
    simp [Fin.sum_univ_five, gamPoly]
    ring
  rw [h3] at h2
  exact h2.trans (mul_le_mul_of_nonneg_left (gam_coord_le w c) (by positivity))

/-- The largest eigenvalue is not above the sum of all. -/
theorem trace_bound {a : ℕ → ℝ} (hp : HankelPSD a) (c : Fin 5 → ℝ) : qform (hankel a) c ≤ (a 0 + a 2 + a 4 + a 6 + a 8) * lenSq c := by
  have hA := hankel_herm a
  refine (form_upper hA _).1 (fun r hr => ?_) c
  have h0 := (roots_nonneg a).1 hp
  rw [hA.roots_charpoly_eq_eigenvalues] at hr h0
  obtain ⟨i, -, rfl⟩ := Multiset.mem_map.1 hr
  have tr := hA.trace_eq_sum_eigenvalues
  have e : (hankel a).trace = a 0 + a 2 + a 4 + a 6 + a 8 := by
    simp [Matrix.trace, hankel, Fin.sum_univ_five]
  rw [e] at tr
  rw [tr]
  exact Finset.single_le_sum (f := fun i => ((hA.eigenvalues i : ℝ))) (fun j _ => h0 _ (Multiset.mem_map_of_mem _ (Finset.mem_univ_val j))) (Finset.mem_univ i)

/-- The constructor gives the same object with another solver if the moments pass the check. -/
theorem mkStd_same {solve solve' : (ℕ → ℕ → ℝ) → Option (List ℝ)} {junk : ℕ → ℕ → ℝ} {v : ℕ → ℝ} (u : Moments ℝ) (id : VId) (n s : ℝ)
    (h : checkThrow solve junk 0 v 0 = some (.ok ())) (h' : checkThrow solve' junk 0 v 0 = some (.ok ())) :
    UReal2.mkStd solve junk u id n s v 0 = UReal2.mkStd solve' junk u id n s v 0 := by
  simp only [UReal2.mkStd, ctorCheck, h, h']

theorem gam_accepts {ε w : ℝ} {v : ℕ → ℝ} (hv : ∀ n ≤ 8, seqStd v n = gamSeq w n) (h0 : 0 ≤ ε)
    (he : ε * (125 + 2516 * w ^ 2 + 7428 * w ^ 4 + 5040 * w ^ 6) * (60 + 408 * w ^ 2 + 312 * w ^ 4 + 576 * w ^ 6) ≤ 1)
    {solve : (ℕ → ℕ → ℝ) → Option (List ℝ)} (hs : NearSolver ε solve) (junk : ℕ → ℕ → ℝ) :
    checkThrow solve junk 0 v 0 = some (.ok ()) := by
  have hh : hankel (seqStd v) = hankel (gamSeq w) := by
    ext i j
    exact hv _ (by omega)
  have hF : 0 < 60 + 408 * w ^ 2 + 312 * w ^ 4 + 576 * w ^ 6 := by positivity
  have hp : HankelPSD (gamSeq w) := fun c => by
    have := (lenSq_nonneg c).trans (gam_low w c)
    exact nonneg_of_mul_nonneg_right this hF
  refine near_margin hs (a := seqStd v) (N := 125 + 2516 * w ^ 2 + 7428 * w ^ 4 + 5040 * w ^ 6)
    (k := 1 / (60 + 408 * w ^ 2 + 312 * w ^ 4 + 576 * w ^ 6)) (fun _ _ h => hk_std v junk h) le_rfl (fun c => ?_) (fun c => ?_)
    (by positivity) (by rw [le_div_iff₀ hF]; exact he)
  · rw [hh]
    have := trace_bound hp c
    simp only [gamSeq] at this
    linarith
  · rw [hh, one_div, inv_mul_le_iff₀ hF]
    exact gam_low w c

/-- `normal` does not throw and gives the same variable as with exact eigenvalues, if the relative error of the solver is at most 1/7500. -/
theorem C78_normal {ε : ℝ} (h0 : 0 ≤ ε) (he : ε ≤ 1 / 7500) {solve : (ℕ → ℕ → ℝ) → Option (List ℝ)} (hs : NearSolver ε solve)
    (junk : ℕ → ℕ → ℝ) (u : Moments ℝ) (id : VId) (mu : ℝ) {sigma : ℝ} (h : 0 < sigma) :
    ∃ x, Distr.normal solve junk u id mu sigma = some (.ok x) ∧
      Carries x id (ProbabilityTheory.gaussianReal mu (Real.toNNReal (sigma ^ 2))) := by
  have hv : ∀ n ≤ 8, seqStd (Distr.arr6 0 (Mom.lit 3) 0 (Mom.lit (3 * 5)) 0 (Mom.lit (3 * 5 * 7))) n = gamSeq 0 n := fun n hn => by
    interval_cases n <;> norm_num [seqStd, Distr.arr6, gamSeq, Mom.lit]
  have e : Distr.normal solve junk u id mu sigma = Distr.normal exactSolve junk u id mu sigma :=
    mkStd_same u id mu sigma (gam_accepts hv h0 (by norm_num; linarith) hs junk)
      (gam_accepts hv le_rfl (by norm_num) ((near_zero _).2 exactSolve_ok) junk)
  rw [e]
  exact C32_normal exactSolve_ok junk u id mu h

/-- `chisquare` for all numbers of degrees of freedom, if the relative error is at most 10^-9 (enough for `double`, not for `float`). -/
theorem C78_chisquare {ε : ℝ} (h0 : 0 ≤ ε) (he : ε ≤ 1 / 10 ^ 9) {solve : (ℕ → ℕ → ℝ) → Option (List ℝ)} (hs : NearSolver ε solve)
    (junk : ℕ → ℕ → ℝ) (u : Moments ℝ) (id : VId) (k : ℕ) (h : 0 < k) :
    ∃ x, Distr.chisquare solve junk u id k = some (.ok x) ∧ Carries x id (chiSquareLaw k) := by
  have hK : (1 : ℝ) ≤ k := by exact_mod_cast h
  have hq : Real.sqrt (k : ℝ) ^ 2 = k := Real.sq_sqrt (by linarith)
  have hr : Real.sqrt (2 : ℝ) ^ 2 = 2 := Real.sq_sqrt (by norm_num)
  have hq0 : 0 < Real.sqrt (k : ℝ) := Real.sqrt_pos.2 (by linarith)
  set w := Real.sqrt 2 / Real.sqrt (k : ℝ) with hw
  have w2 : w ^ 2 = 2 / k := by rw [hw, div_pow, hr, hq]
  have wle : w ^ 2 ≤ 2 := by rw [w2]; exact div_le_self (by norm_num) hK
  have hk0 : (k : ℝ) ≠ 0 := by linarith
  have hv : ∀ n ≤ 8, seqStd (Distr.chiMoments (Real.sqrt 2) (Real.sqrt (k : ℝ)) (k : ℝ)) n = gamSeq w n := fun n hn => by
    have w3 : w ^ 3 = w * (2 / k) := by rw [← w2]; ring
    have w4 : w ^ 4 = (2 / k) ^ 2 := by rw [← w2]; ring
    have w5 : w ^ 5 = w * (2 / k) ^ 2 := by rw [← w2]; ring
    have w6 : w ^ 6 = (2 / k) ^ 3 := by rw [← w2]; ring
    interval_cases n <;> simp only [seqStd, Distr.chiMoments, Distr.arr6, gamSeq, Mom.lit] <;> push_cast <;>
      (try simp only [w2, w3, w4, w5, w6]) <;> (try simp only [hw]) <;> (try field_simp) <;> (try ring)
  have s0 := sq_nonneg w
  have s4 : w ^ 4 ≤ 4 := by rw [show w ^ 4 = (w ^ 2) ^ 2 by ring]; nlinarith
  have s6 : w ^ 6 ≤ 8 := by rw [show w ^ 6 = w ^ 2 * w ^ 4 by ring]; nlinarith [show 0 ≤ w ^ 4 by positivity]
  have b1 : 125 + 2516 * w ^ 2 + 7428 * w ^ 4 + 5040 * w ^ 6 ≤ 75189 := by linarith
  have b2 : 60 + 408 * w ^ 2 + 312 * w ^ 4 + 576 * w ^ 6 ≤ 6732 := by linarith
  have hm : (125 + 2516 * w ^ 2 + 7428 * w ^ 4 + 5040 * w ^ 6) * (60 + 408 * w ^ 2 + 312 * w ^ 4 + 576 * w ^ 6) ≤ 75189 * 6732 :=
    mul_le_mul b1 b2 (by positivity) (by norm_num)
  have hε : ε * (125 + 2516 * w ^ 2 + 7428 * w ^ 4 + 5040 * w ^ 6) * (60 + 408 * w ^ 2 + 312 * w ^ 4 + 576 * w ^ 6) ≤ 1 := by
    rw [mul_assoc]
    calc _ ≤ 1 / 10 ^ 9 * (75189 * 6732 : ℝ) := mul_le_mul he hm (by positivity) (by positivity)
      _ ≤ 1 := by norm_num
  have e : Distr.chisquare solve junk u id k = Distr.chisquare exactSolve junk u id k := by
    rw [Distr.chisquare, Distr.chisquare, if_neg (by omega), if_neg (by omega), if_neg (by omega), if_neg (by omega)]
    simp only [CSqrt.sqrt, Int.cast_natCast, Mom.lit, Nat.cast_ofNat]
    exact mkStd_same u id _ _ (gam_accepts hv h0 hε hs junk) (gam_accepts hv le_rfl (by simp) ((near_zero _).2 exactSolve_ok) junk)
  rw [e]
  exact C32_chisquare exactSolve_ok junk u id k h

/-- `uniform`, if the relative error is at most 1/340. -/
theorem C78_uniform {ε : ℝ} (h0 : 0 ≤ ε) (he : ε ≤ 1 / 340) {solve : (ℕ → ℕ → ℝ) → Option (List ℝ)} (hs : NearSolver ε solve)
    (junk : ℕ → ℕ → ℝ) (u : Moments ℝ) (id : VId) {left right : ℝ} (h : left < right) :
    ∃ x, Distr.uniform solve junk u id left right = some (.ok x) ∧ Carries x id (uniformLaw left right) := by
  set v : ℕ → ℝ := Distr.arr6 0 (Mom.lit (3 * 3) / Mom.lit 5) 0 (Mom.lit (3 * 3 * 3) / Mom.lit 7) 0 (Mom.lit (3 * 3)) with hv
  have hk : ∀ c, 1 / 20 * lenSq c ≤ qform (hankel (seqStd v)) c := fun c => by
    have e : qform (hankel (seqStd v)) c - 1 / 20 * lenSq c = 19 / 20 * (c 0 + 20 / 19 * c 2 + 36 / 19 * c 4) ^ 2 +
        19 / 20 * (c 1 + 36 / 19 * c 3) ^ 2 + 53 / 76 * (c 2 + 1044 / 371 * c 4) ^ 2 + 211 / 532 * c 3 ^ 2 + 179 / 10388 * c 4 ^ 2 := by
      simp [qform, lenSq, hankel, Fin.sum_univ_five, seqStd, hv, Distr.arr6, Mom.lit]
      ring
    have : 0 ≤ qform (hankel (seqStd v)) c - 1 / 20 * lenSq c := by rw [e]; positivity
    linarith
  have hp : HankelPSD (seqStd v) := fun c => by
    have := lenSq_nonneg c
    have := hk c
    rw [hankel_form] at this
    linarith
  have acc : ∀ {ε : ℝ}, 0 ≤ ε → ε ≤ 1 / 340 → ∀ {solve : (ℕ → ℕ → ℝ) → Option (List ℝ)}, NearSolver ε solve →
      checkThrow solve junk 0 v 0 = some (.ok ()) := fun {ε} h0 he {solve} hs => by
    refine near_margin hs (a := seqStd v) (N := 17) (k := 1 / 20) (fun _ _ h => hk_std v junk h) le_rfl (fun c => ?_) hk (by norm_num) (by linarith)
    refine (trace_bound hp c).trans (mul_le_mul_of_nonneg_right ?_ (lenSq_nonneg c))
    norm_num [seqStd, hv, Distr.arr6, Mom.lit]
  have e : Distr.uniform solve junk u id left right = Distr.uniform exactSolve junk u id left right :=
    mkStd_same u id _ _ (acc h0 he hs) (acc le_rfl (by norm_num) ((near_zero _).2 exactSolve_ok))
  rw [e]
  exact C32_uniform exactSolve_ok junk u id h

/-! ## Examples -/

/-- a solver with a relative error of 10^-10 -/
theorem shift_ex : NearSolver (1 / 10 ^ 10) (shiftSolve (-(1 / 10 ^ 10))) := shift_near (by rw [abs_neg, abs_of_pos (by positivity)])

example (junk) := (C78_accepts_partial (by positivity) (by norm_num) shift_ex junk (t := 1 / 10 ^ 9) (by norm_num)).1 tpArr tpArr_psd
example (junk) : checkThrow (shiftSolve (-(1 / 10 ^ 10))) junk 0 (fun _ => 0) (1 / 10 ^ 9) = some (.error .invalidArgument) := by
  have form : ∀ c : Fin 5 → ℝ, ∑ i : Fin 5, ∑ j : Fin 5, c i * c j * seqStd (fun _ => 0) (i + j) = (c 0 + c 2) ^ 2 - c 2 ^ 2 + c 1 ^ 2 := fun c => by
    simp [Fin.sum_univ_five, seqStd]
    ring
  refine (C78_rejects (N := 3) shift_ex junk (by positivity) _ (fun c => ?_) (by norm_num)).2 ⟨![1, 0, -1, 0, 0], ?_⟩
  · rw [form, Fin.sum_univ_five, abs_le]
    constructor <;> nlinarith [sq_nonneg (c 0 - c 2), sq_nonneg (c 0 + c 2), sq_nonneg (c 0), sq_nonneg (c 1), sq_nonneg (c 2), sq_nonneg (c 3), sq_nonneg (c 4)]
  · rw [form]
    simp [Fin.sum_univ_five]
    norm_num
example := C78_sharp (ε := 1 / 10 ^ 10) (by positivity) (by norm_num) (t := 1 / 10 ^ 11) (by positivity) (by norm_num)
example := C78_false (ε := 1 / 10 ^ 10) (by positivity) (by norm_num)
example := C78_accepts_false (ε := 1 / 10 ^ 10) (by positivity) (by norm_num)
example (junk u) := C78_normal (by positivity) (by norm_num) shift_ex junk u 4 (-2) (show (0 : ℝ) < 3 by norm_num)
example (junk u) := C78_chisquare (by positivity) (by norm_num) shift_ex junk u 4 1 one_pos
example (junk u) := C78_uniform (by positivity) (by norm_num) shift_ex junk u 4 (show (-1 : ℝ) < 3 by norm_num)

end Unc.Props
