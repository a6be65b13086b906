import Verif.Lemmas.Distr
import Verif.Props.Constructors

/-!
# Distributions: C32, C44
-/

namespace Unc.Props
open Unc SMap HessGrad Mom Check Dist MeasureTheory ProbabilityTheory

/-! ## C44 -/

/-- **C44** The table of binomial coefficients is right, whatever the uninitialised array contained, and no assert fails
in the range. -/
theorem C44_binomial (junk : ℕ → ℕ → ℤ) (n k : ℕ) :
    Distr.binomCoeff junk n k = if n ≤ 8 ∧ k ≤ n then some (n.choose k : ℤ) else none := by
  unfold Distr.binomCoeff
  split_ifs with h
  · congr 1
    obtain ⟨h1, h2⟩ := h
    interval_cases n <;> interval_cases k <;> rfl
  · rfl

example (junk) : Distr.binomCoeff junk 8 4 = some 70 := C44_binomial junk 8 4

theorem mun_eq {R : Type*} [CommRing R] (zm : ℕ → R) (i : ℕ) : Distr.mun zm i = zm 0 ^ i := by
  induction i with
  | zero => simp [Distr.mun]
  | succ i ih => rw [Distr.mun, ih, pow_succ]

/-- **C44** `central_moments` over any commutative ring: the binomial transform of the raw moments
(`zm k` is raw moment `k + 1`). -/
theorem C44_central_ring {R : Type*} [CommRing R] (junk : ℕ → ℕ → ℤ) (zm : ℕ → R) :
    ∃ l, Distr.centralMoments junk zm = some l ∧ l.length = 7 ∧ ∀ i < 7, l[i]? =
      some (∑ m ∈ Finset.range (i + 3), (if m = 0 then 1 else zm (m - 1)) * (-zm 0) ^ (i + 2 - m) * ((i + 2).choose m)) := by
  have he : ∀ n, 2 ≤ n → n ≤ 8 → Distr.cmEntry junk zm n =
      some (∑ m ∈ Finset.range (n + 1), (if m = 0 then 1 else zm (m - 1)) * (-zm 0) ^ (n - m) * (n.choose m)) := by
    intro n h2 h8
    interval_cases n <;>
      simp [Distr.cmEntry, Distr.cmStep, C44_binomial, mun_eq, List.range', Distr.sgn, Finset.sum_range_succ, Nat.choose] <;>
      ring
  refine ⟨(List.range' 2 7).map fun n => ∑ m ∈ Finset.range (n + 1),
    (if m = 0 then 1 else zm (m - 1)) * (-zm 0) ^ (n - m) * (n.choose m), ?_, by simp, fun i hi => ?_⟩
  · simp only [Distr.centralMoments, List.range', List.mapM_cons, List.mapM_nil]
    rw [he 2 (by norm_num) (by norm_num), he 3 (by norm_num) (by norm_num), he 4 (by norm_num) (by norm_num),
      he 5 (by norm_num) (by norm_num), he 6 (by norm_num) (by norm_num), he 7 (by norm_num) (by norm_num),
      he 8 (by norm_num) (by norm_num)]
    rfl
  · interval_cases i <;> rfl

/-- **C44** For any distribution with finite eighth moment `central_moments` of its raw moments are its central
moments. -/
theorem C44_central (junk : ℕ → ℕ → ℤ) {ν : Measure ℝ} (h : Distribution ν) :
    ∃ l, Distr.centralMoments junk (fun k => ∫ x, x ^ (k + 1) ∂ν) = some l ∧
      ∀ i < 7, l[i]? = some (dCentral ν (i + 2)) := by
  obtain ⟨l, e, -, h'⟩ := C44_central_ring junk fun k => ∫ x, x ^ (k + 1) ∂ν
  have := h.prob
  refine ⟨l, e, fun i hi => ?_⟩
  rw [h' i hi, central_expand h _ (by omega)]
  congr 1
  refine Finset.sum_congr rfl fun m hm => ?_
  have e1 : ∫ x, x ^ (0 + 1) ∂ν = dMean ν := by simp [dMean]
  rw [e1]
  rcases m with - | m <;> simp

/-- **C44** `std_moments` of the central moments are the standardized moments. -/
theorem C44_std {ν : Measure ℝ} (h0 : 0 < dCentral ν 2) :
    Distr.stdMoments (fun k => dCentral ν (k + 2)) = [dStd ν 3, dStd ν 4, dStd ν 5, dStd ν 6, dStd ν 7, dStd ν 8] := by
  have h2 : dCentral ν 2 = Real.sqrt (dCentral ν 2) ^ 2 := (Real.sq_sqrt h0.le).symm
  have hk : ∀ i, (Distr.stdLoop (fun k => dCentral ν (k + 2)) (Real.sqrt (dCentral ν 2)) i).1
      = Real.sqrt (dCentral ν 2) ^ (i + 2) := by
    intro i
    induction i with
    | zero => exact h2
    | succ i ih => simp only [Distr.stdLoop, ih]; rw [← pow_succ]
  simp only [Distr.stdMoments, Distr.stdLoop, CSqrt.sqrt, List.nil_append, List.cons_append, zero_add]
  simp only [← pow_succ, dStd]
  have e : ∀ j, dCentral ν 2 * Real.sqrt (dCentral ν 2) ^ j = Real.sqrt (dCentral ν 2) ^ (j + 2) := by
    intro j
    conv_lhs => rw [h2]
    simp only [Real.sqrt_sq (Real.sqrt_nonneg _)]
    ring
  have e1 : dCentral ν 2 * Real.sqrt (dCentral ν 2) = Real.sqrt (dCentral ν 2) ^ 3 := by
    rw [← e 1, pow_one]
  simp only [e1, ← pow_succ]

example (junk) := C44_central junk (chi_dist 3)
example (junk) := C44_central_ring (R := ℚ) junk fun k => 2 ^ k
example : Distr.stdMoments (fun k => dCentral (chiSquareLaw 3) (k + 2))
    = [dStd (chiSquareLaw 3) 3, dStd (chiSquareLaw 3) 4, dStd (chiSquareLaw 3) 5, dStd (chiSquareLaw 3) 6,
       dStd (chiSquareLaw 3) 7, dStd (chiSquareLaw 3) 8] :=
  C44_std (by rw [(chi_central 3).1]; norm_num)

/-! ## C32 -/

/-- Construction from the standardized moments of a distribution. -/
theorem carries_mk {solve : (ℕ → ℕ → ℝ) → Option (List ℝ)} (hs : EigenSolver solve) {ν : Measure ℝ} (h : Distribution ν)
    (h0 : 0 < dCentral ν 2) (junk : ℕ → ℕ → ℝ) (u : Moments ℝ) (id : VId) {n s : ℝ} {v : ℕ → ℝ} (hn : n = dMean ν)
    (hsd : s = Real.sqrt (dCentral ν 2)) (hv : ∀ k < 6, v k = dStd ν (k + 3)) :
    ∃ x, UReal2.mkStd solve junk u id n s v 0 = some (.ok x) ∧ Carries x id ν := by
  have hp := h.prob
  have hs0 : Real.sqrt (dCentral ν 2) ≠ 0 := (Real.sqrt_pos.2 h0).ne'
  have hpsd : HankelPSD (seqStd v) := by
    refine hankel_of_int (P := ν) (Y := fun x => (x - dMean ν) / Real.sqrt (dCentral ν 2))
      (fun k hk => by simpa only [div_pow] using (int_shift h _ hk).div_const _) fun k hk => ?_
    have e : ∫ x, ((x - dMean ν) / Real.sqrt (dCentral ν 2)) ^ k ∂ν = dStd ν k := by
      simp only [div_pow, integral_div, dStd, dCentral]
    rw [e]
    match k, hk with
    | 0, _ => simp [seqStd, dStd, dCentral]
    | 1, _ => simp [seqStd, dStd, dCentral, int_shift_zero h]
    | 2, _ => simp only [seqStd, dStd]; rw [Real.sq_sqrt h0.le, div_self h0.ne']
    | k + 3, hk => simp only [seqStd]; exact hv k (by omega)
  have e : UReal2.mkStd solve junk u id n s v 0 = some (.ok (UReal2.buildStd u id n s v)) := by
    rw [UReal2.mkStd, if_neg (by rw [ltb_iff, hsd]; exact not_lt.2 (Real.sqrt_nonneg _)), ctorCheck,
      if_pos (by simp [ltb_zero_real]), (C31_std hs v junk).1 hpsd]
    rfl
  obtain ⟨h1, h2, -, h3, -, -, h4⟩ := C30_std e
  obtain ⟨h5, h6⟩ := h3 (by rw [hsd]; exact hs0)
  refine ⟨_, e, h, fun p => by rw [h1 p, hn], by rw [h2, hsd], by simp [buildStd_eq, vars, keys], ?_, ?_, ?_⟩
  · rw [h5, hv 0 (by norm_num)]
  · rw [h6, hv 1 (by norm_num)]
  · rw [h4, hv 0 (by norm_num), hv 1 (by norm_num), hv 2 (by norm_num), hv 3 (by norm_num), hv 4 (by norm_num),
      hv 5 (by norm_num)]

variable {solve : (ℕ → ℕ → ℝ) → Option (List ℝ)}

/-- Whether the constructor accepts does not depend on the mean and on the (non-negative) uncertainty. -/
theorem mkStd_any {junk : ℕ → ℕ → ℝ} {u : Moments ℝ} {id : VId} {n s t : ℝ} {v : ℕ → ℝ} {x : UReal2 ℝ}
    (hx : UReal2.mkStd solve junk u id n s v t = some (.ok x)) (n' : ℝ) {s' : ℝ} (h : 0 ≤ s') :
    ∃ y, UReal2.mkStd solve junk u id n' s' v t = some (.ok y) := by
  unfold UReal2.mkStd at hx ⊢
  rw [if_neg (by rw [ltb_iff]; exact not_lt.2 h)]
  split at hx
  · simp at hx
  cases hc : ctorCheck solve junk 0 v t with
  | none => simp [hc] at hx
  | some r => cases r with
    | error e => simp [hc, Except.map] at hx
    | ok _ => exact ⟨_, rfl⟩

/-- **C32** `normal(mu, sigma)` carries the normal distribution with mean `mu` and variance `sigma^2`. -/
theorem C32_normal (hs : EigenSolver solve) (junk : ℕ → ℕ → ℝ) (u : Moments ℝ) (id : VId) (mu : ℝ) {sigma : ℝ} (h : 0 < sigma) :
    ∃ x, Distr.normal solve junk u id mu sigma = some (.ok x) ∧
      Carries x id (gaussianReal mu (Real.toNNReal (sigma ^ 2))) := by
  have hv : ((Real.toNNReal (sigma ^ 2) : NNReal) : ℝ) = sigma ^ 2 := Real.coe_toNNReal _ (sq_nonneg _)
  have hc := norm_central mu _ hv
  have g2 : ∫ x, x ^ 2 ∂γ = 1 := by rw [gauss_succ 0, gauss_zero]; norm_num
  have g4 : ∫ x, x ^ 4 ∂γ = 3 := by rw [gauss_succ 2, g2]; norm_num
  have g6 : ∫ x, x ^ 6 ∂γ = 15 := by rw [gauss_succ 4, g4]; norm_num
  have g8 : ∫ x, x ^ 8 ∂γ = 105 := by rw [gauss_succ 6, g6]; norm_num
  have g3 : ∫ x, x ^ 3 ∂γ = 0 := by rw [gauss_succ 1, gauss_one, mul_zero]
  have g5 : ∫ x, x ^ 5 ∂γ = 0 := by rw [gauss_succ 3, g3, mul_zero]
  have g7 : ∫ x, x ^ 7 ∂γ = 0 := by rw [gauss_succ 5, g5, mul_zero]
  have c2 : dCentral (gaussianReal mu (Real.toNNReal (sigma ^ 2))) 2 = sigma ^ 2 := by rw [hc, g2, mul_one]
  have hsq : Real.sqrt (sigma ^ 2) = sigma := Real.sqrt_sq h.le
  refine carries_mk hs (norm_dist _ _) (by rw [c2]; positivity) junk u id (norm_mean _ _).symm (by rw [c2, hsq]) fun k hk => ?_
  rw [dStd, c2, hsq, hc, mul_div_cancel_left₀ _ (pow_ne_zero _ h.ne')]
  interval_cases k <;> simp [Distr.arr6, lit, g3, g4, g5, g6, g7, g8]

/-- **C32** `normal` throws exactly for negative `sigma`; `sigma = 0` gives the mean with uncertainty 0. -/
theorem C32_normal_edge (hs : EigenSolver solve) (junk : ℕ → ℕ → ℝ) (u : Moments ℝ) (id : VId) (mu sigma : ℝ) :
    (sigma < 0 → Distr.normal solve junk u id mu sigma = some (.error .invalidArgument)) ∧
    (sigma = 0 → ∃ x, Distr.normal solve junk u id mu sigma = some (.ok x) ∧ (∀ p, x.n p = some mu) ∧ x.s = some 0) := by
  constructor
  · intro h
    rw [Distr.normal, UReal2.mkStd, if_pos (by rw [ltb_iff]; exact h)]
  · rintro rfl
    obtain ⟨x, hx, -⟩ := C32_normal hs junk u id 0 one_pos
    obtain ⟨y, hy⟩ := mkStd_any hx mu le_rfl
    obtain ⟨h1, h2, -⟩ := C30_std hy
    exact ⟨y, hy, h1, h2⟩

/-- **C32** `uniform(left, right)` carries the uniform distribution. -/
theorem C32_uniform (hs : EigenSolver solve) (junk : ℕ → ℕ → ℝ) (u : Moments ℝ) (id : VId) {left right : ℝ} (h : left < right) :
    ∃ x, Distr.uniform solve junk u id left right = some (.ok x) ∧ Carries x id (uniformLaw left right) := by
  have hd : 0 < right - left := sub_pos.2 h
  have hc := unif_central h
  have c2 : dCentral (uniformLaw left right) 2 = ((right - left) / 2) ^ 2 / 3 := by rw [hc]; norm_num; ring
  have hsq : Real.sqrt (((right - left) / 2) ^ 2 / 3) = Real.sqrt (1 / 12) * (right - left) := by
    rw [show ((right - left) / 2) ^ 2 / 3 = 1 / 12 * (right - left) ^ 2 by ring, Real.sqrt_mul (by norm_num),
      Real.sqrt_sq hd.le]
  refine carries_mk hs (unif_dist h) (by rw [c2]; positivity) junk u id ?_ ?_ fun k hk => ?_
  · rw [unif_mean h]; simp [lit]
  · rw [c2, hsq]; norm_num [lit, CSqrt.sqrt]
  · have s2 : Real.sqrt (1 / 12) ^ 2 = 1 / 12 := Real.sq_sqrt (by norm_num)
    have s4 : Real.sqrt (1 / 12) ^ 4 = 1 / 144 := by rw [show 4 = 2 * 2 from rfl, pow_mul, s2]; norm_num
    have s6 : Real.sqrt (1 / 12) ^ 6 = 1 / 1728 := by rw [show 6 = 2 * 3 from rfl, pow_mul, s2]; norm_num
    have s8 : Real.sqrt (1 / 12) ^ 8 = 1 / 20736 := by rw [show 8 = 2 * 4 from rfl, pow_mul, s2]; norm_num
    rw [dStd, c2, hsq, hc, mul_pow]
    generalize Real.sqrt (1 / 12) = g at *
    interval_cases k <;> norm_num [Distr.arr6, lit]
    · rw [s4]; field_simp; norm_num
    · rw [s6]; field_simp; norm_num
    · rw [s8]; field_simp; norm_num

/-- **C32** `uniform` throws exactly for `left > right`; an interval reduced to a point gives it with uncertainty 0. -/
theorem C32_uniform_edge (hs : EigenSolver solve) (junk : ℕ → ℕ → ℝ) (u : Moments ℝ) (id : VId) (left right : ℝ) :
    (right < left → Distr.uniform solve junk u id left right = some (.error .invalidArgument)) ∧
    (left = right → ∃ x, Distr.uniform solve junk u id left right = some (.ok x) ∧ (∀ p, x.n p = some left) ∧
      x.s = some 0) := by
  constructor
  · intro h
    rw [Distr.uniform, UReal2.mkStd, if_pos]
    rw [ltb_iff]
    refine mul_neg_of_pos_of_neg (Real.sqrt_pos.2 ?_) (sub_neg.2 h)
    norm_num [lit]
  · rintro rfl
    obtain ⟨x, hx, -⟩ := C32_uniform hs junk u id (show (0 : ℝ) < 1 by norm_num)
    obtain ⟨y, hy⟩ := mkStd_any hx left le_rfl
    refine ⟨y, ?_, (C30_std hy).1, (C30_std hy).2.1⟩
    rw [← hy, Distr.uniform]
    congr 1
    · norm_num [lit]
    · simp

/-- **C32** `chisquare(k)`, `k > 0`, carries the distribution of the sum of `k` squares of independent standard normal
variables. -/
theorem C32_chisquare (hs : EigenSolver solve) (junk : ℕ → ℕ → ℝ) (u : Moments ℝ) (id : VId) (k : ℕ) (h : 0 < k) :
    ∃ x, Distr.chisquare solve junk u id k = some (.ok x) ∧ Carries x id (chiSquareLaw k) := by
  obtain ⟨c2, c3, c4, c5, c6, c7, c8⟩ := chi_central k
  have hK : (0 : ℝ) < k := by exact_mod_cast h
  rw [Distr.chisquare, if_neg (by omega), if_neg (by omega)]
  have hq : Real.sqrt (k : ℝ) ^ 2 = k := Real.sq_sqrt hK.le
  have hr : Real.sqrt (2 : ℝ) ^ 2 = 2 := Real.sq_sqrt (by norm_num)
  have hq0 : 0 < Real.sqrt (k : ℝ) := Real.sqrt_pos.2 hK
  have hr0 : 0 < Real.sqrt (2 : ℝ) := Real.sqrt_pos.2 (by norm_num)
  have hsq : Real.sqrt (2 * (k : ℝ)) = Real.sqrt 2 * Real.sqrt k := Real.sqrt_mul (by norm_num) _
  refine carries_mk hs (chi_dist k) (by rw [c2]; positivity) junk u id ?_ ?_ fun j hj => ?_
  · rw [chi_mean]; simp
  · rw [c2, hsq]; simp [lit, CSqrt.sqrt]
  · rw [dStd, c2, hsq]
    have e2 : ∀ m, (Real.sqrt 2 * Real.sqrt (k : ℝ)) ^ (2 * m) = (2 * k) ^ m := by
      intro m; rw [pow_mul, mul_pow, hr, hq]
    have o : ∀ m, (Real.sqrt 2 * Real.sqrt (k : ℝ)) ^ (2 * m + 1) = Real.sqrt 2 * Real.sqrt k * (2 * k) ^ m := by
      intro m; rw [pow_succ, e2]; ring
    simp only [CSqrt.sqrt, Int.cast_natCast]
    interval_cases j <;> simp only [Distr.chiMoments, Distr.arr6, lit] <;> push_cast
    · rw [c3, o 1]; field_simp; rw [hr]; ring
    · rw [c4, e2 2]; field_simp; ring
    · rw [c5, o 2]; field_simp; rw [hr]; ring
    · rw [c6, e2 3]; field_simp; ring
    · rw [c7, o 3]; field_simp; rw [hr]; ring
    · rw [c8, e2 4]; field_simp; ring

/-- **C32** `chisquare` throws exactly for negative `k`; `chisquare(0)` is the constant 0.  Any arithmetic. -/
theorem C32_chisquare_edge {R : Type*} [Zero R] [One R] [Neg R] [Add R] [Sub R] [Mul R] [Div R] [NatCast R] [IntCast R]
    [CCmp R] [CSqrt R] (solve : (ℕ → ℕ → R) → Option (List R)) (junk : ℕ → ℕ → R) (u : Moments R) (id : VId) (k : ℤ) :
    (k < 0 → Distr.chisquare solve junk u id k = some (.error .invalidArgument)) ∧
    (k = 0 → ∃ x, Distr.chisquare solve junk u id k = some (.ok x) ∧ x.hg.vars = ∅ ∧ x.mu = 0) := by
  constructor
  · intro h
    rw [Distr.chisquare, if_pos h]
  · rintro rfl
    exact ⟨_, by simp [Distr.chisquare]; rfl, by simp [UReal2.const, HessGrad.empty, vars, keys], rfl⟩

example (junk u) := C32_normal exactSolve_ok junk u 4 (-2) (show (0 : ℝ) < 3 by norm_num)
example (junk u) := (C32_normal_edge exactSolve_ok junk u 4 (-2) (-1)).1 (by norm_num)
example (junk u) := C32_uniform exactSolve_ok junk u 4 (show (-1 : ℝ) < 3 by norm_num)
example (junk u) := (C32_uniform_edge exactSolve_ok junk u 4 2 1).1 (by norm_num)
example (junk u) := C32_chisquare exactSolve_ok junk u 4 7 (by norm_num)
example (junk u) := (C32_chisquare_edge exactSolve junk u 4 (-7)).1 (by norm_num)

end Unc.Props
