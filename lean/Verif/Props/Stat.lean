import Verif.Model.Stat
import Verif.Props.FirstOrder

/-! # Covariance/correlation matrices (C17) and `corr2cov` (C18) -/

namespace Unc.Props
open Unc Unc.Spec UReal Stat

/-! ## Reading the row-major buffer -/

theorem getElem?_flatMap {α β : Type*} {n : ℕ} (l : List α) (f : α → List β) (hf : ∀ a, (f a).length = n) (i j : ℕ) (hj : j < n) :
    (l.flatMap f)[n * i + j]? = (l[i]?).bind fun a => (f a)[j]? := by
  induction l generalizing i with
  | nil => simp
  | cons a t ih =>
    cases i with
    | zero => simp [List.getElem?_append_left (by rw [hf]; exact hj : j < (f a).length)]
    | succ i =>
      rw [List.flatMap_cons, List.getElem?_append_right (by rw [hf]; ring_nf; omega), hf,
        show n * (i + 1) + j - n = n * i + j by rw [mul_add]; omega, ih]
      simp

theorem length_outerSeq {α β : Type*} (x : List α) (op : α → α → β) : (outerSeq x op).length = x.length * x.length := by
  unfold outerSeq
  have : ∀ l : List α, (l.flatMap fun a => x.map fun b => op a b).length = l.length * x.length := by
    intro l; induction l with
    | nil => simp
    | cons a t ih => simp [List.flatMap_cons, ih]; ring
  exact this x

theorem getElem?_outerSeq {α β : Type*} (x : List α) (op : α → α → β) (i j : ℕ) (hi : i < x.length) (hj : j < x.length) :
    (outerSeq x op)[x.length * i + j]? = some (op x[i] x[j]) := by
  unfold outerSeq
  rw [getElem?_flatMap x _ (n := x.length) (by simp) i j hj]
  simp [hi, hj]

theorem outer_some {α β : Type*} (x : List α) (op : α → α → β) (hn : x.length < 4294967296) :
    outer x op = some (outerSeq x op) := by
  unfold outer
  rw [length_outerSeq, if_neg]
  unfold wrap64
  rw [Nat.mod_eq_of_lt]
  · omega
  · calc x.length * x.length ≤ 4294967295 * 4294967295 := Nat.mul_le_mul (by omega) (by omega)
      _ < _ := by norm_num

/-! ## C17 -/

/-- **C17** shape and entries of `cov_matrix` (any arithmetic). -/
theorem C17_cov_matrix_entries {R : Type*} [Zero R] [Add R] [Mul R] (x : List (UReal R)) (hn : x.length < 4294967296) :
    ∃ m, covMatrix x = some m ∧ m.length = x.length * x.length ∧
      ∀ i j (hi : i < x.length) (hj : j < x.length), m[x.length * i + j]? = some (cov x[i] x[j]) :=
  ⟨_, outer_some x _ hn, length_outerSeq _ _, fun i j hi hj => getElem?_outerSeq x _ i j hi hj⟩

/-- **C17** shape and entries of `corr_matrix` (any arithmetic). -/
theorem C17_corr_matrix_entries {R : Type*} [Zero R] [Add R] [Mul R] [Div R] [CCmp R] [CSqrt R] (x : List (UReal R))
    (hn : x.length < 4294967296) :
    ∃ m, corrMatrix x = some m ∧ m.length = x.length * x.length ∧
      ∀ i j (hi : i < x.length) (hj : j < x.length), m[x.length * i + j]? = some (corr x[i] x[j]) :=
  ⟨_, outer_some x _ hn, length_outerSeq _ _, fun i j hi hj => getElem?_outerSeq x _ i j hi hj⟩

/-- **C17** the two matrices are computed exactly for the vectors of fewer than 2^32 elements: with more, the size of
the buffer wraps and the loop writes beyond its end. -/
theorem C17_size {R : Type*} [Zero R] [Add R] [Mul R] [Div R] [CCmp R] [CSqrt R] (x : List (UReal R)) :
    (covMatrix x = none ↔ 4294967296 ≤ x.length) ∧ (corrMatrix x = none ↔ 4294967296 ≤ x.length) := by
  have h : ∀ op : UReal R → UReal R → R, outer x op = none ↔ 4294967296 ≤ x.length := by
    intro op
    constructor
    · intro e
      by_contra hn
      rw [outer_some x op (by omega)] at e
      cases e
    · intro hn
      unfold outer
      rw [length_outerSeq, if_pos]
      unfold wrap64
      have : 4294967296 * 4294967296 ≤ x.length * x.length := Nat.mul_le_mul hn hn
      exact lt_of_lt_of_le (Nat.mod_lt _ (by decide)) (by omega)
  exact ⟨h _, h _⟩

example : covMatrix (List.replicate 4294967297 ex1) = none :=
  (C17_size _).1.2 (by rw [List.length_replicate]; omega)

example : ∃ m, corrMatrix [ex1, ex2, ex3] = some m ∧ m.length = 9 ∧ m[3 * 1 + 2]? = some (corr ex2 ex3) := by
  obtain ⟨m, e, hl, h⟩ := C17_corr_matrix_entries [ex1, ex2, ex3] (by simp)
  exact ⟨m, e, hl, h 1 2 (by simp) (by simp)⟩

/-- **C17** the covariance matrix is symmetric with the variances on the diagonal and positive semidefinite. -/
theorem C17_cov_matrix_psd (x : List (UReal ℝ)) (hx : ∀ a ∈ x, a.Valid) (hn : x.length < 4294967296) :
    ∃ m, covMatrix x = some m ∧ ∃ M : Fin x.length → Fin x.length → ℝ,
      (∀ i j : Fin x.length, m[x.length * i.1 + j.1]? = some (M i j)) ∧ (∀ i j, M i j = M j i) ∧ (∀ i, M i i = var x[i]) ∧
      ∀ a : Fin x.length → ℝ, 0 ≤ ∑ i, ∑ j, a i * a j * M i j := by
  obtain ⟨m, e, -, h⟩ := C17_cov_matrix_entries x hn
  have hv : ∀ i : Fin x.length, (x[i]).Valid := fun i => hx _ (List.getElem_mem _)
  exact ⟨m, e, fun i j => cov x[i] x[j], fun i j => h i j i.2 j.2, fun i j => C02_cov_symm (hv i) (hv j),
    fun i => C02_cov_self (hv i), fun a => C02_psd (fun i : Fin x.length => x[i]) hv a⟩

example := C17_cov_matrix_psd [ex1, ex2, ex3] (by intro a ha; simp at ha; rcases ha with rfl | rfl | rfl; exacts [valid_ex1, valid_ex2, valid_ex3]) (by simp)

/-- **C17** the correlation matrix is symmetric, has entries in [-1, 1] and unit diagonal where the uncertainties are not zero. -/
theorem C17_corr_matrix (x : List (UReal ℝ)) (hx : ∀ a ∈ x, a.Valid) (hn : x.length < 4294967296) :
    ∃ m, corrMatrix x = some m ∧ ∃ M : Fin x.length → Fin x.length → ℝ,
      (∀ i j : Fin x.length, m[x.length * i.1 + j.1]? = some (M i j)) ∧ (∀ i j, M i j = M j i) ∧
      (∀ i, (x[i]).s ≠ 0 → M i i = 1) ∧ (∀ i j, (x[i]).s ≠ 0 → (x[j]).s ≠ 0 → |M i j| ≤ 1) := by
  obtain ⟨m, e, -, h⟩ := C17_corr_matrix_entries x hn
  have hv : ∀ i : Fin x.length, (x[i]).Valid := fun i => hx _ (List.getElem_mem _)
  refine ⟨m, e, fun i j => corr x[i] x[j], fun i j => h i j i.2 j.2, fun i j => ?_, fun i hi => ?_,
    fun i j hi hj => C03_corr_le_one (hv i) (hv j) hi hj⟩
  · simp only [corr]; rw [C02_cov_symm (hv i) (hv j), mul_comm]
  · simp only [corr]
    rw [C02_cov_self (hv i), ← (C02_s_sq (hv i)).2, div_self (mul_ne_zero hi hi)]

example := C17_corr_matrix [ex1, ex2, ex3] (by intro a ha; simp at ha; rcases ha with rfl | rfl | rfl; exacts [valid_ex1, valid_ex2, valid_ex3]) (by simp)

example : ∃ m, covMatrix [ex1, ex2, ex3] = some m ∧ m.length = 9 ∧ m[3 * 1 + 2]? = some 6 := by
  obtain ⟨m, e, hl, h⟩ := C17_cov_matrix_entries [ex1, ex2, ex3] (by simp)
  refine ⟨m, e, hl, ?_⟩
  have := h 1 2 (by simp) (by simp)
  simp only [List.length_cons, List.length_nil] at this
  rw [this]
  simp [cov, ex2, ex3, covLoop]; norm_num

/-! ## C18 -/

section
variable {R : Type*} [Zero R] [Mul R]

omit [Zero R] [Mul R] in
theorem wrap64_sq {n : ℕ} (hn : n < 4294967296) : wrap64 (n * n) = n * n := by
  unfold wrap64
  refine Nat.mod_eq_of_lt ?_
  calc n * n ≤ 4294967295 * 4294967295 := Nat.mul_le_mul (by omega) (by omega)
    _ < _ := by norm_num

omit [Zero R] [Mul R] in
theorem idx_lt {n i j : ℕ} (hi : i < n) (hj : j < n) : n * i + j < n * n := by
  calc n * i + j < n * i + n := by omega
    _ = n * (i + 1) := by ring
    _ ≤ n * n := Nat.mul_le_mul_left _ hi

/-- one pass of the inner loop -/
theorem corr2cov_inner (sigma corr : List R) (hn : sigma.length < 4294967296)
    (hc : corr.length = sigma.length * sigma.length) (i : ℕ) (hi : i < sigma.length) (k : ℕ) (hk : k ≤ sigma.length)
    (cov : List R) (hl : cov.length = sigma.length * sigma.length) :
    ∃ cov', (List.range k).foldlM (fun cov j => corr2covBody sigma corr cov i j) cov = some cov' ∧
      cov'.length = cov.length ∧
      ∀ p, cov'[p]? = if sigma.length * i ≤ p ∧ p < sigma.length * i + k then
        (sigma[i]?).bind fun a => (sigma[p - sigma.length * i]?).bind fun b => (corr[p]?).map fun c => a * b * c
        else cov[p]? := by
  induction k with
  | zero => exact ⟨cov, rfl, rfl, fun p => by rw [if_neg (by omega)]⟩
  | succ k ih =>
    obtain ⟨c1, e1, l1, h1⟩ := ih (by omega)
    have hki : sigma.length * i + k < sigma.length * sigma.length := idx_lt hi (by omega)
    have hw : wrap64 (sigma.length * i + k) = sigma.length * i + k := by
      have := wrap64_sq hn
      unfold wrap64 at this ⊢
      rw [Nat.mod_eq_of_lt]
      have : sigma.length * sigma.length < 18446744073709551616 := by
        rw [← this]; exact Nat.mod_lt _ (by norm_num)
      omega
    have hk' : k < sigma.length := by omega
    have hkc : sigma.length * i + k < corr.length := by omega
    have hkl : sigma.length * i + k < c1.length := by omega
    refine ⟨c1.set (sigma.length * i + k) (sigma[i] * sigma[k] * corr[sigma.length * i + k]), ?_, by simp [l1], ?_⟩
    · rw [List.range_succ, List.foldlM_append, e1]
      simp [corr2covBody, hi, hk', hw, hkc, setAt, hkl]
    · intro p
      rw [List.getElem?_set]
      by_cases hp : sigma.length * i + k = p
      · subst hp
        simp [hkl, hi, hkc, hk']
      · rw [if_neg hp, h1 p]
        by_cases h2 : sigma.length * i ≤ p ∧ p < sigma.length * i + k
        · rw [if_pos h2, if_pos ⟨h2.1, by omega⟩]
        · rw [if_neg h2, if_neg (by omega)]

/-- the outer loop -/
theorem corr2cov_outer (sigma corr : List R) (hn : sigma.length < 4294967296)
    (hc : corr.length = sigma.length * sigma.length) (k : ℕ) (hk : k ≤ sigma.length)
    (cov : List R) (hl : cov.length = sigma.length * sigma.length) :
    ∃ cov', (List.range k).foldlM (fun cov i =>
        (List.range sigma.length).foldlM (fun cov j => corr2covBody sigma corr cov i j) cov) cov = some cov' ∧
      cov'.length = cov.length ∧
      ∀ i j, i < k → (hi : i < sigma.length) → (hj : j < sigma.length) →
        cov'[sigma.length * i + j]? = (corr[sigma.length * i + j]?).map fun c => sigma[i] * sigma[j] * c := by
  induction k with
  | zero => exact ⟨cov, rfl, rfl, fun i j h => by omega⟩
  | succ k ih =>
    obtain ⟨c1, e1, l1, h1⟩ := ih (by omega)
    obtain ⟨c2, e2, l2, h2⟩ := corr2cov_inner sigma corr hn hc k (by omega) sigma.length (le_refl _) c1 (by omega)
    refine ⟨c2, by rw [List.range_succ, List.foldlM_append, e1]; simp [e2], by omega, ?_⟩
    intro i j hik hi hj
    rw [h2]
    by_cases hik' : i = k
    · subst hik'
      rw [if_pos ⟨by omega, by omega⟩]
      simp [hi, hj]
    · have : i < k := by omega
      rw [if_neg, h1 i j this hi hj]
      rintro ⟨h3, -⟩
      have : sigma.length * (i + 1) ≤ sigma.length * k := Nat.mul_le_mul_left _ (by omega)
      rw [mul_add] at this
      omega

/-- **C18** `corr2cov` throws `std::invalid_argument` iff the buffer size is not the square of the vector size; otherwise it has
no undefined behaviour and returns the products (any arithmetic).  Vectors with fewer than 2^32 elements. -/
theorem C18_corr2cov (sigma corr : List R) (hn : sigma.length < 4294967296) :
    (corr2cov sigma corr = .error .invalidArgument ↔ corr.length ≠ sigma.length * sigma.length) ∧
    (corr.length = sigma.length * sigma.length → ∃ m, corr2cov sigma corr = .ok (some m) ∧ m.length = corr.length ∧
      ∀ i j (hi : i < sigma.length) (hj : j < sigma.length),
        m[sigma.length * i + j]? = (corr[sigma.length * i + j]?).map fun c => sigma[i] * sigma[j] * c) := by
  unfold corr2cov
  simp only [wrap64_sq hn]
  constructor
  · by_cases h : corr.length = sigma.length * sigma.length <;> simp [h]
  · intro h
    obtain ⟨m, e, hl, hm⟩ := corr2cov_outer sigma corr hn h sigma.length (le_refl _)
      (List.replicate (sigma.length * sigma.length) 0) (by simp)
    refine ⟨m, by simp [h, e], by simpa [h] using hl, fun i j hi hj => hm i j hi hi hj⟩

example : corr2cov [(2 : ℝ), 3] [1, 1 / 2, 1 / 2] = .error .invalidArgument ∧
    ∃ m, corr2cov [(2 : ℝ), 3] [1, 1 / 2, 1 / 2, 1] = .ok (some m) ∧ m[1]? = some 3 := by
  refine ⟨(C18_corr2cov _ _ (by simp)).1.2 (by simp), ?_⟩
  obtain ⟨m, e, -, h⟩ := (C18_corr2cov [(2 : ℝ), 3] [1, 1 / 2, 1 / 2, 1] (by simp)).2 (by simp)
  refine ⟨m, e, ?_⟩
  have := h 0 1 (by simp) (by simp)
  simp at this
  rw [this]; norm_num

/-- **C18, beyond the bound**: with 2^32 uncertainties the size check wraps around: the empty correlation buffer is accepted
and read out of bounds (any arithmetic). -/
theorem C18_size_check_wraps (a : R) :
    ∃ sigma corr : List R, corr.length ≠ sigma.length * sigma.length ∧ corr2cov sigma corr = .ok none := by
  obtain ⟨k, hk⟩ : ∃ k : ℕ, k = 4294967296 := ⟨_, rfl⟩
  have hkk : k * k = 18446744073709551616 := by rw [hk]
  refine ⟨List.replicate k a, [], by rw [List.length_replicate, hkk]; simp, ?_⟩
  have hw : wrap64 (k * k) = 0 := by rw [hkk]; simp [wrap64]
  unfold corr2cov
  simp only [List.length_replicate, List.length_nil, hw]
  have hb : ∀ cov i j, corr2covBody (List.replicate k a) [] cov i j = none := by
    intro cov i j
    unfold corr2covBody
    cases (List.replicate k a)[i]? <;> simp
  obtain ⟨k', hk'⟩ : ∃ k', k = k' + 1 := ⟨k - 1, by omega⟩
  have hr : List.range k = 0 :: (List.range k').map Nat.succ := by rw [hk', List.range_succ_eq_map]
  clear hk hkk hw
  simp only [hr, List.foldlM_cons, hb]
  simp

end

theorem list_ext_row {α : Type*} {n : ℕ} {l m : List α} (hl : l.length = n * n) (hm : m.length = n * n)
    (h : ∀ i j, i < n → j < n → l[n * i + j]? = m[n * i + j]?) : l = m := by
  refine List.ext_getElem? (fun p => ?_)
  by_cases hp : p < n * n
  · have hn : 0 < n := by
      rcases Nat.eq_zero_or_pos n with rfl | h
      · simp at hp
      · exact h
    have := h (p / n) (p % n) ((Nat.div_lt_iff_lt_mul hn).2 hp) (Nat.mod_lt _ hn)
    rwa [Nat.div_add_mod] at this
  · rw [List.getElem?_eq_none (by omega), List.getElem?_eq_none (by omega)]

/-- **C18** `corr2cov` of the uncertainties and the correlation matrix gives back the covariance matrix. -/
theorem C18_corr2cov_inverse (x : List (UReal ℝ)) (hn : x.length < 4294967296) (hs : ∀ a ∈ x, a.s ≠ 0) :
    ∃ c v, corrMatrix x = some c ∧ covMatrix x = some v ∧ corr2cov (x.map UReal.s) c = .ok (some v) := by
  obtain ⟨c, ec, lc, hc⟩ := C17_corr_matrix_entries x hn
  obtain ⟨v, ev, lv, hv⟩ := C17_cov_matrix_entries x hn
  have hn' : (x.map UReal.s).length < 4294967296 := by simpa using hn
  obtain ⟨m, em, lm, hm⟩ := (C18_corr2cov (x.map UReal.s) c hn').2 (by simp [lc])
  refine ⟨c, v, ec, ev, ?_⟩
  rw [em]
  congr 2
  refine list_ext_row (n := x.length) (by rw [lm, lc]) lv (fun i j hi hj => ?_)
  have h1 := hm i j (by simpa using hi) (by simpa using hj)
  simp only [List.length_map, List.getElem_map] at h1
  rw [h1, hc i j hi hj, hv i j hi hj]
  simp only [Option.map_some, Option.some.injEq]
  have h1 := hs _ (List.getElem_mem hi)
  have h2 := hs _ (List.getElem_mem hj)
  unfold corr
  field_simp

example : ∃ c v, corrMatrix [ex1, ex3] = some c ∧ covMatrix [ex1, ex3] = some v ∧ corr2cov ([ex1, ex3].map UReal.s) c = .ok (some v) :=
  C18_corr2cov_inverse [ex1, ex3] (by simp) (by simp [ex1, ex3, s])

/-- `nom_vector` collects the means. -/
theorem C17_nom_vector {R : Type*} (v : List (UReal R)) : nomVector v = v.map UReal.n := by
  have : ∀ (l : List (UReal R)) (acc : List R), l.foldl (fun mu (x : UReal R) => mu ++ [x.n]) acc = acc ++ l.map UReal.n := by
    intro l; induction l with
    | nil => simp
    | cons a t ih => intro acc; simp [ih]
  simpa [nomVector] using this v []

example : nomVector [ex1, ex3] = [5, -2] := by rw [C17_nom_vector]; simp [ex1, ex3, UReal.n]

end Unc.Props
