import Verif.Lemmas.Same2

/-!
# The moments and the identifiers of the variables

The expectation of a polynomial does not change if the variables are renamed, so the moments and covariances of values with variables
`ids 0, …, ids (n - 1)` are functions of the coefficients and of the moments of the variables only.
-/

namespace Unc
namespace Mom
open HessGrad SMap Expect Sums

section ring
variable {R : Type*} [CommRing R]

theorem E_rename {σ τ : Type*} [DecidableEq σ] [DecidableEq τ] {f : τ → σ} (hf : Function.Injective f) (mu : σ → ℕ → R)
    (p : MvPolynomial τ R) : E mu (MvPolynomial.rename f p) = E (fun i => mu (f i)) p := by
  rw [p.as_sum, map_sum, map_sum, map_sum]
  refine Finset.sum_congr rfl fun s _ => ?_
  rw [MvPolynomial.rename_monomial, E, E, wsum_monomial, wsum_monomial]
  congr 1
  rw [wt, wt, Finsupp.mapDomain_support_of_injective hf, Finset.prod_image fun _ _ _ _ h => hf h]
  exact Finset.prod_congr rfl fun i _ => by rw [Finsupp.mapDomain_apply hf]

variable {n : ℕ}

/-- the polynomial of a value with variables `ids`, as a polynomial in `n` variables -/
noncomputable def local_ (ids : Fin n → VId) (hg : HessGrad R) : MvPolynomial (Fin n) R :=
  Q Finset.univ (fun i => hg.G (ids i)) fun i j => hg.H (ids i) (ids j)

theorem poly_local {ids : Fin n → VId} (hinj : Function.Injective ids) {hg : HessGrad R} (hv : hg.Valid)
    (h : ∀ i ∈ hg.vars, ∃ j, ids j = i) : poly hg = MvPolynomial.rename ids (local_ ids hg) := by
  rw [poly_eq (S := Finset.univ.image ids) hv fun i hi => by simpa using h i hi]
  simp only [Q, local_, map_add, map_sum, map_mul, MvPolynomial.rename_C, MvPolynomial.rename_X]
  rw [Finset.sum_image fun _ _ _ _ h => hinj h, Finset.sum_image fun _ _ _ _ h => hinj h]
  refine congrArg₂ _ rfl (Finset.sum_congr rfl fun i _ => ?_)
  rw [Finset.sum_image fun _ _ _ _ h => hinj h]

/-- the moments of the variables -/
noncomputable def tabOf (ids : Fin n → VId) (mom : Fin n → Moments R) (i : VId) : ℕ → R :=
  open Classical in if h : ∃ j, ids j = i then mseq (mom h.choose) else mseq ⟨0, 0, 0, 0, 0, 0⟩

theorem tabOf_ids {ids : Fin n → VId} (hinj : Function.Injective ids) (mom : Fin n → Moments R) (j : Fin n) :
    tabOf ids mom (ids j) = mseq (mom j) := by
  have h : ∃ k, ids k = ids j := ⟨j, rfl⟩
  rw [tabOf, dif_pos h, hinj h.choose_spec]

theorem tabOf_one (ids : Fin n → VId) (mom : Fin n → Moments R) (i : VId) : tabOf ids mom i 1 = 0 := by
  unfold tabOf; split <;> rfl

theorem tabOf_two (ids : Fin n → VId) (mom : Fin n → Moments R) (i : VId) : tabOf ids mom i 2 = 1 := by
  unfold tabOf; split <;> rfl

/-- the variables of a value are among `ids` and store the moments `mom` -/
structure InTable (ids : Fin n → VId) (mom : Fin n → Moments R) (hg : HessGrad R) : Prop where
  valid : hg.Valid
  mom : ∀ i m, hg.momOf i = some m → ∃ j, ids j = i ∧ m = mom j

theorem InTable.vars {ids : Fin n → VId} {mom : Fin n → Moments R} {hg : HessGrad R} (h : InTable ids mom hg) (i : VId)
    (hi : i ∈ hg.vars) : ∃ j, ids j = i :=
  let ⟨j, hj, _⟩ := h.mom i _ (momOf_dOf hi); ⟨j, hj⟩

theorem InTable.mus {ids : Fin n → VId} (hinj : Function.Injective ids) {mom : Fin n → Moments R} {hg : HessGrad R} (h : InTable ids mom hg)
    (i : VId) (hi : i ∈ hg.vars) (k : ℕ) : tabOf ids mom i k = Mom.mus hg i k := by
  obtain ⟨j, rfl, hm⟩ := h.mom i _ (momOf_dOf hi)
  rw [tabOf_ids hinj, Mom.mus, hm]

/-- Two values with the same coefficients up to the names of the variables have the same moments. -/
theorem m_rename {ids ids' : Fin n → VId} (hinj : Function.Injective ids) (hinj' : Function.Injective ids') {mom : Fin n → Moments R}
    {x y : UReal2 R} (hx : InTable ids mom x.hg) (hy : InTable ids' mom y.hg) (hG : ∀ i, x.hg.G (ids i) = y.hg.G (ids' i))
    (hH : ∀ i j, x.hg.H (ids i) (ids j) = y.hg.H (ids' i) (ids' j)) (k : ℕ) : x.m k = y.m k := by
  obtain ⟨x1, x2, x3, x4⟩ := m_table hx.valid (hx.mus hinj)
  obtain ⟨y1, y2, y3, y4⟩ := m_table hy.valid (hy.mus hinj')
  have hl : local_ ids x.hg = local_ ids' y.hg := by
    unfold local_
    rw [funext hG, funext fun i => funext (hH i)]
  have hE : ∀ (p : MvPolynomial (Fin n) R), E (tabOf ids mom) (MvPolynomial.rename ids p) = E (tabOf ids' mom) (MvPolynomial.rename ids' p) := by
    intro p
    rw [E_rename hinj, E_rename hinj']
    refine congrArg (fun m => E m p) (funext fun i => ?_)
    rw [tabOf_ids hinj, tabOf_ids hinj']
  have hc : ∀ (c : R) (k : ℕ), (poly x.hg - MvPolynomial.C c) ^ k = MvPolynomial.rename ids ((local_ ids x.hg - MvPolynomial.C c) ^ k) := by
    intro c k
    rw [poly_local hinj hx.valid hx.vars]; simp
  have hc' : ∀ (c : R) (k : ℕ), (poly y.hg - MvPolynomial.C c) ^ k = MvPolynomial.rename ids' ((local_ ids x.hg - MvPolynomial.C c) ^ k) := by
    intro c k
    rw [poly_local hinj' hy.valid hy.vars, hl]; simp
  have h1 : E (tabOf ids mom) (poly x.hg) = E (tabOf ids' mom) (poly y.hg) := by
    rw [poly_local hinj hx.valid hx.vars, poly_local hinj' hy.valid hy.vars, hl, hE]
  by_cases hk : 1 ≤ k ∧ k ≤ 4
  · obtain ⟨h1', h4⟩ := hk
    interval_cases k
    · rw [x1, y1, h1]
    · rw [x2, y2, h1, hc, hc', hE]
    · rw [x3, y3, h1, hc, hc', hE]
    · rw [x4, y4, h1, hc, hc', hE]
  · rw [m_out hk, m_out hk]

/-- Two pairs of values with the same coefficients up to the names of the variables have the same covariance. -/
theorem cov_rename {ids ids' : Fin n → VId} (hinj : Function.Injective ids) (hinj' : Function.Injective ids') {mom : Fin n → Moments R}
    {x y x' y' : UReal2 R} (hx : InTable ids mom x.hg) (hy : InTable ids' mom y.hg) (hx' : InTable ids mom x'.hg) (hy' : InTable ids' mom y'.hg)
    (hG : ∀ i, x.hg.G (ids i) = y.hg.G (ids' i)) (hH : ∀ i j, x.hg.H (ids i) (ids j) = y.hg.H (ids' i) (ids' j))
    (hG' : ∀ i, x'.hg.G (ids i) = y'.hg.G (ids' i)) (hH' : ∀ i j, x'.hg.H (ids i) (ids j) = y'.hg.H (ids' i) (ids' j)) :
    x.cov x' = y.cov y' := by
  have e3 : ∀ {ids : Fin n → VId} {x : UReal2 R} (hinj : Function.Injective ids) (hx : InTable ids mom x.hg), ∀ i ∈ x.hg.vars,
      tabOf ids mom i 3 = (x.hg.dOf i).mom.v3 ∧ tabOf ids mom i 4 = (x.hg.dOf i).mom.v4 := fun hinj hx i hi =>
    ⟨hx.mus hinj i hi 3, hx.mus hinj i hi 4⟩
  unfold UReal2.cov
  rw [rawc2 hx.valid hx'.valid (tabOf ids mom) (tabOf_one ids mom) (tabOf_two ids mom) fun i hi _ => e3 hinj hx i hi,
    rawc2 hy.valid hy'.valid (tabOf ids' mom) (tabOf_one ids' mom) (tabOf_two ids' mom) fun i hi _ => e3 hinj' hy i hi,
    m_rename hinj hinj' hx hy hG hH, m_rename hinj hinj' hx' hy' hG' hH']
  have hl : local_ ids x.hg = local_ ids' y.hg := by
    unfold local_
    rw [funext hG, funext fun i => funext (hH i)]
  have hl' : local_ ids x'.hg = local_ ids' y'.hg := by
    unfold local_
    rw [funext hG', funext fun i => funext (hH' i)]
  rw [poly_local hinj hx.valid hx.vars, poly_local hinj' hy.valid hy.vars, poly_local hinj hx'.valid hx'.vars,
    poly_local hinj' hy'.valid hy'.vars, hl, hl', ← map_mul, ← map_mul, E_rename hinj, E_rename hinj']
  have : (fun i => tabOf ids mom (ids i)) = fun i => tabOf ids' mom (ids' i) := funext fun i => by rw [tabOf_ids hinj, tabOf_ids hinj']
  rw [this]

end ring
end Mom
end Unc
