import Verif.Lemmas.Rename
import Verif.Spec.Cont
import Verif.Lemmas.Taylor2
import Verif.Props.SameFunction2
import Mathlib.Analysis.Calculus.ContDiff.Basic
import Mathlib.Analysis.Calculus.ContDiff.RCLike

/-!
# Continuity of the moments in the coefficients, and the coefficients as derivatives (for C98)
-/

namespace Unc.Cont
open Unc Unc.Spec Unc.Props Filter Topology Asymptotics MvPolynomial Expect HessGrad
variable {n : ℕ}

/-! ## expectations of polynomials with continuous coefficients -/

section poly
variable {D : Type} [TopologicalSpace D] {d : D}

/-- a polynomial which depends continuously on a parameter -/
def PolyC (d : D) (A : D → MvPolynomial (Fin n) ℝ) : Prop :=
  ∃ (ι : Type) (_ : Fintype ι) (c : ι → D → ℝ) (P : ι → MvPolynomial (Fin n) ℝ), (∀ i, ContinuousAt (c i) d) ∧ ∀ e, A e = ∑ i, C (c i e) * P i

theorem PolyC.coef {f : D → ℝ} (hf : ContinuousAt f d) (P : MvPolynomial (Fin n) ℝ) : PolyC d fun e => C (f e) * P :=
  ⟨Unit, inferInstance, fun _ => f, fun _ => P, fun _ => hf, fun e => by simp⟩

theorem PolyC.add {A B : D → MvPolynomial (Fin n) ℝ} (hA : PolyC d A) (hB : PolyC d B) : PolyC d fun e => A e + B e := by
  obtain ⟨ι, _, c, P, h, e⟩ := hA
  obtain ⟨κ, _, c', P', h', e'⟩ := hB
  exact ⟨ι ⊕ κ, inferInstance, Sum.elim c c', Sum.elim P P', fun i => by cases i <;> simp [h, h'], fun t => by simp [e, e', Fintype.sum_sum_type]⟩

theorem PolyC.mul {A B : D → MvPolynomial (Fin n) ℝ} (hA : PolyC d A) (hB : PolyC d B) : PolyC d fun e => A e * B e := by
  obtain ⟨ι, _, c, P, h, e⟩ := hA
  obtain ⟨κ, _, c', P', h', e'⟩ := hB
  refine ⟨ι × κ, inferInstance, fun i t => c i.1 t * c' i.2 t, fun i => P i.1 * P' i.2, fun i => (h _).mul (h' _), fun t => ?_⟩
  simp only [e, e', Finset.sum_mul_sum, Fintype.sum_prod_type]
  refine Finset.sum_congr rfl fun i _ => Finset.sum_congr rfl fun j _ => ?_
  rw [C_mul]; ring

theorem PolyC.sum {ι : Type*} {A : ι → D → MvPolynomial (Fin n) ℝ} {S : Finset ι} (h : ∀ i ∈ S, PolyC d (A i)) : PolyC d fun e => ∑ i ∈ S, A i e := by
  classical
  induction S using Finset.induction_on with
  | empty => exact ⟨Empty, inferInstance, fun _ _ => 0, fun _ => 0, fun i => i.elim, fun e => by simp⟩
  | insert a S ha ih =>
    have := (h a (by simp)).add (ih fun i hi => h i (by simp [hi]))
    simpa only [Finset.sum_insert ha] using this

theorem PolyC.pow {A : D → MvPolynomial (Fin n) ℝ} (hA : PolyC d A) : ∀ k : ℕ, PolyC d fun e => A e ^ k
  | 0 => by simpa using PolyC.coef (d := d) (f := fun _ => (1 : ℝ)) continuousAt_const (1 : MvPolynomial (Fin n) ℝ)
  | k + 1 => by simpa only [pow_succ] using (hA.pow k).mul hA

theorem PolyC.E {A : D → MvPolynomial (Fin n) ℝ} (hA : PolyC d A) (m : Fin n → ℕ → ℝ) : ContinuousAt (fun e => E m (A e)) d := by
  obtain ⟨ι, _, c, P, h, e⟩ := hA
  have : (fun t => Expect.E m (A t)) = fun t => ∑ i, c i t * Expect.E m (P i) := by
    funext t
    rw [e, map_sum]
    exact Finset.sum_congr rfl fun i _ => by rw [← smul_eq_C_mul, map_smul, smul_eq_mul]
  rw [this]
  exact tendsto_finsetSum _ fun i _ => (h i).mul continuousAt_const

end poly

/-! ## moments and covariances -/

/-- the central moment of order `k` (the mean for order 1) as a function of the coefficients -/
noncomputable def momP (m : Fin n → ℕ → ℝ) (g : Fin n → ℝ) (h : Fin n → Fin n → ℝ) (k : ℕ) : ℝ :=
  let q := Q Finset.univ g h
  if k = 1 then E m q else E m ((q - C (E m q)) ^ k)

theorem m_momP {ids : Fin n → VId} (hinj : Function.Injective ids) {mom : Fin n → Moments ℝ} {x : UReal2 ℝ} (hx : Mom.InTable ids mom x.hg) {k : ℕ} (h1 : 1 ≤ k) (h4 : k ≤ 4) :
    x.m k = some (momP (fun i => Mom.mseq (mom i)) (fun i => x.hg.G (ids i)) (fun i j => x.hg.H (ids i) (ids j)) k) := by
  obtain ⟨x1, x2, x3, x4⟩ := Mom.m_table hx.valid (hx.mus hinj)
  have hE : ∀ (p : MvPolynomial (Fin n) ℝ), E (Mom.tabOf ids mom) (rename ids p) = E (fun i => Mom.mseq (mom i)) p := by
    intro p
    rw [Mom.E_rename hinj]
    exact congrArg (fun m => E m p) (funext fun i => by rw [Mom.tabOf_ids hinj])
  have hc : ∀ (c : ℝ) (k : ℕ), (Mom.poly x.hg - C c) ^ k = rename ids ((Mom.local_ ids x.hg - C c) ^ k) := by
    intro c k
    rw [Mom.poly_local hinj hx.valid hx.vars]; simp
  have h1' : E (Mom.tabOf ids mom) (Mom.poly x.hg) = E (fun i => Mom.mseq (mom i)) (Mom.local_ ids x.hg) := by
    rw [Mom.poly_local hinj hx.valid hx.vars, hE]
  interval_cases k
  · rw [x1, h1']; simp [momP, Mom.local_]
  · rw [x2, h1', hc, hE]; simp [momP, Mom.local_]
  · rw [x3, h1', hc, hE]; simp [momP, Mom.local_]
  · rw [x4, h1', hc, hE]; simp [momP, Mom.local_]

theorem momP_cont {D : Type} [TopologicalSpace D] {d : D} (m : Fin n → ℕ → ℝ) {g : D → Fin n → ℝ} {h : D → Fin n → Fin n → ℝ}
    (hg : ∀ i, ContinuousAt (fun e => g e i) d) (hh : ∀ i j, ContinuousAt (fun e => h e i j) d) (k : ℕ) :
    ContinuousAt (fun e => momP m (g e) (h e) k) d := by
  have hQ : PolyC d fun e => Q Finset.univ (g e) (h e) := by
    unfold Q
    refine (PolyC.sum fun i _ => PolyC.coef (hg i) _).add (PolyC.sum fun i _ => PolyC.sum fun j _ => ?_)
    simpa only [mul_assoc] using PolyC.coef (hh i j) (X i * X j)
  unfold momP
  split_ifs
  · exact hQ.E m
  · refine PolyC.E (PolyC.pow ?_ k) m
    have := hQ.add (PolyC.coef (hQ.E m).neg 1)
    simpa [sub_eq_add_neg] using this

/-- the covariance as a function of the coefficients -/
noncomputable def covP (m : Fin n → Moments ℝ) (r : Fin n → VId) (g : Fin n → ℝ) (h : Fin n → Fin n → ℝ) (g' : Fin n → ℝ) (h' : Fin n → Fin n → ℝ) : ℝ :=
  (∑ i, (g i * g' i + h i i * g' i * (m i).v3 + g i * h' i i * (m i).v3 + h i i * h' i i * ((m i).v4 - 1)))
    + ∑ i, ∑ j, if r i < r j then 4 * h i j * h' i j else 0

theorem cov_covP {ids : Fin n → VId} (hinj : Function.Injective ids) {mom : Fin n → Moments ℝ} {x y : UReal2 ℝ} (hx : Mom.InTable ids mom x.hg)
    (hy : Mom.InTable ids mom y.hg) : x.cov y = some (covP mom ids (fun i => x.hg.G (ids i)) (fun i j => x.hg.H (ids i) (ids j)) (fun i => y.hg.G (ids i))
      fun i j => y.hg.H (ids i) (ids j)) := by
  have sub : ∀ {x : UReal2 ℝ}, Mom.InTable ids mom x.hg → x.hg.vars ⊆ Finset.univ.image ids := fun hx i hi => by simpa using hx.vars i hi
  rw [Mom.cov_mix hx.valid hy.valid (Mom.tabOf ids mom) (Mom.tabOf_one ids mom) (Mom.tabOf_two ids mom)
    (fun i hi _ => ⟨hx.mus hinj i hi 3, hx.mus hinj i hi 4⟩) (sub hx) (sub hy)]
  congr 1
  unfold Mom.covForm covP Sums.S2
  rw [Finset.sum_image fun _ _ _ _ h => hinj h, Finset.sum_image fun _ _ _ _ h => hinj h]
  refine congrArg₂ _ (Finset.sum_congr rfl fun i _ => ?_) (Finset.sum_congr rfl fun i _ => ?_)
  · rw [Mom.tabOf_ids hinj]; rfl
  · rw [Finset.sum_image fun _ _ _ _ h => hinj h]

theorem covP_cont {D : Type} [TopologicalSpace D] {d : D} (m : Fin n → Moments ℝ) (r : Fin n → VId) {g g' : D → Fin n → ℝ} {h h' : D → Fin n → Fin n → ℝ}
    (hg : ∀ i, ContinuousAt (fun e => g e i) d) (hh : ∀ i j, ContinuousAt (fun e => h e i j) d)
    (hg' : ∀ i, ContinuousAt (fun e => g' e i) d) (hh' : ∀ i j, ContinuousAt (fun e => h' e i j) d) :
    ContinuousAt (fun e => covP m r (g e) (h e) (g' e) (h' e)) d := by
  unfold covP
  refine ContinuousAt.add (tendsto_finsetSum _ fun i _ => ?_) (tendsto_finsetSum _ fun i _ => tendsto_finsetSum _ fun j _ => ?_)
  · have a1 := hg i; have a2 := hg' i; have a3 := hh i i; have a4 := hh' i i
    exact (((a1.mul a2).add ((a3.mul a2).mul continuousAt_const)).add ((a1.mul a4).mul continuousAt_const)).add ((a3.mul a4).mul continuousAt_const)
  · split_ifs
    · exact (continuousAt_const.mul (hh i j)).mul (hh' i j)
    · exact tendsto_const_nhds

/-! ## the coefficients are derivatives -/

variable {ids : Fin n → VId} {F : (Fin n → ℝ) → ℝ} {mu s : Fin n → ℝ} {x : UReal2 ℝ}

/-- the coefficients stored for a function which is twice continuously differentiable -/
theorem expands_derivs (hF : ContDiffAt ℝ 2 F mu) (h : Expands ids (fun z => F fun i => mu i + s i * z i) x) (v : Fin n → ℝ) :
    x.mu = F mu ∧ ∑ i, x.hg.G (ids i) * v i = fderiv ℝ F mu (s * v) ∧
      ∑ i, ∑ j, x.hg.H (ids i) (ids j) * v i * v j = fderiv ℝ (fderiv ℝ F) mu (s * v) (s * v) / 2 := by
  set w : Fin n → ℝ := s * v with hw
  have h1 : ContDiffAt ℝ 1 (fderiv ℝ F) mu := hF.fderiv_right (by norm_num)
  have hd : HasFDerivAt (fderiv ℝ F) (fderiv ℝ (fderiv ℝ F) mu) mu := (h1.differentiableAt (by norm_num)).hasFDerivAt
  have hl : Tendsto (fun t : ℝ => mu + t • w) (𝓝 0) (𝓝 mu) := by
    have : ContinuousAt (fun t : ℝ => mu + t • w) 0 := by fun_prop
    simpa [ContinuousAt] using this
  have hline : ∀ t : ℝ, HasDerivAt (fun t : ℝ => mu + t • w) w t := fun t => by
    simpa using ((hasDerivAt_id t).smul_const w).const_add mu
  have hD : Derivs1 (fun t => F (mu + t • w)) 0 (fderiv ℝ F mu w) (fderiv ℝ (fderiv ℝ F) mu w w) := by
    refine ⟨fun t => fderiv ℝ F (mu + t • w) w, ?_, ?_, by simp⟩
    · have ev : ∀ᶠ y in 𝓝 mu, DifferentiableAt ℝ F y := by
        filter_upwards [hF.eventually (by simp)] with y hy using hy.differentiableAt (by norm_num)
      filter_upwards [hl.eventually ev] with t ht
      exact ht.hasFDerivAt.comp_hasDerivAt t (hline t)
    · have hd' : HasFDerivAt (fderiv ℝ F) (fderiv ℝ (fderiv ℝ F) mu) (mu + (0 : ℝ) • w) := by simpa using hd
      have := hd'.comp_hasDerivAt (0 : ℝ) (hline 0)
      exact ((ContinuousLinearMap.apply ℝ ℝ w).hasFDerivAt.comp_hasDerivAt (0 : ℝ) this)
  have ht : Tendsto (fun t : ℝ => t • v) (𝓝 0) (𝓝 0) := by
    have : ContinuousAt (fun t : ℝ => t • v) 0 := by fun_prop
    simpa [ContinuousAt] using this
  have e1 := h.comp_tendsto ht
  have h2 : ((fun z : Fin n → ℝ => ‖z‖ ^ 2) ∘ fun t : ℝ => t • v) =O[𝓝 0] fun t : ℝ => t ^ 2 := by
    refine IsBigO.of_bound (‖v‖ ^ 2) (Eventually.of_forall fun t => ?_)
    simp only [Function.comp_apply, norm_smul, norm_pow, norm_mul, norm_norm]
    rw [mul_pow, mul_comm]
  have e2 := (Derivs1.taylor hD).congr_right (g₂ := fun t : ℝ => t ^ 2) fun t => by simp
  have e3 := e2.sub (e1.trans_isBigO h2)
  have key := coeffs_zero (a := x.mu - F mu) (b := ∑ i, x.hg.G (ids i) * v i - fderiv ℝ F mu w)
    (c := ∑ i, ∑ j, x.hg.H (ids i) (ids j) * v i * v j - fderiv ℝ (fderiv ℝ F) mu w w / 2) (e3.congr_left fun t => by
      have q1 : ∑ i, x.hg.G (ids i) * (t * v i) = (∑ i, x.hg.G (ids i) * v i) * t := by
        rw [Finset.sum_mul]; exact Finset.sum_congr rfl fun i _ => by ring
      have q2 : ∑ i, ∑ j, x.hg.H (ids i) (ids j) * (t * v i) * (t * v j) = (∑ i, ∑ j, x.hg.H (ids i) (ids j) * v i * v j) * t ^ 2 := by
        rw [Finset.sum_mul]
        refine Finset.sum_congr rfl fun i _ => ?_
        rw [Finset.sum_mul]; exact Finset.sum_congr rfl fun j _ => by ring
      have q3 : (fun i => mu i + s i * (t * v i)) = mu + t • w := by
        funext i; simp [hw]; ring
      simp only [Function.comp_apply, Pi.smul_apply, smul_eq_mul, q1, q2, q3, zero_add, zero_smul, add_zero]
      ring)
  exact ⟨by linarith [key.1], by linarith [key.2.1], by linarith [key.2.2]⟩

theorem expands_grad (hF : ContDiffAt ℝ 2 F mu) (h : Expands ids (fun z => F fun i => mu i + s i * z i) x) (i : Fin n) :
    x.hg.G (ids i) = fderiv ℝ F mu (s * Pi.single i 1) := by
  rw [← (expands_derivs hF h (Pi.single i 1)).2.1]
  simp [Pi.single_apply]

/-- a symmetric matrix from its quadratic form -/
theorem polar {H : Fin n → Fin n → ℝ} (hs : ∀ i j, H i j = H j i) {q : (Fin n → ℝ) → ℝ} (hq : ∀ v, ∑ i, ∑ j, H i j * v i * v j = q v) (a b : Fin n) :
    H a b = (q (Pi.single a 1 + Pi.single b 1) - q (Pi.single a 1) - q (Pi.single b 1)) / 2 := by
  have bil : ∀ u v : Fin n → ℝ, q (u + v) = q u + q v + (∑ i, ∑ j, H i j * u i * v j + ∑ i, ∑ j, H i j * v i * u j) := by
    intro u v
    rw [← hq, ← hq, ← hq]
    simp only [← Finset.sum_add_distrib]
    refine Finset.sum_congr rfl fun i _ => Finset.sum_congr rfl fun j _ => ?_
    simp only [Pi.add_apply]; ring
  rw [bil]
  have e : ∀ a b : Fin n, ∑ i, ∑ j, H i j * (Pi.single a 1 : Fin n → ℝ) i * (Pi.single b 1 : Fin n → ℝ) j = H a b := by
    intro a b
    simp [Pi.single_apply]
  rw [e, e, hs b a]; ring

/-- the second derivatives of `F` in the standardised variables, halved -/
noncomputable def hessP (F : (Fin n → ℝ) → ℝ) (d : Data n) (i j : Fin n) : ℝ :=
  (fderiv ℝ (fderiv ℝ F) d.1 (d.2 * (Pi.single i 1 + Pi.single j 1)) (d.2 * (Pi.single i 1 + Pi.single j 1)) / 2
    - fderiv ℝ (fderiv ℝ F) d.1 (d.2 * Pi.single i 1) (d.2 * Pi.single i 1) / 2
    - fderiv ℝ (fderiv ℝ F) d.1 (d.2 * Pi.single j 1) (d.2 * Pi.single j 1) / 2) / 2

theorem expands_hess (hF : ContDiffAt ℝ 2 F mu) (h : Expands ids (fun z => F fun i => mu i + s i * z i) x) (i j : Fin n) :
    x.hg.H (ids i) (ids j) = hessP F (mu, s) i j :=
  polar (H := fun i j => x.hg.H (ids i) (ids j)) (fun i j => Mom.H_symm _ _ _)
    (q := fun v => fderiv ℝ (fderiv ℝ F) mu (s * v) (s * v) / 2) (fun v => (expands_derivs hF h v).2.2) i j

theorem grad_cont {d : Data n} (hF : ContDiffAt ℝ 1 F d.1) (i : Fin n) : ContinuousAt (fun e : Data n => fderiv ℝ F e.1 (e.2 * Pi.single i 1)) d := by
  have h1 : ContinuousAt (fun e : Data n => fderiv ℝ F e.1) d :=
    ContinuousAt.comp (f := fun e : Data n => e.1) (hF.fderiv_right (m := 0) (by norm_num)).continuousAt continuousAt_fst
  exact h1.clm_apply (by fun_prop)

theorem hess_cont {d : Data n} (hF : ContDiffAt ℝ 2 F d.1) (i j : Fin n) : ContinuousAt (fun e : Data n => hessP F e i j) d := by
  have h0 : ContDiffAt ℝ 0 (fderiv ℝ (fderiv ℝ F)) d.1 := ContDiffAt.fderiv_right (m := 0) (n := 1) (hF.fderiv_right (by norm_num)) (by norm_num)
  have h1 : ContinuousAt (fun e : Data n => fderiv ℝ (fderiv ℝ F) e.1) d :=
    ContinuousAt.comp (f := fun e : Data n => e.1) h0.continuousAt continuousAt_fst
  have h2 : ∀ v : Fin n → ℝ, ContinuousAt (fun e : Data n => fderiv ℝ (fderiv ℝ F) e.1 (e.2 * v) (e.2 * v) / 2) d := fun v =>
    ((h1.clm_apply (by fun_prop)).clm_apply (by fun_prop)).div_const 2
  exact (((h2 _).sub (h2 _)).sub (h2 _)).div_const 2

end Unc.Cont
