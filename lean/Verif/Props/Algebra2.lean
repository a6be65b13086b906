import Verif.Spec.Observe2
import Verif.Lemmas.Same2
import Verif.Props.GradHess
import Verif.Props.Moments
import Verif.Props.Stat
import Verif.Model.Stat2
import Mathlib.Algebra.DualNumber

/-!
# Algebra of second-order values: C50 to C53
-/

namespace Unc.Props
open Unc Unc.Spec SMap HessGrad Mom Expect

/-! ## C50: algebraic identities up to observation -/

/-- Same mean, gradient and Hessian: everything observable is the same. -/
theorem sameObs2_of {x y : UReal2 ℝ} (hx : x.hg.Valid) (hy : y.hg.Valid) (hag : AgreeMoments x.hg y.hg) (hm : x.mu = y.mu)
    (hG : ∀ i, x.hg.G i = y.hg.G i) (hH : ∀ i j, x.hg.H i j = y.hg.H i j) : SameObs2 x y := by
  have m := m_same hx hy hG hH hag
  have s : x.s = y.s := by rw [UReal2.s, UReal2.s, m]
  have cov : ∀ z : UReal2 ℝ, z.hg.Valid → AgreeMoments x.hg z.hg → AgreeMoments y.hg z.hg →
      x.cov z = y.cov z ∧ z.cov x = z.cov y := by
    intro z hz hxz hyz
    have h := cov_same hx hy hz hG hH hxz hyz
    refine ⟨h, ?_⟩
    rw [C28_symm hz hx fun i a b ha hb => (hxz i b a hb ha).symm, C28_symm hz hy fun i a b ha hb => (hyz i b a hb ha).symm, h]
  refine ⟨hm, fun p => by rw [UReal2.n, UReal2.n, m, hm], m, s, by rw [UReal2.skew, UReal2.skew, m, m, s],
    by rw [UReal2.kurt, UReal2.kurt, m, m], cov, fun z hz h1 h2 => ?_, fun u z => ?_, fun u z w => ?_⟩
  · obtain ⟨a, b⟩ := cov z hz h1 h2
    exact ⟨by rw [UReal2.corr, UReal2.corr, a, s], by rw [UReal2.corr, UReal2.corr, b, s]⟩
  · unfold UReal2.grad; simp only [diagGet_grad, hG]
  · unfold UReal2.hess; simp only [diagGet_grad, hhessGet_eq, hG, hH]

/-- The values of the operands and results are usable, and the stored moments come from one table. -/
structure Fine (tab : VId → Moments ℝ) (x : UReal2 ℝ) : Prop where
  ok : Ok2 x
  mom : ∀ i m, x.hg.momOf i = some m → m = tab i

theorem Fine.agree {tab : VId → Moments ℝ} {x y : UReal2 ℝ} (hx : Fine tab x) (hy : Fine tab y) : AgreeMoments x.hg y.hg :=
  fun i a b ha hb => (hx.mom i a ha).trans (hy.mom i b hb).symm

theorem Fine.const (tab : VId → Moments ℝ) (c : ℝ) : Fine tab (UReal2.const c) :=
  ⟨ok_const c, fun i m h => by simp [UReal2.const, HessGrad.empty, momOf, find?] at h⟩

theorem Fine.unary {tab : VId → Moments ℝ} {x z : UReal2 ℝ} (hx : Fine tab x) {u : Moments ℝ} {f fx fxx : ℝ}
    (hz : UReal2.unary u x f fx fxx = some z) : Fine tab z := by
  obtain ⟨z', e, ok⟩ := C21_unary hx.ok f fx fxx
  obtain rfl : z' = z := Option.some_inj.1 ((e u).symm.trans hz)
  exact ⟨ok, fun i m h => hx.mom i m ((C22_unary hx.ok hz).2.2.2 i ▸ h)⟩

theorem Fine.binary {tab : VId → Moments ℝ} {x y z : UReal2 ℝ} (hx : Fine tab x) (hy : Fine tab y) {u : Moments ℝ}
    {f fx fy fxx fyy fxy : ℝ} (hz : UReal2.binary u x y f fx fy fxx fyy fxy = some z) : Fine tab z := by
  obtain ⟨z', e, ok⟩ := C21_binary hx.ok hy.ok f fx fy fxx fyy fxy
  obtain rfl : z' = z := Option.some_inj.1 ((e u).symm.trans hz)
  refine ⟨ok, fun i m h => ?_⟩
  rw [(C22_binary hx.ok hy.ok hz).2.2.2 i] at h
  cases hxm : x.hg.momOf i with
  | some a =>
    rw [hxm] at h
    simp only [Option.some_or, Option.some.injEq] at h
    exact h ▸ hx.mom i a hxm
  | none =>
    rw [hxm] at h
    exact hy.mom i m (by simpa using h)

open TrivSqZeroExt in
/-- Hyper-dual numbers: `mu + G_i e + (G_j + D_ij e) e'`, with `e^2 = e'^2 = 0`. -/
noncomputable def jet (i j : VId) (x : UReal2 ℝ) : DualNumber (DualNumber ℝ) :=
  inl (inl x.mu + inr (x.hg.G i)) + inr (inl (x.hg.G j) + inr (D2 x i j))

theorem jet_eq {i j : VId} {x : UReal2 ℝ} {q : DualNumber (DualNumber ℝ)} : jet i j x = q ↔
    x.mu = q.fst.fst ∧ x.hg.G i = q.fst.snd ∧ x.hg.G j = q.snd.fst ∧ D2 x i j = q.snd.snd := by
  constructor
  · rintro rfl; simp [jet]
  · rintro ⟨h1, h2, h3, h4⟩
    refine TrivSqZeroExt.ext (TrivSqZeroExt.ext ?_ ?_) (TrivSqZeroExt.ext ?_ ?_) <;> simp [jet, h1, h2, h3, h4]

theorem jet_parts (i j : VId) (x : UReal2 ℝ) : (jet i j x).fst.fst = x.mu ∧ (jet i j x).fst.snd = x.hg.G i ∧
    (jet i j x).snd.fst = x.hg.G j ∧ (jet i j x).snd.snd = D2 x i j := by simp [jet]

theorem jet_ext {i j : VId} {x y : UReal2 ℝ} (h : jet i j x = jet i j y) :
    x.mu = y.mu ∧ x.hg.G i = y.hg.G i ∧ x.hg.H i j = y.hg.H i j := by
  obtain ⟨h1, h2, -, h4⟩ := jet_eq.1 h
  obtain ⟨k1, k2, -, k4⟩ := jet_parts i j y
  exact ⟨h1.trans k1, h2.trans k2, by have := h4.trans k4; unfold D2 at this; linarith⟩

theorem jet_const (i j : VId) (c : ℝ) : jet i j (UReal2.const c) = algebraMap ℝ _ c := by
  have h1 : ∀ i, (UReal2.const c).hg.G i = 0 := fun i => by simp [UReal2.const, HessGrad.empty, HessGrad.G, find?]
  have h2 : ∀ i j, (UReal2.const c).hg.H i j = 0 := fun i j => by
    simp [UReal2.const, HessGrad.empty, HessGrad.H, find?, SMap.get]
  rw [jet_eq]
  simp only [h1, D2, h2, mul_zero]
  exact ⟨rfl, rfl, rfl, rfl⟩

theorem jet_neg {x z : UReal2 ℝ} (hx : Ok2 x) {u : Moments ℝ} (hz : UReal2.neg u x = some z) (i j : VId) :
    jet i j z = -jet i j x := by
  obtain ⟨h1, h2, h3⟩ := C23_neg hx hz
  obtain ⟨k1, k2, k3, k4⟩ := jet_parts i j x
  rw [jet_eq]
  simp [h1, h2, h3, k1, k2, k3, k4]

theorem jet_add {x y z : UReal2 ℝ} (hx : Ok2 x) (hy : Ok2 y) {u : Moments ℝ} (hz : UReal2.add u x y = some z) (i j : VId) :
    jet i j z = jet i j x + jet i j y := by
  obtain ⟨h1, h2, h3⟩ := C23_add hx hy hz
  obtain ⟨k1, k2, k3, k4⟩ := jet_parts i j x
  obtain ⟨l1, l2, l3, l4⟩ := jet_parts i j y
  rw [jet_eq]
  simp [h1, h2, h3, k1, k2, k3, k4, l1, l2, l3, l4]

theorem jet_sub {x y z : UReal2 ℝ} (hx : Ok2 x) (hy : Ok2 y) {u : Moments ℝ} (hz : UReal2.sub u x y = some z) (i j : VId) :
    jet i j z = jet i j x - jet i j y := by
  obtain ⟨h1, h2, h3⟩ := C23_sub hx hy hz
  obtain ⟨k1, k2, k3, k4⟩ := jet_parts i j x
  obtain ⟨l1, l2, l3, l4⟩ := jet_parts i j y
  rw [jet_eq]
  simp [h1, h2, h3, k1, k2, k3, k4, l1, l2, l3, l4]

theorem jet_mul {x y z : UReal2 ℝ} (hx : Ok2 x) (hy : Ok2 y) {u : Moments ℝ} (hz : UReal2.mul u x y = some z) (i j : VId) :
    jet i j z = jet i j x * jet i j y := by
  obtain ⟨h1, h2, h3⟩ := C23_mul hx hy hz
  obtain ⟨k1, k2, k3, k4⟩ := jet_parts i j x
  obtain ⟨l1, l2, l3, l4⟩ := jet_parts i j y
  rw [jet_eq]
  simp [h1, h2, h3, k1, k2, k3, k4, l1, l2, l3, l4]
  refine ⟨?_, ?_, ?_⟩ <;> ring

/-- Evaluation never fails, and computes the polynomial on hyper-dual numbers. -/
theorem eval2_jet (tab : VId → Moments ℝ) (u : Moments ℝ) (v : ℕ → UReal2 ℝ) (hv : ∀ i, Fine tab (v i)) (e : RExpr) :
    ∃ z, e.eval2 u v = some z ∧ Fine tab z ∧ ∀ i j, jet i j z = MvPolynomial.aeval (fun k => jet i j (v k)) e.poly := by
  induction e with
  | var i => exact ⟨_, rfl, hv i, fun a b => by simp [RExpr.poly]⟩
  | const c => exact ⟨_, rfl, .const tab c, fun a b => by rw [jet_const, RExpr.poly, MvPolynomial.aeval_C]⟩
  | neg e ih =>
    obtain ⟨x, ex, fx, jx⟩ := ih
    obtain ⟨z, ez, -⟩ := C21_unary fx.ok (-x.mu) (-1) 0
    have hz : UReal2.neg u x = some z := ez u
    exact ⟨z, by rw [RExpr.eval2, ex, Option.bind_some, hz], fx.unary hz, fun i j => by
      rw [jet_neg fx.ok hz, jx, RExpr.poly, map_neg]⟩
  | add e f ih ih' =>
    obtain ⟨x, ex, fx, jx⟩ := ih
    obtain ⟨y, ey, fy, jy⟩ := ih'
    obtain ⟨z, ez, -⟩ := C21_binary fx.ok fy.ok (x.mu + y.mu) 1 1 0 0 0
    have hz : UReal2.add u x y = some z := ez u
    exact ⟨z, by rw [RExpr.eval2, ex, Option.bind_some, ey, Option.bind_some, hz], fx.binary fy hz, fun i j => by
      rw [jet_add fx.ok fy.ok hz, jx, jy, RExpr.poly, map_add]⟩
  | sub e f ih ih' =>
    obtain ⟨x, ex, fx, jx⟩ := ih
    obtain ⟨y, ey, fy, jy⟩ := ih'
    obtain ⟨z, ez, -⟩ := C21_binary fx.ok fy.ok (x.mu - y.mu) 1 (-1) 0 0 0
    have hz : UReal2.sub u x y = some z := ez u
    exact ⟨z, by rw [RExpr.eval2, ex, Option.bind_some, ey, Option.bind_some, hz], fx.binary fy hz, fun i j => by
      rw [jet_sub fx.ok fy.ok hz, jx, jy, RExpr.poly, map_sub]⟩
  | mul e f ih ih' =>
    obtain ⟨x, ex, fx, jx⟩ := ih
    obtain ⟨y, ey, fy, jy⟩ := ih'
    obtain ⟨z, ez, -⟩ := C21_binary fx.ok fy.ok (x.mu * y.mu) y.mu x.mu 0 0 1
    have hz : UReal2.mul u x y = some z := ez u
    exact ⟨z, by rw [RExpr.eval2, ex, Option.bind_some, ey, Option.bind_some, hz], fx.binary fy hz, fun i j => by
      rw [jet_mul fx.ok fy.ok hz, jx, jy, RExpr.poly, map_mul]⟩

/-- **C50** Two expressions which are the same polynomial, computed on any operands: no undefined behaviour, and the results can not
be told apart. -/
theorem C50_identity {tab : VId → Moments ℝ} {v : ℕ → UReal2 ℝ} (hv : ∀ i, Ok2 (v i))
    (hm : ∀ k i m, (v k).hg.momOf i = some m → m = tab i) {e f : RExpr} (h : e.poly = f.poly) (u u' : Moments ℝ) :
    ∃ x y, e.eval2 u v = some x ∧ f.eval2 u' v = some y ∧ SameObs2 x y := by
  have hf : ∀ i, Fine tab (v i) := fun i => ⟨hv i, hm i⟩
  obtain ⟨x, ex, fx, jx⟩ := eval2_jet tab u v hf e
  obtain ⟨y, ey, fy, jy⟩ := eval2_jet tab u' v hf f
  have hj : ∀ i j, jet i j x = jet i j y := fun i j => by rw [jx, jy, h]
  exact ⟨x, y, ex, ey, sameObs2_of fx.ok.valid fy.ok.valid (fx.agree fy) (jet_ext (hj 0 0)).1
    (fun i => (jet_ext (hj i i)).2.1) fun i j => (jet_ext (hj i j)).2.2⟩

/-- The operands of the examples: `exMx`, `exMy`, then constants. -/
noncomputable def exOps : ℕ → UReal2 ℝ
  | 0 => exMx
  | 1 => exMy
  | _ => UReal2.const 5

theorem ok_exMx : Ok2 exMx := ⟨valid_exMx, by
  intro i hi
  simp only [exMx, keys_cons, keys_nil, List.mem_cons, List.not_mem_nil, or_false] at hi
  rcases hi with rfl | rfl <;> decide⟩
theorem ok_exMy : Ok2 exMy := ⟨valid_exMy, by
  intro i hi
  simp only [exMy, keys_cons, keys_nil, List.mem_cons, List.not_mem_nil, or_false] at hi
  rcases hi with rfl | rfl <;> decide⟩
theorem ok_exOps (i : ℕ) : Ok2 (exOps i) := by
  match i with
  | 0 => exact ok_exMx
  | 1 => exact ok_exMy
  | _ + 2 => exact ok_const 5
theorem mom_exOps (k : ℕ) (i : VId) (m : Moments ℝ) (h : (exOps k).hg.momOf i = some m) : m = twoPointMom := by
  match k, h with
  | 0, h => exact mom_exMx i m h
  | 1, h => exact mom_exMy i m h
  | _ + 2, h => simp [exOps, UReal2.const, HessGrad.empty, momOf, find?] at h

/-- `(x + y) * (x - y)` and `x * x - y * y` -/
example (u u' : Moments ℝ) : ∃ x y,
    (RExpr.mul (.add (.var 0) (.var 1)) (.sub (.var 0) (.var 1))).eval2 u exOps = some x ∧
    (RExpr.sub (.mul (.var 0) (.var 0)) (.mul (.var 1) (.var 1))).eval2 u' exOps = some y ∧ SameObs2 x y :=
  C50_identity ok_exOps mom_exOps (by simp only [RExpr.poly]; ring) u u'

/-- `x - x` and `0` -/
example (u u' : Moments ℝ) : ∃ x y, (RExpr.sub (.var 0) (.var 0)).eval2 u exOps = some x ∧
    (RExpr.const 0).eval2 u' exOps = some y ∧ SameObs2 x y :=
  C50_identity ok_exOps mom_exOps (by simp [RExpr.poly]) u u'

/-! ## C51: shift and scale -/

/-- Mean, gradient and Hessian of an expression which is a linear function of its operands. -/
theorem lin_coeffs {tab : VId → Moments ℝ} {v : ℕ → UReal2 ℝ} (hv : ∀ i, Ok2 (v i))
    (hm : ∀ k i m, (v k).hg.momOf i = some m → m = tab i) {e : RExpr} {a b c : ℝ}
    (h : e.poly = MvPolynomial.C a * MvPolynomial.X 0 + MvPolynomial.C b * MvPolynomial.X 1 + MvPolynomial.C c) (u : Moments ℝ) :
    ∃ z, e.eval2 u v = some z ∧ Fine tab z ∧ z.mu = a * (v 0).mu + b * (v 1).mu + c ∧
      (∀ i, z.hg.G i = a * (v 0).hg.G i + b * (v 1).hg.G i) ∧ ∀ i j, z.hg.H i j = a * (v 0).hg.H i j + b * (v 1).hg.H i j := by
  obtain ⟨z, ez, fz, jz⟩ := eval2_jet tab u v (fun i => ⟨hv i, hm i⟩) e
  have key : ∀ i j, z.mu = a * (v 0).mu + b * (v 1).mu + c ∧ z.hg.G i = a * (v 0).hg.G i + b * (v 1).hg.G i ∧
      D2 z i j = a * D2 (v 0) i j + b * D2 (v 1) i j := by
    intro i j
    have := jz i j
    rw [h, map_add, map_add, map_mul, map_mul, MvPolynomial.aeval_X, MvPolynomial.aeval_X, MvPolynomial.aeval_C,
      MvPolynomial.aeval_C, MvPolynomial.aeval_C, ← Algebra.smul_def, ← Algebra.smul_def, ← jet_const i j c, jet_eq] at this
    obtain ⟨h1, h2, -, h4⟩ := this
    obtain ⟨k1, k2, -, k4⟩ := jet_parts i j (v 0)
    obtain ⟨l1, l2, -, l4⟩ := jet_parts i j (v 1)
    obtain ⟨c1, c2, -, c4⟩ := jet_parts i j (UReal2.const c)
    simp only [TrivSqZeroExt.fst_add, TrivSqZeroExt.snd_add, TrivSqZeroExt.fst_smul, TrivSqZeroExt.snd_smul, k1, k2, k4, l1, l2, l4,
      c1, c2, c4, smul_eq_mul] at h1 h2 h4
    refine ⟨h1, ?_, ?_⟩
    · rw [h2]; simp [UReal2.const, HessGrad.empty, HessGrad.G, find?]
    · rw [h4]; simp [UReal2.const, HessGrad.empty, HessGrad.H, find?, SMap.get, D2]
  refine ⟨z, ez, fz, (key 0 0).1, fun i => (key i i).2.1, fun i j => ?_⟩
  have := (key i j).2.2
  unfold D2 at this
  linarith

/-- the moments of a table of standardized moments -/
def tabMu (tab : VId → Moments ℝ) (i : VId) : ℕ → ℝ := mseq (tab i)

theorem Fine.mus {tab : VId → Moments ℝ} {x : UReal2 ℝ} (hx : Fine tab x) : ∀ i ∈ x.hg.vars, ∀ k, tabMu tab i k = Mom.mus x.hg i k :=
  fun i hi k => by rw [tabMu, Mom.mus, hx.mom i _ (momOf_dOf hi)]

/-- The polynomial of a linear combination. -/
theorem poly_lin {a b : ℝ} {x y z : HessGrad ℝ} (hx : x.Valid) (hy : y.Valid) (hz : z.Valid)
    (hG : ∀ i, z.G i = a * x.G i + b * y.G i) (hH : ∀ i j, z.H i j = a * x.H i j + b * y.H i j) :
    Mom.poly z = MvPolynomial.C a * Mom.poly x + MvPolynomial.C b * Mom.poly y := by
  have s1 : x.vars ⊆ x.vars ∪ y.vars ∪ z.vars := Finset.subset_union_left.trans Finset.subset_union_left
  have s2 : y.vars ⊆ x.vars ∪ y.vars ∪ z.vars := Finset.subset_union_right.trans Finset.subset_union_left
  rw [poly_eq hz Finset.subset_union_right (S := x.vars ∪ y.vars ∪ z.vars), poly_eq hx s1, poly_eq hy s2]
  unfold Q
  have h1 : ∀ S : Finset VId, ∑ i ∈ S, MvPolynomial.C (z.G i) * MvPolynomial.X i =
      MvPolynomial.C a * (∑ i ∈ S, MvPolynomial.C (x.G i) * MvPolynomial.X i) +
      MvPolynomial.C b * ∑ i ∈ S, MvPolynomial.C (y.G i) * MvPolynomial.X i := by
    intro S
    rw [Finset.mul_sum, Finset.mul_sum, ← Finset.sum_add_distrib]
    exact Finset.sum_congr rfl fun i _ => by rw [hG]; simp only [map_add, map_mul]; ring
  have h2 : ∀ S : Finset VId, ∑ i ∈ S, ∑ j ∈ S, MvPolynomial.C (z.H i j) * MvPolynomial.X i * MvPolynomial.X j =
      MvPolynomial.C a * (∑ i ∈ S, ∑ j ∈ S, MvPolynomial.C (x.H i j) * MvPolynomial.X i * MvPolynomial.X j) +
      MvPolynomial.C b * ∑ i ∈ S, ∑ j ∈ S, MvPolynomial.C (y.H i j) * MvPolynomial.X i * MvPolynomial.X j := by
    intro S
    rw [Finset.mul_sum, Finset.mul_sum, ← Finset.sum_add_distrib]
    refine Finset.sum_congr rfl fun i _ => ?_
    rw [Finset.mul_sum, Finset.mul_sum, ← Finset.sum_add_distrib]
    exact Finset.sum_congr rfl fun j _ => by rw [hH]; simp only [map_add, map_mul]; ring
  rw [h1, h2]; ring

/-- The moments of a multiple. -/
theorem m_scale {tab : VId → Moments ℝ} {x z : UReal2 ℝ} (hx : Fine tab x) (hz : Fine tab z) {a : ℝ}
    (hp : Mom.poly z.hg = MvPolynomial.C a * Mom.poly x.hg) {k : ℕ} : z.m k = (x.m k).map (a ^ k * ·) := by
  obtain ⟨x1, x2, x3, x4⟩ := m_table hx.ok.valid hx.mus
  obtain ⟨z1, z2, z3, z4⟩ := m_table hz.ok.valid hz.mus
  have hc : ∀ k, E (tabMu tab) ((Mom.poly z.hg - MvPolynomial.C (E (tabMu tab) (Mom.poly z.hg))) ^ k) =
      a ^ k * E (tabMu tab) ((Mom.poly x.hg - MvPolynomial.C (E (tabMu tab) (Mom.poly x.hg))) ^ k) := by
    intro k
    rw [hp, E_C_mul, MvPolynomial.C_mul, ← mul_sub, mul_pow, ← MvPolynomial.C_pow, E_C_mul]
  by_cases hk : 1 ≤ k ∧ k ≤ 4
  · obtain ⟨h1, h4⟩ := hk
    interval_cases k
    · rw [z1, x1, hp, E_C_mul]; simp
    · rw [z2, x2, hc]; rfl
    · rw [z3, x3, hc]; rfl
    · rw [z4, x4, hc]; rfl
  · rw [m_out hk, m_out hk]; rfl

/-- **C51** However `a x + b` is written with the operators: the central moments are multiplied by powers of `a`, the mean in either mode and the
first order mean are transformed linearly, the uncertainty is multiplied by `|a|`, skewness and kurtosis do not change (the
skewness changes sign if `a` is negative), covariances are multiplied by `a`. -/
theorem C51_affine {tab : VId → Moments ℝ} {v : ℕ → UReal2 ℝ} (hv : ∀ i, Ok2 (v i))
    (hm : ∀ k i m, (v k).hg.momOf i = some m → m = tab i) {e : RExpr} {a b : ℝ}
    (h : e.poly = MvPolynomial.C a * MvPolynomial.X 0 + MvPolynomial.C b) (u : Moments ℝ) :
    ∃ z, e.eval2 u v = some z ∧ z.mu = a * (v 0).mu + b ∧ z.m 1 = ((v 0).m 1).map (a * ·) ∧
      (∀ k, z.m k = ((v 0).m k).map (a ^ k * ·)) ∧ (∀ p, z.n p = ((v 0).n p).map fun n => a * n + b) ∧
      z.s = (v 0).s.map (|a| * ·) ∧ (0 < a → z.skew = (v 0).skew) ∧ (a < 0 → z.skew = (v 0).skew.map (-·)) ∧
      (a ≠ 0 → z.kurt = (v 0).kurt) ∧
      ∀ w : UReal2 ℝ, w.hg.Valid → (∀ i m, w.hg.momOf i = some m → m = tab i) → z.cov w = ((v 0).cov w).map (a * ·) := by
  have f0 : Fine tab (v 0) := ⟨hv 0, hm 0⟩
  obtain ⟨z, ez, fz, hmu, hG, hH⟩ := lin_coeffs hv hm (e := e) (a := a) (b := 0) (c := b) (by rw [h]; simp) u
  have hp := poly_lin (hv 0).valid (hv 1).valid fz.ok.valid hG hH
  rw [map_zero, zero_mul, add_zero] at hp
  have m := fun k => m_scale f0 fz hp (k := k)
  obtain ⟨x1, x2, x3, x4⟩ := m_table f0.ok.valid f0.mus
  have x2' := x2
  generalize E (tabMu tab) (Mom.poly (v 0).hg) = c1 at *
  generalize E (tabMu tab) ((Mom.poly (v 0).hg - MvPolynomial.C c1) ^ 2) = c2 at *
  generalize E (tabMu tab) ((Mom.poly (v 0).hg - MvPolynomial.C c1) ^ 3) = c3 at *
  generalize E (tabMu tab) ((Mom.poly (v 0).hg - MvPolynomial.C c1) ^ 4) = c4 at *
  have s0 : (v 0).s = some (Real.sqrt c2) := by rw [UReal2.s, x2]; rfl
  have s1 : z.s = some (|a| * Real.sqrt c2) := by
    rw [UReal2.s, m, x2]
    simp only [Option.map_some, CSqrt.sqrt]
    rw [Real.sqrt_mul (sq_nonneg a), Real.sqrt_sq_eq_abs]
  have hsk : ∀ t, t * |a| = a → a ≠ 0 → z.skew = (v 0).skew.map (t * ·) := by
    intro t ht ha
    rw [UReal2.skew, UReal2.skew, m, m, x2, x3, s0, s1]
    simp only [Option.bind_some, Option.map_some, Option.some.injEq]
    have ha' : |a| ≠ 0 := abs_ne_zero.2 ha
    have e1 : |a| * Real.sqrt c2 * (a ^ 2 * c2) = (|a| * a ^ 2) * (Real.sqrt c2 * c2) := by ring
    rw [e1, mul_div_mul_comm]
    congr 1
    rw [div_eq_iff (by positivity)]
    calc a ^ 3 = a * a ^ 2 := by ring
      _ = t * |a| * a ^ 2 := by rw [ht]
      _ = t * (|a| * a ^ 2) := by ring
  refine ⟨z, ez, by rw [hmu]; ring, by rw [m]; simp, m, fun p => ?_, by rw [s0, s1]; rfl, fun ha => ?_, fun ha => ?_, fun ha => ?_,
    fun w hw hwm => ?_⟩
  · cases p <;> rw [UReal2.n, UReal2.n, m, x1] <;> simp only [Option.map_some, hmu, Option.some.injEq] <;> ring
  · rw [hsk 1 (by rw [one_mul, abs_of_pos ha]) ha.ne']; simp
  · rw [hsk (-1) (by rw [abs_of_neg ha]; ring) ha.ne]; simp
  · rw [UReal2.kurt, UReal2.kurt, m, m, x2, x4]
    simp only [Option.bind_some, Option.map_some, Option.some.injEq]
    rw [show a ^ 2 * c2 * (a ^ 2 * c2) = a ^ 4 * (c2 * c2) by ring, mul_div_mul_left _ _ (pow_ne_zero 4 ha)]
  · have fwag : ∀ {x : UReal2 ℝ}, Fine tab x → AgreeMoments x.hg w.hg := fun hx i p q hp hq =>
      (hx.mom i p hp).trans (hwm i q hq).symm
    have t1 : (v 0).hg.vars ⊆ (v 0).hg.vars ∪ z.hg.vars ∪ w.hg.vars := Finset.subset_union_left.trans Finset.subset_union_left
    have t2 : z.hg.vars ⊆ (v 0).hg.vars ∪ z.hg.vars ∪ w.hg.vars := Finset.subset_union_right.trans Finset.subset_union_left
    rw [cov_right fz.ok.valid hw (fwag fz) t2 Finset.subset_union_right, cov_right f0.ok.valid hw (fwag f0) t1 Finset.subset_union_right]
    simp only [Option.map_some, Option.some.injEq]
    rw [covForm_lin (a := a) (b := 0) hG hH]
    ring

/-- `3 - 2 x` -/
example (u : Moments ℝ) : ∃ z, (RExpr.add (.mul (.const (-2)) (.var 0)) (.const 3)).eval2 u exOps = some z ∧
    z.s = exMx.s.map (2 * ·) ∧ z.skew = exMx.skew.map (-·) ∧ z.kurt = exMx.kurt ∧ z.cov exMy = (exMx.cov exMy).map (-2 * ·) := by
  obtain ⟨z, h, -, -, -, -, h1, -, h2, h3, h4⟩ := C51_affine ok_exOps mom_exOps
    (e := .add (.mul (.const (-2)) (.var 0)) (.const 3)) (a := -2) (b := 3) (by simp [RExpr.poly]) u
  refine ⟨z, h, ?_, h2 (by norm_num), h3 (by norm_num), h4 exMy valid_exMy mom_exMy⟩
  rw [h1]; norm_num [exOps]

/-! ## C52: sums of independent values -/

/-- **C52** However the sum of two values without common variables is written with the operators: mean and central moments 2 and 3 add up, and
the fourth one is `m4(x) + m4(y) + 6 m2(x) m2(y)`. -/
theorem C52_independent {tab : VId → Moments ℝ} {v : ℕ → UReal2 ℝ} (hv : ∀ i, Ok2 (v i))
    (hm : ∀ k i m, (v k).hg.momOf i = some m → m = tab i) (hd : Disjoint (v 0).hg.vars (v 1).hg.vars) {e : RExpr}
    (h : e.poly = MvPolynomial.X 0 + MvPolynomial.X 1) (u : Moments ℝ) :
    ∃ z a1 a2 a3 a4 b1 b2 b3 b4, e.eval2 u v = some z ∧
      (v 0).m 1 = some a1 ∧ (v 0).m 2 = some a2 ∧ (v 0).m 3 = some a3 ∧ (v 0).m 4 = some a4 ∧
      (v 1).m 1 = some b1 ∧ (v 1).m 2 = some b2 ∧ (v 1).m 3 = some b3 ∧ (v 1).m 4 = some b4 ∧
      z.m 1 = some (a1 + b1) ∧ z.m 2 = some (a2 + b2) ∧ z.m 3 = some (a3 + b3) ∧ z.m 4 = some (a4 + b4 + 6 * a2 * b2) ∧
      z.n .est = some ((v 0).mu - a1 + ((v 1).mu - b1)) ∧ z.n .mean = some ((v 0).mu + a1 + ((v 1).mu + b1)) ∧
      z.s = some (Real.sqrt (a2 + b2)) := by
  have f0 : Fine tab (v 0) := ⟨hv 0, hm 0⟩
  have f1 : Fine tab (v 1) := ⟨hv 1, hm 1⟩
  obtain ⟨z, ez, fz, hmu, hG, hH⟩ := lin_coeffs hv hm (e := e) (a := 1) (b := 1) (c := 0) (by rw [h]; simp) u
  have hp := poly_lin (hv 0).valid (hv 1).valid fz.ok.valid hG hH
  rw [map_one, one_mul, one_mul] at hp
  obtain ⟨x1, x2, x3, x4⟩ := m_table f0.ok.valid f0.mus
  obtain ⟨y1, y2, y3, y4⟩ := m_table f1.ok.valid f1.mus
  obtain ⟨z1, z2, z3, z4⟩ := m_table fz.ok.valid fz.mus
  rw [hp, map_add] at z1 z2 z3 z4
  set A := Mom.poly (v 0).hg with hA
  set B := Mom.poly (v 1).hg with hB
  set mu := tabMu tab with hmu'
  set p := A - MvPolynomial.C (E mu A) with hp'
  set q := B - MvPolynomial.C (E mu B) with hq'
  have e0 : A + B - MvPolynomial.C (E mu A + E mu B) = p + q := by rw [hp', hq', map_add]; ring
  rw [e0] at z2 z3 z4
  have vp : p ∈ MvPolynomial.supported ℝ ((v 0).hg.vars : Set VId) :=
    Subalgebra.sub_mem _ (poly_vars _) (Subalgebra.algebraMap_mem _ _)
  have vq : q ∈ MvPolynomial.supported ℝ ((v 1).hg.vars : Set VId) :=
    Subalgebra.sub_mem _ (poly_vars _) (Subalgebra.algebraMap_mem _ _)
  have ind : ∀ a b, E mu (p ^ a * q ^ b) = E mu (p ^ a) * E mu (q ^ b) := fun a b =>
    E_mul_disjoint (Finset.disjoint_of_subset_left (vars_sub_of (Subalgebra.pow_mem _ vp a))
      (Finset.disjoint_of_subset_right (vars_sub_of (Subalgebra.pow_mem _ vq b)) hd)) mu
  have p0 : E mu (p ^ 1) = 0 := by rw [pow_one, hp', map_sub, E_C, sub_self]
  have q0 : E mu (q ^ 1) = 0 := by rw [pow_one, hq', map_sub, E_C, sub_self]
  have w2 : E mu ((p + q) ^ 2) = E mu (p ^ 2) + E mu (q ^ 2) := by
    have : (p + q) ^ 2 = p ^ 2 + MvPolynomial.C 2 * (p ^ 1 * q ^ 1) + q ^ 2 := by simp only [map_ofNat]; ring
    rw [this, map_add, map_add, E_C_mul, ind, p0]; ring
  have w3 : E mu ((p + q) ^ 3) = E mu (p ^ 3) + E mu (q ^ 3) := by
    have : (p + q) ^ 3 = p ^ 3 + MvPolynomial.C 3 * (p ^ 2 * q ^ 1) + MvPolynomial.C 3 * (p ^ 1 * q ^ 2) + q ^ 3 := by
      simp only [map_ofNat]; ring
    rw [this, map_add, map_add, map_add, E_C_mul, E_C_mul, ind, ind, p0, q0]; ring
  have w4 : E mu ((p + q) ^ 4) = E mu (p ^ 4) + E mu (q ^ 4) + 6 * E mu (p ^ 2) * E mu (q ^ 2) := by
    have : (p + q) ^ 4 = p ^ 4 + MvPolynomial.C 4 * (p ^ 3 * q ^ 1) + MvPolynomial.C 6 * (p ^ 2 * q ^ 2)
        + MvPolynomial.C 4 * (p ^ 1 * q ^ 3) + q ^ 4 := by
      simp only [map_ofNat]; ring
    rw [this, map_add, map_add, map_add, map_add, E_C_mul, E_C_mul, E_C_mul, ind, ind, ind, p0, q0]; ring
  rw [w2] at z2; rw [w3] at z3; rw [w4] at z4
  refine ⟨z, _, _, _, _, _, _, _, _, ez, x1, x2, x3, x4, y1, y2, y3, y4, z1, z2, z3, z4, ?_, ?_, ?_⟩
  · rw [UReal2.n, z1]; simp only [Option.map_some, hmu, Option.some.injEq]; ring
  · rw [UReal2.n, z1]; simp only [Option.map_some, hmu, Option.some.injEq]; ring
  · rw [UReal2.s, z2]; rfl

/-- Two values without common variables: `exMx` (variables 1 and 3) and one which depends on 5. -/
noncomputable def exFive : UReal2 ℝ := ⟨⟨[(5, ⟨2, 1, twoPointMom⟩)], []⟩, 1⟩
noncomputable def exOps' : ℕ → UReal2 ℝ
  | 0 => exMx
  | 1 => exFive
  | _ => UReal2.const 5

theorem ok_exFive : Ok2 exFive := ⟨⟨by simp [exFive, Sorted, keys], by simp [exFive, Sorted, keys], by simp [exFive, keys]⟩, by
  intro i hi
  simp only [exFive, keys_cons, keys_nil, List.mem_singleton] at hi
  subst hi; decide⟩
theorem mom_exFive (i : VId) (m : Moments ℝ) (h : exFive.hg.momOf i = some m) : m = twoPointMom := by
  simp only [momOf, exFive, find?] at h
  split_ifs at h <;> simp_all
theorem ok_exOps' (i : ℕ) : Ok2 (exOps' i) := by
  match i with
  | 0 => exact ok_exMx
  | 1 => exact ok_exFive
  | _ + 2 => exact ok_const 5
theorem mom_exOps' (k : ℕ) (i : VId) (m : Moments ℝ) (h : (exOps' k).hg.momOf i = some m) : m = twoPointMom := by
  match k, h with
  | 0, h => exact mom_exMx i m h
  | 1, h => exact mom_exFive i m h
  | _ + 2, h => simp [exOps', UReal2.const, HessGrad.empty, momOf, find?] at h

/-- `x - (-y)` -/
example (u : Moments ℝ) : ∃ z a3 b3, (RExpr.sub (.var 0) (.neg (.var 1))).eval2 u exOps' = some z ∧
    exMx.m 3 = some a3 ∧ exFive.m 3 = some b3 ∧ z.m 3 = some (a3 + b3) := by
  obtain ⟨z, a1, a2, a3, a4, b1, b2, b3, b4, h1, -, -, h2, -, -, -, h3, -, -, -, h4, -⟩ := C52_independent ok_exOps' mom_exOps'
    (by simp [exOps', exMx, exFive, HessGrad.vars, keys]) (e := .sub (.var 0) (.neg (.var 1))) (by simp [RExpr.poly]) u
  exact ⟨z, a3, b3, h1, h2, h3, h4⟩

/-! ## C53: bilinearity of the covariance, covariance matrices of second-order values -/

/-- **C53** `cov` is linear in its first argument, however `a x + b y + c` is written, and the variance of the sum is the quadratic form. -/
theorem C53_bilinear {tab : VId → Moments ℝ} {v : ℕ → UReal2 ℝ} (hv : ∀ i, Ok2 (v i))
    (hm : ∀ k i m, (v k).hg.momOf i = some m → m = tab i) {e : RExpr} {a b c : ℝ}
    (h : e.poly = MvPolynomial.C a * MvPolynomial.X 0 + MvPolynomial.C b * MvPolynomial.X 1 + MvPolynomial.C c) (u : Moments ℝ) :
    ∃ z, e.eval2 u v = some z ∧
      (∀ w : UReal2 ℝ, w.hg.Valid → (∀ i m, w.hg.momOf i = some m → m = tab i) → ∃ cx cy, (v 0).cov w = some cx ∧
        (v 1).cov w = some cy ∧ z.cov w = some (a * cx + b * cy) ∧ w.cov z = some (a * cx + b * cy)) ∧
      ∃ vx vy cxy, (v 0).var = some vx ∧ (v 1).var = some vy ∧ (v 0).cov (v 1) = some cxy ∧
        z.var = some (a ^ 2 * vx + b ^ 2 * vy + 2 * a * b * cxy) := by
  have f0 : Fine tab (v 0) := ⟨hv 0, hm 0⟩
  have f1 : Fine tab (v 1) := ⟨hv 1, hm 1⟩
  obtain ⟨z, ez, fz, -, hG, hH⟩ := lin_coeffs hv hm h u
  have lin : ∀ w : UReal2 ℝ, w.hg.Valid → (∀ i m, w.hg.momOf i = some m → m = tab i) → ∃ cx cy, (v 0).cov w = some cx ∧
        (v 1).cov w = some cy ∧ z.cov w = some (a * cx + b * cy) ∧ w.cov z = some (a * cx + b * cy) := by
    intro w hw hwm
    have fwag : ∀ {x : UReal2 ℝ}, Fine tab x → AgreeMoments x.hg w.hg := fun hx i p q hp hq =>
      (hx.mom i p hp).trans (hwm i q hq).symm
    have t : ∀ T ∈ ({(v 0).hg.vars, (v 1).hg.vars, z.hg.vars, w.hg.vars} : Set (Finset VId)),
        T ⊆ (v 0).hg.vars ∪ (v 1).hg.vars ∪ z.hg.vars ∪ w.hg.vars := by
      intro T hT i hi
      simp only [Set.mem_insert_iff, Set.mem_singleton_iff] at hT
      simp only [Finset.mem_union]
      rcases hT with rfl | rfl | rfl | rfl <;> simp [hi]
    have e1 := cov_right fz.ok.valid hw (fwag fz) (t _ (by simp)) (t _ (by simp))
    rw [covForm_lin hG hH] at e1
    have hs := C28_symm hw fz.ok.valid fun i p q hp hq => (fwag fz i q p hq hp).symm
    exact ⟨_, _, cov_right f0.ok.valid hw (fwag f0) (t _ (by simp)) (t _ (by simp)),
      cov_right f1.ok.valid hw (fwag f1) (t _ (by simp)) (t _ (by simp)), e1, hs.trans e1⟩
  obtain ⟨c1, c2, h1, h2, -, h4⟩ := lin (v 0) f0.ok.valid f0.mom
  obtain ⟨d1, d2, k1, k2, -, k4⟩ := lin (v 1) f1.ok.valid f1.mom
  obtain ⟨w1, w2, l1, l2, l3, -⟩ := lin z fz.ok.valid fz.mom
  have hsym := C28_symm f0.ok.valid f1.ok.valid (f0.agree f1)
  rw [h4] at l1; rw [k4] at l2
  rw [k1, h2] at hsym
  rw [Option.some_inj] at l1 l2 hsym
  refine ⟨z, ez, lin, c1, d2, d1, ?_, ?_, k1, ?_⟩
  · rw [← C28_self f0.ok.valid, h1]
  · rw [← C28_self f1.ok.valid, k2]
  · rw [← C28_self fz.ok.valid, l3, ← l1, ← l2, ← hsym]
    congr 1; ring

/-- `2 x - 3 y`, written `x + x - 3 y + 1` -/
example (u : Moments ℝ) : ∃ z vx vy cxy,
    (RExpr.add (.sub (.add (.var 0) (.var 0)) (.mul (.const 3) (.var 1))) (.const 1)).eval2 u exOps = some z ∧
    exMx.var = some vx ∧ exMy.var = some vy ∧ exMx.cov exMy = some cxy ∧ z.var = some (4 * vx + 9 * vy - 12 * cxy) := by
  obtain ⟨z, h1, -, vx, vy, c, h2, h3, h4, h5⟩ := C53_bilinear ok_exOps mom_exOps (a := 2) (b := -3) (c := 1)
    (e := .add (.sub (.add (.var 0) (.var 0)) (.mul (.const 3) (.var 1))) (.const 1))
    (by simp only [RExpr.poly, map_neg, map_ofNat, map_one]; ring) u
  exact ⟨z, vx, vy, c, h1, h2, h3, h4, by rw [h5]; congr 1; ring⟩

theorem allOf_some {α : Type*} {l : List (Option α)} (h : ∀ a ∈ l, ∃ b, a = some b) :
    ∃ m, Stat.allOf l = some m ∧ m.map some = l := by
  induction l with
  | nil => exact ⟨[], rfl, rfl⟩
  | cons a t ih =>
    obtain ⟨b, rfl⟩ := h a (by simp)
    obtain ⟨m, e, hm⟩ := ih fun c hc => h c (by simp [hc])
    exact ⟨b :: m, by simp [Stat.allOf, e], by simp [hm]⟩

/-- Shape and entries of a matrix. -/
theorem matrix2_entries {α β : Type*} (x : List α) (op : α → α → Option β) (hop : ∀ a ∈ x, ∀ b ∈ x, ∃ c, op a b = some c)
    (hn : x.length < 4294967296) : ∃ m, (Stat.outer x op).bind Stat.allOf = some m ∧ m.length = x.length * x.length ∧
      ∀ i j : Fin x.length, m[x.length * i.1 + j.1]? = op x[i] x[j] := by
  obtain ⟨m, e, hm⟩ := allOf_some (l := Stat.outerSeq x op) (by
    intro a ha
    simp only [Stat.outerSeq, List.mem_flatMap, List.mem_map] at ha
    obtain ⟨b, hb, c, hc, rfl⟩ := ha
    exact hop b hb c hc)
  refine ⟨m, by rw [outer_some x op hn, Option.bind_some, e], ?_, fun i j => ?_⟩
  · rw [← length_outerSeq x op, ← hm, List.length_map]
  · have := getElem?_outerSeq x op i j i.2 j.2
    rw [← hm, List.getElem?_map] at this
    obtain ⟨a, h1, h2⟩ := Option.map_eq_some_iff.1 this
    exact h1.trans h2

/-- **C53** `cov_matrix` of second-order values: symmetric, the variances on the diagonal, positive semidefinite. -/
theorem C53_cov_matrix {tab : VId → Moments ℝ} (x : List (UReal2 ℝ)) (hx : ∀ a ∈ x, a.hg.Valid)
    (hm : ∀ a ∈ x, ∀ i m, a.hg.momOf i = some m → m = tab i) (hs : ∀ a ∈ x, SoundMoments a.hg) (hn : x.length < 4294967296) :
    ∃ m, Stat.covMatrix2 x = some m ∧ m.length = x.length * x.length ∧ ∃ M : Fin x.length → Fin x.length → ℝ,
      (∀ i j : Fin x.length, m[x.length * i.1 + j.1]? = some (M i j)) ∧ (∀ i j, (x[i]).cov x[j] = some (M i j)) ∧
      (∀ i j, M i j = M j i) ∧ (∀ i, (x[i]).var = some (M i i)) ∧ ∀ a : Fin x.length → ℝ, 0 ≤ ∑ i, ∑ j, a i * a j * M i j := by
  have hv : ∀ i : Fin x.length, (x[i]).hg.Valid := fun i => hx _ (List.getElem_mem _)
  have hmem : ∀ i : Fin x.length, x[i] ∈ x := fun i => List.getElem_mem _
  let S : Finset VId := Finset.univ.biUnion fun i : Fin x.length => (x[i]).hg.vars
  have hS : ∀ i : Fin x.length, (x[i]).hg.vars ⊆ S := fun i =>
    Finset.subset_biUnion_of_mem (fun i : Fin x.length => (x[i]).hg.vars) (Finset.mem_univ i)
  have hc : ∀ i j : Fin x.length, (x[i]).cov x[j] = some (covForm (tabMu tab) S (x[i]).hg (x[j]).hg) := fun i j => by
    refine cov_mix (hv i) (hv j) _ (fun _ => rfl) (fun _ => rfl) (fun k hk _ => ?_) (hS i) (hS j)
    rw [tabMu, ← hm _ (hmem i) k _ (momOf_dOf hk)]
    exact ⟨rfl, rfl⟩
  obtain ⟨m, e, hl, h⟩ := matrix2_entries x UReal2.cov (fun a ha b hb => by
    obtain ⟨i, hi, rfl⟩ := List.getElem_of_mem ha
    obtain ⟨j, hj, rfl⟩ := List.getElem_of_mem hb
    exact ⟨_, hc ⟨i, hi⟩ ⟨j, hj⟩⟩) hn
  refine ⟨m, e, hl, fun i j => covForm (tabMu tab) S (x[i]).hg (x[j]).hg, fun i j => (h i j).trans (hc i j), hc,
    fun i j => covForm_comm _ _ _ _, fun i => by rw [← C28_self (hv i)]; exact hc i i, fun a => ?_⟩
  refine covForm_psd Finset.univ _ S (fun i : Fin x.length => (x[i]).hg) a fun k _ => ?_
  by_cases hk : (tab k).v3 * (tab k).v3 + 1 ≤ (tab k).v4
  · left; simpa [tabMu, mseq, pow_two] using hk
  · refine Or.inr fun i _ => ?_
    by_cases hki : k ∈ (x[i]).hg.vars
    · rcases hs _ (hmem i) k _ (momOf_dOf hki) with h' | h'
      · rw [hm _ (hmem i) k _ (momOf_dOf hki)] at h'
        exact absurd h' hk
      · exact h'
    · exact ⟨G_out hki, H_out (hv i) hki k⟩

/-- **C53** `corr_matrix` of second-order values with non zero uncertainty: symmetric, 1 on the diagonal, entries between -1 and 1. -/
theorem C53_corr_matrix (x : List (UReal2 ℝ)) (hx : ∀ a ∈ x, a.hg.Valid) (ha : ∀ a ∈ x, ∀ b ∈ x, AgreeMoments a.hg b.hg)
    (hs : ∀ a ∈ x, SoundMoments a.hg) (h0 : ∀ a ∈ x, a.s ≠ some 0) (hn : x.length < 4294967296) :
    ∃ m, Stat.corrMatrix2 x = some m ∧ m.length = x.length * x.length ∧ ∃ M : Fin x.length → Fin x.length → ℝ,
      (∀ i j : Fin x.length, m[x.length * i.1 + j.1]? = some (M i j)) ∧ (∀ i j, M i j = M j i) ∧ (∀ i, M i i = 1) ∧
      ∀ i j, |M i j| ≤ 1 := by
  have hmem : ∀ i : Fin x.length, x[i] ∈ x := fun i => List.getElem_mem _
  have hc : ∀ i j : Fin x.length, ∃ r, (x[i]).corr x[j] = some r ∧ |r| ≤ 1 := fun i j =>
    C29_corr (hx _ (hmem i)) (hx _ (hmem j)) (ha _ (hmem i) _ (hmem j)) (hs _ (hmem i)) (hs _ (hmem j)) (h0 _ (hmem i)) (h0 _ (hmem j))
  choose M hM hM1 using hc
  obtain ⟨m, e, hl, h⟩ := matrix2_entries x UReal2.corr (fun a ha b hb => by
    obtain ⟨i, hi, rfl⟩ := List.getElem_of_mem ha
    obtain ⟨j, hj, rfl⟩ := List.getElem_of_mem hb
    exact ⟨_, hM ⟨i, hi⟩ ⟨j, hj⟩⟩) hn
  refine ⟨m, e, hl, M, fun i j => (h i j).trans (hM i j), fun i j => ?_, fun i => ?_, hM1⟩
  · have h1 := hM i j
    have h2 := hM j i
    rw [UReal2.corr, C28_symm (hx _ (hmem i)) (hx _ (hmem j)) (ha _ (hmem i) _ (hmem j))] at h1
    rw [UReal2.corr] at h2
    obtain ⟨c, hc, h1⟩ := Option.bind_eq_some_iff.1 h1
    obtain ⟨s, hs, h1⟩ := Option.bind_eq_some_iff.1 h1
    obtain ⟨t, ht, h1⟩ := Option.map_eq_some_iff.1 h1
    rw [hc, hs, ht] at h2
    simp only [Option.bind_some, Option.map_some, Option.some.injEq] at h2
    rw [← h1, ← h2, mul_comm]
  · obtain ⟨v, hv, hv0⟩ := C29_var (hx _ (hmem i)) (hs _ (hmem i))
    have hsd : (x[i]).s = some (Real.sqrt v) := by rw [UReal2.s, ← UReal2.var, hv]; rfl
    have h1 := hM i i
    rw [UReal2.corr, C28_self (hx _ (hmem i)), hv, hsd] at h1
    simp only [Option.bind_some, Option.map_some, Option.some.injEq] at h1
    rw [← h1, Real.mul_self_sqrt hv0, div_self]
    rintro rfl
    exact h0 _ (hmem i) (by rw [hsd, Real.sqrt_zero])

/-- **C53** `nom_vector` of second-order values: the values returned by `n()`, in order. -/
theorem C53_nom_vector (p : PropMode) (x : List (UReal2 ℝ)) (hx : ∀ a ∈ x, a.hg.Valid) :
    ∃ m, Stat.nomVector2 p x = some m ∧ m.length = x.length ∧ ∀ i : Fin x.length, m[i.1]? = (x[i]).n p := by
  have key : ∀ (x : List (UReal2 ℝ)), (∀ a ∈ x, a.hg.Valid) → ∀ l : List ℝ, ∃ m,
      x.foldl (fun mu a => mu.bind fun mu => (a.n p).map fun n => mu ++ [n]) (some l) = some (l ++ m) ∧
        m.map some = x.map (UReal2.n p) := by
    intro x
    induction x with
    | nil => intro _ l; exact ⟨[], by simp, rfl⟩
    | cons a t ih =>
      intro hx l
      have : ∃ n, a.n p = some n := by rw [UReal2.n, m_one (hx a (by simp))]; exact ⟨_, rfl⟩
      obtain ⟨n, hn⟩ := this
      obtain ⟨m, e, hm⟩ := ih (fun b hb => hx b (by simp [hb])) (l ++ [n])
      refine ⟨n :: m, ?_, by simp [hm, hn]⟩
      rw [List.foldl_cons, Option.bind_some, hn, Option.map_some, e]; simp
  obtain ⟨m, e, hm⟩ := key x hx []
  refine ⟨m, e, by simpa using congrArg List.length hm, fun i => ?_⟩
  have := congrArg (fun l => l[i.1]?) hm
  simp only [List.getElem?_map, List.getElem?_eq_getElem i.2, Option.map_some] at this
  obtain ⟨a, h1, h2⟩ := Option.map_eq_some_iff.1 this
  rw [h1, h2]; rfl

example : ∃ m, Stat.covMatrix2 [exMx, exMy, exFive] = some m ∧ m.length = 9 ∧ m[3 * 1 + 0]? = exMx.cov exMy := by
  have hall : ∀ P : UReal2 ℝ → Prop, P exMx → P exMy → P exFive → ∀ a ∈ [exMx, exMy, exFive], P a := by
    intro P h1 h2 h3 a ha
    simp only [List.mem_cons, List.not_mem_nil, or_false] at ha
    rcases ha with rfl | rfl | rfl <;> assumption
  obtain ⟨m, e, hl, M, h1, h2, h3, -⟩ := C53_cov_matrix (tab := fun _ => twoPointMom) [exMx, exMy, exFive]
    (hall _ valid_exMx valid_exMy ok_exFive.valid) (hall _ mom_exMx mom_exMy mom_exFive)
    (hall _ sound_exMx sound_exMy fun i m h => by rw [mom_exFive i m h]; left; norm_num [twoPointMom]) (by simp)
  exact ⟨m, e, hl, (h1 ⟨1, by simp⟩ ⟨0, by simp⟩).trans (by rw [h3]; exact (h2 ⟨0, by simp⟩ ⟨1, by simp⟩).symm)⟩

example : ∃ m, Stat.corrMatrix2 [exMx, exMy] = some m ∧ m.length = 4 ∧ m[2 * 1 + 1]? = some 1 := by
  have hall : ∀ P : UReal2 ℝ → Prop, P exMx → P exMy → ∀ a ∈ [exMx, exMy], P a := by
    intro P h1 h2 a ha
    simp only [List.mem_cons, List.not_mem_nil, or_false] at ha
    rcases ha with rfl | rfl <;> assumption
  obtain ⟨m, e, hl, M, h1, -, h3, -⟩ := C53_corr_matrix [exMx, exMy] (hall _ valid_exMx valid_exMy)
    (hall _ (hall _ (fun i a b h h' => by rw [mom_exMx i a h, mom_exMx i b h']) agree_exM)
      (hall _ (fun i a b h h' => (agree_exM i b a h' h).symm) fun i a b h h' => by rw [mom_exMy i a h, mom_exMy i b h']))
    (hall _ sound_exMx sound_exMy) (hall _ (by
      have := var_exMx
      rw [UReal2.var] at this
      rw [UReal2.s, this]
      simp only [Option.map_some, ne_eq, Option.some.injEq]
      exact (Real.sqrt_pos.2 (by norm_num)).ne') (by
      obtain ⟨v, h, hp⟩ := var_exMy
      rw [UReal2.var] at h
      rw [UReal2.s, h]
      simp only [Option.map_some, ne_eq, Option.some.injEq]
      exact (Real.sqrt_pos.2 hp).ne')) (by simp)
  exact ⟨m, e, hl, (h1 ⟨1, by simp⟩ ⟨1, by simp⟩).trans (by rw [h3])⟩

example : ∃ m, Stat.nomVector2 .est [exMx, exMy] = some m ∧ m[1]? = exMy.n .est := by
  obtain ⟨m, e, -, h⟩ := C53_nom_vector .est [exMx, exMy] (by
    intro a ha
    simp only [List.mem_cons, List.not_mem_nil, or_false] at ha
    rcases ha with rfl | rfl
    · exact valid_exMx
    · exact valid_exMy)
  exact ⟨m, e, h ⟨1, by simp⟩⟩

end Unc.Props
