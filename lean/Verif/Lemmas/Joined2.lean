import Verif.Props.Schedule

/-!
# Values of two runs with the same variables under different names
-/

namespace Unc
open Unc.Spec Unc.Props SMap HessGrad

/-- `x` and `y` are the same value, in two runs in which variable `j` has the identifiers `ids j` and `ids' j`. -/
structure Alike {n : ℕ} (ids ids' : Fin n → VId) (mom : Fin n → Moments ℝ) (x y : UReal2 ℝ) : Prop where
  left : FineP (fun i m => ∃ j, ids j = i ∧ m = mom j) x
  right : FineP (fun i m => ∃ j, ids' j = i ∧ m = mom j) y
  mu : x.mu = y.mu
  G : ∀ j, x.hg.G (ids j) = y.hg.G (ids' j)
  H : ∀ j k, x.hg.H (ids j) (ids k) = y.hg.H (ids' j) (ids' k)
  vars : ∀ j, ids j ∈ x.hg.vars ↔ ids' j ∈ y.hg.vars

namespace Alike
variable {n : ℕ} {ids ids' : Fin n → VId} {mom : Fin n → Moments ℝ} {x y x' y' : UReal2 ℝ}

theorem const (c : ℝ) : Alike ids ids' mom (UReal2.const c) (UReal2.const c) :=
  ⟨FineP.const _ c, FineP.const _ c, rfl, fun _ => rfl, fun j k => by simp [UReal2.const, HessGrad.empty, HessGrad.H, SMap.get, find?],
    fun j => by simp [UReal2.const, HessGrad.empty, HessGrad.vars]⟩

theorem tableX (h : Alike ids ids' mom x y) : Mom.InTable ids mom x.hg := ⟨h.left.ok.valid, h.left.mom⟩
theorem tableY (h : Alike ids ids' mom x y) : Mom.InTable ids' mom y.hg := ⟨h.right.ok.valid, h.right.mom⟩

theorem vars_eq (h : Alike ids ids' mom x y) :
    ∃ S : Finset (Fin n), x.hg.vars = S.image ids ∧ y.hg.vars = S.image ids' := by
  classical
  refine ⟨Finset.univ.filter fun j => ids j ∈ x.hg.vars, ?_, ?_⟩
  · ext i
    simp only [Finset.mem_image, Finset.mem_filter, Finset.mem_univ, true_and]
    constructor
    · intro hi
      obtain ⟨j, hj⟩ := h.tableX.vars i hi
      exact ⟨j, hj ▸ hi, hj⟩
    · rintro ⟨j, hj, rfl⟩
      exact hj
  · ext i
    simp only [Finset.mem_image, Finset.mem_filter, Finset.mem_univ, true_and]
    constructor
    · intro hi
      obtain ⟨j, hj⟩ := h.tableY.vars i hi
      exact ⟨j, (h.vars j).2 (hj ▸ hi), hj⟩
    · rintro ⟨j, hj, rfl⟩
      exact (h.vars j).1 hj

theorem size (h : Alike ids ids' mom x y) (hinj : Function.Injective ids) (hinj' : Function.Injective ids') : x.hg.size = y.hg.size := by
  obtain ⟨S, hx, hy⟩ := h.vars_eq
  have hcard : ∀ {g : HessGrad ℝ}, g.Valid → g.size = g.vars.card := by
    intro g hv
    unfold HessGrad.vars HessGrad.size
    rw [List.toFinset_card_of_nodup (Sorted.nodup hv.dsorted)]; simp [keys]
  rw [hcard h.left.ok.valid, hcard h.right.ok.valid, hx, hy, Finset.card_image_of_injective _ hinj,
    Finset.card_image_of_injective _ hinj']

/-- A function of one value, whose second derivative is 0, or whose argument depends on at most one variable. -/
theorem unary (h : Alike ids ids' mom x y) (hinj : Function.Injective ids) (hinj' : Function.Injective ids') (f fx fxx : ℝ)
    (hf : fxx = 0 ∨ x.isindep = true) :
    ∃ z z', (∀ u, UReal2.unary u x f fx fxx = some z) ∧ (∀ u, UReal2.unary u y f fx fxx = some z') ∧ Alike ids ids' mom z z' := by
  obtain ⟨z, e, -⟩ := C21_unary h.left.ok f fx fxx
  obtain ⟨z', e', -⟩ := C21_unary h.right.ok f fx fxx
  obtain ⟨m, g, v, -⟩ := C22_unary h.left.ok (e exN)
  obtain ⟨m', g', v', -⟩ := C22_unary h.right.ok (e' exN)
  have ix : IterOk x fxx := hf.imp_right fun hs => Or.inl (by simpa [UReal2.isindep] using hs)
  have iy : IterOk y fxx := hf.imp_right fun hs => Or.inl (by rw [← h.size hinj hinj']; simpa [UReal2.isindep] using hs)
  have d := C23_unary_partial h.left.ok ix (e exN)
  have d' := C23_unary_partial h.right.ok iy (e' exN)
  refine ⟨z, z', e, e', h.left.unary (e exN), h.right.unary (e' exN), m.trans m'.symm, fun j => by rw [g, g', h.G], fun j k => ?_,
    fun j => by rw [v, v', h.vars]⟩
  have h1 := d (ids j) (ids k)
  have h2 := d' (ids' j) (ids' k)
  unfold D2 at h1 h2
  rw [h.G, h.G, h.H] at h1
  linarith

/-- A function of two values, the same for both arguments. -/
theorem binary (h : Alike ids ids' mom x y) (k : Alike ids ids' mom x' y') (hinj : Function.Injective ids) (hinj' : Function.Injective ids')
    (f fx fy fxx fyy fxy : ℝ) (hf : fxx = 0 ∨ x.isindep = true) (hf' : fyy = 0 ∨ x'.isindep = true) :
    ∃ z z', (∀ u, UReal2.binary u x x' f fx fy fxx fyy fxy = some z) ∧ (∀ u, UReal2.binary u y y' f fx fy fxx fyy fxy = some z') ∧
      Alike ids ids' mom z z' := by
  obtain ⟨z, e, -⟩ := C21_binary h.left.ok k.left.ok f fx fy fxx fyy fxy
  obtain ⟨z', e', -⟩ := C21_binary h.right.ok k.right.ok f fx fy fxx fyy fxy
  obtain ⟨m, g, v, -⟩ := C22_binary h.left.ok k.left.ok (e exN)
  obtain ⟨m', g', v', -⟩ := C22_binary h.right.ok k.right.ok (e' exN)
  have it : ∀ {x y : UReal2 ℝ} {c : ℝ}, Alike ids ids' mom x y → (c = 0 ∨ x.isindep = true) → IterOk x c ∧ IterOk y c := fun h hf =>
    ⟨hf.imp_right fun hs => Or.inl (by simpa [UReal2.isindep] using hs),
      hf.imp_right fun hs => Or.inl (by rw [← h.size hinj hinj']; simpa [UReal2.isindep] using hs)⟩
  have d := C23_binary_partial h.left.ok k.left.ok (it h hf).1 (it k hf').1 (e exN)
  have d' := C23_binary_partial h.right.ok k.right.ok (it h hf).2 (it k hf').2 (e' exN)
  refine ⟨z, z', e, e', h.left.binary k.left (e exN), h.right.binary k.right (e' exN), m.trans m'.symm, fun j => by rw [g, g', h.G, k.G],
    fun i j => ?_, fun j => by rw [v, v', Finset.mem_union, Finset.mem_union, h.vars, k.vars]⟩
  have h1 := d (ids i) (ids j)
  have h2 := d' (ids' i) (ids' j)
  unfold D2 at h1 h2
  rw [h.G, h.G, k.G, k.G, h.H, k.H] at h1
  linarith

/-- one more variable, which the values do not depend on -/
theorem snoc (h : Alike ids ids' mom x y) {i i' : VId} (hi : i ∉ x.hg.vars) (hi' : i' ∉ y.hg.vars) (m : Moments ℝ) :
    Alike (Fin.snoc ids i : Fin (n + 1) → VId) (Fin.snoc ids' i' : Fin (n + 1) → VId) (Fin.snoc mom m : Fin (n + 1) → Moments ℝ) x y := by
  have g0 : x.hg.G i = 0 ∧ y.hg.G i' = 0 := ⟨G_zero fun hk => hi (mem_vars_keys.2 hk), G_zero fun hk => hi' (mem_vars_keys.2 hk)⟩
  have h0 : ∀ j, x.hg.H i j = 0 := fun j => H_zero h.left.ok.valid (fun hk => hi (mem_vars_keys.2 hk)) j
  have h0' : ∀ j, y.hg.H i' j = 0 := fun j => H_zero h.right.ok.valid (fun hk => hi' (mem_vars_keys.2 hk)) j
  have h1 : ∀ j, x.hg.H j i = 0 := fun j => by rw [H_comm]; exact h0 j
  have h1' : ∀ j, y.hg.H j i' = 0 := fun j => by rw [H_comm]; exact h0' j
  refine ⟨⟨h.left.ok, fun k a hk => ?_⟩, ⟨h.right.ok, fun k a hk => ?_⟩, h.mu, fun j => ?_, fun j k => ?_, fun j => ?_⟩
  · obtain ⟨j, rfl, rfl⟩ := h.left.mom k a hk
    exact ⟨j.castSucc, by simp, by simp⟩
  · obtain ⟨j, rfl, rfl⟩ := h.right.mom k a hk
    exact ⟨j.castSucc, by simp, by simp⟩
  · refine Fin.lastCases ?_ (fun j => ?_) j
    · simp [g0]
    · simp [h.G]
  · refine Fin.lastCases ?_ (fun j => ?_) j
    · simp [h0, h0']
    · refine Fin.lastCases ?_ (fun k => ?_) k
      · simp [h1, h1']
      · simp [h.H]
  · refine Fin.lastCases ?_ (fun j => ?_) j
    · simp [hi, hi']
    · simp [h.vars]

theorem _root_.Unc.indepid_single {x : UReal2 ℝ} {i : VId} (hv : x.hg.Valid) (h : x.hg.vars = {i}) : x.indepid = i := by
  have hc : x.hg.diagmap.length = 1 := by
    have : x.hg.vars.card = x.hg.diagmap.length := by
      unfold HessGrad.vars
      rw [List.toFinset_card_of_nodup (Sorted.nodup hv.dsorted)]; simp [keys]
    rw [← this, h, Finset.card_singleton]
  obtain ⟨⟨k, d⟩, hd⟩ := List.length_eq_one_iff.1 hc
  have hk : k = i := by simpa [HessGrad.vars, hd] using h
  simp [UReal2.indepid, UReal2.isindep, HessGrad.size, hd, hk]

theorem indepid (h : Alike ids ids' mom x y) (k : Alike ids ids' mom x' y') (hinj : Function.Injective ids) (hinj' : Function.Injective ids')
    (hp : ∀ j, 1 ≤ ids j) (hp' : ∀ j, 1 ≤ ids' j) : x.indepid = x'.indepid ↔ y.indepid = y'.indepid := by
  have key : ∀ {x y : UReal2 ℝ}, Alike ids ids' mom x y →
      (x.indepid = 0 ∧ y.indepid = 0) ∨ (x.indepid = -1 ∧ y.indepid = -1) ∨ ∃ j, x.indepid = ids j ∧ y.indepid = ids' j := by
    intro x y h
    have px : ∀ i ∈ x.hg.vars, 1 ≤ i := fun i hi => by obtain ⟨j, rfl⟩ := h.tableX.vars i hi; exact hp j
    have py : ∀ i ∈ y.hg.vars, 1 ≤ i := fun i hi => by obtain ⟨j, rfl⟩ := h.tableY.vars i hi; exact hp' j
    obtain ⟨-, ox, sx, tx⟩ := C56_observers h.left.ok.valid px
    obtain ⟨-, oy, sy, ty⟩ := C56_observers h.right.ok.valid py
    obtain ⟨S, hx, hy⟩ := h.vars_eq
    rcases Nat.lt_or_ge S.card 2 with hc | hc
    · rcases Nat.lt_or_ge S.card 1 with h1 | h1
      · have hS : S = ∅ := Finset.card_eq_zero.1 (by omega)
        subst hS
        exact Or.inl ⟨ox.2 (by simpa using hx), oy.2 (by simpa using hy)⟩
      · obtain ⟨j, rfl⟩ := Finset.card_eq_one.1 (show S.card = 1 by omega)
        rw [Finset.image_singleton] at hx hy
        refine Or.inr (Or.inr ⟨j, ?_, ?_⟩)
        · exact indepid_single h.left.ok.valid hx
        · exact indepid_single h.right.ok.valid hy
    · refine Or.inr (Or.inl ⟨tx.2 ?_, ty.2 ?_⟩)
      · rw [hx, Finset.card_image_of_injective _ hinj]; exact hc
      · rw [hy, Finset.card_image_of_injective _ hinj']; exact hc
  rcases key h with ⟨h1, h2⟩ | ⟨h1, h2⟩ | ⟨j, h1, h2⟩ <;> rcases key k with ⟨k1, k2⟩ | ⟨k1, k2⟩ | ⟨l, k1, k2⟩ <;> rw [h1, h2, k1, k2]
  · have := hp l; have := hp' l; constructor <;> intro <;> omega
  · have := hp l; have := hp' l; constructor <;> intro <;> omega
  · have := hp j; have := hp' j; constructor <;> intro <;> omega
  · have := hp j; have := hp' j; constructor <;> intro <;> omega
  · rw [hinj.eq_iff, hinj'.eq_iff]

/-- What is stored for a value which depends on one variable. -/
theorem single (h : Alike ids ids' mom x y) (hinj : Function.Injective ids) (hinj' : Function.Injective ids') :
    (∃ j d d', x.hg.diagmap = [(ids j, d)] ∧ y.hg.diagmap = [(ids' j, d')] ∧ d.grad = d'.grad ∧ d.hhess = d'.hhess) ∨
      (x.hg.diagmap.length ≠ 1 ∧ y.hg.diagmap.length ≠ 1) := by
  have hs := h.size hinj hinj'
  unfold HessGrad.size at hs
  by_cases h1 : x.hg.diagmap.length = 1
  · left
    obtain ⟨⟨i, d⟩, hx⟩ := List.length_eq_one_iff.1 h1
    obtain ⟨⟨i', d'⟩, hy⟩ := List.length_eq_one_iff.1 (hs ▸ h1)
    obtain ⟨j, rfl⟩ := h.tableX.vars i (by simp [HessGrad.vars, hx])
    have hj : ids' j ∈ y.hg.vars := (h.vars j).1 (by simp [HessGrad.vars, hx])
    obtain rfl : ids' j = i' := by simpa [HessGrad.vars, hy] using hj
    refine ⟨j, d, d', hx, hy, ?_, ?_⟩
    · have := h.G j
      simpa [HessGrad.G, hx, hy, find?] using this
    · have := h.H j j
      simpa [HessGrad.H, hx, hy, find?] using this
  · exact Or.inr ⟨h1, hs ▸ h1⟩

theorem grad (h : Alike ids ids' mom x y) (k : Alike ids ids' mom x' y') (hinj : Function.Injective ids) (hinj' : Function.Injective ids')
    (u : Moments ℝ) : UReal2.grad u x x' = UReal2.grad u y y' := by
  rcases k.single hinj hinj' with ⟨j, d, d', e, e', hd, -⟩ | ⟨h1, h2⟩
  · simp only [UReal2.grad, e, e', diagGet_grad, h.G, hd]
  · unfold UReal2.grad
    split
    · rename_i e; rw [e] at h1; simp at h1
    · split
      · rename_i e; rw [e] at h2; simp at h2
      · rfl

theorem hess {x'' y'' : UReal2 ℝ} (h : Alike ids ids' mom x y) (k : Alike ids ids' mom x' y') (l : Alike ids ids' mom x'' y'')
    (hinj : Function.Injective ids) (hinj' : Function.Injective ids') (u : Moments ℝ) : UReal2.hess u x x' x'' = UReal2.hess u y y' y'' := by
  rcases k.single hinj hinj' with ⟨j, d, d', e, e', hd, hh⟩ | ⟨h1, h2⟩
  · rcases l.single hinj hinj' with ⟨j2, d2, d2', e2, e2', hd2, hh2⟩ | ⟨h1, h2⟩
    · simp only [UReal2.hess, e, e', e2, e2', diagGet_grad, hhessGet_eq, h.G, h.H, hd, hh, hd2, hh2, ne_eq, hinj.eq_iff, hinj'.eq_iff]
    · unfold UReal2.hess
      split
      · rename_i e; rw [e] at h1; simp at h1
      · split
        · rename_i e; rw [e] at h2; simp at h2
        · rfl
  · unfold UReal2.hess
    split
    · rename_i e _; rw [e] at h1; simp at h1
    · split
      · rename_i e _; rw [e] at h2; simp at h2
      · rfl

theorem m (h : Alike ids ids' mom x y) (hinj : Function.Injective ids) (hinj' : Function.Injective ids') (k : ℕ) : x.m k = y.m k :=
  Mom.m_rename hinj hinj' h.tableX h.tableY h.G h.H k

theorem cov (h : Alike ids ids' mom x y) (k : Alike ids ids' mom x' y') (hinj : Function.Injective ids) (hinj' : Function.Injective ids') :
    x.cov x' = y.cov y' :=
  Mom.cov_rename hinj hinj' h.tableX h.tableY k.tableX k.tableY h.G h.H k.G k.H

end Alike

/-- All questions about `UReal2` variables have the same answers. -/
theorem sameSecond_alike {n : ℕ} {ids ids' : Fin n → VId} {mom : Fin n → Moments ℝ} (hinj : Function.Injective ids) (hinj' : Function.Injective ids')
    (hp : ∀ j, 1 ≤ ids j) (hp' : ∀ j, 1 ≤ ids' j) {w w' : MWorld ℝ} (h : ∀ r, Alike ids ids' mom (w.second r) (w'.second r)) :
    SameSecond (fun _ => True) w w' where
  first q _ := (h q).mu
  n q p _ := by unfold UReal2.n; rw [(h q).m hinj hinj', (h q).mu]
  m q k _ := (h q).m hinj hinj' k
  s q _ := by unfold UReal2.s; rw [(h q).m hinj hinj']
  skew q _ := by unfold UReal2.skew UReal2.s; rw [(h q).m hinj hinj', (h q).m hinj hinj']
  kurt q _ := by unfold UReal2.kurt; rw [(h q).m hinj hinj', (h q).m hinj hinj']
  isindep q _ := by unfold UReal2.isindep; rw [(h q).size hinj hinj']
  cov q r _ _ := (h q).cov (h r) hinj hinj'
  corr q r _ _ := by unfold UReal2.corr UReal2.s; rw [(h q).cov (h r) hinj hinj', (h q).m hinj hinj', (h r).m hinj hinj']
  grad u q r _ _ := (h q).grad (h r) hinj hinj' u
  hess u q r l _ _ _ := (h q).hess (h r) (h l) hinj hinj' u
  indepid q r _ _ := (h q).indepid (h r) hinj hinj' hp hp'

end Unc
