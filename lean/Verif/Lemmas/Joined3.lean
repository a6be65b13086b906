import Verif.Lemmas.Joined2

/-!
# The variables of two runs which see them under different names
-/

namespace Unc
open Unc.Spec Unc.Props SMap HessGrad

section
variable {f : ℤ → ℤ}

theorem G_shift (h : Shift f) (hg : HessGrad ℝ) (i : ℤ) : (hg.shift f).G (f i) = hg.G i := by
  rw [← diagGet_grad exN, diagGet_shift h, diagGet_grad]

theorem H_shift (h : Shift f) (hg : HessGrad ℝ) (i j : ℤ) : (hg.shift f).H (f i) (f j) = hg.H i j := by
  have := hhessGet_shift h exN hg i j
  rw [hhessGet_eq, hhessGet_eq] at this
  exact Option.some_inj.1 this

theorem vars_shift (hg : HessGrad ℝ) : (hg.shift f).vars = hg.vars.image f := by
  ext i
  simp [HessGrad.vars, HessGrad.shift, SMap.mapKey, keys]

theorem momOf_shift (h : Shift f) (hg : HessGrad ℝ) (i : ℤ) : (hg.shift f).momOf (f i) = hg.momOf i := by
  unfold HessGrad.momOf HessGrad.shift
  simp only [find?_mapKey h.mono.injective]

end

theorem mem_vars_of_momOf {hg : HessGrad ℝ} {i : VId} {m : Moments ℝ} (h : hg.momOf i = some m) : i ∈ hg.vars := by
  by_contra hi
  unfold HessGrad.momOf at h
  rw [find?_eq_none.2 fun hk => hi (mem_vars_keys.2 hk)] at h
  simp at h

/-- If the values of two runs have the same variables under different names, there is a table of the names. -/
theorem table_of_shift {v w w' : Reg → UReal2 ℝ} {f f' : Reg → ℤ → ℤ} (hf : ∀ r, Shift (f r)) (hf' : ∀ r, Shift (f' r))
    (hw : ∀ r, w r = (v r).shift (f r)) (hw' : ∀ r, w' r = (v r).shift (f' r)) (ok : ∀ r, Ok2 (w r)) (ok' : ∀ r, Ok2 (w' r))
    (key : ∀ r, ∀ k ∈ (v r).hg.vars, ∀ q, ∀ l ∈ (v q).hg.vars, f r k = f q l ↔ f' r k = f' q l) {M M' : ℤ}
    (bd : ∀ r, ∀ i ∈ (w r).hg.vars, 1 ≤ i ∧ i ≤ M) (bd' : ∀ r, ∀ i ∈ (w' r).hg.vars, 1 ≤ i ∧ i ≤ M') {tab : ℤ → Moments ℝ}
    (ht : ∀ r i m, (w r).hg.momOf i = some m → m = tab i) :
    ∃ (n : ℕ) (ids ids' : Fin n → VId) (mom : Fin n → Moments ℝ), Function.Injective ids ∧ Function.Injective ids' ∧
      (∀ j, 1 ≤ ids j ∧ ids j ≤ M) ∧ (∀ j, 1 ≤ ids' j ∧ ids' j ≤ M') ∧ ∀ r, Alike ids ids' mom (w r) (w' r) := by
  have vw : ∀ r, (w r).hg.vars = (v r).hg.vars.image (f r) := fun r => by rw [hw]; exact vars_shift _
  have vw' : ∀ r, (w' r).hg.vars = (v r).hg.vars.image (f' r) := fun r => by rw [hw']; exact vars_shift _
  let T : Set (ℤ × ℤ) := {p | ∃ r k, k ∈ (v r).hg.vars ∧ p = (f r k, f' r k)}
  have hT : T.Finite := by
    refine Set.Finite.subset ((Set.finite_Icc 1 M).prod (Set.finite_Icc 1 M')) ?_
    rintro p ⟨r, k, hk, rfl⟩
    exact ⟨bd r _ (by rw [vw]; exact Finset.mem_image_of_mem _ hk), bd' r _ (by rw [vw']; exact Finset.mem_image_of_mem _ hk)⟩
  let e := hT.toFinset.equivFin
  have mem : ∀ j, ∃ r k, k ∈ (v r).hg.vars ∧ ((e.symm j).1).1 = f r k ∧ ((e.symm j).1).2 = f' r k := by
    intro j
    obtain ⟨r, k, hk, h⟩ := hT.mem_toFinset.1 (e.symm j).2
    exact ⟨r, k, hk, by rw [h], by rw [h]⟩
  have sur : ∀ r, ∀ k ∈ (v r).hg.vars, ∃ j, ((e.symm j).1).1 = f r k ∧ ((e.symm j).1).2 = f' r k := by
    intro r k hk
    refine ⟨e ⟨(f r k, f' r k), hT.mem_toFinset.2 ⟨r, k, hk, rfl⟩⟩, ?_, ?_⟩ <;> simp
  have at_ : ∀ j r, (∃ k ∈ (v r).hg.vars, ((e.symm j).1).1 = f r k ∧ ((e.symm j).1).2 = f' r k) ∨
      (((e.symm j).1).1 ∉ (w r).hg.vars ∧ ((e.symm j).1).2 ∉ (w' r).hg.vars) := by
    intro j r
    obtain ⟨q, l, hl, h1, h2⟩ := mem j
    by_cases hc : ∃ k ∈ (v r).hg.vars, f r k = f q l
    · obtain ⟨k, hk, h⟩ := hc
      exact Or.inl ⟨k, hk, h1.trans h.symm, h2.trans ((key r k hk q l hl).1 h).symm⟩
    · refine Or.inr ⟨fun hm => hc ?_, fun hm => hc ?_⟩
      · rw [vw, h1] at hm
        obtain ⟨k, hk, h⟩ := Finset.mem_image.1 hm
        exact ⟨k, hk, h⟩
      · rw [vw', h2] at hm
        obtain ⟨k, hk, h⟩ := Finset.mem_image.1 hm
        exact ⟨k, hk, (key r k hk q l hl).2 h⟩
  refine ⟨_, fun j => ((e.symm j).1).1, fun j => ((e.symm j).1).2, fun j => tab ((e.symm j).1).1, fun a b hab => ?_, fun a b hab => ?_, fun j => ?_, fun j => ?_,
    fun r => ⟨⟨ok r, fun i m hm => ?_⟩, ⟨ok' r, fun i m hm => ?_⟩, ?_, fun j => ?_, fun j k => ?_, fun j => ?_⟩⟩
  · obtain ⟨r, k, hk, h1, h2⟩ := mem a
    obtain ⟨q, l, hl, h3, h4⟩ := mem b
    simp only [h1, h3] at hab
    have := (key r k hk q l hl).1 hab
    apply e.symm.injective
    apply Subtype.ext
    apply Prod.ext
    · rw [h1, h3, hab]
    · rw [h2, h4, this]
  · obtain ⟨r, k, hk, h1, h2⟩ := mem a
    obtain ⟨q, l, hl, h3, h4⟩ := mem b
    simp only [h2, h4] at hab
    have := (key r k hk q l hl).2 hab
    apply e.symm.injective
    apply Subtype.ext
    apply Prod.ext
    · rw [h1, h3, this]
    · rw [h2, h4, hab]
  · obtain ⟨r, k, hk, h1, -⟩ := mem j
    simp only [h1]
    exact bd r _ (by rw [vw]; exact Finset.mem_image_of_mem _ hk)
  · obtain ⟨r, k, hk, -, h1⟩ := mem j
    simp only [h1]
    exact bd' r _ (by rw [vw']; exact Finset.mem_image_of_mem _ hk)
  · have hi : i ∈ (w r).hg.vars := mem_vars_of_momOf hm
    have hm' := ht r i m hm
    rw [vw] at hi
    obtain ⟨k, hk, rfl⟩ := Finset.mem_image.1 hi
    obtain ⟨j, h1, -⟩ := sur r k hk
    exact ⟨j, h1, by rw [hm', h1]⟩
  · have hi : i ∈ (w' r).hg.vars := mem_vars_of_momOf hm
    rw [vw'] at hi
    obtain ⟨k, hk, rfl⟩ := Finset.mem_image.1 hi
    obtain ⟨j, h1, h2⟩ := sur r k hk
    refine ⟨j, h2, ?_⟩
    rw [h1]
    apply ht r
    rw [hw] 
    rw [hw'] at hm
    exact (momOf_shift (hf r) _ k).trans ((momOf_shift (hf' r) _ k).symm.trans hm)
  · rw [hw, hw']; rfl
  · rcases at_ j r with ⟨k, -, h1, h2⟩ | ⟨h1, h2⟩
    · simp only [h1, h2]
      rw [hw, hw']
      exact (G_shift (hf r) _ k).trans (G_shift (hf' r) _ k).symm
    · rw [G_zero fun h => h1 (mem_vars_keys.2 h), G_zero fun h => h2 (mem_vars_keys.2 h)]
  · rcases at_ j r with ⟨a, -, h1, h2⟩ | ⟨h1, h2⟩
    · rcases at_ k r with ⟨b, -, h3, h4⟩ | ⟨h3, h4⟩
      · simp only [h1, h2, h3, h4]
        rw [hw, hw']
        exact (H_shift (hf r) _ a b).trans (H_shift (hf' r) _ a b).symm
      · rw [H_comm, H_zero (ok r).valid fun h => h3 (mem_vars_keys.2 h), H_comm, H_zero (ok' r).valid fun h => h4 (mem_vars_keys.2 h)]
    · rw [H_zero (ok r).valid fun h => h1 (mem_vars_keys.2 h), H_zero (ok' r).valid fun h => h2 (mem_vars_keys.2 h)]
  · rcases at_ j r with ⟨k, hk, h1, h2⟩ | ⟨h1, h2⟩
    · simp only [h1, h2]
      rw [vw, vw']
      exact ⟨fun _ => Finset.mem_image_of_mem _ hk, fun _ => Finset.mem_image_of_mem _ hk⟩
    · exact ⟨fun h => absurd h h1, fun h => absurd h h2⟩

end Unc
