import Verif.Spec.LdltFloat
import Verif.Props.FloatExact
import Verif.Props.UReals

/-! # The parts of `ureals` in floating point -/

namespace Unc.FloatUReals
open Unc Unc.Spec Unc.Props UReal UReals FP
variable {f : Fmt} {u : ℝ}

/-- values which the functions of `ureals` build -/
structure Fine (y : UReal (FP f)) : Prop where
  wf : y.WF
  below : y.Below maxId
  mu : y.mu = 0

theorem fine_const : Fine (UReal.default' : UReal (FP f)) :=
  ⟨wf_const 0, by intro i hi; simp [deps, UReal.default', UReal.const] at hi, rfl⟩

theorem addAssign_fine {x y : UReal (FP f)} (hx : Fine x) (hy : Fine y) :
    Fine (addAssign x y) ∧ (addAssign x y).deps = x.deps ∪ y.deps ∧ ∀ q, (addAssign x y).coef q = x.coef q + y.coef q := by
  refine ⟨⟨wf_binaryAssign hx.wf hy.wf _ _ _, ?_, ?_⟩, deps_binaryAssign hx.wf _ _ _, fun q => ?_⟩
  · intro i hi
    rw [addAssign, deps_binaryAssign hx.wf] at hi
    rcases Finset.mem_union.1 hi with h | h
    exacts [hx.below i h, hy.below i h]
  · change x.mu + y.mu = 0
    rw [hx.mu, hy.mu, fp_add_zero]
  · rw [addAssign, binaryAssign_coef hx.wf hy.wf, fp_one_mul, fp_one_mul]

theorem mul_fine (l : FP f) {x : UReal (FP f)} (hx : Fine x) :
    ∃ z, UReal.mul (UReal.const l) x = some z ∧ Fine z ∧ z.deps = x.deps ∧ ∀ q, z.coef q = l * x.coef q := by
  have bc : (UReal.const l).Below maxId := by intro i hi; simp [deps, UReal.const] at hi
  obtain ⟨z, hz, wz, dz, mz, -, -, cz⟩ := binary_coef (wf_const l) hx.wf bc hx.below ((UReal.const l).mu * x.mu) x.mu (UReal.const l).mu
  have dz' : z.deps = x.deps := by rw [dz]; simp [deps, UReal.const]
  refine ⟨z, hz, ⟨wz, ?_, ?_⟩, dz', fun q => ?_⟩
  · intro i hi; rw [dz'] at hi; exact hx.below i hi
  · rw [mz, hx.mu, fp_mul_comm, fp_zero_mul]
  · rw [cz, hx.mu, fp_zero_mul, fp_zero_add]
    rfl

/-- one element of the output before permutation -/
theorem mkOut_float {n : ℕ} (L : Fin n → Fin n → FP f) (x : Fin n → UReal (FP f)) (hx : ∀ i, Fine (x i)) {d : Fin n → ℤ} (hd : Function.Injective d)
    (hdeps : ∀ i, (x i).deps = {d i}) (hunit : ∀ i, L i i = 1) (hlow : ∀ i j, i < j → L i j = 0) (i : Fin n) :
    ∃ y, mkOut L x i = some y ∧ Fine y ∧ y.deps ⊆ Finset.univ.image d ∧ ∀ k, y.coef (d k) = L i k * (x k).coef (d k) := by
  have off : ∀ {a b}, a ≠ b → (x a).coef (d b) = 0 := by
    intro a b hab
    refine coef_of_not_mem ?_
    rw [hdeps, Finset.mem_singleton]
    exact fun h => hab (hd h).symm
  have m0 : ∀ a : FP f, a * 0 = 0 := fun a => by rw [fp_mul_comm, fp_zero_mul]
  have key : ∀ (js : List (Fin n)) (y0 : UReal (FP f)), js.Nodup → Fine y0 → y0.deps ⊆ Finset.univ.image d → (∀ j ∈ js, y0.coef (d j) = 0) →
      ∃ y, js.foldlM (fun y j => (UReal.mul (UReal.const (L i j)) (x j)).map (UReal.addAssign y)) y0 = some y ∧ Fine y ∧ y.deps ⊆ Finset.univ.image d ∧
        (∀ j ∈ js, y.coef (d j) = L i j * (x j).coef (d j)) ∧ ∀ j, j ∉ js → y.coef (d j) = y0.coef (d j) := by
    intro js
    induction js with
    | nil => intro y0 _ h0 hs _; exact ⟨y0, rfl, h0, hs, by simp, fun _ _ => rfl⟩
    | cons j t ih =>
      intro y0 hnd h0 hs hz
      obtain ⟨hj, ht⟩ := List.nodup_cons.1 hnd
      obtain ⟨z, ez, oz, dz, cz⟩ := mul_fine (L i j) (hx j)
      obtain ⟨o1, d1, c1⟩ := addAssign_fine h0 oz
      have c2 : ∀ k, k ≠ j → (addAssign y0 z).coef (d k) = y0.coef (d k) := by
        intro k hk
        rw [c1, cz, off (Ne.symm hk), m0, fp_add_zero]
      obtain ⟨y, e, oy, sy, cy, ny⟩ := ih (addAssign y0 z) ht o1 (by
        rw [d1, dz, hdeps]
        refine Finset.union_subset hs ?_
        rw [Finset.singleton_subset_iff]
        exact Finset.mem_image_of_mem _ (Finset.mem_univ _)) (by
          intro k hk
          rw [c2 k (fun h => hj (h ▸ hk))]
          exact hz k (List.mem_cons_of_mem _ hk))
      refine ⟨y, ?_, oy, sy, ?_, ?_⟩
      · simp only [List.foldlM_cons, ez]
        exact e
      · intro k hk
        by_cases hkj : k = j
        · subst hkj
          rw [ny k hj, c1, hz k List.mem_cons_self, cz, fp_zero_add]
        · exact cy k ((List.mem_cons.1 hk).resolve_left hkj)
      · intro k hk
        obtain ⟨h1, h2⟩ := not_or.1 (fun h => hk (List.mem_cons.2 h))
        rw [ny k h2, c2 k h1]
  have z0 : ∀ q, (UReal.default' : UReal (FP f)).coef q = 0 := fun q => by simp [coef, UReal.default', UReal.const]
  obtain ⟨y, e, oy, sy, cy, ny⟩ := key ((List.finRange n).filter (· < i)) UReal.default' ((List.nodup_finRange n).filter _) fine_const
    (by simp [deps, UReal.default', UReal.const]) (fun j _ => z0 _)
  obtain ⟨o1, d1, c1⟩ := addAssign_fine oy (hx i)
  refine ⟨addAssign y (x i), by simp [mkOut, e], o1, ?_, fun k => ?_⟩
  · rw [d1, hdeps]
    refine Finset.union_subset sy ?_
    rw [Finset.singleton_subset_iff]
    exact Finset.mem_image_of_mem _ (Finset.mem_univ _)
  · rw [c1]
    rcases lt_trichotomy k i with h | h | h
    · rw [cy k (by simp [h]), off h.ne', fp_add_zero]
    · subst h
      rw [ny k (by simp), z0, hunit, fp_one_mul, fp_zero_add]
    · rw [ny k (by simp [h.le]), z0, hlow _ _ h, fp_zero_mul, off h.ne, fp_add_zero]

/-- the independent variables -/
theorem mkX_float (last n : ℕ) (hl : last + n < 2147483647) (D : Fin n → FP f) (hD : ∀ i, 0 ≤ (D i).val) :
    ∃ (x : Fin n → UReal (FP f)) (d : Fin n → ℤ), mkX (last : ℤ) D = some (.ok x) ∧ Function.Injective d ∧ (∀ i, Fine (x i)) ∧ (∀ i, (x i).deps = {d i}) ∧
      ∀ i, (x i).coef (d i) = CSqrt.sqrt (D i) := by
  obtain ⟨g, hg⟩ : ∃ g : ℕ → ℤ, ∀ k, g k = nextId^[k] (last : ℤ) := ⟨_, fun _ => rfl⟩
  have hid : ∀ i : Fin n, g (i.1 + 1) = ((last + (i.1 + 1) : ℕ) : ℤ) := fun i => by
    rw [hg]; exact iterate_nextId_from _ _ (by have := i.2; omega)
  have hidpos : ∀ i : Fin n, 0 < g (i.1 + 1) := fun i => by rw [hid]; push_cast; omega
  refine ⟨fun i => ⟨g (i.1 + 1), CSqrt.sqrt (D i), 0, []⟩, fun i => g (i.1 + 1), ?_, ?_, ?_, ?_, ?_⟩
  · unfold mkX
    rw [if_pos (fun i => (leb_fp _ _).2 (hD i)), if_pos]
    · simp only [hg]
    · intro i
      rw [← Bool.not_eq_true, ltb_fp, val_sqrt]
      exact not_lt.2 (f.rd_nonneg (Real.sqrt_nonneg _))
  · intro i j h
    simp only [hid] at h
    ext; push_cast at h; omega
  · intro i
    refine ⟨⟨fun h => absurd h (hidpos i).ne', fun _ => rfl, by simp, by simp⟩, ?_, rfl⟩
    intro k hk
    simp only [deps, hidpos i, if_true, Finset.mem_singleton] at hk
    have h2 := i.2
    have h3 : k = ((last + (i.1 + 1) : ℕ) : ℤ) := hk.trans (hid i)
    rw [h3]
    unfold maxId
    omega
  · intro i; simp [deps, hidpos i]
  · intro i; simp [coef, hidpos i]

end Unc.FloatUReals
