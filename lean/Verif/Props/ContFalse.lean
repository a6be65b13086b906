import Verif.Props.Cont
import Verif.Props.Order

/-!
# C98: the uncertainty of `sin(x * y + z)` jumps
-/

namespace Unc.Props
open Unc Unc.Spec Unc.Cont SMap HessGrad Filter Topology

/-- `sin(x * y + z)` -/
noncomputable def jumpProg : List Node2 :=
  [.bin (UReal2.mul exN) (fun s t => s * t) 0 1, .bin (UReal2.add exN) (fun s t => s + t) 3 2, .un (UMath2.sin exN) Real.sin 4]

/-- **C98** Second order: `sin(x * y + z)` with standard normal errors, `x` and `y` with mean 0, `z` with mean `t`, created between `x` and `y`.  For `t = 0` the variance is 2,
which is right, and for all `t` near 0 it is near 1, while the right one is `2 cos² t + sin² t / 2`: the library decides by whether the second derivative
of the sine is 0 how it goes over the Hessian. -/
theorem C98_jump (t : ℝ) : ∃ x, result2 jumpProg ![1, 3, 2] (fun _ => exN) 5 (![0, 0, t], 1) = some x ∧
    x.var = some (if Real.sin t = 0 then 2 else Real.cos t ^ 2 + Real.sin t ^ 2 / 2) := by
  have oi : Ok2 (elem2 1 0 1 exN) := ok_elem2 (by decide) 0 1 exN
  have oj : Ok2 (elem2 3 0 1 exN) := ok_elem2 (by decide) 0 1 exN
  have ok : Ok2 (elem2 2 t 1 exN) := ok_elem2 (by decide) t 1 exN
  obtain ⟨P, eP, oP⟩ := C21_binary oi oj (0 * 0 : ℝ) 0 0 0 0 1
  have hP : UReal2.mul exN (elem2 1 0 1 exN) (elem2 3 0 1 exN) = some P := eP exN
  obtain ⟨mP, GP, DP⟩ := C23_mul oi oj hP
  have vP : P.hg.vars = {1} ∪ {3} := by
    rw [(C22_binary oi oj hP).2.2.1]; simp [elem2, HessGrad.vars]
  obtain ⟨W, eW, oW⟩ := C21_binary oP ok (P.mu + (elem2 2 t 1 exN).mu) 1 1 0 0 0
  have hW : UReal2.add exN P (elem2 2 t 1 exN) = some W := eW exN
  obtain ⟨mW, GW, DW⟩ := C23_add oP ok hW
  have vW : W.hg.vars = {1} ∪ {3} ∪ {2} := by
    rw [(C22_binary oP ok hW).2.2.1, vP]; simp [elem2, HessGrad.vars]
  have mWt : W.mu = t := by rw [mW, mP]; simp [elem2]
  have gP : ∀ a, P.hg.G a = 0 := fun a => by rw [GP]; simp [elem2]
  have gW : ∀ a, W.hg.G a = if 2 = a then 1 else 0 := fun a => by rw [GW, gP, G_elem2]; simp
  have hmem : ∀ c, c ∈ keys W.hg.diagmap ↔ c = 1 ∨ c = 3 ∨ c = 2 := by
    intro c
    have : c ∈ W.hg.vars ↔ c ∈ ({1} ∪ {3} ∪ {2} : Finset VId) := by rw [vW]
    simpa [HessGrad.vars, or_assoc] using this
  have dW : ∀ a b, D2 W a b = (if a = 1 ∧ b = 3 then 1 else 0) + if a = 3 ∧ b = 1 then 1 else 0 := by
    intro a b
    rw [DW, DP, G_elem2, G_elem2, G_elem2, G_elem2]
    simp only [D2, H_elem2]
    have e1 : ∀ c : VId, (if (1 : VId) = c then (1 : ℝ) else 0) = if c = 1 then 1 else 0 := fun c => if_congr eq_comm rfl rfl
    have e3 : ∀ c : VId, (if (3 : VId) = c then (1 : ℝ) else 0) = if c = 3 then 1 else 0 := fun c => if_congr eq_comm rfl rfl
    rw [e1, e1, e3, e3, ite_and, ite_and]
    split_ifs <;> simp
  obtain ⟨z, ez, oz⟩ := C21_unary oW (Real.sin W.mu) (Real.cos W.mu) (-Real.sin W.mu)
  have hz : UMath2.sin exN W = some z := ez exN
  have hu : UReal2.unary exN W (Real.sin t) (Real.cos t) (-Real.sin t) = some z := by have := ez exN; rwa [mWt] at this
  refine ⟨z, by simp [result2, jumpProg, evalU2, hP, hW, hz], ?_⟩
  have vz : z.hg.vars = {1} ∪ {3} ∪ {2} := by rw [(C22_unary oW hu).2.2.1, vW]
  have Gz : ∀ a, z.hg.G a = if 2 = a then Real.cos t else 0 := by
    intro a
    rw [(C22_unary oW hu).2.1, gW]; split_ifs <;> simp
  have hdiag : ∀ a, z.hg.H a a = if 2 = a then -Real.sin t / 2 else 0 := by
    intro a
    have : D2 z a a = -Real.sin t * W.hg.G a ^ 2 + Real.cos t * D2 W a a := by
      by_cases h0 : -Real.sin t = 0
      · rw [C23_unary_partial oW (Or.inl h0) hu, h0]; ring
      · exact (C23_unary_behaviour oW h0 hu).1 a
    have h1 : ¬ (a = 1 ∧ a = 3) := fun h => absurd (h.1.symm.trans h.2) (by decide)
    have h2 : ¬ (a = 3 ∧ a = 1) := fun h => absurd (h.1.symm.trans h.2) (by decide)
    rw [dW, gW, if_neg h1, if_neg h2, D2] at this
    split_ifs at this ⊢ <;> linarith
  have hoff : ∀ a b, a ≠ b → ¬ (a = 1 ∧ b = 3) → ¬ (a = 3 ∧ b = 1) → z.hg.H a b = 0 := by
    intro a b hab h1 h2
    have hw := dW a b
    rw [if_neg h1, if_neg h2, D2] at hw
    refine unary_H_zero oW.valid hu ?_ (by linarith)
    rw [gW, gW]
    rcases ne_or_eq 2 a with h | h
    · simp [h]
    · have : 2 ≠ b := fun h' => hab (h.symm.trans h')
      simp [this]
  have hmix : 2 * z.hg.H 1 3 = if Real.sin t = 0 then Real.cos t else 0 := by
    change D2 z 1 3 = _
    split_ifs with h0
    · rw [C23_unary_partial oW (Or.inl (by rw [h0, neg_zero])) hu, dW, h0]; simp
    · rw [(C23_unary_behaviour oW (neg_ne_zero.2 h0) hu).2 1 3 (by decide), if_neg]
      rw [nextIn_eq oW.valid.dsorted (b := 2) (by decide) ((hmem 2).2 (by simp)) ?_]
      · decide
      · intro c hc hic
        rcases (hmem c).1 hc with rfl | rfl | rfl
        · exact absurd hic (lt_irrefl _)
        · decide
        · exact le_rfl
  have hm : ∀ a m, z.hg.momOf a = some m → (0 : ℝ) = m.v3 ∧ (3 : ℝ) = m.v4 := by
    intro a m h
    rw [(C22_unary oW hu).2.2.2, (C22_binary oP ok hW).2.2.2, (C22_binary oi oj hP).2.2.2] at h
    have : m = exN := by
      simp only [momOf, elem2, find?] at h
      split_ifs at h <;> simp at h <;> exact h.symm
    subst this
    simp [exN]
  rw [C25_closed oz.valid (fun _ => 0) (fun _ => 3) hm, vz]
  have e1 : ({1} ∪ {3} ∪ {2} : Finset VId) = insert 1 (insert 3 {2}) := by decide
  have h13 : (1 : VId) ∉ insert 3 ({2} : Finset VId) := by decide
  have h32 : (3 : VId) ∉ ({2} : Finset VId) := by decide
  rw [e1]
  simp only [Finset.sum_insert h13, Finset.sum_insert h32, Finset.sum_singleton, Gz, hdiag]
  rw [hoff 1 2 (by decide) (by decide) (by decide), hoff 2 3 (by decide) (by decide) (by decide), hmix]
  norm_num
  have := Real.sin_sq_add_cos_sq t
  split_ifs with h0
  · rw [h0] at this ⊢
    linarith
  · ring

example : ∃ x, result2 jumpProg ![1, 3, 2] (fun _ => exN) 5 (![0, 0, 0], 1) = some x ∧ x.var = some 2 := by
  obtain ⟨x, h, v⟩ := C98_jump 0
  exact ⟨x, h, by simpa using v⟩

example : ∃ x, result2 jumpProg ![1, 3, 2] (fun _ => exN) 5 (![0, 0, Real.pi / 6], 1) = some x ∧ x.var = some (7 / 8) := by
  obtain ⟨x, h, v⟩ := C98_jump (Real.pi / 6)
  refine ⟨x, h, v.trans ?_⟩
  rw [Real.sin_pi_div_six, Real.cos_pi_div_six, if_neg (by norm_num), div_pow, Real.sq_sqrt (by norm_num)]
  norm_num

/-- **C98** is false at second order: the standard deviation of `sin(x * y + z)` is not a continuous function of the mean of `z`. -/
theorem C98_second_false : ¬ C98_second_statement := by
  intro h
  have h1 := h 3 ![1, 3, 2] (fun _ => exN) jumpProg 5 (fun v => Real.sin (v 0 * v 1 + v 2)) (0, 1) (by decide) (by decide) (by simp [jumpProg])
    (Eventually.of_forall fun mu => ⟨by simp, by simp, C35_mul _ _ _, by simp, by simp, C35_add _ _ _, by simp, C35_sin _ _, trivial⟩)
    (fun y => by simp [jumpProg, evalR2, List.ofFn_succ]) (by fun_prop)
  obtain ⟨g, hg, hc⟩ := h1.var
  have path : Tendsto (fun t : ℝ => ((![0, 0, t], 1) : Data 3)) (𝓝 0) (𝓝 (0, 1)) := by
    have : ContinuousAt (fun t : ℝ => ((![0, 0, t], 1) : Data 3)) 0 := by
      refine ContinuousAt.prodMk (continuousAt_pi.2 fun i => ?_) continuousAt_const
      fin_cases i <;> simp <;> fun_prop
    have e : ((![0, 0, (0 : ℝ)], 1) : Data 3) = (0, 1) := by
      refine Prod.ext (funext fun i => ?_) rfl
      fin_cases i <;> rfl
    rw [ContinuousAt, e] at this
    exact this
  have val : ∀ᶠ t : ℝ in 𝓝 0, g (![0, 0, t], 1) = if Real.sin t = 0 then 2 else Real.cos t ^ 2 + Real.sin t ^ 2 / 2 := by
    filter_upwards [path.eventually hg] with t ht
    obtain ⟨x, ex, hx⟩ := C98_jump t
    rw [ex, Option.bind_some, hx] at ht
    exact (Option.some_inj.1 ht).symm
  have v0 := val.self_of_nhds
  have e0 : ((![0, 0, (0 : ℝ)], 1) : Data 3) = (0, 1) := by
    refine Prod.ext (funext fun i => ?_) rfl
    fin_cases i <;> rfl
  rw [e0, Real.sin_zero, if_pos rfl] at v0
  have lim : ∀ᶠ t : ℝ in 𝓝 0, 1 < g (![0, 0, t], 1) := (hc.tendsto.comp path).eventually (lt_mem_nhds (by rw [v0]; norm_num))
  have small : ∀ᶠ t : ℝ in 𝓝[>] 0, t < 1 ∧ 0 < t := by
    filter_upwards [Ioo_mem_nhdsGT (show (0 : ℝ) < 1 by norm_num)] with t ht using ⟨ht.2, ht.1⟩
  obtain ⟨t, ⟨ht1, ht0⟩, hl, hv⟩ := (small.and ((lim.and val).filter_mono nhdsWithin_le_nhds)).exists
  have hs := Real.sin_pos_of_pos_of_le_one ht0 ht1.le
  rw [hv, if_neg hs.ne'] at hl
  have := Real.sin_sq_add_cos_sq t
  nlinarith [sq_nonneg (Real.sin t)]

end Unc.Props
