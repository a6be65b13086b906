import Verif.Props.Algebra2
import Verif.Props.Error2Ratio
import Verif.Props.FloatFail2
import Verif.Props.FloatMatrix

/-!
# C95: the covariance matrix of second-order values but for the rounding
-/

namespace Unc.Props
open Unc Unc.Spec FP HessGrad Stat

variable {f : Fmt} {u : ℝ}

/-- **C95** The covariance matrix of second-order values computed with rounding, for possible moments: each element has the error of C80_cov, and the quadratic form is not less than minus these errors. -/
theorem C95_second_partial (hu : Acc f.rd u) (hh : HasHalf f) {tab : VId → Moments ℝ} {x : List (UReal2 (FP f))} (hx : ∀ a ∈ x, Ok2 a)
    (hm : ∀ a ∈ x, ∀ i m, (numbers FP.val a).hg.momOf i = some m → m = tab i) (hs : ∀ a ∈ x, SoundMoments (numbers FP.val a).hg) (hn : x.length < 4294967296) :
    ∃ m, covMatrix2 x = some m ∧ m.length = x.length * x.length ∧ ∃ (M : Fin x.length → Fin x.length → FP f) (A W : Fin x.length → Fin x.length → ℝ),
      (∀ i j : Fin x.length, m[x.length * i.1 + j.1]? = some (M i j)) ∧ (∀ i j, (numbers FP.val x[i]).cov (numbers FP.val x[j]) = some (A i j)) ∧
      (∀ i j, magnitudeCov (numbers (fun a => |a.val|) x[i]) (numbers (fun a => |a.val|) x[j]) = some (W i j)) ∧
      (∀ i j, |(M i j).val - A i j| ≤ relErr u (covRounds (x[i]).hg.diagmap.length (x[i]).hg.trimap.length (x[j]).hg.diagmap.length) * W i j) ∧
      ∀ c : Fin x.length → ℝ, -(∑ i, ∑ j, |c i| * |c j| * (relErr u (covRounds (x[i]).hg.diagmap.length (x[i]).hg.trimap.length (x[j]).hg.diagmap.length) * W i j)) ≤
        ∑ i, ∑ j, c i * c j * (M i j).val := by
  have hmem : ∀ i : Fin x.length, x[i] ∈ x := fun i => List.getElem_mem _
  have key : ∀ a ∈ x, ∀ b ∈ x, ∃ M A W, UReal2.cov a b = some M ∧ (numbers FP.val a).cov (numbers FP.val b) = some A ∧
      magnitudeCov (numbers (fun a => |a.val|) a) (numbers (fun a => |a.val|) b) = some W ∧
      |M.val - A| ≤ relErr u (covRounds a.hg.diagmap.length a.hg.trimap.length b.hg.diagmap.length) * W := by
    intro a ha b hb
    have henv : ∀ i : ℕ, Ok2 (if i = 0 then a else b) := fun i => by split_ifs; exacts [hx a ha, hx b hb]
    obtain ⟨M, A, W, h1, h2, h3, -, h4⟩ := C80_cov (c := .leaf 0) (c' := .leaf 1) hu hh henv trivial trivial (v := ⟨0, 0, 0, 0, 0, 0⟩) (v' := ⟨0, 0, 0, 0, 0, 0⟩) (v'' := ⟨0, 0, 0, 0, 0, 0⟩) rfl rfl rfl rfl rfl rfl
    refine ⟨M, A, W, h1, h2, ?_, ?_⟩
    · have n2 : ∀ a : UReal2 (FP f), numbers (fun t : ℝ => |t|) (numbers FP.val a) = numbers (fun a => |a.val|) a := fun a => by simp [numbers, Function.comp_def]
      rw [← n2, ← n2]; exact h3
    · simpa [CalcF.rounds] using h4
  obtain ⟨m, e, hl, h⟩ := matrix2_entries x UReal2.cov (fun a ha b hb => by obtain ⟨M, -, -, h1, -⟩ := key a ha b hb; exact ⟨M, h1⟩) hn
  have key' := fun i j : Fin x.length => key x[i] (hmem i) x[j] (hmem j)
  choose M A W h1 h2 h3 h4 using key'
  refine ⟨m, e, hl, M, A, W, fun i j => (h i j).trans (h1 i j), h2, h3, h4, fun c => ?_⟩
  have hlen : (x.map (numbers FP.val)).length = x.length := by simp
  obtain ⟨-, -, -, P, -, hP, -, -, psd⟩ := C53_cov_matrix (tab := tab) (x.map (numbers FP.val))
    (by simp only [List.mem_map]; rintro _ ⟨a, ha, rfl⟩; exact (ok_mapU FP.val (hx a ha)).valid)
    (by simp only [List.mem_map]; rintro _ ⟨a, ha, rfl⟩; exact hm a ha)
    (by simp only [List.mem_map]; rintro _ ⟨a, ha, rfl⟩; exact hs a ha) (by rwa [hlen])
  have q := psd fun i => c (finCongr hlen i)
  have hPA : ∀ i j, P i j = A (finCongr hlen i) (finCongr hlen j) := fun i j => by
    have a := hP i j
    have b := h2 (finCongr hlen i) (finCongr hlen j)
    simp at a b
    exact Option.some.inj (a.symm.trans b)
  have q' : 0 ≤ ∑ i, ∑ j, c i * c j * A i j := by
    rw [← Equiv.sum_comp (finCongr hlen)]
    simp_rw [← Equiv.sum_comp (finCongr hlen) (fun j => c _ * c j * A _ j)]
    simpa only [hPA] using q
  have r : ∑ i, ∑ j, c i * c j * A i j - ∑ i, ∑ j, |c i| * |c j| * (relErr u (covRounds (x[i]).hg.diagmap.length (x[i]).hg.trimap.length (x[j]).hg.diagmap.length) * W i j) ≤
      ∑ i, ∑ j, c i * c j * (M i j).val := by
    rw [← Finset.sum_sub_distrib]
    refine Finset.sum_le_sum fun i _ => ?_
    rw [← Finset.sum_sub_distrib]
    refine Finset.sum_le_sum fun j _ => ?_
    have := mul_le_mul_of_nonneg_left (h4 i j) (mul_nonneg (abs_nonneg (c i)) (abs_nonneg (c j)))
    rw [← abs_mul, ← abs_mul, mul_sub] at this
    have := (abs_le.1 this).1
    rw [abs_mul] at this
    linarith
  linarith

/-! ## example -/

/-- two values with a variable in common, each ± its standard deviation, and second derivatives -/
noncomputable def exTwo2 : List (UReal2 (FP binary64)) :=
  [⟨⟨[(1, ⟨third, third, coinF binary64⟩), (2, ⟨third, 0, coinF binary64⟩)], []⟩, third⟩, ⟨⟨[(2, ⟨third, third, coinF binary64⟩)], []⟩, 0⟩]

theorem exTwo2_ok : ∀ a ∈ exTwo2, Ok2 a := by
  simp only [exTwo2, List.mem_cons, List.not_mem_nil, or_false, forall_eq_or_imp, forall_eq]
  exact ⟨⟨⟨by simp [SMap.Sorted], .nil, by simp⟩, by simp [HessGrad.Below, SMap.keys, maxId]⟩, ⟨⟨by simp [SMap.Sorted], .nil, by simp⟩, by simp [HessGrad.Below, SMap.keys, maxId]⟩⟩

theorem exTwo2_mom : ∀ a ∈ exTwo2, ∀ i m, (numbers FP.val a).hg.momOf i = some m → m = ⟨0, 1, 0, 1, 0, 1⟩ := by
  simp only [exTwo2, List.mem_cons, List.not_mem_nil, or_false, forall_eq_or_imp, forall_eq]
  constructor
  all_goals
    intro i m h
    simp [numbers, HessGrad.momOf, coinF, SMap.find?, List.find?] at h
    first
    | exact h.2.symm
    | (split_ifs at h <;> simp_all)

/-- the elements of their matrix and the quadratic form -/
example : ∃ m, covMatrix2 exTwo2 = some m ∧ m.length = 4 ∧ ∃ (M : Fin 2 → Fin 2 → FP binary64) (W : Fin 2 → Fin 2 → ℝ), (∀ i j : Fin 2, m[2 * i.1 + j.1]? = some (M i j)) ∧
    ∀ c : Fin 2 → ℝ, -(∑ i : Fin 2, ∑ j : Fin 2, |c i| * |c j| * (relErr ((1 / 2) ^ 53) (covRounds (exTwo2[i]).hg.diagmap.length (exTwo2[i]).hg.trimap.length (exTwo2[j]).hg.diagmap.length) * W i j)) ≤
      ∑ i : Fin 2, ∑ j : Fin 2, c i * c j * (M i j).val := by
  obtain ⟨m, e, hl, M, A, W, h1, -, -, -, h5⟩ := C95_second_partial acc_double (C80_half _) (tab := fun _ => ⟨0, 1, 0, 1, 0, 1⟩) exTwo2_ok exTwo2_mom
    (fun a ha i m h => Or.inl (by rw [exTwo2_mom a ha i m h]; norm_num)) (by norm_num [exTwo2])
  exact ⟨m, e, hl, M, W, h1, h5⟩

end Unc.Props
