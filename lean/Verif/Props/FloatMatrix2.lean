import Verif.Model.Stat2
import Verif.Props.FloatFail2
import Verif.Props.FloatMatrix

/-!
# C95: covariance matrices of second-order values in `double`
-/

namespace Unc.Props
open Unc Unc.Spec FP Mom HessGrad Stat UReals

theorem coin_cov {f : Fmt} (a b : FP f) : let z : UReal2 (FP f) := ⟨⟨[(1, ⟨0, a, coinF f⟩), (2, ⟨0, b, coinF f⟩)], []⟩, 0⟩
    UReal2.cov z z = some (a * a + b * b + a * b + b * a - (a + b) * (a + b)) := by
  intro z
  have h : z.hg.triEntries true = some [] := rfl
  unfold z coinF at h ⊢
  simp [UReal2.cov, UReal2.m, UReal2.momArray, UReal2.updateMom, Mom.compute, Mom.m1, Mom.c2, h, Mom.c2A, Mom.c2B, Mom.c2C, fp_zero_mul, fp_mul_zero, fp_add_zero, fp_zero_add, fp_mul_one]

/-- **C95**, what fails at second order: the covariance matrix of one value, `x * x + y * y`, where `x` and `y` are ±23203 and ±1 with equal probability, is the number -64 in `double`;
`ureals` with a decomposition without errors refuses this matrix. -/
theorem C95_second_false (u : Moments (FP binary64)) : ∃ X Y Z : UReal2 (FP binary64), ∃ v : FP binary64,
    UReal2.mul u (coinVar 1 (FP.round _ 23203)) (coinVar 1 (FP.round _ 23203)) = some X ∧ UReal2.mul u (coinVar 2 1) (coinVar 2 1) = some Y ∧
      UReal2.add u X Y = some Z ∧ covMatrix2 [Z] = some [v] ∧ v.val = -64 ∧
      ∀ (last : ℕ) (mu : Fin 1 → FP binary64) (junk : Fin 1 → Fin 1 → FP binary64) (eigen : (Fin 1 → Fin 1 → FP binary64) → Ldlt 1 (FP binary64)),
        LdltNear 0 (fun i j => (fillV (fun k => [v].getD k 0) junk i j).val) (realLdlt (eigen (fillV (fun k => [v].getD k 0) junk))) →
        ureals last 1 mu [v].length (fun k => [v].getD k 0) junk eigen = .error .runtimeError := by
  have h2 : CCmp.eqb ((1 : FP binary64) / lit 2) 0 = false := by
    rw [← Bool.not_eq_true, eqb_fp, half_double]; norm_num
  have e2 : ((lit 2 : FP binary64)).val = 2 := two_double
  have es : (FP.round binary64 23203).val = 23203 := by
    show binary64.rd 23203 = 23203
    rw [bits_val _ 14 (23203 * 2 ^ 38) (by norm_num) (by norm_num) (by norm_num) (by norm_num)]; norm_num
  have ea : (lit 2 * ((1 : FP binary64) / lit 2 * FP.round binary64 23203 * FP.round binary64 23203)).val = 538379209 := by
    rw [val_mul, val_mul, val_mul, half_double, e2, es,
      bits_val (x := 1 / 2 * 23203) _ 13 (23203 * 2 ^ 38) (by norm_num) (by norm_num) (by norm_num) (by norm_num),
      bits_val (x := _ * 23203) _ 28 (538379209 * 2 ^ 23) (by norm_num) (by norm_num) (by norm_num) (by norm_num),
      bits_val (x := 2 * _) _ 29 (538379209 * 2 ^ 23) (by norm_num) (by norm_num) (by norm_num) (by norm_num)]
    norm_num
  have eb : (lit 2 * ((1 : FP binary64) / lit 2 * 1 * 1)).val = 1 := by
    rw [fp_mul_one, fp_mul_one, val_mul, half_double, e2, show (2 : ℝ) * (1 / 2) = 1 by norm_num, binary64.one]
  have hv : ∀ a b : FP binary64, a.val = 538379209 → b.val = 1 → (a * a + b * b + a * b + b * a - (a + b) * (a + b)).val = -64 := by
    intro a b ea eb
    simp only [val_sub, val_add, val_mul, ea, eb]
    have r1 : binary64.rd (538379209 * 538379209) = 289852172683465664 := by
      rw [bits_val _ 58 4528940198179151 (by norm_num) (by norm_num) (by norm_num) (by norm_num)]; norm_num
    have r2 : binary64.rd (289852172683465664 + 1) = 289852172683465664 := by
      rw [bits_val _ 58 4528940198179151 (by norm_num) (by norm_num) (by norm_num) (by norm_num)]; norm_num
    have r3 : binary64.rd (538379209 : ℝ) = 538379209 := by rw [← ea, a.rep]
    have r4 : binary64.rd (289852172683465664 + 538379209) = 289852173221844864 := by
      rw [bits_val _ 58 4528940206591326 (by norm_num) (by norm_num) (by norm_num) (by norm_num)]; norm_num
    have r5 : binary64.rd (289852173221844864 + 538379209) = 289852173760224064 := by
      rw [bits_val _ 58 4528940215003501 (by norm_num) (by norm_num) (by norm_num) (by norm_num)]; norm_num
    have r6 : binary64.rd (538379209 + 1) = 538379210 := by
      rw [bits_val _ 29 (538379210 * 2 ^ 23) (by norm_num) (by norm_num) (by norm_num) (by norm_num)]; norm_num
    have r7 : binary64.rd (538379210 * 538379210) = 289852173760224128 := by
      rw [bits_val _ 58 4528940215003502 (by norm_num) (by norm_num) (by norm_num) (by norm_num)]; norm_num
    have r8 : binary64.rd 64 = 64 := by
      rw [bits_val _ 6 (2 ^ 52) (by norm_num) (by norm_num) (by norm_num) (by norm_num)]; norm_num
    rw [mul_one, mul_one, one_mul, binary64.one, r1, r2, r3, r4, r5, r6, r7, show (289852173760224064 - 289852173760224128 : ℝ) = -64 by norm_num, binary64.odd, r8]
  refine ⟨_, _, _, _, coin_sq1 u _ h2, coin_sq2 u _ h2, coin_add u _ _, ?_, hv _ _ ea eb, ?_⟩
  · have c := coin_cov (lit 2 * ((1 : FP binary64) / lit 2 * FP.round binary64 23203 * FP.round binary64 23203)) (lit 2 * ((1 : FP binary64) / lit 2 * 1 * 1))
    simp only at c
    simp [covMatrix2, outer, outerSeq, c, wrap64, allOf]
  · intro last mu junk eigen heig
    refine C95_refused last 1 mu _ junk eigen heig fun h => ?_
    have := h ![1]
    simp [asked] at this
    rw [hv _ _ ea eb] at this
    norm_num at this

/-! ## example -/

/-- a decomposition of 1×1 matrices: `L` is 1 and `D` the element -/
noncomputable def exEigen1 (V : Fin 1 → Fin 1 → FP binary64) : Ldlt 1 (FP binary64) := open Classical in ⟨true, decide (0 ≤ (V 0 0).val), fun _ _ => 1, fun i => V i i, id⟩

theorem exEigen1_near (V : Fin 1 → Fin 1 → FP binary64) : LdltNear 0 (fun i j => (V i j).val) (realLdlt (exEigen1 V)) where
  diag_nonneg _ h i := by
    have : 0 ≤ (V 0 0).val := by simpa [realLdlt, exEigen1] using h
    simpa [realLdlt, exEigen1, Subsingleton.elim i 0] using this
  unit i := by simp [realLdlt, exEigen1]
  lower i j h := absurd h (by simp [Subsingleton.elim i j])
  near _ i j := by
    simp [realLdlt, exEigen1, Subsingleton.elim i 0, Subsingleton.elim j 0, Unc.Spec.symLower, Subsingleton.elim (permOf id (0 : Fin 1)) 0]

/-- with this decomposition the matrix is refused, whatever the means -/
example (u : Moments (FP binary64)) (mu : Fin 1 → FP binary64) : ∃ X Y Z : UReal2 (FP binary64), ∃ v : FP binary64,
    UReal2.mul u (coinVar 1 (FP.round _ 23203)) (coinVar 1 (FP.round _ 23203)) = some X ∧ UReal2.mul u (coinVar 2 1) (coinVar 2 1) = some Y ∧ UReal2.add u X Y = some Z ∧
      covMatrix2 [Z] = some [v] ∧ ureals 7 1 mu [v].length (fun k => [v].getD k 0) (fun _ _ => 0) exEigen1 = .error .runtimeError := by
  obtain ⟨X, Y, Z, v, hX, hY, hZ, hv, -, h⟩ := C95_second_false u
  exact ⟨X, Y, Z, v, hX, hY, hZ, hv, h 7 mu _ _ (exEigen1_near _)⟩

end Unc.Props
