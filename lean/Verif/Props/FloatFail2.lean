import Verif.Props.FloatMath2
import Mathlib.Analysis.Real.Pi.Irrational

/-!
# C66: what fails, and hypotheses that are met

Second-order variables in floating point: the computed variance can be negative, and where a second derivative is 0 the results do not approach the exact ones.
-/

namespace Unc.Props
open Unc.Spec FP Filter Topology Mom HessGrad

section witnesses
variable {f : Fmt}

theorem fp_mul_zero (a : FP f) : a * 0 = 0 := FP.ext (by rw [val_mul, val_zero, mul_zero, f.rd_zero])
theorem fp_zero_div (a : FP f) : 0 / a = 0 := FP.ext (by rw [val_div, val_zero, zero_div, f.rd_zero])

/-- moments of a variable which is ± its standard deviation with equal probability -/
def coinF (f : Fmt) : Moments (FP f) := ⟨0, 1, 0, 1, 0, 1⟩

/-- such a variable, with mean 0 -/
def coinVar (i : ℤ) (s : FP f) : UReal2 (FP f) := ⟨⟨[(i, ⟨s, 0, coinF f⟩)], []⟩, 0⟩

theorem hess_one (d : Diag (FP f)) (b : Bool) : (⟨[(1, d)], []⟩ : HessGrad (FP f)).hessEntries b = some [⟨1, 1, d, d, d.hhess⟩] := by
  cases b <;> rfl
theorem hess_two (d : Diag (FP f)) (b : Bool) : (⟨[(2, d)], []⟩ : HessGrad (FP f)).hessEntries b = some [⟨2, 2, d, d, d.hhess⟩] := by
  cases b <;> rfl

theorem coin_sq1 (u : Moments (FP f)) (s : FP f) (h2 : CCmp.eqb ((1 : FP f) / lit 2) 0 = false) :
    UReal2.mul u (coinVar 1 s) (coinVar 1 s) = some ⟨⟨[(1, ⟨0, lit 2 * (1 / lit 2 * s * s), coinF f⟩)], []⟩, 0⟩ := by
  simp [UReal2.mul, UReal2.binary, coinVar, h2, hess_one, UReal2.binaryLoop, maxId, UReal2.binaryX, UReal2.binaryY, UReal2.mixedLoop, UReal2.mixedStep, HessGrad.modHhess, HessGrad.modDiag, SMap.upsert, HessGrad.empty, fp_zero_div, fp_zero_mul, fp_mul_zero, fp_add_zero, fp_zero_add]

theorem coin_sq2 (u : Moments (FP f)) (s : FP f) (h2 : CCmp.eqb ((1 : FP f) / lit 2) 0 = false) :
    UReal2.mul u (coinVar 2 s) (coinVar 2 s) = some ⟨⟨[(2, ⟨0, lit 2 * (1 / lit 2 * s * s), coinF f⟩)], []⟩, 0⟩ := by
  simp [UReal2.mul, UReal2.binary, coinVar, h2, hess_two, UReal2.binaryLoop, maxId, UReal2.binaryX, UReal2.binaryY, UReal2.mixedLoop, UReal2.mixedStep, HessGrad.modHhess, HessGrad.modDiag, SMap.upsert, HessGrad.empty, fp_zero_div, fp_zero_mul, fp_mul_zero, fp_add_zero, fp_zero_add]

theorem coin_add (u : Moments (FP f)) (a b : FP f) : UReal2.add u ⟨⟨[(1, ⟨0, a, coinF f⟩)], []⟩, 0⟩ ⟨⟨[(2, ⟨0, b, coinF f⟩)], []⟩, 0⟩ =
    some ⟨⟨[(1, ⟨0, a, coinF f⟩), (2, ⟨0, b, coinF f⟩)], []⟩, 0⟩ := by
  have h12 : (toLex ((1 : VId), (1 : VId)) : IdPair) < toLex (2, 2) := by decide
  have h2m : (toLex ((2 : VId), (2 : VId)) : IdPair) < toLex (2147483647, 2147483647) := by decide
  have h0 : CCmp.eqb (0 : FP f) 0 = true := by simp
  simp [UReal2.add, UReal2.binary, h12, h2m, h0, HessGrad.newDiag, hess_one, hess_two, UReal2.binaryLoop, maxId, UReal2.binaryX, UReal2.binaryY, UReal2.binaryYNew, HessGrad.modHhess, HessGrad.modDiag, SMap.upsert, HessGrad.empty, fp_zero_div, fp_zero_mul, fp_mul_zero, fp_add_zero, fp_zero_add, fp_one_mul, fp_mul_one]
 
theorem coin_var (a b : FP f) : (⟨⟨[(1, ⟨0, a, coinF f⟩), (2, ⟨0, b, coinF f⟩)], []⟩, 0⟩ : UReal2 (FP f)).var =
    some (a * a + b * b + lit 2 * (a * b) - (a + b) * (a + b)) := by
  have h : (⟨[(1, ⟨0, a, coinF f⟩), (2, ⟨0, b, coinF f⟩)], []⟩ : HessGrad (FP f)).triEntries false = some [⟨1, 2, ⟨0, a, coinF f⟩, ⟨0, b, coinF f⟩, 0⟩] := rfl
  unfold coinF at h ⊢
  simp [UReal2.var, UReal2.m, UReal2.momArray, UReal2.updateMom, Mom.compute, Mom.m1, Mom.m2, h, Mom.m2A, Mom.m2B, fp_zero_mul, fp_mul_zero, fp_add_zero, fp_zero_add, fp_mul_one]

theorem half_double : ((1 : FP binary64) / lit 2).val = 1 / 2 := by
  have e2 : ((lit 2 : FP binary64)).val = 2 := two_double
  rw [val_div, e2, val_one, show (1 : ℝ) / 2 = 1 / 2 from rfl, bits_val _ (-1) (2 ^ 52) (by norm_num) (by norm_num) (by norm_num) (by norm_num)]; norm_num

/-- **C66**, what fails: in `double` the computed variance can be negative, and `s()` is not a number: `x * x + y * y`, where `x` and `y` are ±23203 and ±1
with equal probability; the exact variance is 0, the computed one -64. -/
theorem C66_var_false (u : Moments (FP binary64)) : ∃ X Y Z : UReal2 (FP binary64), ∃ v : FP binary64,
    UReal2.mul u (coinVar 1 (FP.round _ 23203)) (coinVar 1 (FP.round _ 23203)) = some X ∧ UReal2.mul u (coinVar 2 1) (coinVar 2 1) = some Y ∧
      UReal2.add u X Y = some Z ∧ Z.var = some v ∧ v.val = -64 := by
  have h2 : CCmp.eqb ((1 : FP binary64) / lit 2) 0 = false := by
    rw [← Bool.not_eq_true, eqb_fp, half_double]; norm_num
  refine ⟨_, _, _, _, coin_sq1 u _ h2, coin_sq2 u _ h2, coin_add u _ _, coin_var _ _, ?_⟩
  have e2 : ((lit 2 : FP binary64)).val = 2 := two_double
  have es : (FP.round binary64 23203).val = 23203 := by
    show binary64.rd 23203 = 23203
    rw [bits_val _ 14 (23203 * 2 ^ 38) (by norm_num) (by norm_num) (by norm_num) (by norm_num)]; norm_num
  have ea : (lit 2 * ((1 : FP binary64) / lit 2 * FP.round binary64 23203 * FP.round binary64 23203)).val = 538379209 := by
    rw [val_mul, val_mul, val_mul, half_double, e2, es,
      bits_val (x := 1 / 2 * 23203) _ 13 (23203 * 2 ^ 38) (by norm_num) (by norm_num) (by norm_num) (by norm_num),
      bits_val (x := _ * 23203) _ 28 (538379209 * 2 ^ 23) (by norm_num) (by norm_num) (by norm_num) (by norm_num),
      bits_val (x := 2 * _) _ 29 (538379209 * 2 ^ 23) (by norm_num) (by norm_num) (by norm_num) (by norm_num)]
    norm_num
  have eb : (lit 2 * ((1 : FP binary64) / lit 2 * 1 * 1)).val = 1 := by
    rw [fp_mul_one, fp_mul_one, val_mul, half_double, e2, show (2 : ℝ) * (1 / 2) = 1 by norm_num, binary64.one]
  generalize lit 2 * ((1 : FP binary64) / lit 2 * FP.round binary64 23203 * FP.round binary64 23203) = a at ea ⊢
  generalize lit 2 * ((1 : FP binary64) / lit 2 * 1 * 1) = b at eb ⊢
  simp only [val_sub, val_add, val_mul, ea, eb, e2]
  have r1 : binary64.rd (538379209 * 538379209) = 289852172683465664 := by
    rw [bits_val _ 58 4528940198179151 (by norm_num) (by norm_num) (by norm_num) (by norm_num)]; norm_num
  have r2 : binary64.rd (289852172683465664 + 1) = 289852172683465664 := by
    rw [bits_val _ 58 4528940198179151 (by norm_num) (by norm_num) (by norm_num) (by norm_num)]; norm_num
  have r3 : binary64.rd (538379209 : ℝ) = 538379209 := by rw [← ea, a.rep]
  have r4 : binary64.rd (2 * 538379209) = 1076758418 := by
    rw [bits_val _ 30 (1076758418 * 2 ^ 22) (by norm_num) (by norm_num) (by norm_num) (by norm_num)]; norm_num
  have r5 : binary64.rd (289852172683465664 + 1076758418) = 289852173760224064 := by
    rw [bits_val _ 58 4528940215003501 (by norm_num) (by norm_num) (by norm_num) (by norm_num)]; norm_num
  have r6 : binary64.rd (538379209 + 1) = 538379210 := by
    rw [bits_val _ 29 (538379210 * 2 ^ 23) (by norm_num) (by norm_num) (by norm_num) (by norm_num)]; norm_num
  have r7 : binary64.rd (538379210 * 538379210) = 289852173760224128 := by
    rw [bits_val _ 58 4528940215003502 (by norm_num) (by norm_num) (by norm_num) (by norm_num)]; norm_num
  have r8 : binary64.rd 64 = 64 := by
    rw [bits_val _ 6 (2 ^ 52) (by norm_num) (by norm_num) (by norm_num) (by norm_num)]; norm_num
  rw [mul_one, mul_one, binary64.one, r1, r2, r3, r4, r5, r6, r7, show (289852173760224064 - 289852173760224128 : ℝ) = -64 by norm_num, binary64.odd, r8]

/-- the rounded numbers of a binary format are rational -/
theorem bits_rational (p : ℕ) (hp : 1 ≤ p) (x : ℝ) (hx : 0 < x) : ∃ q : ℚ, (bits p hp).rd x = q := by
  refine ⟨(⌊x / 2 ^ (Int.log 2 x - p + 1) + 1 / 2⌋ : ℚ) * 2 ^ (Int.log 2 x - p + 1), ?_⟩
  change bitsRd p x = _
  rw [bitsRd, if_pos hx, bitsPos]
  push_cast
  rfl

theorem rd_ne_zero (p : ℕ) (hp : 1 ≤ p) {x : ℝ} (hx : x ≠ 0) : (bits p hp).rd x ≠ 0 := by
  intro h
  have h1 := (acc_bits p hp).err x
  rw [h, zero_sub, abs_neg] at h1
  have h2 : ((1 : ℝ) / 2) ^ p < 1 := pow_lt_one₀ (by norm_num) (by norm_num) (by omega)
  have := abs_pos.2 hx
  nlinarith

/-- the sine of the rounded π is not 0 in any format -/
theorem sin_pi_ne (p : ℕ) (hp : 1 ≤ p) : Real.sin ((bits p hp).rd Real.pi) ≠ 0 := by
  intro h
  obtain ⟨n, hn⟩ := Real.sin_eq_zero_iff.1 h
  obtain ⟨q, hq⟩ := bits_rational p hp Real.pi Real.pi_pos
  have h0 := rd_ne_zero p hp Real.pi_pos.ne'
  rw [hq] at hn h0
  have hn0 : n ≠ 0 := by rintro rfl; apply h0; rw [← hn]; simp
  refine irrational_pi ⟨q / n, ?_⟩
  push_cast
  rw [← hn]
  field_simp

end witnesses

/-- `x * y + x * w + π`, where `x`, `y`, `w` are ±1 with equal probability -/
noncomputable def exJump : UReal2 ℝ :=
  ⟨⟨[(1, ⟨0, 0, ⟨0, 1, 0, 1, 0, 1⟩⟩), (2, ⟨0, 0, ⟨0, 1, 0, 1, 0, 1⟩⟩), (3, ⟨0, 0, ⟨0, 1, 0, 1, 0, 1⟩⟩)], [(toLex (1, 2), 1 / 2), (toLex (1, 3), 1 / 2)]⟩, Real.pi⟩

theorem ok_exJump : Ok2 exJump := by
  refine ⟨⟨by simp [exJump, SMap.Sorted], ?_, ?_⟩, by intro k hk; simp [exJump] at hk; rcases hk with rfl | rfl | rfl <;> decide⟩
  · have : (toLex ((1 : VId), (2 : VId)) : IdPair) < toLex (1, 3) := by decide
    simpa [exJump, SMap.Sorted] using this
  · intro i j h
    simp [exJump, HessGrad.vars] at h ⊢
    rcases h with ⟨rfl, rfl⟩ | ⟨rfl, rfl⟩ <;> norm_num

/-- moments of a variable which is ±1 with equal probability -/
def coinM : Moments ℝ := ⟨0, 1, 0, 1, 0, 1⟩

theorem jump_hess {R : Type*} [Zero R] (d1 d2 d3 : Diag R) (a b : R) (s : Bool) :
    (⟨[(1, d1), (2, d2), (3, d3)], [(toLex (1, 2), a), (toLex (1, 3), b)]⟩ : HessGrad R).hessEntries s = some [⟨1, 1, d1, d1, d1.hhess⟩, ⟨1, 2, d1, d2, a⟩,
    if s then ⟨1, 3, d1, d3, b⟩ else ⟨1, 2, d1, d2, 0⟩, ⟨2, 2, d2, d2, d2.hhess⟩, ⟨3, 3, d3, d3, d3.hhess⟩] := by
  cases s <;> rfl

theorem jump_tri {R : Type*} [Zero R] (d1 d2 d3 : Diag R) (a b : R) :
    (⟨[(1, d1), (2, d2), (3, d3)], [(toLex (1, 2), a), (toLex (1, 3), b)]⟩ : HessGrad R).triEntries false = some [⟨1, 2, d1, d2, a⟩, ⟨1, 3, d1, d3, b⟩, ⟨2, 3, d2, d3, 0⟩] := rfl

theorem jump_tri' {R : Type*} [Zero R] (d1 d2 d3 : Diag R) (a : R) :
    (⟨[(1, d1), (2, d2), (3, d3)], [(toLex (1, 2), a)]⟩ : HessGrad R).triEntries false = some [⟨1, 2, d1, d2, a⟩, ⟨1, 3, d1, d3, 0⟩, ⟨2, 3, d2, d3, 0⟩] := rfl

theorem jump_full (u : Moments ℝ) (m : ℝ) :
    unaryG false u exJump m (-1) 0 = some ⟨⟨[(1, ⟨0, 0, coinM⟩), (2, ⟨0, 0, coinM⟩), (3, ⟨0, 0, coinM⟩)], [(toLex (1, 2), 0)]⟩, m⟩ := by
  simp [unaryG, exJump, jump_hess, UReal2.unaryStep, HessGrad.modHhess, HessGrad.modTri, HessGrad.modDiag, SMap.upsert, HessGrad.empty, HessGrad.newDiag, coinM]

theorem jump_skip (u : Moments ℝ) (m : ℝ) :
    unaryG true u exJump m (-1) 0 = some ⟨⟨[(1, ⟨0, 0, coinM⟩), (2, ⟨0, 0, coinM⟩), (3, ⟨0, 0, coinM⟩)], [(toLex (1, 2), -(1 / 2)), (toLex (1, 3), -(1 / 2))]⟩, m⟩ := by
  have h1 : ¬ (toLex ((1 : VId), (3 : VId)) : IdPair) < toLex (1, 2) := by decide
  have h2 : (toLex ((1 : VId), (2 : VId)) : IdPair) < toLex (1, 3) := by decide
  simp [unaryG, exJump, jump_hess, UReal2.unaryStep, HessGrad.modHhess, HessGrad.modTri, HessGrad.modDiag, SMap.upsert, HessGrad.empty, HessGrad.newDiag, coinM, h1, h2]

theorem var_full (m : ℝ) : (⟨⟨[(1, ⟨0, 0, coinM⟩), (2, ⟨0, 0, coinM⟩), (3, ⟨0, 0, coinM⟩)], [(toLex (1, 2), 0)]⟩, m⟩ : UReal2 ℝ).var = some 0 := by
  simp [UReal2.var, UReal2.m, UReal2.momArray, UReal2.updateMom, Mom.compute, Mom.m1, Mom.m2, jump_tri', Mom.m2A, Mom.m2B]

theorem var_skip (m : ℝ) : (⟨⟨[(1, ⟨0, 0, coinM⟩), (2, ⟨0, 0, coinM⟩), (3, ⟨0, 0, coinM⟩)], [(toLex (1, 2), -(1 / 2)), (toLex (1, 3), -(1 / 2))]⟩, m⟩ : UReal2 ℝ).var = some 2 := by
  simp [UReal2.var, UReal2.m, UReal2.momArray, UReal2.updateMom, Mom.compute, Mom.m1, Mom.m2, jump_tri, Mom.m2A, Mom.m2B, lit]
  norm_num

/-- **C66**, what fails: where a second derivative is 0, the results of floating point do not approach the exact ones: for the sine of `x * y + x * w + π` the exact
variance is 2, and the computed ones tend to 0, because the second derivative `-sin(π)` is not computed as 0 and then elements of the Hessian are
overlooked (C23, C46). -/
theorem C66_zero_derivative_false (u : Moments ℝ) : (UMath2.sin u exJump).bind UReal2.var = some 2 ∧
      ∀ v : ∀ k, Moments (FP (bits (k + 1) (by omega))), Approach (f := fun k => bits (k + 1) (by omega)) (fun k => (UMath2.sin (v k) (roundU2 _ exJump)).bind UReal2.var) (some 0) := by
  constructor
  · have h0 : CCmp.eqb (-(CMath.sin exJump.mu) / lit 2 : ℝ) 0 = true := by
      rw [eqb_iff]; show -Real.sin Real.pi / lit 2 = 0; simp
    have e1 : (CMath.cos exJump.mu : ℝ) = -1 := Real.cos_pi
    have e2 : (-(CMath.sin exJump.mu) / lit 2 : ℝ) = 0 := (eqb_iff _ _).1 h0
    have : UMath2.sin u exJump = unaryG true u exJump (CMath.sin exJump.mu) (-1) 0 := by
      show UReal2.unary u exJump (CMath.sin exJump.mu) (CMath.cos exJump.mu) (-(CMath.sin exJump.mu)) = _
      rw [unary_G, h0, e1, e2]
    rw [this, jump_skip, Option.bind_some, var_skip]
  · intro v
    let z := mapU (seqOf finer_bits) exJump
    have hm : Conv (fun k => (mapU (CSeq.proj k) z).mu) Real.pi := z.mu.conv
    have hs : Conv (fun k => CMath.sin (mapU (CSeq.proj k) z).mu) (Real.sin Real.pi) := hm.fn finer_bits Real.continuous_sin.continuousAt
    have hc : Conv (fun k => CMath.cos (mapU (CSeq.proj k) z).mu) (Real.cos Real.pi) := hm.fn finer_bits Real.continuous_cos.continuousAt
    have hh := hs.neg.div finer_bits (conv_nat finer_bits 2) (by norm_num)
    let u0 : Moments (CSeq _ finer_bits) := ⟨0, 0, 0, 0, 0, 0⟩
    have el := unaryG_hom CSeq.lim_hom false u0 z ⟨_, _, hs⟩ ⟨_, _, hc⟩ ⟨_, _, hh⟩
    have hz : mapU CSeq.l z = exJump := lim_map _ _
    rw [hz] at el
    have el' : unaryG false (mapM CSeq.l u0) exJump (Real.sin Real.pi) (-1) 0 = (unaryG false u0 z ⟨_, _, hs⟩ ⟨_, _, hc⟩ ⟨_, _, hh⟩).map (mapU CSeq.l) := by
      rw [← el]
      congr 1
      · exact Real.cos_pi.symm
      · show 0 = -Real.sin Real.pi / _
        simp
    rw [jump_full] at el'
    obtain ⟨w, hw, ew⟩ := Option.map_eq_some_iff.1 el'.symm
    have ow : Ok2 w := by
      refine ok_of_mapU (c := CSeq.l) ?_
      rw [ew]
      refine ⟨⟨by simp [SMap.Sorted], by simp [SMap.Sorted], ?_⟩, by intro k hk; simp at hk; rcases hk with rfl | rfl | rfl <;> decide⟩
      intro i j h
      simp [HessGrad.vars] at h ⊢
      obtain ⟨rfl, rfl⟩ := h
      norm_num
    have := m_approach ow (n := 2) (by norm_num)
    rw [ew] at this
    change Approach _ (UReal2.var _) at this
    rw [var_full] at this
    convert! this using 2 with k
    have e0 : CCmp.eqb (-(CMath.sin (mapU (CSeq.proj k) z).mu) / lit 2 : FP (bits (k + 1) (Nat.le_add_left 1 k))) 0 = false := by
      rw [← Bool.not_eq_true, eqb_fp]
      have hp : 1 ≤ k + 1 := Nat.le_add_left 1 k
      exact rd_ne_zero _ hp (div_ne_zero (neg_ne_zero.2 (rd_ne_zero _ hp (sin_pi_ne _ hp))) (rd_ne_zero _ hp (by norm_num)))
    have e1 : UMath2.sin (v k) (roundU2 _ exJump) = some (mapU (CSeq.proj k) w) := by
      rw [roundU2_map finer_bits]
      show UReal2.unary (v k) (mapU (CSeq.proj k) z) (CMath.sin (mapU (CSeq.proj k) z).mu) (CMath.cos (mapU (CSeq.proj k) z).mu) (-(CMath.sin (mapU (CSeq.proj k) z).mu)) = _
      rw [unary_any (ok_mapU _ (ok_mapU _ ok_exJump)) _ _ _ (v k) (mapM (CSeq.proj k) u0), unary_G, e0]
      have := unaryG_hom (CSeq.proj_hom k) false u0 z ⟨_, _, hs⟩ ⟨_, _, hc⟩ ⟨_, _, hh⟩
      rw [hw] at this
      exact this
    rw [e1]; rfl

/-! ## the hypotheses are met -/

theorem mu_unary2 {u : Moments ℝ} {x z : UReal2 ℝ} {f fx fxx : ℝ} (h : UReal2.unary u x f fx fxx = some z) : z.mu = f := by
  unfold UReal2.unary at h
  simp only [Option.bind_eq_some_iff, Option.map_eq_some_iff] at h
  obtain ⟨_, -, _, -, e⟩ := h
  rw [← e]

theorem mu_binary2 {u : Moments ℝ} {x y z : UReal2 ℝ} {f fx fy fxx fyy fxy : ℝ} (h : UReal2.binary u x y f fx fy fxx fyy fxy = some z) : z.mu = f := by
  unfold UReal2.binary at h
  simp only [Option.bind_eq_some_iff, Option.map_eq_some_iff] at h
  obtain ⟨_, -, _, -, _, -, _, -, e⟩ := h
  rw [← e]

/-- a variable with the moments of a normal distribution -/
noncomputable def exV (i : VId) (m s : ℝ) : UReal2 ℝ := ⟨⟨[(i, ⟨s, 0, ⟨0, 3, 0, 15, 0, 105⟩⟩)], []⟩, m⟩

theorem ok_exV {i : VId} (h : i < maxId) (m s : ℝ) : Ok2 (exV i m s) :=
  ⟨⟨by simp [exV, SMap.Sorted], by simp [exV, SMap.Sorted], by simp [exV]⟩, by intro k hk; simp [exV] at hk; subst hk; exact h⟩

/-- `exp(x) / y`, `hypot(exp(x) / y, x)` and `sqrt(y) - x * y` -/
noncomputable def exProgG : List FNode2 :=
  [.call1 (fun _ => UMath2.exp) UMath2.exp 0, .div 2 1, .call2 (fun _ => UMath2.hypot) UMath2.hypot 3 0, .call1 (fun _ => UMath2.sqrt) UMath2.sqrt 1, .mul 0 1, .sub 5 6]

theorem exProgG_regular (u : Moments ℝ) : Regular2 u exProgG [exV 1 2 (1 / 3), exV 2 3 (1 / 7)] := by
  refine ⟨C66_exp _, fun z1 h1 => ⟨⟨?_, ?_⟩, fun z2 h2 => ⟨C66_hypot ?_ ?_, fun z3 h3 => ⟨C66_sqrt ?_, fun z4 h4 => ⟨trivial, fun z5 h5 => ⟨trivial, fun z6 h6 => trivial⟩⟩⟩⟩⟩⟩
  · have := mu_unary2 (x := exV 1 2 (1 / 3)) (f := Real.exp 2) (fx := Real.exp 2) (fxx := Real.exp 2) h1
    simp only [List.cons_append, List.nil_append, List.getD_cons_succ, List.getD_cons_zero, this]
    exact (Real.exp_pos _).ne'
  · simp [exV]
  · have e1 := mu_unary2 (x := exV 1 2 (1 / 3)) (f := Real.exp 2) (fx := Real.exp 2) (fxx := Real.exp 2) h1
    have e2 : z2.mu = z1.mu / (exV 2 3 (1 / 7)).mu := by
      change UReal2.div u z1 (exV 2 3 (1 / 7)) = some z2 at h2
      exact mu_binary2 h2
    simp only [List.cons_append, List.nil_append, List.getD_cons_succ, List.getD_cons_zero] at e1 e2 ⊢
    rw [e2, e1]
    exact div_ne_zero (Real.exp_pos _).ne' (by simp [exV])
  · simp [exV]
  · simp [exV]

example (u : Moments ℝ) : ∃ (Y : List (UReal2 ℝ)) (y : ∀ k, List (UReal2 (FP (bits (k + 1) (by omega))))), evalE2 u exProgG [exV 1 2 (1 / 3), exV 2 3 (1 / 7)] = some Y ∧
    (∀ᶠ k in atTop, ∀ v, evalF2 _ v exProgG [roundU2 _ (exV 1 2 (1 / 3)), roundU2 _ (exV 2 3 (1 / 7))] = some (y k)) ∧
      Approach (fun k => ((y k).getD 4 (UReal2.const 0)).m 4) ((Y.getD 4 (UReal2.const 0)).m 4) ∧
      Approach (fun k => UReal2.cov ((y k).getD 4 (UReal2.const 0)) ((y k).getD 7 (UReal2.const 0))) (UReal2.cov (Y.getD 4 (UReal2.const 0)) (Y.getD 7 (UReal2.const 0))) := by
  obtain ⟨Y, y, h1, h2, h3⟩ := C66_converges finer_bits u exProgG [exV 1 2 (1 / 3), exV 2 3 (1 / 7)]
    (by intro x hx; simp at hx; rcases hx with rfl | rfl <;> exact ok_exV (by decide) _ _) (exProgG_regular u)
  exact ⟨Y, y, h1 u, h2, (h3 4 7).2.1 4 (by norm_num), (h3 4 7).2.2.2.1⟩

end Unc.Props
