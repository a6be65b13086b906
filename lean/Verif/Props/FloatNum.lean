import Verif.Props.FloatMath
import Mathlib.Analysis.Asymptotics.Lemmas

/-!
# C64: numerical derivatives in floating point (`uunary(f, step)`, `ubinary(f, step)`)
-/

namespace Unc.Props
open Unc.Spec UReal FP Filter Topology Asymptotics

section
variable {f : ℕ → Fmt} {u : ℕ → ℝ} {st : ∀ k, FP (f k)}

/-- the steps tend to zero, more slowly than the rounding errors -/
structure Steps (f : ℕ → Fmt) (u : ℕ → ℝ) (st : ∀ k, FP (f k)) : Prop where
  acc : ∀ k, Acc (f k).rd (u k)
  fine : Tendsto u atTop (𝓝 0)
  pos : ∀ k, 0 < (st k).val
  small : Tendsto (fun k => (st k).val) atTop (𝓝 0)
  slow : Tendsto (fun k => u k / (st k).val) atTop (𝓝 0)

theorem Steps.finer (h : Steps f u st) : Finer f := ⟨u, h.acc, h.fine⟩

/-- the difference quotient of two approximate values -/
theorem quotient_conv (h : Steps f u st) {C D L : ℝ} {A B : ∀ k, FP (f k)} {a b : ℕ → ℝ} (hA : ∀ᶠ k in atTop, |(A k).val - a k| ≤ C * u k * |a k|)
    (hB : ∀ᶠ k in atTop, |(B k).val - b k| ≤ C * u k * |b k|) (ha : Tendsto a atTop (𝓝 L)) (hb : Tendsto b atTop (𝓝 L))
    (hq : Tendsto (fun k => (a k - b k) / (st k).val) atTop (𝓝 D)) : Conv (fun k => (A k - B k) / st k) D := by
  have hs := h.pos
  -- without rounding
  have e1 : Tendsto (fun k => ((A k).val - (B k).val) / (st k).val - (a k - b k) / (st k).val) atTop (𝓝 0) := by
    refine squeeze_zero_norm' (a := fun k => C * (u k / (st k).val) * (|a k| + |b k|)) ?_ ?_
    · filter_upwards [hA, hB] with k h1 h2
      have : ((A k).val - (B k).val) / (st k).val - (a k - b k) / (st k).val = (((A k).val - a k) - ((B k).val - b k)) / (st k).val := by
        rw [← sub_div]; congr 1; ring
      rw [this, Real.norm_eq_abs, abs_div, abs_of_pos (hs k), div_le_iff₀ (hs k)]
      have e : C * (u k / (st k).val) * (|a k| + |b k|) * (st k).val = C * u k * |a k| + C * u k * |b k| := by
        have := (hs k).ne'
        field_simp
      rw [e]
      exact (abs_sub _ _).trans (add_le_add h1 h2)
    · have := (h.slow.const_mul C).mul (ha.abs.add hb.abs)
      simpa using this
  have e2 : Tendsto (fun k => ((A k).val - (B k).val) / (st k).val) atTop (𝓝 D) := by
    have := e1.add hq
    simpa using this
  -- the subtraction is rounded
  have e3 : Tendsto (fun k => (A k - B k).val / (st k).val - ((A k).val - (B k).val) / (st k).val) atTop (𝓝 0) := by
    refine squeeze_zero_norm (a := fun k => u k * |((A k).val - (B k).val) / (st k).val|) (fun k => ?_) ?_
    · rw [← sub_div, Real.norm_eq_abs, abs_div, abs_div, abs_of_pos (hs k), ← mul_div_assoc]
      exact div_le_div_of_nonneg_right ((h.acc k).err _) (hs k).le
    · have := h.fine.mul e2.abs
      simpa using this
  have e4 : Tendsto (fun k => (A k - B k).val / (st k).val) atTop (𝓝 D) := by
    have := e3.add e2
    simpa using this
  exact conv_rd h.finer e4

/-- the rounded displacement is about the step -/
theorem shift_conv (h : Steps f u st) {x : ∀ k, FP (f k)} {a : ℝ} (hx : Conv x a) :
    Conv (fun k => x k + st k) a ∧ Tendsto (fun k => ((x k + st k).val - (x k).val) / (st k).val) atTop (𝓝 1) := by
  have c : Conv (fun k => x k + st k) a := by
    have := Conv.add h.finer hx h.small
    simpa using this
  refine ⟨c, ?_⟩
  have hs := h.pos
  have e1 : Tendsto (fun k => ((x k + st k).val - (x k).val) / (st k).val - 1) atTop (𝓝 0) := by
    refine squeeze_zero_norm (a := fun k => u k / (st k).val * |(x k).val + (st k).val|) (fun k => ?_) ?_
    · have : ((x k + st k).val - (x k).val) / (st k).val - 1 = ((x k + st k).val - ((x k).val + (st k).val)) / (st k).val := by
        rw [sub_div, sub_div, add_div, div_self (hs k).ne']; ring
      rw [this, Real.norm_eq_abs, abs_div, abs_of_pos (hs k), div_mul_eq_mul_div]
      exact div_le_div_of_nonneg_right ((h.acc k).err _) (hs k).le
    · have := h.slow.mul ((Tendsto.add hx h.small).abs)
      simpa using this
  have := e1.add_const 1
  simpa using this

/-- an implementation of a function with relative error at most `C` roundings near `a` -/
def NearImpl (u : ℕ → ℝ) (F : ℝ → ℝ) (I : ∀ k, FP (f k) → FP (f k)) (C a : ℝ) : Prop :=
  ∀ᶠ t in 𝓝 a, ∀ k, ∀ y : FP (f k), y.val = t → |(I k y).val - F t| ≤ C * u k * |F t|

theorem NearImpl.seq {F : ℝ → ℝ} {I : ∀ k, FP (f k) → FP (f k)} {C a : ℝ} (h : NearImpl u F I C a) {x : ∀ k, FP (f k)} (hx : Conv x a) :
    ∀ᶠ k in atTop, |(I k (x k)).val - F (x k).val| ≤ C * u k * |F (x k).val| :=
  (Tendsto.eventually hx h).mono fun k hk => hk k (x k) rfl

theorem impl_conv (h : Steps f u st) {A : ∀ k, FP (f k)} {a : ℕ → ℝ} {C L : ℝ} (hA : ∀ᶠ k in atTop, |(A k).val - a k| ≤ C * u k * |a k|)
    (ha : Tendsto a atTop (𝓝 L)) : Conv A L := by
  have e : Tendsto (fun k => (A k).val - a k) atTop (𝓝 0) := by
    refine squeeze_zero_norm' (a := fun k => C * u k * |a k|) hA ?_
    have := (h.fine.const_mul C).mul ha.abs
    simpa using this
  have := e.add ha
  simpa [Conv] using this

/-- **C64**: `uunary(f, step)`.  The function is implemented with a relative error of a few roundings and is strictly differentiable at `a`; the steps tend to zero more slowly
than the rounding errors.  Then the mean and the derivative passed to `unary` approach `F a` and `F' a`. -/
theorem C64_forward (h : Steps f u st) {F : ℝ → ℝ} {D a C : ℝ} (hF : HasStrictDerivAt F D a) {I : ∀ k, FP (f k) → FP (f k)} (hI : NearImpl u F I C a)
    (x : ∀ k, UReal (FP (f k))) (hx : Tendsto (fun k => (x k).n.val) atTop (𝓝 a)) :
    ∃ m d : ∀ k, FP (f k), (∀ k, UFun.uunaryNum (I k) (st k) (x k) = unary (x k) (m k) (d k)) ∧
      Tendsto (fun k => (m k).val) atTop (𝓝 (F a)) ∧ Tendsto (fun k => (d k).val) atTop (𝓝 D) := by
  obtain ⟨c1, c2⟩ := shift_conv h (x := fun k => (x k).n) hx
  have hc := hF.hasDerivAt.continuousAt
  refine ⟨fun k => I k (x k).n, fun k => (I k ((x k).n + st k) - I k (x k).n) / st k, fun _ => rfl, impl_conv h (hI.seq hx) (hc.tendsto.comp hx), ?_⟩
  refine quotient_conv h (hI.seq c1) (hI.seq hx) (hc.tendsto.comp c1) (hc.tendsto.comp hx) ?_
  -- the quotient of exact values
  have lo : (fun k => F ((x k).n + st k).val - F (x k).n.val - (((x k).n + st k).val - (x k).n.val) • D) =o[atTop] fun k => ((x k).n + st k).val - (x k).n.val :=
    hF.isLittleO.comp_tendsto (Tendsto.prodMk_nhds c1 hx)
  have hO : (fun k => ((x k).n + st k).val - (x k).n.val) =O[atTop] fun k => (st k).val := by
    refine isBigO_of_div_tendsto_nhds (Eventually.of_forall fun k hk => absurd hk (h.pos k).ne') 1 c2
  have lim := (lo.trans_isBigO hO).tendsto_div_nhds_zero
  have lim2 := lim.add (c2.mul_const D)
  simp only [zero_add, one_mul] at lim2
  refine lim2.congr fun k => ?_
  have := (h.pos k).ne'
  simp only [smul_eq_mul, Function.comp]
  field_simp
  ring

/-- the same for two arguments -/
def NearImpl2 (u : ℕ → ℝ) (F : ℝ → ℝ → ℝ) (I : ∀ k, FP (f k) → FP (f k) → FP (f k)) (C a b : ℝ) : Prop :=
  ∀ᶠ p : ℝ × ℝ in 𝓝 (a, b), ∀ k, ∀ x y : FP (f k), x.val = p.1 → y.val = p.2 → |(I k x y).val - F p.1 p.2| ≤ C * u k * |F p.1 p.2|

theorem NearImpl2.seq {F : ℝ → ℝ → ℝ} {I : ∀ k, FP (f k) → FP (f k) → FP (f k)} {C a b : ℝ} (h : NearImpl2 u F I C a b) {x y : ∀ k, FP (f k)} (hx : Conv x a)
    (hy : Conv y b) : ∀ᶠ k in atTop, |(I k (x k) (y k)).val - F (x k).val (y k).val| ≤ C * u k * |F (x k).val (y k).val| :=
  (Tendsto.eventually (Tendsto.prodMk_nhds hx hy) h).mono fun k hk => hk k (x k) (y k) rfl rfl

/-- the difference quotient in one direction -/
theorem quotient_dir (h : Steps f u st) {G : ℝ × ℝ → ℝ} {L : ℝ × ℝ →L[ℝ] ℝ} {p : ℝ × ℝ} (hG : HasStrictFDerivAt G L p) {P Q : ℕ → ℝ × ℝ} (hP : Tendsto P atTop (𝓝 p))
    (hQ : Tendsto Q atTop (𝓝 p)) {v : ℝ × ℝ} {t : ℕ → ℝ} (hPQ : ∀ k, P k - Q k = t k • v) (ht : Tendsto (fun k => t k / (st k).val) atTop (𝓝 1)) :
    Tendsto (fun k => (G (P k) - G (Q k)) / (st k).val) atTop (𝓝 (L v)) := by
  have lo : (fun k => G (P k) - G (Q k) - L (P k - Q k)) =o[atTop] fun k => P k - Q k := hG.isLittleO.comp_tendsto (Tendsto.prodMk_nhds hP hQ)
  have hO1 : t =O[atTop] fun k => (st k).val := isBigO_of_div_tendsto_nhds (Eventually.of_forall fun k hk => absurd hk (h.pos k).ne') 1 ht
  have hO2 : (fun k => P k - Q k) =O[atTop] t := by
    refine IsBigO.of_bound ‖v‖ (Eventually.of_forall fun k => ?_)
    rw [hPQ, norm_smul, mul_comm]
  have lim := (lo.trans_isBigO (hO2.trans hO1)).tendsto_div_nhds_zero
  have lim2 := lim.add (ht.mul_const (L v))
  simp only [zero_add, one_mul] at lim2
  refine lim2.congr fun k => ?_
  have := (h.pos k).ne'
  rw [hPQ, map_smul, smul_eq_mul]
  field_simp
  ring

/-- **C64** for `ubinary(f, step)`. -/
theorem C64_forward2 (h : Steps f u st) {F : ℝ → ℝ → ℝ} {Dx Dy a b C : ℝ}
    (hF : HasStrictFDerivAt (fun p : ℝ × ℝ => F p.1 p.2) (Dx • ContinuousLinearMap.fst ℝ ℝ ℝ + Dy • ContinuousLinearMap.snd ℝ ℝ ℝ) (a, b))
    {I : ∀ k, FP (f k) → FP (f k) → FP (f k)} (hI : NearImpl2 u F I C a b)
    (x y : ∀ k, UReal (FP (f k))) (hx : Tendsto (fun k => (x k).n.val) atTop (𝓝 a)) (hy : Tendsto (fun k => (y k).n.val) atTop (𝓝 b)) :
    ∃ m dx dy : ∀ k, FP (f k), (∀ k, UFun.ubinaryNum (I k) (st k) (x k) (y k) = binary (x k) (y k) (m k) (dx k) (dy k)) ∧
      Tendsto (fun k => (m k).val) atTop (𝓝 (F a b)) ∧ Tendsto (fun k => (dx k).val) atTop (𝓝 Dx) ∧ Tendsto (fun k => (dy k).val) atTop (𝓝 Dy) := by
  obtain ⟨c1, c2⟩ := shift_conv h (x := fun k => (x k).n) hx
  obtain ⟨d1, d2⟩ := shift_conv h (x := fun k => (y k).n) hy
  have hc : Tendsto (fun p : ℝ × ℝ => F p.1 p.2) (𝓝 (a, b)) (𝓝 (F a b)) := hF.continuousAt
  have t0 := hc.comp (Tendsto.prodMk_nhds hx hy)
  refine ⟨fun k => I k (x k).n (y k).n, fun k => (I k ((x k).n + st k) (y k).n - I k (x k).n (y k).n) / st k,
    fun k => (I k (x k).n ((y k).n + st k) - I k (x k).n (y k).n) / st k, fun _ => rfl, impl_conv h (hI.seq hx hy) t0, ?_, ?_⟩
  · refine quotient_conv h (hI.seq c1 hy) (hI.seq hx hy) (hc.comp (Tendsto.prodMk_nhds c1 hy)) t0 ?_
    have := quotient_dir h hF (Tendsto.prodMk_nhds c1 hy) (Tendsto.prodMk_nhds hx hy) (v := (1, 0)) (t := fun k => ((x k).n + st k).val - (x k).n.val)
      (fun k => by ext <;> simp) c2
    simpa using this
  · refine quotient_conv h (hI.seq hx d1) (hI.seq hx hy) (hc.comp (Tendsto.prodMk_nhds hx d1)) t0 ?_
    have := quotient_dir h hF (Tendsto.prodMk_nhds hx d1) (Tendsto.prodMk_nhds hx hy) (v := (0, 1)) (t := fun k => ((y k).n + st k).val - (y k).n.val)
      (fun k => by ext <;> simp) d2
    simpa using this

end

/-! ## the default step -/

/-- the default step of the binary format with `k + 1` digits -/
noncomputable def stepBits (k : ℕ) : FP (bits (k + 1) (by omega)) := UFun.defaultStep (epsFP (k + 1) (by omega)) 1

theorem stepBits_bounds (k : ℕ) : Real.sqrt ((1 / 2) ^ k) / 4 ≤ (stepBits k).val ∧ (stepBits k).val ≤ 4 * Real.sqrt ((1 / 2) ^ k) := by
  have ha := acc_bits (k + 1) (by omega)
  have hu : ((1 / 2 : ℝ)) ^ (k + 1) ≤ 1 / 2 := by
    rw [pow_succ]
    have : (1 / 2 : ℝ) ^ k ≤ 1 := pow_le_one₀ (by norm_num) (by norm_num)
    linarith
  have he : (2 : ℝ) ^ ((1 : ℤ) - ((k + 1 : ℕ) : ℤ)) = (1 / 2) ^ k := by
    rw [show (1 : ℤ) - ((k + 1 : ℕ) : ℤ) = -(k : ℤ) by push_cast; ring, zpow_neg, zpow_natCast, one_div, inv_pow]
  have hx : (0 : ℝ) ≤ (1 / 2) ^ k := by positivity
  obtain ⟨a1, a2⟩ := rd_bounds ha hx
  have hv : (stepBits k).val = (bits (k + 1) (by omega)).rd (Real.sqrt ((bits (k + 1) (by omega)).rd ((1 / 2) ^ k))) := by
    rw [← he]; rfl
  rw [hv]
  generalize (bits (k + 1) (by omega)).rd ((1 / 2) ^ k) = y at *
  generalize (1 / 2 : ℝ) ^ (k + 1) = w at *
  generalize (1 / 2 : ℝ) ^ k = z at *
  obtain ⟨b1, b2⟩ := rd_bounds ha (Real.sqrt_nonneg y)
  have hw := ha.nonneg
  have y1 : z / 4 ≤ y := by nlinarith
  have y2 : y ≤ 4 * z := by nlinarith
  have s1 : Real.sqrt z / 2 ≤ Real.sqrt y := by
    refine Real.le_sqrt_of_sq_le ?_
    rw [div_pow, Real.sq_sqrt hx]; linarith
  have s2 : Real.sqrt y ≤ 2 * Real.sqrt z := by
    refine Real.sqrt_le_iff.2 ⟨by positivity, ?_⟩
    rw [mul_pow, Real.sq_sqrt hx]; linarith
  have := Real.sqrt_nonneg z
  have := Real.sqrt_nonneg y
  constructor <;> nlinarith

/-- **C64**: the default step `sqrt(epsilon)` is right for the binary formats. -/
theorem C64_default_step : Steps (fun k => bits (k + 1) (by omega)) (fun k => (1 / 2) ^ (k + 1)) stepBits := by
  have hl : Tendsto (fun k : ℕ => (1 / 2 : ℝ) ^ k) atTop (𝓝 0) := tendsto_pow_atTop_nhds_zero_of_lt_one (by norm_num) (by norm_num)
  have hs : Tendsto (fun k : ℕ => Real.sqrt ((1 / 2 : ℝ) ^ k)) atTop (𝓝 0) := by
    have := hl.sqrt
    rwa [Real.sqrt_zero] at this
  have hp : ∀ k : ℕ, 0 < Real.sqrt ((1 / 2 : ℝ) ^ k) := fun k => Real.sqrt_pos.2 (by positivity)
  have hpos : ∀ k, 0 < (stepBits k).val := fun k => by have := (stepBits_bounds k).1; have := hp k; linarith
  refine ⟨fun k => acc_bits _ _, (tendsto_add_atTop_iff_nat 1).2 hl, hpos, ?_, ?_⟩
  · refine squeeze_zero (fun k => (hpos k).le) (fun k => (stepBits_bounds k).2) ?_
    have := hs.const_mul 4
    simpa using this
  · refine squeeze_zero (g := fun k => 2 * Real.sqrt ((1 / 2 : ℝ) ^ k)) (fun k => div_nonneg (by positivity) (hpos k).le) (fun k => ?_) ?_
    · rw [div_le_iff₀ (hpos k), pow_succ]
      have e : Real.sqrt ((1 / 2 : ℝ) ^ k) * Real.sqrt ((1 / 2 : ℝ) ^ k) = (1 / 2) ^ k := Real.mul_self_sqrt (by positivity)
      have := (stepBits_bounds k).1
      have := hp k
      nlinarith
    · have := hs.const_mul 2
      simpa using this

/-- a correctly rounded function -/
theorem nearImpl_round {f : ℕ → Fmt} {u : ℕ → ℝ} (h : ∀ k, Acc (f k).rd (u k)) (F : ℝ → ℝ) (a : ℝ) : NearImpl u F (fun k y => FP.round (f k) (F y.val)) 1 a :=
  Eventually.of_forall fun t k y hy => by
    subst hy
    rw [one_mul]; exact (h k).err _

theorem nearImpl2_round {f : ℕ → Fmt} {u : ℕ → ℝ} (h : ∀ k, Acc (f k).rd (u k)) (F : ℝ → ℝ → ℝ) (a b : ℝ) :
    NearImpl2 u F (fun k x y => FP.round (f k) (F x.val y.val)) 1 a b :=
  Eventually.of_forall fun p k x y hx hy => by
    rw [← hx, ← hy, one_mul]; exact (h k).err _

/-- **C64**: in the binary formats, with the default step and a correctly rounded function, the uncertainty of `uunary(F)` of an elementary variable approaches `|F'| s`, and the
covariance with the variable `F' s²`. -/
theorem C64_elementary {F : ℝ → ℝ} {D mu : ℝ} (hF : HasStrictDerivAt F D mu) {s : ℝ} (hs : 0 ≤ s) {i : ℤ} (hi : 0 < i) (hi' : i < maxId)
    (x : ∀ k, UReal (FP (bits (k + 1) (by omega)))) (hx : ∀ k, x k = ⟨i, FP.round _ s, FP.round _ mu, []⟩) :
    Tendsto (fun k => (UFun.uunaryNum (fun y => FP.round _ (F y.val)) (stepBits k) (x k)).n.val) atTop (𝓝 (F mu)) ∧
    Tendsto (fun k => (UFun.uunaryNum (fun y => FP.round _ (F y.val)) (stepBits k) (x k)).s.val) atTop (𝓝 (|D| * s)) ∧
    Tendsto (fun k => (cov (UFun.uunaryNum (fun y => FP.round _ (F y.val)) (stepBits k) (x k)) (x k)).val) atTop (𝓝 (D * s ^ 2)) := by
  have hst := C64_default_step
  have hf := hst.finer
  have hU : ConvU x ⟨i, s, mu, []⟩ := by
    have : x = fun k => ⟨i, FP.round _ s, FP.round _ mu, []⟩ := funext hx
    rw [this]
    exact convU_elem hi hi' (conv_round hf mu) (conv_round hf s)
  obtain ⟨m, d, e, hm, hd⟩ := C64_forward hst hF (nearImpl_round hst.acc F mu) x hU.mu
  have hV := hU.unary hf hm hd
  simp only [e]
  have wX : (⟨i, s, mu, []⟩ : UReal ℝ).WF := ⟨fun h => absurd h hi.ne', fun _ => rfl, by simp, by simp⟩
  refine ⟨by simpa only [UReal.n, mu_unary] using hm, ?_, ?_⟩
  · have := hV.s hf
    have hv : (UReal.unary ⟨i, s, mu, []⟩ (F mu) D).toLin.var = (|D| * s) ^ 2 := by
      have e : UReal.unary (⟨i, s, mu, []⟩ : UReal ℝ) (F mu) D = ⟨i, s * D, F mu, []⟩ := by simp [UReal.unary, hi]
      rw [e]
      simp [LinForm.var, toLin, UReal.deps, UReal.coef, hi, mul_pow]
      ring
    rw [hv, Real.sqrt_sq (by positivity)] at this
    exact this
  · have := ConvU.cov hf hV hU (wf_unary wX _ _) wX
    have hv : UReal.cov (UReal.unary ⟨i, s, mu, []⟩ (F mu) D) ⟨i, s, mu, []⟩ = D * s ^ 2 := by
      simp [UReal.cov, UReal.unary, hi]
      ring
    rw [hv] at this
    exact this

/-- the logarithm of 3 ± 1/2 -/
example (x : ∀ k, UReal (FP (bits (k + 1) (by omega)))) (hx : ∀ k, x k = ⟨1, FP.round _ (1 / 2), FP.round _ 3, []⟩) :
    Tendsto (fun k => (UFun.uunaryNum (fun y => FP.round _ (Real.log y.val)) (stepBits k) (x k)).s.val) atTop (𝓝 (1 / 6)) := by
  have := (C64_elementary (Real.hasStrictDerivAt_log (show (3 : ℝ) ≠ 0 by norm_num)) (show (0 : ℝ) ≤ 1 / 2 by norm_num) one_pos (by simp [maxId]) x hx).2.1
  convert this using 2
  rw [abs_of_pos (by norm_num)]; norm_num

/-! ## large means -/

/-- the default step in `double` -/
noncomputable def stepD : FP binary64 := UFun.defaultStep (epsFP 53 (by norm_num)) 1

theorem stepD_val : stepD.val = 1 / 2 ^ 26 := by
  have h1 : (epsFP 53 (by norm_num)).val = 1 / 2 ^ 52 := by
    show binary64.rd _ = _
    rw [bits_val _ (-52) (2 ^ 52) (by norm_num) (by norm_num) (by norm_num) (by norm_num)]
    norm_num
  have h2 : Real.sqrt (1 / 2 ^ 52) = 1 / 2 ^ 26 := by
    rw [show (1 / 2 ^ 52 : ℝ) = (1 / 2 ^ 26) ^ 2 by norm_num, Real.sqrt_sq (by norm_num)]
  show binary64.rd (Real.sqrt (epsFP 53 (by norm_num)).val) = _
  rw [h1, h2, bits_val _ (-26) (2 ^ 52) (by norm_num) (by norm_num) (by norm_num) (by norm_num)]
  norm_num

/-- adding the step to a number of at least 2²⁸ does not change it -/
theorem absorb {m : FP binary64} (hm : 2 ^ 28 ≤ m.val) : m + stepD = m := by
  have hpos : 0 < m.val := lt_of_lt_of_le (by norm_num) hm
  obtain ⟨a1, a2⟩ := log_bounds hpos
  have he : 28 ≤ Int.log 2 m.val := (Int.zpow_le_iff_le_log (b := 2) (by norm_num) hpos).1 (by
    have : ((2 : ℕ) : ℝ) ^ (28 : ℤ) = 2 ^ 28 := by norm_num
    rw [this]; exact hm)
  have hrep := m.rep
  change bitsRd 53 m.val = m.val at hrep
  rw [bitsRd, if_pos hpos, bitsPos_eq a1 a2] at hrep
  generalize Int.log 2 m.val = e at *
  generalize ⌊m.val / 2 ^ (e - (53 : ℕ) + 1) + 1 / 2⌋ = N at hrep
  have hq : (1 : ℝ) / 2 ^ 24 ≤ 2 ^ (e - (53 : ℕ) + 1) := by
    have : (2 : ℝ) ^ (-24 : ℤ) ≤ 2 ^ (e - (53 : ℕ) + 1) := zpow_le_zpow_right₀ (by norm_num) (by push_cast; omega)
    refine le_trans (le_of_eq ?_) this
    norm_num
  have h53 : (2 : ℝ) ^ (e + 1) = 2 ^ 53 * 2 ^ (e - (53 : ℕ) + 1) := by
    rw [← zpow_natCast, ← zpow_add₀ (by norm_num)]; congr 1; push_cast; ring
  apply FP.ext
  rw [val_add, stepD_val]
  generalize hQ : (2 : ℝ) ^ (e - (53 : ℕ) + 1) = q at *
  have hq0 : 0 < q := lt_of_lt_of_le (by norm_num) hq
  have hN : N + 1 ≤ 2 ^ 53 := by
    have : (N : ℝ) < 2 ^ 53 := by
      rw [← hrep, h53] at a2
      exact lt_of_mul_lt_mul_right a2 hq0.le
    have : N < 2 ^ 53 := by exact_mod_cast this
    omega
  have hN' : ((N : ℝ) + 1) * q ≤ 2 ^ 53 * q := mul_le_mul_of_nonneg_right (by exact_mod_cast hN) hq0.le
  have := bits_val (p := 53) (by norm_num) (x := m.val + 1 / 2 ^ 26) e N (by linarith [show (0 : ℝ) < 1 / 2 ^ 26 by norm_num])
    (by rw [h53]; linarith [show (1 : ℝ) / 2 ^ 26 < 1 / 2 ^ 24 by norm_num]) (by rw [hQ]; linarith [show (0 : ℝ) < 1 / 2 ^ 26 by norm_num])
    (by rw [hQ]; linarith [show (1 : ℝ) / 2 ^ 26 < 1 / 2 ^ 24 / 2 by norm_num])
  rw [hQ, hrep] at this
  exact this

/-- **C64**, what fails: the step is absolute.  In `double`, for means of at least 2²⁸ (about 2.7e8), the mean plus the default step is the mean: whatever the function, the derivative
is 0, the result has no uncertainty and no covariance with anything. -/
theorem C64_large_false (x : UReal (FP binary64)) (hx : 2 ^ 28 ≤ x.n.val) (hw : x.WF) (I : FP binary64 → FP binary64) :
    UFun.uunaryNum I stepD x = unary x (I x.n) 0 ∧ (UFun.uunaryNum I stepD x).s.val = 0 ∧
      ∀ y : UReal (FP binary64), y.WF → (cov (UFun.uunaryNum I stepD x) y).val = 0 := by
  have e : UFun.uunaryNum I stepD x = unary x (I x.n) 0 := by
    unfold UFun.uunaryNum
    simp only [absorb hx]
    congr 1
    apply FP.ext
    rw [val_div, val_sub, sub_self, Fmt.rd_zero, zero_div, Fmt.rd_zero, val_zero]
  have hc : ∀ i, (exactL (unary x (I x.n) 0)).coef i = 0 := fun i => by
    show ((unary x (I x.n) 0).coef i).val = 0
    rw [fp_coef_unary, val_mul, val_zero, mul_zero, Fmt.rd_zero]
  have hw' := wf_unary hw (I x.n) 0
  refine ⟨e, ?_, fun y hy => ?_⟩
  · rw [e]
    have hfr : 0 ≤ (unary x (I x.n) 0).id ∨ (unary x (I x.n) 0).sdev.val < 0 := by
      rcases lt_trichotomy x.id 0 with h0 | h0 | h0
      · right
        rw [UReal.unary, if_neg (by omega), if_pos h0]
        simp
      · left; rw [UReal.unary, if_neg (by omega), if_neg (by omega)]; exact h0.ge
      · left; rw [UReal.unary, if_pos h0]; exact h0.le
    have := (C61_s acc_double hw' hfr).2
    have hv : (exactL (unary x (I x.n) 0)).var = 0 := Finset.sum_eq_zero fun i _ => by rw [hc i, mul_zero]
    rw [hv, mul_zero] at this
    exact pow_eq_zero_iff (two_ne_zero) |>.1 (le_antisymm this (sq_nonneg _))
  · rw [e]
    have := C61_cov acc_double hw' hy
    have h1 : (exactL (unary x (I x.n) 0)).cov (exactL y) = 0 := Finset.sum_eq_zero fun i _ => by rw [hc i, zero_mul]
    have h2 : absCov (exactL (unary x (I x.n) 0)) (exactL y) = 0 := Finset.sum_eq_zero fun i _ => by rw [hc i, zero_mul, abs_zero]
    rw [h1, h2, mul_zero, sub_zero] at this
    exact abs_nonpos_iff.1 this

/-- 2³⁰ ± 1 through the identity function: the result has uncertainty 0, the input 1 -/
example : ∃ m : FP binary64, m.val = 2 ^ 30 ∧ (⟨1, 1, m, []⟩ : UReal (FP binary64)).s.val = 1 ∧ (UFun.uunaryNum (fun y => y) stepD ⟨1, 1, m, []⟩).s.val = 0 := by
  have hm : binary64.rd (2 ^ 30) = 2 ^ 30 := by
    rw [bits_val _ 30 (2 ^ 52) (by norm_num) (by norm_num) (by norm_num) (by norm_num)]; norm_num
  refine ⟨⟨2 ^ 30, hm⟩, rfl, by simp [UReal.s], (C64_large_false ⟨1, 1, ⟨2 ^ 30, hm⟩, []⟩ (by show (2 : ℝ) ^ 28 ≤ 2 ^ 30; norm_num)
    ⟨by simp, by simp, by simp, by simp⟩ _).2.1⟩

/-- the product of 3 and 5, correctly rounded, with the default step -/
example (x y : ∀ k, UReal (FP (bits (k + 1) (by omega)))) (hx : ∀ k, x k = ⟨1, 1, FP.round _ 3, []⟩) (hy : ∀ k, y k = ⟨2, 1, FP.round _ 5, []⟩) :
    ∃ m dx dy : ∀ k, FP (bits (k + 1) (by omega)),
      (∀ k, UFun.ubinaryNum (fun s t => FP.round _ (s.val * t.val)) (stepBits k) (x k) (y k) = UReal.binary (x k) (y k) (m k) (dx k) (dy k)) ∧
      Tendsto (fun k => (m k).val) atTop (𝓝 (3 * 5)) ∧ Tendsto (fun k => (dx k).val) atTop (𝓝 5) ∧ Tendsto (fun k => (dy k).val) atTop (𝓝 3) := by
  have hF : HasStrictFDerivAt (fun p : ℝ × ℝ => p.1 * p.2) ((5 : ℝ) • ContinuousLinearMap.fst ℝ ℝ ℝ + (3 : ℝ) • ContinuousLinearMap.snd ℝ ℝ ℝ) (3, 5) := by
    have := (hasStrictFDerivAt_fst (𝕜 := ℝ) (p := ((3 : ℝ), (5 : ℝ)))).mul (hasStrictFDerivAt_snd (𝕜 := ℝ) (p := ((3 : ℝ), (5 : ℝ))))
    rw [add_comm]; exact this
  exact C64_forward2 C64_default_step (F := fun s t => s * t) hF (nearImpl2_round C64_default_step.acc (fun s t => s * t) 3 5) x y
    (by simp only [hx]; exact conv_round C64_default_step.finer 3) (by simp only [hy]; exact conv_round C64_default_step.finer 5)

end Unc.Props
