import Verif.Props.Law2False
import Verif.Lemmas.Contrib2
import Mathlib.Data.List.GetD
import Mathlib.Probability.Moments.Covariance

/-!
# C70: mean, variance and covariance for all computations

The elements of the Hessian which `UReal2` leaves out do not matter for the mean, nor for variance and covariance up to terms of the fourth order.
-/

namespace Unc.Props
open Unc Unc.Spec SMap HessGrad Filter Topology Asymptotics MeasureTheory ProbabilityTheory

section contrib
variable {R : Type*} [Field R] [LinearOrder R] [IsStrictOrderedRing R] {x y z : UReal2 R} {f fx fy fxx fyy fxy : R} {u : Moments R}

/-- **C23** What `unary` can do at worst, for all operands and functions: each second derivative of the result is the sum of the two terms of the chain rule, or
has the term with the second derivative of the function only, or is 0; those of the diagonal are complete. -/
theorem C23_unary_terms (hx : Ok2 x) (hz : UReal2.unary u x f fx fxx = some z) (a b : VId) :
    (D2 z a b = fxx * x.hg.G a * x.hg.G b + fx * D2 x a b ∨ D2 z a b = fxx * x.hg.G a * x.hg.G b ∨ D2 z a b = 0) ∧
      D2 z a a = fxx * x.hg.G a ^ 2 + fx * D2 x a a := by
  refine ⟨?_, ?_⟩
  swap
  · by_cases h0 : fxx = 0
    · rw [C23_unary_partial hx (Or.inl h0) hz, h0]; ring
    · exact (C23_unary_behaviour hx h0 hz).1 _
  obtain ⟨p, q, hp, hq, e⟩ := unary_part hx.valid hz a b
  unfold D2
  rw [e]
  simp only [Mom.lit, Nat.cast_ofNat]
  rcases hq with rfl | rfl <;> rcases hp with rfl | rfl
  · right; right; ring
  · right; left; ring
  · right; right; ring
  · left; ring

/-- **C23** What `binary` can do at worst, for all operands and functions: of the terms of each operand, all are there, or only the one with the second
derivative of the function, or none; the term with the mixed derivative of the function is always there, and the diagonal is complete. -/
theorem C23_binary_terms (hx : Ok2 x) (hy : Ok2 y) (hz : UReal2.binary u x y f fx fy fxx fyy fxy = some z) (a b : VId) :
    (∃ r s, D2 z a b = r + s + fxy * (x.hg.G a * y.hg.G b + x.hg.G b * y.hg.G a) ∧
      (r = fxx * x.hg.G a * x.hg.G b + fx * D2 x a b ∨ r = fxx * x.hg.G a * x.hg.G b ∨ r = 0) ∧
      (s = fyy * y.hg.G a * y.hg.G b + fy * D2 y a b ∨ s = fyy * y.hg.G a * y.hg.G b ∨ s = 0)) ∧
    D2 z a a = fxx * x.hg.G a ^ 2 + fx * D2 x a a + fyy * y.hg.G a ^ 2 + fy * D2 y a a + 2 * fxy * x.hg.G a * y.hg.G a := by
  refine ⟨?_, ?_⟩
  swap
  · have := binary_H_of hx hy (fun r h => (eqb_iff r 0).1 h) (a := a) (b := a) (fun hn => absurd rfl hn) (fun hn => absurd rfl hn) hz
    unfold D2
    rw [this]
    simp only [Mom.lit, Nat.cast_ofNat]
    ring
  obtain ⟨r, s, ⟨p, q, hp, hq, rfl⟩, ⟨p', q', hp', hq', rfl⟩, e⟩ := binary_part hx hy (fun r h => (eqb_iff r 0).1 h) hz a b
  refine ⟨2 * (p * (fxx / Mom.lit 2 * x.hg.G a * x.hg.G b) + q * (fx * x.hg.H a b)), 2 * (p' * (fyy / Mom.lit 2 * y.hg.G a * y.hg.G b) + q' * (fy * y.hg.H a b)),
    ?_, ?_, ?_⟩
  · unfold D2
    rw [e]
    simp only [Mom.lit, Nat.cast_ofNat]
    ring
  · unfold D2
    simp only [Mom.lit, Nat.cast_ofNat]
    rcases hq with rfl | rfl <;> rcases hp with rfl | rfl
    · right; right; ring
    · right; left; ring
    · right; right; ring
    · left; ring
  · unfold D2
    simp only [Mom.lit, Nat.cast_ofNat]
    rcases hq' with rfl | rfl <;> rcases hp' with rfl | rfl
    · right; right; ring
    · right; left; ring
    · right; right; ring
    · left; ring

end contrib

example : ∃ z, UReal2.unary exN ex2a 1 2 3 = some z ∧ D2 z 4 4 = 3 * ex2a.hg.G 4 ^ 2 + 2 * D2 ex2a 4 4 := by
  obtain ⟨z, e, -⟩ := C21_unary ok_ex2a 1 2 3
  exact ⟨z, e exN, (C23_unary_terms ok_ex2a (e exN) 4 1).2⟩
example : ∃ z r s, UReal2.binary exN ex2a ex2b 1 2 3 4 5 6 = some z ∧ D2 z 1 2 = r + s + 6 * (ex2a.hg.G 1 * ex2b.hg.G 2 + ex2a.hg.G 2 * ex2b.hg.G 1) := by
  obtain ⟨z, e, -⟩ := C21_binary ok_ex2a ok_ex2b 1 2 3 4 5 6
  obtain ⟨r, s, h, -⟩ := (C23_binary_terms ok_ex2a ok_ex2b (e exN) 1 2).1
  exact ⟨z, r, s, e exN, h⟩

/-! ## the true expansion, and what is stored, when the uncertainties shrink -/

variable {n : ℕ} {ids : Fin n → VId}

/-- `F` has the expansion `c`, `b`, `a`; the values `U t`, computed with uncertainties scaled by `t`, have the right mean, gradient and diagonal of the Hessian,
and the rest of the Hessian has the right order. -/
structure Scaled (ids : Fin n → VId) (F : (Fin n → ℝ) → ℝ) (U : ℝ → UReal2 ℝ) (c : ℝ) (b : Fin n → ℝ) (a : Fin n → Fin n → ℝ) : Prop where
  exp : (fun z => F z - quadr c b a z) =o[𝓝 0] fun z => ‖z‖ ^ 2
  ok : ∀ t, Ok2 (U t)
  mu : ∀ t, (U t).mu = c
  grad : ∀ t i, (U t).hg.G (ids i) = t * b i
  diag : ∀ t i, (U t).hg.H (ids i) (ids i) = t ^ 2 * a i i
  bound : ∃ K, 0 ≤ K ∧ ∀ t i j, |(U t).hg.H (ids i) (ids j)| ≤ K * t ^ 2

theorem Scaled.const (ids : Fin n → VId) (c : ℝ) : Scaled ids (fun _ => c) (fun _ => UReal2.const c) c 0 0 := by
  refine ⟨?_, fun _ => ok_const c, fun _ => rfl, fun t i => ?_, fun t i => ?_, 0, le_rfl, fun t i j => ?_⟩
  · simp [quadr]
  · simp [UReal2.const, HessGrad.empty, HessGrad.G, find?]
  · simp [UReal2.const, HessGrad.empty, HessGrad.H, find?]
  · simp [UReal2.const, HessGrad.empty, HessGrad.H, find?, SMap.get]

theorem Scaled.zero {F : (Fin n → ℝ) → ℝ} {U : ℝ → UReal2 ℝ} {c b a} (h : Scaled ids F U c b a) : F 0 = c := by
  have := (isLittleO_iff.1 h.exp one_pos).self_of_nhds
  simp [quadr] at this
  linarith [sub_eq_zero.1 this]

theorem Scaled.elem {i : Fin n} (hinj : Function.Injective ids) (hlt : ids i < maxId) (mu s : ℝ) (m : Moments ℝ) :
    Scaled ids (fun z => mu + s * z i) (fun t => elem2 (ids i) mu (t * s) m) mu (Pi.single i s) 0 := by
  refine ⟨?_, fun t => ok_elem2 hlt _ _ _, fun _ => rfl, fun t j => ?_, fun t j => ?_, 0, le_rfl, fun t j k => ?_⟩
  · have : ∀ z : Fin n → ℝ, mu + s * z i - quadr mu (Pi.single i s) 0 z = 0 := fun z => by
      simp [quadr, Pi.single_apply]
    simp only [this]
    exact isLittleO_zero _ _
  · rw [G_elem2, Pi.single_apply]
    by_cases h : j = i
    · subst h; simp
    · rw [if_neg fun e => h (hinj e).symm, if_neg h, mul_zero]
  · rw [H_elem2]; simp
  · rw [H_elem2]; simp

theorem quadr_jet {F : (Fin n → ℝ) → ℝ} {c : ℝ} {b : Fin n → ℝ} {a : Fin n → Fin n → ℝ}
    (h : (fun z => F z - quadr c b a z) =o[𝓝 0] fun z => ‖z‖ ^ 2) : Jet F c (fun z => ∑ i, b i * z i) fun z => ∑ i, ∑ j, a i j * z i * z j :=
  ⟨h, lin_bigO _, quad_bigO _⟩

theorem Scaled.un {F : (Fin n → ℝ) → ℝ} {U V : ℝ → UReal2 ℝ} {c b a} (h : Scaled ids F U c b a) {f : ℝ → ℝ} {d dd : ℝ} (hf : Derivs1 f c d dd)
    {u : ℝ → Moments ℝ} (hV : ∀ t, UReal2.unary (u t) (U t) (f c) d dd = some (V t)) :
    Scaled ids (fun v => f (F v)) V (f c) (fun i => d * b i) fun i j => d * a i j + dd / 2 * b i * b j := by
  have ok : ∀ t, Ok2 (V t) := fun t => by
    obtain ⟨z, e, o⟩ := C21_unary (h.ok t) (f c) d dd
    obtain rfl := Option.some_inj.1 ((e (u t)).symm.trans (hV t))
    exact o
  obtain ⟨K, hK, hb⟩ := h.bound
  refine ⟨?_, ok, fun t => (C22_unary (h.ok t) (hV t)).1, fun t i => ?_, fun t i => ?_, ?_⟩
  · have hj := (quadr_jet h.exp).comp1 (Derivs1.taylor hf)
    refine (hj.congr (c' := f c) (L' := fun v => ∑ i, d * b i * v i) (Q' := fun v => ∑ i, ∑ j, (d * a i j + dd / 2 * b i * b j) * v i * v j)
      rfl (fun v => ?_) (fun v => ?_)).exp
    · rw [Finset.mul_sum]; exact Finset.sum_congr rfl fun i _ => by ring
    · rw [sum_sq, Finset.mul_sum, Finset.mul_sum, ← Finset.sum_add_distrib]
      refine Finset.sum_congr rfl fun i _ => ?_
      rw [Finset.mul_sum, Finset.mul_sum, ← Finset.sum_add_distrib]
      exact Finset.sum_congr rfl fun j _ => by ring
  · rw [(C22_unary (h.ok t) (hV t)).2.1, h.grad]; ring
  · obtain ⟨u', e⟩ : ∃ u', UReal2.unary u' (U t) (f c) d dd = some (V t) := ⟨_, hV t⟩
    have : D2 (V t) (ids i) (ids i) = dd * (U t).hg.G (ids i) ^ 2 + d * D2 (U t) (ids i) (ids i) := by
      by_cases h0 : dd = 0
      · rw [C23_unary_partial (h.ok t) (Or.inl h0) e, h0]; ring
      · exact (C23_unary_behaviour (h.ok t) h0 e).1 _
    rw [D2, D2, h.diag, h.grad] at this
    linarith
  · refine ⟨∑ i, ∑ j, |dd / 2| * |b i| * |b j| + |d| * K, by positivity, fun t i j => ?_⟩
    obtain ⟨p, q, hp, hq, e⟩ := unary_part (h.ok t).valid (hV t) (ids i) (ids j)
    have hp1 : |p| ≤ 1 := by rcases hp with rfl | rfl <;> simp
    have hq1 : |q| ≤ 1 := by
      rcases hq with rfl | rfl
      · simp
      · exact hp1
    rw [e, h.grad, h.grad]
    have e2 : |dd / Mom.lit 2 * (t * b i) * (t * b j)| = |dd / 2| * |b i| * |b j| * t ^ 2 := by
      simp only [Mom.lit, Nat.cast_ofNat, abs_mul]
      rw [← sq_abs t]; ring
    have e3 : |dd / 2| * |b i| * |b j| ≤ ∑ i, ∑ j, |dd / 2| * |b i| * |b j| :=
      (Finset.single_le_sum (f := fun j => |dd / 2| * |b i| * |b j|) (fun j _ => by positivity) (Finset.mem_univ j)).trans
        (Finset.single_le_sum (f := fun i => ∑ j, |dd / 2| * |b i| * |b j|) (fun i _ => by positivity) (Finset.mem_univ i))
    calc _ ≤ |p * (dd / Mom.lit 2 * (t * b i) * (t * b j))| + |q * (d * (U t).hg.H (ids i) (ids j))| := abs_add_le _ _
      _ ≤ 1 * (|dd / 2| * |b i| * |b j| * t ^ 2) + 1 * (|d| * (K * t ^ 2)) := by
        rw [abs_mul, abs_mul q, e2, abs_mul d]
        have := hb t i j
        gcongr
      _ ≤ _ := by
        have : |dd / 2| * |b i| * |b j| * t ^ 2 ≤ (∑ i, ∑ j, |dd / 2| * |b i| * |b j|) * t ^ 2 := by gcongr
        linarith

theorem part_bound {t1 t2 r : ℝ} (h : Part t1 t2 r) : |r| ≤ |t1| + |t2| := by
  obtain ⟨p, q, hp, hq, rfl⟩ := h
  rcases hq with rfl | rfl <;> rcases hp with rfl | rfl
  · simp; positivity
  · simp
  · simp; positivity
  · simpa using abs_add_le t1 t2

theorem sum_bound (g : Fin n → Fin n → ℝ) (hg : ∀ i j, 0 ≤ g i j) (i j : Fin n) : g i j ≤ ∑ i, ∑ j, g i j :=
  (Finset.single_le_sum (f := fun j => g i j) (fun j _ => hg i j) (Finset.mem_univ j)).trans
    (Finset.single_le_sum (f := fun i => ∑ j, g i j) (fun i _ => Finset.sum_nonneg fun j _ => hg i j) (Finset.mem_univ i))

theorem Scaled.bin {F F' : (Fin n → ℝ) → ℝ} {U U' V : ℝ → UReal2 ℝ} {c b a c' b' a'} (h : Scaled ids F U c b a) (h' : Scaled ids F' U' c' b' a')
    {f : ℝ → ℝ → ℝ} {dx dy dxx dyy dxy : ℝ} (hf : Derivs2 f c c' dx dy dxx dyy dxy)
    {u : ℝ → Moments ℝ} (hV : ∀ t, UReal2.binary (u t) (U t) (U' t) (f c c') dx dy dxx dyy dxy = some (V t)) :
    Scaled ids (fun v => f (F v) (F' v)) V (f c c') (fun i => dx * b i + dy * b' i) fun i j => dx * a i j + dy * a' i j + dxx / 2 * b i * b j
      + dyy / 2 * b' i * b' j + dxy * b i * b' j := by
  have ok : ∀ t, Ok2 (V t) := fun t => by
    obtain ⟨z, e, o⟩ := C21_binary (h.ok t) (h'.ok t) (f c c') dx dy dxx dyy dxy
    obtain rfl := Option.some_inj.1 ((e (u t)).symm.trans (hV t))
    exact o
  obtain ⟨K, hK, hb⟩ := h.bound
  obtain ⟨K', hK', hb'⟩ := h'.bound
  refine ⟨?_, ok, fun t => (C22_binary (h.ok t) (h'.ok t) (hV t)).1, fun t i => ?_, fun t i => ?_, ?_⟩
  · have hj := (quadr_jet h.exp).comp2 (quadr_jet h'.exp) (Derivs2.taylor hf)
    refine (hj.congr (c' := f c c') (L' := fun v => ∑ i, (dx * b i + dy * b' i) * v i) (Q' := fun v => ∑ i, ∑ j, (dx * a i j + dy * a' i j + dxx / 2 * b i * b j
      + dyy / 2 * b' i * b' j + dxy * b i * b' j) * v i * v j) rfl (fun v => ?_) (fun v => ?_)).exp
    · rw [Finset.mul_sum, Finset.mul_sum, ← Finset.sum_add_distrib]; exact Finset.sum_congr rfl fun i _ => by ring
    · rw [sum_sq, sum_sq, sum_sq]
      simp only [Finset.mul_sum, ← Finset.sum_add_distrib]
      exact Finset.sum_congr rfl fun i _ => Finset.sum_congr rfl fun j _ => by ring
  · rw [(C22_binary (h.ok t) (h'.ok t) (hV t)).2.1, h.grad, h'.grad]; ring
  · have := binary_H_of (h.ok t) (h'.ok t) (fun r h => (eqb_iff r 0).1 h) (a := ids i) (b := ids i) (fun hn => absurd rfl hn) (fun hn => absurd rfl hn) (hV t)
    rw [this, h.diag, h'.diag, h.grad, h'.grad]
    simp only [Mom.lit, Nat.cast_ofNat]
    ring
  · have sq : ∀ (k g g' t : ℝ), |k * (t * g) * (t * g')| = |k * g * g'| * t ^ 2 := fun k g g' t => by
      simp only [abs_mul]; rw [← sq_abs t]; ring
    refine ⟨∑ i, ∑ j, |dxx / 2 * b i * b j| + |dx| * K + (∑ i, ∑ j, |dyy / 2 * b' i * b' j| + |dy| * K') + ∑ i, ∑ j, |dxy / 2 * (b i * b' j + b j * b' i)|,
      by positivity, fun t i j => ?_⟩
    obtain ⟨r, r', hr, hr', e⟩ := binary_part (h.ok t) (h'.ok t) (fun r h => (eqb_iff r 0).1 h) (hV t) (ids i) (ids j)
    have b1 := part_bound hr
    have b2 := part_bound hr'
    have b3 := hb t i j
    have b4 := hb' t i j
    have c1 := sum_bound (fun i j => |dxx / 2 * b i * b j|) (fun i j => abs_nonneg _) i j
    have c2 := sum_bound (fun i j => |dyy / 2 * b' i * b' j|) (fun i j => abs_nonneg _) i j
    have c3 := sum_bound (fun i j => |dxy / 2 * (b i * b' j + b j * b' i)|) (fun i j => abs_nonneg _) i j
    simp only [h.grad, h'.grad, Mom.lit, Nat.cast_ofNat, sq] at b1 b2 e
    have e' : dxy / 2 * (t * b i * (t * b' j) + t * b j * (t * b' i)) = dxy / 2 * (b i * b' j + b j * b' i) * t ^ 2 := by ring
    rw [e'] at e
    have t2 : 0 ≤ t ^ 2 := sq_nonneg t
    have m1 := mul_le_mul_of_nonneg_right c1 t2
    have m2 := mul_le_mul_of_nonneg_right c2 t2
    have m3 := mul_le_mul_of_nonneg_right c3 t2
    have m4 := mul_le_mul_of_nonneg_left b3 (abs_nonneg dx)
    have m5 := mul_le_mul_of_nonneg_left b4 (abs_nonneg dy)
    rw [abs_mul dx] at b1
    rw [abs_mul dy] at b2
    have l1 : |r + r' + dxy / 2 * (b i * b' j + b j * b' i) * t ^ 2| ≤ |r| + |r'| + |dxy / 2 * (b i * b' j + b j * b' i)| * t ^ 2 := by
      refine (abs_add_le _ _).trans ?_
      rw [abs_mul _ (t ^ 2), abs_of_nonneg t2]
      gcongr
      exact abs_add_le _ _
    rw [e]
    refine l1.trans ?_
    linarith

theorem evalU2_scaled (p : List Node2) (accG : List ((Fin n → ℝ) → ℝ)) (accU : ℝ → List (UReal2 ℝ)) (hl : ∀ t, (accU t).length = accG.length)
    (h : ∀ k, ∃ c b a, Scaled ids (accG.getD k fun _ => 0) (fun t => (accU t).getD k (UReal2.const 0)) c b a)
    (hp : NodesRight2 p (accG.map fun f => f 0)) :
    ∃ out : ℝ → List (UReal2 ℝ), (∀ t, evalU2 p (accU t) = some (out t)) ∧
      ∀ k, ∃ c b a, Scaled ids ((evalG2 p accG).getD k fun _ => 0) (fun t => (out t).getD k (UReal2.const 0)) c b a := by
  induction p generalizing accG accU with
  | nil => exact ⟨accU, fun t => rfl, h⟩
  | cons nd p ih =>
    have happ : ∀ {G : (Fin n → ℝ) → ℝ} {V : ℝ → UReal2 ℝ}, (∃ c b a, Scaled ids G V c b a) →
        (∀ t, (accU t ++ [V t]).length = (accG ++ [G]).length) ∧
        ∀ k, ∃ c b a, Scaled ids ((accG ++ [G]).getD k fun _ => 0) (fun t => (accU t ++ [V t]).getD k (UReal2.const 0)) c b a := by
      intro G V hV
      refine ⟨fun t => by simp [hl], fun k => ?_⟩
      rcases lt_trichotomy k accG.length with hk | hk | hk
      · have e1 : (accG ++ [G]).getD k (fun _ => 0) = accG.getD k fun _ => 0 := List.getD_append _ _ _ _ hk
        have e2 : ∀ t, (accU t ++ [V t]).getD k (UReal2.const 0) = (accU t).getD k (UReal2.const 0) := fun t =>
          List.getD_append _ _ _ _ (by rw [hl]; exact hk)
        simp only [e1, e2]; exact h k
      · have e1 : (accG ++ [G]).getD k (fun _ => 0) = G := by rw [hk]; simp
        have e2 : ∀ t, (accU t ++ [V t]).getD k (UReal2.const 0) = V t := fun t => by rw [hk, ← hl t]; simp
        simp only [e1, e2]; exact hV
      · have e1 : (accG ++ [G]).getD k (fun _ => 0) = fun _ => 0 := List.getD_eq_default _ _ (by simp; omega)
        have e2 : ∀ t, (accU t ++ [V t]).getD k (UReal2.const 0) = UReal2.const 0 := fun t => List.getD_eq_default _ _ (by simp [hl]; omega)
        simp only [e1, e2]; exact ⟨_, _, _, Scaled.const ids 0⟩
    cases nd with
    | const c =>
      obtain ⟨k1, k2⟩ := happ ⟨_, _, _, Scaled.const ids c⟩
      exact ih _ _ k1 k2 (by simpa [NodesRight2] using hp)
    | un g F a =>
      obtain ⟨-, hpass, ht⟩ := hp
      rw [getD_map2] at hpass ht
      obtain ⟨c, b, q, hx⟩ := h a
      rw [hx.zero] at hpass
      obtain ⟨d, dd, hd, hg⟩ := hpass
      choose u hu using fun t => hg _ (hx.ok t) (hx.mu t)
      choose V hV _ using fun t => C21_unary (hx.ok t) (F c) d dd
      obtain ⟨k1, k2⟩ := happ ⟨_, _, _, hx.un hd fun t => hV t (u t)⟩
      obtain ⟨out, e, r⟩ := ih _ _ k1 k2 (by have h0 := hx.zero; simp only [List.map_append, List.map_cons, List.map_nil, h0]; rw [h0] at ht; exact ht)
      exact ⟨out, fun t => by simp only [evalU2, hu, hV]; exact e t, r⟩
    | bin g F a a' =>
      obtain ⟨-, -, hpass, ht⟩ := hp
      rw [getD_map2, getD_map2] at hpass ht
      obtain ⟨c, b, q, hx⟩ := h a
      obtain ⟨c', b', q', hx'⟩ := h a'
      rw [hx.zero, hx'.zero] at hpass
      obtain ⟨dx, dy, dxx, dyy, dxy, hd, hg⟩ := hpass
      choose u hu using fun t => hg _ _ (hx.ok t) (hx'.ok t) (hx.mu t) (hx'.mu t)
      choose V hV _ using fun t => C21_binary (hx.ok t) (hx'.ok t) (F c c') dx dy dxx dyy dxy
      obtain ⟨k1, k2⟩ := happ ⟨_, _, _, hx.bin hx' hd fun t => hV t (u t)⟩
      obtain ⟨out, e, r⟩ := ih _ _ k1 k2 (by have h0 := hx.zero; have h1 := hx'.zero; simp only [List.map_append, List.map_cons, List.map_nil, h0, h1]; rw [h0, h1] at ht; exact ht)
      exact ⟨out, fun t => by simp only [evalU2, hu, hV]; exact e t, r⟩

variable {mu s : Fin n → ℝ} {mom : Fin n → Moments ℝ} {p : List Node2} {k l : ℕ}

theorem scaled_all (hinj : Function.Injective ids) (hlt : ∀ i, ids i < maxId) (hp : NodesRight2 p (List.ofFn mu)) :
    ∃ out : ℝ → List (UReal2 ℝ), (∀ t, evalU2 p (elems2 ids mu (t • s) mom) = some (out t)) ∧
      ∀ k, ∃ c b a, Scaled ids (fn2 p mu s k) (fun t => (out t).getD k (UReal2.const 0)) c b a := by
  have start : ∀ k, ∃ c b a, Scaled ids ((List.ofFn fun i z => mu i + s i * (_root_.id z : Fin n → ℝ) i).getD k fun _ => 0)
      (fun t => (elems2 ids mu (t • s) mom).getD k (UReal2.const 0)) c b a := by
    intro k
    by_cases hk : k < n
    · refine ⟨mu ⟨k, hk⟩, Pi.single ⟨k, hk⟩ (s ⟨k, hk⟩), 0, ?_⟩
      have := Scaled.elem hinj (hlt ⟨k, hk⟩) (mu ⟨k, hk⟩) (s ⟨k, hk⟩) (mom ⟨k, hk⟩)
      simpa [elems2, List.getD_eq_getElem?_getD, hk] using this
    · refine ⟨0, 0, 0, ?_⟩
      have := Scaled.const ids 0
      simpa [elems2, List.getD_eq_getElem?_getD, hk] using this
  obtain ⟨out, e, r⟩ := evalU2_scaled (ids := ids) p (List.ofFn fun i z => mu i + s i * (_root_.id z : Fin n → ℝ) i) (fun t => elems2 ids mu (t • s) mom)
    (fun t => by simp [elems2]) start (by simpa [List.map_ofFn, Function.comp_def] using hp)
  refine ⟨out, e, fun k => ?_⟩
  have h2 : fn2 p mu s k = (evalG2 p (List.ofFn fun i z => mu i + s i * (_root_.id z : Fin n → ℝ) i)).getD k (fun _ => 0) := by
    funext z; exact fn2_eq p mu s k (fun z => _root_.id z) z
  rw [h2]
  exact r k


/-! ## products of different errors are not correlated with the errors -/

section prob
variable {Ω : Type*} [MeasurableSpace Ω] {P : Measure Ω} {X : Fin n → Ω → ℝ} {B : ℝ}

theorem lp1 (hX : Errors8 P X mom) (hB : ∀ i, ∀ᵐ ω ∂P, |X i ω| ≤ B) (i : Fin n) : MemLp (X i) 2 P :=
  have := hX.prob
  MemLp.of_bound (hX.meas i).aestronglyMeasurable B (hB i)

theorem lp2 (hX : Errors8 P X mom) (hB : ∀ i, ∀ᵐ ω ∂P, |X i ω| ≤ B) (i j : Fin n) : MemLp (fun ω => X i ω * X j ω) 2 P := by
  have := hX.prob
  refine MemLp.of_bound ((hX.meas i).mul (hX.meas j)).aestronglyMeasurable (|B| * |B|) ?_
  filter_upwards [hB i, hB j] with ω h h'
  rw [Real.norm_eq_abs, abs_mul]
  have := le_abs_self B
  exact mul_le_mul (h.trans this) (h'.trans this) (abs_nonneg _) (abs_nonneg _)

theorem lp_quadr (hX : Errors8 P X mom) (hB : ∀ i, ∀ᵐ ω ∂P, |X i ω| ≤ B) (c : ℝ) (b : Fin n → ℝ) (a : Fin n → Fin n → ℝ) :
    MemLp (fun ω => quadr c b a fun i => X i ω) 2 P := by
  have := hX.prob
  unfold quadr
  refine ((memLp_const c).add (memLp_finsetSum _ fun i _ => (lp1 hX hB i).const_mul (b i))).add
    (memLp_finsetSum _ fun i _ => memLp_finsetSum _ fun j _ => ?_)
  simp only [mul_assoc]
  exact (lp2 hX hB i j).const_mul (a i j)

/-- three errors, two of them different -/
theorem int_three (hX : Errors8 P X mom) {i j k : Fin n} (hij : i ≠ j) : ∫ ω, X i ω * X j ω * X k ω ∂P = 0 := by
  have key : ∀ i j k : Fin n, i ≠ j → i ≠ k → ∫ ω, X i ω * (X j ω * X k ω) ∂P = 0 := fun i j k h h' => by
    have := (hX.indep.indepFun_mul_right₀ hX.meas i j k h h').integral_mul_eq_mul_integral (hX.meas i).aestronglyMeasurable
      ((hX.meas j).mul (hX.meas k)).aestronglyMeasurable
    simpa [hX.mean] using this
  by_cases hik : i = k
  · subst hik
    rw [← key j i i hij.symm hij.symm]
    congr 1; funext ω; ring
  · rw [← key i j k hij hik]
    congr 1; funext ω; ring

theorem int_two (hX : Errors8 P X mom) {i j : Fin n} (hij : i ≠ j) : ∫ ω, X i ω * X j ω ∂P = 0 := by
  have := (hX.indep.indepFun hij).integral_mul_eq_mul_integral (hX.meas i).aestronglyMeasurable (hX.meas j).aestronglyMeasurable
  simpa [hX.mean] using this

theorem cov_linear (hX : Errors8 P X mom) (hB : ∀ i, ∀ᵐ ω ∂P, |X i ω| ≤ B) {i j : Fin n} (hij : i ≠ j) (k : Fin n) :
    cov[fun ω => X i ω * X j ω, X k; P] = 0 := by
  have := hX.prob
  rw [covariance_eq_sub (lp2 hX hB i j) (lp1 hX hB k), hX.mean, mul_zero, sub_zero]
  exact int_three hX hij

theorem cov_quadr (hX : Errors8 P X mom) (hB : ∀ i, ∀ᵐ ω ∂P, |X i ω| ≤ B) {i j : Fin n} (hij : i ≠ j) (c : ℝ) (b : Fin n → ℝ) (a : Fin n → Fin n → ℝ) :
    cov[fun ω => X i ω * X j ω, fun ω => quadr c b a fun i => X i ω; P]
      = ∑ k, ∑ l, a k l * cov[fun ω => X i ω * X j ω, fun ω => X k ω * X l ω; P] := by
  have := hX.prob
  have e : (fun ω => quadr c b a fun i => X i ω) = fun ω => c + ((∑ k, (b k * X k ω)) + ∑ k, ∑ l, a k l * (X k ω * X l ω)) := by
    funext ω; unfold quadr; simp only [mul_assoc, add_assoc]
  have hq := lp2 hX hB i j
  have m1 : MemLp (fun ω => ∑ k, b k * X k ω) 2 P := memLp_finsetSum _ fun k _ => (lp1 hX hB k).const_mul _
  have m2 : ∀ k, MemLp (fun ω => ∑ l, a k l * (X k ω * X l ω)) 2 P := fun k => memLp_finsetSum _ fun l _ => (lp2 hX hB k l).const_mul _
  have m3 : MemLp (fun ω => ∑ k, ∑ l, a k l * (X k ω * X l ω)) 2 P := memLp_finsetSum _ fun k _ => m2 k
  have e3 : cov[fun ω => X i ω * X j ω, fun ω => ∑ k, b k * X k ω; P] = 0 := by
    rw [covariance_fun_sum_right (X := fun k ω => b k * X k ω) (fun k => (lp1 hX hB k).const_mul _) hq]
    exact Finset.sum_eq_zero fun k _ => by rw [covariance_const_mul_right, cov_linear hX hB hij, mul_zero]
  have e4 : cov[fun ω => X i ω * X j ω, fun ω => c + ((∑ k, (b k * X k ω)) + ∑ k, ∑ l, a k l * (X k ω * X l ω)); P]
      = cov[fun ω => X i ω * X j ω, (fun ω => ∑ k, (b k * X k ω)) + fun ω => ∑ k, ∑ l, a k l * (X k ω * X l ω); P] :=
    covariance_const_add_right ((m1.add m3).integrable (by norm_num)) c
  rw [e, e4, covariance_add_right hq m1 m3]
  rw [e3, zero_add, covariance_fun_sum_right (X := fun k ω => ∑ l, a k l * (X k ω * X l ω)) m2 hq]
  refine Finset.sum_congr rfl fun k _ => ?_
  rw [covariance_fun_sum_right (X := fun l ω => a k l * (X k ω * X l ω)) (fun l => (lp2 hX hB k l).const_mul _) hq]
  exact Finset.sum_congr rfl fun l _ => covariance_const_mul_right _

/-- what the part of the Hessian off the diagonal can contribute to the covariance -/
theorem cov_rest (hX : Errors8 P X mom) (hB : ∀ i, ∀ᵐ ω ∂P, |X i ω| ≤ B) : ∃ M, 0 ≤ M ∧ ∀ (r : Fin n → Fin n → ℝ) (c : ℝ) (b : Fin n → ℝ)
    (a : Fin n → Fin n → ℝ) (u v : ℝ), (∀ i, r i i = 0) → 0 ≤ u → 0 ≤ v → (∀ i j, |r i j| ≤ u) → (∀ i j, |a i j| ≤ v) →
    |cov[fun ω => quadr 0 0 r fun i => X i ω, fun ω => quadr c b a fun i => X i ω; P]| ≤ M * (u * v) := by
  have := hX.prob
  refine ⟨∑ i, ∑ j, ∑ k, ∑ l, |cov[fun ω => X i ω * X j ω, fun ω => X k ω * X l ω; P]|, by positivity, fun r c b a u v h0 hu hv hr ha => ?_⟩
  have hq := lp_quadr hX hB c b a
  have e : (fun ω => quadr 0 0 r fun i => X i ω) = fun ω => ∑ i, ∑ j, r i j * (X i ω * X j ω) := by
    funext ω; unfold quadr; simp [mul_assoc]
  have m2 : ∀ k, MemLp (fun ω => ∑ l, r k l * (X k ω * X l ω)) 2 P := fun k => memLp_finsetSum _ fun l _ => (lp2 hX hB k l).const_mul _
  rw [e, covariance_fun_sum_left (X := fun k ω => ∑ l, r k l * (X k ω * X l ω)) m2 hq, Finset.sum_mul]
  refine (Finset.abs_sum_le_sum_abs _ _).trans (Finset.sum_le_sum fun i _ => ?_)
  rw [covariance_fun_sum_left (X := fun l ω => r i l * (X i ω * X l ω)) (fun l => (lp2 hX hB i l).const_mul _) hq, Finset.sum_mul]
  refine (Finset.abs_sum_le_sum_abs _ _).trans (Finset.sum_le_sum fun j _ => ?_)
  rw [covariance_const_mul_left]
  by_cases hij : i = j
  · subst hij; rw [h0, zero_mul, abs_zero]; positivity
  rw [cov_quadr hX hB hij, abs_mul]
  calc _ ≤ u * ∑ k, ∑ l, v * |cov[fun ω => X i ω * X j ω, fun ω => X k ω * X l ω; P]| := by
        refine mul_le_mul (hr i j) ?_ (abs_nonneg _) hu
        refine (Finset.abs_sum_le_sum_abs _ _).trans (Finset.sum_le_sum fun k _ => ?_)
        refine (Finset.abs_sum_le_sum_abs _ _).trans (Finset.sum_le_sum fun l _ => ?_)
        rw [abs_mul]
        exact mul_le_mul_of_nonneg_right (ha k l) (abs_nonneg _)
    _ = _ := by simp only [← Finset.mul_sum]; ring

theorem int_rest (hX : Errors8 P X mom) (hB : ∀ i, ∀ᵐ ω ∂P, |X i ω| ≤ B) (r : Fin n → Fin n → ℝ) (h0 : ∀ i, r i i = 0) :
    ∫ ω, quadr 0 0 r (fun i => X i ω) ∂P = 0 := by
  have := hX.prob
  have e : (fun ω => quadr 0 0 r fun i => X i ω) = fun ω => ∑ i, ∑ j, r i j * (X i ω * X j ω) := by
    funext ω; unfold quadr; simp [mul_assoc]
  have hi : ∀ i j, Integrable (fun ω => r i j * (X i ω * X j ω)) P := fun i j => ((lp2 hX hB i j).integrable (by norm_num)).const_mul _
  rw [e, integral_finset_sum _ fun i _ => integrable_finset_sum _ fun j _ => hi i j]
  refine Finset.sum_eq_zero fun i _ => ?_
  rw [integral_finset_sum _ fun j _ => hi i j]
  refine Finset.sum_eq_zero fun j _ => ?_
  rw [integral_const_mul]
  by_cases hij : i = j
  · subst hij; rw [h0, zero_mul]
  · rw [int_two hX hij, mul_zero]

/-- what a value stands for, and the true expansion, with the difference between the two -/
theorem scaled_split {F : (Fin n → ℝ) → ℝ} {U : ℝ → UReal2 ℝ} {c b a} (h : Scaled ids F U c b a) :
    ∃ r : ℝ → Fin n → Fin n → ℝ, (∀ t i, r t i i = 0) ∧ (∃ K, 0 ≤ K ∧ (∀ t i j, |r t i j| ≤ K * t ^ 2) ∧ ∀ (t : ℝ) i j, |t ^ 2 * a i j| ≤ K * t ^ 2) ∧
      ∀ t z, expn ids (U t) z = quadr c b a (t • z) + quadr 0 0 (r t) z := by
  obtain ⟨K, hK, hb⟩ := h.bound
  have ha : ∀ (t : ℝ) i j, |t ^ 2 * a i j| ≤ (∑ i, ∑ j, |a i j|) * t ^ 2 := fun t i j => by
    rw [abs_mul, abs_of_nonneg (sq_nonneg t), mul_comm]
    exact mul_le_mul_of_nonneg_right (sum_bound (fun i j => |a i j|) (fun i j => abs_nonneg _) i j) (sq_nonneg t)
  refine ⟨fun t i j => (U t).hg.H (ids i) (ids j) - t ^ 2 * a i j, fun t i => by simp [h.diag], ⟨K + ∑ i, ∑ j, |a i j|, by positivity, fun t i j => ?_, fun t i j => ?_⟩,
    fun t z => ?_⟩
  · rw [add_mul]
    exact (abs_sub _ _).trans (add_le_add (hb t i j) (ha t i j))
  · rw [add_mul]
    have := ha t i j
    have := mul_nonneg hK (sq_nonneg t)
    linarith
  · rw [quadr_scale, expn, h.mu]
    simp only [h.grad, quadr, sub_mul, Finset.sum_sub_distrib, Pi.zero_apply, zero_mul, Finset.sum_const_zero, zero_add]
    ring

theorem scaled_cov {F F' : (Fin n → ℝ) → ℝ} {U U' : ℝ → UReal2 ℝ} {c b a c' b' a'} (hX : Errors8 P X mom) (hB : ∀ i, ∀ᵐ ω ∂P, |X i ω| ≤ B)
    (h : Scaled ids F U c b a) (h' : Scaled ids F' U' c' b' a') :
    (fun t => covar P (fun ω => expn ids (U t) fun i => X i ω) (fun ω => expn ids (U' t) fun i => X i ω)
      - covar P (fun ω => quadr c b a (t • fun i => X i ω)) fun ω => quadr c' b' a' (t • fun i => X i ω)) =o[𝓝 0] fun t : ℝ => t ^ 3 := by
  have := hX.prob
  obtain ⟨r, r0, ⟨K, hK, hr, ha⟩, e⟩ := scaled_split h
  obtain ⟨r', r0', ⟨K', hK', hr', ha'⟩, e'⟩ := scaled_split h'
  obtain ⟨M, hM, hc⟩ := cov_rest hX hB
  have hO : (fun t => covar P (fun ω => expn ids (U t) fun i => X i ω) (fun ω => expn ids (U' t) fun i => X i ω)
      - covar P (fun ω => quadr c b a (t • fun i => X i ω)) fun ω => quadr c' b' a' (t • fun i => X i ω)) =O[𝓝 0] fun t : ℝ => t ^ 4 := by
    refine IsBigO.of_bound (3 * (M * (K * K'))) (Eventually.of_forall fun t => ?_)
    have lR := lp_quadr hX hB 0 0 (r t)
    have lR' := lp_quadr hX hB 0 0 (r' t)
    have lT : MemLp (fun ω => quadr c b a (t • fun i => X i ω)) 2 P := by simp only [quadr_scale]; exact lp_quadr hX hB _ _ _
    have lT' : MemLp (fun ω => quadr c' b' a' (t • fun i => X i ω)) 2 P := by simp only [quadr_scale]; exact lp_quadr hX hB _ _ _
    have e1 : (fun ω => expn ids (U t) fun i => X i ω) = (fun ω => quadr c b a (t • fun i => X i ω)) + fun ω => quadr 0 0 (r t) fun i => X i ω :=
      funext fun ω => e t _
    have e1' : (fun ω => expn ids (U' t) fun i => X i ω) = (fun ω => quadr c' b' a' (t • fun i => X i ω)) + fun ω => quadr 0 0 (r' t) fun i => X i ω :=
      funext fun ω => e' t _
    have k2 : 0 ≤ K * t ^ 2 := by positivity
    have k2' : 0 ≤ K' * t ^ 2 := by positivity
    have b1 := hc (r t) c' (fun i => t * b' i) (fun i j => t ^ 2 * a' i j) _ _ (r0 t) k2 k2' (hr t) (ha' t)
    have b2 := hc (r' t) c (fun i => t * b i) (fun i j => t ^ 2 * a i j) _ _ (r0' t) k2' k2 (hr' t) (ha t)
    have b3 := hc (r t) 0 0 (r' t) _ _ (r0 t) k2 k2' (hr t) (hr' t)
    simp only [← quadr_scale] at b1 b2
    rw [covariance_comm] at b2
    change ‖cov[_, _; P] - cov[_, _; P]‖ ≤ _
    rw [e1, e1', covariance_add_left lT lR (lT'.add lR'), covariance_add_right lT lT' lR', covariance_add_right lR lT' lR', Real.norm_eq_abs, Real.norm_eq_abs,
      abs_of_nonneg (show 0 ≤ t ^ 4 by positivity)]
    rw [abs_le] at b1 b2 b3 ⊢
    constructor <;> nlinarith
  refine hO.trans_isLittleO ?_
  have : (fun t : ℝ => t ^ 3 * t) =o[𝓝 0] fun t : ℝ => t ^ 3 * 1 :=
    (isBigO_refl _ _).mul_isLittleO ((isLittleO_one_iff ℝ).2 tendsto_id)
  simpa [pow_succ] using this

/-- **C70** For all computations, whatever the iterators over the Hessian do: with bounded errors, mean, variance and covariances converge to those of the random
variables with the full rate of the second order.  (What goes wrong in `C70_limit_false` is the third moment.) -/
theorem C70_mean_var_cov {F G : (Fin n → ℝ) → ℝ} (hinj : Function.Injective ids) (hlt : ∀ i, ids i < maxId) (hp : NodesRight2 p (List.ofFn mu))
    (hX : Errors8 P X mom) (hB : ∀ i, ∀ᵐ ω ∂P, |X i ω| ≤ B)
    (hk : Computes p k F) (hl : Computes p l G) (mF : Measurable F) (mG : Measurable G) :
    ∃ x y : ℝ → UReal2 ℝ,
      (∀ t, ∃ out, evalU2 p (elems2 ids mu (t • s) mom) = some out ∧ out.getD k (UReal2.const 0) = x t ∧ out.getD l (UReal2.const 0) = y t) ∧
      (∀ᶠ t : ℝ in 𝓝 0, Integrable (fun ω => F fun i => mu i + (t • s) i * X i ω) P) ∧
      (∃ N : ℝ → ℝ, (∀ t, (x t).n .mean = some (N t)) ∧
        (fun t => N t - ∫ ω, F (fun i => mu i + (t • s) i * X i ω) ∂P) =o[𝓝 0] fun t : ℝ => t ^ 2) ∧
      (∃ V : ℝ → ℝ, (∀ t, (x t).var = some (V t) ∧ (x t).m 2 = some (V t)) ∧
        (fun t => V t - central P (fun ω => F fun i => mu i + (t • s) i * X i ω) 2) =o[𝓝 0] fun t : ℝ => t ^ 3) ∧
      ∃ C : ℝ → ℝ, (∀ t, (x t).cov (y t) = some (C t)) ∧
        (fun t => C t - covar P (fun ω => F fun i => mu i + (t • s) i * X i ω) fun ω => G fun i => mu i + (t • s) i * X i ω) =o[𝓝 0] fun t : ℝ => t ^ 3 := by
  have := hX.prob
  obtain ⟨out, e, sc⟩ := scaled_all (s := s) (mom := mom) hinj hlt hp
  obtain ⟨c, b, a, S⟩ := sc k
  obtain ⟨c', b', a', S'⟩ := sc l
  have tab : ∀ t k, FineP (fun i m => ∃ j, ids j = i ∧ m = mom j) ((out t).getD k (UReal2.const 0)) := fun t k => evalU2_table hlt hp (e t) k
  have rep := fun t k => value_moments hinj hX (tab t k)
  have nF := near_quadr hB hk S.exp
  have nG := near_quadr hB hl S'.exp
  have mf := fun t => meas_F (mu := mu) (s := s) (c := c) hX.meas mF t
  have mg := fun t => meas_F (mu := mu) (s := s) (c := c') hX.meas mG t
  have me := fun t => (meas_quadr c b a hX.meas t).sub (aestronglyMeasurable_const (b := c))
  have me' := fun t => (meas_quadr c' b' a' hX.meas t).sub (aestronglyMeasurable_const (b := c'))
  have cF := nF.centre mf me
  have cG := nG.centre mg me'
  have iF := nF.integrable mf me
  have iG := nG.integrable mg me'
  have un : ∀ {q : Ω → ℝ} {c : ℝ}, Integrable (fun ω => q ω - c) P → Integrable q P := fun {q c} h => by
    exact (h.add (integrable_const c)).congr (ae_of_all _ fun ω => by simp)
  have ce : ∀ {q : Ω → ℝ} {c : ℝ}, Integrable q P → ∀ ω, q ω - c - ∫ ω', (q ω' - c) ∂P = q ω - ∫ ω', q ω' ∂P := fun {q c} h ω => by
    have := Law2.centre_const h (-c) ω
    simpa [sub_eq_add_neg, add_comm, add_left_comm, add_assoc] using this
  refine ⟨fun t => (out t).getD k (UReal2.const 0), fun t => (out t).getD l (UReal2.const 0), fun t => ⟨out t, e t, rfl, rfl⟩,
    iF.mono fun t h => un h.1, ?_, ?_, ?_⟩
  · refine ⟨_, fun t => (rep t k).mean, ?_⟩
    obtain ⟨r, r0, -, er⟩ := scaled_split S
    refine (nF.integral mf me).congr' ?_ (Eventually.of_forall fun t => rfl)
    filter_upwards [iF] with t h
    simp only [er]
    rw [integral_add (un h.2) ((lp_quadr hX hB 0 0 (r t)).integrable (by norm_num)), int_rest hX hB _ (r0 t), add_zero]
    rw [integral_sub (un h.1) (integrable_const _), integral_sub (un h.2) (integrable_const _)]
    ring
  · refine ⟨_, fun t => ⟨(rep t k).var, (rep t k).m 2 le_rfl (by norm_num)⟩, ?_⟩
    have h1 := scaled_cov hX hB S S
    have h2 := (cF.pow 2 (by norm_num)).integral (fun t => ((mf t).sub aestronglyMeasurable_const).pow 2) fun t => ((me t).sub aestronglyMeasurable_const).pow 2
    refine (h1.add h2).congr' ?_ (Eventually.of_forall fun t => rfl)
    filter_upwards [iF] with t h
    simp only [covar, central, ce (un h.1), ce (un h.2), pow_two]
    ring
  · refine ⟨_, fun t => value_cov hinj hX (tab t k) (tab t l), ?_⟩
    have h1 := scaled_cov hX hB S S'
    have h2 := (cF.mul cG).integral (fun t => ((mf t).sub aestronglyMeasurable_const).mul ((mg t).sub aestronglyMeasurable_const))
      fun t => ((me t).sub aestronglyMeasurable_const).mul ((me' t).sub aestronglyMeasurable_const)
    refine (h1.add h2).congr' ?_ (Eventually.of_forall fun t => rfl)
    filter_upwards [iF, iG] with t h h'
    simp only [covar, ce (un h.1), ce (un h.2), ce (un h'.1), ce (un h'.2)]
    ring

end prob

/-- `pow(x + y, 2)`, whose mixed second derivative is lost, and `(x + y) * (x + y)` -/
example := C70_mean_var_cov (ids := ![1, 2]) (mu := ![1, 1]) (s := ![1, 1]) (by decide) (by decide) exSquare_right
  (errors_twoPoint (ids := ![1, 2]) (by decide)) (twoPoint_bound ![1, 2]) (exSquare_fn 3 (Or.inl rfl)) (exSquare_fn 4 (Or.inr rfl)) (by fun_prop) (by fun_prop)

end Unc.Props
