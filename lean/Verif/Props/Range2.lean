import Verif.Lemmas.Range2Run
import Verif.Props.Range
import Verif.Props.Error2

/-!
# C81: overflow, infinities and NaN at second order
-/

namespace Unc.Props
open Unc.Spec HessGrad SMap Mom Ext

variable {f : Fmt} {M : ℝ}

theorem shown_of_weak {a : Ext f M} {b : FP f} (h : Weak a b) : Shown a b := is_of_weak h

/-- **C81** Overflows show.  In every calculation with the operators at second order, whatever the derivatives and moments of the given values, if no mean by which it divides is infinite: the means,
the uncertainty and the central moments which are ordinary numbers are those without a limit on the range. -/
theorem C81_visible_partial (hM : 2 ≤ M) (hh : HasHalf f) {env : ℕ → UReal2 (FP f)} (henv : ∀ i, Ok2 (env i)) {c : Calc2} (hc : Tame2 (limited M env) c) :
    ∃ x y, (∀ v, c.run v (limited M env) = some x) ∧ (∀ v, c.run v env = some y) ∧ Shown x.mu y.mu ∧
      (∀ n, 1 ≤ n ∧ n ≤ 4 → ∃ a b, x.m n = some a ∧ y.m n = some b ∧ Shown a b) ∧
      (∀ p, ∃ a b, x.n p = some a ∧ y.n p = some b ∧ Shown a b) ∧
      ∃ a b, x.s = some a ∧ y.s = some b ∧ Shown a b := by
  obtain ⟨x, y, hx, hy, h⟩ := run_beside hM hh henv hc
  refine ⟨x, y, hx, hy, shown_of_weak h.mu, fun n hn => ?_, fun p => ?_, ?_⟩
  · obtain ⟨a, b, h1, h2, w, -⟩ := h.m hn
    exact ⟨a, b, h1, h2, shown_of_weak w⟩
  · obtain ⟨a, b, h1, h2, w, -⟩ := h.m (n := 1) (by norm_num)
    cases p with
    | est => exact ⟨x.mu + -a, y.mu + -b, by rw [UReal2.n, h1]; rfl, by rw [UReal2.n, h2]; rfl, shown_of_weak (weak_add h.mu (weak_neg w))⟩
    | mean => exact ⟨x.mu + a, y.mu + b, by rw [UReal2.n, h1]; rfl, by rw [UReal2.n, h2]; rfl, shown_of_weak (weak_add h.mu w)⟩
  · obtain ⟨a, b, h1, h2, w, -⟩ := h.m (n := 2) (by norm_num)
    exact ⟨_, _, by rw [UReal2.s, h1]; rfl, by rw [UReal2.s, h2]; rfl, shown_of_weak (weak_sqrt w)⟩

/-- **C81** Covariances; skewness, kurtosis and correlation where the product by which they divide is not infinite. -/
theorem C81_ratios_partial (hM : 2 ≤ M) (hh : HasHalf f) {env : ℕ → UReal2 (FP f)} (henv : ∀ i, Ok2 (env i)) {c c' : Calc2} (hc : Tame2 (limited M env) c) (hc' : Tame2 (limited M env) c')
    {v : Moments (Ext f M)} {v' : Moments (FP f)} {x x' : UReal2 (Ext f M)} {y y' : UReal2 (FP f)} (hx : c.run v (limited M env) = some x) (hy : c.run v' env = some y)
    (hx' : c'.run v (limited M env) = some x') (hy' : c'.run v' env = some y') :
    (∃ a b, UReal2.cov x x' = some a ∧ UReal2.cov y y' = some b ∧ Shown a b) ∧
    (∀ s s', x.s = some s → x'.s = some s' → ¬ Infinite (s * s') → ∃ a b, UReal2.corr x x' = some a ∧ UReal2.corr y y' = some b ∧ Shown a b) ∧
    (∀ s m, x.s = some s → x.m 2 = some m → ¬ Infinite (s * m) → ∃ a b, x.skew = some a ∧ y.skew = some b ∧ Shown a b) ∧
    ∀ m, x.m 2 = some m → ¬ Infinite (m * m) → ∃ a b, x.kurt = some a ∧ y.kurt = some b ∧ Shown a b := by
  obtain ⟨x0, y0, h1, h2, h⟩ := run_beside hM hh henv hc
  obtain ⟨x1, y1, h1', h2', h'⟩ := run_beside hM hh henv hc'
  rw [h1, Option.some_inj] at hx
  rw [h2, Option.some_inj] at hy
  rw [h1', Option.some_inj] at hx'
  rw [h2', Option.some_inj] at hy'
  subst hx hy hx' hy'
  obtain ⟨a2, b2, ha2, hb2, w2, -⟩ := h.m (n := 2) (by norm_num)
  obtain ⟨a3, b3, ha3, hb3, w3, -⟩ := h.m (n := 3) (by norm_num)
  obtain ⟨a4, b4, ha4, hb4, w4, -⟩ := h.m (n := 4) (by norm_num)
  obtain ⟨a2', b2', ha2', hb2', w2', -⟩ := h'.m (n := 2) (by norm_num)
  obtain ⟨c0, d0, hc0, hd0, wc⟩ := h.cov h'
  have sx : x0.s = some (CSqrt.sqrt a2) := by rw [UReal2.s, ha2]; rfl
  have sy : y0.s = some (CSqrt.sqrt b2) := by rw [UReal2.s, hb2]; rfl
  have sx' : x1.s = some (CSqrt.sqrt a2') := by rw [UReal2.s, ha2']; rfl
  have sy' : y1.s = some (CSqrt.sqrt b2') := by rw [UReal2.s, hb2']; rfl
  refine ⟨⟨c0, d0, hc0, hd0, shown_of_weak wc⟩, fun s s' hs hs' hn => ?_, fun s m hs hm hn => ?_, fun m hm hn => ?_⟩
  · rw [sx, Option.some_inj] at hs
    rw [sx', Option.some_inj] at hs'
    subst hs hs'
    exact ⟨_, _, by rw [UReal2.corr, hc0, sx, sx']; rfl, by rw [UReal2.corr, hd0, sy, sy']; rfl, shown_of_weak (weak_div wc (weak_mul (weak_sqrt w2) (weak_sqrt w2')) hn)⟩
  · rw [sx, Option.some_inj] at hs
    rw [ha2, Option.some_inj] at hm
    subst hs hm
    exact ⟨_, _, by rw [UReal2.skew, ha3, sx, ha2]; rfl, by rw [UReal2.skew, hb3, sy, hb2]; rfl, shown_of_weak (weak_div w3 (weak_mul (weak_sqrt w2) w2) hn)⟩
  · rw [ha2, Option.some_inj] at hm
    subst hm
    exact ⟨_, _, by rw [UReal2.kurt, ha2, ha4]; rfl, by rw [UReal2.kurt, hb2, hb4]; rfl, shown_of_weak (weak_div w4 (weak_mul w2 w2) hn)⟩

theorem fold_not_fin {α : Type*} {g : Ext f M → α → Ext f M} (h1 : ∀ a p, ¬ Spec.Finite a → ¬ Spec.Finite (g a p)) {p : α} (h2 : ∀ a, ¬ Spec.Finite (g a p)) : ∀ (l : List α) (a : Ext f M),
    p ∈ l → ¬ Spec.Finite (l.foldl g a)
  | q :: l, a, h => by
    have keep : ∀ (l : List α) (a : Ext f M), ¬ Spec.Finite a → ¬ Spec.Finite (l.foldl g a) := by
      intro l
      induction l with
      | nil => exact fun _ h => h
      | cons q l ih => exact fun a h => ih _ (h1 a q h)
    rw [List.foldl_cons]
    rcases List.mem_cons.1 h with rfl | h
    · exact keep l _ (h2 a)
    · exact fold_not_fin h1 h2 l _ h

theorem fold_keep {α : Type*} {g : Ext f M → α → Ext f M} (h1 : ∀ a p, ¬ Spec.Finite a → ¬ Spec.Finite (g a p)) : ∀ (l : List α) (a : Ext f M), ¬ Spec.Finite a → ¬ Spec.Finite (l.foldl g a)
  | [], _, h => h
  | q :: l, a, h => fold_keep h1 l _ (h1 a q h)

/-- **C81** A derivative which is infinite or NaN makes the variance and the uncertainty infinite or NaN; a second derivative with respect to one variable also the mean. -/
theorem C81_shown {x : UReal2 (Ext f M)} (hx : Ok2 x) :
    ((∃ p ∈ x.hg.diagmap, ¬ Spec.Finite p.2.grad ∨ ¬ Spec.Finite p.2.hhess) ∨ (∃ p ∈ x.hg.trimap, ¬ Spec.Finite p.2) → ∃ a s, x.m 2 = some a ∧ x.s = some s ∧ ¬ Spec.Finite a ∧ ¬ Spec.Finite s) ∧
    ((∃ p ∈ x.hg.diagmap, ¬ Spec.Finite p.2.hhess) → ∀ p, ∃ a, x.n p = some a ∧ ¬ Spec.Finite a) := by
  have kA : ∀ (a : Ext f M) (p : VId × Diag (Ext f M)), ¬ Spec.Finite a → ¬ Spec.Finite (m2A a p.2) := fun a p h => not_fin_add_left (not_fin_add_left (not_fin_add_left h))
  have kB : ∀ (a : Ext f M) (e : Ent (Ext f M)), ¬ Spec.Finite a → ¬ Spec.Finite (m2B a e) := fun a p h => not_fin_add_left h
  constructor
  · intro h
    obtain ⟨a, ha⟩ := Option.isSome_iff_exists.1 (m_isSome_any hx (n := 2) (by norm_num))
    have e := triEntries_full x.hg hx.valid
    have e2 : compute x.hg 2 = some (((pairsFrom x.hg.diagmap).map (entPair x.hg.trimap)).foldl m2B (x.hg.diagmap.foldl (fun m it => m2A m it.2) 0)) := by
      rw [compute, m2, e]; rfl
    have hm : x.m 2 = some ((((pairsFrom x.hg.diagmap).map (entPair x.hg.trimap)).foldl m2B (x.hg.diagmap.foldl (fun m it => m2A m it.2) 0)) - m1 x.hg * m1 x.hg) := by
      have e1 : compute x.hg 1 = some (m1 x.hg) := rfl
      simp only [UReal2.m, UReal2.momArray, UReal2.updateMom, e1, e2, Option.bind_some, Option.map_some]
      rfl
    refine ⟨_, _, hm, by rw [UReal2.s, hm]; rfl, ?_⟩
    have key : ¬ Spec.Finite (((pairsFrom x.hg.diagmap).map (entPair x.hg.trimap)).foldl m2B (x.hg.diagmap.foldl (fun m it => m2A m it.2) 0)) := by
      rcases h with ⟨p, hp, h⟩ | ⟨p, hp, h⟩
      · refine fold_keep kB _ _ (fold_not_fin kA (p := p) (fun a => ?_) _ _ hp)
        rcases h with h | h
        · exact not_fin_add_left (not_fin_add_left (not_fin_add_right (not_fin_mul_left h)))
        · exact not_fin_add_right (not_fin_mul_left (not_fin_mul_left h))
      · obtain ⟨k, w⟩ := p
        obtain ⟨i, j, rfl⟩ : ∃ i j : VId, k = toLex (i, j) := ⟨(ofLex k).1, (ofLex k).2, rfl⟩
        obtain ⟨hij, hi, hj⟩ := hx.valid.tri i j (List.mem_map.2 ⟨_, hp, rfl⟩)
        obtain ⟨p, hpm, rfl⟩ := List.mem_map.1 hi
        obtain ⟨q, hqm, rfl⟩ := List.mem_map.1 hj
        refine fold_not_fin kB (p := entPair x.hg.trimap (p, q)) (fun a => ?_) _ _ (List.mem_map.2 ⟨_, (mem_pairsFrom hx.valid.dsorted (p, q)).2 ⟨hpm, hqm, hij⟩, rfl⟩)
        have hw : SMap.get x.hg.trimap (toLex (p.1, q.1)) = w := by rw [SMap.get, find?_of_mem hx.valid.tsorted hp]; rfl
        have h' : ¬ Spec.Finite (entPair x.hg.trimap (p, q)).val := by rw [entPair, hw]; exact h
        exact not_fin_add_right (not_fin_mul_right (not_fin_add_right (not_fin_mul_right h')))
    exact ⟨not_fin_sub_left key, not_fin_sqrt (not_fin_sub_left key)⟩
  · rintro ⟨p, hp, h⟩ q
    have b : ¬ Spec.Finite (m1 x.hg) := fold_not_fin (g := fun m (it : VId × Diag (Ext f M)) => m + it.2.hhess) (fun a p h => not_fin_add_left h) (p := p) (fun a => not_fin_add_right h) _ _ hp
    have e1 : x.m 1 = some (m1 x.hg) := rfl
    cases q with
    | est => exact ⟨_, by rw [UReal2.n, e1]; rfl, not_fin_add_right (not_fin_neg b)⟩
    | mean => exact ⟨_, by rw [UReal2.n, e1]; rfl, not_fin_add_right b⟩

theorem dbl_half : HasHalf dblFmt := by
  constructor
  · have := ieee_int (p := 53) (emin := -1022) (by norm_num) (by norm_num) 1 1 (by norm_num) (by norm_num)
    simpa using this
  · have := ieee_int (p := 53) (emin := -1022) (by norm_num) (by norm_num) 1 (-1) (by norm_num) (by norm_num)
    simpa using this

theorem two_le_dblMax : 2 ≤ dblMax := by
  refine le_trans ?_ le_dblMax
  calc (2 : ℝ) = 2 ^ (1 : ℤ) := by norm_num
    _ ≤ 2 ^ (1023 : ℤ) := zpow_le_zpow_right₀ (by norm_num) (by norm_num)

theorem dbl_add_zero (a : Dbl) : a + 0 = a := by
  rw [zero_eq one_le_dblMax]
  cases a with
  | fin a h =>
    have e : a + 0 = a := FP.ext (by rw [FP.val_add, FP.val_zero, add_zero, a.rep])
    rw [fin_add, e, ofFP_of_le]
  | inf s => rfl
  | nan => rfl

theorem dbl_zero_add' (a : Dbl) : 0 + a = a := by
  rw [zero_eq one_le_dblMax]
  cases a with
  | fin a h =>
    have e : 0 + a = a := FP.ext (by rw [FP.val_add, FP.val_zero, zero_add, a.rep])
    rw [fin_add, e, ofFP_of_le]
  | inf s => rfl
  | nan => rfl

theorem dbl_sub_zero (a : Dbl) : a - 0 = a := by
  rw [zero_eq one_le_dblMax]
  cases a with
  | fin a h =>
    have e : a - 0 = a := FP.ext (by rw [FP.val_sub, FP.val_zero, sub_zero, a.rep])
    rw [show (Ext.fin a h : Dbl) - Ext.fin 0 _ = ofFP dblMax (a - 0) from rfl, e, ofFP_of_le]
  | inf s => rfl
  | nan => rfl

theorem dbl_mul_zero' {a : Dbl} (h : Spec.Finite a) : a * 0 = 0 := by
  rw [zero_eq one_le_dblMax]
  cases a with
  | fin a h =>
    have e : a * 0 = 0 := FP.ext (by rw [FP.val_mul, FP.val_zero, mul_zero, Fmt.rd_zero])
    rw [fin_mul, e, ofFP_of_le]
  | inf s => exact absurd h (by rintro ⟨_, _, _, h, _⟩; cases h)
  | nan => exact absurd h (by rintro ⟨_, _, _, h, _⟩; cases h)

theorem dbl_zero_mul' {a : Dbl} (h : Spec.Finite a) : 0 * a = 0 := by
  rw [zero_eq one_le_dblMax]
  cases a with
  | fin a h =>
    have e : 0 * a = 0 := FP.ext (by rw [FP.val_mul, FP.val_zero, zero_mul, Fmt.rd_zero])
    rw [fin_mul, e, ofFP_of_le]
  | inf s => exact absurd h (by rintro ⟨_, _, _, h, _⟩; cases h)
  | nan => exact absurd h (by rintro ⟨_, _, _, h, _⟩; cases h)

/-- a factor, a second one and a value to be divided by their product -/
noncomputable def exBig2 : ℕ → UReal2 (FP dblFmt)
  | 0 => UReal2.const (qf 1 512)
  | 1 => ⟨⟨[(1, ⟨qf 1 0, 0, ⟨0, qf 1 1, 0, qf 1 4, 0, qf 1 8⟩⟩)], []⟩, qf 1 512⟩
  | _ => UReal2.const (qf 1 1000)

def exQuot2 : Calc2 := .div (.leaf 2) (.mul (.leaf 0) (.leaf 1))

theorem const_single {R : Type*} [Zero R] [One R] [Neg R] [Add R] [Sub R] [Mul R] [Div R] [NatCast R] [CCmp R] (u : Moments R) (a : R) {i : VId} (hi : i < maxId) (d : Diag R) (b : R) (fxy dx dy hx hy hxy : R) :
    UReal2.binary u (UReal2.const a) ⟨⟨[(i, d)], []⟩, b⟩ fxy dx dy hx hy hxy =
      some ⟨⟨[(i, ⟨0 + dy * d.grad, 0 + hy / Mom.lit 2 * d.grad * d.grad + dy * d.hhess, d.mom⟩)], []⟩, fxy⟩ := by
  have e1 : ∀ k, HessGrad.hessEntries ⟨[(i, d)], []⟩ k = some [⟨i, i, d, d, d.hhess⟩] := by
    intro k
    rw [hessEntries_eq _ ⟨by simp [Sorted, keys], by simp [Sorted, keys], by simp [keys]⟩]
    cases k <;> simp [hessSpec, dOf]
  have e2 : ∀ k, HessGrad.hessEntries (⟨[], []⟩ : HessGrad R) k = some [] := by
    intro k
    cases k <;> rfl
  have h : toLex (i, i) < toLex (maxId, maxId) := Prod.Lex.toLex_lt_toLex.2 (Or.inl hi)
  simp [UReal2.binary, UReal2.const, e1, e2, UReal2.binaryLoop, h, UReal2.binaryYNew, UReal2.binaryY, modHhess, modDiag, SMap.upsert, HessGrad.empty, newDiag, UReal2.mixedLoop]

theorem exQuot2_run (v : Moments Dbl) : exQuot2.run v (limited dblMax exBig2) = some ⟨⟨[(1, ⟨0, 0, ⟨0, pd 1, 0, pd 4, 0, pd 8⟩⟩)], []⟩, 0⟩ := by
  have z : ofFP dblMax (0 : FP dblFmt) = 0 := rfl
  have l2 : (Mom.lit 2 : Dbl) = pd 1 := by
    change ofFP dblMax (FP.round dblFmt _) = ofFP dblMax (FP.round dblFmt _)
    norm_num
  have i : pd 0 / pd 1024 = 0 := by rw [show pd 1024 = .inf false from qd_inf le_rfl, ← one_pd, one_div_inf]
  have i2 : pd 1000 / pd 1024 = 0 := by rw [show pd 1024 = .inf false from qd_inf le_rfl, pd, qd, ofFP_of_le (pf_le (by norm_num) (by norm_num))]; rfl
  have e0 : limited dblMax exBig2 0 = UReal2.const (pd 512) := rfl
  have e2 : limited dblMax exBig2 2 = UReal2.const (pd 1000) := rfl
  have e1 : limited dblMax exBig2 1 = ⟨⟨[(1, ⟨pd 0, 0, ⟨0, pd 1, 0, pd 4, 0, pd 8⟩⟩)], []⟩, pd 512⟩ := rfl
  have h0 : (0 : Dbl) / pd 1 = 0 := by rw [← l2]; exact zero_half two_le_dblMax dbl_half
  have fp : ∀ {k : ℤ}, -1074 ≤ k → k ≤ 1023 → Spec.Finite (pd k) := fun a b => ⟨_, pd_is a b⟩
  have hn : -pd 1000 * 0 = 0 := dbl_mul_zero' (fin_neg (fp (by norm_num) (by norm_num)))
  have h1 : (1 : VId) < maxId := by decide
  have e3 : UReal2.mul v (UReal2.const (pd 512)) ⟨⟨[(1, ⟨pd 0, 0, ⟨0, pd 1, 0, pd 4, 0, pd 8⟩⟩)], []⟩, pd 512⟩ =
      some ⟨⟨[(1, ⟨pd 512, 0, ⟨0, pd 1, 0, pd 4, 0, pd 8⟩⟩)], []⟩, pd 1024⟩ := by
    rw [UReal2.mul, const_single _ _ h1]
    simp (disch := norm_num) only [l2, h0, zero_mul_pd, pd_mul_zero, dbl_zero_add, dbl_zero_add', pd_mul, UReal2.const]
    norm_num
  have e4 : UReal2.div v (UReal2.const (pd 1000)) ⟨⟨[(1, ⟨pd 512, 0, ⟨0, pd 1, 0, pd 4, 0, pd 8⟩⟩)], []⟩, pd 1024⟩ =
      some ⟨⟨[(1, ⟨0, 0, ⟨0, pd 1, 0, pd 4, 0, pd 8⟩⟩)], []⟩, 0⟩ := by
    rw [UReal2.div, const_single _ _ h1]
    simp (disch := norm_num) only [UReal2.const, one_pd, i, i2, dbl_zero_mul, hn, l2, zero_mul_pd, pd_mul_zero, h0, dbl_zero_add, pd_mul]
  simp only [exQuot2, Calc2.run, e0, e1, e2, Option.bind_some, e3, e4]

theorem ok_fresh {R : Type*} {i : VId} (h : i < maxId) (d : Diag R) (b : R) : Ok2 ⟨⟨[(i, d)], []⟩, b⟩ :=
  ⟨⟨by simp [Sorted, keys], by simp [Sorted, keys], by simp [keys]⟩, by simp [Below, keys, h]⟩

theorem ok_plain {R : Type*} (b : R) : Ok2 (UReal2.const b) :=
  ⟨⟨by simp [Sorted, keys, UReal2.const, HessGrad.empty], by simp [Sorted, keys, UReal2.const, HessGrad.empty], by simp [keys, UReal2.const, HessGrad.empty]⟩,
    by simp [Below, keys, UReal2.const, HessGrad.empty]⟩

theorem ok_exBig2 (i : ℕ) : Ok2 (exBig2 i) := by
  rcases i with _ | _ | i
  · exact ok_plain _
  · exact ok_fresh (by decide) _ _
  · exact ok_plain _

/-- **C81** An overflow which does not show: `x / (y * z)` for x = 2^1000 and y = 2^512, without uncertainty, and z = 2^512 ± 1. -/
theorem C81_divide_false : ∃ x y, (∀ v, exQuot2.run v (limited dblMax exBig2) = some x) ∧ (∀ v, exQuot2.run v exBig2 = some y) ∧
    Is x.mu 0 ∧ (∀ p, ∃ a, x.n p = some a ∧ Is a 0) ∧ (∃ a, x.s = some a ∧ Is a 0) ∧ y.mu.val = 2 ^ (-24 : ℤ) := by
  have h1 : (1 : VId) < maxId := by decide
  have run : ∃ y, (∀ v, exQuot2.run v exBig2 = some y) ∧ y.mu = qf 1 1000 / (qf 1 512 * qf 1 512) := by
    obtain ⟨x, hx⟩ : ∃ x, exQuot2.run ⟨0, 0, 0, 0, 0, 0⟩ exBig2 = some x := by
      simp only [exQuot2, Calc2.run, exBig2, Option.bind_some, UReal2.mul, UReal2.div]
      rw [const_single _ _ h1, Option.bind_some, const_single _ _ h1]
      exact ⟨_, rfl⟩
    refine ⟨x, fun v => ?_, ?_⟩
    · rw [← hx]
      simp only [exQuot2, Calc2.run, exBig2, Option.bind_some, UReal2.mul, UReal2.div]
      rw [const_single _ _ h1, Option.bind_some, const_single _ _ h1, const_single _ _ h1, Option.bind_some, const_single _ _ h1]
    · simp only [exQuot2, Calc2.run, exBig2, Option.bind_some, UReal2.mul, UReal2.div] at hx
      rw [const_single _ _ h1, Option.bind_some, const_single _ _ h1, Option.some_inj] at hx
      rw [← hx]
      rfl
  obtain ⟨y, hy, e⟩ := run
  have fp : ∀ {k : ℤ}, -1074 ≤ k → k ≤ 1023 → Spec.Finite (pd k) := fun a b => ⟨_, pd_is a b⟩
  refine ⟨_, _, exQuot2_run, hy, is_zero, fun p => ?_, ⟨0, ?_, is_zero⟩, ?_⟩
  · cases p with
    | est => exact ⟨_, rfl, by simpa [m1, dbl_zero_add, dbl_neg_zero] using is_zero⟩
    | mean => exact ⟨_, rfl, by simpa [m1, dbl_zero_add] using is_zero⟩
  · have l2 : Spec.Finite (Mom.lit 2 : Dbl) := by
      obtain ⟨h, e, -⟩ := lit_two (f := dblFmt) two_le_dblMax dbl_half
      exact ⟨_, _, h, e, rfl⟩
    have t : HessGrad.triEntries (⟨[(1, ⟨0, 0, ⟨0, pd 1, 0, pd 4, 0, pd 8⟩⟩)], []⟩ : HessGrad Dbl) false = some [] := rfl
    simp (disch := norm_num) [UReal2.s, UReal2.m, UReal2.momArray, UReal2.updateMom, compute, m1, m2, t, m2A, dbl_zero_add, dbl_zero_mul, dbl_mul_zero' l2, dbl_sub_zero, zero_mul_pd, dbl_sqrt_zero]
  · rw [e, qf_mul (by norm_num) (by norm_num) (by norm_num) (by norm_num), FP.val_div, qf_val (by norm_num) (by norm_num), qf_val (by norm_num) (by norm_num)]
    have := qf_val (N := 1) (k := -24) (by norm_num) (by norm_num)
    have h : (((1 : ℤ) : ℝ) * 2 ^ (1000 : ℤ) / (((1 * 1 : ℤ) : ℝ) * 2 ^ (512 + 512 : ℤ))) = ((1 : ℤ) : ℝ) * 2 ^ (-24 : ℤ) := by
      push_cast
      rw [one_mul, one_mul, ← zpow_sub₀ (by norm_num)]
      norm_num
    rw [h]
    exact this.trans (by push_cast; ring)

theorem two_fresh {R : Type*} [Zero R] [One R] [Neg R] [Add R] [Sub R] [Mul R] [Div R] [NatCast R] [CCmp R] (u : Moments R) {i j : VId} (hij : i < j) (hj : j < maxId) (d e : Diag R) (a b : R) (fxy dx dy hx hy hxy : R)
    (h : CCmp.eqb (hxy / Mom.lit 2) 0 = true) :
    UReal2.binary u ⟨⟨[(i, d)], []⟩, a⟩ ⟨⟨[(j, e)], []⟩, b⟩ fxy dx dy hx hy hxy =
      some ⟨⟨[(i, ⟨dx * d.grad, hx / Mom.lit 2 * d.grad * d.grad + dx * d.hhess, d.mom⟩), (j, ⟨0 + dy * e.grad, 0 + hy / Mom.lit 2 * e.grad * e.grad + dy * e.hhess, e.mom⟩)], []⟩, fxy⟩ := by
  have e1 : ∀ i (d : Diag R) k, HessGrad.hessEntries ⟨[(i, d)], []⟩ k = some [⟨i, i, d, d, d.hhess⟩] := by
    intro i d k
    rw [hessEntries_eq _ ⟨by simp [Sorted, keys], by simp [Sorted, keys], by simp [keys]⟩]
    cases k <;> simp [hessSpec, dOf]
  have h1 : toLex (i, i) < toLex (j, j) := Prod.Lex.toLex_lt_toLex.2 (Or.inl hij)
  have h2 : toLex (j, j) < toLex (maxId, maxId) := Prod.Lex.toLex_lt_toLex.2 (Or.inl hj)
  simp [UReal2.binary, e1, UReal2.binaryLoop, h, h1, h2, UReal2.binaryX, UReal2.binaryYNew, UReal2.binaryY, modHhess, modDiag, SMap.upsert, HessGrad.empty, newDiag, hij, hij.not_gt, hij.ne', hij.ne]

/-- two variables with wide and skewed distributions -/
noncomputable def exWide2 : ℕ → UReal2 (FP dblFmt)
  | 0 => ⟨⟨[(1, ⟨qf 1 341, 0, ⟨qf 1 (-3), qf 1 2, qf 1 0, qf 1 5, qf 1 0, qf 1 9⟩⟩)], []⟩, 0⟩
  | 1 => ⟨⟨[(2, ⟨qf 1 341, 0, ⟨qf 1 (-3), qf 1 2, qf 1 0, qf 1 5, qf 1 0, qf 1 9⟩⟩)], []⟩, 0⟩
  | _ => UReal2.const 0

theorem ok_exWide2 (i : ℕ) : Ok2 (exWide2 i) := by
  rcases i with _ | _ | i
  · exact ok_fresh (by decide) _ _
  · exact ok_fresh (by decide) _ _
  · exact ok_plain _

noncomputable def exWideMom : Moments Dbl := ⟨pd (-3), pd 2, pd 0, pd 5, pd 0, pd 9⟩

theorem exWide2_run (v : Moments Dbl) : (Calc2.add (.leaf 0) (.leaf 1)).run v (limited dblMax exWide2) = some ⟨⟨[(1, ⟨pd 341, 0, exWideMom⟩), (2, ⟨pd 341, 0, exWideMom⟩)], []⟩, 0⟩ := by
  have e0 : limited dblMax exWide2 0 = ⟨⟨[(1, ⟨pd 341, 0, exWideMom⟩)], []⟩, 0⟩ := rfl
  have e1 : limited dblMax exWide2 1 = ⟨⟨[(2, ⟨pd 341, 0, exWideMom⟩)], []⟩, 0⟩ := rfl
  have h0 : (0 : Dbl) / Mom.lit 2 = 0 := zero_half two_le_dblMax dbl_half
  simp only [Calc2.run, e0, e1, Option.bind_some, UReal2.add]
  rw [two_fresh _ (by decide) (by decide) _ _ _ _ _ _ _ _ _ _ (by rw [h0, zero_eq one_le_dblMax, fin_eqb])]
  simp (disch := norm_num) only [h0, zero_mul_pd, one_pd, pd_mul_zero, dbl_zero_add, dbl_zero_add', pd_mul]
  norm_num

theorem exWide2_moments : let x : UReal2 Dbl := ⟨⟨[(1, ⟨pd 341, 0, exWideMom⟩), (2, ⟨pd 341, 0, exWideMom⟩)], []⟩, 0⟩
    x.m 2 = some (pd 683) ∧ x.m 3 = some (pd 1021) := by
  intro x
  have fp : ∀ {k : ℤ}, -1074 ≤ k → k ≤ 1023 → Spec.Finite (pd k) := fun a b => ⟨_, pd_is a b⟩
  have l2 : Spec.Finite (Mom.lit 2 : Dbl) := by
    obtain ⟨h, e, -⟩ := lit_two (f := dblFmt) two_le_dblMax dbl_half
    exact ⟨_, _, h, e, rfl⟩
  have t : HessGrad.triEntries (⟨[(1, ⟨pd 341, 0, exWideMom⟩), (2, ⟨pd 341, 0, exWideMom⟩)], []⟩ : HessGrad Dbl) false = some [⟨1, 2, ⟨pd 341, 0, exWideMom⟩, ⟨pd 341, 0, exWideMom⟩, 0⟩] := rfl
  have t' : HessGrad.triEntries (⟨[(1, ⟨pd 341, 0, exWideMom⟩), (2, ⟨pd 341, 0, exWideMom⟩)], []⟩ : HessGrad Dbl) true = some [] := rfl
  have ad : ∀ {k : ℤ}, -1074 ≤ k → k ≤ 1022 → pd k + pd k = pd (k + 1) := by
    intro k h1 h2
    rw [pd, qd_add (by norm_num) h1 (by norm_num) (pf_le h1 (by omega)) (pf_le h1 (by omega)), pd, qd, qd, qf, qf]
    congr 2
    rw [zpow_add_one₀ (by norm_num)]
    push_cast
    ring
  have ln : ∀ n : ℕ, (Mom.lit n : Dbl) = qd n 0 := by
    intro n
    change ofFP dblMax (FP.round dblFmt _) = ofFP dblMax (FP.round dblFmt _)
    congr 2
    norm_num
  have qq : ∀ {n k : ℤ}, 0 ≤ n → n ≤ 6 → 0 ≤ k → k ≤ 1000 → |(qf n k).val| ≤ dblMax := by
    intro n k h1 h2 h3 h4
    have : |n| ≤ 6 := by rw [abs_of_nonneg h1]; exact h2
    exact qd_fin 3 (lt_of_le_of_lt this (by norm_num)) (by omega) (this.trans (by norm_num)) (by push_cast; omega)
  have qs : ∀ {n : ℤ}, 0 ≤ n → n ≤ 6 → |n| < 2 ^ 53 := by
    intro n h1 h2
    rw [abs_of_nonneg h1]; omega
  have lm : ∀ {n k k' : ℤ}, 0 ≤ n → n ≤ 6 → 0 ≤ k → k ≤ 1000 → 0 ≤ k' → k' ≤ 1000 → qd n k * pd k' = qd n (k + k') := by
    intro n k k' h1 h2 h3 h4 h5 h6
    rw [pd, qd_mul (qs h1 h2) (by omega) (by norm_num) (by omega) (qq h1 h2 h3 h4) (pf_le (by omega) (by omega)), mul_one]
  have lz : ∀ {n k : ℤ}, 0 ≤ n → n ≤ 6 → 0 ≤ k → k ≤ 1000 → qd n k * 0 = 0 := fun h1 h2 h3 h4 => dbl_mul_zero' ⟨_, _, qq h1 h2 h3 h4, ofFP_of_le _, rfl⟩
  have zl : ∀ {n k : ℤ}, 0 ≤ n → n ≤ 6 → 0 ≤ k → k ≤ 1000 → 0 * qd n k = 0 := fun h1 h2 h3 h4 => dbl_zero_mul' ⟨_, _, qq h1 h2 h3 h4, ofFP_of_le _, rfl⟩
  have h1 : compute x.hg 1 = some 0 := by
    simp [compute, m1, x, dbl_zero_add]
  have h2 : compute x.hg 2 = some (pd 683) := by
    simp only [compute, m2, x, t, Option.map_some, List.foldl, m2A, m2B]
    simp (disch := norm_num) only [ln, pd_mul, Nat.cast_ofNat, lm, lz, zl, pd_mul_zero, zero_mul_pd, dbl_zero_mul, dbl_add_zero, dbl_zero_add', exWideMom]
    rw [ad (by norm_num) (by norm_num)]
    norm_num only
  have h3 : compute x.hg 3 = some (pd 1021) := by
    simp only [compute, m3, x, t', Option.bind_some, forTails, List.foldl, m3A, m3B, m3C, m3F]
    simp (disch := norm_num) only [ln, pd_mul, Nat.cast_ofNat, lm, lz, zl, pd_mul_zero, zero_mul_pd, dbl_zero_mul, dbl_add_zero, dbl_zero_add', exWideMom]
    rw [ad (by norm_num) (by norm_num)]
    norm_num only
  constructor
  · simp (disch := norm_num) only [UReal2.m, UReal2.momArray, UReal2.updateMom, h1, h2, Option.bind_some, Option.map_some, dbl_zero_mul, dbl_sub_zero]
    rfl
  · simp (disch := norm_num) only [UReal2.m, UReal2.momArray, UReal2.updateMom, h1, h2, h3, Option.bind_some, Option.map_some, dbl_zero_mul, dbl_sub_zero, ln, Nat.cast_ofNat, lm, dbl_add_zero, zl]
    rfl

theorem is_once {a : Ext f M} {v w : ℝ} (h : Is a v) (h' : Is a w) : v = w := by
  obtain ⟨b, hb, rfl, rfl⟩ := h
  obtain ⟨c, hc, e, rfl⟩ := h'
  cases e
  rfl

theorem rd_pow {k : ℤ} (hk : -1074 ≤ k) : dblFmt.rd (2 ^ k) = 2 ^ k := by
  have := qf_val (N := 1) (k := k) (by norm_num) hk
  rw [Int.cast_one, one_mul] at this
  rw [← this, (qf 1 k).rep]

theorem wide_root : 2 ^ (341 : ℤ) ≤ dblFmt.rd (√(2 ^ (683 : ℤ))) ∧ dblFmt.rd (√(2 ^ (683 : ℤ))) ≤ 2 ^ (342 : ℤ) := by
  constructor
  · rw [← rd_pow (k := 341) (by norm_num)]
    refine dblFmt.mono (Real.le_sqrt_of_sq_le ?_)
    rw [← zpow_natCast, ← zpow_mul]
    exact zpow_le_zpow_right₀ (by norm_num) (by norm_num)
  · rw [← rd_pow (k := 342) (by norm_num)]
    refine dblFmt.mono (Real.sqrt_le_iff.2 ⟨by positivity, ?_⟩)
    rw [← zpow_natCast, ← zpow_mul]
    exact zpow_le_zpow_right₀ (by norm_num) (by norm_num)

theorem wide_product : 2 ^ (1024 : ℤ) ≤ dblFmt.rd (dblFmt.rd (√(2 ^ (683 : ℤ))) * 2 ^ (683 : ℤ)) ∧ dblFmt.rd (dblFmt.rd (√(2 ^ (683 : ℤ))) * 2 ^ (683 : ℤ)) ≤ 2 ^ (1025 : ℤ) := by
  have p : (0 : ℝ) ≤ 2 ^ (683 : ℤ) := by positivity
  constructor
  · rw [← rd_pow (k := 1024) (by norm_num)]
    refine dblFmt.mono (le_trans (le_of_eq ?_) (mul_le_mul_of_nonneg_right wide_root.1 p))
    rw [← zpow_add₀ (by norm_num)]; norm_num
  · rw [← rd_pow (k := 1025) (by norm_num)]
    refine dblFmt.mono (le_trans (mul_le_mul_of_nonneg_right wide_root.2 p) (le_of_eq ?_))
    rw [← zpow_add₀ (by norm_num)]; norm_num

/-- **C81** The skewness of a sum of two variables with standard deviation 2^341 and skewness 1/8 is given as 0 in the arithmetic of double. -/
theorem C81_skew_false : ∃ x y a b, (∀ v, (Calc2.add (.leaf 0) (.leaf 1)).run v (limited dblMax exWide2) = some x) ∧ (∀ v, (Calc2.add (.leaf 0) (.leaf 1)).run v exWide2 = some y) ∧
    x.skew = some a ∧ Is a 0 ∧ y.skew = some b ∧ 1 / 16 ≤ b.val := by
  obtain ⟨x, y, hx, hy, -, hm, -, -⟩ := C81_visible_partial two_le_dblMax dbl_half ok_exWide2 (c := .add (.leaf 0) (.leaf 1)) ⟨trivial, trivial⟩
  have hx' := hx ⟨0, 0, 0, 0, 0, 0⟩
  rw [exWide2_run, Option.some_inj] at hx'
  have m2 : x.m 2 = some (pd 683) := by rw [← hx']; exact exWide2_moments.1
  have m3 : x.m 3 = some (pd 1021) := by rw [← hx']; exact exWide2_moments.2
  obtain ⟨a2, b2, h1, h2, s2⟩ := hm 2 (by norm_num)
  obtain ⟨a3, b3, h1', h2', s3⟩ := hm 3 (by norm_num)
  rw [m2, Option.some_inj] at h1
  rw [m3, Option.some_inj] at h1'
  subst h1 h1'
  have v2 : b2.val = 2 ^ (683 : ℤ) := is_once (s2 ⟨_, pd_is (by norm_num) (by norm_num)⟩) (pd_is (by norm_num) (by norm_num))
  have v3 : b3.val = 2 ^ (1021 : ℤ) := is_once (s3 ⟨_, pd_is (by norm_num) (by norm_num)⟩) (pd_is (by norm_num) (by norm_num))
  have root : CSqrt.sqrt (pd 683) * pd 683 = (.inf false : Dbl) := by
    have q : (qf 1 683).val = 2 ^ (683 : ℤ) := by rw [qf_val (by norm_num) (by norm_num)]; simp
    have r : (CSqrt.sqrt (qf 1 683) : FP dblFmt).val = dblFmt.rd (√(2 ^ (683 : ℤ))) := by rw [FP.val_sqrt, q]
    have b : |(CSqrt.sqrt (qf 1 683) : FP dblFmt).val| ≤ dblMax := by
      rw [r, abs_of_nonneg (le_trans (by positivity) wide_root.1)]
      exact wide_root.2.trans (le_trans (zpow_le_zpow_right₀ (by norm_num) (by norm_num)) le_dblMax)
    have e : CSqrt.sqrt (pd 683) = (.fin (CSqrt.sqrt (qf 1 683)) b : Dbl) := by
      rw [pd, qd, ofFP_of_le (pf_le (by norm_num) (by norm_num))]
      exact (if_neg (show ¬ (qf 1 683).val < 0 by rw [q, not_lt]; positivity)).trans (ofFP_of_le b)
    rw [e, pd, qd, ofFP_of_le (pf_le (by norm_num) (by norm_num)), fin_mul]
    have v : (CSqrt.sqrt (qf 1 683) * qf 1 683 : FP dblFmt).val = dblFmt.rd (dblFmt.rd (√(2 ^ (683 : ℤ))) * 2 ^ (683 : ℤ)) := by rw [FP.val_mul, r, q]
    have pos : 0 ≤ (CSqrt.sqrt (qf 1 683) * qf 1 683 : FP dblFmt).val := by rw [v]; exact le_trans (by positivity) wide_product.1
    rw [ofFP_of_lt (by rw [abs_of_nonneg pos, v]; exact lt_of_lt_of_le dblMax_lt wide_product.1), decide_eq_false (not_lt.2 pos)]
  refine ⟨x, y, pd 1021 / (CSqrt.sqrt (pd 683) * pd 683), b3 / (CSqrt.sqrt b2 * b2), hx, hy, ?_, ?_, ?_, ?_⟩
  · rw [UReal2.skew, UReal2.s, m2, m3]; rfl
  · rw [root, pd, qd, ofFP_of_le (pf_le (by norm_num) (by norm_num))]
    exact is_zero
  · rw [UReal2.skew, UReal2.s, h2, h2']; rfl
  · rw [FP.val_div, FP.val_mul, FP.val_sqrt, v2, v3]
    rw [show (1 / 16 : ℝ) = 2 ^ (-4 : ℤ) by norm_num, ← rd_pow (k := -4) (by norm_num)]
    refine dblFmt.mono ?_
    have p : (0 : ℝ) < 2 ^ (1024 : ℤ) := by positivity
    rw [le_div_iff₀ (lt_of_lt_of_le p wide_product.1)]
    refine (mul_le_mul_of_nonneg_left wide_product.2 (by positivity)).trans (le_of_eq ?_)
    rw [← zpow_add₀ (by norm_num)]; norm_num

/-- the variance of the sum of the two variables of `exWide2` -/
example : ∃ y b, (∀ v, (Calc2.add (.leaf 0) (.leaf 1)).run v exWide2 = some y) ∧ y.m 2 = some b ∧ b.val = 2 ^ (683 : ℤ) := by
  obtain ⟨x, y, hx, hy, -, hm, -, -⟩ := C81_visible_partial two_le_dblMax dbl_half ok_exWide2 (c := .add (.leaf 0) (.leaf 1)) ⟨trivial, trivial⟩
  have hx' := hx ⟨0, 0, 0, 0, 0, 0⟩
  rw [exWide2_run, Option.some_inj] at hx'
  obtain ⟨a, b, h1, h2, s⟩ := hm 2 (by norm_num)
  have m2 : x.m 2 = some (pd 683) := by rw [← hx']; exact exWide2_moments.1
  rw [m2, Option.some_inj] at h1
  subst h1
  exact ⟨y, b, hy, h2, is_once (s ⟨_, pd_is (by norm_num) (by norm_num)⟩) (pd_is (by norm_num) (by norm_num))⟩

/-- the kurtosis of 2^512 ± 1 -/
example : ∃ a b, (limited dblMax exBig2 1).kurt = some a ∧ (exBig2 1).kurt = some b ∧ Shown a b := by
  have h := (C81_ratios_partial two_le_dblMax dbl_half ok_exBig2 (c := .leaf 1) (c' := .leaf 1) trivial trivial (v := ⟨0, 0, 0, 0, 0, 0⟩) (v' := ⟨0, 0, 0, 0, 0, 0⟩) rfl rfl rfl rfl).2.2.2
  have l2 : Spec.Finite (Mom.lit 2 * pd 0 : Dbl) := by
    have : (Mom.lit 2 : Dbl) = pd 1 := by
      change ofFP dblMax (FP.round dblFmt _) = ofFP dblMax (FP.round dblFmt _)
      norm_num
    rw [this, pd_mul (by norm_num) (by norm_num) (by norm_num) (by norm_num)]
    exact ⟨_, pd_is (by norm_num) (by norm_num)⟩
  have e : (limited dblMax exBig2 1).m 2 = some (pd 0) := by
    have t : HessGrad.triEntries (⟨[(1, ⟨pd 0, 0, ⟨0, pd 1, 0, pd 4, 0, pd 8⟩⟩)], []⟩ : HessGrad Dbl) false = some [] := rfl
    change UReal2.m (⟨⟨[(1, ⟨pd 0, 0, ⟨0, pd 1, 0, pd 4, 0, pd 8⟩⟩)], []⟩, pd 512⟩ : UReal2 Dbl) 2 = _
    simp only [UReal2.m, UReal2.momArray, UReal2.updateMom, compute, m1, m2, t, m2A, List.foldl, Option.map_some, Option.bind_some]
    simp (disch := norm_num) [dbl_zero_add, dbl_zero_mul, dbl_mul_zero' l2, dbl_sub_zero, zero_mul_pd, pd_mul, dbl_add_zero, dbl_zero_add']
  refine h _ e ?_
  rw [pd_mul (by norm_num) (by norm_num) (by norm_num) (by norm_num)]
  obtain ⟨b, hb, e, -⟩ := pd_is (k := 0 + 0) (by norm_num) (by norm_num)
  rintro ⟨s, h⟩
  rw [e] at h
  cases h

/-- an infinite derivative; a second derivative which is NaN -/
example : (∃ a s, UReal2.m (⟨⟨[(1, ⟨.inf false, 0, exWideMom⟩)], []⟩, 0⟩ : UReal2 Dbl) 2 = some a ∧ UReal2.s (⟨⟨[(1, ⟨.inf false, 0, exWideMom⟩)], []⟩, 0⟩ : UReal2 Dbl) = some s ∧ ¬ Spec.Finite a ∧ ¬ Spec.Finite s) ∧
    ∀ p, ∃ a, UReal2.n p (⟨⟨[(1, ⟨0, .nan, exWideMom⟩)], []⟩, 0⟩ : UReal2 Dbl) = some a ∧ ¬ Spec.Finite a := by
  have h1 : (1 : VId) < maxId := by decide
  exact ⟨(C81_shown (ok_fresh h1 _ _)).1 (Or.inl ⟨_, List.mem_cons_self, Or.inl (by rintro ⟨_, _, _, h, _⟩; cases h)⟩),
    (C81_shown (ok_fresh h1 _ _)).2 ⟨_, List.mem_cons_self, by rintro ⟨_, _, _, h, _⟩; cases h⟩⟩

end Unc.Props
