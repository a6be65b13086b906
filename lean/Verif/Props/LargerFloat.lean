import Verif.Spec.Larger
import Verif.Lemmas.Grow
import Verif.Lemmas.SqrtSq
import Verif.Props.Range

/-!
# C97: larger uncertainties of the variables, in floating point
-/

namespace Unc.Props
open Unc Unc.Spec UReal

section
variable {f : Fmt}

/-- not negative and increasing -/
def Up (f : Fmt) (a b : FP f) : Prop := 0 ≤ a.val ∧ a.val ≤ b.val

theorem up_grow : GrowRel (Up f) where
  zero := ⟨le_rfl, le_rfl⟩
  add h h' := ⟨by rw [FP.val_add]; exact f.rd_nonneg (add_nonneg h.1 h'.1), by
    rw [FP.val_add, FP.val_add]; exact f.mono (add_le_add h.2 h'.2)⟩
  mul h h' := ⟨by rw [FP.val_mul]; exact f.rd_nonneg (mul_nonneg h.1 h'.1), by
    rw [FP.val_mul, FP.val_mul]; exact f.mono (mul_le_mul h.2 h'.2 h'.1 (h.1.trans h.2))⟩

theorem s_grow {x y : UReal (FP f)} (h : Grow (Up f) x y) : x.s.val ≤ y.s.val := by
  unfold UReal.s
  by_cases hi : 0 ≤ x.id
  · rw [if_pos hi, if_pos (h.id ▸ hi), FP.val_abs, FP.val_abs]
    obtain ⟨h1, h2⟩ := h.sdev hi
    rwa [abs_of_nonneg h1, abs_of_nonneg (h1.trans h2)]
  · obtain ⟨e1, e2⟩ := h.fresh (by omega)
    have hi' : ¬ 0 ≤ y.id := h.id ▸ hi
    have hf : CCmp.leb (0 : FP f) (-1) = false := by
      rw [Bool.eq_false_iff, ne_eq, FP.leb_fp]; simp
    rw [if_neg hi, if_neg hi', e1, e2, hf]
    simp only [Bool.false_eq_true, if_false]
    rw [FP.val_sqrt, FP.val_sqrt]
    exact f.mono (Real.sqrt_le_sqrt (s2_grow up_grow h).2)

theorem grow_const (c : FP f) : Grow (Up f) (UReal.const c) (UReal.const c) :=
  ⟨rfl, rfl, fun _ => ⟨le_rfl, le_rfl⟩, .nil, fun h => absurd h (by simp [UReal.const])⟩

theorem getD_grow {acc acc' : List (UReal (FP f))} (h : List.Forall₂ (Grow (Up f)) acc acc') (a : ℕ) :
    Grow (Up f) (acc.getD a (UReal.const 0)) (acc'.getD a (UReal.const 0)) := by
  induction h generalizing a with
  | nil => simpa using grow_const 0
  | cons hp _ ih =>
    cases a with
    | zero => simpa using hp
    | succ a => simpa using ih a

theorem getD_mu (acc : List (UReal (FP f))) (a : ℕ) : (acc.map UReal.n).getD a 0 = (acc.getD a (UReal.const 0)).n := by
  rw [List.getD_eq_getElem?_getD, List.getD_eq_getElem?_getD, List.getElem?_map]
  cases acc[a]? <;> rfl

theorem forall₂_snoc {α β : Type*} {P : α → β → Prop} {l : List α} {l' : List β} (h : List.Forall₂ P l l') {a : α} {b : β} (hab : P a b) :
    List.Forall₂ P (l ++ [a]) (l' ++ [b]) := List.rel_append h (.cons hab .nil)

theorem evalNF_grow (p : List (NodeF f)) {acc acc' : List (UReal (FP f))} (h : List.Forall₂ (Grow (Up f)) acc acc') (hp : Increasing p (acc.map UReal.n)) :
    Option.Rel (List.Forall₂ (Grow (Up f))) (evalNF p acc) (evalNF p acc') := by
  induction p generalizing acc acc' with
  | nil => exact .some h
  | cons nd q ih =>
    cases nd with
    | const c =>
      refine ih (forall₂_snoc h (grow_const c)) ?_
      rw [List.map_append]; exact hp
    | un F D a =>
      obtain ⟨-, hd, ht⟩ := hp
      rw [getD_mu] at hd ht
      have hg := getD_grow h a
      simp only [evalNF]
      have hn : (acc'.getD a (UReal.const 0)).n = (acc.getD a (UReal.const 0)).n := hg.mu.symm
      rw [hn]
      refine ih (forall₂_snoc h (unary_grow up_grow hg rfl ⟨hd, le_rfl⟩)) ?_
      rw [List.map_append]
      have : (UReal.unary (acc.getD a (UReal.const 0)) (F (acc.getD a (UReal.const 0)).n) (D (acc.getD a (UReal.const 0)).n)).n = F (acc.getD a (UReal.const 0)).n := by
        unfold UReal.unary UReal.n; split_ifs <;> rfl
      simp only [List.map_cons, List.map_nil, this]
      exact ht
    | bin F Dx Dy a b =>
      obtain ⟨-, -, hdx, hdy, ht⟩ := hp
      rw [getD_mu, getD_mu] at hdx hdy ht
      have ga := getD_grow h a
      have gb := getD_grow h b
      simp only [evalNF]
      have na : (acc'.getD a (UReal.const 0)).n = (acc.getD a (UReal.const 0)).n := ga.mu.symm
      have nb : (acc'.getD b (UReal.const 0)).n = (acc.getD b (UReal.const 0)).n := gb.mu.symm
      rw [na, nb]
      generalize acc.getD a (UReal.const 0) = x at *
      generalize acc.getD b (UReal.const 0) = y at *
      have hb := binary_grow up_grow ga gb (m := F x.n y.n) rfl (dx := Dx x.n y.n) (dy := Dy x.n y.n) ⟨hdx, le_rfl⟩ ⟨hdy, le_rfl⟩
      generalize ho : UReal.binary x y (F x.n y.n) (Dx x.n y.n) (Dy x.n y.n) = o at hb
      generalize UReal.binary _ _ (F x.n y.n) (Dx x.n y.n) (Dy x.n y.n) = o' at hb
      cases hb with
      | none => exact .none
      | @some z z' hz =>
        refine ih (forall₂_snoc h hz) ?_
        have : z.n = F x.n y.n := by
          unfold UReal.binary at ho
          obtain ⟨w, -, rfl⟩ := Option.map_eq_some_iff.1 ho
          rfl
        rw [List.map_append]
        simp only [List.map_cons, List.map_nil, this]
        exact ht

theorem evalNF_some (p : List (NodeF f)) {acc : List (UReal (FP f))} (h : ∀ x ∈ acc, x.WF ∧ x.Below maxId) :
    ∃ out, evalNF p acc = some out ∧ out.length = acc.length + p.length := by
  induction p generalizing acc with
  | nil => exact ⟨acc, rfl, rfl⟩
  | cons nd q ih =>
    have hc : ∀ c : FP f, (UReal.const c).WF ∧ (UReal.const c).Below maxId := fun c => ⟨wf_const c, fun i hi => by simp [deps, UReal.const] at hi⟩
    have hget : ∀ a, (acc.getD a (UReal.const 0)).WF ∧ (acc.getD a (UReal.const 0)).Below maxId := by
      intro a
      rw [List.getD_eq_getElem?_getD]
      by_cases ha : a < acc.length
      · rw [List.getElem?_eq_getElem ha]; exact h _ (List.getElem_mem _)
      · rw [List.getElem?_eq_none (not_lt.1 ha)]; exact hc 0
    have happ : ∀ {z : UReal (FP f)}, z.WF ∧ z.Below maxId → ∀ x ∈ acc ++ [z], x.WF ∧ x.Below maxId := by
      intro z hz x hx
      rcases List.mem_append.1 hx with hx | hx
      · exact h x hx
      · simp only [List.mem_singleton] at hx; exact hx ▸ hz
    cases nd with
    | const c =>
      obtain ⟨out, e, l⟩ := ih (happ (hc c))
      exact ⟨out, e, by simp at l ⊢; omega⟩
    | un F D a =>
      obtain ⟨h1, h2⟩ := hget a
      obtain ⟨out, e, l⟩ := ih (happ (z := UReal.unary _ (F (acc.getD a (UReal.const 0)).n) (D (acc.getD a (UReal.const 0)).n)) ⟨wf_unary h1 _ _, by
        intro i hi; rw [deps_unary] at hi; exact h2 i hi⟩)
      exact ⟨out, e, by simp at l ⊢; omega⟩
    | bin F Dx Dy a b =>
      obtain ⟨h1, h2⟩ := hget a
      obtain ⟨k1, k2⟩ := hget b
      obtain ⟨z, ez, hw, hd, -⟩ := binary_spec h1 k1 h2 k2 (F (acc.getD a (UReal.const 0)).n (acc.getD b (UReal.const 0)).n)
        (Dx (acc.getD a (UReal.const 0)).n (acc.getD b (UReal.const 0)).n) (Dy (acc.getD a (UReal.const 0)).n (acc.getD b (UReal.const 0)).n)
      obtain ⟨out, e, l⟩ := ih (happ ⟨hw, fun i hi => by
        rw [hd, Finset.mem_union] at hi
        exact hi.elim (h2 i) (k2 i)⟩)
      refine ⟨out, ?_, by simp at l ⊢; omega⟩
      simp only [evalNF, ez, e]

/-- the property for computations in floating point: with larger uncertainties of the variables no uncertainty of a result is smaller -/
def C97_float_statement (f : Fmt) : Prop :=
  ∀ (p : List (NodeF f)) (n : ℕ) (ids : Fin n → ℤ) (mu s s' : Fin n → FP f), Function.Injective ids → (∀ i, 0 < ids i) → (∀ i, ids i < maxId) →
    (∀ i, 0 ≤ (s i).val ∧ (s i).val ≤ (s' i).val) →
    ∃ out out', evalNF p (elemsUp ids mu s) = some out ∧ evalNF p (elemsUp ids mu s') = some out' ∧ out.length = n + p.length ∧ out'.length = n + p.length ∧
      ∀ (k : ℕ) (x x' : UReal (FP f)), out[k]? = some x → out'[k]? = some x' → x.n = x'.n ∧ x.s.val ≤ x'.s.val

/-- **C97** In floating point, whatever the rounding: with larger uncertainties of the variables no uncertainty of a result is smaller, if the derivatives which the
functions pass on are not negative.  Missing: negative derivatives, `C97_float_false`. -/
theorem C97_float_partial {n : ℕ} {ids : Fin n → ℤ} (hpos : ∀ i, 0 < ids i) (hlt : ∀ i, ids i < maxId) (mu : Fin n → FP f) {s s' : Fin n → FP f}
    (hs : ∀ i, 0 ≤ (s i).val ∧ (s i).val ≤ (s' i).val) {p : List (NodeF f)} (hp : Increasing p (List.ofFn mu)) :
    ∃ out out', evalNF p (elemsUp ids mu s) = some out ∧ evalNF p (elemsUp ids mu s') = some out' ∧ out.length = n + p.length ∧ out'.length = n + p.length ∧
      ∀ (k : ℕ) (x x' : UReal (FP f)), out[k]? = some x → out'[k]? = some x' → x.n = x'.n ∧ x.s.val ≤ x'.s.val := by
  have hw : ∀ t : Fin n → FP f, ∀ x ∈ elemsUp ids mu t, x.WF ∧ x.Below maxId := by
    intro t x hx
    simp only [elemsUp, List.mem_ofFn] at hx
    obtain ⟨j, rfl⟩ := hx
    refine ⟨⟨fun h => absurd h (hpos j).ne', fun _ => rfl, by simp, by simp⟩, fun i hi => ?_⟩
    simp only [deps, if_pos (hpos j), Finset.mem_singleton] at hi
    exact hi ▸ hlt j
  obtain ⟨out, e, l⟩ := evalNF_some p (hw s)
  obtain ⟨out', e', l'⟩ := evalNF_some p (hw s')
  have hg := evalNF_grow p (acc := elemsUp ids mu s) (acc' := elemsUp ids mu s') (by
    simp only [elemsUp, List.ofFn_eq_map]
    rw [List.forall₂_map_left_iff, List.forall₂_map_right_iff, List.forall₂_same]
    exact fun i _ => ⟨rfl, rfl, fun _ => hs i, .nil, fun h => absurd h (not_lt.2 (hpos i).le)⟩) (by
    simp only [elemsUp, List.map_ofFn]; exact hp)
  rw [e, e'] at hg
  refine ⟨out, out', e, e', by rw [l]; simp [elemsUp], by rw [l']; simp [elemsUp], fun k x x' hx hx' => ?_⟩
  cases hg with
  | some hg =>
    obtain ⟨hk, rfl⟩ := List.getElem?_eq_some_iff.1 hx
    obtain ⟨hk', rfl⟩ := List.getElem?_eq_some_iff.1 hx'
    have h := (List.forall₂_iff_get.1 hg).2 k hk hk'
    exact ⟨h.mu, s_grow h⟩

end

/-- `x * y + x` -/
noncomputable def upProg : List (NodeF dblFmt) := [.bin (fun a b => a * b) (fun _ b => b) (fun a _ => a) 0 1, .bin (fun a b => a + b) (fun _ _ => 1) (fun _ _ => 1) 2 0]

theorem upProg_ok : Increasing upProg (List.ofFn ![qf 2 0, qf 3 0]) := by
  have h2 := qf_val (N := 2) (k := 0) (by norm_num) (by norm_num)
  have h3 := qf_val (N := 3) (k := 0) (by norm_num) (by norm_num)
  simp [upProg, Increasing, h2, h3]

example := C97_float_partial (ids := ![1, 2]) (by decide) (by decide) ![qf 2 0, qf 3 0] (s := ![qf 1 0, qf 1 (-1)]) (s' := ![qf 7 (-1), qf 1 (-1)]) (by
  have h1 := qf_val (N := 1) (k := 0) (by norm_num) (by norm_num)
  have h2 := qf_val (N := 1) (k := -1) (by norm_num) (by norm_num)
  have h3 := qf_val (N := 7) (k := -1) (by norm_num) (by norm_num)
  intro i
  fin_cases i
  · change 0 ≤ (qf 1 0).val ∧ (qf 1 0).val ≤ (qf 7 (-1)).val
    rw [h1, h3]; norm_num
  · change 0 ≤ (qf 1 (-1)).val ∧ (qf 1 (-1)).val ≤ (qf 1 (-1)).val
    rw [h2]; norm_num) upProg_ok

/-! ## a calculation in `double` -/

/-- a variable with uncertainty `N`, multiplied by the integer `M` -/
theorem mul_const_run (N M : ℤ) : mul (⟨1, qf N 0, 1, []⟩ : UReal (FP dblFmt)) (const (qf M 0)) = some ⟨-1, -1, 1 * qf M 0, [(1, qf M 0 * qf N 0)]⟩ := by
  simp [mul, binary, const, UReal.n, SMap.upsert, invalidId]

theorem qf_near {N M : ℤ} {e : ℤ} (he : -1022 ≤ e) (h1 : (2 : ℝ) ^ e ≤ N) (h2 : (N : ℝ) < 2 ^ (e + 1)) (hM : |(N : ℝ) / 2 ^ (e - 52) - M| < 1 / 2) :
    (qf N 0).val = M * 2 ^ (e - 52) := by
  have hN : (0 : ℝ) < N := lt_of_lt_of_le (two_zpow_pos e) h1
  change ieeeRd 53 (-1022) _ = _
  rw [zpow_zero, mul_one, ieeeRd, if_pos hN, ieeePos, expo_eq he h1 h2, show e - ((53 : ℕ) : ℤ) + 1 = e - 52 by push_cast; ring, nearEven_near hM]

/-- `5 x - 4 x` -/
theorem five_four_run {N A K : ℤ} (hN : |N| < 2 ^ 53) (h5 : (qf (5 * N) 0).val = A * 2 ^ (3 : ℤ)) (hK : 8 * A - 4 * N = K) (hK0 : 0 < K) (hK1 : K < 2 ^ 53) :
    ∃ a b z, mul (⟨1, qf N 0, 1, []⟩ : UReal (FP dblFmt)) (const (qf 5 0)) = some a ∧ mul ⟨1, qf N 0, 1, []⟩ (const (qf 4 0)) = some b ∧ sub a b = some z ∧ z.s.val = K := by
  refine ⟨_, _, ⟨-1, -1, 1 * qf 5 0 - 1 * qf 4 0, [(1, 1 * (qf 5 0 * qf N 0) + -1 * (qf 4 0 * qf N 0))]⟩, mul_const_run N 5, mul_const_run N 4, ?_, ?_⟩
  · simp [sub, binary, mergeLoop, SMap.upsert, invalidId, maxId]
  · have e5 : (qf 5 0 * qf N 0).val = A * 2 ^ (3 : ℤ) := by rw [qf_mul (by norm_num) (by norm_num) hN (by norm_num), ← h5]; simp
    have e4 : (qf 4 0 * qf N 0).val = N * 2 ^ (2 : ℤ) := by
      rw [← qf_val hN (by norm_num), qf_mul (by norm_num) (by norm_num) hN (by norm_num)]
      change dblFmt.rd _ = dblFmt.rd _
      congr 1
      push_cast
      norm_num
      ring
    have one : ∀ a : FP dblFmt, 1 * a = a := fun a => FP.ext (by rw [FP.val_mul, FP.val_one, one_mul, a.rep])
    have mone : ∀ a : FP dblFmt, (-1 * a).val = -a.val := fun a => by rw [FP.val_mul, FP.val_neg, FP.val_one, neg_one_mul, Fmt.odd, a.rep]
    have hc : (1 * (qf 5 0 * qf N 0) + -1 * (qf 4 0 * qf N 0) : FP dblFmt).val = K := by
      rw [one, FP.val_add, mone, e5, e4]
      have hq := qf_val (N := K) (k := 0) (by rw [abs_of_pos hK0]; exact hK1) (by norm_num)
      rw [zpow_zero, mul_one] at hq
      rw [← hq]
      change _ = dblFmt.rd _
      congr 1
      rw [← hK]
      push_cast
      norm_num
      ring
    have hf : CCmp.leb (0 : FP dblFmt) (-1) = false := by
      rw [Bool.eq_false_iff, ne_eq, FP.leb_fp]; simp
    generalize hp : (1 * (qf 5 0 * qf N 0) + -1 * (qf 4 0 * qf N 0) : FP dblFmt) = c at hc ⊢
    have hK' : (1 : ℝ) ≤ K := by exact_mod_cast hK0
    simp only [UReal.s, hf, s2, List.foldl]
    norm_num
    rw [FP.val_sqrt, FP.val_add, FP.val_zero, zero_add, (c * c).rep, FP.val_mul, ← hc]
    exact ieee_sqrt_sq (by norm_num) (by norm_num) c.rep (by rw [hc]; linarith) (by
      rw [hc]
      refine le_trans (zpow_le_one_of_nonpos₀ (by norm_num) (by norm_num)) ?_
      nlinarith)

/-- **C97** False in `double`: the uncertainty of `x * 5 - x * 4` decreases from 7205759403792800 to 7205759403792796 when the uncertainty of `x` increases from
7205759403792798 to 7205759403792799. -/
theorem C97_double : ∃ x x' a b z a' b' z' : UReal (FP dblFmt), mk' 1 1 (qf 7205759403792798 0) = .ok x ∧ mk' 1 1 (qf 7205759403792799 0) = .ok x' ∧
    mul x (const (qf 5 0)) = some a ∧ mul x (const (qf 4 0)) = some b ∧ sub a b = some z ∧
    mul x' (const (qf 5 0)) = some a' ∧ mul x' (const (qf 4 0)) = some b' ∧ sub a' b' = some z' ∧
    x.s.val = 7205759403792798 ∧ x'.s.val = 7205759403792799 ∧ z.s.val = 7205759403792800 ∧ z'.s.val = 7205759403792796 := by
  obtain ⟨a, b, z, h1, h2, h3, h4⟩ := five_four_run (N := 7205759403792798) (A := 4503599627370499) (K := 7205759403792800) (by norm_num)
    (qf_near (e := 55) (by norm_num) (by norm_num) (by norm_num) (by norm_num [abs_lt])) (by norm_num) (by norm_num) (by norm_num)
  obtain ⟨a', b', z', h1', h2', h3', h4'⟩ := five_four_run (N := 7205759403792799) (A := 4503599627370499) (K := 7205759403792796) (by norm_num)
    (qf_near (e := 55) (by norm_num) (by norm_num) (by norm_num) (by norm_num [abs_lt])) (by norm_num) (by norm_num) (by norm_num)
  have hv : ∀ N : ℤ, 0 ≤ N → N < 2 ^ 53 → (qf N 0).val = N := fun N h0 h => by
    rw [qf_val (by rw [abs_of_nonneg h0]; exact h) (by norm_num), zpow_zero, mul_one]
  have mk : ∀ N : ℤ, 0 ≤ N → N < 2 ^ 53 → mk' 1 1 (qf N 0) = .ok ⟨1, qf N 0, 1, []⟩ := fun N h0 h => by
    have h0' : (0 : ℝ) ≤ N := by exact_mod_cast h0
    have : CCmp.ltb (qf N 0) 0 = false := by
      rw [Bool.eq_false_iff, ne_eq, FP.ltb_fp, hv N h0 h]; simpa using h0
    simp [mk', this]
  refine ⟨_, _, a, b, z, a', b', z', mk _ (by norm_num) (by norm_num), mk _ (by norm_num) (by norm_num), h1, h2, h3, h1', h2', h3', ?_, ?_, by exact_mod_cast h4, by exact_mod_cast h4'⟩
  · simp only [UReal.s]; norm_num; rw [hv _ (by norm_num) (by norm_num)]; norm_num
  · simp only [UReal.s]; norm_num; rw [hv _ (by norm_num) (by norm_num)]; norm_num

/-- `x * 5 - x * 4` -/
noncomputable def fiveFour : List (NodeF dblFmt) :=
  [.const (qf 5 0), .bin (fun a b => a * b) (fun _ b => b) (fun a _ => a) 0 1, .const (qf 4 0), .bin (fun a b => a * b) (fun _ b => b) (fun a _ => a) 0 3,
    .bin (fun a b => a - b) (fun _ _ => 1) (fun _ _ => -1) 2 4]

/-- **C97** The property is false in `double`. -/
theorem C97_float_false : ¬ C97_float_statement dblFmt := by
  intro H
  obtain ⟨x, x', a, b, z, a', b', z', hx, hx', h1, h2, h3, h1', h2', h3', -, -, s3, s4⟩ := C97_double
  have m : ∀ {s : FP dblFmt} {y : UReal (FP dblFmt)}, mk' 1 1 s = .ok y → y = ⟨1, s, 1, []⟩ := by
    intro s y h
    unfold mk' at h
    split_ifs at h
    exact (Except.ok.inj h).symm
  obtain rfl := m hx
  obtain rfl := m hx'
  have run : ∀ {y a b z : UReal (FP dblFmt)}, mul y (const (qf 5 0)) = some a → mul y (const (qf 4 0)) = some b → sub a b = some z →
      evalNF fiveFour [y] = some [y, const (qf 5 0), a, const (qf 4 0), b, z] := by
    intro y a b z h1 h2 h3
    simp only [mul, sub] at h1 h2 h3
    simp [evalNF, fiveFour, UReal.n, h1, h2, h3]
  obtain ⟨out, out', e, e', -, -, h⟩ := H fiveFour 1 ![1] ![1] ![qf 7205759403792798 0] ![qf 7205759403792799 0] (by decide) (by decide) (by decide) (by
    intro i
    fin_cases i
    have k1 := qf_val (N := 7205759403792798) (k := 0) (by norm_num) (by norm_num)
    have k2 := qf_val (N := 7205759403792799) (k := 0) (by norm_num) (by norm_num)
    change 0 ≤ (qf 7205759403792798 0).val ∧ (qf 7205759403792798 0).val ≤ (qf 7205759403792799 0).val
    rw [k1, k2]
    norm_num)
  have r1 := run h1 h2 h3
  have r2 := run h1' h2' h3'
  rw [show elemsUp ![1] ![1] ![qf 7205759403792798 0] = [⟨1, qf 7205759403792798 0, 1, []⟩] by simp [elemsUp], r1] at e
  rw [show elemsUp ![1] ![1] ![qf 7205759403792799 0] = [⟨1, qf 7205759403792799 0, 1, []⟩] by simp [elemsUp], r2] at e'
  obtain rfl := Option.some_inj.1 e
  obtain rfl := Option.some_inj.1 e'
  have := (h 5 z z' rfl rfl).2
  rw [s3, s4] at this
  norm_num at this

end Unc.Props
