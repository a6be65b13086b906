import Verif.Props.LargerFloat

/-!
# C97: compound assignments and `nary` in floating point
-/

namespace Unc.Props
open Unc Unc.Spec UReal

section
variable {f : Fmt}

/-- One compound assignment to a value: with one of the values `xs`, or with itself (`t += t`).  `m` is the new mean, `dt` and `dx` are the derivatives. -/
inductive Assign (f : Fmt) where
  | other (l : ℕ) (m dt dx : FP f)
  | self (m dt dx : FP f)

/-- the assignments one after the other -/
noncomputable def assigns (xs : List (UReal (FP f))) (t : UReal (FP f)) (q : List (Assign f)) : UReal (FP f) :=
  q.foldl (fun t a => match a with
    | .other l m dt dx => binaryAssign t (xs.getD l (UReal.const 0)) m dt dx
    | .self m dt dx => binaryAssignSelf t m dt dx) t

/-- the derivatives are not negative -/
def Assign.Nonneg : Assign f → Prop
  | .other _ _ dt dx => 0 ≤ dt.val ∧ 0 ≤ dx.val
  | .self _ dt dx => 0 ≤ dt.val ∧ 0 ≤ dx.val

theorem addInto_grow {z z' : SMap VId (FP f)} (hz : MRel (Up f) z z') {x y : UReal (FP f)} (h : Grow (Up f) x y) {d : FP f} (hd : 0 ≤ d.val) :
    MRel (Up f) (addInto z x d) (addInto z' y d) := by
  have hd' : Up f d d := ⟨hd, le_rfl⟩
  unfold addInto
  rw [h.id]
  split_ifs with c1
  · exact upsert_rel hz _ up_grow.zero (fun hv => up_grow.add hv (up_grow.mul hd' (h.sdev (h.id ▸ c1.le))))
  · refine foldl_rel (P := MRel (Up f)) (fun {a b c d} hab hcd => ?_) h.sigma hz
    rw [hcd.1]
    exact upsert_rel hab _ up_grow.zero (fun hv => up_grow.add hv (up_grow.mul hd' hcd.2))
  · exact hz

theorem binaryAssign_grow {t t' x x' : UReal (FP f)} (h : Grow (Up f) t t') (h' : Grow (Up f) x x') (m : FP f) {dt dx : FP f} (hdt : 0 ≤ dt.val) (hdx : 0 ≤ dx.val) :
    Grow (Up f) (binaryAssign t x m dt dx) (binaryAssign t' x' m dt dx) := by
  refine ⟨rfl, rfl, fun h => absurd h (by simp [binaryAssign, invalidId]), ?_, fun _ => ⟨rfl, rfl⟩⟩
  refine addInto_grow ?_ h' hdx
  have A : MRel (Up f) (if 0 < t.id then t.sigma.upsert t.id 0 (fun _ => t.sdev) else t.sigma) (if 0 < t'.id then t'.sigma.upsert t'.id 0 (fun _ => t'.sdev) else t'.sigma) := by
    rw [h.id]
    split_ifs with c
    · exact upsert_rel h.sigma _ up_grow.zero (fun _ => h.sdev (h.id ▸ c.le))
    · exact h.sigma
  split_ifs at A ⊢ <;> first | exact A | exact mapVal_rel A (fun hv => up_grow.mul hv ⟨hdt, le_rfl⟩)

theorem binaryAssignSelf_grow {t t' : UReal (FP f)} (h : Grow (Up f) t t') (m : FP f) {dt dx : FP f} (hdt : 0 ≤ dt.val) (hdx : 0 ≤ dx.val) :
    Grow (Up f) (binaryAssignSelf t m dt dx) (binaryAssignSelf t' m dt dx) := by
  have hd : Up f (dt + dx) (dt + dx) := up_grow.add ⟨hdt, le_rfl⟩ ⟨hdx, le_rfl⟩
  refine ⟨h.id, rfl, fun hi => ?_, mapVal_rel h.sigma (fun hv => up_grow.mul hv hd), fun hi => ?_⟩
  · change 0 ≤ t.id at hi
    have hs := h.sdev hi
    have hm := up_grow.mul hs hd
    simp only [binaryAssignSelf, FP.ltb_fp, FP.val_zero]
    rw [← h.id]
    split_ifs with c c' c'
    · exact hm
    · refine absurd c' (not_not.2 ?_)
      rcases c with c | c
      · exact Or.inl (lt_of_lt_of_le c hs.2)
      · exact Or.inr c
    · have : t.sdev.val = 0 := le_antisymm (not_lt.1 fun h => c (Or.inl h)) hs.1
      exact ⟨hs.1, by rw [this]; exact hm.1.trans hm.2⟩
    · exact hs
  · change t.id < 0 at hi
    obtain ⟨e1, e2⟩ := h.fresh hi
    have hn : ¬ (CCmp.ltb (0 : FP f) (-1) = true ∨ 0 < t.id) := by
      rw [FP.ltb_fp]
      rintro (c | c)
      · simp at c; linarith
      · omega
    simp only [binaryAssignSelf]
    rw [e1, e2, ← h.id, if_neg hn]
    exact ⟨rfl, rfl⟩

theorem assigns_grow {xs xs' : List (UReal (FP f))} (h : List.Forall₂ (Grow (Up f)) xs xs') (q : List (Assign f)) (hq : ∀ a ∈ q, a.Nonneg) {t t' : UReal (FP f)}
    (ht : Grow (Up f) t t') : Grow (Up f) (assigns xs t q) (assigns xs' t' q) := by
  induction q generalizing t t' with
  | nil => exact ht
  | cons a q ih =>
    refine ih (fun b hb => hq b (List.mem_cons_of_mem _ hb)) ?_
    have ha := hq a (List.mem_cons_self ..)
    cases a with
    | other l m dt dx => exact binaryAssign_grow ht (getD_grow h l) m ha.1 ha.2
    | self m dt dx => exact binaryAssignSelf_grow ht m ha.1 ha.2

theorem nary_grow {xs xs' : List (UReal (FP f))} (h : List.Forall₂ (Grow (Up f)) xs xs') (q : List (ℕ × FP f)) (hq : ∀ a ∈ q, 0 ≤ a.2.val) (m : FP f) :
    Grow (Up f) (nary (q.map fun a => (xs.getD a.1 (UReal.const 0), a.2)) m) (nary (q.map fun a => (xs'.getD a.1 (UReal.const 0), a.2)) m) := by
  refine ⟨rfl, rfl, fun h => absurd h (by simp [nary, invalidId]), ?_, fun _ => ⟨rfl, rfl⟩⟩
  simp only [nary]
  rw [List.foldl_map, List.foldl_map]
  suffices H : ∀ z z' : SMap VId (FP f), MRel (Up f) z z' → MRel (Up f) (q.foldl (fun z a => addInto z (xs.getD a.1 (UReal.const 0)) a.2) z)
      (q.foldl (fun z a => addInto z (xs'.getD a.1 (UReal.const 0)) a.2) z') from H _ _ .nil
  induction q with
  | nil => exact fun _ _ h => h
  | cons a q ih => exact fun z z' hz => ih (fun b hb => hq b (List.mem_cons_of_mem _ hb)) _ _ (addInto_grow hz (getD_grow h a.1) (hq a (List.mem_cons_self ..)))

theorem run_grow {n : ℕ} {ids : Fin n → ℤ} (hpos : ∀ i, 0 < ids i) (mu : Fin n → FP f) {s s' : Fin n → FP f}
    (hs : ∀ i, 0 ≤ (s i).val ∧ (s i).val ≤ (s' i).val) {p : List (NodeF f)} (hp : Increasing p (List.ofFn mu)) {out out' : List (UReal (FP f))}
    (e : evalNF p (elemsUp ids mu s) = some out) (e' : evalNF p (elemsUp ids mu s') = some out') : List.Forall₂ (Grow (Up f)) out out' := by
  have hg := evalNF_grow p (acc := elemsUp ids mu s) (acc' := elemsUp ids mu s') (by
    simp only [elemsUp, List.ofFn_eq_map]
    rw [List.forall₂_map_left_iff, List.forall₂_map_right_iff, List.forall₂_same]
    exact fun i _ => ⟨rfl, rfl, fun _ => hs i, .nil, fun h => absurd h (not_lt.2 (hpos i).le)⟩) (by
    simp only [elemsUp, List.map_ofFn]; exact hp)
  rw [e, e'] at hg
  cases hg with
  | some hg => exact hg

/-- **C97** In floating point, whatever the rounding, also with compound assignments: the result `k` of a computation is changed by any sequence of `t op= x`, `x` being any other result
or `t` itself.  With larger uncertainties of the variables the uncertainty is not smaller, if the derivatives passed on are not negative (`C97_float_false` for other ones). -/
theorem C97_float_assign_partial {n : ℕ} {ids : Fin n → ℤ} (hpos : ∀ i, 0 < ids i) (mu : Fin n → FP f) {s s' : Fin n → FP f}
    (hs : ∀ i, 0 ≤ (s i).val ∧ (s i).val ≤ (s' i).val) {p : List (NodeF f)} (hp : Increasing p (List.ofFn mu)) {out out' : List (UReal (FP f))}
    (e : evalNF p (elemsUp ids mu s) = some out) (e' : evalNF p (elemsUp ids mu s') = some out') (k : ℕ) (q : List (Assign f)) (hq : ∀ a ∈ q, a.Nonneg) :
    let t := assigns out (out.getD k (UReal.const 0)) q
    let t' := assigns out' (out'.getD k (UReal.const 0)) q
    t.n = t'.n ∧ t.s.val ≤ t'.s.val := by
  have h := run_grow hpos mu hs hp e e'
  have := assigns_grow h q hq (getD_grow h k)
  exact ⟨this.mu, s_grow this⟩

/-- **C97** The same for `nary`. -/
theorem C97_float_nary_partial {n : ℕ} {ids : Fin n → ℤ} (hpos : ∀ i, 0 < ids i) (mu : Fin n → FP f) {s s' : Fin n → FP f}
    (hs : ∀ i, 0 ≤ (s i).val ∧ (s i).val ≤ (s' i).val) {p : List (NodeF f)} (hp : Increasing p (List.ofFn mu)) {out out' : List (UReal (FP f))}
    (e : evalNF p (elemsUp ids mu s) = some out) (e' : evalNF p (elemsUp ids mu s') = some out') (q : List (ℕ × FP f)) (hq : ∀ a ∈ q, 0 ≤ a.2.val) (m : FP f) :
    (nary (q.map fun a => (out.getD a.1 (UReal.const 0), a.2)) m).s.val ≤ (nary (q.map fun a => (out'.getD a.1 (UReal.const 0), a.2)) m).s.val :=
  s_grow (nary_grow (run_grow hpos mu hs hp e e') q hq m)

end

/-! Hypotheses can be met: `t = x * y + x; t += t; t *= y`, and a sum with derivatives 1, 2, 0. -/

theorem exUp_le (i : Fin 2) : 0 ≤ ((![qf 1 0, qf 1 (-1)] : Fin 2 → FP dblFmt) i).val ∧
    ((![qf 1 0, qf 1 (-1)] : Fin 2 → FP dblFmt) i).val ≤ ((![qf 7 (-1), qf 1 (-1)] : Fin 2 → FP dblFmt) i).val := by
  have h1 := qf_val (N := 1) (k := 0) (by norm_num) (by norm_num)
  have h2 := qf_val (N := 1) (k := -1) (by norm_num) (by norm_num)
  have h3 := qf_val (N := 7) (k := -1) (by norm_num) (by norm_num)
  fin_cases i
  · change 0 ≤ (qf 1 0).val ∧ (qf 1 0).val ≤ (qf 7 (-1)).val
    rw [h1, h3]; norm_num
  · change 0 ≤ (qf 1 (-1)).val ∧ (qf 1 (-1)).val ≤ (qf 1 (-1)).val
    rw [h2]; norm_num

example : ∃ out out', evalNF upProg (elemsUp ![1, 2] ![qf 2 0, qf 3 0] ![qf 1 0, qf 1 (-1)]) = some out ∧
    evalNF upProg (elemsUp ![1, 2] ![qf 2 0, qf 3 0] ![qf 7 (-1), qf 1 (-1)]) = some out' ∧
    (assigns out (out.getD 3 (UReal.const 0)) [.self (qf 16 0) 1 1, .other 1 (qf 48 0) (qf 3 0) (qf 16 0)]).s.val ≤
      (assigns out' (out'.getD 3 (UReal.const 0)) [.self (qf 16 0) 1 1, .other 1 (qf 48 0) (qf 3 0) (qf 16 0)]).s.val ∧
    (nary ([(0, qf 1 0), (3, qf 2 0), (1, qf 0 0)].map fun a => (out.getD a.1 (UReal.const 0), a.2)) 0).s.val ≤
      (nary ([(0, qf 1 0), (3, qf 2 0), (1, qf 0 0)].map fun a => (out'.getD a.1 (UReal.const 0), a.2)) 0).s.val := by
  have hq : ∀ N : ℤ, 0 ≤ N → N < 100 → 0 ≤ (qf N 0).val := fun N h0 h1 => by
    rw [qf_val (by rw [abs_of_nonneg h0]; omega) (by norm_num)]; simpa using h0
  have hpos : ∀ i, 0 < (![1, 2] : Fin 2 → ℤ) i := by decide
  obtain ⟨out, out', e, e', -⟩ := C97_float_partial (ids := ![1, 2]) hpos (by decide) ![qf 2 0, qf 3 0] exUp_le upProg_ok
  refine ⟨out, out', e, e', (C97_float_assign_partial hpos _ exUp_le upProg_ok e e' 3 _ ?_).2, C97_float_nary_partial hpos _ exUp_le upProg_ok e e' _ ?_ 0⟩
  · intro a ha
    rcases List.mem_cons.1 ha with rfl | ha
    · simp [Assign.Nonneg]
    · rw [List.mem_singleton.1 ha]
      exact ⟨hq 3 (by norm_num) (by norm_num), hq 16 (by norm_num) (by norm_num)⟩
  · intro a ha
    simp only [List.mem_cons, List.not_mem_nil, or_false] at ha
    rcases ha with rfl | rfl | rfl <;> exact hq _ (by norm_num) (by norm_num)

end Unc.Props
