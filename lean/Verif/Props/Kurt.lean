import Verif.Spec.Possible
import Verif.Lemmas.PosE
import Verif.Lemmas.Dead
import Verif.Props.Checked

/-!
# Skewness and kurtosis of the results of programs: C54

The third and fourth moments of any value computed from variables which passed the check are possible: the kurtosis is at
least 1 plus the square of the skewness.
-/

namespace Unc.Props
open Unc SMap HessGrad Mom Check Expect Sums

theorem psd_seq (m : Moments ℝ) : HankelPSD m.seq ↔ HankelPSD (mseq m) := by
  unfold HankelPSD
  simp [Fin.sum_univ_five, Moments.seq, seqStd, mseq]

theorem psd_arr (v : ℕ → ℝ) : HankelPSD (seqStd v) ↔ HankelPSD (⟨v 0, v 1, v 2, v 3, v 4, v 5⟩ : Moments ℝ).seq := by
  unfold HankelPSD
  simp [Fin.sum_univ_five, Moments.seq, seqStd]

/-- The polynomial does not contain the variables without derivatives. -/
theorem poly_live {hg : HessGrad ℝ} {i : VId} (hG : hg.G i = 0) (hH : ∀ j, hg.H i j = 0) : i ∉ (poly hg).vars := by
  have e : poly hg = Q (hg.vars.erase i) hg.G hg.H := by
    unfold poly Q
    refine congrArg₂ _ ?_ ?_
    · refine (Finset.sum_subset (Finset.erase_subset _ _) fun j hj hn => ?_).symm
      obtain rfl : j = i := by
        by_contra h
        exact hn (Finset.mem_erase.2 ⟨h, hj⟩)
      rw [hG]; simp
    · rw [← Finset.sum_subset (Finset.erase_subset i _)]
      · refine Finset.sum_congr rfl fun a _ => (Finset.sum_subset (Finset.erase_subset _ _) fun j hj hn => ?_).symm
        obtain rfl : j = i := by
          by_contra h
          exact hn (Finset.mem_erase.2 ⟨h, hj⟩)
        rw [H_symm, hH]; simp
      · intro j hj hn
        obtain rfl : j = i := by
          by_contra h
          exact hn (Finset.mem_erase.2 ⟨h, hj⟩)
        exact Finset.sum_eq_zero fun b _ => by rw [hH]; simp
  rw [e]
  intro hi
  have := vars_sub_of (Q_vars _ _ _) hi
  exact absurd rfl (Finset.mem_erase.1 this).1

/-- **C54** The second, third and fourth moments of a value whose variables have possible moments are possible. -/
theorem C54_moments {x : UReal2 ℝ} (hv : x.hg.Valid) (hs : PossibleMoments x.hg) :
    ∃ m2 m3 m4, x.m 2 = some m2 ∧ x.m 3 = some m3 ∧ x.m 4 = some m4 ∧ 0 ≤ m2 ∧ 0 ≤ m4 ∧ m3 ^ 2 + m2 ^ 3 ≤ m2 * m4 := by
  obtain ⟨-, e2, e3, e4⟩ := m_table hv (mu := mus x.hg) fun _ _ _ => rfl
  refine ⟨_, _, _, e2, e3, e4, ?_⟩
  refine E_moments (fun i => rfl) (shift_degree _ _) (fun i hi => ?_) ?_
  · have hi' : i ∈ (poly x.hg).vars := MvPolynomial.vars_sub_subset _ hi |> fun h => by
      simpa using h
    have hm := momOf_dOf (vars_sub_of (poly_vars x.hg) hi')
    rcases hs i _ hm with h | ⟨h1, h2⟩
    · exact (psd_seq _).1 h
    · exact absurd hi' (poly_live h1 h2)
  · rw [map_sub, E_C, sub_self]

/-- **C54** The kurtosis is at least 1 plus the square of the skewness. -/
theorem C54_kurt {x : UReal2 ℝ} (hv : x.hg.Valid) (hs : PossibleMoments x.hg) (h0 : x.s ≠ some 0) :
    ∃ s k, x.skew = some s ∧ x.kurt = some k ∧ 1 + s ^ 2 ≤ k := by
  obtain ⟨m2, m3, m4, e2, e3, e4, h2, -, h⟩ := C54_moments hv hs
  have es : x.s = some (Real.sqrt m2) := by rw [UReal2.s, e2]; rfl
  have hp : 0 < m2 := by
    refine lt_of_le_of_ne h2 fun h => h0 ?_
    rw [es, ← h, Real.sqrt_zero]
  have hg : Real.sqrt m2 ^ 2 = m2 := Real.sq_sqrt h2
  have hg' : 0 < Real.sqrt m2 := Real.sqrt_pos.2 hp
  refine ⟨m3 / Real.sqrt m2 ^ 3, m4 / m2 ^ 2, ?_, ?_, ?_⟩
  · rw [UReal2.skew, e3, es, e2]
    simp only [Option.bind_some, Option.map_some, Option.some.injEq]
    rw [pow_succ', hg]
  · rw [UReal2.kurt, e4, e2]
    simp only [Option.bind_some, Option.map_some, Option.some.injEq]
    ring_nf
  · have e : (m3 / Real.sqrt m2 ^ 3) ^ 2 = m3 ^ 2 / m2 ^ 3 := by
      rw [div_pow, ← pow_mul, mul_comm 3 2, pow_mul, hg]
    rw [e, ← sub_nonneg]
    have : m4 / m2 ^ 2 - (1 + m3 ^ 2 / m2 ^ 3) = (m2 * m4 - (m3 ^ 2 + m2 ^ 3)) / m2 ^ 3 := by
      field_simp
      ring
    rw [this]
    exact div_nonneg (by linarith) (by positivity)

/-! ## Programs -/

theorem psd_central {m : ℕ → ℝ} (h : HankelPSD (seqCentral m)) (h0 : 0 < m 0) :
    HankelPSD (UReal2.stdMoments (Real.sqrt (m 0)) m).seq := by
  intro c
  obtain ⟨e2, e3, e4, e5, e6, e7, e8⟩ := stdMoments_mul h0 rfl
  have hg : 0 < Real.sqrt (m 0) := Real.sqrt_pos.2 h0
  generalize Real.sqrt (m 0) = g at *
  generalize UReal2.stdMoments g m = v at *
  have h1 := h fun i => c i / g ^ (i : ℕ)
  refine le_of_le_of_eq h1 ?_
  simp only [Fin.sum_univ_five, seqCentral, Moments.seq, seqStd, Fin.isValue, Fin.val_zero, Fin.val_one, Fin.val_two,
    Fin.reduceFinMk, Fin.val_natCast, add_zero, zero_add, Nat.reduceAdd, Fin.val_ofNat, Fin.coe_ofNat_eq_mod,
    Nat.reduceMod, ← e2, ← e3, ← e4, ← e5, ← e6, ← e7, ← e8]
  field_simp
  ring

theorem possible_std {u : Moments ℝ} {id : VId} {n s : ℝ} {v : ℕ → ℝ} (h : HankelPSD (seqStd v)) :
    PossibleMoments (UReal2.buildStd u id n s v).hg := by
  intro i m hm
  rw [buildStd_eq] at hm
  obtain ⟨-, rfl⟩ := momOf_elem hm
  exact Or.inl ((psd_arr v).1 h)

theorem possible_central {u : Moments ℝ} {id : VId} {n : ℝ} {m : ℕ → ℝ} (h : HankelPSD (seqCentral m)) :
    PossibleMoments (UReal2.buildCentral u id n m).hg := by
  intro i v hv
  rw [buildCentral_eq] at hv ⊢
  obtain ⟨rfl, rfl⟩ := momOf_elem hv
  have h0 : 0 ≤ m 0 := by
    have := h ![0, 1, 0, 0, 0]
    simpa [Fin.sum_univ_five, seqCentral] using this
  rcases h0.eq_or_lt with h0' | h0'
  · right
    refine ⟨by simp [HessGrad.G, find?, CSqrt.sqrt, ← h0'], fun j => ?_⟩
    simp [HessGrad.H, find?, SMap.get]
  · left
    have hp : 0 < Real.sqrt (m 0) := Real.sqrt_pos.2 h0'
    simp only [CSqrt.sqrt]
    rw [if_pos (by rw [ltb_iff]; exact hp)]
    exact psd_central h h0'

theorem possible_unary {x z : UReal2 ℝ} (hx : Ok2 x) (hs : PossibleMoments x.hg) {f fx fxx : ℝ} {u : Moments ℝ}
    (hz : UReal2.unary u x f fx fxx = some z) : PossibleMoments z.hg := by
  obtain ⟨-, hg, -, hm⟩ := C22_unary hx hz
  intro i m h
  rw [hm] at h
  exact (hs i m h).imp_right fun ⟨h1, h2⟩ =>
    ⟨by rw [hg, h1, mul_zero], fun j => unary_H_zero hx.valid hz (Or.inl h1) (h2 j)⟩

theorem possible_binary {x y z : UReal2 ℝ} (hx : Ok2 x) (hy : Ok2 y) (hsx : PossibleMoments x.hg)
    (hsy : PossibleMoments y.hg) (hag : AgreeMoments x.hg y.hg) {f fx fy fxx fyy fxy : ℝ} {u : Moments ℝ}
    (hz : UReal2.binary u x y f fx fy fxx fyy fxy = some z) : PossibleMoments z.hg := by
  obtain ⟨-, hg, -, hm⟩ := C22_binary hx hy hz
  intro i m h
  by_cases hp : HankelPSD m.seq
  · exact Or.inl hp
  right
  have zero : ∀ {t : UReal2 ℝ}, Ok2 t → PossibleMoments t.hg → (∀ mt, t.hg.momOf i = some mt → mt = m) →
      t.hg.G i = 0 ∧ ∀ j, t.hg.H i j = 0 := by
    intro t ht hst hmt
    by_cases hi : i ∈ t.hg.vars
    · have e := momOf_dOf hi
      have := hmt _ e
      rw [this] at e
      exact (hst i m e).resolve_left hp
    · exact ⟨G_out hi, H_out ht.valid hi⟩
  have hall : (∀ mt, x.hg.momOf i = some mt → mt = m) ∧ ∀ mt, y.hg.momOf i = some mt → mt = m := by
    rw [hm] at h
    cases hxm : x.hg.momOf i with
    | some mx =>
      rw [hxm] at h
      simp only [Option.some_or, Option.some.injEq] at h
      subst h
      exact ⟨fun mt e => (Option.some_inj.1 e).symm, fun mt e => (hag i _ _ hxm e).symm⟩
    | none =>
      rw [hxm] at h
      simp only [Option.none_or] at h
      exact ⟨fun mt e => by simp at e, fun mt e => by rw [h] at e; exact (Option.some_inj.1 e).symm⟩
  obtain ⟨gx, hhx⟩ := zero hx hsx hall.1
  obtain ⟨gy, hhy⟩ := zero hy hsy hall.2
  exact ⟨by rw [hg, gx, gy]; ring, fun j => binary_H_zero hx hy hz gx gy (hhx j) (hhy j)⟩

/-- One step of a program with the check on keeps all the moments possible. -/
theorem possible_step {solve : (ℕ → ℕ → ℝ) → Option (List ℝ)} (he : EigenSolver solve)
    {w w' : World2 ℝ} {o : Out ℝ} {k : Junk ℝ} {st : Step2 ℝ} (hc : Checked st) (hok : ∀ r, Ok2 (w.regs r))
    (hag : ∀ r q, AgreeMoments (w.regs r).hg (w.regs q).hg) (hs : ∀ r, PossibleMoments (w.regs r).hg)
    (e : w.step solve k st = some (w', o)) : ∀ r, PossibleMoments (w'.regs r).hg := by
  have key : ∀ (r : Reg) (z : UReal2 ℝ) (w0 : World2 ℝ), w0.regs = w.regs → PossibleMoments z.hg →
      ∀ q, PossibleMoments ((w0.set r z).regs q).hg := by
    intro r z w0 h0 hz q
    by_cases hq : q = r <;> simp only [World2.set, hq, if_true, if_false]
    · exact hz
    · rw [h0]; exact hs q
  have hz0 : CCmp.ltb (0 : ℝ) 0 = false := ltb_zero_real
  cases st with
  | newCentral r n m t =>
    obtain rfl : t = 0 := hc
    simp only [World2.step, Option.map_eq_some_iff] at e
    obtain ⟨res, e1, e2⟩ := e
    cases res with
    | error x => simp only [World2.finish, Prod.mk.injEq] at e2; rw [← e2.1]; exact hs
    | ok x =>
      simp only [World2.finish, Prod.mk.injEq] at e2
      rw [← e2.1]
      refine key r x _ rfl ?_
      obtain ⟨hcc, rfl⟩ := mkCentral_ok e1
      refine possible_central ?_
      by_contra hn
      rw [ctorCheck, if_pos (by simp [hz0]), (C31_central he m k.mat).2 hn] at hcc
      simp at hcc
  | newStd r n s m t =>
    obtain rfl : t = 0 := hc
    simp only [World2.step, Option.map_eq_some_iff] at e
    obtain ⟨res, e1, e2⟩ := e
    cases res with
    | error x => simp only [World2.finish, Prod.mk.injEq] at e2; rw [← e2.1]; exact hs
    | ok x =>
      simp only [World2.finish, Prod.mk.injEq] at e2
      rw [← e2.1]
      refine key r x _ rfl ?_
      unfold UReal2.mkStd at e1
      split at e1
      · simp at e1
      by_cases hp : HankelPSD (seqStd m)
      · rw [ctorCheck, if_pos (by simp [hz0]), (C31_std he m k.mat).1 hp] at e1
        simp only [Option.map_some, Except.map, Option.some.injEq, Except.ok.injEq] at e1
        rw [← e1]
        exact possible_std hp
      · rw [ctorCheck, if_pos (by simp [hz0]), (C31_std he m k.mat).2 hp] at e1
        simp [Except.map] at e1
  | const r n =>
    simp only [World2.step, Option.some.injEq, Prod.mk.injEq] at e
    rw [← e.1]
    exact key r _ _ rfl fun i m hm => by simp [UReal2.const, HessGrad.empty, momOf, find?] at hm
  | copy r a =>
    simp only [World2.step, Option.some.injEq, Prod.mk.injEq] at e
    rw [← e.1]
    exact key r _ _ rfl (hs a)
  | unary r a f fx fxx =>
    simp only [World2.step, Option.map_eq_some_iff] at e
    obtain ⟨z, e1, e2⟩ := e
    simp only [Prod.mk.injEq] at e2
    rw [← e2.1]
    exact key r z _ rfl (possible_unary (hok a) (hs a) e1)
  | binary r a b f fx fy fxx fyy fxy =>
    simp only [World2.step, Option.map_eq_some_iff] at e
    obtain ⟨z, e1, e2⟩ := e
    simp only [Prod.mk.injEq] at e2
    rw [← e2.1]
    exact key r z _ rfl (possible_binary (hok a) (hok b) (hs a) (hs b) (hag a b) e1)
  | otherNew =>
    simp only [World2.step, Option.some.injEq, Prod.mk.injEq] at e
    rw [← e.1]
    exact hs

/-- **C54** Any program which constructs its variables with the check on (threshold 0) runs, and every variable it leaves
has possible second, third and fourth moments; where `s()` is not 0 the kurtosis is at least 1 plus the square of the
skewness. -/
theorem C54_program {solve : (ℕ → ℕ → ℝ) → Option (List ℝ)} (hl : LowerOnly solve) (he : EigenSolver solve)
    (p : List (Step2 ℝ × Junk ℝ)) (hc : ∀ st ∈ p.map Prod.fst, Checked st)
    (hn : countNew2 (p.map Prod.fst) < 2147483647) :
    ∃ w os, (World2.init : World2 ℝ).run solve p = some (w, os) ∧
      (∀ r, ∃ m2 m3 m4, (w.regs r).m 2 = some m2 ∧ (w.regs r).m 3 = some m3 ∧ (w.regs r).m 4 = some m4 ∧
        0 ≤ m2 ∧ 0 ≤ m4 ∧ m3 ^ 2 + m2 ^ 3 ≤ m2 * m4) ∧
      ∀ r, (w.regs r).s ≠ some 0 → ∃ s k, (w.regs r).skew = some s ∧ (w.regs r).kurt = some k ∧ 1 + s ^ 2 ≤ k := by
  have hT : ∀ st : Step2 ℝ, Checked st → ThresholdOk st := by
    intro st hst
    cases st <;> simp only [Checked, ThresholdOk] at hst ⊢ <;> (rw [hst]; right; rw [leb_iff])
  have gen : ∀ (p : List (Step2 ℝ × Junk ℝ)) (w : World2 ℝ) (n : ℕ) (tab : VId → Moments ℝ), Inv2 w n tab →
      (∀ r, PossibleMoments (w.regs r).hg) → (∀ st ∈ p.map Prod.fst, Checked st) →
      n + countNew2 (p.map Prod.fst) < 2147483647 →
      ∃ w' os n' tab', w.run solve p = some (w', os) ∧ n' < 2147483647 ∧ Inv2 w' n' tab' ∧
        ∀ r, PossibleMoments (w'.regs r).hg := by
    intro p
    induction p with
    | nil => exact fun w n tab h hs _ hn => ⟨w, [], n, tab, rfl, by omega, h, hs⟩
    | cons a t ih =>
      intro w n tab h hs hc hn
      obtain ⟨st, k⟩ := a
      have hcount : countNew2 ((((st, k) :: t).map Prod.fst)) = countNew2 [st] + countNew2 (t.map Prod.fst) := by
        cases st <;> simp [countNew2] <;> omega
      rw [hcount] at hn
      obtain ⟨w1, o, n1, tab1, e, -, h2, h3⟩ := h.step hl st (hT st (hc st (by simp))) (by omega)
      have hok : ∀ r, Ok2 (w.regs r) := fun r => ⟨h.valid r, fun i hi => by
        have := (h.ids r i hi).2
        have h' : (n : ℤ) < 2147483647 := by exact_mod_cast (by omega : n < 2147483647)
        exact lt_of_le_of_lt this h'⟩
      have hag : ∀ r q, AgreeMoments (w.regs r).hg (w.regs q).hg := fun r q i ma mb ea eb =>
        (h.mom r i ma ea).trans (h.mom q i mb eb).symm
      have hs1 := possible_step he (hc st (by simp)) hok hag hs (e k)
      obtain ⟨w2, os, n2, tab2, e2, h4, h5, h6⟩ := ih w1 n1 tab1 h3 hs1 (fun s hs => hc s (by simp at hs ⊢; exact Or.inr hs))
        (by omega)
      exact ⟨w2, o :: os, n2, tab2, by simp [World2.run, e k, e2], h4, h5, h6⟩
  obtain ⟨w, os, n, tab, e, -, h, hs⟩ := gen p World2.init 0 (fun _ => ⟨0, 0, 0, 0, 0, 0⟩)
    ⟨rfl, fun _ => ⟨by simp [World2.init, UReal2.default', HessGrad.empty, Sorted, keys],
      by simp [World2.init, UReal2.default', HessGrad.empty, Sorted, keys],
      by simp [World2.init, UReal2.default', HessGrad.empty, keys]⟩,
      by simp [World2.init, UReal2.default', HessGrad.empty, keys],
      by simp [SharedMoments, World2.init, UReal2.default', HessGrad.empty, momOf, find?]⟩
    (fun r i m hm => by simp [World2.init, UReal2.default', HessGrad.empty, momOf, find?] at hm) hc (by simpa using hn)
  exact ⟨w, os, e, fun r => C54_moments (h.valid r) (hs r), fun r h0 => C54_kurt (h.valid r) (hs r) h0⟩

/-- The check is needed: without it (negative threshold) the constructor accepts a variable of skewness 0 and
kurtosis 0. -/
theorem C54_unchecked (junk : ℕ → ℕ → ℝ) (u : Moments ℝ) : ∃ x : UReal2 ℝ,
    UReal2.mkStd exactSolve junk u 1 5 2 (fun _ => 0) (-1) = some (.ok x) ∧ x.skew = some 0 ∧ x.kurt = some 0 := by
  have hx : ∃ x, UReal2.mkStd exactSolve junk u 1 5 2 (fun _ => 0) (-1) = some (.ok x) := by
    rw [UReal2.mkStd, if_neg (by norm_num [ltb_iff]), C31_disabled _ _ _ _ (by norm_num [ltb_iff])]
    exact ⟨_, rfl⟩
  obtain ⟨x, hx⟩ := hx
  obtain ⟨-, -, -, h, -⟩ := C30_std hx
  exact ⟨x, hx, (h (by norm_num)).1, (h (by norm_num)).2⟩

/-! Examples. -/

theorem psd_twoPoint : HankelPSD twoPointMom.seq := (psd_arr tpArr).1 tpArr_psd

theorem possible_exMx : PossibleMoments exMx.hg := fun i m h => by rw [mom_exMx i m h]; exact Or.inl psd_twoPoint

example : ∃ s k, exMx.skew = some s ∧ exMx.kurt = some k ∧ 1 + s ^ 2 ≤ k :=
  C54_kurt valid_exMx possible_exMx (by
    have h : exMx.m 2 = some (2189 / 400) := var_exMx
    rw [UReal2.s, h]
    simp only [Option.map_some, CSqrt.sqrt, ne_eq, Option.some.injEq]
    exact (Real.sqrt_pos.2 (by norm_num)).ne')

example (k : Junk ℝ) := C54_program exactSolve_lower exactSolve_ok (exChecked.map fun st => (st, k))
  (by simp [exChecked, Checked]) (by simp [exChecked, countNew2])

example : ∃ m2 m3 m4, exMx.m 2 = some m2 ∧ exMx.m 3 = some m3 ∧ exMx.m 4 = some m4 ∧ 0 ≤ m2 ∧ 0 ≤ m4 ∧ m3 ^ 2 + m2 ^ 3 ≤ m2 * m4 :=
  C54_moments valid_exMx possible_exMx

end Unc.Props
