import Verif.Props.Constructors
import Verif.Props.SecondOrder

/-!
# Programs which construct second-order variables with the check on: C29
-/

namespace Unc.Props
open Unc SMap HessGrad Mom Check

/-- Accepted standardized moments satisfy `v4 >= v3^2 + 1`. -/
theorem sound_std {v : ℕ → ℝ} (h : HankelPSD (seqStd v)) : v 0 * v 0 + 1 ≤ v 1 := by
  have := h ![-1, -v 0, 1, 0, 0]
  simp [Fin.sum_univ_five, seqStd] at this
  nlinarith

/-- Accepted central moments with positive variance do so after standardization. -/
theorem sound_central {m : ℕ → ℝ} (h : HankelPSD (seqCentral m)) (h0 : 0 < m 0) :
    let v := UReal2.stdMoments (Real.sqrt (m 0)) m
    v.v3 * v.v3 + 1 ≤ v.v4 := by
  have h1 := h ![-m 0, -(m 1 / m 0), 1, 0, 0]
  simp [Fin.sum_univ_five, seqCentral] at h1
  obtain ⟨e2, e3, e4, -⟩ := stdMoments_mul h0 rfl
  have hg : 0 < Real.sqrt (m 0) := Real.sqrt_pos.2 h0
  generalize Real.sqrt (m 0) = g at *
  generalize UReal2.stdMoments g m = v at *
  dsimp only
  rw [← e2, ← e3, ← e4] at h1
  have h2 : 0 ≤ g ^ 4 * (v.v4 - (v.v3 * v.v3 + 1)) := by
    refine le_of_le_of_eq h1 ?_
    field_simp
    ring
  have := nonneg_of_mul_nonneg_right h2 (by positivity)
  linarith

theorem momOf_elem {R : Type*} {i j : VId} {d : Diag R} {m : Moments R}
    (h : (⟨[(i, d)], []⟩ : HessGrad R).momOf j = some m) : j = i ∧ m = d.mom := by
  simp only [momOf, find?] at h
  split at h
  · rename_i he
    simp only [Option.map_some, Option.some.injEq] at h
    exact ⟨by simpa using Eq.symm (by simpa using he), h.symm⟩
  · simp at h

theorem sound_buildStd {u : Moments ℝ} {id : VId} {n s : ℝ} {v : ℕ → ℝ} (h : HankelPSD (seqStd v)) :
    SoundMoments (UReal2.buildStd u id n s v).hg := by
  intro i m hm
  rw [buildStd_eq] at hm
  obtain ⟨-, rfl⟩ := momOf_elem hm
  exact Or.inl (sound_std h)

theorem sound_buildCentral {u : Moments ℝ} {id : VId} {n : ℝ} {m : ℕ → ℝ} (h : HankelPSD (seqCentral m)) :
    SoundMoments (UReal2.buildCentral u id n m).hg := by
  intro i v hv
  rw [buildCentral_eq] at hv ⊢
  obtain ⟨rfl, rfl⟩ := momOf_elem hv
  have h0 : 0 ≤ m 0 := by
    have := h ![0, 1, 0, 0, 0]
    simpa [Fin.sum_univ_five, seqCentral] using this
  rcases h0.eq_or_lt with h0' | h0'
  · right
    simp [HessGrad.G, HessGrad.H, find?, CSqrt.sqrt, ← h0']
  · left
    have hp : 0 < Real.sqrt (m 0) := Real.sqrt_pos.2 h0'
    simp only [CSqrt.sqrt]
    rw [if_pos (by rw [ltb_iff]; exact hp)]
    exact sound_central h h0'

theorem sound_unary {x z : UReal2 ℝ} (hx : Ok2 x) (hs : SoundMoments x.hg) {f fx fxx : ℝ} {u : Moments ℝ}
    (hz : UReal2.unary u x f fx fxx = some z) : SoundMoments z.hg := by
  obtain ⟨-, hg, -, hm⟩ := C22_unary hx hz
  intro i m h
  rw [hm] at h
  refine (hs i m h).imp_right fun ⟨h1, h2⟩ => ⟨by rw [hg, h1, mul_zero], ?_⟩
  obtain ⟨z', e, -, v, d, -⟩ := unary_cells u hx.valid f fx fxx
  obtain rfl : z' = z := Option.some_inj.1 (e.symm.trans hz)
  rw [H_diag, d i]
  rw [G_def] at h1
  rw [H_diag] at h2
  cases hf : find? x.hg.diagmap i with
  | none => simp
  | some dd => simp [hf] at h1 h2; simp [h1, h2]

theorem sound_binary {x y z : UReal2 ℝ} (hx : Ok2 x) (hy : Ok2 y) (hsx : SoundMoments x.hg) (hsy : SoundMoments y.hg)
    (hag : AgreeMoments x.hg y.hg) {f fx fy fxx fyy fxy : ℝ} {u : Moments ℝ}
    (hz : UReal2.binary u x y f fx fy fxx fyy fxy = some z) : SoundMoments z.hg := by
  obtain ⟨-, hg, -, hm⟩ := C22_binary hx hy hz
  intro i m h
  by_cases hp : m.v3 * m.v3 + 1 ≤ m.v4
  · exact Or.inl hp
  right
  have zero : ∀ {t : UReal2 ℝ}, Ok2 t → SoundMoments t.hg → (∀ mt, t.hg.momOf i = some mt → mt = m) →
      t.hg.G i = 0 ∧ t.hg.H i i = 0 := by
    intro t ht hst hmt
    by_cases hi : i ∈ t.hg.vars
    · have e := momOf_dOf hi
      have := hmt _ e
      rw [this] at e
      exact (hst i m e).resolve_left hp
    · exact ⟨G_out hi, H_out ht.valid hi i⟩
  have hall : (∀ mt, x.hg.momOf i = some mt → mt = m) ∧ ∀ mt, y.hg.momOf i = some mt → mt = m := by
    rw [hm] at h
    cases hxm : x.hg.momOf i with
    | some mx =>
      rw [hxm] at h
      simp only [Option.some_or, Option.some.injEq] at h
      subst h
      exact ⟨fun mt e => (Option.some_inj.1 e).symm, fun mt e => (hag i _ _ hxm e).symm⟩
    | none =>
      rw [hxm] at h
      simp only [Option.none_or] at h
      exact ⟨fun mt e => by simp at e, fun mt e => by rw [h] at e; exact (Option.some_inj.1 e).symm⟩
  obtain ⟨gx, hhx⟩ := zero hx hsx hall.1
  obtain ⟨gy, hhy⟩ := zero hy hsy hall.2
  refine ⟨by rw [hg, gx, gy]; ring, ?_⟩
  rw [binary_H_of hx hy (fun r hr => (eqb_iff r 0).1 hr) (fun h => absurd rfl h) (fun h => absurd rfl h) hz, gx, gy, hhx, hhy]
  ring

/-- One step of a program with the check on keeps the moments possible. -/
theorem sound_step {solve : (ℕ → ℕ → ℝ) → Option (List ℝ)} (he : EigenSolver solve)
    {w w' : World2 ℝ} {o : Out ℝ} {k : Junk ℝ} {st : Step2 ℝ} (hc : Checked st) (hok : ∀ r, Ok2 (w.regs r))
    (hag : ∀ r q, AgreeMoments (w.regs r).hg (w.regs q).hg) (hs : ∀ r, SoundMoments (w.regs r).hg)
    (e : w.step solve k st = some (w', o)) : ∀ r, SoundMoments (w'.regs r).hg := by
  have key : ∀ (r : Reg) (z : UReal2 ℝ) (w0 : World2 ℝ), w0.regs = w.regs → SoundMoments z.hg →
      ∀ q, SoundMoments ((w0.set r z).regs q).hg := by
    intro r z w0 h0 hz q
    by_cases hq : q = r <;> simp only [World2.set, hq, if_true, if_false]
    · exact hz
    · rw [h0]; exact hs q
  have hz0 : CCmp.ltb (0 : ℝ) 0 = false := ltb_zero_real
  cases st with
  | newCentral r n m t =>
    obtain rfl : t = 0 := hc
    simp only [World2.step, Option.map_eq_some_iff] at e
    obtain ⟨res, e1, e2⟩ := e
    cases res with
    | error x => simp only [World2.finish, Prod.mk.injEq] at e2; rw [← e2.1]; exact hs
    | ok x =>
      simp only [World2.finish, Prod.mk.injEq] at e2
      rw [← e2.1]
      refine key r x _ rfl ?_
      obtain ⟨hcc, rfl⟩ := mkCentral_ok e1
      refine sound_buildCentral ?_
      by_contra hn
      rw [ctorCheck, if_pos (by simp [hz0]), (C31_central he m k.mat).2 hn] at hcc
      simp at hcc
  | newStd r n s m t =>
    obtain rfl : t = 0 := hc
    simp only [World2.step, Option.map_eq_some_iff] at e
    obtain ⟨res, e1, e2⟩ := e
    cases res with
    | error x => simp only [World2.finish, Prod.mk.injEq] at e2; rw [← e2.1]; exact hs
    | ok x =>
      simp only [World2.finish, Prod.mk.injEq] at e2
      rw [← e2.1]
      refine key r x _ rfl ?_
      unfold UReal2.mkStd at e1
      split at e1
      · simp at e1
      by_cases hp : HankelPSD (seqStd m)
      · rw [ctorCheck, if_pos (by simp [hz0]), (C31_std he m k.mat).1 hp] at e1
        simp only [Option.map_some, Except.map, Option.some.injEq, Except.ok.injEq] at e1
        rw [← e1]
        exact sound_buildStd hp
      · rw [ctorCheck, if_pos (by simp [hz0]), (C31_std he m k.mat).2 hp] at e1
        simp [Except.map] at e1
  | const r n =>
    simp only [World2.step, Option.some.injEq, Prod.mk.injEq] at e
    rw [← e.1]
    exact key r _ _ rfl fun i m hm => by simp [UReal2.const, HessGrad.empty, momOf, find?] at hm
  | copy r a =>
    simp only [World2.step, Option.some.injEq, Prod.mk.injEq] at e
    rw [← e.1]
    exact key r _ _ rfl (hs a)
  | unary r a f fx fxx =>
    simp only [World2.step, Option.map_eq_some_iff] at e
    obtain ⟨z, e1, e2⟩ := e
    simp only [Prod.mk.injEq] at e2
    rw [← e2.1]
    exact key r z _ rfl (sound_unary (hok a) (hs a) e1)
  | binary r a b f fx fy fxx fyy fxy =>
    simp only [World2.step, Option.map_eq_some_iff] at e
    obtain ⟨z, e1, e2⟩ := e
    simp only [Prod.mk.injEq] at e2
    rw [← e2.1]
    exact key r z _ rfl (sound_binary (hok a) (hok b) (hs a) (hs b) (hag a b) e1)
  | otherNew =>
    simp only [World2.step, Option.some.injEq, Prod.mk.injEq] at e
    rw [← e.1]
    exact hs

/-- **C29** Any program which constructs its variables with the check on (threshold 0): it runs, every variable has a
non-negative variance of which `s()` is the square root, and the correlation of any two variables with non-zero `s()`
is between -1 and 1. -/
theorem C29_program {solve : (ℕ → ℕ → ℝ) → Option (List ℝ)} (hl : LowerOnly solve) (he : EigenSolver solve)
    (p : List (Step2 ℝ × Junk ℝ)) (hc : ∀ st ∈ p.map Prod.fst, Checked st)
    (hn : countNew2 (p.map Prod.fst) < 2147483647) :
    ∃ w os, (World2.init : World2 ℝ).run solve p = some (w, os) ∧
      (∀ r, ∃ v, 0 ≤ v ∧ (w.regs r).var = some v ∧ (w.regs r).s = some (Real.sqrt v)) ∧
      ∀ r q, (w.regs r).s ≠ some 0 → (w.regs q).s ≠ some 0 →
        ∃ ρ, (w.regs r).corr (w.regs q) = some ρ ∧ |ρ| ≤ 1 := by
  have hT : ∀ st : Step2 ℝ, Checked st → ThresholdOk st := by
    intro st hst
    cases st <;> simp only [Checked, ThresholdOk] at hst ⊢ <;> (rw [hst]; right; rw [leb_iff])
  have gen : ∀ (p : List (Step2 ℝ × Junk ℝ)) (w : World2 ℝ) (n : ℕ) (tab : VId → Moments ℝ), Inv2 w n tab →
      (∀ r, SoundMoments (w.regs r).hg) → (∀ st ∈ p.map Prod.fst, Checked st) →
      n + countNew2 (p.map Prod.fst) < 2147483647 →
      ∃ w' os n' tab', w.run solve p = some (w', os) ∧ n' < 2147483647 ∧ Inv2 w' n' tab' ∧
        ∀ r, SoundMoments (w'.regs r).hg := by
    intro p
    induction p with
    | nil => exact fun w n tab h hs _ hn => ⟨w, [], n, tab, rfl, by omega, h, hs⟩
    | cons a t ih =>
      intro w n tab h hs hc hn
      obtain ⟨st, k⟩ := a
      have hcount : countNew2 ((((st, k) :: t).map Prod.fst)) = countNew2 [st] + countNew2 (t.map Prod.fst) := by
        cases st <;> simp [countNew2] <;> omega
      rw [hcount] at hn
      obtain ⟨w1, o, n1, tab1, e, -, h2, h3⟩ := h.step hl st (hT st (hc st (by simp))) (by omega)
      have hok : ∀ r, Ok2 (w.regs r) := fun r => ⟨h.valid r, fun i hi => by
        have := (h.ids r i hi).2
        have h' : (n : ℤ) < 2147483647 := by exact_mod_cast (by omega : n < 2147483647)
        exact lt_of_le_of_lt this h'⟩
      have hag : ∀ r q, AgreeMoments (w.regs r).hg (w.regs q).hg := fun r q i ma mb ea eb =>
        (h.mom r i ma ea).trans (h.mom q i mb eb).symm
      have hs1 := sound_step he (hc st (by simp)) hok hag hs (e k)
      obtain ⟨w2, os, n2, tab2, e2, h4, h5, h6⟩ := ih w1 n1 tab1 h3 hs1 (fun s hs => hc s (by simp at hs ⊢; exact Or.inr hs))
        (by omega)
      exact ⟨w2, o :: os, n2, tab2, by simp [World2.run, e k, e2], h4, h5, h6⟩
  obtain ⟨w, os, n, tab, e, -, h, hs⟩ := gen p World2.init 0 (fun _ => ⟨0, 0, 0, 0, 0, 0⟩)
    ⟨rfl, fun _ => ⟨by simp [World2.init, UReal2.default', HessGrad.empty, Sorted, keys],
      by simp [World2.init, UReal2.default', HessGrad.empty, Sorted, keys],
      by simp [World2.init, UReal2.default', HessGrad.empty, keys]⟩,
      by simp [World2.init, UReal2.default', HessGrad.empty, keys],
      by simp [SharedMoments, World2.init, UReal2.default', HessGrad.empty, momOf, find?]⟩
    (fun r i m hm => by simp [World2.init, UReal2.default', HessGrad.empty, momOf, find?] at hm) hc (by simpa using hn)
  refine ⟨w, os, e, fun r => ?_, fun r q hr hq => ?_⟩
  · obtain ⟨v, hv, h0⟩ := C29_var (h.valid r) (hs r)
    refine ⟨v, h0, hv, ?_⟩
    rw [UReal2.var] at hv
    rw [UReal2.s, hv]
    rfl
  · exact C29_corr (h.valid r) (h.valid q) (fun i ma mb ea eb => (h.mom r i ma ea).trans (h.mom q i mb eb).symm)
      (hs r) (hs q) hr hq

theorem exactSolve_lower : LowerOnly exactSolve := by
  intro M M' h
  have : symLower M = symLower M' := by
    ext i j
    simp only [symLower, Matrix.of_apply]
    exact h _ _ min_le_max (by omega)
  rw [exactSolve, exactSolve, this]

/-- A program: two skewed variables, one with zero variance, a rejected construction, their combinations. -/
noncomputable def exChecked : List (Step2 ℝ) :=
  [.newStd ⟨0, 0⟩ 5 2 tpArr 0, .newCentral ⟨0, 1⟩ 3 tpCentral 0, .newCentral ⟨0, 2⟩ 3 (fun _ => 0) 0,
   .newStd ⟨0, 3⟩ 3 1 (fun _ => 0) 0, .binary ⟨0, 4⟩ ⟨0, 0⟩ ⟨0, 1⟩ 15 3 5 0 0 1,
   .binary ⟨0, 5⟩ ⟨0, 4⟩ ⟨0, 2⟩ 15 3 5 2 2 1, .unary ⟨0, 5⟩ ⟨0, 5⟩ 225 30 2]

example (k : Junk ℝ) := C29_program exactSolve_lower exactSolve_ok (exChecked.map fun st => (st, k))
  (by
    simp only [List.map_map, exChecked]
    simp [Checked])
  (by simp [exChecked, countNew2])

end Unc.Props
