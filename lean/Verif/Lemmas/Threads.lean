import Verif.Spec.Threads
import Verif.Lemmas.Deps

/-! # Interleavings: a thread's view is its solo run up to renaming of the ids -/

namespace Unc.Spec
open Unc

/-- `l'` is `l` with the variables renamed by `ρ` (ids up to `N`). -/
structure Ren (N : ℤ) (ρ : ℤ → ℤ) (l l' : LinForm ℝ) : Prop where
  mean : l'.mean = l.mean
  deps : l'.deps = l.deps.image ρ
  coef : ∀ i ≤ N, l'.coef (ρ i) = l.coef i
  bound : ∀ i ∈ l.deps, i ≤ N
  supp : l.Supported
  supp' : l'.Supported

theorem LinForm.const_supported (n : ℝ) : (LinForm.const n).Supported := fun _ _ => rfl

theorem ren_const (N : ℤ) (ρ : ℤ → ℤ) (n : ℝ) : Ren N ρ (LinForm.const n) (LinForm.const n) :=
  ⟨rfl, by simp [LinForm.const], fun _ _ => rfl, by simp [LinForm.const], fun _ _ => rfl, fun _ _ => rfl⟩

theorem Ren.scale {N : ℤ} {ρ : ℤ → ℤ} {l l' : LinForm ℝ} (h : Ren N ρ l l') (mu dx : ℝ) :
    Ren N ρ (l.scale mu dx) (l'.scale mu dx) :=
  ⟨rfl, h.deps, fun i hi => by simp only [LinForm.scale, h.coef i hi], h.bound, h.supp.scale mu dx, h.supp'.scale mu dx⟩

theorem Ren.comb {N : ℤ} {ρ : ℤ → ℤ} {l l' m m' : LinForm ℝ} (h : Ren N ρ l l') (g : Ren N ρ m m') (mu dx dy : ℝ) :
    Ren N ρ (l.comb m mu dx dy) (l'.comb m' mu dx dy) :=
  ⟨rfl, by simp only [LinForm.comb, h.deps, g.deps, Finset.image_union],
   fun i hi => by simp only [LinForm.comb, h.coef i hi, g.coef i hi],
   fun i hi => (Finset.mem_union.1 hi).elim (h.bound i) (g.bound i), h.supp.comb g.supp mu dx dy,
   h.supp'.comb g.supp' mu dx dy⟩

theorem lincomb_supported {xs : List (LinForm ℝ × ℝ)} (h : ∀ p ∈ xs, p.1.Supported) (mu : ℝ) :
    (AWorld.lincomb xs mu).Supported := by
  intro i hi
  simp only [AWorld.lincomb] at hi ⊢
  rw [mem_foldr_union] at hi
  refine List.sum_eq_zero (fun x hx => ?_)
  obtain ⟨p, hp, rfl⟩ := List.mem_map.1 hx
  rw [h p hp i (fun hh => hi ⟨p, hp, hh⟩), mul_zero]

theorem Ren.lincomb {ι : Type*} {N : ℤ} {ρ : ℤ → ℤ} (xs : List ι) (f f' : ι → LinForm ℝ) (d : ι → ℝ)
    (h : ∀ p ∈ xs, Ren N ρ (f p) (f' p)) (mu : ℝ) :
    Ren N ρ (AWorld.lincomb (xs.map fun p => (f p, d p)) mu) (AWorld.lincomb (xs.map fun p => (f' p, d p)) mu) := by
  refine ⟨rfl, ?_, ?_, ?_, ?_, ?_⟩
  · ext j
    simp only [AWorld.lincomb, List.map_map, Function.comp_def, mem_foldr_union, Finset.mem_image]
    constructor
    · rintro ⟨p, hp, hj⟩
      rw [(h p hp).deps] at hj
      obtain ⟨i, hi, rfl⟩ := Finset.mem_image.1 hj
      exact ⟨i, ⟨p, hp, hi⟩, rfl⟩
    · rintro ⟨i, ⟨p, hp, hi⟩, rfl⟩
      exact ⟨p, hp, by rw [(h p hp).deps]; exact Finset.mem_image_of_mem ρ hi⟩
  · intro i hi
    simp only [AWorld.lincomb, List.map_map, Function.comp_def]
    congr 1
    exact List.map_congr_left (fun p hp => by rw [(h p hp).coef i hi])
  · intro i hi
    simp only [AWorld.lincomb, List.map_map, Function.comp_def, mem_foldr_union] at hi
    obtain ⟨p, hp, hi⟩ := hi
    exact (h p hp).bound i hi
  · refine lincomb_supported (fun q hq => ?_) mu
    obtain ⟨p, hp, rfl⟩ := List.mem_map.1 hq; exact (h p hp).supp
  · refine lincomb_supported (fun q hq => ?_) mu
    obtain ⟨p, hp, rfl⟩ := List.mem_map.1 hq; exact (h p hp).supp'

theorem Ren.mono {N N' : ℤ} {ρ ρ' : ℤ → ℤ} {l l' : LinForm ℝ} (h : Ren N ρ l l') (hN : N ≤ N')
    (hρ : ∀ i ≤ N, ρ' i = ρ i) (hnew : ∀ i ≤ N', N < i → l'.coef (ρ' i) = 0) : Ren N' ρ' l l' := by
  refine ⟨h.mean, ?_, ?_, fun i hi => (h.bound i hi).trans hN, h.supp, h.supp'⟩
  · rw [h.deps]; exact Finset.image_congr (fun i hi => (hρ i (h.bound i hi)).symm)
  · intro i hi
    by_cases hiN : i ≤ N
    · rw [hρ i hiN, h.coef i hiN]
    · rw [hnew i hi (not_le.1 hiN)]
      exact (h.supp i (fun hh => hiN (h.bound i hh))).symm

theorem Ren.cov {N : ℤ} {ρ : ℤ → ℤ} {l l' m m' : LinForm ℝ} (h : Ren N ρ l l') (g : Ren N ρ m m')
    (inj : ∀ i ≤ N, ∀ j ≤ N, ρ i = ρ j → i = j) : l'.cov m' = l.cov m := by
  rw [LinForm.cov_eq_sum h.supp' _ subset_rfl, LinForm.cov_eq_sum h.supp _ subset_rfl, h.deps,
    Finset.sum_image (fun i hi j hj e => inj i (h.bound i hi) j (h.bound j hj) e)]
  exact Finset.sum_congr rfl (fun i hi => by rw [h.coef i (h.bound i hi), g.coef i (h.bound i hi)])

theorem Ren.var {N : ℤ} {ρ : ℤ → ℤ} {l l' : LinForm ℝ} (h : Ren N ρ l l')
    (inj : ∀ i ≤ N, ∀ j ≤ N, ρ i = ρ j → i = j) : l'.var = l.var := by
  rw [← LinForm.cov_self, ← LinForm.cov_self, h.cov h inj]

/-- Thread `t`'s view of the concurrent state `a` is the solo state `b`. -/
structure View (t : ℕ) (N0 : ℤ) (a b : AWorld ℝ) (ρ : ℤ → ℤ) : Prop where
  inj : ∀ i ≤ (b.count : ℤ), ∀ j ≤ (b.count : ℤ), ρ i = ρ j → i = j
  bnd : ∀ i ≤ (b.count : ℤ), ρ i ≤ a.count
  old : ∀ i ≤ N0, ρ i = i
  new : ∀ i, N0 < i → i ≤ b.count → N0 < ρ i
  le : N0 ≤ b.count
  regs : ∀ r : Reg, r.thread = t ∨ r.thread = 0 → Ren b.count ρ (b.regs r) (a.regs r)
  abound : ∀ r, ∀ i ∈ (a.regs r).deps, i ≤ a.count

theorem AWorld.set_regs_ne (w : AWorld ℝ) {q r : Reg} (h : q ≠ r) (x : LinForm ℝ) : (w.set r x).regs q = w.regs q := by
  simp [AWorld.set, h]

/-- calls leave the other variables alone -/
theorem step_regs_ne (a : AWorld ℝ) (st : Step ℝ) {q : Reg} (h : q ≠ writes st) : ((a.step st).1.regs q) = a.regs q := by
  cases st <;> simp only [writes] at h <;> simp only [AWorld.step, AWorld.set, h, if_false]
  split_ifs <;> simp [h]

theorem le_count_step (a : AWorld ℝ) (st : Step ℝ) : a.count ≤ (a.step st).1.count := by
  rw [count_step]; omega

/-- ids never exceed the counter -/
theorem abound_step {a : AWorld ℝ} (h : ∀ r, ∀ i ∈ (a.regs r).deps, i ≤ a.count) (st : Step ℝ) :
    ∀ r, ∀ i ∈ ((a.step st).1.regs r).deps, i ≤ (a.step st).1.count := by
  intro r i hi
  by_cases hr : r = writes st
  · subst hr
    have hle : (a.count : ℤ) ≤ (a.step st).1.count := by exact_mod_cast le_count_step a st
    cases st with
    | new r n s =>
      simp only [AWorld.step] at hi hle ⊢
      split_ifs at hi hle ⊢ with hs
      · exact (h _ _ hi).trans hle
      · simp [AWorld.set, writes, LinForm.elem] at hi ⊢; omega
    | const r n => simp [AWorld.step, AWorld.set, writes, LinForm.const] at hi
    | copy r b => simp [AWorld.step, AWorld.set, writes] at hi ⊢; exact h _ _ hi
    | unary r b mu dx => simp [AWorld.step, AWorld.set, writes, LinForm.scale] at hi ⊢; exact h _ _ hi
    | binary r b c mu dx dy =>
      simp [AWorld.step, AWorld.set, writes, LinForm.comb] at hi ⊢
      exact hi.elim (h _ _) (h _ _)
    | nary r xs mu =>
      simp only [AWorld.step, AWorld.set, writes, AWorld.lincomb, if_true, List.map_map, Function.comp_def, mem_foldr_union] at hi ⊢
      obtain ⟨p, -, hi⟩ := hi
      exact h _ _ hi
    | assign r b mu dt dx =>
      simp [AWorld.step, AWorld.set, writes, LinForm.comb] at hi ⊢
      exact hi.elim (h _ _) (h _ _)
    | changeNom r b n => simp [AWorld.step, AWorld.set, writes] at hi ⊢; exact h _ _ hi
    | readS r => exact h _ _ hi
    | readVar r => exact h _ _ hi
  · rw [step_regs_ne a st hr] at hi
    exact (h r i hi).trans (by exact_mod_cast le_count_step a st)

/-- a call of another thread does not change the view -/
theorem View.other {t : ℕ} {N0 : ℤ} {a b : AWorld ℝ} {ρ : ℤ → ℤ} (h : View t N0 a b ρ) (st : Step ℝ)
    (ht : threadOf st ≠ t) (h0 : threadOf st ≠ 0) : View t N0 (a.step st).1 b ρ where
  inj := h.inj
  bnd i hi := (h.bnd i hi).trans (by exact_mod_cast le_count_step a st)
  old := h.old
  new := h.new
  le := h.le
  regs r hr := by
    have : r ≠ writes st := by
      rintro rfl
      rcases hr with hr | hr
      exacts [ht hr, h0 hr]
    rw [step_regs_ne a st this]; exact h.regs r hr
  abound := abound_step h.abound st

theorem View.set {t : ℕ} {N0 : ℤ} {a b : AWorld ℝ} {ρ : ℤ → ℤ} (h : View t N0 a b ρ) (r : Reg)
    {l l' : LinForm ℝ} (hl : Ren b.count ρ l l') : View t N0 (a.set r l') (b.set r l) ρ where
  inj := h.inj
  bnd := h.bnd
  old := h.old
  new := h.new
  le := h.le
  regs q hq := by
    simp only [AWorld.set]; split_ifs
    exacts [hl, h.regs q hq]
  abound q i hi := by
    simp only [AWorld.set] at hi ⊢
    split_ifs at hi
    · rw [hl.deps] at hi
      obtain ⟨j, hj, rfl⟩ := Finset.mem_image.1 hi
      exact h.bnd j (hl.bound j hj)
    · exact h.abound q i hi

/-- the increment of the counter, on both sides -/
theorem View.bump {t : ℕ} {N0 : ℤ} {a b : AWorld ℝ} {ρ : ℤ → ℤ} (h : View t N0 a b ρ) (hab : N0 ≤ a.count) :
    View t N0 { a with count := a.count + 1 } { b with count := b.count + 1 }
      (Function.update ρ (b.count + 1 : ℕ) (a.count + 1 : ℕ)) := by
  have e1 : ∀ i ≤ (b.count : ℤ), Function.update ρ (b.count + 1 : ℕ) (a.count + 1 : ℕ) i = ρ i := by
    intro i hi; exact Function.update_of_ne (by push_cast; omega) _ _
  have e2 : Function.update ρ (b.count + 1 : ℕ) (a.count + 1 : ℕ) ((b.count + 1 : ℕ) : ℤ) = (a.count + 1 : ℕ) :=
    Function.update_self _ _ _
  have split : ∀ i : ℤ, i ≤ ((b.count + 1 : ℕ) : ℤ) → i ≤ b.count ∨ i = ((b.count + 1 : ℕ) : ℤ) := by
    intro i hi; push_cast at hi ⊢; omega
  refine ⟨?_, ?_, ?_, ?_, ?_, ?_, ?_⟩
  · intro i hi j hj e
    rcases split i hi with hi | rfl <;> rcases split j hj with hj | rfl
    · rw [e1 i hi, e1 j hj] at e; exact h.inj i hi j hj e
    · rw [e1 i hi, e2] at e; have := h.bnd i hi; push_cast at e; omega
    · rw [e1 j hj, e2] at e; have := h.bnd j hj; push_cast at e; omega
    · rfl
  · intro i hi
    rcases split i hi with hi | rfl
    · rw [e1 i hi]; have := h.bnd i hi; push_cast; omega
    · rw [e2]
  · intro i hi; rw [e1 i (hi.trans h.le)]; exact h.old i hi
  · intro i hi hi'
    rcases split i hi' with hi' | rfl
    · rw [e1 i hi']; exact h.new i hi hi'
    · rw [e2]; push_cast; omega
  · have := h.le; push_cast; omega
  · intro r hr
    refine (h.regs r hr).mono (by push_cast; omega) e1 ?_
    intro i hi hi'
    have : i = ((b.count + 1 : ℕ) : ℤ) := (split i hi).resolve_left (not_le.2 hi')
    subst this
    rw [e2]
    refine (h.regs r hr).supp' _ (fun hh => ?_)
    have := h.abound r _ hh
    push_cast at this; omega
  · intro r i hi
    have := h.abound r i hi
    push_cast; omega

/-- a call of thread `t` gives the same answer in the concurrent and in the solo run -/
theorem View.same {t : ℕ} {N0 : ℤ} {a b : AWorld ℝ} {ρ : ℤ → ℤ} (h : View t N0 a b ρ) (hab : N0 ≤ a.count) (st : Step ℝ)
    (ht : threadOf st = t) (hr : RaceFree st) :
    ∃ ρ', View t N0 (a.step st).1 (b.step st).1 ρ' ∧ (a.step st).2 = (b.step st).2 := by
  have hreads : ∀ q ∈ reads st, Ren b.count ρ (b.regs q) (a.regs q) := by
    intro q hq
    refine h.regs q ?_
    rw [← ht]; exact hr.2 q hq
  cases st with
  | new r n s =>
    have hb := h.bump hab
    by_cases hs : s < 0
    · exact ⟨_, by simpa [AWorld.step, hs] using hb, by simp [AWorld.step, hs]⟩
    · suffices hel : Ren ((b.count + 1 : ℕ) : ℤ) (Function.update ρ (b.count + 1 : ℕ) (a.count + 1 : ℕ))
          (LinForm.elem ((b.count + 1 : ℕ) : ℤ) n s) (LinForm.elem ((a.count + 1 : ℕ) : ℤ) n s) by
        have := hb.set r hel
        refine ⟨Function.update ρ (b.count + 1 : ℕ) (a.count + 1 : ℕ), ?_, by simp [AWorld.step, hs]⟩
        simp only [AWorld.step, hs, if_false]; exact this
      have e2 : Function.update ρ (b.count + 1 : ℕ) (a.count + 1 : ℕ) ((b.count + 1 : ℕ) : ℤ) = (a.count + 1 : ℕ) :=
        Function.update_self _ _ _
      refine ⟨rfl, by simp only [LinForm.elem, Finset.image_singleton, e2], ?_, by simp [LinForm.elem], ?_, ?_⟩
      · intro i hi
        simp only [LinForm.elem]
        by_cases hi' : i = ((b.count + 1 : ℕ) : ℤ)
        · subst hi'; rw [e2]; simp
        · have h1 : i ≤ (b.count : ℤ) := by push_cast at hi hi'; omega
          rw [Function.update_of_ne hi', if_neg hi', if_neg]
          have := h.bnd i h1
          push_cast; omega
      · intro i hi; simp [LinForm.elem] at hi ⊢; intro h; omega
      · intro i hi; simp [LinForm.elem] at hi ⊢; intro h; omega
  | const r n => exact ⟨ρ, h.set r (ren_const _ _ n), rfl⟩
  | copy r q => exact ⟨ρ, h.set r (hreads q (by simp [reads])), rfl⟩
  | unary r q mu dx => exact ⟨ρ, h.set r ((hreads q (by simp [reads])).scale mu dx), rfl⟩
  | binary r q c mu dx dy =>
    exact ⟨ρ, h.set r ((hreads q (by simp [reads])).comb (hreads c (by simp [reads])) mu dx dy), rfl⟩
  | nary r xs mu =>
    exact ⟨ρ, h.set r (Ren.lincomb xs (fun p => b.regs p.1) (fun p => a.regs p.1) Prod.snd
      (fun p hp => hreads p.1 (by simp [reads]; exact ⟨p.2, hp⟩)) mu), rfl⟩
  | assign r q mu dt dx =>
    exact ⟨ρ, h.set r ((hreads r (by simp [reads])).comb (hreads q (by simp [reads])) mu dt dx), rfl⟩
  | changeNom r q n =>
    have := hreads q (by simp [reads])
    exact ⟨ρ, h.set r ⟨rfl, this.deps, this.coef, this.bound, this.supp, this.supp'⟩, rfl⟩
  | readS r => exact ⟨ρ, h, by simp only [AWorld.step, (hreads r (by simp [reads])).var h.inj]⟩
  | readVar r => exact ⟨ρ, h, by simp only [AWorld.step, (hreads r (by simp [reads])).var h.inj]⟩

theorem View.run {t : ℕ} {N0 : ℤ} {a b : AWorld ℝ} {ρ : ℤ → ℤ} (h : View t N0 a b ρ) (hab : N0 ≤ a.count)
    (p : List (Step ℝ)) (hp : ∀ st ∈ p, RaceFree st) :
    ∃ ρ', View t N0 (a.run p).1 (b.run (project t p)).1 ρ' ∧
      threadOuts t p (a.run p).2 = (b.run (project t p)).2 := by
  induction p generalizing a b ρ with
  | nil => exact ⟨ρ, h, rfl⟩
  | cons st p ih =>
    have hst := hp st (by simp)
    have hle : N0 ≤ (a.step st).1.count := hab.trans (by exact_mod_cast le_count_step a st)
    by_cases ht : threadOf st = t
    · obtain ⟨ρ1, h1, e1⟩ := h.same hab st ht hst
      obtain ⟨ρ2, h2, e2⟩ := ih h1 hle (fun s hs => hp s (by simp [hs]))
      refine ⟨ρ2, by simpa [project, ht, AWorld.run] using h2, ?_⟩
      simp only [threadOuts, project] at e2
      simp [threadOuts, project, ht, AWorld.run, e1, e2]
    · obtain ⟨ρ2, h2, e2⟩ := ih (h.other st ht hst.1) hle (fun s hs => hp s (by simp [hs]))
      refine ⟨ρ2, by simpa [project, ht, AWorld.run] using h2, ?_⟩
      simp only [threadOuts, project] at e2
      simp [threadOuts, project, ht, AWorld.run, e2]

/-- every id created during the concurrent phase belongs to one thread -/
def Owned (N0 : ℤ) (a : AWorld ℝ) (o : ℤ → ℕ) : Prop :=
  (∀ r, ∀ i ∈ (a.regs r).deps, N0 < i → o i = r.thread ∧ r.thread ≠ 0) ∧
  (∀ r, ∀ i ∈ (a.regs r).deps, i ≤ a.count)

theorem Owned.step {N0 : ℤ} {a : AWorld ℝ} {o : ℤ → ℕ} (h : Owned N0 a o) (st : Step ℝ) (hr : RaceFree st) :
    ∃ o', Owned N0 (a.step st).1 o' := by
  obtain ⟨h1, h2⟩ := h
  have hb := abound_step h2 st
  have hread : ∀ q ∈ reads st, ∀ i ∈ (a.regs q).deps, N0 < i → o i = threadOf st := by
    intro q hq i hi hN
    have := h1 q i hi hN
    rcases hr.2 q hq with e | e
    · rw [← e]; exact this.1
    · exact absurd e this.2
  -- the written variable's dependencies come from the reads
  have key : (∀ i ∈ ((a.step st).1.regs (writes st)).deps, (∃ q ∈ reads st, i ∈ (a.regs q).deps) ∨ False) →
      ∃ o', Owned N0 (a.step st).1 o' := by
    intro hk
    refine ⟨o, fun r i hi hN => ?_, hb⟩
    by_cases hrw : r = writes st
    · subst hrw
      obtain ⟨q, hq, hi'⟩ := (hk i hi).resolve_right id
      exact ⟨hread q hq i hi' hN, hr.1⟩
    · rw [step_regs_ne a st hrw] at hi
      exact h1 r i hi hN
  cases st with
  | new r n s =>
    by_cases hs : s < 0
    · simp only [AWorld.step, hs, if_true]
      exact ⟨o, h1, fun q i hi => (h2 q i hi).trans (by push_cast; omega)⟩
    · refine ⟨Function.update o (a.count + 1 : ℕ) r.thread, fun q i hi hN => ?_, hb⟩
      by_cases hq : q = r
      · subst hq
        simp only [AWorld.step, hs, if_false, AWorld.set, if_true, LinForm.elem, Finset.mem_singleton] at hi
        subst hi
        exact ⟨Function.update_self _ _ _, hr.1⟩
      · rw [step_regs_ne a _ (by simpa [writes] using hq)] at hi
        have := h2 q i hi
        rw [Function.update_of_ne (by push_cast; omega)]
        exact h1 q i hi hN
  | const r n => exact key (by simp [AWorld.step, AWorld.set, writes, LinForm.const])
  | copy r b => exact key (by simp [AWorld.step, AWorld.set, writes, reads])
  | unary r b mu dx => exact key (by simp [AWorld.step, AWorld.set, writes, reads, LinForm.scale])
  | binary r b c mu dx dy => exact key (by simp [AWorld.step, AWorld.set, writes, reads, LinForm.comb])
  | nary r xs mu =>
    refine key (fun i hi => Or.inl ?_)
    simp only [AWorld.step, AWorld.set, writes, AWorld.lincomb, if_true, List.map_map, Function.comp_def, mem_foldr_union] at hi
    obtain ⟨p, hp, hi⟩ := hi
    exact ⟨p.1, List.mem_map_of_mem hp, hi⟩
  | assign r b mu dt dx => exact key (by simp [AWorld.step, AWorld.set, writes, reads, LinForm.comb])
  | changeNom r b n => exact key (by simp [AWorld.step, AWorld.set, writes, reads])
  | readS r => exact key (by simp [AWorld.step, writes, reads])
  | readVar r => exact key (by simp [AWorld.step, writes, reads])

theorem Owned.run {N0 : ℤ} {a : AWorld ℝ} {o : ℤ → ℕ} (h : Owned N0 a o) (p : List (Step ℝ))
    (hp : ∀ st ∈ p, RaceFree st) : ∃ o', Owned N0 (a.run p).1 o' := by
  induction p generalizing a o with
  | nil => exact ⟨o, h⟩
  | cons st p ih =>
    obtain ⟨o1, h1⟩ := h.step st (hp st (by simp))
    exact ih h1 (fun s hs => hp s (by simp [hs]))

/-- The concurrent phase starts from a state where ids are bounded by the counter and linear forms are well formed. -/
theorem View.start {a : AWorld ℝ} (t : ℕ) (hb : ∀ r, ∀ i ∈ (a.regs r).deps, i ≤ a.count) (hs : ∀ r, (a.regs r).Supported) :
    View t a.count a a id where
  inj _ _ _ _ h := h
  bnd _ h := h
  old _ _ := rfl
  new _ h _ := h
  le := le_refl _
  regs r _ := ⟨rfl, by simp, fun _ _ => rfl, hb r, hs r, hs r⟩
  abound := hb

theorem View.mem_old {t : ℕ} {N0 : ℤ} {a b : AWorld ℝ} {ρ : ℤ → ℤ} (h : View t N0 a b ρ) {r : Reg}
    (hr : r.thread = t ∨ r.thread = 0) {i : ℤ} (hi : i ≤ N0) :
    (i ∈ (a.regs r).deps ↔ i ∈ (b.regs r).deps) ∧ (a.regs r).coef i = (b.regs r).coef i := by
  have hren := h.regs r hr
  constructor
  · rw [hren.deps, Finset.mem_image]
    constructor
    · rintro ⟨j, hj, rfl⟩
      by_cases hjN : j ≤ N0
      · rwa [h.old j hjN]
      · exact absurd hi (not_le.2 (h.new j (not_le.1 hjN) (hren.bound j hj)))
    · intro hb; exact ⟨i, hb, h.old i hi⟩
  · rw [← hren.coef i (hi.trans h.le), h.old i hi]

/-- covariance between variables of different threads only involves the ids that existed before -/
theorem cross_cov {N0 : ℤ} {a b b' : AWorld ℝ} {ρ ρ' : ℤ → ℤ} {o : ℤ → ℕ} (ho : Owned N0 a o) {q r : Reg}
    (hqr : q.thread ≠ r.thread) (hq : View q.thread N0 a b ρ) (hr : View r.thread N0 a b' ρ') :
    (a.regs q).cov (a.regs r) =
      ∑ i ∈ ((b.regs q).deps ∩ (b'.regs r).deps).filter (· ≤ N0), (b.regs q).coef i * (b'.regs r).coef i := by
  have hdeps : (a.regs q).deps ∩ (a.regs r).deps = ((b.regs q).deps ∩ (b'.regs r).deps).filter (· ≤ N0) := by
    ext i
    simp only [Finset.mem_inter, Finset.mem_filter]
    constructor
    · rintro ⟨h1, h2⟩
      have hi : i ≤ N0 := by
        by_contra hN
        have e1 := ho.1 q i h1 (not_le.1 hN)
        have e2 := ho.1 r i h2 (not_le.1 hN)
        exact hqr (e1.1.symm.trans e2.1)
      exact ⟨⟨(hq.mem_old (Or.inl rfl) hi).1.1 h1, (hr.mem_old (Or.inl rfl) hi).1.1 h2⟩, hi⟩
    · rintro ⟨⟨h1, h2⟩, hi⟩
      exact ⟨(hq.mem_old (Or.inl rfl) hi).1.2 h1, (hr.mem_old (Or.inl rfl) hi).1.2 h2⟩
  have hinter : (a.regs q).cov (a.regs r) = ∑ i ∈ (a.regs q).deps ∩ (a.regs r).deps, (a.regs q).coef i * (a.regs r).coef i := by
    rw [LinForm.cov_eq_sum (hq.regs q (Or.inl rfl)).supp' _ subset_rfl]
    refine (Finset.sum_subset Finset.inter_subset_left (fun i hi hi' => ?_)).symm
    rw [(hr.regs r (Or.inl rfl)).supp' i (fun hh => hi' (Finset.mem_inter.2 ⟨hi, hh⟩)), mul_zero]
  rw [hinter, hdeps]
  refine Finset.sum_congr rfl (fun i hi => ?_)
  have hi' := (Finset.mem_filter.1 hi).2
  rw [(hq.mem_old (Or.inl rfl) hi').2, (hr.mem_old (Or.inl rfl) hi').2]

theorem AWorld.run_append (a : AWorld ℝ) (p q : List (Step ℝ)) :
    a.run (p ++ q) = (((a.run p).1.run q).1, (a.run p).2 ++ ((a.run p).1.run q).2) := by
  induction p generalizing a with
  | nil => rfl
  | cons st t ih => simp [AWorld.run, ih]

theorem AWorld.length_run (a : AWorld ℝ) (p : List (Step ℝ)) : (a.run p).2.length = p.length := by
  induction p generalizing a with
  | nil => rfl
  | cons st t ih => simp [AWorld.run, ih]

end Unc.Spec
