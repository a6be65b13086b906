import Verif.Lemmas.Threads
import Mathlib.Logic.Equiv.Basic

/-! # After the threads have joined: two interleavings give the same state up to renaming of the ids -/

namespace Unc.Spec
open Unc

/-- `l'` is `l` with the variables renamed by `π`. -/
structure Renamed (π : Equiv.Perm ℤ) (l l' : LinForm ℝ) : Prop where
  mean : l'.mean = l.mean
  deps : l'.deps = l.deps.map π.toEmbedding
  coef : ∀ i, l'.coef (π i) = l.coef i

namespace Renamed
variable {π σ : Equiv.Perm ℤ} {l l' l'' m m' : LinForm ℝ}

theorem refl (l : LinForm ℝ) : Renamed 1 l l := ⟨rfl, by ext; simp [Equiv.Perm.one_symm], fun _ => rfl⟩

theorem trans (h : Renamed π l l') (g : Renamed σ l' l'') : Renamed (σ * π) l l'' where
  mean := g.mean.trans h.mean
  deps := by
    rw [g.deps, h.deps, Finset.map_map]
    rfl
  coef i := by rw [Equiv.Perm.mul_apply, g.coef, h.coef]

theorem symm (h : Renamed π l l') : Renamed π⁻¹ l' l where
  mean := h.mean.symm
  deps := by
    rw [h.deps, Finset.map_map]
    ext i
    simp
  coef i := by rw [← h.coef]; congr 1; exact π.apply_symm_apply i

theorem cov (h : Renamed π l l') (g : Renamed π m m') : l'.cov m' = l.cov m := by
  unfold LinForm.cov
  rw [h.deps, g.deps, ← Finset.map_union, Finset.sum_map]
  exact Finset.sum_congr rfl fun i _ => by rw [Equiv.coe_toEmbedding, h.coef, g.coef]

theorem var (h : Renamed π l l') : l'.var = l.var := by rw [← LinForm.cov_self, ← LinForm.cov_self, h.cov h]

theorem const (n : ℝ) : Renamed π (LinForm.const n) (LinForm.const n) := ⟨rfl, by simp [LinForm.const], fun _ => rfl⟩

theorem elem {i j : ℤ} (h : π i = j) (n s : ℝ) : Renamed π (LinForm.elem i n s) (LinForm.elem j n s) where
  mean := rfl
  deps := by simp [LinForm.elem, h]
  coef k := by
    subst h
    simp [LinForm.elem]

theorem scale (h : Renamed π l l') (mu dx : ℝ) : Renamed π (l.scale mu dx) (l'.scale mu dx) :=
  ⟨rfl, h.deps, fun i => by simp only [LinForm.scale, h.coef i]⟩

theorem comb (h : Renamed π l l') (g : Renamed π m m') (mu dx dy : ℝ) : Renamed π (l.comb m mu dx dy) (l'.comb m' mu dx dy) :=
  ⟨rfl, by simp only [LinForm.comb, h.deps, g.deps, Finset.map_union], fun i => by simp only [LinForm.comb, h.coef i, g.coef i]⟩

theorem lincomb {ι : Type*} (xs : List ι) (f f' : ι → LinForm ℝ) (d : ι → ℝ) (h : ∀ p, Renamed π (f p) (f' p)) (mu : ℝ) :
    Renamed π (AWorld.lincomb (xs.map fun p => (f p, d p)) mu) (AWorld.lincomb (xs.map fun p => (f' p, d p)) mu) where
  mean := rfl
  deps := by
    simp only [AWorld.lincomb, List.map_map, Function.comp_def]
    induction xs with
    | nil => simp
    | cons p t ih => simp only [List.map_cons, List.foldr_cons, ih, (h p).deps, Finset.map_union]
  coef i := by simp only [AWorld.lincomb, List.map_map, Function.comp_def, (h _).coef]

/-- renaming which moves only variables the form does not depend on -/
theorem of_fix (h : ∀ i ∈ l.deps, π i = i) (hs : l.Supported) : Renamed π l l where
  mean := rfl
  deps := by
    ext j
    simp only [Finset.mem_map, Equiv.coe_toEmbedding]
    constructor
    · intro hj; exact ⟨j, hj, h j hj⟩
    · rintro ⟨i, hi, rfl⟩; rwa [h i hi]
  coef i := by
    by_cases hi : i ∈ l.deps
    · rw [h i hi]
    · rw [hs i hi, hs]
      intro hh
      exact hi (π.injective (h _ hh) ▸ hh)

end Renamed

/-- The two states are the same up to the names of the variables that exist. -/
structure Joined (π : Equiv.Perm ℤ) (a a' : AWorld ℝ) : Prop where
  count : a'.count = a.count
  regs : ∀ r, Renamed π (a.regs r) (a'.regs r)
  fix : ∀ i : ℤ, a.count < i → π i = i

namespace Joined
variable {π σ : Equiv.Perm ℤ} {a a' a'' : AWorld ℝ}

theorem refl (a : AWorld ℝ) : Joined 1 a a := ⟨rfl, fun r => .refl _, fun _ _ => rfl⟩

theorem trans (h : Joined π a a') (g : Joined σ a' a'') : Joined (σ * π) a a'' where
  count := g.count.trans h.count
  regs r := (h.regs r).trans (g.regs r)
  fix i hi := by rw [Equiv.Perm.mul_apply, h.fix i hi, g.fix i (by rw [h.count]; exact hi)]

theorem symm (h : Joined π a a') : Joined π⁻¹ a' a where
  count := h.count.symm
  regs r := (h.regs r).symm
  fix i hi := by rw [Equiv.Perm.inv_eq_iff_eq, h.fix i (by rw [← h.count]; exact hi)]

theorem set (h : Joined π a a') (r : Reg) {l l' : LinForm ℝ} (hl : Renamed π l l') : Joined π (a.set r l) (a'.set r l') where
  count := h.count
  regs q := by simp only [AWorld.set]; split_ifs; exacts [hl, h.regs q]
  fix := h.fix

theorem bump (h : Joined π a a') : Joined π { a with count := a.count + 1 } { a' with count := a'.count + 1 } where
  count := by simp [h.count]
  regs := h.regs
  fix i hi := h.fix i (by push_cast at hi; omega)

/-- the same call in both states -/
theorem step (h : Joined π a a') (st : Step ℝ) : Joined π (a.step st).1 (a'.step st).1 ∧ (a'.step st).2 = (a.step st).2 := by
  cases st with
  | new r n s =>
    by_cases hs : s < 0
    · simp only [AWorld.step, hs, if_true]; exact ⟨h.bump, trivial⟩
    · simp only [AWorld.step, hs, if_false]
      exact ⟨h.bump.set r (.elem (by rw [h.count]; exact h.fix _ (by push_cast; omega)) n s), trivial⟩
  | const r n => exact ⟨h.set r (.const n), rfl⟩
  | copy r b => exact ⟨h.set r (h.regs b), rfl⟩
  | unary r b mu dx => exact ⟨h.set r ((h.regs b).scale mu dx), rfl⟩
  | binary r b c mu dx dy => exact ⟨h.set r ((h.regs b).comb (h.regs c) mu dx dy), rfl⟩
  | nary r xs mu => exact ⟨h.set r (.lincomb xs (fun p => a.regs p.1) (fun p => a'.regs p.1) Prod.snd (fun p => h.regs p.1) mu), rfl⟩
  | assign r b mu dt dx => exact ⟨h.set r ((h.regs r).comb (h.regs b) mu dt dx), rfl⟩
  | changeNom r b n => exact ⟨h.set r ⟨rfl, (h.regs b).deps, (h.regs b).coef⟩, rfl⟩
  | readS r => exact ⟨h, by simp only [AWorld.step, (h.regs r).var]⟩
  | readVar r => exact ⟨h, by simp only [AWorld.step, (h.regs r).var]⟩

theorem run (h : Joined π a a') (p : List (Step ℝ)) : Joined π (a.run p).1 (a'.run p).1 ∧ (a'.run p).2 = (a.run p).2 := by
  induction p generalizing a a' with
  | nil => exact ⟨h, rfl⟩
  | cons st p ih =>
    obtain ⟨h1, e1⟩ := h.step st
    obtain ⟨h2, e2⟩ := ih h1
    exact ⟨h2, by simp [AWorld.run, e1, e2]⟩

end Joined

/-! ## two calls of different threads can be exchanged -/

/-- linear forms are well formed and the ids do not exceed the counter -/
structure Sound (a : AWorld ℝ) : Prop where
  below : ∀ r, ∀ i ∈ (a.regs r).deps, i ≤ a.count
  supp : ∀ r, (a.regs r).Supported

/-- the value written by a call which creates no elementary variable -/
noncomputable def written (regs : Reg → LinForm ℝ) : Step ℝ → LinForm ℝ
  | .new r _ _ => regs r
  | .const _ n => LinForm.const n
  | .copy _ a => regs a
  | .unary _ a mu dx => (regs a).scale mu dx
  | .binary _ a b mu dx dy => (regs a).comb (regs b) mu dx dy
  | .nary _ xs mu => AWorld.lincomb (xs.map fun p => (regs p.1, p.2)) mu
  | .assign r a mu dt dx => (regs r).comb (regs a) mu dt dx
  | .changeNom _ a n => ⟨n, (regs a).deps, (regs a).coef⟩
  | .readS r => regs r
  | .readVar r => regs r

/-- the call creates an elementary variable -/
def IsNew : Step ℝ → Prop
  | .new _ _ s => ¬ s < 0
  | _ => False

theorem AWorld.set_self (a : AWorld ℝ) (r : Reg) : a.set r (a.regs r) = a := by
  unfold AWorld.set
  congr 1
  funext q
  split_ifs with h
  · rw [h]
  · rfl

theorem step_old (a : AWorld ℝ) {st : Step ℝ} (h : ¬ IsNew st) :
    (a.step st).1 = { a with count := a.count + countNew [st] }.set (writes st) (written a.regs st) := by
  cases st with
  | new r n s =>
    have hs : s < 0 := by simpa [IsNew] using h
    simp only [AWorld.step, hs, if_true, written, writes, countNew]
    exact (AWorld.set_self _ r).symm
  | readS r => exact (AWorld.set_self a r).symm
  | readVar r => exact (AWorld.set_self a r).symm
  | _ => rfl

theorem written_congr {regs regs' : Reg → LinForm ℝ} {st : Step ℝ} (hr : ∀ q ∈ reads st, regs q = regs' q) (hw : regs (writes st) = regs' (writes st)) :
    written regs st = written regs' st := by
  cases st with
  | new r n s => exact hw
  | const r n => rfl
  | nary r xs mu =>
    simp only [written]
    congr 1
    refine List.map_congr_left fun p hp => ?_
    rw [hr p.1 (List.mem_map_of_mem hp)]
  | binary r b c mu dx dy => simp only [written, hr b (by simp [reads]), hr c (by simp [reads])]
  | assign r b mu dt dx => simp only [written, hr b (by simp [reads]), hr r (by simp [reads])]
  | copy r b => exact hr b (by simp [reads])
  | unary r b mu dx => simp only [written, hr b (by simp [reads])]
  | changeNom r b n => simp only [written, hr b (by simp [reads])]
  | readS r => exact hw
  | readVar r => exact hw

theorem written_set (a : AWorld ℝ) {r : Reg} {st : Step ℝ} (hr : ∀ q ∈ reads st, q ≠ r) (hw : writes st ≠ r) (c : ℕ) (l : LinForm ℝ) :
    written (({ a with count := c } : AWorld ℝ).set r l).regs st = written a.regs st :=
  written_congr (fun q hq => AWorld.set_regs_ne _ (hr q hq) l) (AWorld.set_regs_ne _ hw l)

theorem AWorld.set_comm (a : AWorld ℝ) {q r : Reg} (h : q ≠ r) (l m : LinForm ℝ) : (a.set q l).set r m = (a.set r m).set q l := by
  unfold AWorld.set
  simp only
  congr 1
  funext k
  by_cases hk : k = r
  · subst hk; simp [Ne.symm h]
  · simp [hk]

/-- the variables a call uses do not change by a call of another thread -/
theorem reads_ne {st st' : Step ℝ} (hr' : RaceFree st') (h0 : threadOf st ≠ 0) (ht : threadOf st ≠ threadOf st') :
    ∀ q ∈ reads st', q ≠ writes st := by
  rintro q hq rfl
  rcases hr'.2 _ hq with e | e
  exacts [ht e, h0 e]

theorem Sound.step {a : AWorld ℝ} (h : Sound a) (st : Step ℝ) : Sound (a.step st).1 where
  below := abound_step h.below st
  supp := by
    have key : ∀ {b : AWorld ℝ} (r : Reg) {l : LinForm ℝ}, (∀ q, (b.regs q).Supported) → l.Supported → ∀ q, ((b.set r l).regs q).Supported := by
      intro b r l hb hl q
      simp only [AWorld.set]; split_ifs; exacts [hl, hb q]
    cases st with
    | new r n s =>
      simp only [AWorld.step]
      split_ifs
      · exact h.supp
      · exact key r h.supp (LinForm.supported_elem _ _ _)
    | const r n => exact key r h.supp (LinForm.supported_const n)
    | copy r b => exact key r h.supp (h.supp b)
    | unary r b mu dx => exact key r h.supp ((h.supp b).scale mu dx)
    | binary r b c mu dx dy => exact key r h.supp ((h.supp b).comb (h.supp c) mu dx dy)
    | nary r xs mu =>
      refine key r h.supp (lincomb_supported (fun p hp => ?_) mu)
      obtain ⟨q, -, rfl⟩ := List.mem_map.1 hp
      exact h.supp q.1
    | assign r b mu dt dx => exact key r h.supp ((h.supp r).comb (h.supp b) mu dt dx)
    | changeNom r b n => exact key r h.supp (h.supp b)
    | readS r => exact h.supp
    | readVar r => exact h.supp

theorem Sound.run {a : AWorld ℝ} (h : Sound a) (p : List (Step ℝ)) : Sound (a.run p).1 := by
  induction p generalizing a with
  | nil => exact h
  | cons st p ih => exact ih (h.step st)

theorem Sound.init : Sound AWorld.init := ⟨fun r i hi => by simp [AWorld.init, LinForm.const] at hi, fun _ => LinForm.supported_const 0⟩

theorem isNew_step {st : Step ℝ} (h : IsNew st) : ∃ n s, countNew [st] = 1 ∧
    ∀ a : AWorld ℝ, (a.step st).1 = { a with count := a.count + 1 }.set (writes st) (LinForm.elem (a.count + 1 : ℕ) n s) := by
  cases st with
  | new r n s =>
    have hs : ¬ s < 0 := h
    exact ⟨n, s, rfl, fun a => by simp only [AWorld.step, hs, if_false, writes]⟩
  | _ => exact h.elim

/-- a call which creates a variable and one of another thread which creates none can be exchanged -/
theorem exchange_old {a : AWorld ℝ} (ha : Sound a) {st st' : Step ℝ} (h : IsNew st) (h' : ¬ IsNew st') (hw : writes st ≠ writes st')
    (hr' : ∀ q ∈ reads st', q ≠ writes st) :
    Joined (Equiv.swap ((a.count + 1 : ℕ) : ℤ) ((a.count + countNew [st'] + 1 : ℕ) : ℤ)) ((a.step st).1.step st').1 ((a.step st').1.step st).1 := by
  obtain ⟨n, s, -, e⟩ := isNew_step h
  have fixed : ∀ i : ℤ, i ≤ a.count → Equiv.swap ((a.count + 1 : ℕ) : ℤ) ((a.count + countNew [st'] + 1 : ℕ) : ℤ) i = i := fun i hi =>
    Equiv.swap_apply_of_ne_of_ne (by push_cast; omega) (by push_cast; omega)
  have hs' : Sound (a.step st').1 := ha.step st'
  have below : ∀ i ∈ (written a.regs st').deps, i ≤ a.count := by
    intro i hi
    cases st' with
    | new r _ _ => exact ha.below r i hi
    | const r n => simp [written, LinForm.const] at hi
    | copy r b => exact ha.below b i hi
    | unary r b mu dx => exact ha.below b i hi
    | binary r b c mu dx dy => exact (Finset.mem_union.1 hi).elim (ha.below b i) (ha.below c i)
    | nary r xs mu =>
      simp only [written, AWorld.lincomb, List.map_map, Function.comp_def, mem_foldr_union] at hi
      obtain ⟨p, -, hi⟩ := hi
      exact ha.below p.1 i hi
    | assign r b mu dt dx => exact (Finset.mem_union.1 hi).elim (ha.below r i) (ha.below b i)
    | changeNom r b n => exact ha.below b i hi
    | readS r => exact ha.below r i hi
    | readVar r => exact ha.below r i hi
  rw [step_old (a.step st).1 h', e (a.step st').1, e a, step_old a h']
  rw [written_set a hr' (Ne.symm hw)]
  refine ⟨?_, fun q => ?_, fun i hi => ?_⟩
  · simp only [AWorld.set]; omega
  · simp only [AWorld.set]
    by_cases h1 : q = writes st
    · subst h1
      simp only [hw, if_true, if_false]
      exact .elem (Equiv.swap_apply_left _ _) _ _
    · by_cases h2 : q = writes st'
      · subst h2
        simp only [h1, if_true, if_false]
        refine .of_fix (fun i hi => fixed i (below i hi)) ?_
        have := hs'.supp (writes st')
        rw [step_old a h'] at this
        simpa [AWorld.set] using this
      · simp only [h1, h2, if_false]
        exact .of_fix (fun i hi => fixed i (ha.below q i hi)) (ha.supp q)
  · simp only [AWorld.set] at hi
    exact Equiv.swap_apply_of_ne_of_ne (by push_cast at hi ⊢; omega) (by push_cast at hi ⊢; omega)

/-- calls of different threads can be exchanged -/
theorem exchange {a : AWorld ℝ} (ha : Sound a) {st st' : Step ℝ} (hr : RaceFree st) (hr' : RaceFree st') (ht : threadOf st ≠ threadOf st') :
    ∃ π, Joined π ((a.step st).1.step st').1 ((a.step st').1.step st).1 := by
  have hw : writes st ≠ writes st' := fun e => ht (by simp [threadOf, e])
  have r1 := reads_ne hr hr'.1 (Ne.symm ht)
  have r2 := reads_ne hr' hr.1 ht
  by_cases h : IsNew st <;> by_cases h' : IsNew st'
  · obtain ⟨n, s, -, e⟩ := isNew_step h
    obtain ⟨n', s', -, e'⟩ := isNew_step h'
    refine ⟨Equiv.swap ((a.count + 1 : ℕ) : ℤ) ((a.count + 1 + 1 : ℕ) : ℤ), ?_⟩
    rw [e', e, e, e']
    have fixed : ∀ i : ℤ, i ≤ a.count → Equiv.swap ((a.count + 1 : ℕ) : ℤ) ((a.count + 1 + 1 : ℕ) : ℤ) i = i := fun i hi =>
      Equiv.swap_apply_of_ne_of_ne (by push_cast; omega) (by push_cast; omega)
    refine ⟨rfl, fun q => ?_, fun i hi => ?_⟩
    · simp only [AWorld.set]
      by_cases h1 : q = writes st
      · subst h1
        simp only [hw, if_true, if_false]
        exact .elem (Equiv.swap_apply_left _ _) _ _
      · by_cases h2 : q = writes st'
        · subst h2
          simp only [h1, if_true, if_false]
          exact .elem (Equiv.swap_apply_right _ _) _ _
        · simp only [h1, h2, if_false]
          exact .of_fix (fun i hi => fixed i (ha.below q i hi)) (ha.supp q)
    · simp only [AWorld.set] at hi
      exact Equiv.swap_apply_of_ne_of_ne (by push_cast at hi ⊢; omega) (by push_cast at hi ⊢; omega)
  · exact ⟨_, exchange_old ha h h' hw r2⟩
  · exact ⟨_, (exchange_old ha h' h (Ne.symm hw) r1).symm⟩
  · refine ⟨1, ?_⟩
    suffices hh : ((a.step st).1.step st').1 = ((a.step st').1.step st).1 by rw [hh]; exact .refl _
    rw [step_old (a.step st).1 h', step_old (a.step st').1 h, step_old a h, step_old a h']
    rw [written_set a r2 (Ne.symm hw), written_set a r1 hw]
    have := AWorld.set_comm { a with count := a.count + countNew [st] + countNew [st'] } hw (written a.regs st) (written a.regs st')
    rw [show a.count + countNew [st] + countNew [st'] = a.count + countNew [st'] + countNew [st] by omega] at this
    simp only [AWorld.set] at this ⊢
    rw [show a.count + countNew [st] + countNew [st'] = a.count + countNew [st'] + countNew [st] by omega]
    exact this

/-! ## interleavings -/

/-- a call can be moved before calls of other threads -/
theorem to_front {a : AWorld ℝ} (ha : Sound a) {st : Step ℝ} (hr : RaceFree st) (u : List (Step ℝ)) (hu : ∀ x ∈ u, RaceFree x)
    (ht : ∀ x ∈ u, threadOf x ≠ threadOf st) : ∃ π, Joined π ((a.step st).1.run u).1 ((a.run u).1.step st).1 := by
  induction u generalizing a with
  | nil => exact ⟨1, .refl _⟩
  | cons x u ih =>
    obtain ⟨π, h⟩ := exchange ha hr (hu x (by simp)) (Ne.symm (ht x (by simp)))
    obtain ⟨σ, g⟩ := ih (ha.step x) (fun y hy => hu y (by simp [hy])) (fun y hy => ht y (by simp [hy]))
    exact ⟨_, (h.run u).1.trans g⟩

theorem project_split {t : ℕ} {st : Step ℝ} {q p : List (Step ℝ)} (h : project t p = st :: q) :
    ∃ u v, p = u ++ st :: v ∧ (∀ x ∈ u, threadOf x ≠ t) ∧ project t v = q := by
  induction p with
  | nil => simp [project] at h
  | cons x p ih =>
    by_cases hx : threadOf x = t
    · simp only [project, List.filter_cons, hx, decide_true, if_true, List.cons.injEq] at h
      exact ⟨[], p, by simp [h.1], by simp, h.2⟩
    · simp only [project, List.filter_cons, hx, decide_false] at h
      obtain ⟨u, v, rfl, hu, hv⟩ := ih h
      exact ⟨x :: u, v, rfl, by simpa [hx] using hu, hv⟩

/-- Two interleavings of the same threads lead to the same state up to the names of the variables. -/
theorem joined_of_project {a : AWorld ℝ} (ha : Sound a) (p p' : List (Step ℝ)) (hp : ∀ st ∈ p, RaceFree st) (hp' : ∀ st ∈ p', RaceFree st)
    (hpp : ∀ t, project t p = project t p') : ∃ π, Joined π (a.run p).1 (a.run p').1 := by
  induction p generalizing a p' with
  | nil =>
    cases p' with
    | nil => exact ⟨1, .refl _⟩
    | cons x t => simpa [project] using hpp (threadOf x)
  | cons st p ih =>
    have h1 := hpp (threadOf st)
    simp only [project, List.filter_cons, decide_true, if_true] at h1
    obtain ⟨u, v, rfl, hu, hv⟩ := project_split h1.symm
    have hr := hp st (by simp)
    obtain ⟨π, h⟩ := to_front ha hr u (fun x hx => hp' x (by simp [hx])) hu
    have hproj : ∀ t, project t p = project t (u ++ v) := by
      intro t
      have h2 := hpp t
      by_cases ht : threadOf st = t
      · subst ht
        have : project (threadOf st) u = [] := by
          simp only [project, List.filter_eq_nil_iff]
          intro x hx; simp [hu x hx]
        have h3 : project (threadOf st) (u ++ v) = project (threadOf st) u ++ project (threadOf st) v := by simp [project]
        rw [h3, this, List.nil_append, hv]
        rfl
      · simpa [project, List.filter_cons, ht] using h2
    obtain ⟨σ, g⟩ := ih (ha.step st) (u ++ v) (fun x hx => hp x (by simp [hx]))
      (fun x hx => hp' x (by rcases List.mem_append.1 hx with h | h <;> simp [h])) hproj
    refine ⟨π * σ, ?_⟩
    have e : ((a.step st).1.run (u ++ v)).1 = (((a.step st).1.run u).1.run v).1 := by rw [AWorld.run_append]
    have e' : (a.run (u ++ st :: v)).1 = (((a.run u).1.step st).1.run v).1 := by rw [AWorld.run_append]; rfl
    rw [e']
    rw [e] at g
    exact g.trans (h.run v).1

end Unc.Spec
