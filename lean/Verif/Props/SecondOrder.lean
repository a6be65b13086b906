import Verif.Props.Iterators
import Verif.Lemmas.World
import Verif.Spec.Program2
import Mathlib.Algebra.Order.Field.Basic
import Mathlib.Tactic.FieldSimp
import Mathlib.Tactic.Ring

/-!
# Propagation to second order: C21, C22, C23

`G` is the gradient, `H` the symmetric matrix of half second derivatives (`Verif/Spec/Second.lean`).
-/

namespace Unc.Props
open Unc SMap HessGrad

/-! Concrete values. -/

/-- depends on 1, 2, 4 -/
def ex2a : UReal2 ℝ := ⟨exH, 3⟩
/-- depends on 2 and 5 -/
def ex2b : UReal2 ℝ := ⟨exH3, -1⟩
/-- depends on 1 and 2, no mixed derivative stored -/
def ex2c : UReal2 ℝ := ⟨exH2, 2⟩

theorem ok_ex2a : Ok2 ex2a := ⟨valid_exH, by
  intro i hi
  simp only [ex2a, exH, keys_cons, keys_nil, List.mem_cons, List.not_mem_nil, or_false] at hi
  rcases hi with rfl | rfl | rfl <;> decide⟩
theorem ok_ex2b : Ok2 ex2b := ⟨valid_exH3, by
  intro i hi
  simp only [ex2b, exH3, keys_cons, keys_nil, List.mem_cons, List.not_mem_nil, or_false] at hi
  rcases hi with rfl | rfl <;> decide⟩
theorem ok_ex2c : Ok2 ex2c := ⟨valid_exH2, by
  intro i hi
  simp only [ex2c, exH2, keys_cons, keys_nil, List.mem_cons, List.not_mem_nil, or_false] at hi
  rcases hi with rfl | rfl <;> decide⟩

/-! ## C21: no undefined behaviour, invariants, no dependence on uninitialised moments -/

section
variable {R : Type*} [Zero R] [One R] [Neg R] [Add R] [Sub R] [Mul R] [Div R] [NatCast R] [CCmp R]

/-- **C21** `unary`, any arithmetic, any derivatives (so both iteration modes): no undefined behaviour, the
invariants hold for the result, and the result is the same whatever uninitialised moments contain. -/
theorem C21_unary {x : UReal2 R} (hx : Ok2 x) (f fx fxx : R) :
    ∃ z, (∀ u, UReal2.unary u x f fx fxx = some z) ∧ Ok2 z := by
  obtain ⟨z, e, -, v, k, -⟩ := unary_lawfree hx.valid f fx fxx
  exact ⟨z, e, v, by unfold HessGrad.Below; rw [k]; exact hx.below⟩

/-- **C21** `binary`. -/
theorem C21_binary {x y : UReal2 R} (hx : Ok2 x) (hy : Ok2 y) (f fx fy fxx fyy fxy : R) :
    ∃ z, (∀ u, UReal2.binary u x y f fx fy fxx fyy fxy = some z) ∧ Ok2 z := by
  obtain ⟨z, e, -, v, k, -⟩ := binary_lawfree hx hy f fx fy fxx fyy fxy
  refine ⟨z, e, v, fun i hi => ?_⟩
  rcases (k i).1 hi with h | h
  · exact hx.below i h
  · exact hy.below i h

/-- **C21** The iterators, both modes: they stop, without undefined behaviour or failed assert. -/
theorem C21_iterators {x : UReal2 R} (hx : Ok2 x) (skip : Bool) :
    (x.hg.triEntries skip).isSome ∧ (x.hg.hessEntries skip).isSome := by
  refine ⟨?_, by rw [hessEntries_eq _ hx.valid]; rfl⟩
  cases skip
  · rw [triEntries_full _ hx.valid]; rfl
  · rw [triEntries_skip _ hx.valid]; rfl

/-- **C21** `hess` and `all`: no failed assert. -/
theorem C21_hess_all {t : UReal2 R} (ht : Ok2 t) (x y : UReal2 R) (u : Moments R) (p : R → Bool) :
    (UReal2.hess u t x y).isSome ∧ (UReal2.all t p).isSome := by
  have htri : ∀ i j : VId, i ≠ j → (t.hg.triGet (min i j) (max i j)).isSome := by
    intro i j hij
    have : min i j < max i j := lt_of_le_of_ne min_le_max (by simpa using hij)
    simp [triGet, this]
  have hh : ∀ i j : VId, (t.hg.hhessGet u i j).isSome := by
    intro i j
    unfold hhessGet
    split_ifs with h
    · exact htri i j h
    · rfl
  constructor
  · unfold UReal2.hess
    split
    · split_ifs
      · rw [Option.isSome_map]; exact hh _ _
      · dsimp only
        split_ifs
        · rfl
        · rw [Option.isSome_map]; exact hh _ _
    · rfl
  · unfold UReal2.all
    split_ifs
    · rfl
    · rfl
    · rw [Option.isSome_map, triEntries_skip _ ht.valid]; rfl

variable [CSqrt R]

omit [Sub R] [Div R] [Neg R] [One R] [Add R] [Mul R] [CSqrt R] in
theorem checkThrow_lower {solve : (ℕ → ℕ → R) → Option (List R)} [One R] [Neg R] [Div R] (hs : LowerOnly solve)
    (j j' : ℕ → ℕ → R) (o : ℤ) (m : ℕ → R) (t : R) :
    Check.checkThrow solve j o m t = Check.checkThrow solve j' o m t := by
  unfold Check.checkThrow
  rw [hs (Check.hkMatrix o m j) (Check.hkMatrix o m j') fun a b hab _ => by simp [Check.hkMatrix, hab]]

/-- Common shape of the two constructors: no failed assert, a single new variable, independent of storage
content. -/
theorem mkCentral_spec {solve : (ℕ → ℕ → R) → Option (List R)} (hs : LowerOnly solve) (id : VId) (n : R)
    (m : ℕ → R) {t : R} (ht : CCmp.ltb t 0 = true ∨ CCmp.leb 0 t = true) :
    ∃ r, (∀ k : Junk R, UReal2.mkCentral solve k.mat k.u id n m t = some r) ∧
      ∀ x, r = .ok x → ∃ d, x = ⟨⟨[(id, d)], []⟩, n⟩ := by
  have hb : ∀ u u', UReal2.buildCentral u id n m = UReal2.buildCentral u' id n m := by
    intro u u'
    simp only [UReal2.buildCentral, modDiag, empty, upsert, newDiag]
  have hc : ∃ c, ∀ j, Check.ctorCheck solve j 1 m t = some c := by
    unfold Check.ctorCheck
    by_cases h : CCmp.ltb t 0 = true
    · exact ⟨.ok (), fun j => by simp [h]⟩
    · have h0 := ht.resolve_left h
      rw [Bool.not_eq_true] at h
      have : (Check.checkThrow solve (fun _ _ => 0) 1 m t).isSome := by
        unfold Check.checkThrow
        rw [h0]
        simp only [Bool.not_true, Bool.false_eq_true, if_false]
        split
        · rfl
        · split_ifs <;> rfl
      obtain ⟨c, hc⟩ := Option.isSome_iff_exists.1 this
      exact ⟨c, fun j => by simp [h, checkThrow_lower hs j (fun _ _ => 0), hc]⟩
  obtain ⟨c, hc⟩ := hc
  refine ⟨c.map fun _ => UReal2.buildCentral ⟨0, 0, 0, 0, 0, 0⟩ id n m, fun k => ?_, fun x hx => ?_⟩
  · unfold UReal2.mkCentral
    rw [hc, Option.map_some, hb k.u]
  · cases c with
    | error e => simp [Except.map] at hx
    | ok c =>
      simp only [Except.map, Except.ok.injEq] at hx
      subst hx
      exact ⟨_, rfl⟩

theorem mkStd_spec {solve : (ℕ → ℕ → R) → Option (List R)} (hs : LowerOnly solve) (id : VId) (n s : R)
    (m : ℕ → R) {t : R} (ht : CCmp.ltb t 0 = true ∨ CCmp.leb 0 t = true) :
    ∃ r, (∀ k : Junk R, UReal2.mkStd solve k.mat k.u id n s m t = some r) ∧
      ∀ x, r = .ok x → ∃ d, x = ⟨⟨[(id, d)], []⟩, n⟩ := by
  by_cases hn : CCmp.ltb s 0 = true
  · exact ⟨.error .invalidArgument, fun k => by simp [UReal2.mkStd, hn], fun x hx => by simp at hx⟩
  have hc : ∃ c, ∀ j, Check.ctorCheck solve j 0 m t = some c := by
    unfold Check.ctorCheck
    by_cases h : CCmp.ltb t 0 = true
    · exact ⟨.ok (), fun j => by simp [h]⟩
    · have h0 := ht.resolve_left h
      rw [Bool.not_eq_true] at h
      have : (Check.checkThrow solve (fun _ _ => 0) 0 m t).isSome := by
        unfold Check.checkThrow
        rw [h0]
        simp only [Bool.not_true, Bool.false_eq_true, if_false]
        split
        · rfl
        · split_ifs <;> rfl
      obtain ⟨c, hc⟩ := Option.isSome_iff_exists.1 this
      exact ⟨c, fun j => by simp [h, checkThrow_lower hs j (fun _ _ => 0), hc]⟩
  obtain ⟨c, hc⟩ := hc
  refine ⟨c.map fun _ => UReal2.buildStd ⟨0, 0, 0, 0, 0, 0⟩ id n s m, fun k => ?_, fun x hx => ?_⟩
  · unfold UReal2.mkStd
    rw [if_neg hn, hc, Option.map_some]
    rfl
  · cases c with
    | error e => simp [Except.map] at hx
    | ok c =>
      simp only [Except.map, Except.ok.injEq] at hx
      subst hx
      exact ⟨_, rfl⟩

/-- Invariant of programs: ids at most the counter, values valid, moments shared. -/
structure Inv2 (w : World2 R) (n : ℕ) (tab : VId → Moments R) : Prop where
  count : w.lastId = n
  valid : ∀ r, (w.regs r).hg.Valid
  ids : ∀ r, ∀ i ∈ keys (w.regs r).hg.diagmap, 1 ≤ i ∧ i ≤ n
  mom : SharedMoments w tab

omit [One R] [Neg R] [Add R] [Sub R] [Mul R] [Div R] [NatCast R] [CCmp R] [CSqrt R] in
theorem Inv2.set {w : World2 R} {n : ℕ} {tab : VId → Moments R} (h : Inv2 w n tab) (r : Reg) {z : UReal2 R}
    (hv : z.hg.Valid) (hi : ∀ i ∈ keys z.hg.diagmap, 1 ≤ i ∧ i ≤ n)
    (hm : ∀ i m, z.hg.momOf i = some m → m = tab i) : Inv2 (w.set r z) n tab := by
  refine ⟨h.count, fun q => ?_, fun q => ?_, fun q => ?_⟩ <;> by_cases hq : q = r <;>
    simp only [World2.set, hq, if_true, if_false]
  · exact hv
  · exact h.valid q
  · exact hi
  · exact h.ids q
  · exact hm
  · exact h.mom q

omit [Neg R] [Add R] [Sub R] [Mul R] [Div R] [NatCast R] [CCmp R] [CSqrt R] [One R] in
theorem Inv2.new {w : World2 R} {n : ℕ} {tab : VId → Moments R} (h : Inv2 w n tab) (hn : n < 2147483646)
    (r : Reg) (mu : R) (d : Diag R) :
    ∃ tab', Inv2 (World2.set (⟨nextId w.lastId, w.regs⟩ : World2 R) r ⟨⟨[(nextId w.lastId, d)], []⟩, mu⟩) (n + 1) tab' := by
  have e : nextId w.lastId = ((n + 1 : ℕ) : ℤ) := by rw [h.count]; exact nextId_nat (by omega)
  have h0 : Inv2 (⟨nextId w.lastId, w.regs⟩ : World2 R) (n + 1)
      (fun i => if i = nextId w.lastId then d.mom else tab i) := by
    refine ⟨e, h.valid, fun q i hi => ?_, fun q i m hm => ?_⟩
    · have := h.ids q i hi
      refine ⟨this.1, le_trans this.2 ?_⟩
      push_cast; omega
    · have hi : i ∈ keys (w.regs q).hg.diagmap := by
        rw [← find?_isSome]
        have hm' : (find? (w.regs q).hg.diagmap i).map Diag.mom = some m := hm
        cases hf : find? (w.regs q).hg.diagmap i
        · rw [hf] at hm'; simp at hm'
        · rfl
      have hne : i ≠ nextId w.lastId := by
        have := (h.ids q i hi).2
        rw [e]; push_cast
        intro h; rw [h] at this; omega
      rw [if_neg hne]
      exact h.mom q i m hm
  refine ⟨_, h0.set r ?_ ?_ ?_⟩
  · exact ⟨by simp [Sorted], by simp, by simp⟩
  · intro i hi
    simp only [keys_cons, keys_nil, List.mem_singleton] at hi
    rw [hi, e]; push_cast; omega
  · intro i m hm
    simp only [momOf, find?] at hm
    split_ifs at hm with hi
    · rw [if_pos hi.symm]; simpa using hm.symm
    · simp at hm

/-- One call preserves the invariant. -/
theorem Inv2.step {solve : (ℕ → ℕ → R) → Option (List R)} (hs : LowerOnly solve) {w : World2 R} {n : ℕ}
    {tab : VId → Moments R} (h : Inv2 w n tab) (st : Step2 R) (ht : ThresholdOk st)
    (hn : n + countNew2 [st] < 2147483647) :
    ∃ w' o n' tab', (∀ k, w.step solve k st = some (w', o)) ∧ n ≤ n' ∧ n' ≤ n + countNew2 [st] ∧
      Inv2 w' n' tab' := by
  have below : ∀ r, Ok2 (w.regs r) := fun r => ⟨h.valid r, fun i hi => by
    have := (h.ids r i hi).2
    have h' : (n : ℤ) < 2147483647 := by exact_mod_cast (lt_of_le_of_lt (Nat.le_add_right _ _) hn)
    exact lt_of_le_of_lt this h'⟩
  have fin : ∀ (r : Reg) (mu : R) (res : Except Exn (UReal2 R)), n < 2147483646 →
      (∀ x, res = .ok x → ∃ d, x = ⟨⟨[(nextId w.lastId, d)], []⟩, mu⟩) →
      ∃ n' tab', n ≤ n' ∧ n' ≤ n + 1 ∧ Inv2 (w.finish r res).1 n' tab' := by
    intro r mu res hn' hres
    cases res with
    | error e => exact ⟨n, tab, le_rfl, by omega, h⟩
    | ok x =>
      obtain ⟨d, rfl⟩ := hres x rfl
      obtain ⟨tab', h'⟩ := h.new hn' r mu d
      exact ⟨n + 1, tab', by omega, le_rfl, h'⟩
  cases st with
  | newCentral r mu m t =>
    obtain ⟨res, e, hres⟩ := mkCentral_spec hs (nextId w.lastId) mu m ht
    obtain ⟨n', tab', h1, h2, h3⟩ := fin r mu res (by simp [countNew2] at hn; omega) hres
    exact ⟨_, _, n', tab', fun k => by simp [World2.step, e k]; rfl, h1, by simpa [countNew2] using h2, h3⟩
  | newStd r mu s m t =>
    obtain ⟨res, e, hres⟩ := mkStd_spec hs (nextId w.lastId) mu s m ht
    obtain ⟨n', tab', h1, h2, h3⟩ := fin r mu res (by simp [countNew2] at hn; omega) hres
    exact ⟨_, _, n', tab', fun k => by simp [World2.step, e k]; rfl, h1, by simpa [countNew2] using h2, h3⟩
  | const r mu =>
    exact ⟨_, _, n, tab, fun k => rfl, le_rfl, by simp, h.set r ⟨by simp [UReal2.const, empty], by simp [UReal2.const, empty],
      by simp [UReal2.const, empty]⟩ (by simp [UReal2.const, empty]) (by simp [UReal2.const, empty, momOf, find?])⟩
  | copy r a =>
    exact ⟨_, _, n, tab, fun k => rfl, le_rfl, by simp, h.set r (h.valid a) (h.ids a) (h.mom a)⟩
  | unary r a f fx fxx =>
    obtain ⟨z, e, -, v, kk, g⟩ := unary_lawfree (h.valid a) f fx fxx
    refine ⟨_, _, n, tab, fun k => by simp [World2.step, e k.u]; rfl, le_rfl, by simp, h.set r v
      (by rw [kk]; exact h.ids a) fun i m hm => h.mom a i m ?_⟩
    have := congrArg (Option.map Prod.snd) (g i)
    simp only [Option.map_map, Function.comp_def] at this
    unfold momOf at hm ⊢
    exact this.symm.trans hm
  | binary r a b f fx fy fxx fyy fxy =>
    obtain ⟨z, e, -, v, kk, g⟩ := binary_lawfree (below a) (below b) f fx fy fxx fyy fxy
    refine ⟨_, _, n, tab, fun k => by simp [World2.step, e k.u]; rfl, le_rfl, by simp, h.set r v (fun i hi => ?_)
      fun i m hm => ?_⟩
    · rcases (kk i).1 hi with h' | h'
      · exact h.ids a i h'
      · exact h.ids b i h'
    · have g' := congrArg (Option.map Prod.snd) (g i)
      simp only [Option.map_map, Function.comp_def] at g'
      have hm' : (find? z.hg.diagmap i).map Diag.mom = some m := hm
      rw [g'] at hm'
      cases hx : find? (w.regs a).hg.diagmap i with
      | some d =>
        have : (w.regs a).hg.momOf i = some d.mom := by simp [momOf, hx]
        rw [← h.mom a i _ this]
        cases hy : find? (w.regs b).hg.diagmap i <;> simp [hx, hy, gradMerge] at hm' <;> exact hm'.symm
      | none =>
        cases hy : find? (w.regs b).hg.diagmap i with
        | none => simp [hx, hy, gradMerge] at hm'
        | some d =>
          have : (w.regs b).hg.momOf i = some d.mom := by simp [momOf, hy]
          rw [← h.mom b i _ this]
          simp [hx, hy, gradMerge] at hm'
          exact hm'.symm
  | otherNew =>
    have hn' : n < 2147483646 := by simp [countNew2] at hn; omega
    have e : nextId w.lastId = ((n + 1 : ℕ) : ℤ) := by rw [h.count]; exact nextId_nat (by omega)
    exact ⟨_, _, n + 1, tab, fun k => rfl, by omega, by simp [countNew2], e, h.valid, fun q i hi => by
      have := h.ids q i hi
      refine ⟨this.1, le_trans this.2 ?_⟩
      push_cast; omega, h.mom⟩

omit [Zero R] [One R] [Neg R] [Add R] [Sub R] [Mul R] [Div R] [NatCast R] [CCmp R] [CSqrt R] in
theorem countNew2_cons (st : Step2 R) (t : List (Step2 R)) :
    countNew2 (st :: t) = countNew2 [st] + countNew2 t := by
  cases st <;> simp [countNew2, Nat.add_comm]

/-- **C21** Any program over `UReal2` values with fewer than 2^31 - 1 constructions, in any arithmetic: no
undefined behaviour and no failed assert; every variable satisfies the representation invariant; the moments
of an elementary variable are the same in all values; and the state and outputs do not depend on
the content of uninitialised storage. -/
theorem C21_program {solve : (ℕ → ℕ → R) → Option (List R)} (hs : LowerOnly solve)
    (p : List (Step2 R × Junk R)) (ht : ∀ st ∈ p.map Prod.fst, ThresholdOk st)
    (hc : countNew2 (p.map Prod.fst) < 2147483647) :
    ∃ w os, (World2.init : World2 R).run solve p = some (w, os) ∧
      (∀ r, Ok2 (w.regs r)) ∧ (∃ tab, SharedMoments w tab) ∧
      ∀ p', p'.map Prod.fst = p.map Prod.fst → (World2.init : World2 R).run solve p' = some (w, os) := by
  have gen : ∀ (l : List (Step2 R)) (w : World2 R) (n : ℕ) (tab : VId → Moments R), Inv2 w n tab →
      (∀ st ∈ l, ThresholdOk st) → n + countNew2 l < 2147483647 →
      ∃ w' os n' tab', (∀ p : List (Step2 R × Junk R), p.map Prod.fst = l → w.run solve p = some (w', os)) ∧
        n' < 2147483647 ∧ Inv2 w' n' tab' := by
    intro l
    induction l with
    | nil =>
      intro w n tab h _ hn
      refine ⟨w, [], n, tab, fun p hp => ?_, by omega, h⟩
      rw [List.map_eq_nil_iff] at hp
      subst hp; rfl
    | cons st l ih =>
      intro w n tab h ht hn
      rw [countNew2_cons] at hn
      obtain ⟨w1, o, n1, tab1, e1, h1, h2, i1⟩ := h.step hs st (ht st (by simp)) (by omega)
      obtain ⟨w2, os, n2, tab2, e2, h3, i2⟩ := ih w1 n1 tab1 i1 (fun s hs' => ht s (by simp [hs'])) (by omega)
      refine ⟨w2, o :: os, n2, tab2, fun p hp => ?_, h3, i2⟩
      cases p with
      | nil => simp at hp
      | cons q p =>
        obtain ⟨s, k⟩ := q
        simp only [List.map_cons, List.cons.injEq] at hp
        obtain ⟨rfl, hp⟩ := hp
        rw [World2.run, e1 k, Option.bind_some]
        show Option.map _ (w1.run solve p) = _
        rw [e2 p hp]
        rfl
  have hi : Inv2 (World2.init : World2 R) 0 fun _ => ⟨0, 0, 0, 0, 0, 0⟩ :=
    ⟨rfl, fun r => ⟨by simp [World2.init, UReal2.default', empty], by simp [World2.init, UReal2.default', empty],
      by simp [World2.init, UReal2.default', empty]⟩, by simp [World2.init, UReal2.default', empty],
      by simp [SharedMoments, World2.init, UReal2.default', empty, momOf, find?]⟩
  obtain ⟨w, os, n, tab, e, hn, i⟩ := gen (p.map Prod.fst) _ 0 _ hi ht (by omega)
  refine ⟨w, os, e p rfl, fun r => ⟨i.valid r, fun j hj => ?_⟩, ⟨tab, i.mom⟩, fun p' hp' => e p' hp'⟩
  have := (i.ids r j hj).2
  have hn' : (n : ℤ) < 2147483647 := by exact_mod_cast hn
  exact lt_of_le_of_lt this hn'

/-- **C21, sharpness** of the bound: the variable with the largest `int` as id, combined with a constant, is
undefined behaviour in `binary` (its id equals the sentinel, so the end iterator of `y` is dereferenced). -/
theorem C21_ub_at_max_id (u : Moments R) (d : Diag R) (mu n f fx fy fxx fyy fxy : R) :
    UReal2.binary u ⟨⟨[(maxId, d)], []⟩, mu⟩ (UReal2.const n) f fx fy fxx fyy fxy = none := by
  have hv : (⟨[(maxId, d)], []⟩ : HessGrad R).Valid := ⟨by simp [Sorted], by simp, by simp⟩
  have he : (HessGrad.empty : HessGrad R).Valid := ⟨by simp [empty], by simp [empty], by simp [empty]⟩
  unfold UReal2.binary
  simp only [hessEntries_eq _ hv, UReal2.const, hessEntries_eq _ he, Option.bind_some]
  simp [hessSpec, empty, UReal2.binaryLoop]

end

/-! ## C22: gradient, set of variables, moments -/

section
variable {R : Type*} [Field R] [LinearOrder R] [IsStrictOrderedRing R]

/-- **C22** `unary` in both modes: value, gradient (chain rule), same variables with the same moments. -/
theorem C22_unary {x z : UReal2 R} (hx : Ok2 x) {f fx fxx : R} {u : Moments R}
    (hz : UReal2.unary u x f fx fxx = some z) :
    z.mu = f ∧ (∀ i, z.hg.G i = fx * x.hg.G i) ∧ z.hg.vars = x.hg.vars ∧ ∀ i, z.hg.momOf i = x.hg.momOf i := by
  obtain ⟨z', e, m, -, k, g⟩ := unary_lawfree hx.valid f fx fxx
  obtain rfl : z' = z := Option.some_inj.1 ((e u).symm.trans hz)
  refine ⟨m, fun i => ?_, by simp only [vars, k], fun i => ?_⟩ <;> have := g i
  · rw [G_def, G_def]
    cases h1 : find? z'.hg.diagmap i <;> cases h2 : find? x.hg.diagmap i <;> simp [h1, h2] at this ⊢
    exact this.1
  · unfold momOf
    cases h1 : find? z'.hg.diagmap i <;> cases h2 : find? x.hg.diagmap i <;> simp [h1, h2] at this ⊢
    exact this.2

/-- **C22** `binary` in all modes: value, gradient (chain rule), union of the variables; the moments of a
variable come from `x` if `x` depends on it, otherwise from `y`. -/
theorem C22_binary {x y z : UReal2 R} (hx : Ok2 x) (hy : Ok2 y) {f fx fy fxx fyy fxy : R} {u : Moments R}
    (hz : UReal2.binary u x y f fx fy fxx fyy fxy = some z) :
    z.mu = f ∧ (∀ i, z.hg.G i = fx * x.hg.G i + fy * y.hg.G i) ∧ z.hg.vars = x.hg.vars ∪ y.hg.vars ∧
      ∀ i, z.hg.momOf i = (x.hg.momOf i).or (y.hg.momOf i) := by
  obtain ⟨z', e, m, -, k, g⟩ := binary_lawfree hx hy f fx fy fxx fyy fxy
  obtain rfl : z' = z := Option.some_inj.1 ((e u).symm.trans hz)
  refine ⟨m, fun i => ?_, ?_, fun i => ?_⟩
  · have := g i
    rw [G_def, G_def, G_def]
    cases h1 : find? z'.hg.diagmap i <;> cases h2 : find? x.hg.diagmap i <;>
      cases h3 : find? y.hg.diagmap i <;> simp [h1, h2, h3, gradMerge] at this ⊢
    · exact this.1
    · exact this.1
    · exact this.1
  · ext i
    simp only [vars, List.mem_toFinset, Finset.mem_union, k]
  · have := g i
    unfold momOf
    cases h1 : find? z'.hg.diagmap i <;> cases h2 : find? x.hg.diagmap i <;>
      cases h3 : find? y.hg.diagmap i <;> simp [h1, h2, h3, gradMerge] at this ⊢
    · exact this.2
    · exact this.2
    · exact this.2

/-! ## C23: second derivatives -/

/-- The second derivative with respect to the standardized variables `i` and `j`. -/
def D2 (x : UReal2 R) (i j : VId) : R := 2 * x.hg.H i j

/-- The chain rule to second order for a function of one argument. -/
def Chain1 (x z : UReal2 R) (fx fxx : R) : Prop :=
  ∀ a b, D2 z a b = fxx * x.hg.G a * x.hg.G b + fx * D2 x a b

/-- The chain rule to second order for a function of two arguments. -/
def Chain2 (x y z : UReal2 R) (fx fy fxx fyy fxy : R) : Prop :=
  ∀ a b, D2 z a b = fxx * x.hg.G a * x.hg.G b + fyy * y.hg.G a * y.hg.G b +
    fxy * (x.hg.G a * y.hg.G b + x.hg.G b * y.hg.G a) + fx * D2 x a b + fy * D2 y a b

/-- The full statement of C23 for `unary`. It is false, see `C23_unary_false`. -/
def C23_unary_statement (R : Type*) [Field R] [LinearOrder R] [IsStrictOrderedRing R] : Prop :=
  ∀ (x z : UReal2 R) (f fx fxx : R) (u : Moments R), Ok2 x → UReal2.unary u x f fx fxx = some z →
    Chain1 x z fx fxx

/-- The full statement of C23 for `binary`. It is false, see `C23_binary_false`. -/
def C23_binary_statement (R : Type*) [Field R] [LinearOrder R] [IsStrictOrderedRing R] : Prop :=
  ∀ (x y z : UReal2 R) (f fx fy fxx fyy fxy : R) (u : Moments R), Ok2 x → Ok2 y →
    UReal2.binary u x y f fx fy fxx fyy fxy = some z → Chain2 x y z fx fy fxx fyy fxy

/-- The full iteration over the Hessian of `x` is not needed or works (`C46_full_iff`). -/
def IterOk (x : UReal2 R) (fxx : R) : Prop :=
  fxx = 0 ∨ x.hg.size ≤ 1 ∨ (x.hg.size = 2 ∧ x.hg.trimap ≠ [])

theorem lit2_ne : (Mom.lit 2 : R) ≠ 0 := by simp [Mom.lit]

theorem goodAt_of_iterOk {x : UReal2 R} (hx : x.hg.Valid) {fxx : R} (h : IterOk x fxx) {a b : VId} (hab : a < b) :
    GoodAt (CCmp.eqb (fxx / Mom.lit 2) 0) x.hg (fxx / Mom.lit 2) a b := by
  by_cases h0 : fxx = 0
  · subst h0
    rw [zero_div, (eqb_iff (0 : R) 0).2 rfl]
    exact goodAt_skip hx rfl hab
  · have hne : CCmp.eqb (fxx / Mom.lit 2) (0 : R) = false := by
      rw [← Bool.not_eq_true, eqb_iff]
      exact div_ne_zero h0 lit2_ne
    rw [hne]
    exact goodAt_of_visits hx (C46_full_partial hx (h.resolve_left h0)) _ hab

/-- **C23** (partial) `unary`: the second-order chain rule, provided the second derivative of the function is 0,
or the operand depends on at most one variable, or on two with their mixed derivative stored.  Missing: the
other operands, for which it is false (`C23_unary_false`, `C23_unary_behaviour`). -/
theorem C23_unary_partial {x z : UReal2 R} (hx : Ok2 x) {f fx fxx : R} {u : Moments R} (hi : IterOk x fxx)
    (hz : UReal2.unary u x f fx fxx = some z) : Chain1 x z fx fxx := by
  intro a b
  unfold D2
  rw [unary_H hx.valid (fun a b hab => goodAt_of_iterOk hx.valid hi hab) hz a b]
  simp only [Mom.lit, Nat.cast_ofNat]
  ring

/-- **C23** (partial) `binary`, same condition on both operands. -/
theorem C23_binary_partial {x y z : UReal2 R} (hx : Ok2 x) (hy : Ok2 y) {f fx fy fxx fyy fxy : R} {u : Moments R}
    (hix : IterOk x fxx) (hiy : IterOk y fyy)
    (hz : UReal2.binary u x y f fx fy fxx fyy fxy = some z) : Chain2 x y z fx fy fxx fyy fxy := by
  intro a b
  unfold D2
  rw [binary_H hx hy (fun r hr => (eqb_iff r 0).1 hr) (fun a b hab => goodAt_of_iterOk hx.valid hix hab)
    (fun a b hab => goodAt_of_iterOk hy.valid hiy hab) hz a b]
  simp only [Mom.lit, Nat.cast_ofNat]
  ring

/-- **C23** `-x` is right for all operands. -/
theorem C23_neg {x z : UReal2 R} (hx : Ok2 x) {u : Moments R} (hz : UReal2.neg u x = some z) :
    z.mu = -x.mu ∧ (∀ i, z.hg.G i = -x.hg.G i) ∧ ∀ a b, D2 z a b = -D2 x a b := by
  obtain ⟨h1, h2, -⟩ := C22_unary hx hz
  refine ⟨h1, fun i => by rw [h2]; ring, fun a b => ?_⟩
  rw [C23_unary_partial hx (Or.inl rfl) hz a b]; ring

/-- **C23** `x + y` is right for all operands. -/
theorem C23_add {x y z : UReal2 R} (hx : Ok2 x) (hy : Ok2 y) {u : Moments R} (hz : UReal2.add u x y = some z) :
    z.mu = x.mu + y.mu ∧ (∀ i, z.hg.G i = x.hg.G i + y.hg.G i) ∧ ∀ a b, D2 z a b = D2 x a b + D2 y a b := by
  obtain ⟨h1, h2, -⟩ := C22_binary hx hy hz
  refine ⟨h1, fun i => by rw [h2]; ring, fun a b => ?_⟩
  rw [C23_binary_partial hx hy (Or.inl rfl) (Or.inl rfl) hz a b]; ring

/-- **C23** `x - y` is right for all operands. -/
theorem C23_sub {x y z : UReal2 R} (hx : Ok2 x) (hy : Ok2 y) {u : Moments R} (hz : UReal2.sub u x y = some z) :
    z.mu = x.mu - y.mu ∧ (∀ i, z.hg.G i = x.hg.G i - y.hg.G i) ∧ ∀ a b, D2 z a b = D2 x a b - D2 y a b := by
  obtain ⟨h1, h2, -⟩ := C22_binary hx hy hz
  refine ⟨h1, fun i => by rw [h2]; ring, fun a b => ?_⟩
  rw [C23_binary_partial hx hy (Or.inl rfl) (Or.inl rfl) hz a b]; ring

/-- **C23** `x * y` is right for all operands: product rule to second order. -/
theorem C23_mul {x y z : UReal2 R} (hx : Ok2 x) (hy : Ok2 y) {u : Moments R} (hz : UReal2.mul u x y = some z) :
    z.mu = x.mu * y.mu ∧ (∀ i, z.hg.G i = x.hg.G i * y.mu + x.mu * y.hg.G i) ∧
      ∀ a b, D2 z a b = D2 x a b * y.mu + x.hg.G a * y.hg.G b + x.hg.G b * y.hg.G a + x.mu * D2 y a b := by
  obtain ⟨h1, h2, -⟩ := C22_binary hx hy hz
  refine ⟨h1, fun i => by rw [h2]; ring, fun a b => ?_⟩
  rw [C23_binary_partial hx hy (Or.inl rfl) (Or.inl rfl) hz a b]; ring

/-- **C23** (partial) `x / y`: quotient rule to second order, if the divisor is a constant, depends on one
variable, or on two with their mixed derivative stored, or the dividend is 0.  Missing: other divisors, for which it is false
(`C23_div_false`). -/
theorem C23_div_partial {x y z : UReal2 R} (hx : Ok2 x) (hy : Ok2 y) {u : Moments R} (hy0 : y.mu ≠ 0)
    (hi : IterOk y x.mu) (hz : UReal2.div u x y = some z) :
    z.mu = x.mu / y.mu ∧ (∀ i, z.hg.G i = (x.hg.G i * y.mu - x.mu * y.hg.G i) / y.mu ^ 2) ∧
      ∀ a b, D2 z a b = D2 x a b / y.mu - (x.hg.G a * y.hg.G b + x.hg.G b * y.hg.G a) / y.mu ^ 2 +
        2 * x.mu * y.hg.G a * y.hg.G b / y.mu ^ 3 - x.mu * D2 y a b / y.mu ^ 2 := by
  obtain ⟨h1, h2, -⟩ := C22_binary hx hy hz
  refine ⟨h1, fun i => by rw [h2]; field_simp; ring, fun a b => ?_⟩
  rw [C23_binary_partial hx hy (Or.inl rfl) ?_ hz a b]
  · simp only [Mom.lit, Nat.cast_ofNat]
    field_simp
    ring
  · rcases hi with h | h
    · left; simp [h]
    · exact Or.inr h

/-- **C23** What `unary` does when the second derivative of the function is not 0: the diagonal is right; a mixed
derivative is 0 unless the two variables are adjacent among those of the operand and some element
is stored in row `a`; then only the last element stored in the row counts. -/
theorem C23_unary_behaviour {x z : UReal2 R} (hx : Ok2 x) {f fx fxx : R} (h0 : fxx ≠ 0) {u : Moments R}
    (hz : UReal2.unary u x f fx fxx = some z) :
    (∀ a, D2 z a a = fxx * x.hg.G a ^ 2 + fx * D2 x a a) ∧
    ∀ a b, a < b → D2 z a b =
      if nextIn x.hg.diagmap a = some b then
        match (x.hg.trimap.filter fun p => decide ((ofLex p.1).1 = a)).getLast? with
        | none => 0
        | some p => fxx * x.hg.G a * x.hg.G b + fx * if p.1 = toLex (a, b) then D2 x a b else 0
      else 0 := by
  obtain ⟨z', e, m, v, d, t⟩ := unary_cells u hx.valid f fx fxx
  obtain rfl : z' = z := Option.some_inj.1 (e.symm.trans hz)
  have hne : CCmp.eqb (fxx / Mom.lit 2) (0 : R) = false := by
    rw [← Bool.not_eq_true, eqb_iff]
    exact div_ne_zero h0 lit2_ne
  rw [hne] at t
  constructor
  · intro a
    unfold D2
    rw [H_diag, d, H_diag, G_def]
    cases find? x.hg.diagmap a <;> simp [Mom.lit]
    ring
  · intro a b hab
    unfold D2
    rw [H_lt _ hab, t a b hab]
    unfold entsAt
    rw [hessSpec_nonskip_filter _ hab _ _ hx.valid.dsorted hx.valid.triOf hx.valid.tsorted fun i hi => find_dOf hi]
    split_ifs with hn
    · rw [List.getLast?_map]
      cases hl : (x.hg.trimap.filter fun p => decide ((ofLex p.1).1 = a)).getLast? with
      | none => simp
      | some p =>
        have hp : p ∈ x.hg.trimap := (List.mem_filter.1 (List.mem_of_getLast? hl)).1
        simp only [Option.map_some, Option.getD_some, valX, G_dOf, Mom.lit, Nat.cast_ofNat]
        split_ifs with hk
        · rw [H_of_lt hab]
          unfold SMap.get
          rw [← hk, find?_of_mem hx.valid.tsorted (show (p.1, p.2) ∈ x.hg.trimap from hp), Option.getD_some]
          ring
        · ring
    · simp

/-- **C23** A function of a sum of two distinct elementary variables: the mixed second derivative is 0, while it
should be `fxx` times the product of the gradients. -/
theorem C23_function_of_sum {i j : VId} (hij : i < j) (hj : j < maxId) (d e : Diag R) (m n f fx fxx : R)
    (h0 : fxx ≠ 0) {u u' : Moments R} {s z : UReal2 R}
    (hs : UReal2.add u ⟨⟨[(i, d)], []⟩, m⟩ ⟨⟨[(j, e)], []⟩, n⟩ = some s)
    (hz : UReal2.unary u' s f fx fxx = some z) :
    D2 z i j = 0 ∧ s.hg.G i = d.grad ∧ s.hg.G j = e.grad ∧ D2 s i j = 0 := by
  have vx : Ok2 (⟨⟨[(i, d)], []⟩, m⟩ : UReal2 R) := ⟨⟨by simp [Sorted], by simp, by simp⟩, by
    intro k hk; simp at hk; subst hk; exact hij.trans hj⟩
  have vy : Ok2 (⟨⟨[(j, e)], []⟩, n⟩ : UReal2 R) := ⟨⟨by simp [Sorted], by simp, by simp⟩, by
    intro k hk; simp at hk; subst hk; exact hj⟩
  obtain ⟨s', es, os⟩ := C21_binary vx vy (m + n) 1 1 0 0 0
  obtain rfl : s' = s := Option.some_inj.1 ((es u).symm.trans hs)
  obtain ⟨-, hG, -⟩ := C22_binary vx vy hs
  have htri : s'.hg.trimap = [] := by
    unfold UReal2.add UReal2.binary at hs
    simp only [hessEntries_eq _ vx.valid, hessEntries_eq _ vy.valid, Option.bind_some] at hs
    obtain ⟨w, e1, v, dd, t⟩ := binaryLoop_cells u vx.valid vy.valid vx.below vy.below
      (CCmp.eqb ((0 : R) / Mom.lit 2) 0) (CCmp.eqb ((0 : R) / Mom.lit 2) 0) 1 1 (0 / Mom.lit 2) (0 / Mom.lit 2)
    rw [e1] at hs
    have hz0 : CCmp.eqb ((0 : R) / Mom.lit 2) 0 = true := by rw [eqb_iff, zero_div]
    rw [hz0] at t hs
    simp only [Option.bind_some, Bool.not_true, Bool.false_eq_true, if_false, Option.map_some,
      Option.some.injEq] at hs
    subst hs
    rw [List.eq_nil_iff_forall_not_mem]
    intro p hp
    obtain ⟨h1, h2, h3⟩ := v.triOf p.1 (List.mem_map_of_mem (f := Prod.fst) hp)
    have h4 := t _ _ h1
    rw [show (toLex ((ofLex p.1).1, (ofLex p.1).2) : IdPair) = p.1 from rfl,
      find?_of_mem v.tsorted (show (p.1, p.2) ∈ w.trimap from hp)] at h4
    have l1 : ∀ (k : VId) (dk : Diag R) (a b : VId), a < b → entsAt true (⟨[(k, dk)], []⟩ : HessGrad R) a b = [] := by
      intro k dk a b hab
      by_contra hne
      obtain ⟨ha, hb⟩ := entsAt_vars (hg := ⟨[(k, dk)], []⟩) ⟨by simp [Sorted], by simp, by simp⟩ hne
      simp only [keys_cons, keys_nil, List.mem_singleton] at ha hb
      rw [ha, hb] at hab; exact lt_irrefl _ hab
    rw [l1 _ _ _ _ h1, l1 _ _ _ _ h1] at h4
    simp [hProc] at h4
  have hH : D2 s' i j = 0 := by
    unfold D2; rw [H_lt _ hij, htri]; simp [find?]
  refine ⟨?_, ?_, ?_, hH⟩
  · rw [(C23_unary_behaviour os h0 hz).2 i j hij, htri]
    simp
  · rw [hG]; simp [HessGrad.G, find?, hij.ne, hij.ne']
  · rw [hG]; simp [HessGrad.G, find?, hij.ne, hij.ne']

/-- **C23** `f(c, y)` where `c` is a constant and no mixed derivative of `y` is stored: all mixed derivatives of the
result are 0. -/
theorem C23_function_of_const {y z : UReal2 R} (hy : Ok2 y) (ht : y.hg.trimap = []) (c f fx fy fxx fyy fxy : R)
    (h0 : fyy ≠ 0) {u : Moments R} (hz : UReal2.binary u (UReal2.const c) y f fx fy fxx fyy fxy = some z)
    {a b : VId} (hab : a < b) : D2 z a b = 0 := by
  have vx : Ok2 (UReal2.const c : UReal2 R) := ⟨⟨by simp [UReal2.const, empty], by simp [UReal2.const, empty],
    by simp [UReal2.const, empty]⟩, by intro k hk; simp [UReal2.const, empty] at hk⟩
  unfold UReal2.binary at hz
  simp only [hessEntries_eq _ vx.valid, hessEntries_eq _ hy.valid, Option.bind_some] at hz
  have hne : CCmp.eqb (fyy / Mom.lit 2) (0 : R) = false := by
    rw [← Bool.not_eq_true, eqb_iff]
    exact div_ne_zero h0 lit2_ne
  obtain ⟨w, e1, v, dd, t⟩ := binaryLoop_cells u vx.valid hy.valid vx.below hy.below
    (CCmp.eqb (fxx / Mom.lit 2) 0) (CCmp.eqb (fyy / Mom.lit 2) 0) fx fy (fxx / Mom.lit 2) (fyy / Mom.lit 2)
  rw [e1, Option.bind_some] at hz
  have hw : z.hg = w := by
    simp only [UReal2.const, empty, UReal2.mixedLoop, List.foldlM_nil] at hz
    split_ifs at hz <;> simp at hz <;> rw [← hz]
  unfold D2
  rw [hw, H_lt _ hab, t a b hab, hne]
  have e0 : entsAt false y.hg a b = [] := by
    unfold entsAt
    rw [hessSpec_nonskip_filter _ hab _ _ hy.valid.dsorted hy.valid.triOf hy.valid.tsorted fun i hi => find_dOf hi, ht]
    simp
  have e2 : entsAt (CCmp.eqb (fxx / Mom.lit 2) 0) (UReal2.const c : UReal2 R).hg a b = [] := by
    simp [entsAt, UReal2.const, empty, hessSpec]
  rw [e0, e2]
  simp [hProc]

end

theorem G_ex2c : ex2c.hg.G 1 = 1 ∧ ex2c.hg.G 2 = 1 := by
  constructor <;> simp [ex2c, exH2, HessGrad.G, find?]
theorem D2_ex2c : D2 ex2c 1 2 = 0 := by
  simp [D2, ex2c, exH2, HessGrad.H, SMap.get, find?]

/-- **C23** is false for `unary`: the square of a value depending on two variables, without mixed
derivative (a sum), has mixed derivative 0 instead of 2. -/
theorem C23_unary_false : ¬ C23_unary_statement ℝ := by
  intro h
  obtain ⟨z, e, -⟩ := C21_unary ok_ex2c 4 4 2
  have h1 := h ex2c z 4 4 2 exN ok_ex2c (e exN) 1 2
  have h2 : D2 z 1 2 = 0 := by
    rw [(C23_unary_behaviour ok_ex2c two_ne_zero (e exN)).2 1 2 (by norm_num)]
    simp [ex2c, exH2, nextIn, List.filter_cons]
  rw [h2, D2_ex2c, G_ex2c.1, G_ex2c.2] at h1
  norm_num at h1

/-- **C23** is false for `operator/`: `1 / y`, where `y` depends on two variables without mixed derivative (a
sum), has mixed derivative 0. -/
theorem C23_div_false : ∃ z, UReal2.div exN (UReal2.const 1) ex2c = some z ∧ D2 z 1 2 = 0 ∧
    (2 * 1 * ex2c.hg.G 1 * ex2c.hg.G 2 / ex2c.mu ^ 3 - 1 * D2 ex2c 1 2 / ex2c.mu ^ 2 : ℝ) = 1 / 4 := by
  have vx : Ok2 (UReal2.const 1 : UReal2 ℝ) := ⟨⟨by simp [UReal2.const, empty], by simp [UReal2.const, empty],
    by simp [UReal2.const, empty]⟩, by intro k hk; simp [UReal2.const, empty] at hk⟩
  obtain ⟨z, e, -⟩ := C21_binary vx ok_ex2c ((UReal2.const 1 : UReal2 ℝ).mu / ex2c.mu) (1 / ex2c.mu)
    (-(UReal2.const 1 : UReal2 ℝ).mu * (1 / ex2c.mu * (1 / ex2c.mu))) 0
    (Mom.lit 2 * (UReal2.const 1 : UReal2 ℝ).mu * (1 / ex2c.mu * (1 / ex2c.mu)) * (1 / ex2c.mu))
    (-(1 / ex2c.mu * (1 / ex2c.mu)))
  refine ⟨z, e exN, C23_function_of_const ok_ex2c rfl _ _ _ _ _ _ _ ?_ (e exN) (by norm_num), ?_⟩
  · simp [ex2c, UReal2.const, Mom.lit]
  · rw [G_ex2c.1, G_ex2c.2, D2_ex2c]; norm_num [ex2c]

/-- **C23** is false for `binary`. -/
theorem C23_binary_false : ¬ C23_binary_statement ℝ := by
  intro h
  have vx : Ok2 (UReal2.const 1 : UReal2 ℝ) := ⟨⟨by simp [UReal2.const, empty], by simp [UReal2.const, empty],
    by simp [UReal2.const, empty]⟩, by intro k hk; simp [UReal2.const, empty] at hk⟩
  obtain ⟨z, e, hz, -⟩ := C23_div_false
  have h1 := h _ _ z _ _ _ _ _ _ exN vx ok_ex2c e 1 2
  rw [hz, G_ex2c.1, G_ex2c.2, D2_ex2c] at h1
  have g0 : ∀ i, (UReal2.const 1 : UReal2 ℝ).hg.G i = 0 := by
    intro i; simp [UReal2.const, empty, HessGrad.G, find?]
  have d0 : D2 (UReal2.const 1 : UReal2 ℝ) 1 2 = 0 := by
    simp [D2, UReal2.const, empty, HessGrad.H, SMap.get, find?]
  rw [g0, g0, d0] at h1
  norm_num [ex2c, UReal2.const, Mom.lit] at h1

/-! Hypotheses can be met. -/

example : ∃ z, (∀ u, UReal2.unary u ex2a 1 2 3 = some z) ∧ Ok2 z := C21_unary ok_ex2a 1 2 3
example : ∃ z, (∀ u, UReal2.binary u ex2a ex2b 1 2 3 4 5 6 = some z) ∧ Ok2 z :=
  C21_binary ok_ex2a ok_ex2b 1 2 3 4 5 6
example : (ex2a.hg.triEntries false).isSome ∧ (ex2a.hg.hessEntries false).isSome := C21_iterators ok_ex2a false
example : (UReal2.hess exN ex2a ex2b ex2b).isSome ∧ (UReal2.all ex2a fun r => decide (r < 3)).isSome :=
  C21_hess_all ok_ex2a ex2b ex2b exN _
/-- a solver which looks at one element of the lower triangle -/
def exSolve : (ℕ → ℕ → ℝ) → Option (List ℝ) := fun M => some [M 4 2, 1, 2, 3, 4]
/-- a program: two variables, their sum, the square of the sum -/
def exProg2 : List (Step2 ℝ × Junk ℝ) :=
  [(.newStd ⟨0, 0⟩ 3 1 (fun k => if k = 1 then 3 else k) 0, ⟨exE, fun _ _ => 7⟩),
   (.newCentral ⟨0, 1⟩ 4 (fun k => k) (-1), ⟨exE, fun _ _ => 8⟩),
   (.binary ⟨0, 2⟩ ⟨0, 0⟩ ⟨0, 1⟩ 7 1 1 0 0 0, ⟨exN, fun _ _ => 9⟩), (.unary ⟨0, 3⟩ ⟨0, 2⟩ 49 14 2, ⟨exN, fun _ _ => 0⟩)]
example : ∃ w os, (World2.init : World2 ℝ).run exSolve exProg2 = some (w, os) ∧
    (∀ r, Ok2 (w.regs r)) ∧ (∃ tab, SharedMoments w tab) ∧
    ∀ p', p'.map Prod.fst = exProg2.map Prod.fst → (World2.init : World2 ℝ).run exSolve p' = some (w, os) :=
  C21_program (fun M M' h => by simp only [exSolve]; rw [h 4 2 (by norm_num) (by norm_num)]) exProg2
    (by
      intro st hst
      simp only [exProg2, List.map_cons, List.map_nil, List.mem_cons, List.not_mem_nil, or_false] at hst
      rcases hst with rfl | rfl | rfl | rfl <;> simp [ThresholdOk])
    (by simp [exProg2, countNew2])
example : UReal2.binary exN ⟨⟨[(maxId, ⟨1, 0, exN⟩)], []⟩, 2⟩ (UReal2.const 3) 5 1 1 0 0 0 = none :=
  C21_ub_at_max_id exN ⟨1, 0, exN⟩ 2 3 5 1 1 0 0 0
example : ∃ z, UReal2.unary exE ex2a 1 2 3 = some z ∧ z.hg.G 2 = -2 ∧ z.hg.momOf 2 = some exE := by
  obtain ⟨z, e, -⟩ := C21_unary ok_ex2a 1 2 3
  obtain ⟨-, h, -, h'⟩ := C22_unary ok_ex2a (e exE)
  refine ⟨z, e exE, ?_, ?_⟩
  · rw [h]; norm_num [ex2a, exH, HessGrad.G, find?]
  · rw [h']; simp [ex2a, exH, momOf, find?]
example : ∃ z, UReal2.binary exN ex2a ex2b 1 2 3 4 5 6 = some z ∧ z.hg.G 2 = 7 ∧ z.hg.momOf 5 = some exN := by
  obtain ⟨z, e, -⟩ := C21_binary ok_ex2a ok_ex2b 1 2 3 4 5 6
  obtain ⟨-, h, -, h'⟩ := C22_binary ok_ex2a ok_ex2b (e exN)
  refine ⟨z, e exN, ?_, ?_⟩
  · rw [h]; norm_num [ex2a, ex2b, exH, exH3, HessGrad.G, find?]
  · rw [h']; simp [ex2a, ex2b, exH, exH3, momOf, find?]
/-- mixed derivative of `f(x)`: `3 * 3 * 1 + 2 * (2 * 4)` -/
example : ∃ z, UReal2.unary exN ex2b 1 2 3 = some z ∧ D2 z 2 5 = 25 := by
  obtain ⟨z, e, -⟩ := C21_unary ok_ex2b 1 2 3
  refine ⟨z, e exN, ?_⟩
  rw [C23_unary_partial ok_ex2b (Or.inr (Or.inr ⟨rfl, by simp [ex2b, exH3]⟩)) (e exN)]
  norm_num [D2, ex2b, exH3, HessGrad.G, HessGrad.H, find?, SMap.get]
example : ∃ z, UReal2.binary exN ex2a ex2b 1 2 3 0 5 6 = some z ∧ D2 z 2 5 = 5 * 3 * 1 + 6 * -1 + 3 * 8 := by
  obtain ⟨z, e, -⟩ := C21_binary ok_ex2a ok_ex2b 1 2 3 0 5 6
  refine ⟨z, e exN, ?_⟩
  rw [C23_binary_partial ok_ex2a ok_ex2b (Or.inl rfl) (Or.inr (Or.inr ⟨rfl, by simp [ex2b, exH3]⟩)) (e exN)]
  norm_num [D2, ex2a, ex2b, exH, exH3, HessGrad.G, HessGrad.H, find?, SMap.get, key_eq_iff]
example : ∃ z, UReal2.neg exN ex2a = some z ∧ D2 z 1 4 = 4 := by
  obtain ⟨z, e, -⟩ := C21_unary ok_ex2a (-ex2a.mu) (-1) 0
  refine ⟨z, e exN, ?_⟩
  rw [(C23_neg ok_ex2a (e exN)).2.2]
  norm_num [D2, ex2a, exH, HessGrad.H, find?, SMap.get, key_eq_iff]
example : ∃ z, UReal2.add exN ex2a ex2b = some z ∧ D2 z 2 2 = 8 := by
  obtain ⟨z, e, -⟩ := C21_binary ok_ex2a ok_ex2b (ex2a.mu + ex2b.mu) 1 1 0 0 0
  refine ⟨z, e exN, ?_⟩
  rw [(C23_add ok_ex2a ok_ex2b (e exN)).2.2]
  norm_num [D2, ex2a, ex2b, exH, exH3, HessGrad.H, find?, SMap.get, key_eq_iff]
example : ∃ z, UReal2.sub exN ex2a ex2b = some z ∧ D2 z 2 2 = 4 := by
  obtain ⟨z, e, -⟩ := C21_binary ok_ex2a ok_ex2b (ex2a.mu - ex2b.mu) 1 (-1) 0 0 0
  refine ⟨z, e exN, ?_⟩
  rw [(C23_sub ok_ex2a ok_ex2b (e exN)).2.2]
  norm_num [D2, ex2a, ex2b, exH, exH3, HessGrad.H, find?, SMap.get, key_eq_iff]
/-- a value times itself -/
example : ∃ z, UReal2.mul exN ex2a ex2a = some z ∧ D2 z 1 2 = 2 * (3 * 14 - 2) := by
  obtain ⟨z, e, -⟩ := C21_binary ok_ex2a ok_ex2a (ex2a.mu * ex2a.mu) ex2a.mu ex2a.mu 0 0 1
  refine ⟨z, e exN, ?_⟩
  rw [(C23_mul ok_ex2a ok_ex2a (e exN)).2.2]
  norm_num [D2, ex2a, exH, HessGrad.H, HessGrad.G, find?, SMap.get, key_eq_iff]
example : ∃ z, UReal2.div exN ex2a ex2b = some z ∧
    ∀ i, z.hg.G i = (ex2a.hg.G i * ex2b.mu - ex2a.mu * ex2b.hg.G i) / ex2b.mu ^ 2 := by
  obtain ⟨z, e, -⟩ := C21_binary ok_ex2a ok_ex2b (ex2a.mu / ex2b.mu) (1 / ex2b.mu)
    (-ex2a.mu * (1 / ex2b.mu * (1 / ex2b.mu))) 0 (Mom.lit 2 * ex2a.mu * (1 / ex2b.mu * (1 / ex2b.mu)) * (1 / ex2b.mu))
    (-(1 / ex2b.mu * (1 / ex2b.mu)))
  exact ⟨z, e exN, (C23_div_partial ok_ex2a ok_ex2b (by simp [ex2b])
    (Or.inr (Or.inr ⟨rfl, by simp [ex2b, exH3]⟩)) (e exN)).2.1⟩
/-- three variables: the element (1, 4) is lost, the element (1, 2) loses its own second derivative -/
example : ∃ z, UReal2.unary exN ex2a 1 2 3 = some z ∧ D2 z 1 4 = 0 ∧ D2 z 1 2 = 3 * 2 * -1 := by
  obtain ⟨z, e, -⟩ := C21_unary ok_ex2a 1 2 3
  have h := (C23_unary_behaviour ok_ex2a (by norm_num : (3 : ℝ) ≠ 0) (e exN)).2
  refine ⟨z, e exN, ?_, ?_⟩
  · rw [h 1 4 (by norm_num)]; simp [ex2a, exH, nextIn, List.filter_cons]
  · rw [h 1 2 (by norm_num)]
    norm_num [ex2a, exH, nextIn, List.filter_cons, key_eq_iff, HessGrad.G, find?]
/-- `exp(x + y)` -/
example : ∃ s z, UReal2.add exN ⟨⟨[(1, ⟨1, 0, exN⟩)], []⟩, 2⟩ ⟨⟨[(2, ⟨1, 0, exE⟩)], []⟩, 3⟩ = some s ∧
    UReal2.unary exE s 148 148 148 = some z ∧ D2 z 1 2 = 0 := by
  have vx : Ok2 (⟨⟨[(1, ⟨1, 0, exN⟩)], []⟩, 2⟩ : UReal2 ℝ) := ⟨⟨by simp [Sorted], by simp, by simp⟩, by
    intro k hk; simp at hk; subst hk; decide⟩
  have vy : Ok2 (⟨⟨[(2, ⟨1, 0, exE⟩)], []⟩, 3⟩ : UReal2 ℝ) := ⟨⟨by simp [Sorted], by simp, by simp⟩, by
    intro k hk; simp at hk; subst hk; decide⟩
  obtain ⟨s, e, os⟩ := C21_binary vx vy (2 + 3) 1 1 0 0 0
  obtain ⟨z, e', -⟩ := C21_unary os 148 148 148
  exact ⟨s, z, e exN, e' exE, (C23_function_of_sum (by norm_num) (by decide) _ _ _ _ _ _ _ (by norm_num)
    (e exN) (e' exE)).1⟩

example : ∃ z, UReal2.div exN (UReal2.const 1) ex2c = some z ∧ D2 z 1 2 = (0 : ℝ) := by
  obtain ⟨z, e, -⟩ := C23_div_false
  refine ⟨z, e, C23_function_of_const ok_ex2c rfl 1 _ _ _ _ _ _ ?_ e (by decide)⟩
  simp [ex2c, UReal2.const, Mom.lit]

end Unc.Props
