import Verif.Spec.Schedule
import Verif.Lemmas.Shift2
import Verif.Props.Mixed

/-!
# One thread of a concurrent program, compared with the thread running alone
-/

namespace Unc
open Unc.Spec Unc.Props SMap HessGrad

section
variable {R : Type*}

theorem UReal.indepid_shift {ρ : ℤ → ℤ} (h : Shift ρ) (x : UReal R) : (x.shift ρ).indepid = x.indepid.map ρ := by
  have h0 : ρ 0 = 0 := h.zero 0 le_rfl
  have hi : ρ invalidId = invalidId := h.zero _ (by simp [invalidId])
  obtain ⟨i, sd, mu, sg⟩ := x
  unfold UReal.indepid
  simp only [UReal.shift, h.neg, h.nonneg, length_mapKey]
  by_cases h1 : i < 0 ∨ sg.length = 0
  · simp only [h1, if_true]
    by_cases h2 : i ≥ 0
    · simp only [h2, if_true, Option.map_some]
    · simp only [h2, if_false]
      rcases sg with _ | ⟨⟨k, a⟩, _ | ⟨⟨k', a'⟩, t⟩⟩
      · simp [h0]
      · simp
      · simp [hi]
  · simp only [h1, if_false, Option.map_none]

theorem UReal2.isindep_shift (ρ : ℤ → ℤ) (x : UReal2 R) : (x.shift ρ).isindep = x.isindep := by
  have e : List.length (x.shift ρ).hg.diagmap = List.length x.hg.diagmap := by simp [UReal2.shift, HessGrad.shift, length_mapKey]
  exact congrArg (fun n : ℕ => decide (n ≤ 1)) e

theorem UReal2.indepid_shift {ρ : ℤ → ℤ} (h : Shift ρ) (x : UReal2 R) : (x.shift ρ).indepid = ρ x.indepid := by
  have h0 : ρ 0 = 0 := h.zero 0 le_rfl
  have hi : ρ invalidId = invalidId := h.zero _ (by simp [invalidId])
  unfold UReal2.indepid
  rw [UReal2.isindep_shift]
  cases x.isindep with
  | false => simp [hi]
  | true =>
    simp only [UReal2.shift, HessGrad.shift]
    rcases x.hg.diagmap with _ | ⟨⟨k, a⟩, _ | ⟨⟨k', a'⟩, t⟩⟩
    · simp [h0]
    · simp
    · simp [h0]

end

section
variable {R : Type*} [Zero R] [One R] [Neg R] [Add R] [Sub R] [Mul R] [Div R] [NatCast R] [CCmp R] [CSqrt R]

/-- what a thread sees -/
def Vis (t : ℕ) (r : Reg) : Prop := r.thread = t ∨ r.thread = 0

/-- The state `w` of the concurrent program and the state `v` of the thread running alone: what the thread sees is the same up to the
identifiers. -/
structure TSim (t : ℕ) (w v : MWorld R) (ρ : ℤ → ℤ) : Prop where
  shift : Shift ρ
  last : ρ v.lastId ≤ w.lastId
  le : v.lastId ≤ w.lastId
  first : ∀ r, Vis t r → w.first r = (v.first r).shift ρ
  second : ∀ r, Vis t r → w.second r = (v.second r).shift ρ

theorem MSim.ids {v : MWorld R} {b : DMix} {T : Finset ℤ} (h : MSim v b T) (r : Reg) :
    ((v.first r).id ≤ b.count ∧ ∀ i ∈ keys (v.first r).sigma, i ≤ b.count) ∧ ∀ i ∈ keys (v.second r).hg.diagmap, i ≤ b.count := by
  have hb := h.one.below r
  rw [← h.one.deps r] at hb
  simp only at hb
  have wf := h.one.wf r
  simp only at wf
  refine ⟨⟨?_, fun i hi => ?_⟩, fun i hi => (h.pos r i (h.vars r ▸ mem_vars_keys.2 hi)).2⟩
  · by_cases hp : 0 < (v.first r).id
    · exact hb _ (by simp [UReal.deps, hp])
    · push Not at hp
      exact hp.trans (by positivity)
  · by_cases hp : 0 ≤ (v.first r).id
    · rw [wf.nil hp] at hi
      simp at hi
    · push Not at hp
      exact hb _ (by simpa [UReal.deps, hp, hp.le.not_gt] using hi)

/-- The identifiers given so far keep their counterparts. -/
def Extends (v : MWorld R) (ρ : ℤ → ℤ) (v' : MWorld R) (ρ' : ℤ → ℤ) : Prop := v.lastId ≤ v'.lastId ∧ ∀ i ≤ v.lastId, ρ' i = ρ i

/-- A new identifier on both sides. -/
theorem TSim.tick {t : ℕ} {w v : MWorld R} {ρ : ℤ → ℤ} (h : TSim t w v ρ) {a b : DMix} {S T : Finset ℤ} (hw : MSim w a S) (hv : MSim v b T)
    (hc : a.count + 1 < 2147483647) :
    ∃ ρ', ρ' (nextId v.lastId) = nextId w.lastId ∧ TSim t ⟨nextId w.lastId, w.first, w.second⟩ ⟨nextId v.lastId, v.first, v.second⟩ ρ' ∧
      Extends v ρ ⟨nextId v.lastId, v.first, v.second⟩ ρ' := by
  have ca : w.lastId = a.count := hw.one.count
  have cb : v.lastId = b.count := hv.one.count
  have hle := h.le
  have na : nextId w.lastId = w.lastId + 1 := by rw [ca, nextId_nat (by omega)]; push_cast; ring
  have nb : nextId v.lastId = v.lastId + 1 := by rw [cb, nextId_nat (by omega)]; push_cast; ring
  let ρ' : ℤ → ℤ := fun i => if i ≤ v.lastId then ρ i else i + (w.lastId - v.lastId)
  have keep : ∀ i, i ≤ v.lastId → ρ' i = ρ i := fun i hi => by simp [ρ', hi]
  have hnew : ρ' (v.lastId + 1) = w.lastId + 1 := by
    simp only [ρ']
    rw [if_neg (by omega)]
    ring
  have hs : Shift ρ' := by
    refine ⟨fun i j hij => ?_, fun i hi => ?_⟩
    · simp only [ρ']
      split_ifs with h1 h2 h2
      · exact h.shift.mono hij
      · have := h.shift.mono.monotone h1
        have := h.last
        omega
      · omega
      · omega
    · rw [keep i (by rw [cb]; omega), h.shift.zero i hi]
  refine ⟨ρ', by rw [na, nb, hnew], ⟨hs, ?_, ?_, fun r hr => ?_, fun r hr => ?_⟩, by rw [nb]; simp, keep⟩
  · show ρ' (nextId v.lastId) ≤ nextId w.lastId
    rw [na, nb, hnew]
  · show nextId v.lastId ≤ nextId w.lastId
    rw [na, nb]; omega
  · obtain ⟨⟨h1, h2⟩, -⟩ := MSim.ids hv r
    simp only
    rw [h.first r hr]
    exact UReal.shift_congr _ (keep _ (cb ▸ h1)).symm fun i hi => (keep _ (cb ▸ h2 i hi)).symm
  · obtain ⟨-, h2⟩ := MSim.ids hv r
    simp only
    rw [h.second r hr]
    exact UReal2.shift_congr (hv.valid r) fun i hi => (keep _ (cb ▸ h2 i hi)).symm

theorem TSim.set1 {t : ℕ} {w v : MWorld R} {ρ : ℤ → ℤ} (h : TSim t w v ρ) (r : Reg) {x y : UReal R} (hx : x = y.shift ρ) :
    TSim t ⟨w.lastId, (World.set ⟨w.lastId, w.first⟩ r x).regs, w.second⟩ ⟨v.lastId, (World.set ⟨v.lastId, v.first⟩ r y).regs, v.second⟩ ρ where
  shift := h.shift
  last := h.last
  le := h.le
  first q hq := by simp only [World.set]; split_ifs; exacts [hx, h.first q hq]
  second := h.second

theorem TSim.set2 {t : ℕ} {w v : MWorld R} {ρ : ℤ → ℤ} (h : TSim t w v ρ) (r : Reg) {x y : UReal2 R} (hx : x = y.shift ρ) :
    TSim t ⟨w.lastId, w.first, (World2.set ⟨w.lastId, w.second⟩ r x).regs⟩ ⟨v.lastId, v.first, (World2.set ⟨v.lastId, v.second⟩ r y).regs⟩ ρ where
  shift := h.shift
  last := h.last
  le := h.le
  first := h.first
  second q hq := by simp only [World2.set]; split_ifs; exacts [hx, h.second q hq]

/-- A call of the thread. -/
theorem TSim.one {solve : (ℕ → ℕ → R) → Option (List R)} {t : ℕ} {w v : MWorld R} {ρ : ℤ → ℤ} (h : TSim t w v ρ) {a b : DMix} {S T : Finset ℤ}
    (hw : MSim w a S) (hv : MSim v b T) (st : Step R) (hr : ∀ q ∈ reads st, Vis t q) (hc : a.count + countNew [st] < 2147483647)
    {w' : MWorld R} {o : Out R} (e : w.step solve (.one st) = some (w', o)) :
    ∃ v' ρ', v.step solve (.one st) = some (v', o) ∧ TSim t w' v' ρ' ∧ Extends v ρ v' ρ' := by
  have ca : w.lastId = a.count := hw.one.count
  have cb : v.lastId = b.count := hv.one.count
  have hM : ∀ q, ∀ i ∈ keys (v.first q).sigma, i < maxId ∧ ρ i < maxId := by
    intro q i hi
    have h1 := (MSim.ids hv q).1.2 i hi
    have h2 := h.shift.mono.monotone h1
    have h3 := h.last
    have h4 := h.le
    rw [cb] at h3 h4
    rw [ca] at h3 h4
    have : (a.count : ℤ) < 2147483647 := by exact_mod_cast (lt_of_le_of_lt (Nat.le_add_right _ _) hc)
    unfold maxId
    constructor <;> omega
  have fin : ∀ {w1 v1 : MWorld R} {ρ' : ℤ → ℤ} {o1 : Out R}, some (w1, o1) = some (w', o) → TSim t w1 v1 ρ' → Extends v ρ v1 ρ' →
      ∃ v' ρ', some (v1, o1) = some (v', o) ∧ TSim t w' v' ρ' ∧ Extends v ρ v' ρ' := by
    intro w1 v1 ρ' o1 h1 h2 h3
    cases h1
    exact ⟨v1, ρ', rfl, h2, h3⟩
  have same : ∀ {f : Reg → UReal R} {g : Reg → UReal2 R}, Extends v ρ ⟨v.lastId, f, g⟩ ρ := ⟨le_rfl, fun _ _ => rfl⟩
  cases st with
  | new r n s =>
    obtain ⟨ρ', hn, h', hx⟩ := h.tick hw hv (by simpa [countNew] using hc)
    simp only [MWorld.step, World.step, UReal.mk'] at e ⊢
    split_ifs at e ⊢
    · exact fin e h' hx
    · refine fin e (h'.set1 r ?_) hx
      simp [UReal.shift, hn]
  | const r n =>
    refine fin e (h.set1 r ?_) same
    simp [UReal.shift, UReal.const, h.shift.zero 0 le_rfl]
  | copy r q => exact fin e (h.set1 r (h.first q (hr q (by simp [reads])))) same
  | unary r q mu dx =>
    refine fin e (h.set1 r ?_) same
    simp only
    rw [h.first q (hr q (by simp [reads])), UReal.unary_shift h.shift]
  | binary r q q' mu dx dy =>
    simp only [MWorld.step, World.step] at e ⊢
    rw [h.first q (hr q (by simp [reads])), h.first q' (hr q' (by simp [reads])), UReal.binary_shift h.shift _ _ _ _ _ (hM q) (hM q')] at e
    cases hb : UReal.binary (v.first q) (v.first q') mu dx dy with
    | none => rw [hb] at e; simp at e
    | some z =>
      rw [hb] at e
      exact fin e (h.set1 r rfl) same
  | nary r xs mu =>
    refine fin e (h.set1 r ?_) same
    rw [← UReal.nary_shift h.shift, List.map_map]
    congr 1
    refine List.map_congr_left fun p hp => ?_
    simp only [Function.comp]
    rw [h.first p.1 (hr p.1 (by simp only [reads]; exact List.mem_map_of_mem hp))]
  | assign r q mu dt dx =>
    simp only [MWorld.step, World.step] at e ⊢
    split_ifs at e ⊢
    · refine fin e (h.set1 r ?_) same
      rw [h.first r (hr r (by simp [reads])), UReal.binaryAssignSelf_shift h.shift]
    · refine fin e (h.set1 r ?_) same
      rw [h.first r (hr r (by simp [reads])), h.first q (hr q (by simp [reads])), UReal.binaryAssign_shift h.shift]
  | changeNom r q n =>
    refine fin e (h.set1 r ?_) same
    simp only
    rw [h.first q (hr q (by simp [reads])), UReal.changeNom_shift]
  | readS r =>
    simp only [MWorld.step, World.step, h.first r (hr r (by simp [reads])), UReal.sCache_shift h.shift] at e ⊢
    exact fin e (h.set1 r rfl) same
  | readVar r =>
    simp only [MWorld.step, World.step, h.first r (hr r (by simp [reads])), UReal.varCache_shift h.shift] at e ⊢
    exact fin e (h.set1 r rfl) same

/-- A call of the thread on `UReal2` variables. -/
theorem TSim.two {solve : (ℕ → ℕ → R) → Option (List R)} (hs : LowerOnly solve) {t : ℕ} {w v : MWorld R} {ρ : ℤ → ℤ} (h : TSim t w v ρ) {a b : DMix}
    {S T : Finset ℤ} (hw : MSim w a S) (hv : MSim v b T) (st : Step2 R) (k k' : Junk R) (ht : ThresholdOk st) (hr : ∀ q ∈ reads2 st, Vis t q)
    (hc : a.count + countNew2 [st] < 2147483647) {w' : MWorld R} {o : Out R} (e : w.step solve (.two st k) = some (w', o)) :
    ∃ v' ρ', v.step solve (.two st k') = some (v', o) ∧ TSim t w' v' ρ' ∧ Extends v ρ v' ρ' := by
  have ca : w.lastId = a.count := hw.one.count
  have cb : v.lastId = b.count := hv.one.count
  have hM : ∀ q, ∀ i ∈ keys (v.second q).hg.diagmap, i < maxId ∧ ρ i < maxId := by
    intro q i hi
    have h1 := (MSim.ids hv q).2 i hi
    have h2 := h.shift.mono.monotone h1
    have h3 := h.last
    have h4 := h.le
    rw [cb] at h3 h4
    rw [ca] at h3 h4
    have : (a.count : ℤ) < 2147483647 := by exact_mod_cast (lt_of_le_of_lt (Nat.le_add_right _ _) hc)
    unfold maxId
    constructor <;> omega
  have ok : ∀ q, Ok2 (v.second q) := fun q => ⟨hv.valid q, fun i hi => (hM q i hi).1⟩
  have fin : ∀ {w1 v1 : MWorld R} {ρ' : ℤ → ℤ} {o1 : Out R}, some (w1, o1) = some (w', o) → TSim t w1 v1 ρ' → Extends v ρ v1 ρ' →
      ∃ v' ρ', some (v1, o1) = some (v', o) ∧ TSim t w' v' ρ' ∧ Extends v ρ v' ρ' := by
    intro w1 v1 ρ' o1 h1 h2 h3
    cases h1
    exact ⟨v1, ρ', rfl, h2, h3⟩
  have same : ∀ {f : Reg → UReal R} {g : Reg → UReal2 R}, Extends v ρ ⟨v.lastId, f, g⟩ ρ := ⟨le_rfl, fun _ _ => rfl⟩
  have ctor : ∀ (r : Reg) (res res' : Except Exn (UReal2 R)), a.count + 1 < 2147483647 →
      (∀ ρ', ρ' (nextId v.lastId) = nextId w.lastId → res = res'.map (UReal2.shift ρ')) →
      some ((⟨(World2.finish ⟨w.lastId, w.second⟩ r res).1.lastId, w.first, (World2.finish ⟨w.lastId, w.second⟩ r res).1.regs⟩ : MWorld R),
        (World2.finish ⟨w.lastId, w.second⟩ r res).2) = some (w', o) →
      ∃ v' ρ', some ((⟨(World2.finish ⟨v.lastId, v.second⟩ r res').1.lastId, v.first, (World2.finish ⟨v.lastId, v.second⟩ r res').1.regs⟩ : MWorld R),
        (World2.finish ⟨v.lastId, v.second⟩ r res').2) = some (v', o) ∧ TSim t w' v' ρ' ∧ Extends v ρ v' ρ' := by
    intro r res res' hc' hres e
    obtain ⟨ρ', hn, h', hx⟩ := h.tick hw hv hc'
    have hres := hres ρ' hn
    cases res' with
    | error x =>
      subst hres
      exact fin e h same
    | ok x =>
      subst hres
      exact fin e (h'.set2 r rfl) hx
  cases st with
  | newCentral r n m th =>
    obtain ⟨res, h1, -⟩ := mkCentral_spec hs (nextId w.lastId) n m ht
    obtain ⟨res', h2, -⟩ := mkCentral_spec hs (nextId v.lastId) n m ht
    simp only [MWorld.step, World2.step, h1, h2, Option.map_some] at e ⊢
    refine ctor r res res' (by simpa [countNew2] using hc) (fun ρ' hn => ?_) e
    have e1 := h1 k
    have e2 := h2 k
    unfold UReal2.mkCentral at e1 e2
    obtain ⟨c, hc1, rfl⟩ := Option.map_eq_some_iff.1 e1
    rw [hc1] at e2
    simp only [Option.map_some, Option.some.injEq] at e2
    subst e2
    cases c with
    | error x => rfl
    | ok x =>
      simp only [Except.map]
      rw [← hn]
      rfl
  | newStd r n s m th =>
    obtain ⟨res, h1, -⟩ := mkStd_spec hs (nextId w.lastId) n s m ht
    obtain ⟨res', h2, -⟩ := mkStd_spec hs (nextId v.lastId) n s m ht
    simp only [MWorld.step, World2.step, h1, h2, Option.map_some] at e ⊢
    refine ctor r res res' (by simpa [countNew2] using hc) (fun ρ' hn => ?_) e
    have e1 := h1 k
    have e2 := h2 k
    unfold UReal2.mkStd at e1 e2
    split_ifs at e1 e2
    · cases e1
      cases e2
      rfl
    · obtain ⟨c, hc1, rfl⟩ := Option.map_eq_some_iff.1 e1
      rw [hc1] at e2
      simp only [Option.map_some, Option.some.injEq] at e2
      subst e2
      cases c with
      | error x => rfl
      | ok x =>
        simp only [Except.map]
        rw [← hn]
        rfl
  | const r n => exact fin e (h.set2 r rfl) same
  | copy r q => exact fin e (h.set2 r (h.second q (hr q (by simp [reads2])))) same
  | unary r q f fx fxx =>
    obtain ⟨z, hz, -⟩ := unary_lawfree (ok q).valid f fx fxx
    simp only [MWorld.step, World2.step] at e ⊢
    rw [h.second q (hr q (by simp [reads2])), UReal2.unary_shift h.shift, hz] at e
    rw [hz]
    exact fin e (h.set2 r rfl) same
  | binary r q q' f fx fy fxx fyy fxy =>
    obtain ⟨z, hz, -⟩ := binary_lawfree (ok q) (ok q') f fx fy fxx fyy fxy
    simp only [MWorld.step, World2.step] at e ⊢
    rw [h.second q (hr q (by simp [reads2])), h.second q' (hr q' (by simp [reads2])),
      UReal2.binary_shift h.shift _ _ _ _ _ _ _ (ok q).valid (ok q').valid (hM q) (hM q'), hz] at e
    rw [hz]
    exact fin e (h.set2 r rfl) same
  | otherNew =>
    obtain ⟨ρ', hn, h', hx⟩ := h.tick hw hv (by simpa [countNew2] using hc)
    exact fin e h' hx

/-- A call of another thread. -/
theorem TSim.other {solve : (ℕ → ℕ → R) → Option (List R)} {t : ℕ} {w v : MWorld R} {ρ : ℤ → ℤ} (h : TSim t w v ρ) {a : DMix} {S : Finset ℤ}
    (hw : MSim w a S) (st : MStep R) (h0 : threadOfM st ≠ some t) (h1 : threadOfM st ≠ some 0) (hc : a.count + countNewM [st] < 2147483647)
    {w' : MWorld R} {o : Out R} (e : w.step solve st = some (w', o)) : TSim t w' v ρ := by
  have ca : w.lastId = a.count := hw.one.count
  have key : w.lastId ≤ w'.lastId ∧ (∀ r, Vis t r → w'.first r = w.first r) ∧ ∀ r, Vis t r → w'.second r = w.second r := by
    have nb : a.count + 1 < 2147483647 → w.lastId ≤ nextId w.lastId := fun h => by
      rw [ca, nextId_nat (by omega)]; push_cast; omega
    have set1 : ∀ (r q : Reg) (x : UReal R) (l : ℤ), r.thread ≠ t → r.thread ≠ 0 → Vis t q → (World.set ⟨l, w.first⟩ r x).regs q = w.first q := by
      intro r q x l h2 h3 hq
      have : q ≠ r := by
        rintro rfl
        rcases hq with h | h
        exacts [h2 h, h3 h]
      simp [World.set, this]
    have set2 : ∀ (r q : Reg) (x : UReal2 R) (l : ℤ), r.thread ≠ t → r.thread ≠ 0 → Vis t q → (World2.set ⟨l, w.second⟩ r x).regs q = w.second q := by
      intro r q x l h2 h3 hq
      have : q ≠ r := by
        rintro rfl
        rcases hq with h | h
        exacts [h2 h, h3 h]
      simp [World2.set, this]
    cases st with
    | one st =>
      simp only [threadOfM, ne_eq, Option.some.injEq, threadOf] at h0 h1
      simp only [MWorld.step, Option.map_eq_some_iff, Prod.exists, Prod.mk.injEq] at e
      obtain ⟨x, o', e, rfl, -⟩ := e
      refine (fun hh : w.lastId ≤ x.lastId ∧ ∀ r, Vis t r → x.regs r = w.first r => ⟨hh.1, hh.2, fun _ _ => rfl⟩) ?_
      cases st with
      | new r n s =>
        have hn := nb (by simpa [countNewM, countNew] using hc)
        simp only [World.step, UReal.mk'] at e
        split_ifs at e <;> cases e
        · exact ⟨hn, fun _ _ => rfl⟩
        · exact ⟨hn, fun q hq => set1 r q _ _ h0 h1 hq⟩
      | binary r q q' mu dx dy =>
        simp only [World.step, Option.map_eq_some_iff] at e
        obtain ⟨z, -, e⟩ := e
        cases e
        exact ⟨le_rfl, fun q hq => set1 r q _ _ h0 h1 hq⟩
      | assign r q mu dt dx =>
        simp only [World.step] at e
        split_ifs at e <;> cases e <;> exact ⟨le_rfl, fun q hq => set1 r q _ _ h0 h1 hq⟩
      | _ => cases e; exact ⟨le_rfl, fun q hq => set1 _ q _ _ h0 h1 hq⟩
    | two st k =>
      simp only [MWorld.step, Option.map_eq_some_iff, Prod.exists, Prod.mk.injEq] at e
      obtain ⟨x, o', e, rfl, -⟩ := e
      refine (fun hh : w.lastId ≤ x.lastId ∧ ∀ r, Vis t r → x.regs r = w.second r => ⟨hh.1, fun _ _ => rfl, hh.2⟩) ?_
      have fin : ∀ (r : Reg) (res : Except Exn (UReal2 R)), a.count + 1 < 2147483647 → r.thread ≠ t → r.thread ≠ 0 →
          World2.finish ⟨w.lastId, w.second⟩ r res = (x, o') → w.lastId ≤ x.lastId ∧ ∀ q, Vis t q → x.regs q = w.second q := by
        intro r res h2 h3 h4 h5
        cases res with
        | error z => cases h5; exact ⟨le_rfl, fun _ _ => rfl⟩
        | ok z => cases h5; exact ⟨nb h2, fun q hq => set2 r q _ _ h3 h4 hq⟩
      cases st with
      | newCentral r n m th =>
        simp only [World2.step, Option.map_eq_some_iff] at e
        obtain ⟨res, -, e⟩ := e
        exact fin r res (by simpa [countNewM, countNew2] using hc) (by simpa [threadOfM, writes2] using h0) (by simpa [threadOfM, writes2] using h1) e
      | newStd r n s m th =>
        simp only [World2.step, Option.map_eq_some_iff] at e
        obtain ⟨res, -, e⟩ := e
        exact fin r res (by simpa [countNewM, countNew2] using hc) (by simpa [threadOfM, writes2] using h0) (by simpa [threadOfM, writes2] using h1) e
      | unary r q f fx fxx =>
        simp only [World2.step, Option.map_eq_some_iff] at e
        obtain ⟨z, -, e⟩ := e
        cases e
        exact ⟨le_rfl, fun q hq => set2 r q _ _ (by simpa [threadOfM, writes2] using h0) (by simpa [threadOfM, writes2] using h1) hq⟩
      | binary r q q' f fx fy fxx fyy fxy =>
        simp only [World2.step, Option.map_eq_some_iff] at e
        obtain ⟨z, -, e⟩ := e
        cases e
        exact ⟨le_rfl, fun q hq => set2 r q _ _ (by simpa [threadOfM, writes2] using h0) (by simpa [threadOfM, writes2] using h1) hq⟩
      | otherNew =>
        cases e
        exact ⟨nb (by simpa [countNewM, countNew2] using hc), fun _ _ => rfl⟩
      | const r n =>
        cases e
        exact ⟨le_rfl, fun q hq => set2 r q _ _ (by simpa [threadOfM, writes2] using h0) (by simpa [threadOfM, writes2] using h1) hq⟩
      | copy r n =>
        cases e
        exact ⟨le_rfl, fun q hq => set2 r q _ _ (by simpa [threadOfM, writes2] using h0) (by simpa [threadOfM, writes2] using h1) hq⟩
  obtain ⟨k1, k2, k3⟩ := key
  exact ⟨h.shift, h.last.trans k1, h.le.trans k1, fun r hr => by rw [k2 r hr, h.first r hr], fun r hr => by rw [k3 r hr, h.second r hr]⟩

/-- the thread running alone -/
def alone (p : List (Step R ⊕ Step2 R)) : List (MStep R) := p.map (Sum.elim .one (.two · ⟨⟨0, 0, 0, 0, 0, 0⟩, fun _ _ => 0⟩))

/-- A step of the concurrent program keeps the invariant. -/
theorem MSim.next (h00 : CCmp.ltb (0 : R) 0 = false) {solve : (ℕ → ℕ → R) → Option (List R)} (hs : LowerOnly solve) {w : MWorld R} {a : DMix}
    {S : Finset ℤ} (h : MSim w a S) (st : MStep R) (ht : ThresholdOkM st) (hc : a.count + countNewM [st] < 2147483647) :
    ∃ w' o a' S', w.step solve st = some (w', o) ∧ MSim w' a' S' ∧ a'.count ≤ a.count + countNewM [st] := by
  cases st with
  | one st =>
    obtain ⟨w', o, S', e, h1, h2⟩ := h.stepOne h00 (solve := solve) st hc
    exact ⟨w', o, _, S', e, h1, h2⟩
  | two st k =>
    obtain ⟨w', o, e, h1, h2⟩ := h.stepTwo hs st k ht hc
    exact ⟨w', o, _, S, e, h1, h2⟩

omit [Zero R] [One R] [Neg R] [Add R] [Sub R] [Mul R] [Div R] [NatCast R] [CCmp R] [CSqrt R] in
theorem countNewM_cons (st : MStep R) (p : List (MStep R)) : countNewM (st :: p) = countNewM [st] + countNewM p := by
  cases st <;> simp [countNewM]

/-- A sequence of steps. -/
theorem MSim.steps (h00 : CCmp.ltb (0 : R) 0 = false) {solve : (ℕ → ℕ → R) → Option (List R)} (hs : LowerOnly solve) (p : List (MStep R))
    {w : MWorld R} {a : DMix} {S : Finset ℤ} (h : MSim w a S) (ht : ∀ st ∈ p, ThresholdOkM st) (hc : a.count + countNewM p < 2147483647) :
    ∃ w' os a' S', w.run solve p = some (w', os) ∧ os.length = p.length ∧ MSim w' a' S' ∧ a'.count ≤ a.count + countNewM p := by
  induction p generalizing w a S with
  | nil => exact ⟨w, [], a, S, rfl, rfl, h, by simp⟩
  | cons st p ih =>
    rw [countNewM_cons] at hc ⊢
    obtain ⟨w1, o, a1, S1, e1, h1, c1⟩ := MSim.next h00 hs h st (ht st (by simp)) (by omega)
    obtain ⟨w2, os, a2, S2, e2, l, h2, c2⟩ := ih h1 (fun x hx => ht x (List.mem_cons_of_mem _ hx)) (by omega)
    exact ⟨w2, o :: os, a2, S2, by simp [MWorld.run, e1, e2], by simp [l], h2, by omega⟩

/-- The concurrent program, seen by one thread. -/
theorem TSim.run (h00 : CCmp.ltb (0 : R) 0 = false) {solve : (ℕ → ℕ → R) → Option (List R)} (hs : LowerOnly solve) {t : ℕ} (p : List (MStep R))
    {w v : MWorld R} {ρ : ℤ → ℤ} (h : TSim t w v ρ) {a b : DMix} {S T : Finset ℤ} (hw : MSim w a S) (hv : MSim v b T)
    (hr : ∀ st ∈ p, RaceFreeM st) (ht : ∀ st ∈ p, ThresholdOkM st) (hc : a.count + countNewM p < 2147483647) :
    ∃ w' os v' ρ', w.run solve p = some (w', os) ∧ os.length = p.length ∧ v.run solve (alone (projectM t p)) = some (v', threadOutsM t p os) ∧
      TSim t w' v' ρ' ∧ Extends v ρ v' ρ' := by
  induction p generalizing w v a b S T ρ with
  | nil => exact ⟨w, [], v, ρ, rfl, rfl, rfl, h, le_rfl, fun _ _ => rfl⟩
  | cons st p ih =>
    rw [countNewM_cons] at hc
    obtain ⟨w1, o, a1, S1, e1, hw1, hc1⟩ := MSim.next h00 hs hw st (ht st (by simp)) (by omega)
    have hr' : ∀ st ∈ p, RaceFreeM st := fun x hx => hr x (List.mem_cons_of_mem _ hx)
    have ht' : ∀ st ∈ p, ThresholdOkM st := fun x hx => ht x (List.mem_cons_of_mem _ hx)
    have rf := hr st (by simp)
    by_cases hth : threadOfM st = some t
    · obtain ⟨-, hrd⟩ := rf t hth
      have hb : b.count ≤ a.count := by
        have := h.le
        have ca : w.lastId = a.count := hw.one.count
        have cb : v.lastId = b.count := hv.one.count
        rw [ca, cb] at this
        exact_mod_cast this
      let st' : MStep R := Sum.elim .one (.two · ⟨⟨0, 0, 0, 0, 0, 0⟩, fun _ _ => 0⟩) (callOf st)
      have hcc : countNewM [st'] = countNewM [st] := by cases st <;> rfl
      have htt : ThresholdOkM st' := by
        have := ht st (by simp)
        cases st <;> exact this
      obtain ⟨v1, ρ1, ev, h1, x1⟩ : ∃ v1 ρ1, v.step solve st' = some (v1, o) ∧ TSim t w1 v1 ρ1 ∧ Extends v ρ v1 ρ1 := by
        cases st with
        | one st => exact h.one hw hv st hrd (by simpa [countNewM] using Nat.lt_of_le_of_lt (Nat.le_add_right _ _) (by rw [Nat.add_assoc]; exact hc)) e1
        | two st k =>
          exact h.two hs hw hv st k _ (ht (.two st k) (by simp)) hrd
            (by simpa [countNewM] using Nat.lt_of_le_of_lt (Nat.le_add_right _ _) (by rw [Nat.add_assoc]; exact hc)) e1
      obtain ⟨v2, o2, b1, T1, e2, hv1, -⟩ := MSim.next h00 hs hv st' htt (by rw [hcc]; omega)
      rw [ev] at e2
      cases e2
      obtain ⟨w', os, v', ρ', e3, hl, e4, h', x'⟩ := ih h1 hw1 hv1 hr' ht' (by omega)
      refine ⟨w', o :: os, v', ρ', by simp [MWorld.run, e1, e3], by simp [hl], ?_, h', x1.1.trans x'.1, fun i hi => (x'.2 i (hi.trans x1.1)).trans (x1.2 i hi)⟩
      have e5 : alone (projectM t (st :: p)) = st' :: alone (projectM t p) := by simp [alone, projectM, hth, st']
      have e6 : threadOutsM t (st :: p) (o :: os) = o :: threadOutsM t p os := by simp [threadOutsM, hth]
      rw [e5, e6]
      simp [MWorld.run, ev, e4]
    · have h1 : TSim t w1 v ρ := h.other hw st hth (fun h0 => (rf 0 h0).1 rfl) (by omega) e1
      obtain ⟨w', os, v', ρ', e3, hl, e4, h', x'⟩ := ih h1 hw1 hv hr' ht' (by omega)
      refine ⟨w', o :: os, v', ρ', by simp [MWorld.run, e1, e3], by simp [hl], ?_, h', x'⟩
      have e5 : projectM t (st :: p) = projectM t p := by simp [projectM, hth]
      have e6 : threadOutsM t (st :: p) (o :: os) = threadOutsM t p os := by simp [threadOutsM, hth]
      rw [e5, e6, e4]

/-! ## the answers -/

omit [Sub R] [One R] [Neg R] [NatCast R] in
theorem TSim.sameFirst {t : ℕ} {w v : MWorld R} {ρ : ℤ → ℤ} (h : TSim t w v ρ) : SameFirst (Vis t) w v where
  n q hq := by rw [h.first q hq]; rfl
  s q hq := by rw [h.first q hq, UReal.s_shift h.shift]
  var q hq := by rw [h.first q hq, UReal.var_shift h.shift]
  isindep q hq := by rw [h.first q hq, UReal.isindep_shift h.shift]
  cov q r hq hr := by rw [h.first q hq, h.first r hr, UReal.cov_shift h.shift]
  corr q r hq hr := by rw [h.first q hq, h.first r hr, UReal.corr_shift h.shift]
  grad q r hq hr := by rw [h.first q hq, h.first r hr, UReal.grad_shift h.shift]
  indepid q r hq hr := by
    rw [h.first q hq, h.first r hr, UReal.indepid_shift h.shift, UReal.indepid_shift h.shift]
    exact (Option.map_injective h.shift.mono.injective).eq_iff

theorem TSim.sameSecond {t : ℕ} {w v : MWorld R} {ρ : ℤ → ℤ} (h : TSim t w v ρ) : SameSecond (Vis t) w v where
  first q hq := by rw [h.second q hq]; rfl
  n q p hq := by rw [h.second q hq]; simp only [UReal2.n, UReal2.m_shift h.shift]; rfl
  m q k hq := by rw [h.second q hq, UReal2.m_shift h.shift]
  s q hq := by rw [h.second q hq]; simp only [UReal2.s, UReal2.m_shift h.shift]
  skew q hq := by rw [h.second q hq]; simp only [UReal2.skew, UReal2.s, UReal2.m_shift h.shift]
  kurt q hq := by rw [h.second q hq]; simp only [UReal2.kurt, UReal2.m_shift h.shift]
  isindep q hq := by rw [h.second q hq, UReal2.isindep_shift]
  cov q r hq hr := by rw [h.second q hq, h.second r hr, UReal2.cov_shift h.shift]
  corr q r hq hr := by rw [h.second q hq, h.second r hr]; simp only [UReal2.corr, UReal2.s, UReal2.m_shift h.shift, UReal2.cov_shift h.shift]
  grad u q r hq hr := by rw [h.second q hq, h.second r hr, UReal2.grad_shift h.shift]
  hess u q r l hq hr hl := by rw [h.second q hq, h.second r hr, h.second l hl, UReal2.hess_shift h.shift]
  indepid q r hq hr := by
    rw [h.second q hq, h.second r hr, UReal2.indepid_shift h.shift, UReal2.indepid_shift h.shift]
    exact h.shift.mono.injective.eq_iff

omit [Sub R] [One R] [Neg R] [NatCast R] in
theorem sameFirst_trans {P : Reg → Prop} {w v w' : MWorld R} (h : SameFirst P w v) (h' : SameFirst P w' v) : SameFirst P w w' where
  n q hq := (h.n q hq).trans (h'.n q hq).symm
  s q hq := (h.s q hq).trans (h'.s q hq).symm
  var q hq := (h.var q hq).trans (h'.var q hq).symm
  isindep q hq := (h.isindep q hq).trans (h'.isindep q hq).symm
  cov q r hq hr := (h.cov q r hq hr).trans (h'.cov q r hq hr).symm
  corr q r hq hr := (h.corr q r hq hr).trans (h'.corr q r hq hr).symm
  grad q r hq hr := (h.grad q r hq hr).trans (h'.grad q r hq hr).symm
  indepid q r hq hr := (h.indepid q r hq hr).trans (h'.indepid q r hq hr).symm

theorem sameSecond_trans {P : Reg → Prop} {w v w' : MWorld R} (h : SameSecond P w v) (h' : SameSecond P w' v) : SameSecond P w w' where
  first q hq := (h.first q hq).trans (h'.first q hq).symm
  n q p hq := (h.n q p hq).trans (h'.n q p hq).symm
  m q k hq := (h.m q k hq).trans (h'.m q k hq).symm
  s q hq := (h.s q hq).trans (h'.s q hq).symm
  skew q hq := (h.skew q hq).trans (h'.skew q hq).symm
  kurt q hq := (h.kurt q hq).trans (h'.kurt q hq).symm
  isindep q hq := (h.isindep q hq).trans (h'.isindep q hq).symm
  cov q r hq hr := (h.cov q r hq hr).trans (h'.cov q r hq hr).symm
  corr q r hq hr := (h.corr q r hq hr).trans (h'.corr q r hq hr).symm
  grad u q r hq hr := (h.grad u q r hq hr).trans (h'.grad u q r hq hr).symm
  hess u q r l hq hr hl := (h.hess u q r l hq hr hl).trans (h'.hess u q r l hq hr hl).symm
  indepid q r hq hr := (h.indepid q r hq hr).trans (h'.indepid q r hq hr).symm

end
end Unc
