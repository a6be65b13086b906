import Verif.Lemmas.Deps
import Verif.Props.FirstOrder

/-!
# Properties of programs: C01/C02 for everything reachable, C03 (second part), C07, C09, C10, C11, C12, C15
-/

namespace Unc.Props
open Unc Unc.Spec UReal

/-- `0 < 0` is false: the only arithmetic fact used by the structural theorems (true for IEEE numbers). -/
theorem ltb_zero_real : CCmp.ltb (0 : ℝ) 0 = false := by
  rw [← Bool.not_eq_true, ltb_iff]; exact lt_irrefl _

/-- Every variable of every program with fewer than 2^31 - 1 constructions satisfies the hypotheses `Valid`
and `Below maxId` of the other theorems, and the program has no undefined behaviour. -/
theorem reachable_valid (p : List (Step ℝ)) (hc : countNew p < 2147483647) :
    ∃ w os, World.init.run p = some (w, os) ∧ ∀ r, Ok (w.regs r) := by
  obtain ⟨w, e, h⟩ := Sim.init.run p (by simpa [AWorld.init] using hc)
  refine ⟨w, _, e, fun r => ⟨h.valid r, ?_⟩⟩
  obtain ⟨w', os', e', h'⟩ := DSim.init.run ltb_zero_real p (by simpa [DWorld.init] using hc)
  obtain rfl : w = w' := by simpa using congrArg (Option.map Prod.fst) (e.symm.trans e')
  intro i hi
  rw [h'.deps] at hi
  have h1 := h'.below r i hi
  rw [dcount_run] at h1
  simp only [DWorld.init, maxId] at h1 ⊢
  omega

/-- **C01 for whole programs**: what the const observers `n`, `s`, `var`, `cov` return on any variables after
any program are the mean, standard deviation, variance and covariance of the linear forms of the
specification, and so are the values returned along the way. -/
theorem C01_program (p : List (Step ℝ)) (hc : countNew p < 2147483647) :
    ∃ w, World.init.run p = some (w, (AWorld.init.run p).2) ∧ ∀ q r,
      (w.regs r).n = ((AWorld.init.run p).1.regs r).mean ∧
      (w.regs r).s = Real.sqrt ((AWorld.init.run p).1.regs r).var ∧
      var (w.regs r) = ((AWorld.init.run p).1.regs r).var ∧
      cov (w.regs q) (w.regs r) = ((AWorld.init.run p).1.regs q).cov ((AWorld.init.run p).1.regs r) := by
  obtain ⟨w, e, h⟩ := Sim.init.run p (by simpa [AWorld.init] using hc)
  refine ⟨w, e, fun q r => ⟨?_, ?_, ?_, ?_⟩⟩
  · rw [← h.lin r]; rfl
  · rw [← h.lin r]; exact s_eq (h.valid r)
  · rw [← h.lin r]; exact var_eq (h.valid r)
  · rw [← h.lin r, ← h.lin q]; exact cov_eq (h.valid q).wf (h.valid r).wf

/-- A program used in examples: two measurements, their sum, a product, an aliased update, a cached read. -/
def exProg : List (Step ℝ) :=
  [.new ⟨1, 0⟩ 5 3, .new ⟨1, 1⟩ 2 4, .binary ⟨1, 2⟩ ⟨1, 0⟩ ⟨1, 1⟩ 7 1 1, .readS ⟨1, 2⟩,
   .assign ⟨1, 2⟩ ⟨1, 2⟩ 14 1 1, .nary ⟨1, 3⟩ [(⟨1, 2⟩, 1), (⟨1, 0⟩, -2)] 4]

example : countNew exProg < 2147483647 := by simp [exProg, countNew]
example := C01_program exProg (by simp [exProg, countNew])

/-- the value read in the middle of the example program is 5 = sqrt(3^2 + 4^2) -/
example : (AWorld.init.run exProg).2[3]? = some (.num 5) := by
  have h : Real.sqrt 25 = 5 := by
    rw [show (25 : ℝ) = 5 ^ 2 by norm_num]; exact Real.sqrt_sq (by norm_num)
  have h3 : ¬ (3 : ℝ) < 0 := by norm_num
  have h4 : ¬ (4 : ℝ) < 0 := by norm_num
  simp [exProg, AWorld.run, AWorld.step, h3, h4, AWorld.set, LinForm.elem, LinForm.comb, LinForm.var, AWorld.init]
  norm_num [h]

/-! ## C03, second part -/

/-- The only dependency of a value with positive `indepid()`. -/
theorem deps_of_indepid {R : Type*} [Zero R] {x : UReal R} (hx : x.WF) {k : ℤ} (hk : 0 < k)
    (h : x.indepid = some k) : x.deps = {k} := by
  unfold indepid at h
  split_ifs at h with h1 h2
  · simp only [Option.some.injEq] at h; subst h; simp [deps, hk]
  · rcases hsig : x.sigma with _ | ⟨⟨a, v⟩, _ | ⟨q, t⟩⟩
    · simp [hsig] at h; omega
    · simp [hsig] at h; subst h
      have : x.id < 0 := by omega
      simp [deps, this, not_lt.2 this.le, hsig]
    · simp [hsig, invalidId] at h; omega

/-- **C03/C11**: two values each depending on one elementary variable have correlation 1 or -1 when the variable
is the same, and covariance 0 otherwise. -/
theorem C03_corr_single {x y : UReal ℝ} (hx : x.Valid) (hy : y.Valid) {i j : ℤ} (hi : 0 < i) (hj : 0 < j)
    (ei : x.indepid = some i) (ej : y.indepid = some j) :
    (i ≠ j → cov x y = 0) ∧
    (i = j → x.s ≠ 0 → y.s ≠ 0 → (corr x y = 1 ∨ corr x y = -1) ∧ (corr x y = 1 ↔ 0 < x.coef i * y.coef i)) := by
  have dx := deps_of_indepid hx.wf hi ei
  have dy := deps_of_indepid hy.wf hj ej
  have hc : cov x y = if i = j then x.coef i * y.coef i else 0 := by
    rw [cov_eq hx.wf hy.wf, LinForm.cov_eq_sum (supported x) {i} (by simp [toLin, dx])]
    simp only [toLin, Finset.sum_singleton]
    split_ifs with h
    · rfl
    · rw [coef_of_not_mem (x := y) (by simp [dy, h]), mul_zero]
  have hsx : x.s = |x.coef i| := by
    rw [s_eq hx]; simp [LinForm.var, toLin, dx, Real.sqrt_mul_self_eq_abs]
  have hsy : y.s = |y.coef j| := by
    rw [s_eq hy]; simp [LinForm.var, toLin, dy, Real.sqrt_mul_self_eq_abs]
  refine ⟨fun h => by rw [hc, if_neg h], fun h h1 h2 => ?_⟩
  subst h
  have hp : x.coef i * y.coef i ≠ 0 := by
    intro h0
    rcases mul_eq_zero.1 h0 with h0 | h0
    · exact h1 (by rw [hsx, h0, abs_zero])
    · exact h2 (by rw [hsy, h0, abs_zero])
  have e : corr x y = x.coef i * y.coef i / |x.coef i * y.coef i| := by
    rw [corr, hc, if_pos rfl, hsx, hsy, abs_mul]
  rcases lt_or_gt_of_ne hp with hn | hpos
  · have : corr x y = -1 := by rw [e, abs_of_neg hn, div_neg, div_self hp]
    refine ⟨Or.inr this, ?_⟩
    rw [this]; constructor
    · intro h; norm_num at h
    · intro h; exact absurd h (not_lt.2 hn.le)
  · have : corr x y = 1 := by rw [e, abs_of_pos hpos, div_self hp]
    exact ⟨Or.inl this, ⟨fun _ => hpos, fun _ => this⟩⟩

/-- variable 1 and a decreasing function of it -/
example : corr ex1 (neg ex1) = -1 := by
  have h := (C03_corr_single (x := ex1) (y := neg ex1) (i := 1) (j := 1) valid_ex1 (valid_unary valid_ex1 _ _) one_pos one_pos
    (by simp [ex1, indepid]) (by simp [ex1, neg, unary, indepid])).2 rfl
    (by simp [ex1, s]) (by simp [ex1, neg, unary, s])
  rcases h.1 with h1 | h1
  · have := h.2.1 h1
    simp [ex1, neg, unary, coef] at this
    linarith
  · exact h1

/-! ## C07 -/

/-- Equal except for the cached uncertainty. -/
structure CacheEq {R : Type*} (x y : UReal R) : Prop where
  id : x.id = y.id
  mu : x.mu = y.mu
  sigma : x.sigma = y.sigma
  sdev : 0 ≤ x.id → x.sdev = y.sdev

section
variable {R : Type*}

theorem CacheEq.refl (x : UReal R) : CacheEq x x := ⟨rfl, rfl, rfl, fun _ => rfl⟩
theorem CacheEq.symm {x y : UReal R} (h : CacheEq x y) : CacheEq y x :=
  ⟨h.id.symm, h.mu.symm, h.sigma.symm, fun hy => (h.sdev (h.id ▸ hy)).symm⟩
theorem CacheEq.trans {x y z : UReal R} (h : CacheEq x y) (h' : CacheEq y z) : CacheEq x z :=
  ⟨h.id.trans h'.id, h.mu.trans h'.mu, h.sigma.trans h'.sigma, fun hx => (h.sdev hx).trans (h'.sdev (h.id ▸ hx))⟩

/-- Cached or not, the two values are the same in every respect but the cache. -/
theorem CacheEq.cases {x y : UReal R} (h : CacheEq x y) : x = y ∨
    (x.id < 0 ∧ ∃ s, y = { x with sdev := s }) := by
  by_cases hx : 0 ≤ x.id
  · left
    obtain ⟨a, b, c, d⟩ := x; obtain ⟨a', b', c', d'⟩ := y
    have := h.id; have := h.mu; have := h.sigma; have := h.sdev hx
    simp_all
  · right
    refine ⟨by omega, y.sdev, ?_⟩
    obtain ⟨a, b, c, d⟩ := x; obtain ⟨a', b', c', d'⟩ := y
    have := h.id; have := h.mu; have := h.sigma
    simp_all

/-- Is this call one of the caching reads `x.s()`, `var(x)` on a non-const variable? -/
def isRead : Step R → Bool
  | .readS _ => true
  | .readVar _ => true
  | _ => false

/-- The program without its caching reads. -/
def eraseReads (p : List (Step R)) : List (Step R) := p.filter (fun st => !isRead st)

/-- The values returned by the calls which are not caching reads. -/
def nonReadOuts (p : List (Step R)) (os : List (Out R)) : List (Out R) :=
  ((p.zip os).filter (fun q => !isRead q.1)).map Prod.snd

/-- Same counter, variables equal up to caches. -/
def WCacheEq (w w' : World R) : Prop := w.lastId = w'.lastId ∧ ∀ r, CacheEq (w.regs r) (w'.regs r)

theorem WCacheEq.set {w w' : World R} (h : WCacheEq w w') (r : Reg) {x y : UReal R} (hxy : CacheEq x y) :
    WCacheEq (w.set r x) (w'.set r y) :=
  ⟨h.1, fun q => by simp only [World.set]; split_ifs; exacts [hxy, h.2 q]⟩

theorem WCacheEq.set_left {w w' : World R} (h : WCacheEq w w') (r : Reg) {x : UReal R} (hxy : CacheEq x (w.regs r)) :
    WCacheEq (w.set r x) w' :=
  ⟨h.1, fun q => by
    simp only [World.set]; split_ifs with hq
    · subst hq; exact hxy.trans (h.2 q)
    · exact h.2 q⟩

variable [Zero R] [One R] [Neg R] [Add R] [Mul R] [CCmp R] [CSqrt R]

theorem cacheEq_sCache (x : UReal R) : CacheEq x.sCache.2 x := by
  unfold sCache
  split_ifs with h h2
  · exact CacheEq.refl x
  · exact ⟨rfl, rfl, rfl, fun h' => absurd h' h⟩
  · exact CacheEq.refl x

theorem cacheEq_varCache (x : UReal R) : CacheEq x.varCache.2 x := by
  unfold varCache
  split_ifs with h h2
  · exact CacheEq.refl x
  · exact ⟨rfl, rfl, rfl, fun h' => absurd h' h⟩
  · exact CacheEq.refl x

theorem cacheEq_binary {a a' b b' : UReal R} (ha : CacheEq a a') (hb : CacheEq b b') (mu dx dy : R) :
    binary a b mu dx dy = binary a' b' mu dx dy := by
  rcases ha.cases with rfl | ⟨ia, s, rfl⟩ <;> rcases hb.cases with rfl | ⟨ib, t, rfl⟩
  · rfl
  · simp [binary, not_lt.2 ib.le]
  · simp [binary, not_lt.2 ia.le]
  · simp [binary, not_lt.2 ib.le, not_lt.2 ia.le]

theorem cacheEq_addInto {a a' : UReal R} (ha : CacheEq a a') (z : SMap ℤ R) (dx : R) : addInto z a dx = addInto z a' dx := by
  rcases ha.cases with rfl | ⟨ia, s, rfl⟩
  · rfl
  · simp [addInto, not_lt.2 ia.le]

theorem cacheEq_naryFold {ι : Type*} (f g : ι → UReal R × R) (hfg : ∀ i, CacheEq (f i).1 (g i).1 ∧ (f i).2 = (g i).2)
    (xs : List ι) (z : SMap ℤ R) :
    (xs.map f).foldl (fun z p => addInto z p.1 p.2) z = (xs.map g).foldl (fun z p => addInto z p.1 p.2) z := by
  induction xs generalizing z with
  | nil => rfl
  | cons i t ih =>
    simp only [List.map_cons, List.foldl_cons]
    rw [cacheEq_addInto (hfg i).1, (hfg i).2, ih]

/-- A call which is not a caching read does the same on worlds equal up to caches. -/
theorem WCacheEq.step {w w' : World R} (h : WCacheEq w w') (st : Step R) (hst : isRead st = false) :
    (w.step st = none ∧ w'.step st = none) ∨
    ∃ v v' o, w.step st = some (v, o) ∧ w'.step st = some (v', o) ∧ WCacheEq v v' := by
  obtain ⟨h1, h2⟩ := h
  cases st with
  | new r n s =>
    right
    cases hs : CCmp.ltb s 0 with
    | true => refine ⟨_, _, _, by simp [World.step, mk', hs]; exact ⟨rfl, rfl⟩, by simp [World.step, mk', hs]; rfl, ?_⟩
              exact ⟨by simp [h1], h2⟩
    | false =>
      refine ⟨_, _, _, by simp [World.step, mk', hs]; exact ⟨rfl, rfl⟩, by simp [World.step, mk', hs]; rfl, ?_⟩
      have h' : WCacheEq { w with lastId := nextId w.lastId } { w' with lastId := nextId w'.lastId } := ⟨by simp [h1], h2⟩
      refine h'.set r ?_
      rw [h1]; exact CacheEq.refl _
  | const r n => right; exact ⟨_, _, _, rfl, rfl, WCacheEq.set ⟨h1, h2⟩ r (CacheEq.refl _)⟩
  | copy r a => right; exact ⟨_, _, _, rfl, rfl, WCacheEq.set ⟨h1, h2⟩ r (h2 a)⟩
  | unary r a mu dx =>
    right
    refine ⟨_, _, _, rfl, rfl, WCacheEq.set ⟨h1, h2⟩ r ?_⟩
    rcases (h2 a).cases with e | ⟨ia, s, e⟩ <;> rw [e]
    · exact CacheEq.refl _
    · simp only [unary, ia, not_lt.2 ia.le, if_false, if_true]; exact CacheEq.refl _
  | binary r a b mu dx dy =>
    simp only [World.step, cacheEq_binary (h2 a) (h2 b)]
    cases hb : binary (w'.regs a) (w'.regs b) mu dx dy with
    | none => left; simp
    | some z => right; exact ⟨_, _, _, rfl, rfl, WCacheEq.set ⟨h1, h2⟩ r (CacheEq.refl z)⟩
  | nary r xs mu =>
    right
    refine ⟨_, _, _, rfl, rfl, WCacheEq.set ⟨h1, h2⟩ r ?_⟩
    unfold nary
    rw [cacheEq_naryFold (fun p : Reg × R => (w.regs p.1, p.2)) (fun p : Reg × R => (w'.regs p.1, p.2)) (fun p => ⟨h2 p.1, rfl⟩)]
    exact CacheEq.refl _
  | assign r a mu dt dx =>
    right
    by_cases hr : a = r
    · subst hr
      refine ⟨_, _, _, by simp [World.step]; exact ⟨rfl, rfl⟩, by simp [World.step]; rfl, WCacheEq.set ⟨h1, h2⟩ a ?_⟩
      rcases (h2 a).cases with e | ⟨ia, s, e⟩ <;> rw [e]
      · exact CacheEq.refl _
      · exact ⟨rfl, rfl, rfl, fun hid => absurd (show 0 ≤ (w.regs a).id from hid) (not_le.2 ia)⟩
    · refine ⟨_, _, _, by simp [World.step, hr]; exact ⟨rfl, rfl⟩, by simp [World.step, hr]; rfl, WCacheEq.set ⟨h1, h2⟩ r ?_⟩
      rcases (h2 r).cases with e | ⟨ia, s, e⟩ <;> rw [e]
      · simp only [binaryAssign]; rw [cacheEq_addInto (h2 a)]; exact CacheEq.refl _
      · simp only [binaryAssign, not_lt.2 ia.le, if_false]
        rw [cacheEq_addInto (h2 a)]; exact CacheEq.refl _
  | changeNom r a n =>
    right
    refine ⟨_, _, _, rfl, rfl, WCacheEq.set ⟨h1, h2⟩ r ⟨(h2 a).id, rfl, (h2 a).sigma, (h2 a).sdev⟩⟩
  | readS r => simp [isRead] at hst
  | readVar r => simp [isRead] at hst

/-- **C07** (any arithmetic): erasing the caching reads of a program changes neither whether it has undefined
behaviour, nor the values and exceptions of the other calls, nor the final state up to caches. -/
theorem C07_erase_reads (p : List (Step R)) {w w' : World R} (h : WCacheEq w w') :
    (w.run p = none ∧ w'.run (eraseReads p) = none) ∨
    ∃ v v' os os', w.run p = some (v, os) ∧ w'.run (eraseReads p) = some (v', os') ∧ WCacheEq v v' ∧
      nonReadOuts p os = os' := by
  induction p generalizing w w' with
  | nil => right; exact ⟨w, w', [], [], rfl, rfl, h, rfl⟩
  | cons st t ih =>
    cases hst : isRead st with
    | false =>
      have e : eraseReads (st :: t) = st :: eraseReads t := by simp [eraseReads, hst]
      rw [e]
      rcases h.step st hst with ⟨e1, e2⟩ | ⟨v, v', o, e1, e2, hv⟩
      · left; simp [World.run, e1, e2]
      · rcases ih hv with ⟨e3, e4⟩ | ⟨u, u', os, os', e3, e4, hu, ho⟩
        · left; simp [World.run, e1, e2, e3, e4]
        · right
          refine ⟨u, u', o :: os, o :: os', by simp [World.run, e1, e3], by simp [World.run, e2, e4], hu, ?_⟩
          simp [nonReadOuts, hst] at ho ⊢; exact ho
    | true =>
      have e : eraseReads (st :: t) = eraseReads t := by simp [eraseReads, hst]
      rw [e]
      obtain ⟨v, o, e1, hv⟩ : ∃ v o, w.step st = some (v, o) ∧ WCacheEq v w' := by
        cases st <;> simp [isRead] at hst
        · exact ⟨_, _, rfl, h.set_left _ (cacheEq_sCache _)⟩
        · exact ⟨_, _, rfl, h.set_left _ (cacheEq_varCache _)⟩
      rcases ih hv with ⟨e3, e4⟩ | ⟨u, u', os, os', e3, e4, hu, ho⟩
      · left; simp [World.run, e1, e3, e4]
      · right
        refine ⟨u, u', o :: os, os', by simp [World.run, e1, e3], e4, hu, ?_⟩
        simp [nonReadOuts, hst] at ho ⊢; exact ho

example := C07_erase_reads exProg (w := World.init) (w' := World.init) ⟨rfl, fun _ => CacheEq.refl _⟩

omit [One R] [Neg R] [CCmp R] [CSqrt R] in
/-- **C07** (any arithmetic): the observers which do not read the uncertainty cannot see the cache. -/
theorem C07_observers [Div R] {x x' y y' : UReal R} (hx : CacheEq x x') (hy : CacheEq y y') :
    x.n = x'.n ∧ x.isindep = x'.isindep ∧ x.indepid = x'.indepid ∧ cov x y = cov x' y' ∧ grad x y = grad x' y' := by
  refine ⟨hx.mu, by simp only [isindep, hx.id, hx.sigma], by simp only [indepid, hx.id, hx.sigma], ?_, ?_⟩
  · rcases hx.cases with rfl | ⟨ix, s, rfl⟩ <;> rcases hy.cases with rfl | ⟨iy, t, rfl⟩
    · rfl
    · simp [cov, not_lt.2 iy.le]
    · simp [cov, not_lt.2 ix.le]
    · simp [cov, not_lt.2 iy.le, not_lt.2 ix.le]
  · rcases hy.cases with rfl | ⟨iy, t, rfl⟩
    · simp [grad, hx.sigma]
    · simp [grad, hx.sigma, not_lt.2 iy.le]

/-- the same value before and after `s()` was called on it -/
example : cov (⟨-1, -1, 7, [(1, 3), (2, 4)]⟩ : UReal ℝ) ex2 = cov ⟨-1, 5, 7, [(1, 3), (2, 4)]⟩ ex2 :=
  (C07_observers (x := ⟨-1, -1, 7, [(1, 3), (2, 4)]⟩) (x' := ⟨-1, 5, 7, [(1, 3), (2, 4)]⟩) (y := ex2) (y' := ex2)
    ⟨rfl, rfl, rfl, fun h => by simp at h⟩ (CacheEq.refl _)).2.2.2.1

end

/-- **C07** exact arithmetic, whole statement: insert or remove caching reads anywhere in a program (both programs
become the same when reads are erased); all other returned values and all final observations coincide. -/
theorem C07_cache_unobservable (p q : List (Step ℝ)) (hpq : eraseReads p = eraseReads q)
    (hp : countNew p < 2147483647) (hq : countNew q < 2147483647) :
    ∃ w w' os os', World.init.run p = some (w, os) ∧ World.init.run q = some (w', os') ∧
      nonReadOuts p os = nonReadOuts q os' ∧
      ∀ a b, (w.regs a).n = (w'.regs a).n ∧ (w.regs a).s = (w'.regs a).s ∧ var (w.regs a) = var (w'.regs a) ∧
        cov (w.regs a) (w.regs b) = cov (w'.regs a) (w'.regs b) ∧ corr (w.regs a) (w.regs b) = corr (w'.regs a) (w'.regs b) ∧
        (w.regs a).isindep = (w'.regs a).isindep ∧ (w.regs a).indepid = (w'.regs a).indepid ∧
        grad (w.regs a) (w.regs b) = grad (w'.regs a) (w'.regs b) := by
  obtain ⟨w, os, e, ok⟩ := reachable_valid p hp
  obtain ⟨w', os', e', ok'⟩ := reachable_valid q hq
  have hr : WCacheEq (World.init : World ℝ) World.init := ⟨rfl, fun _ => CacheEq.refl _⟩
  rcases C07_erase_reads p hr with ⟨h, -⟩ | ⟨v, v', o, o', h1, h2, h3, h4⟩
  · rw [e] at h; simp at h
  rcases C07_erase_reads q hr with ⟨h, -⟩ | ⟨u, u', k, k', g1, g2, g3, g4⟩
  · rw [e'] at h; simp at h
  rw [e] at h1; rw [e'] at g1; rw [hpq, g2] at h2
  simp only [Option.some.injEq, Prod.mk.injEq] at h1 g1 h2
  obtain ⟨rfl, rfl⟩ := h1; obtain ⟨rfl, rfl⟩ := g1; obtain ⟨rfl, rfl⟩ := h2
  have hw : ∀ a, CacheEq (w.regs a) (w'.regs a) := fun a => (h3.2 a).trans (g3.2 a).symm
  have hlin : ∀ a, (w.regs a).toLin = (w'.regs a).toLin := by
    intro a
    rcases (hw a).cases with h | ⟨ia, s, h⟩ <;> rw [h]
    simp [toLin, deps, not_lt.2 ia.le]
    funext i; simp [coef, not_lt.2 ia.le]
  have hs : ∀ a, (w.regs a).s = (w'.regs a).s := fun a => by
    rw [s_eq (ok a).valid, s_eq (ok' a).valid, hlin]
  refine ⟨w, w', os, os', e, e', h4.trans g4.symm, fun a b => ?_⟩
  obtain ⟨c1, c2, c3, c4, c5⟩ := C07_observers (hw a) (hw b)
  refine ⟨c1, hs a, ?_, c4, ?_, c2, c3, c5⟩
  · rw [var_eq (ok a).valid, var_eq (ok' a).valid, hlin]
  · rw [corr, corr, c4, hs a, hs b]

/-- the example program and the same program with the read moved to another place and repeated -/
example : eraseReads exProg = eraseReads
    [.readVar ⟨1, 0⟩, .new ⟨1, 0⟩ 5 3, .new ⟨1, 1⟩ 2 4, .binary ⟨1, 2⟩ ⟨1, 0⟩ ⟨1, 1⟩ 7 1 1,
     .assign ⟨1, 2⟩ ⟨1, 2⟩ 14 1 1, .readS ⟨1, 2⟩, .readVar ⟨1, 2⟩, .nary ⟨1, 3⟩ [(⟨1, 2⟩, 1), (⟨1, 0⟩, -2)] 4, .readS ⟨1, 3⟩] := rfl

example := C07_cache_unobservable exProg
  [.readVar ⟨1, 0⟩, .new ⟨1, 0⟩ 5 3, .new ⟨1, 1⟩ 2 4, .binary ⟨1, 2⟩ ⟨1, 0⟩ ⟨1, 1⟩ 7 1 1,
     .assign ⟨1, 2⟩ ⟨1, 2⟩ 14 1 1, .readS ⟨1, 2⟩, .readVar ⟨1, 2⟩, .nary ⟨1, 3⟩ [(⟨1, 2⟩, 1), (⟨1, 0⟩, -2)] 4, .readS ⟨1, 3⟩] rfl
  (by simp [exProg, countNew]) (by simp [countNew])

/-! ## C09, C10 -/

/-- **C09** a variable constructed after any program has the requested mean and uncertainty, uncertainty propagation sees it
as independent of every other variable, and nothing else changes. -/
theorem C09_new_independent (p : List (Step ℝ)) (hc : countNew p < 2147483647) (r : Reg) (n s : ℝ) (hs : 0 ≤ s) :
    ∃ w os w', World.init.run p = some (w, os) ∧ w.step (.new r n s) = some (w', .done) ∧
      (w'.regs r).n = n ∧ (w'.regs r).s = s ∧ var (w'.regs r) = s * s ∧ (w'.regs r).isindep = some true ∧
      (∀ q, cov (w'.regs r) (w.regs q) = 0 ∧ cov (w.regs q) (w'.regs r) = 0) ∧
      ∀ q, q ≠ r → w'.regs q = w.regs q := by
  obtain ⟨w, os, e, h⟩ := DSim.init.run ltb_zero_real p (by simp [DWorld.init]; omega)
  have hcount : w.lastId = (countNew p : ℕ) := by rw [h.count, dcount_run]; simp [DWorld.init]
  have hid : nextId w.lastId = ((countNew p + 1 : ℕ) : ℤ) := by rw [hcount]; exact nextId_nat (by omega)
  have hs' : CCmp.ltb s 0 = false := by rw [← Bool.not_eq_true, ltb_iff]; exact not_lt.2 hs
  let x : UReal ℝ := ⟨nextId w.lastId, s, n, []⟩
  have hxid : 0 < x.id := by simp only [x, hid]; push_cast; omega
  have hx : x.WF := ⟨fun h => absurd h hxid.ne', fun _ => rfl, by simp [x], by simp [x]⟩
  have hv : x.Valid := valid_of_nonneg_id hx hxid.le
  have hd : x.deps = {x.id} := by simp [deps, hxid]
  have hdisj : ∀ q, x.id ∉ (w.regs q).deps := by
    intro q hq
    rw [h.deps] at hq
    have := h.below q _ hq
    rw [dcount_run] at this
    simp only [DWorld.init, x, hid] at this
    push_cast at this; omega
  have hcov : ∀ q, cov x (w.regs q) = 0 := by
    intro q
    rw [cov_eq hx (h.wf q), LinForm.cov_eq_sum (supported x) {x.id} (by simp [toLin, hd])]
    simp [toLin, coef_of_not_mem (hdisj q)]
  refine ⟨w, os, _, e, by simp [World.step, mk', hs']; rfl, ?_⟩
  simp only [World.set, if_true]
  refine ⟨rfl, ?_, ?_, ?_, ?_, fun q hq => by simp [hq]⟩
  · simp only [UReal.s]
    rw [if_pos hxid.le]; simp [abs_of_nonneg hs]
  · simp only [var]
    rw [if_pos (Or.inl hxid.le)]
  · simp [isindep]
  · intro q
    refine ⟨hcov q, ?_⟩
    rw [← hcov q]
    exact C02_cov_symm_noarith mul_comm _ _

example := C09_new_independent exProg (by simp [exProg, countNew]) ⟨1, 7⟩ 3 2 (by norm_num)

example : countNew exProg < 2147483647 := by simp [exProg, countNew]

/-- **C10** the constructor throws `std::invalid_argument` exactly when the uncertainty is negative; a failed
construction changes no variable (it does consume an id); a zero uncertainty is accepted; otherwise the value
stores what was given.  Any state, any arithmetic. -/
theorem C10_ctor_throws_iff {R : Type*} [Zero R] [One R] [Neg R] [Add R] [Mul R] [CCmp R] [CSqrt R] (w : World R) (r : Reg)
    (n s : R) :
    ∃ w' o, w.step (.new r n s) = some (w', o) ∧ w'.lastId = nextId w.lastId ∧
      (o = .threw .invalidArgument ↔ CCmp.ltb s 0 = true) ∧ (o = .done ↔ CCmp.ltb s 0 = false) ∧
      (CCmp.ltb s 0 = true → w'.regs = w.regs) ∧ (∀ q, q ≠ r → w'.regs q = w.regs q) ∧
      (CCmp.ltb s 0 = false → (w'.regs r).n = n ∧ (0 ≤ nextId w.lastId → (w'.regs r).s = CSqrt.abs s)) := by
  cases hs : CCmp.ltb s 0 with
  | true => exact ⟨_, _, by simp [World.step, mk', hs]; exact ⟨rfl, rfl⟩, rfl, by simp, by simp, by simp, by simp, by simp⟩
  | false =>
    refine ⟨_, _, by simp [World.step, mk', hs]; exact ⟨rfl, rfl⟩, rfl, by simp, by simp, by simp, ?_, ?_⟩
    · intro q hq; simp [World.set, hq]
    · intro _
      simp only [World.set, if_true]
      exact ⟨rfl, fun h => by simp [UReal.s, h]⟩

example : ∃ w', World.init.step (.new ⟨1, 0⟩ (5 : ℝ) (-1)) = some (w', .threw .invalidArgument) ∧ w'.regs = World.init.regs := by
  obtain ⟨w', o, e, -, h1, -, h2, -⟩ := C10_ctor_throws_iff World.init ⟨1, 0⟩ (5 : ℝ) (-1)
  have h : CCmp.ltb (-1 : ℝ) 0 = true := (ltb_iff _ _).2 (by norm_num)
  exact ⟨w', by rw [e, h1.2 h], h2 h⟩

/-- both branches occur -/
example : CCmp.ltb (-1 : ℝ) 0 = true ∧ CCmp.ltb (0 : ℝ) 0 = false :=
  ⟨(ltb_iff _ _).2 (by norm_num), ltb_zero_real⟩

/-! ## C11 -/

/-- **C11** for any value satisfying the class invariants (no arithmetic): the asserts hold and the answers describe the
dependency set. -/
theorem C11_observers {R : Type*} [Zero R] {x : UReal R} (hx : x.WF) :
    x.isindep = some (decide (x.deps.card ≤ 1)) ∧
    ∃ k, x.indepid = some k ∧ (k = 0 ↔ x.deps = ∅) ∧ (0 < k ↔ x.deps = {k}) ∧ (k = -1 ↔ 2 ≤ x.deps.card) := by
  rcases lt_or_ge x.id 0 with hid | hid
  · have hd : x.deps = x.sigma.keys.toFinset := by simp [deps, hid, not_lt.2 hid.le]
    have hn : x.sigma.keys.Nodup := hx.sorted.nodup
    have hcard : x.deps.card = x.sigma.length := by
      rw [hd, List.toFinset_card_of_nodup hn]; simp [SMap.keys]
    refine ⟨by simp [isindep, hid, hcard], ?_⟩
    rcases hsig : x.sigma with _ | ⟨⟨a, v⟩, _ | ⟨q, t⟩⟩
    · exact ⟨0, by simp [indepid, hid, not_le.2 hid, hsig], by simp [hd, hsig], by simp [hd, hsig], by simp [hcard, hsig]⟩
    · have ha : 0 < a := hx.pos a (by simp [hsig])
      refine ⟨a, by simp [indepid, hid, not_le.2 hid, hsig], ?_, ?_, ?_⟩
      · simp [hd, hsig]; omega
      · simp [hd, hsig, ha]
      · simp [hcard, hsig]; omega
    · refine ⟨-1, by simp [indepid, hid, not_le.2 hid, hsig, invalidId], ?_, ?_, ?_⟩
      · simp [hd, hsig]
      · have : x.deps ≠ {-1} := by
          intro h
          have : (-1 : ℤ) ∈ x.deps := by rw [h]; simp
          have := deps_pos hx _ this
          omega
        simp [this]
      · simp [hcard, hsig]
  · have hnil := hx.nil hid
    rcases hid.eq_or_lt with h0 | hpos
    · have hd : x.deps = ∅ := by simp [deps, ← h0]
      exact ⟨by simp [isindep, hnil, hd], 0, by simp [indepid, hnil, ← h0], by simp [hd], by simp [hd], by simp [hd]⟩
    · have hd : x.deps = {x.id} := by simp [deps, hpos]
      refine ⟨by simp [isindep, hnil, hd], x.id, by simp [indepid, hnil, hid], ?_, by simp [hd, hpos], ?_⟩
      · simp [hd]; omega
      · simp [hd]; omega

example : ex2.isindep = some false ∧ ex1.isindep = some true := by
  rw [(C11_observers valid_ex2.wf).1, (C11_observers valid_ex1.wf).1]
  simp [ex1, ex2, deps]

/-- **C11** for programs (no arithmetic but `0 < 0` being false): `isindep()` is true iff at most one construction
went into the value, `indepid()` tells which. -/
theorem C11_program {R : Type*} [Zero R] [One R] [Neg R] [Add R] [Mul R] [CCmp R] [CSqrt R]
    (h00 : CCmp.ltb (0 : R) 0 = false) (p : List (Step R)) (hc : countNew p < 2147483647) :
    ∃ w os, (World.init : World R).run p = some (w, os) ∧ ∀ r,
      (w.regs r).isindep = some (decide (((DWorld.init.run p).regs r).card ≤ 1)) ∧
      ∃ k, (w.regs r).indepid = some k ∧ (k = 0 ↔ (DWorld.init.run p).regs r = ∅) ∧
        (0 < k ↔ (DWorld.init.run p).regs r = {k}) ∧ (k = -1 ↔ 2 ≤ ((DWorld.init.run p).regs r).card) := by
  obtain ⟨w, os, e, h⟩ := DSim.init.run h00 p (by simpa [DWorld.init] using hc)
  refine ⟨w, os, e, fun r => ?_⟩
  rw [← h.deps]
  exact C11_observers (h.wf r)

example := C11_program ltb_zero_real exProg (by simp [exProg, countNew])

/-- in the example program, variable 3 was computed from two constructions, variable 1 from one -/
example : ((DWorld.init.run exProg).regs ⟨1, 3⟩).card = 2 ∧ ((DWorld.init.run exProg).regs ⟨1, 1⟩) = {2} := by
  have h3 : CCmp.ltb (3 : ℝ) 0 = false := by rw [← Bool.not_eq_true, ltb_iff]; norm_num
  have h4 : CCmp.ltb (4 : ℝ) 0 = false := by rw [← Bool.not_eq_true, ltb_iff]; norm_num
  simp [exProg, DWorld.run, DWorld.step, DWorld.set, h3, h4]
  decide

/-! ## C12 -/

/-- The full statement of **C12**: the gradient with respect to an independent variable of non-zero uncertainty is the
ratio of the coefficients (the accumulated derivative). -/
def C12_statement : Prop :=
  ∀ y x : UReal ℝ, y.Valid → x.Valid → ∀ k : ℤ, 0 < k → x.indepid = some k → x.coef k ≠ 0 →
    grad y x = .ok (some (y.coef k / x.coef k))

/-- **C12 is false**: `x.grad(x)` is 0, not 1, for an elementary variable. -/
theorem C12_false : ¬ C12_statement := by
  intro h
  have := h ex1 ex1 valid_ex1 valid_ex1 1 one_pos (by simp [ex1, indepid]) (by simp [ex1, coef])
  simp [grad, ex1, SMap.find?, coef] at this

/-- **C12, what holds**: the formula is right when the differentiated value is stored as a dependent one (`id < 0`: results of
`binary`, `nary`, compound assignment; not elementary variables nor `unary` functions of them).
Missing: values with positive id. -/
theorem C12_grad_partial {y x : UReal ℝ} (hy : y.Valid) (hx : x.Valid) {k : ℤ} (hk : 0 < k)
    (hxk : x.indepid = some k) (hyd : y.id ≤ 0) :
    grad y x = .ok (some (y.coef k / x.coef k)) := by
  have hfind : ∀ j, y.coef j = (y.sigma.find? j).getD 0 := by
    intro j
    rcases hyd.eq_or_lt with h | h
    · simp [coef, h, hy.wf.nil h.ge, SMap.find?]
    · simp [coef, h, not_lt.2 h.le, SMap.get]
  have hd := deps_of_indepid hx.wf hk hxk
  have key : ∀ xg, (match y.sigma.find? k with
      | some v => (Except.ok (some (v / xg)) : Except Exn (Option ℝ))
      | none => .ok (some 0)) = .ok (some (y.coef k / xg)) := by
    intro xg; rw [hfind]; cases y.sigma.find? k <;> simp
  rcases lt_trichotomy x.id 0 with h | h | h
  · have hkey : x.sigma.keys.toFinset = {k} := by simpa [deps, h, not_lt.2 h.le] using hd
    rcases hsig : x.sigma with _ | ⟨⟨a, v⟩, _ | ⟨q, t⟩⟩
    · simp [hsig] at hkey
    · have : a = k := by simpa [hsig] using hkey
      subst this
      have hc : x.coef a = v := by simp [coef, h, not_lt.2 h.le, hsig, SMap.get, SMap.find?]
      rw [hc, ← key v]
      simp [grad, hsig, not_lt.2 h.le]
      cases y.sigma.find? a <;> rfl
    · have hn : x.sigma.keys.Nodup := hx.wf.sorted.nodup
      have := congrArg Finset.card hkey
      rw [List.toFinset_card_of_nodup hn, hsig] at this
      simp [SMap.keys] at this
  · simp [deps, h] at hd
  · have : x.id = k := by simpa [deps, h] using hd
    subst this
    have hc : x.coef x.id = x.sdev := by simp [coef, h]
    rw [hc, ← key x.sdev]
    simp [grad, h]
    cases y.sigma.find? x.id <;> rfl

/-- **C12** it throws `std::invalid_argument` exactly when the argument is not a function of exactly one variable. -/
theorem C12_throws_iff {y x : UReal ℝ} (hx : x.Valid) :
    (grad y x = .error .invalidArgument ↔ x.deps.card ≠ 1) ∧ grad y x ≠ .ok none := by
  have hcard : x.deps.card = 1 ↔ (0 < x.id ∨ x.sigma.length = 1) := by
    rcases lt_or_ge x.id 0 with hid | hid
    · have hd : x.deps = x.sigma.keys.toFinset := by simp [deps, hid, not_lt.2 hid.le]
      have hn : x.sigma.keys.Nodup := hx.wf.sorted.nodup
      rw [hd, List.toFinset_card_of_nodup hn]; simp [SMap.keys, not_lt.2 hid.le]
    · rcases hid.eq_or_lt with h0 | h0
      · simp [deps, ← h0, hx.wf.nil hid]
      · simp [deps, h0]
  unfold grad
  by_cases h : 0 < x.id ∨ x.sigma.length = 1
  · have : ¬ x.deps.card ≠ 1 := by simp [hcard.2 h]
    simp only [h, not_true_eq_false, if_false, this, iff_false]
    rcases h' : (if 0 < x.id then some (x.id, x.sdev) else x.sigma.head?) with _ | ⟨a, b⟩
    · exfalso
      split_ifs at h' with h1
      rcases h with h | h
      · exact h1 h
      · cases hs : x.sigma with
        | nil => simp [hs] at h
        | cons p t => simp [hs] at h'
    · simp only []
      cases y.sigma.find? a <;> simp
  · simp [h, mt hcard.1 h]

example : grad ex1 ex2 = .error .invalidArgument ∧ grad ex2 ex1 ≠ .error .invalidArgument :=
  ⟨(C12_throws_iff valid_ex2).1.2 (by simp [ex2, deps]), fun h => (C12_throws_iff valid_ex1).1.1 h (by simp [ex1, deps])⟩

/-- gradient of a product of two measurements with respect to the first: the mean of the second -/
example : ∃ z, mul ex1 ⟨2, 4, 11, []⟩ = some z ∧ grad z ex1 = .ok (some 11) := by
  have hy : Ok (⟨2, 4, 11, []⟩ : UReal ℝ) := ⟨valid_of_nonneg_id ⟨by simp, by simp, by simp, by simp⟩ (by simp),
    by simp [Below, deps, maxId]⟩
  obtain ⟨z, e, oz, mz, cz⟩ := binary_ok ok_ex1 hy (ex1.mu * 11) 11 ex1.mu
  refine ⟨z, e, ?_⟩
  have hz : z.id ≤ 0 := by
    obtain ⟨z', e', -, -, -, h, -⟩ := binary_spec valid_ex1.wf hy.valid.wf below_ex1 hy.below (ex1.mu * 11) 11 ex1.mu
    rw [e] at e'; cases e'; omega
  rw [C12_grad_partial oz.valid valid_ex1 (k := 1) one_pos (by simp [ex1, indepid]) hz, cz]
  simp [ex1, coef]

/-! ## C15 -/

/-- **C15** no undefined behaviour and no failed assert in any program with fewer than 2^31 - 1 constructions, whatever the
arithmetic does (only `0 < 0` being false is assumed). -/
theorem C15_no_ub {R : Type*} [Zero R] [One R] [Neg R] [Add R] [Mul R] [CCmp R] [CSqrt R]
    (h00 : CCmp.ltb (0 : R) 0 = false) (p : List (Step R)) (hc : countNew p < 2147483647) :
    ∃ w os, (World.init : World R).run p = some (w, os) ∧
      ∀ r, (w.regs r).isindep.isSome ∧ (w.regs r).indepid.isSome := by
  obtain ⟨w, os, e, h⟩ := C11_program h00 p hc
  refine ⟨w, os, e, fun r => ?_⟩
  obtain ⟨h1, k, h2, -⟩ := h r
  simp [h1, h2]

example := C15_no_ub ltb_zero_real exProg (by simp [exProg, countNew])

section
variable {R : Type*} [Zero R] [One R] [Neg R] [Add R] [Mul R] [CCmp R] [CSqrt R]

/-- `k` constructions into the same variable. -/
theorem run_replicate_new (h0 : CCmp.ltb (0 : R) 0 = false) (r : Reg) (k : ℕ) (w : World R) :
    ∃ w' os, w.run (List.replicate k (.new r 0 0)) = some (w', os) ∧
      (k ≠ 0 → w'.regs r = ⟨w'.lastId, 0, 0, []⟩) ∧ w'.lastId = nextId^[k] w.lastId := by
  induction k generalizing w with
  | zero => exact ⟨w, [], rfl, by simp, rfl⟩
  | succ k ih =>
    obtain ⟨w', os, e, h1, h2⟩ := ih ({ w with lastId := nextId w.lastId }.set r ⟨nextId w.lastId, 0, 0, []⟩)
    refine ⟨w', .done :: os, by simp [World.run, World.step, mk', h0, List.replicate_succ, e], ?_, by rw [h2, Function.iterate_succ_apply]; rfl⟩
    intro _
    rcases Nat.eq_zero_or_pos k with rfl | hk
    · simp [World.run] at e
      rw [← e.1]; simp [World.set]
    · exact h1 (by omega)

theorem iterate_nextId (k : ℕ) (hk : k ≤ 2147483647) : nextId^[k] 0 = k := by
  induction k with
  | zero => rfl
  | succ k ih => rw [Function.iterate_succ_apply', ih (by omega), nextId_nat (by omega)]

/-- **C15, sharpness**: after exactly 2^31 - 1 constructions and two operations there are variables whose combination, in either
order, is undefined behaviour: the variable with the largest id enters the merge of two dependent variables. -/
theorem C15_ub_at_max_id (h0 : CCmp.ltb (0 : R) 0 = false) :
    ∃ (p : List (Step R)) (w : World R) (os : List (Out R)) (c d : Reg), countNew p = 2147483647 ∧
      (World.init : World R).run p = some (w, os) ∧
      w.step (.binary d c d 0 1 1) = none ∧ w.step (.binary d d c 0 1 1) = none := by
  let a : Reg := ⟨0, 0⟩
  let b : Reg := ⟨0, 1⟩
  let c : Reg := ⟨0, 2⟩
  let d : Reg := ⟨0, 3⟩
  let q : List (Step R) := [.new b 0 0, .binary c a b 0 1 1, .binary d a a 0 1 1]
  have hcount : countNew (List.replicate 2147483646 (.new a 0 0) ++ q) = 2147483647 := by
    rw [countNew_append]
    have : ∀ k, countNew (List.replicate k (Step.new a (0 : R) 0)) = k := by
      intro k; induction k with
      | zero => rfl
      | succ k ih => simp [List.replicate_succ, countNew, ih]
    rw [this]; simp [q, countNew]
  obtain ⟨w, os, e, h1, h2⟩ := run_replicate_new h0 a 2147483646 (World.init : World R)
  have hl : w.lastId = 2147483646 := by rw [h2]; exact iterate_nextId 2147483646 (by norm_num)
  have ha := h1 (by norm_num)
  rw [hl] at ha
  have hn : nextId 2147483646 = 2147483647 := by simp [nextId, wrap32]
  have hq : ∃ w', w.run q = some (w', [.done, .done, .done]) ∧
      w'.step (.binary d c d 0 1 1) = none ∧ w'.step (.binary d d c 0 1 1) = none := by
    simp only [q, World.run, World.step, mk', h0, World.set, hl, hn]
    simp [a, b, c, d, World.set, ha, binary, SMap.upsert, mergeLoop, maxId, invalidId, World.step,
      show (a : Reg) = ⟨0, 0⟩ from rfl]
  obtain ⟨w', e', h⟩ := hq
  refine ⟨_, w', os ++ [.done, .done, .done], c, d, hcount, ?_, h⟩
  rw [World.run_append, e]
  simp only [Option.bind_some, e', Option.map_some]

example := C15_ub_at_max_id (R := ℝ) ltb_zero_real

end

example : CCmp.ltb (0 : ℝ) 0 = false := ltb_zero_real

end Unc.Props
