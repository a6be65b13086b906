import Verif.Spec.Integers
import Verif.Lemmas.Float

/-! # Helper lemmas: operations which do not round -/

namespace Unc
open Spec UReal
variable {f : Fmt} {N : ℕ}

/-- the number is the integer `n`, if its size `m` is not too large -/
def Wk (N : ℕ) (n : ℤ) (m : ℕ) (b : FP f) : Prop := n.natAbs ≤ m ∧ (m ≤ N → b.val = n)

namespace Wk

theorem zero : Wk N 0 0 (0 : FP f) := ⟨le_rfl, fun _ => by simp⟩
theorem one : Wk N 1 1 (1 : FP f) := ⟨le_rfl, fun _ => by simp⟩

theorem neg {n : ℤ} {m : ℕ} {b : FP f} (h : Wk N n m b) : Wk N (-n) m (-b) :=
  ⟨by simpa using h.1, fun hm => by simp [h.2 hm]⟩

theorem add (hf : Ints f N) {n n' : ℤ} {m m' : ℕ} {b b' : FP f} (h : Wk N n m b) (h' : Wk N n' m' b') : Wk N (n + n') (m + m') (b + b') := by
  have h0 : (n + n').natAbs ≤ m + m' := (Int.natAbs_add_le n n').trans (add_le_add h.1 h'.1)
  refine ⟨h0, fun hm => ?_⟩
  rw [FP.val_add, h.2 (by omega), h'.2 (by omega), ← Int.cast_add]
  exact hf _ (h0.trans hm)

theorem sub (hf : Ints f N) {n n' : ℤ} {m m' : ℕ} {b b' : FP f} (h : Wk N n m b) (h' : Wk N n' m' b') : Wk N (n - n') (m + m') (b - b') := by
  have h0 : (n - n').natAbs ≤ m + m' := (Int.natAbs_sub_le n n').trans (add_le_add h.1 h'.1)
  refine ⟨h0, fun hm => ?_⟩
  rw [FP.val_sub, h.2 (by omega), h'.2 (by omega), ← Int.cast_sub]
  exact hf _ (h0.trans hm)

theorem mul (hf : Ints f N) {n n' : ℤ} {m m' : ℕ} {b b' : FP f} (h : Wk N n m b) (h' : Wk N n' m' b') : Wk N (n * n') (m * m') (b * b') := by
  have h0 : (n * n').natAbs ≤ m * m' := by rw [Int.natAbs_mul]; exact Nat.mul_le_mul h.1 h'.1
  refine ⟨h0, fun hm => ?_⟩
  rw [FP.val_mul]
  rcases Nat.eq_zero_or_pos m with h1 | h1
  · have := h.1
    have e : n = 0 := by omega
    rw [h.2 (by omega), e]; simp [f.rd_zero]
  · rcases Nat.eq_zero_or_pos m' with h2 | h2
    · have := h'.1
      have e : n' = 0 := by omega
      rw [h'.2 (by omega), e]; simp [f.rd_zero]
    · rw [h.2 ((Nat.le_mul_of_pos_right m h2).trans hm), h'.2 ((Nat.le_mul_of_pos_left m' h1).trans hm), ← Int.cast_mul]
      exact hf _ (h0.trans hm)

/-- the scaling of `binary_assign`, left out if the factor is 1 -/
theorem scale (hf : Ints f N) {n n' : ℤ} {m m' : ℕ} {b b' : FP f} (h : Wk N n m b) (h' : Wk N n' m' b') :
    Wk N (n' * n) (m' * m) (if CCmp.eqb b' 1 then b else b * b') := by
  have hm := h.mul hf h'
  have e : b * b' = if CCmp.eqb b' 1 then b else b * b' := by
    split_ifs with hb
    · rw [FP.eqb_fp] at hb
      apply FP.ext
      rw [FP.val_mul, hb, FP.val_one, mul_one, b.rep]
    · rfl
  rw [mul_comm n', mul_comm m', ← e]
  exact hm

theorem congr {n n' : ℤ} {m m' : ℕ} {b : FP f} (h : Wk N n m b) (e : n = n') (e' : m = m') : Wk N n' m' b := by subst e e'; exact h

end Wk

/-! ### coefficients in floating point -/

theorem fpi_mul_zero (a : FP f) : a * 0 = 0 := FP.ext (by simp [FP.val_mul, f.rd_zero])
theorem fpi_zero_mul (a : FP f) : 0 * a = 0 := FP.ext (by simp [FP.val_mul, f.rd_zero])
theorem fpi_add_zero (a : FP f) : a + 0 = a := FP.ext (by simp [FP.val_add, a.rep])

theorem fpi_coef_unary (x : UReal (FP f)) (mu dx : FP f) (j : ℤ) : (unary x mu dx).coef j = x.coef j * dx := by
  unfold unary coef
  by_cases h1 : 0 < x.id
  · simp only [h1, if_true]
    split_ifs <;> simp [fpi_zero_mul]
  · by_cases h2 : x.id < 0
    · simp only [h1, h2, if_true, if_false]
      exact SMap.get_mapVal (fpi_zero_mul dx)
    · simp [h1, h2, fpi_zero_mul]

theorem fpi_coef_binary {x y z : UReal (FP f)} (hx : x.WF) (hy : y.WF) (bx : x.Below maxId) (by' : y.Below maxId) {mu dx dy : FP f}
    (h : binary x y mu dx dy = some z) :
    z.WF ∧ z.deps = x.deps ∪ y.deps ∧ z.mu = mu ∧ z.id = -1 ∧ z.sdev = -1 ∧ ∀ j, z.coef j = dx * x.coef j + dy * y.coef j := by
  obtain ⟨z', e, h1, h2, h3, h4, h5, h6⟩ := binary_spec hx hy bx by' mu dx dy
  rw [e] at h
  cases h
  refine ⟨h1, h2, h3, h4, h5, fun j => ?_⟩
  rw [h6, coef_eq_lookup, coef_eq_lookup]
  cases x.lookup j <;> cases y.lookup j <;> simp [fpi_mul_zero, fpi_add_zero]

theorem fpi_coef_binaryAssign {t x : UReal (FP f)} (ht : t.WF) (hx : x.WF) (mu dt dx : FP f) (j : ℤ) :
    (binaryAssign t x mu dt dx).coef j = (if CCmp.eqb dt 1 then t.coef j else t.coef j * dt) + dx * x.coef j := by
  have hspill : (spill t dt).get j = if CCmp.eqb dt 1 then t.coef j else t.coef j * dt := by
    have h0 : SMap.get (if 0 < t.id then t.sigma.upsert t.id 0 (fun _ => t.sdev) else t.sigma) j = t.coef j := by
      unfold coef
      split_ifs with h1 h2 h3
      · rw [SMap.get_upsert ht.sorted]; simp [h2]
      · rw [SMap.get_upsert ht.sorted]; simp [h2, ht.nil h1.le]
      · rfl
      · rw [ht.nil (by omega)]; simp
    unfold spill
    generalize (if 0 < t.id then t.sigma.upsert t.id 0 (fun _ => t.sdev) else t.sigma) = sg at h0 ⊢
    dsimp only
    split_ifs with h1
    · exact h0
    · rw [SMap.get_mapVal (fpi_zero_mul dt), h0]
  have : (binaryAssign t x mu dt dx).coef j = SMap.get (addInto (spill t dt) x dx) j := by
    simp [coef, binaryAssign, invalidId, spill]
  rw [this, get_addInto (sorted_spill ht dt) hx, hspill, coef_eq_lookup (x := x)]
  cases x.lookup j <;> simp [fpi_mul_zero, fpi_add_zero]

theorem fpi_coef_self {t : UReal (FP f)} (mu dt dx : FP f) (j : ℤ) : (binaryAssignSelf t mu dt dx).coef j = t.coef j * (dt + dx) := by
  simp only [binaryAssignSelf, coef]
  by_cases h1 : 0 < t.id
  · simp only [h1, or_true, if_true]
    split_ifs <;> simp [fpi_zero_mul]
  · by_cases h2 : t.id < 0
    · simp only [h1, h2, if_true, if_false]
      exact SMap.get_mapVal (f := fun v => v * (dt + dx)) (fpi_zero_mul _)
    · simp [h1, h2, fpi_zero_mul]

/-! ### whole calculations -/

/-- the value of the class against the integers -/
structure Tells (N : ℕ) (g : ℕ → IVar) (t : Calc) (x : UReal (FP f)) : Prop where
  wf : x.WF
  below : x.Below maxId
  fresh : x.id < 0 → x.sdev = -1
  deps : x.deps = t.ids g
  mean : Wk N (t.mean g) (t.meanSize g) x.mu
  slope : ∀ k, Wk N (t.slope g k) (t.slopeSize g k) (x.coef k)

theorem tells_leaf {g : ℕ → IVar} {i : ℕ} {x : UReal (FP f)} (h : Holds x (g i)) : Tells N g (.leaf i) x := by
  have hid := h.id
  have hn := h.nonneg
  have hd : x.deps = Calc.ids g (.leaf i) := by
    unfold deps Calc.ids
    rw [hid]
    split_ifs
    · rfl
    · omega
    · rfl
  refine ⟨⟨fun h0 => ?_, fun _ => h.sigma, by rw [h.sigma]; exact SMap.sorted_nil, by rw [h.sigma]; simp⟩, ?_, fun h0 => by omega, hd, ⟨le_rfl, fun _ => h.mean⟩, fun k => ?_⟩
  · refine FP.ext ?_
    rw [h.dev, h.const (hid ▸ h0)]; simp
  · intro k hk
    rw [hd] at hk
    unfold Calc.ids at hk
    split_ifs at hk
    · rw [Finset.mem_singleton.1 hk]; exact h.below
    · simp at hk
  · unfold Calc.slope Calc.slopeSize coef
    rw [hid]
    by_cases h1 : 0 < (g i).id
    · by_cases h2 : k = (g i).id
      · simp only [h1, h2, and_self, if_true]
        exact ⟨by simp, fun _ => by rw [h.dev]; simp⟩
      · simp only [h1, h2, and_false, if_true, if_false]; exact Wk.zero
    · have h2 : ¬ (g i).id < 0 := by omega
      simp only [h1, h2, false_and, if_false]; exact Wk.zero

theorem leb_fresh : CCmp.leb (0 : FP f) (-1) = false := by
  rw [Bool.eq_false_iff, Ne, FP.leb_fp]; simp

theorem tells_un (hf : Ints f N) {g : ℕ → IVar} {t : Calc} {x : UReal (FP f)} (h : Tells N g t x) (o : UnOp) : Tells N g (.un o t) (o.call x) := by
  have self : ∀ mu dt dx : FP f,
      (binaryAssignSelf x mu dt dx).WF ∧ (binaryAssignSelf x mu dt dx).Below maxId ∧ ((binaryAssignSelf x mu dt dx).id < 0 → (binaryAssignSelf x mu dt dx).sdev = -1) ∧
        (binaryAssignSelf x mu dt dx).deps = t.ids g := by
    intro mu dt dx
    have hd : (binaryAssignSelf x mu dt dx).deps = x.deps := deps_binaryAssignSelf x mu dt dx
    refine ⟨wf_binaryAssignSelf h.wf _ _ _ (fun _ => ?_), fun k hk => h.below k (by rwa [hd] at hk), fun h0 => ?_, hd.trans h.deps⟩
    · rw [Bool.eq_false_iff, Ne, FP.ltb_fp]; simp
    · have h0' : x.id < 0 := h0
      have hs := h.fresh h0'
      have : ¬ (CCmp.ltb 0 x.sdev = true ∨ 0 < x.id) := by
        rw [hs]
        rintro (h1 | h1)
        · rw [FP.ltb_fp] at h1; simp at h1; linarith
        · omega
      show (if CCmp.ltb 0 x.sdev = true ∨ 0 < x.id then x.sdev * (dt + dx) else x.sdev) = -1
      rw [if_neg this, hs]
  cases o with
  | neg =>
    refine ⟨wf_unary h.wf _ _, fun k hk => h.below k (by rwa [show (UnOp.neg.call x).deps = x.deps from deps_unary x _ _] at hk), fun h0 => ?_,
      (deps_unary x _ _).trans h.deps, ?_, fun k => ?_⟩
    · change (unary x (-x.mu) (-1)).id < 0 at h0
      show (unary x (-x.mu) (-1)).sdev = -1
      unfold unary at h0 ⊢
      split_ifs at h0 ⊢ <;> first | rfl | (simp at h0; omega)
    · have e : (UnOp.neg.call x).mu = -x.mu := by
        show (unary x (-x.mu) (-1)).mu = _
        unfold unary; split_ifs <;> rfl
      rw [e]; exact h.mean.neg
    · show Wk N _ _ ((unary x (-x.mu) (-1)).coef k)
      rw [fpi_coef_unary]
      exact ((h.slope k).mul hf Wk.one.neg).congr (by simp [Calc.slope]) (by simp [Calc.slopeSize])
  | twice =>
    obtain ⟨a1, a2, a3, a4⟩ := self (x.mu + x.mu) 1 1
    refine ⟨a1, a2, a3, a4, (h.mean.add hf h.mean).congr (by simp [Calc.mean]; ring) (by simp [Calc.meanSize]; ring), fun k => ?_⟩
    show Wk N _ _ ((binaryAssignSelf x (x.mu + x.mu) 1 1).coef k)
    rw [fpi_coef_self]
    exact ((h.slope k).mul hf (Wk.one.add hf Wk.one)).congr (by simp [Calc.slope]; ring) (by simp [Calc.slopeSize]; ring)
  | cancel =>
    obtain ⟨a1, a2, a3, a4⟩ := self (x.mu - x.mu) 1 (-1)
    refine ⟨a1, a2, a3, a4, ⟨by simp [Calc.mean], fun _ => ?_⟩, fun k => ⟨by simp [Calc.slope], fun _ => ?_⟩⟩
    · show (x.mu - x.mu).val = _
      rw [FP.val_sub]; simp [Calc.mean, f.rd_zero]
    · show ((binaryAssignSelf x (x.mu - x.mu) 1 (-1)).coef k).val = _
      have : (1 : FP f) + -1 = 0 := FP.ext (by rw [FP.val_add]; simp [f.rd_zero])
      rw [fpi_coef_self, this, fpi_mul_zero]
      simp [Calc.slope]
  | square =>
    obtain ⟨a1, a2, a3, a4⟩ := self (x.mu * x.mu) x.mu x.mu
    refine ⟨a1, a2, a3, a4, h.mean.mul hf h.mean, fun k => ?_⟩
    show Wk N _ _ ((binaryAssignSelf x (x.mu * x.mu) x.mu x.mu).coef k)
    rw [fpi_coef_self]
    exact ((h.slope k).mul hf (h.mean.add hf h.mean)).congr (by simp [Calc.slope]; ring) (by simp [Calc.slopeSize]; ring)

theorem tells_bin (hf : Ints f N) {g : ℕ → IVar} {s t : Calc} {x y : UReal (FP f)} (hx : Tells N g s x) (hy : Tells N g t y) {o : BinOp} (ho : o.divides = false) :
    ∃ z, o.call x y = some z ∧ Tells N g (.bin o s t) z := by
  have hbelow : ∀ k ∈ x.deps ∪ y.deps, k < maxId := fun k hk => (Finset.mem_union.1 hk).elim (hx.below k) (hy.below k)
  have new : ∀ (mu dx dy : FP f) (o : BinOp), Wk N (Calc.mean g (.bin o s t)) (Calc.meanSize g (.bin o s t)) mu →
      (∀ k, Wk N (Calc.slope g k (.bin o s t)) (Calc.slopeSize g k (.bin o s t)) (dx * x.coef k + dy * y.coef k)) →
      ∃ z, binary x y mu dx dy = some z ∧ Tells N g (.bin o s t) z := by
    intro mu dx dy o h1 h2
    obtain ⟨z, e, -⟩ := binary_spec hx.wf hy.wf hx.below hy.below mu dx dy
    obtain ⟨a1, a2, a3, a4, a5, a6⟩ := fpi_coef_binary hx.wf hy.wf hx.below hy.below e
    exact ⟨z, e, a1, fun k hk => hbelow k (by rwa [a2] at hk), fun _ => a5, by rw [a2, hx.deps, hy.deps]; rfl, by rw [a3]; exact h1, fun k => by rw [a6]; exact h2 k⟩
  have asg : ∀ (mu dt dx : FP f) (o : BinOp), Wk N (Calc.mean g (.bin o s t)) (Calc.meanSize g (.bin o s t)) mu →
      (∀ k, Wk N (Calc.slope g k (.bin o s t)) (Calc.slopeSize g k (.bin o s t)) ((if CCmp.eqb dt 1 then x.coef k else x.coef k * dt) + dx * y.coef k)) →
      ∃ z, some (binaryAssign x y mu dt dx) = some z ∧ Tells N g (.bin o s t) z := by
    intro mu dt dx o h1 h2
    have hd := deps_binaryAssign hx.wf (x := y) mu dt dx
    exact ⟨_, rfl, wf_binaryAssign hx.wf hy.wf _ _ _, fun k hk => hbelow k (by rwa [hd] at hk), fun _ => rfl, by rw [hd, hx.deps, hy.deps]; rfl, h1,
      fun k => by rw [fpi_coef_binaryAssign hx.wf hy.wf]; exact h2 k⟩
  cases o with
  | add =>
    exact new _ _ _ .add (hx.mean.add hf hy.mean) fun k => ((Wk.one.mul hf (hx.slope k)).add hf (Wk.one.mul hf (hy.slope k))).congr (by simp [Calc.slope]) (by simp [Calc.slopeSize])
  | sub =>
    exact new _ _ _ .sub (hx.mean.sub hf hy.mean) fun k =>
      ((Wk.one.mul hf (hx.slope k)).add hf (Wk.one.neg.mul hf (hy.slope k))).congr (by simp [Calc.slope]; ring) (by simp [Calc.slopeSize])
  | mul => exact new _ _ _ .mul (hx.mean.mul hf hy.mean) fun k => (hy.mean.mul hf (hx.slope k)).add hf (hx.mean.mul hf (hy.slope k))
  | addTo =>
    exact asg _ _ _ .addTo (hx.mean.add hf hy.mean) fun k =>
      (((hx.slope k).scale hf Wk.one).add hf (Wk.one.mul hf (hy.slope k))).congr (by simp [Calc.slope]) (by simp [Calc.slopeSize])
  | subTo =>
    exact asg _ _ _ .subTo (hx.mean.sub hf hy.mean) fun k =>
      (((hx.slope k).scale hf Wk.one).add hf (Wk.one.neg.mul hf (hy.slope k))).congr (by simp [Calc.slope]; ring) (by simp [Calc.slopeSize])
  | mulTo => exact asg _ _ _ .mulTo (hx.mean.mul hf hy.mean) fun k => ((hx.slope k).scale hf hy.mean).add hf (hx.mean.mul hf (hy.slope k))
  | div => simp [BinOp.divides] at ho
  | divTo => simp [BinOp.divides] at ho

theorem tells_run (hf : Ints f N) {g : ℕ → IVar} {env : ℕ → UReal (FP f)} (h : ∀ i, Holds (env i) (g i)) :
    ∀ t : Calc, t.noDiv → ∃ x, t.run env = some x ∧ Tells N g t x
  | .leaf i, _ => ⟨_, rfl, tells_leaf (h i)⟩
  | .un o a, ht => by
    obtain ⟨x, e, hx⟩ := tells_run hf h a ht
    exact ⟨_, by rw [Calc.run, e]; rfl, tells_un hf hx o⟩
  | .bin o a b, ht => by
    obtain ⟨x, e, hx⟩ := tells_run hf h a ht.2.1
    obtain ⟨y, e', hy⟩ := tells_run hf h b ht.2.2
    obtain ⟨z, e'', hz⟩ := tells_bin hf hx hy ht.1
    exact ⟨z, by rw [Calc.run, e, e']; exact e'', hz⟩

/-! ### sums of products -/

theorem dot_wk (hf : Ints f N) {ι : Type*} (l : List ι) (a b : ι → FP f) (n n' : ι → ℤ) (m m' : ι → ℕ) (ha : ∀ i, Wk N (n i) (m i) (a i)) (hb : ∀ i, Wk N (n' i) (m' i) (b i))
    {c : FP f} {p : ℤ} {q : ℕ} (hc : Wk N p q c) :
    Wk N (p + (l.map fun i => n i * n' i).sum) (q + (l.map fun i => m i * m' i).sum) (dot (l.map fun i => (a i, b i)) c) := by
  induction l generalizing c p q with
  | nil => simpa [dot] using hc
  | cons i l ih =>
    have := ih (hc.add hf ((ha i).mul hf (hb i)))
    simp only [List.map_cons, List.sum_cons, ← add_assoc]
    exact this

/-- the stored pairs, by their variables -/
theorem pairs_eq {x y : UReal (FP f)} (hx : x.WF) : pairs x.repr' y.repr' = (x.repr'.keys.filter (· ∈ y.deps)).map fun k => (x.coef k, y.coef k) := by
  have key : ∀ p ∈ x.repr', x.coef p.1 = p.2 := by
    intro p hp
    unfold repr' at hp
    unfold coef
    split_ifs at hp ⊢ with h1 h2 h3
    · simp at hp; rw [hp]
    · simp at hp; rw [hp] at h2; simp at h2
    · rw [SMap.get, SMap.find?_of_mem hx.sorted (show (p.1, p.2) ∈ x.sigma from hp)]; rfl
    · simp at hp
  have hl : ∀ k, SMap.find? y.repr' k = y.lookup k := by
    intro k
    unfold repr' lookup
    split_ifs with h1 h2 h3
    · simp [SMap.find?, h2]
    · simp [SMap.find?]; exact fun h => h2 h.symm
    · rfl
    · rfl
  unfold pairs SMap.keys
  generalize x.repr' = l at key
  induction l with
  | nil => rfl
  | cons p l ih =>
    have ih' := ih fun q hq => key q (List.mem_cons_of_mem _ hq)
    have hp := key p List.mem_cons_self
    rw [List.filterMap_cons, List.map_cons, List.filter_cons, hl]
    cases e : y.lookup p.1 with
    | none =>
      have : p.1 ∉ y.deps := by rw [mem_deps_iff, e]; simp
      simpa [this] using ih'
    | some b =>
      have : p.1 ∈ y.deps := by rw [mem_deps_iff, e]; simp
      simp only [Option.map_some, this, decide_true, if_true, List.map_cons, hp]
      rw [ih', coef_eq_lookup, e]; rfl

theorem slope_off {g : ℕ → IVar} {k : VId} : ∀ {t : Calc}, k ∉ t.ids g → t.slope g k = 0 ∧ t.slopeSize g k = 0
  | .leaf i, h => by
    unfold Calc.ids at h
    unfold Calc.slope Calc.slopeSize
    by_cases h1 : 0 < (g i).id ∧ k = (g i).id
    · rw [if_pos h1.1] at h
      exact absurd (Finset.mem_singleton.2 h1.2) h
    · rw [if_neg h1, if_neg h1]; exact ⟨rfl, rfl⟩
  | .un o a, h => by
    obtain ⟨h1, h2⟩ := slope_off (t := a) h
    cases o <;> simp [Calc.slope, Calc.slopeSize, h1, h2]
  | .bin o a b, h => by
    simp only [Calc.ids, Finset.mem_union, not_or] at h
    obtain ⟨h1, h2⟩ := slope_off (t := a) h.1
    obtain ⟨h3, h4⟩ := slope_off (t := b) h.2
    cases o <;> simp [Calc.slope, Calc.slopeSize, h1, h2, h3, h4]

theorem tells_dot (hf : Ints f N) {g : ℕ → IVar} {s t : Calc} {x y : UReal (FP f)} (hx : Tells N g s x) (hy : Tells N g t y) :
    Wk N (covI g s t) (covSize g s t) (dot (pairs x.repr' y.repr') 0) := by
  rw [pairs_eq hx.wf]
  have hn : x.repr'.keys.Nodup := (repr_sorted hx.wf).nodup
  have hk := repr_keys x
  have sums : ∀ {A : Type} [AddCommMonoid A] (F : VId → A), (∀ k, k ∉ y.deps → F k = 0) →
      ((x.repr'.keys.filter (· ∈ y.deps)).map F).sum = ∑ k ∈ s.ids g, F k := by
    intro A _ F hF
    rw [← hx.deps, ← hk, List.sum_toFinset _ hn]
    generalize x.repr'.keys = l
    induction l with
    | nil => rfl
    | cons k l ih =>
      rw [List.filter_cons, List.map_cons, List.sum_cons, ← ih]
      by_cases h : k ∈ y.deps
      · simp [h]
      · simp [h, hF k h]
  have := dot_wk hf (x.repr'.keys.filter (· ∈ y.deps)) x.coef y.coef _ _ _ _ hx.slope hy.slope Wk.zero
  rw [zero_add, zero_add, sums _ fun k h => ?_, sums _ fun k h => ?_] at this
  · exact this
  · rw [(slope_off (t := t) (by rwa [← hy.deps])).2, mul_zero]
  · rw [(slope_off (t := t) (by rwa [← hy.deps])).1, mul_zero]

end Unc
