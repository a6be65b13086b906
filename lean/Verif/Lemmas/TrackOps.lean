import Verif.Lemmas.TrackCen
import Verif.Lemmas.Dead

/-!
# The number of roundings in the derivatives after an operator
-/

namespace Unc
open Unc.Spec HessGrad SMap Mom Tr

variable {f : Fmt} {u : ℝ} {hu : Acc f.rd u} {κ κ' : ℕ}

/-- the numbers of roundings in a second-order value -/
structure UFew (κ : ℕ) (x : UReal2 (Tr f u hu)) : Prop where
  mu : Few x.mu κ
  hg : HFew 0 κ x.hg

theorem HFew.of_find {hg : HessGrad (Tr f u hu)} (hv : hg.Valid) (h1 : ∀ i d, find? hg.diagmap i = some d → DFew 0 κ d)
    (h2 : ∀ a b, a < b → ∀ v, find? hg.trimap (toLex (a, b)) = some v → Few v κ) : HFew 0 κ hg := by
  refine ⟨fun p hp => h1 p.1 p.2 (find?_of_mem hv.dsorted hp), fun p hp => ?_⟩
  have hf := find?_of_mem hv.tsorted hp
  have := hv.tri (ofLex p.1).1 (ofLex p.1).2 (List.mem_map.2 ⟨p, hp, rfl⟩)
  exact h2 _ _ this.1 p.2 hf

theorem HFew.find_diag {hg : HessGrad (Tr f u hu)} (h : HFew 0 κ hg) {i : VId} {d : Diag (Tr f u hu)} (hd : find? hg.diagmap i = some d) : DFew 0 κ d :=
  h.diag _ (find?_some_mem hd)

theorem HFew.find_H {hg : HessGrad (Tr f u hu)} (h : HFew 0 κ hg) {a b : VId} (hab : a < b) : Few ((find? hg.trimap (toLex (a, b))).getD 0) κ := by
  cases hf : find? hg.trimap (toLex (a, b)) with
  | none => exact few_zero _
  | some v => exact h.tri _ (find?_some_mem hf)

/-! ## after the loop over the second derivatives -/

theorem hProc_few {fx fy : Tr f u hu} {K : ℕ} : ∀ (o : Option (Tr f u hu)) (ex ey : List (Ent (Tr f u hu))), (∀ e ∈ ex, Few (fx * e.val) K) → (∀ e ∈ ey, Few (fy * e.val) K) →
    (∀ v, o = some v → Few v (K + 1)) → ∀ v, hProc fx fy 0 0 o ex ey = some v → Few v (K + 1) := by
  intro o ex ey hx hy ho v hv
  induction hn : ex.length + ey.length using Nat.strong_induction_on generalizing o ex ey with
  | _ n ih =>
  match ex, ey, hx, hy, hn, hv with
  | [], [], hx, hy, hn, hv =>
    rw [hProc] at hv
    exact ho v hv
  | e :: ex, [], hx, hy, hn, hv =>
    rw [hProc] at hv
    refine ih _ (by subst hn; simp) _ ex [] (fun a ha => hx a (List.mem_cons_of_mem _ ha)) hy ?_ hv rfl
    rintro _ ⟨⟩
    exact few_zero2_add ((hx e (by simp)).mono (Nat.le_succ _))
  | [], e :: ey, hx, hy, hn, hv =>
    rw [hProc] at hv
    refine ih _ (by subst hn; simp) _ [] ey hx (fun a ha => hy a (List.mem_cons_of_mem _ ha)) ?_ hv rfl
    rintro _ ⟨⟩
    exact Few.add (few_add_zero2 (few_zero K)) (hy e (by simp))
  | e :: ex, e' :: ey, hx, hy, hn, hv =>
    rw [hProc] at hv
    refine ih _ (by subst hn; simp; omega) _ ex ey (fun a ha => hx a (List.mem_cons_of_mem _ ha)) (fun a ha => hy a (List.mem_cons_of_mem _ ha)) ?_ hv rfl
    rintro _ ⟨⟩
    exact Few.add (few_add_zero2 (few_zero2_add (hx e (by simp)))) (hy e' (by simp))

theorem entsAt_few {x : HessGrad (Tr f u hu)} (hx : x.Valid) (h : HFew 0 κ x) {skip : Bool} {a b : VId} (hab : a < b) {e : Ent (Tr f u hu)} (he : e ∈ entsAt skip x a b) :
    Few e.val κ := by
  haveI : One (Tr f u hu) := ⟨0⟩
  haveI : Neg (Tr f u hu) := ⟨fun a => a⟩
  haveI : Div (Tr f u hu) := ⟨fun a _ => a⟩
  haveI : CCmp (Tr f u hu) := ⟨fun _ _ => false, fun _ _ => false, fun _ _ => false⟩
  obtain ⟨h1, h2⟩ := List.mem_filter.1 he
  obtain ⟨rfl, rfl⟩ := key_eq_iff.1 (of_decide_eq_true h2)
  rcases hessSpec_val skip _ _ _ hx.dsorted hx.triOf hx.tsorted e h1 hab with h0 | h0
  · rw [h0]; exact few_zero _
  · exact h.tri _ h0

/-- the first loop of `binary` when the unmixed second derivatives are zero -/
theorem loop_few (v : Moments (Tr f u hu)) {x y : HessGrad (Tr f u hu)} (hx : x.Valid) (hy : y.Valid) (bx : x.Below) (by' : y.Below) (sx sy : Bool) {fx fy : Tr f u hu} {K : ℕ}
    (gx : HFew 0 κ x) (gy : HFew 0 κ' y) (px : ∀ a, Few a κ → Few (fx * a) K) (py : ∀ a, Few a κ' → Few (fy * a) K) :
    ∃ z, UReal2.binaryLoop v fx fy 0 0 HessGrad.empty (hessSpec sx x.dOf x.diagmap x.trimap) (hessSpec sy y.dOf y.diagmap y.trimap) = some z ∧ z.Valid ∧
      (∀ i, i ∈ keys z.diagmap ↔ i ∈ keys x.diagmap ∨ i ∈ keys y.diagmap) ∧ HFew 0 (K + 1) z := by
  haveI : One (Tr f u hu) := ⟨0⟩
  haveI : Neg (Tr f u hu) := ⟨fun a => a⟩
  haveI : Div (Tr f u hu) := ⟨fun a _ => a⟩
  haveI : CCmp (Tr f u hu) := ⟨fun _ _ => false, fun _ _ => false, fun _ _ => false⟩
  obtain ⟨z, e, vz, d, t⟩ := binaryLoop_cells v hx hy bx by' sx sy fx fy 0 0
  refine ⟨z, e, vz, fun i => ?_, HFew.of_find vz (fun i di hi => ?_) fun a b hab w hw => ?_⟩
  · rw [← find?_isSome, ← find?_isSome, ← find?_isSome, d]
    cases find? x.diagmap i <;> cases find? y.diagmap i <;> simp [diagMerge]
  · rw [d] at hi
    cases h1 : find? x.diagmap i with
    | none =>
      cases h2 : find? y.diagmap i with
      | none => rw [h1, h2] at hi; exact nomatch hi
      | some b =>
        rw [h1, h2] at hi
        obtain ⟨g, h, v3, v4, v5, v6, v7, v8⟩ := gy.find_diag h2
        cases hi
        exact ⟨(few_zero K).add (py _ g), Few.add (few_add_zero2 (few_zero K)) (py _ h), v3, v4, v5, v6, v7, v8⟩
    | some a =>
      obtain ⟨g, h, v3, v4, v5, v6, v7, v8⟩ := gx.find_diag h1
      cases h2 : find? y.diagmap i with
      | none =>
        rw [h1, h2] at hi
        cases hi
        exact ⟨(px _ g).mono (Nat.le_succ _), few_zero2_add ((px _ h).mono (Nat.le_succ _)), v3, v4, v5, v6, v7, v8⟩
      | some b =>
        rw [h1, h2] at hi
        obtain ⟨g', h', -⟩ := gy.find_diag h2
        cases hi
        exact ⟨(px _ g).add (py _ g'), Few.add (few_add_zero2 (few_zero2_add (px _ h))) (py _ h'), v3, v4, v5, v6, v7, v8⟩
  · rw [t a b hab] at hw
    exact hProc_few none _ _ (fun e he => px _ (entsAt_few hx gx hab he)) (fun e he => py _ (entsAt_few hy gy hab he)) (by rintro _ ⟨⟩) w hw

/-! ## after the loops over the mixed derivatives -/

/-- the mixed derivatives over a list of pairs -/
theorem mixed_few (v : Moments (Tr f u hu)) {h : Tr f u hu} {D : ℕ} : ∀ (l : List ((VId × Diag (Tr f u hu)) × (VId × Diag (Tr f u hu)))) {res z : HessGrad (Tr f u hu)}, res.Valid →
    (∀ p ∈ l, p.1.1 ∈ keys res.diagmap ∧ p.2.1 ∈ keys res.diagmap ∧ Few (h * p.1.2.grad * p.2.2.grad) D) →
    l.foldlM (fun res p => UReal2.mixedStep v h res p.1 p.2) res = some z → z.Valid ∧
      (∀ i d, find? z.diagmap i = some d → ∃ d0, find? res.diagmap i = some d0 ∧ d.grad = d0.grad ∧ d.mom = d0.mom ∧
        ∀ K, D + 2 ≤ K → Few d0.hhess K → Few d.hhess (K + l.countP fun p => decide (p.1.1 = i ∧ p.2.1 = i))) ∧
      ∀ a b, a < b → ∀ K, D ≤ K → Few ((find? res.trimap (toLex (a, b))).getD 0) K →
        Few ((find? z.trimap (toLex (a, b))).getD 0) (K + l.countP fun p => decide (a = min p.1.1 p.2.1 ∧ b = max p.1.1 p.2.1))
  | [], res, z, hv, _, e => by
    simp only [List.foldlM_nil, Option.pure_def, Option.some_inj] at e
    subst e
    exact ⟨hv, fun i d hd => ⟨d, hd, rfl, rfl, fun K _ hK => hK⟩, fun a b _ K _ hK => hK⟩
  | p :: l, res, z, hv, hl, e => by
    haveI : One (Tr f u hu) := ⟨0⟩
    haveI : Neg (Tr f u hu) := ⟨fun a => a⟩
    haveI : Div (Tr f u hu) := ⟨fun a _ => a⟩
    haveI : CCmp (Tr f u hu) := ⟨fun _ _ => false, fun _ _ => false, fun _ _ => false⟩
    obtain ⟨k1, k2, few⟩ := hl p (by simp)
    obtain ⟨r, hr, vr, dr, tr⟩ := mixedStep_spec v h hv k1 k2
    rw [List.foldlM_cons, hr] at e
    have keys_r : ∀ i, i ∈ keys res.diagmap → i ∈ keys r.diagmap := fun i hi => by
      rw [← find?_isSome] at hi ⊢
      rw [dr, Option.isSome_map]; exact hi
    obtain ⟨vz, dz, tz⟩ := mixed_few v l vr (fun q hq => by
      obtain ⟨a, b, c⟩ := hl q (List.mem_cons_of_mem _ hq)
      exact ⟨keys_r _ a, keys_r _ b, c⟩) e
    refine ⟨vz, fun i d hd => ?_, fun a b hab K hK hf => ?_⟩
    · obtain ⟨d1, h1, g1, m1, f1⟩ := dz i d hd
      rw [dr] at h1
      obtain ⟨d0, h0, e0⟩ := Option.map_eq_some_iff.1 h1
      refine ⟨d0, h0, ?_, ?_, fun K hK hf => ?_⟩
      · rw [g1, ← e0]; split_ifs <;> rfl
      · rw [m1, ← e0]; split_ifs <;> rfl
      · rw [List.countP_cons]
        by_cases hi : i = p.1.1 ∧ i = p.2.1
        · rw [if_pos hi] at e0
          rw [if_pos (by simp [← hi.1, ← hi.2])]
          have : Few d1.hhess (K + 1) := by
            rw [← e0]
            exact hf.step ((few_lit 2).mul few) (by omega)
          exact (f1 (K + 1) (by omega) this).mono (by omega)
        · rw [if_neg hi] at e0
          have : Few d1.hhess K := by rw [← e0]; exact hf
          exact (f1 K hK this).mono (by omega)
    · rw [List.countP_cons]
      by_cases hi : a = min p.1.1 p.2.1 ∧ b = max p.1.1 p.2.1
      · rw [if_pos (by simpa using hi)]
        have : Few ((find? r.trimap (toLex (a, b))).getD 0) (K + 1) := by
          rw [tr a b hab, if_pos hi]
          exact hf.step few hK
        exact (tz a b hab (K + 1) (by omega) this).mono (by omega)
      · have : Few ((find? r.trimap (toLex (a, b))).getD 0) K := by
          rw [tr a b hab, if_neg hi]
          exact hf
        exact (tz a b hab K hK this).mono (by omega)

theorem foldlM_product {α β γ : Type*} (g : γ → α → β → Option γ) (y : List β) : ∀ (x : List α) (r : γ),
    x.foldlM (fun r a => y.foldlM (fun r b => g r a b) r) r = (x.flatMap fun a => y.map fun b => (a, b)).foldlM (fun r p => g r p.1 p.2) r
  | [], r => rfl
  | a :: x, r => by
    rw [List.flatMap_cons, List.foldlM_append, List.foldlM_cons, List.foldlM_map]
    congr 1
    funext r
    exact foldlM_product g y x r

theorem count_key {α : Type*} {x : SMap VId α} (hx : Sorted x) (a : VId) (q : VId × α → Bool) : (x.countP fun p => decide (p.1 = a) && q p) ≤ 1 := by
  induction x with
  | nil => simp
  | cons p t ih =>
    obtain ⟨h1, h2⟩ := sorted_cons.1 hx
    rw [List.countP_cons]
    split_ifs with hp
    · have : t.countP (fun p => decide (p.1 = a) && q p) = 0 := by
        rw [List.countP_eq_zero]
        intro r hr hr'
        simp only [Bool.and_eq_true, decide_eq_true_eq] at hp hr'
        have := h1 r.1 (List.mem_map.2 ⟨r, hr, rfl⟩)
        rw [hp.1, hr'.1] at this
        exact lt_irrefl _ this
      omega
    · exact ih h2

theorem count_pair {α β : Type*} {x : SMap VId α} {y : SMap VId β} (hx : Sorted x) (hy : Sorted y) (a b : VId) :
    ((x.flatMap fun p => y.map fun q => (p, q)).countP fun p => decide (p.1.1 = a ∧ p.2.1 = b)) ≤ 1 := by
  induction x with
  | nil => simp
  | cons p t ih =>
    obtain ⟨h1, h2⟩ := sorted_cons.1 hx
    rw [List.flatMap_cons, List.countP_append, List.countP_map]
    by_cases hp : p.1 = a
    · have e1 : (t.flatMap fun p => y.map fun q => (p, q)).countP (fun p => decide (p.1.1 = a ∧ p.2.1 = b)) = 0 := by
        rw [List.countP_eq_zero]
        rintro ⟨r, s⟩ hr hr'
        obtain ⟨r', hr1, hr2⟩ := List.mem_flatMap.1 hr
        obtain ⟨s', -, e⟩ := List.mem_map.1 hr2
        cases e
        simp only [decide_eq_true_eq] at hr'
        have := h1 r.1 (List.mem_map.2 ⟨r, hr1, rfl⟩)
        rw [hp, hr'.1] at this
        exact lt_irrefl _ this
      have e2 := count_key hy b fun _ => true
      have e3 : y.countP ((fun p : (VId × α) × (VId × β) => decide (p.1.1 = a ∧ p.2.1 = b)) ∘ fun q => (p, q)) = y.countP fun q => decide (q.1 = b) && true := by
        refine List.countP_congr fun q _ => ?_
        simp [hp]
      omega
    · have e3 : y.countP ((fun p : (VId × α) × (VId × β) => decide (p.1.1 = a ∧ p.2.1 = b)) ∘ fun q => (p, q)) = 0 := by
        rw [List.countP_eq_zero]
        intro q _
        simp [hp]
      have := ih h2
      omega

theorem count_pair2 {α β : Type*} {x : SMap VId α} {y : SMap VId β} (hx : Sorted x) (hy : Sorted y) (a b : VId) :
    ((x.flatMap fun p => y.map fun q => (p, q)).countP fun p => decide (a = min p.1.1 p.2.1 ∧ b = max p.1.1 p.2.1)) ≤ 2 := by
  have h1 := count_pair hx hy a b
  have h2 := count_pair hx hy b a
  generalize (x.flatMap fun p => y.map fun q => (p, q)) = l at h1 h2 ⊢
  have : l.countP (fun p => decide (a = min p.1.1 p.2.1 ∧ b = max p.1.1 p.2.1)) ≤
      l.countP (fun p => decide (p.1.1 = a ∧ p.2.1 = b)) + l.countP fun p => decide (p.1.1 = b ∧ p.2.1 = a) := by
    clear h1 h2
    induction l with
    | nil => simp
    | cons p t ih =>
      simp only [List.countP_cons]
      have : (if decide (a = min p.1.1 p.2.1 ∧ b = max p.1.1 p.2.1) = true then 1 else 0) ≤
          (if decide (p.1.1 = a ∧ p.2.1 = b) = true then 1 else 0) + if decide (p.1.1 = b ∧ p.2.1 = a) = true then 1 else 0 := by
        by_cases hp : a = min p.1.1 p.2.1 ∧ b = max p.1.1 p.2.1
        · rcases le_total p.1.1 p.2.1 with h | h
          · rw [min_eq_left h, max_eq_right h] at hp
            rw [if_pos (c := decide (p.1.1 = a ∧ p.2.1 = b) = true) (by simp [hp.1, hp.2])]
            split_ifs <;> omega
          · rw [min_eq_right h, max_eq_left h] at hp
            rw [if_pos (c := decide (p.1.1 = b ∧ p.2.1 = a) = true) (by simp [hp.1, hp.2])]
            split_ifs <;> omega
        · simp [hp]
      omega
  omega

theorem mixedLoop_few (v : Moments (Tr f u hu)) {h : Tr f u hu} {x y : SMap VId (Diag (Tr f u hu))} (hx : Sorted x) (hy : Sorted y) {D K : ℕ} {res z : HessGrad (Tr f u hu)} (hv : res.Valid)
    (kx : ∀ i ∈ keys x, i ∈ keys res.diagmap) (ky : ∀ i ∈ keys y, i ∈ keys res.diagmap) (hf : ∀ p ∈ x, ∀ q ∈ y, Few (h * p.2.grad * q.2.grad) D) (hr : HFew 0 K res) (hD : D ≤ K)
    (e : UReal2.mixedLoop v h res x y = some z) : z.Valid ∧ HFew 0 (K + 3) z := by
  unfold UReal2.mixedLoop at e
  rw [foldlM_product (fun res px py => UReal2.mixedStep v h res px py)] at e
  obtain ⟨vz, dz, tz⟩ := mixed_few v _ hv (D := D) (fun p hp => by
    obtain ⟨a, ha, hp⟩ := List.mem_flatMap.1 hp
    obtain ⟨b, hb, rfl⟩ := List.mem_map.1 hp
    exact ⟨kx _ (List.mem_map.2 ⟨a, ha, rfl⟩), ky _ (List.mem_map.2 ⟨b, hb, rfl⟩), hf a ha b hb⟩) e
  refine ⟨vz, HFew.of_find vz (fun i d hd => ?_) fun a b hab w hw => ?_⟩
  · obtain ⟨d0, h0, g, m, fh⟩ := dz i d hd
    obtain ⟨g0, hh0, v3, v4, v5, v6, v7, v8⟩ := hr.find_diag h0
    have c := count_pair hx hy i i
    exact ⟨by rw [g]; exact g0.mono (by omega), (fh (K + 2) (by omega) (hh0.mono (by omega))).mono (by omega), by rw [m]; exact v3, by rw [m]; exact v4, by rw [m]; exact v5, by rw [m]; exact v6,
      by rw [m]; exact v7, by rw [m]; exact v8⟩
  · have c := count_pair2 hx hy a b
    have := tz a b hab K (by omega) (hr.find_H hab)
    rw [hw] at this
    exact this.mono (by omega)

/-! ## the operators -/

/-- the operators, with the half of one given -/
theorem binaryG_few (v : Moments (Tr f u hu)) {x y z : UReal2 (Tr f u hu)} (hx : Ok2 x) (hy : Ok2 y) {m fx fy h : Tr f u hu} {sxy : Bool} {K : ℕ}
    (gx : HFew 0 κ x.hg) (gy : HFew 0 κ' y.hg) (px : ∀ a, Few a κ → Few (fx * a) K) (py : ∀ a, Few a κ' → Few (fy * a) K) (hm : Few m (K + 1)) (hh : sxy = false → Few h 0)
    (hK : κ + κ' + 1 ≤ K ∨ sxy = true) (e : binaryG true true sxy v x y m fx fy 0 0 h = some z) : UFew (K + if sxy then 1 else 4) z := by
  unfold binaryG at e
  rw [hessEntries_eq _ hx.valid, hessEntries_eq _ hy.valid, Option.bind_some, Option.bind_some] at e
  obtain ⟨r, hr, vr, kr, fr⟩ := loop_few v hx.valid hy.valid hx.below hy.below true true gx gy px py
  rw [hr, Option.bind_some] at e
  obtain ⟨hg, h1, rfl⟩ := Option.map_eq_some_iff.1 e
  cases sxy with
  | true =>
    obtain rfl : r = hg := by simpa using h1
    exact ⟨hm, fr⟩
  | false =>
    have hK := hK.resolve_right (by simp)
    have := mixedLoop_few v hx.valid.dsorted hy.valid.dsorted (D := κ + κ' + 2) (K := K + 1) vr (fun i hi => (kr i).2 (Or.inl hi)) (fun i hi => (kr i).2 (Or.inr hi))
      (fun p hp q hq => ((((hh rfl).mul (gx.diag p hp).g).mul (gy.diag q hq).g)).mono (by omega)) fr (by omega) h1
    exact ⟨hm.mono (by simp), this.2⟩

end Unc
