import Verif.Lemmas.Track

/-!
# The number of roundings in the computation of the moments
-/

namespace Unc
open Unc.Spec HessGrad SMap Mom Tr

variable {f : Fmt} {u : ℝ} {hu : Acc f.rd u}

/-- the numbers of roundings in the data of a variable -/
structure DFew (μ κ : ℕ) (d : Diag (Tr f u hu)) : Prop where
  g : Few d.grad κ
  h : Few d.hhess κ
  v3 : Few d.mom.v3 μ
  v4 : Few d.mom.v4 μ
  v5 : Few d.mom.v5 μ
  v6 : Few d.mom.v6 μ
  v7 : Few d.mom.v7 μ
  v8 : Few d.mom.v8 μ

/-- the numbers of roundings in the data of a pair of variables -/
structure EFew (μ κ : ℕ) (e : Ent (Tr f u hu)) : Prop where
  d1 : DFew μ κ e.d1
  d2 : DFew μ κ e.d2
  val : Few e.val κ

/-- the numbers of roundings in the derivatives -/
structure HFew (μ κ : ℕ) (hg : HessGrad (Tr f u hu)) : Prop where
  diag : ∀ p ∈ hg.diagmap, DFew μ κ p.2
  tri : ∀ p ∈ hg.trimap, Few p.2 κ

/-- a product of factors with known numbers of roundings -/
macro "few" : tactic => `(tactic| (repeat' (first | exact few_lit _ | with_reducible assumption | with_reducible apply Few.mul)))

/-- one more term -/
macro "fstep" : tactic => `(tactic| (apply Few.step; (on_goal 2 => few); (on_goal 2 => omega)))

variable {κ μ : ℕ}

theorem m2A_few {m : Tr f u hu} {d : Diag (Tr f u hu)} (hd : DFew μ κ d) {K : ℕ} (hm : Few m K) (hK : 2 * κ + 2 * μ + 6 ≤ K) : Few (m2A m d) (K + 3) := by
  obtain ⟨g, h, v3, v4, v5, v6, v7, v8⟩ := hd
  simp only [m2A]
  repeat fstep
  exact hm

theorem m2B_few {m : Tr f u hu} {e : Ent (Tr f u hu)} (he : EFew μ κ e) {K : ℕ} (hm : Few m K) (hK : 2 * κ + 2 * μ + 6 ≤ K) : Few (m2B m e) (K + 1) := by
  obtain ⟨⟨g, h, v3, v4, v5, v6, v7, v8⟩, ⟨g', h', v3', v4', v5', v6', v7', v8'⟩, hv⟩ := he
  simp only [m2B]
  have h1 : Few (e.d1.hhess * e.d2.hhess) (2 * κ + 3) := (h.mul h').mono (by omega)
  have h2 : Few (lit 2 * e.val * e.val) (2 * κ + 3) := (((few_lit 2).mul hv).mul hv).mono (by omega)
  exact hm.step ((few_lit 2).mul (h1.add h2)) (by omega)

theorem m3A_few {m : Tr f u hu} {d : Diag (Tr f u hu)} (hd : DFew μ κ d) {K : ℕ} (hm : Few m K) (hK : 3 * κ + 2 * μ + 6 ≤ K) : Few (m3A m d) (K + 4) := by
  obtain ⟨g, h, v3, v4, v5, v6, v7, v8⟩ := hd
  simp only [m3A]
  repeat fstep
  exact hm

theorem m3B_few {m : Tr f u hu} {d d' : Diag (Tr f u hu)} (hd : DFew μ κ d) (hd' : DFew μ κ d') {K : ℕ} (hm : Few m K) (hK : 3 * κ + 2 * μ + 6 ≤ K) : Few (m3B m d d') (K + 6) := by
  obtain ⟨g, h, v3, v4, v5, v6, v7, v8⟩ := hd
  obtain ⟨g', h', v3', v4', v5', v6', v7', v8'⟩ := hd'
  simp only [m3B]
  repeat fstep
  exact hm

theorem m3C_few {m : Tr f u hu} {d d' d'' : Diag (Tr f u hu)} (hd : DFew μ κ d) (hd' : DFew μ κ d') (hd'' : DFew μ κ d'') {K : ℕ} (hm : Few m K) (hK : 3 * κ + 2 * μ + 6 ≤ K) :
    Few (m3C m d d' d'') (K + 1) := by
  have h1 := hd.h; have h2 := hd'.h; have h3 := hd''.h
  simp only [m3C]
  repeat fstep
  exact hm

theorem m3F_few {m : Tr f u hu} {it : VId × Diag (Tr f u hu)} {e : Ent (Tr f u hu)} (hd : DFew μ κ it.2) (he : EFew μ κ e) {K : ℕ} (hm : Few m K) (hK : 3 * κ + 2 * μ + 6 ≤ K) :
    Few (m3F m it e) (K + 1) := by
  have h1 := hd.h; have h2 := he.val
  simp only [m3F]
  split_ifs
  · exact hm.mono (by omega)
  · repeat fstep
    exact hm

theorem m3D_few {m : Tr f u hu} {e : Ent (Tr f u hu)} (he : EFew μ κ e) {K : ℕ} (hm : Few m K) (hK : 3 * κ + 2 * μ + 6 ≤ K) : Few (m3D m e) (K + 9) := by
  obtain ⟨⟨g, h, v3, v4, v5, v6, v7, v8⟩, ⟨g', h', v3', v4', v5', v6', v7', v8'⟩, hv⟩ := he
  simp only [m3D]
  repeat fstep
  exact hm

theorem m4A_few {m : Tr f u hu} {d : Diag (Tr f u hu)} (hd : DFew μ κ d) {K : ℕ} (hm : Few m K) (hK : 4 * κ + 2 * μ + 7 ≤ K) : Few (m4A m d) (K + 5) := by
  obtain ⟨g, h, v3, v4, v5, v6, v7, v8⟩ := hd
  simp only [m4A]
  repeat fstep
  exact hm

theorem m4B_few {m : Tr f u hu} {d d' : Diag (Tr f u hu)} (hd : DFew μ κ d) (hd' : DFew μ κ d') {K : ℕ} (hm : Few m K) (hK : 4 * κ + 2 * μ + 7 ≤ K) : Few (m4B m d d') (K + 10) := by
  obtain ⟨g, h, v3, v4, v5, v6, v7, v8⟩ := hd
  obtain ⟨g', h', v3', v4', v5', v6', v7', v8'⟩ := hd'
  simp only [m4B]
  repeat fstep
  exact hm

theorem m4C_few {m : Tr f u hu} {d d' d'' : Diag (Tr f u hu)} (hd : DFew μ κ d) (hd' : DFew μ κ d') (hd'' : DFew μ κ d'') {K : ℕ} (hm : Few m K) (hK : 4 * κ + 2 * μ + 7 ≤ K) :
    Few (m4C m d d' d'') (K + 4) := by
  obtain ⟨g, h, v3, v4, v5, v6, v7, v8⟩ := hd
  obtain ⟨g', h', -, -, -, -, -, -⟩ := hd'
  obtain ⟨g'', h'', -, -, -, -, -, -⟩ := hd''
  simp only [m4C]
  repeat fstep
  exact hm

theorem m4D_few {m : Tr f u hu} {d d' d'' d3 : Diag (Tr f u hu)} (hd : DFew μ κ d) (hd' : DFew μ κ d') (hd'' : DFew μ κ d'') (hd3 : DFew μ κ d3) {K : ℕ} (hm : Few m K)
    (hK : 4 * κ + 2 * μ + 7 ≤ K) : Few (m4D m d d' d'' d3) (K + 1) := by
  have h1 := hd.h; have h2 := hd'.h; have h3 := hd''.h; have h4 := hd3.h
  simp only [m4D]
  repeat fstep
  exact hm

theorem m4F_few {m : Tr f u hu} {it : VId × Diag (Tr f u hu)} {e : Ent (Tr f u hu)} (hd : DFew μ κ it.2) (he : EFew μ κ e) {K : ℕ} (hm : Few m K) (hK : 4 * κ + 2 * μ + 7 ≤ K) :
    Few (m4F m it e) (K + 12) := by
  obtain ⟨⟨g, h, v3, v4, v5, v6, v7, v8⟩, ⟨g', h', v3', v4', v5', v6', v7', v8'⟩, hv⟩ := he
  obtain ⟨g0, h0, v30, v40, v50, v60, v70, v80⟩ := hd
  simp only [m4F]
  split_ifs
  · exact hm.mono (by omega)
  · repeat fstep
    exact hm

theorem m4E_few {m : Tr f u hu} {e : Ent (Tr f u hu)} (he : EFew μ κ e) {K : ℕ} (hm : Few m K) (hK : 4 * κ + 2 * μ + 7 ≤ K) : Few (m4E m e) (K + 27) := by
  obtain ⟨⟨g, h, v3, v4, v5, v6, v7, v8⟩, ⟨g', h', v3', v4', v5', v6', v7', v8'⟩, hv⟩ := he
  simp only [m4E]
  repeat fstep
  exact hm

theorem m4G2_few {m : Tr f u hu} {e : Ent (Tr f u hu)} {d : Diag (Tr f u hu)} {a : Tr f u hu} (he : EFew μ κ e) (hd : DFew μ κ d) (ha : Few a κ) {K : ℕ} (hm : Few m K)
    (hK : 4 * κ + 2 * μ + 7 ≤ K) : Few (m4G2 m e d a) (K + 6) := by
  obtain ⟨⟨g, h, v3, v4, v5, v6, v7, v8⟩, ⟨g', h', v3', v4', v5', v6', v7', v8'⟩, hv⟩ := he
  obtain ⟨g0, h0, v30, v40, v50, v60, v70, v80⟩ := hd
  simp only [m4G2]
  repeat fstep
  exact hm

theorem m4G3_few {m : Tr f u hu} {e : Ent (Tr f u hu)} {d : Diag (Tr f u hu)} {a : Tr f u hu} (he : EFew μ κ e) (hd : DFew μ κ d) (ha : Few a κ) {K : ℕ} (hm : Few m K)
    (hK : 4 * κ + 2 * μ + 7 ≤ K) : Few (m4G3 m e d a) (K + 6) := by
  obtain ⟨⟨g, h, v3, v4, v5, v6, v7, v8⟩, ⟨g', h', v3', v4', v5', v6', v7', v8'⟩, hv⟩ := he
  obtain ⟨g0, h0, v30, v40, v50, v60, v70, v80⟩ := hd
  simp only [m4G3]
  repeat fstep
  exact hm

theorem m4H_few {m : Tr f u hu} {e : Ent (Tr f u hu)} {a b : Tr f u hu} (he : EFew μ κ e) (ha : Few a κ) (hb : Few b κ) {K : ℕ} (hm : Few m K) (hK : 4 * κ + 2 * μ + 7 ≤ K) :
    Few (m4H m e a b) (K + 6) := by
  obtain ⟨⟨g, h, v3, v4, v5, v6, v7, v8⟩, ⟨g', h', v3', v4', v5', v6', v7', v8'⟩, hv⟩ := he
  simp only [m4H]
  repeat fstep
  exact hm

theorem m4J_few {m : Tr f u hu} {e : Ent (Tr f u hu)} {k : VId} {a b : Tr f u hu} {it : VId × Diag (Tr f u hu)} (he : EFew μ κ e) (ha : Few a κ) (hb : Few b κ)
    (hd : DFew μ κ it.2) {K : ℕ} (hm : Few m K) (hK : 4 * κ + 2 * μ + 7 ≤ K) : Few (m4J m e k a b it) (K + 1) := by
  have h1 := he.val; have h2 := hd.h
  simp only [m4J]
  split_ifs
  · exact hm.mono (by omega)
  · repeat fstep
    exact hm

theorem m4L_few {m : Tr f u hu} {e : Ent (Tr f u hu)} {d : Diag (Tr f u hu)} {it : VId × Diag (Tr f u hu)} (he : EFew μ κ e) (hd : DFew μ κ d) (hd' : DFew μ κ it.2) {K : ℕ}
    (hm : Few m K) (hK : 4 * κ + 2 * μ + 7 ≤ K) : Few (m4L m e d it) (K + 1) := by
  have h1 := he.val; have h2 := hd.h; have h3 := hd'.h
  simp only [m4L]
  split_ifs
  · exact hm.mono (by omega)
  · repeat fstep
    exact hm

/-! ## loops -/

theorem foldl_few {α : Type*} {g : Tr f u hu → α → Tr f u hu} {c D : ℕ} :
    ∀ (l : List α), (∀ a ∈ l, ∀ m K, Few m K → D ≤ K → Few (g m a) (K + c)) → ∀ m K, Few m K → D ≤ K → Few (l.foldl g m) (K + l.length * c)
  | [], _, m, K, hm, _ => by simpa using hm
  | a :: l, h, m, K, hm, hK => by
    have := foldl_few l (fun b hb => h b (List.mem_cons_of_mem _ hb)) _ _ (h a (by simp) m K hm hK) (by omega)
    rw [List.foldl_cons, List.length_cons, Nat.succ_mul]
    exact this.mono (by omega)

theorem forTails_few {α : Type*} {g : Tr f u hu → α → List α → Tr f u hu} {c D : ℕ} :
    ∀ (l : List α), (∀ a ∈ l, ∀ t, t <:+ l → ∀ m K, Few m K → D ≤ K → Few (g m a t) (K + c)) → ∀ m K, Few m K → D ≤ K → Few (forTails g m l) (K + l.length * c)
  | [], _, m, K, hm, _ => by simpa [forTails] using hm
  | a :: l, h, m, K, hm, hK => by
    have := forTails_few l (fun b hb t ht => h b (List.mem_cons_of_mem _ hb) t (ht.trans (List.suffix_cons a l))) _ _ (h a (by simp) l (List.suffix_cons a l) m K hm hK) (by omega)
    rw [forTails, List.length_cons, Nat.succ_mul]
    exact this.mono (by omega)

theorem m1_few {hg : HessGrad (Tr f u hu)} (h : HFew μ κ hg) : Few (m1 hg) (κ + hg.diagmap.length) := by
  have := foldl_few (c := 1) (D := κ) hg.diagmap (g := fun m it => m + it.2.hhess) (fun p hp m K hm hK => hm.step (h.diag p hp).h hK) 0 κ (few_zero κ) le_rfl
  rw [mul_one] at this
  exact this

theorem dOf_few {hg : HessGrad (Tr f u hu)} (h : HFew μ κ hg) {i : VId} (hi : i ∈ keys hg.diagmap) : DFew μ κ (hg.dOf i) :=
  h.diag (i, hg.dOf i) (find?_some_mem (find_dOf hi))

theorem entries_few {hg : HessGrad (Tr f u hu)} (hv : hg.Valid) (h : HFew μ κ hg) {e : Ent (Tr f u hu)} (he : e ∈ hg.trimap.map (entOf hg.dOf)) : EFew μ κ e := by
  obtain ⟨p, hp, rfl⟩ := List.mem_map.1 he
  have := hv.tri (ofLex p.1).1 (ofLex p.1).2 (List.mem_map_of_mem (f := Prod.fst) hp)
  exact ⟨dOf_few h this.2.1, dOf_few h this.2.2, h.tri p hp⟩

theorem pairsFrom_mem {α : Type*} : ∀ {l : List α} {p : α × α}, p ∈ pairsFrom l → p.1 ∈ l ∧ p.2 ∈ l
  | [], p, h => by simp [pairsFrom] at h
  | a :: t, p, h => by
    rw [pairsFrom, List.mem_append] at h
    rcases h with h | h
    · obtain ⟨b, hb, rfl⟩ := List.mem_map.1 h
      exact ⟨by simp, by simp [hb]⟩
    · have := pairsFrom_mem h
      exact ⟨List.mem_cons_of_mem _ this.1, List.mem_cons_of_mem _ this.2⟩

theorem pair_few {hg : HessGrad (Tr f u hu)} (h : HFew μ κ hg) {e : Ent (Tr f u hu)} (he : e ∈ (pairsFrom hg.diagmap).map (entPair hg.trimap)) : EFew μ κ e := by
  obtain ⟨p, hp, rfl⟩ := List.mem_map.1 he
  obtain ⟨h1, h2⟩ := pairsFrom_mem hp
  refine ⟨h.diag _ h1, h.diag _ h2, ?_⟩
  simp only [entPair, SMap.get]
  cases hf : find? hg.trimap (toLex (p.1.1, p.2.1)) with
  | none => exact few_zero _
  | some v => exact h.tri _ (find?_some_mem hf)

theorem m2_few {hg : HessGrad (Tr f u hu)} (hv : hg.Valid) (h : HFew μ κ hg) {m : Tr f u hu} (hm : m2 hg = some m) :
    Few m (2 * κ + 2 * μ + 6 + hg.diagmap.length * 3 + (pairsFrom hg.diagmap).length) := by
  rw [m2, triEntries_full hg hv, Option.map_some, Option.some_inj] at hm
  subst hm
  have h1 : Few (hg.diagmap.foldl (fun m it => m2A m it.2) 0) (2 * κ + 2 * μ + 6 + hg.diagmap.length * 3) :=
    foldl_few (c := 3) (D := 2 * κ + 2 * μ + 6) hg.diagmap (fun p hp m K hm hK => m2A_few (h.diag p hp) hm hK) 0 (2 * κ + 2 * μ + 6) (few_zero _) le_rfl
  have h2 := foldl_few (c := 1) (D := 2 * κ + 2 * μ + 6) ((pairsFrom hg.diagmap).map (entPair hg.trimap)) (g := m2B) (fun e he m K hm hK => m2B_few (pair_few h he) hm hK) _ _ h1 (by omega)
  refine h2.mono ?_
  rw [List.length_map, mul_one]

theorem m3E_few {hg : HessGrad (Tr f u hu)} (h : HFew μ κ hg) {e e2 : Ent (Tr f u hu)} (he : EFew μ κ e) (he2 : EFew μ κ e2) {m m' : Tr f u hu} {K : ℕ} (hm : Few m K)
    (hK : 3 * κ + 2 * μ + 6 ≤ K) (h' : m3E hg m e e2 = some m') : Few m' (K + 1) := by
  simp only [m3E] at h'
  obtain ⟨a, ha, rfl⟩ := Option.map_eq_some_iff.1 h'
  have ha : Few a κ := by
    simp only [HessGrad.triGet] at ha
    split_ifs at ha
    rw [Option.some_inj] at ha
    subst ha
    cases hf : find? hg.trimap (toLex (e.id2, e2.id2)) with
    | none => exact few_zero _
    | some v => exact h.tri _ (find?_some_mem hf)
  have h1 := he.val; have h2 := he2.val
  fstep
  exact hm

theorem foldlM_few {α : Type*} {g : Tr f u hu → α → Option (Tr f u hu)} {c D : ℕ} :
    ∀ (l : List α), (∀ a ∈ l, ∀ m K m', Few m K → D ≤ K → g m a = some m' → Few m' (K + c)) → ∀ m K m', Few m K → D ≤ K → l.foldlM g m = some m' → Few m' (K + l.length * c)
  | [], _, m, K, m', hm, _, e => by
    simp only [List.foldlM_nil, Option.pure_def, Option.some_inj] at e
    subst e
    simpa using hm
  | a :: l, h, m, K, m', hm, hK, e => by
    rw [List.foldlM_cons] at e
    obtain ⟨m1, h1, e⟩ := Option.bind_eq_some_iff.1 e
    have := foldlM_few l (fun b hb => h b (List.mem_cons_of_mem _ hb)) _ _ _ (h a (by simp) m K m1 hm hK h1) (by omega) e
    rw [List.length_cons, Nat.succ_mul]
    exact this.mono (by omega)

theorem forTailsM_few {α : Type*} {g : Tr f u hu → α → List α → Option (Tr f u hu)} {c D : ℕ} :
    ∀ (l : List α), (∀ a ∈ l, ∀ t, t <:+ l → ∀ m K m', Few m K → D ≤ K → g m a t = some m' → Few m' (K + c)) →
      ∀ m K m', Few m K → D ≤ K → forTails (fun m a t => m.bind fun m => g m a t) (some m) l = some m' → Few m' (K + l.length * c)
  | [], _, m, K, m', hm, _, e => by
    simp only [forTails, Option.some_inj] at e
    subst e
    simpa using hm
  | a :: l, h, m, K, m', hm, hK, e => by
    rw [forTails, Option.bind_some] at e
    cases h1 : g m a l with
    | none =>
      rw [h1] at e
      have : ∀ l : List α, forTails (fun (m : Option (Tr f u hu)) a t => m.bind fun m => g m a t) none l = none := fun l => by
        induction l with
        | nil => rfl
        | cons b l ih => rw [forTails]; exact ih
      rw [this] at e
      exact nomatch e
    | some m1 =>
      rw [h1] at e
      have := forTailsM_few l (fun b hb t ht => h b (List.mem_cons_of_mem _ hb) t (ht.trans (List.suffix_cons a l))) _ _ _
        (h a (by simp) l (List.suffix_cons a l) m K m1 hm hK h1) (by omega) e
      rw [List.length_cons, Nat.succ_mul]
      exact this.mono (by omega)

/-- the additions in `compute_m3` -/
def adds3 (N T : ℕ) : ℕ := N * (4 + N * (6 + N) + T) + T * (9 + T)

theorem m3_few {hg : HessGrad (Tr f u hu)} (hv : hg.Valid) (h : HFew μ κ hg) {m : Tr f u hu} (hm : m3 hg = some m) :
    Few m (3 * κ + 2 * μ + 6 + adds3 hg.diagmap.length hg.trimap.length) := by
  rw [m3, triEntries_skip hg hv, Option.bind_some] at hm
  have hes : ∀ e ∈ hg.trimap.map (entOf hg.dOf), EFew μ κ e := fun e he => entries_few hv h he
  have hlen : (hg.trimap.map (entOf hg.dOf)).length = hg.trimap.length := List.length_map _
  generalize hg.trimap.map (entOf hg.dOf) = es at hm hes hlen
  rw [← hlen]
  simp only at hm
  generalize hl : hg.diagmap.length = N
  have h1 : Few (forTails (fun m it rest =>
        es.foldl (fun m it2 => m3F m it it2) (forTails (fun m it2 rest2 => rest2.foldl (fun m it3 => m3C m it.2 it2.2 it3.2) (m3B m it.2 it2.2)) (m3A m it.2) rest))
        0 hg.diagmap) (3 * κ + 2 * μ + 6 + N * (4 + N * (6 + N) + es.length)) := by
    rw [← hl]
    refine forTails_few hg.diagmap (D := 3 * κ + 2 * μ + 6) (fun p hp t ht m K hm hK => ?_) 0 _ (few_zero _) le_rfl
    have ht' : t.length ≤ hg.diagmap.length := ht.length_le
    have a1 := m3A_few (h.diag p hp) hm hK
    have a2 := forTails_few (c := 6 + hg.diagmap.length) (D := 3 * κ + 2 * μ + 6) t (g := fun m it2 rest2 => rest2.foldl (fun m it3 => m3C m p.2 it2.2 it3.2) (m3B m p.2 it2.2))
      (fun q hq r hr m K hm hK => by
        have hq' := h.diag q (ht.subset hq)
        have b1 := m3B_few (h.diag p hp) hq' hm hK
        have b2 := foldl_few (c := 1) (D := 3 * κ + 2 * μ + 6) r (g := fun m it3 => m3C m p.2 q.2 it3.2)
          (fun s hs m K hm hK => m3C_few (h.diag p hp) hq' (h.diag s (ht.subset (hr.subset hs))) hm hK) _ _ b1 (by omega)
        have := hr.length_le
        exact b2.mono (by omega)) _ _ a1 (by omega)
    have a3 := foldl_few (c := 1) (D := 3 * κ + 2 * μ + 6) es (g := fun m it2 => m3F m p it2) (fun e he m K hm hK => m3F_few (h.diag p hp) (hes e he) hm hK) _ _ a2 (by omega)
    refine a3.mono ?_
    have : t.length * (6 + hg.diagmap.length) ≤ hg.diagmap.length * (6 + hg.diagmap.length) := Nat.mul_le_mul_right _ ht'
    omega
  have h2 := forTailsM_few (c := 9 + es.length) (D := 3 * κ + 2 * μ + 6) es (g := fun m it rest => (rest.takeWhile fun it2 => decide (it2.id1 = it.id1)).foldlM
            (fun m it2 => m3E hg m it it2) (m3D m it)) (fun e he t ht m K m' hm hK e' => by
      have a1 := m3D_few (hes e he) hm hK
      have a2 := foldlM_few (c := 1) (D := 3 * κ + 2 * μ + 6) _ (fun e2 he2 m K m' hm hK e' => m3E_few h (hes e he) (hes e2 (ht.subset ((List.takeWhile_prefix _).subset he2))) hm hK e')
        _ _ _ a1 (by omega) e'
      have := ht.length_le
      have := (List.takeWhile_prefix (l := t) fun it2 => decide (it2.id1 = e.id1)).length_le
      exact a2.mono (by omega)) _ _ m h1 (by omega) hm
  exact h2.mono (by unfold adds3; omega)

/-- the additions in `compute_m4` -/
def adds4 (N T : ℕ) : ℕ := N * (5 + N * (10 + N * (4 + N)) + T * 12) + T * (27 + N * (18 + N + N) + T * 3)

theorem triFind_few {hg : HessGrad (Tr f u hu)} (h : HFew μ κ hg) {i j : VId} {a : Tr f u hu} (ha : hg.triFind i j = some a) : Few a κ := by
  rw [HessGrad.triFind] at ha
  exact h.tri _ (find?_some_mem ha)

theorem m4G_few {hg : HessGrad (Tr f u hu)} (h : HFew μ κ hg) {e : Ent (Tr f u hu)} (he : EFew μ κ e) {p : VId × Diag (Tr f u hu)} (hp : p ∈ hg.diagmap)
    {t : SMap VId (Diag (Tr f u hu))} (ht : t <:+ hg.diagmap) {m : Tr f u hu} {K : ℕ} (hm : Few m K) (hK : 4 * κ + 2 * μ + 7 ≤ K) :
    Few (m4G hg m e p t) (K + (18 + hg.diagmap.length + hg.diagmap.length)) := by
  have hl := ht.length_le
  have hd := h.diag p hp
  simp only [m4G]
  split_ifs
  · exact hm.mono (by omega)
  · have fin : ∀ m K', Few m K' → 4 * κ + 2 * μ + 7 ≤ K' → Few (t.foldl (fun m it3 => m4L m e p.2 it3) m) (K' + t.length * 1) := fun m K' hm hK' =>
      foldl_few (c := 1) (D := 4 * κ + 2 * μ + 7) t (g := fun m it3 => m4L m e p.2 it3) (fun q hq m K hm hK => m4L_few he hd (h.diag q (ht.subset hq)) hm hK) _ _ hm hK'
    rcases h2 : hg.triFind e.id1 p.1 with _ | a <;> rcases h3 : hg.triFind e.id2 p.1 with _ | b <;> dsimp only
    · exact (fin _ _ hm hK).mono (by omega)
    · exact (fin _ _ (m4G3_few he hd (triFind_few h h3) hm hK) (by omega)).mono (by omega)
    · exact (fin _ _ (m4G2_few he hd (triFind_few h h2) hm hK) (by omega)).mono (by omega)
    · have a1 := m4G2_few he hd (triFind_few h h2) hm hK
      have a2 := m4G3_few he hd (triFind_few h h3) a1 (by omega)
      have b1 := m4H_few he (triFind_few h h2) (triFind_few h h3) a2 (by omega)
      have b2 := foldl_few (c := 1) (D := 4 * κ + 2 * μ + 7) hg.diagmap (g := fun m it3 => m4J m e p.1 a b it3)
        (fun q hq m K hm hK => m4J_few he (triFind_few h h2) (triFind_few h h3) (h.diag q hq) hm hK) _ _ b1 (by omega)
      exact (fin _ _ b2 (by omega)).mono (by omega)

theorem m4I_few {hg : HessGrad (Tr f u hu)} (h : HFew μ κ hg) {e e2 : Ent (Tr f u hu)} (he : EFew μ κ e) (he2 : EFew μ κ e2) {m : Tr f u hu} {K : ℕ} (hm : Few m K)
    (hK : 4 * κ + 2 * μ + 7 ≤ K) : Few (m4I hg m e e2) (K + 3) := by
  have v1 := he.val; have v2 := he2.val
  simp only [m4I]
  split_ifs
  · exact hm.mono (by omega)
  · refine Few.step (K := K + 2) (D := 4 * κ + 2 * μ + 7) ?_ ((((((few_lit _).mul v1).mul v1).mul v2).mul v2).mono (by omega)) (by omega)
    have t1 : ∀ {a b : Tr f u hu}, Few a κ → Few b κ → Few (lit (2 * 48) * e.val * a * b * e2.val) (4 * κ + 2 * μ + 7) := fun ha hb =>
      (((((few_lit _).mul v1).mul ha).mul hb).mul v2).mono (by omega)
    rcases h1 : hg.triFind e.id1 e2.id1 with _ | a <;> rcases h2 : hg.triFind e.id2 e2.id2 with _ | b <;>
      rcases h3 : hg.triFind e.id1 e2.id2 with _ | c <;> rcases h4 : hg.triFind e.id2 e2.id1 with _ | d <;> dsimp only <;>
      first
        | exact hm.mono (by omega)
        | exact (hm.step (t1 (triFind_few h h1) (triFind_few h h2)) hK).mono (by omega)
        | exact (hm.step (t1 (triFind_few h h4) (triFind_few h h3)) hK).mono (by omega)
        | exact (hm.step (t1 (triFind_few h h1) (triFind_few h h2)) hK).step (t1 (triFind_few h h4) (triFind_few h h3)) (by omega)

theorem m4_few {hg : HessGrad (Tr f u hu)} (hv : hg.Valid) (h : HFew μ κ hg) {m : Tr f u hu} (hm : m4 hg = some m) :
    Few m (4 * κ + 2 * μ + 7 + adds4 hg.diagmap.length hg.trimap.length) := by
  rw [m4, triEntries_skip hg hv, Option.map_some, Option.some_inj] at hm
  have hes : ∀ e ∈ hg.trimap.map (entOf hg.dOf), EFew μ κ e := fun e he => entries_few hv h he
  have hlen : (hg.trimap.map (entOf hg.dOf)).length = hg.trimap.length := List.length_map _
  generalize hg.trimap.map (entOf hg.dOf) = es at hm hes hlen
  rw [← hlen]
  subst hm
  simp only
  generalize hl : hg.diagmap.length = N
  have h1 : Few (hg.diagmap.foldl (fun m it =>
        es.foldl (fun m it2 => m4F m it it2) (forTails (fun m it2 rest2 =>
            if it.1 = it2.1 then m
            else
            forTails (fun m it3 rest3 =>
                if it.1 = it3.1 then m
                else
                rest3.foldl (fun m it4 =>
                  if it.1 = it4.1 then m
                  else m4D m it.2 it2.2 it3.2 it4.2) (m4C m it.2 it2.2 it3.2)) (m4B m it.2 it2.2) rest2) (m4A m it.2) hg.diagmap)) 0)
      (4 * κ + 2 * μ + 7 + N * (5 + N * (10 + N * (4 + N)) + es.length * 12)) := by
    rw [← hl]
    refine foldl_few hg.diagmap (D := 4 * κ + 2 * μ + 7) (fun p hp m K hm hK => ?_) 0 _ (few_zero _) le_rfl
    have hd := h.diag p hp
    have a1 := m4A_few hd hm hK
    have a2 := forTails_few (c := 10 + hg.diagmap.length * (4 + hg.diagmap.length)) (D := 4 * κ + 2 * μ + 7) hg.diagmap (g := fun m it2 rest2 =>
            if p.1 = it2.1 then m
            else
            forTails (fun m it3 rest3 =>
                if p.1 = it3.1 then m
                else
                rest3.foldl (fun m it4 =>
                  if p.1 = it4.1 then m
                  else m4D m p.2 it2.2 it3.2 it4.2) (m4C m p.2 it2.2 it3.2)) (m4B m p.2 it2.2) rest2)
      (fun q hq r hr m K hm hK => by
        split_ifs
        · exact hm.mono (by omega)
        · have hq' := h.diag q hq
          have b1 := m4B_few hd hq' hm hK
          have b2 := forTails_few (c := 4 + hg.diagmap.length) (D := 4 * κ + 2 * μ + 7) r (g := fun m it3 rest3 =>
                if p.1 = it3.1 then m
                else
                rest3.foldl (fun m it4 =>
                  if p.1 = it4.1 then m
                  else m4D m p.2 q.2 it3.2 it4.2) (m4C m p.2 q.2 it3.2))
            (fun s hs t ht m K hm hK => by
              split_ifs
              · exact hm.mono (by omega)
              · have hs' := h.diag s (hr.subset hs)
                have c1 := m4C_few hd hq' hs' hm hK
                have c2 := foldl_few (c := 1) (D := 4 * κ + 2 * μ + 7) t (g := fun m it4 => if p.1 = it4.1 then m else m4D m p.2 q.2 s.2 it4.2)
                  (fun w hw m K hm hK => by
                    split_ifs
                    · exact hm.mono (by omega)
                    · exact m4D_few hd hq' hs' (h.diag w (hr.subset (ht.subset hw))) hm hK) _ _ c1 (by omega)
                have := ht.length_le
                have := hr.length_le
                exact c2.mono (by omega)) _ _ b1 (by omega)
          have : r.length * (4 + hg.diagmap.length) ≤ hg.diagmap.length * (4 + hg.diagmap.length) := Nat.mul_le_mul_right _ hr.length_le
          exact b2.mono (by omega)) _ _ a1 (by omega)
    have a3 := foldl_few (c := 12) (D := 4 * κ + 2 * μ + 7) es (g := fun m it2 => m4F m p it2) (fun e he m K hm hK => m4F_few hd (hes e he) hm hK) _ _ a2 (by omega)
    exact a3.mono (by omega)
  have h2 := foldl_few (c := 27 + N * (18 + N + N) + es.length * 3) (D := 4 * κ + 2 * μ + 7) es (g := fun m it =>
        es.foldl (fun m it2 => m4I hg m it it2) (forTails (fun m it2 rest => m4G hg m it it2 rest) (m4E m it) hg.diagmap)) (fun e he m K hm hK => by
      have a1 := m4E_few (hes e he) hm hK
      have a2 := forTails_few (c := 18 + N + N) (D := 4 * κ + 2 * μ + 7) hg.diagmap (g := fun m it2 rest => m4G hg m e it2 rest)
        (fun p hp t ht m K hm hK => by rw [← hl]; exact m4G_few h (hes e he) hp ht hm hK) _ _ a1 (by omega)
      have a3 := foldl_few (c := 3) (D := 4 * κ + 2 * μ + 7) es (g := fun m it2 => m4I hg m e it2) (fun e2 he2 m K hm hK => m4I_few h (hes e he) (hes e2 he2) hm hK) _ _ a2 (by omega)
      rw [hl] at a3
      exact a3.mono (by omega)) _ _ h1 (by omega)
  exact h2.mono (by unfold adds4; omega)

end Unc
