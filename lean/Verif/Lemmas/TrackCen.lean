import Verif.Lemmas.TrackMom

/-!
# The number of roundings in the central moments and in the covariance
-/

namespace Unc
open Unc.Spec HessGrad SMap Mom Tr

variable {f : Fmt} {u : ℝ} {hu : Acc f.rd u} {κ κ' μ μ' : ℕ}

theorem pairsFrom_length {α : Type*} (l : List α) : (pairsFrom l).length = l.length.choose 2 := by
  induction l with
  | nil => rfl
  | cons a t ih =>
    rw [pairsFrom, List.length_append, List.length_map, ih, List.length_cons, Nat.choose_succ_succ' t.length 1, Nat.choose_one_right]

/-- the additions in `compute_m2` -/
def adds2 (N : ℕ) : ℕ := 3 * N + N.choose 2

theorem adds23 (N T : ℕ) : N + adds2 N ≤ adds3 N T := by
  have h : N.choose 2 ≤ N * N := by
    rw [Nat.choose_two_right]
    exact (Nat.div_le_self _ _).trans (Nat.mul_le_mul_left _ (Nat.sub_le _ _))
  unfold adds2 adds3
  nlinarith [Nat.zero_le (N * T), Nat.zero_le (N * (N * N)), Nat.zero_le (T * T), Nat.zero_le (N * N)]

theorem adds34 (N T : ℕ) : N + adds3 N T ≤ adds4 N T := by
  unfold adds3 adds4
  nlinarith [Nat.zero_le (N * T), Nat.zero_le (N * N), Nat.zero_le (N * N * N), Nat.zero_le (N * N * N * N), Nat.zero_le (T * T), Nat.zero_le (N * N * T)]

/-- the roundings after those of the derivatives in the central moment `n` -/
def cenAdds (N T : ℕ) : ℕ → ℕ
  | 1 => N
  | 2 => 7 + adds2 N
  | 3 => 12 + adds3 N T
  | 4 => 17 + adds4 N T
  | _ => 0

/-- the roundings of the moments of the variables in the central moment `n` -/
def momAdds (μ : ℕ) : ℕ → ℕ
  | 1 => 0
  | _ => 2 * μ

theorem momArray_few {hg : HessGrad (Tr f u hu)} (hv : hg.Valid) (h : HFew μ κ hg) : ∀ (n : ℕ) {l : List (Tr f u hu)}, n ≤ 4 → UReal2.momArray hg n = some l →
    l.length = n ∧ ∀ i, ∀ hi : i < l.length, Few l[i] ((i + 1) * κ + momAdds μ (i + 1) + cenAdds hg.diagmap.length hg.trimap.length (i + 1))
  | 0, l, _, e => by
    rw [UReal2.momArray, Option.some_inj] at e
    subst e
    exact ⟨rfl, fun i hi => absurd hi (by simp)⟩
  | n + 1, l, hn, e => by
    rw [UReal2.momArray] at e
    obtain ⟨l0, h0, e⟩ := Option.bind_eq_some_iff.1 e
    obtain ⟨hl, hf⟩ := momArray_few hv h n (by omega) h0
    have b23 := adds23 hg.diagmap.length hg.trimap.length
    have b34 := adds34 hg.diagmap.length hg.trimap.length
    match l0, hl, hf, e, hn with
    | [], hl, hf, e, hn =>
      simp only [UReal2.updateMom, compute, Option.map_some, Option.some_inj] at e
      subst e hl
      refine ⟨rfl, fun i hi => ?_⟩
      obtain rfl : i = 0 := by simpa using hi
      exact (m1_few h).mono (by simp [momAdds, cenAdds])
    | [m1], hl, hf, e, hn =>
      simp only [UReal2.updateMom, compute] at e
      obtain ⟨m, hm, rfl⟩ := Option.map_eq_some_iff.1 e
      subst hl
      refine ⟨rfl, fun i hi => ?_⟩
      have f1 : Few m1 _ := hf 0 (by simp)
      have f2 := m2_few hv h hm
      rw [pairsFrom_length] at f2
      match i, hi with
      | 0, _ => exact f1
      | 1, _ =>
        simp only [momAdds, cenAdds, adds2] at f1 ⊢
        exact ((f2.mono (L := 2 * κ + 2 * μ + 6 + 3 * hg.diagmap.length + hg.diagmap.length.choose 2) (by omega)).sub ((f1.mul f1).mono (by omega))).mono (by omega)
    | [m1, m2], hl, hf, e, hn =>
      simp only [UReal2.updateMom, compute] at e
      obtain ⟨m, hm, rfl⟩ := Option.map_eq_some_iff.1 e
      subst hl
      refine ⟨rfl, fun i hi => ?_⟩
      have f1 : Few m1 _ := hf 0 (by simp)
      have f2 : Few m2 _ := hf 1 (by simp)
      have f3 := m3_few hv h hm
      match i, hi with
      | 0, _ => exact f1
      | 1, _ => exact f2
      | 2, _ =>
        simp only [momAdds, cenAdds] at f1 f2 ⊢
        have g1 : Few (m1 * m1) (2 * κ + 2 * μ + 9 + adds2 hg.diagmap.length) := (f1.mul f1).mono (by unfold adds2; omega)
        have g2 : Few (lit 3 * m2) (2 * κ + 2 * μ + 9 + adds2 hg.diagmap.length) := ((few_lit 3).mul f2).mono (by omega)
        exact ((f3.mono (L := 3 * κ + 2 * μ + 11 + adds3 hg.diagmap.length hg.trimap.length) (by omega)).sub ((f1.mul (g2.add g1)).mono (by omega))).mono (by omega)
    | [m1, m2, m3], hl, hf, e, hn =>
      simp only [UReal2.updateMom, compute] at e
      obtain ⟨m, hm, rfl⟩ := Option.map_eq_some_iff.1 e
      subst hl
      refine ⟨rfl, fun i hi => ?_⟩
      have f1 : Few m1 _ := hf 0 (by simp)
      have f2 : Few m2 _ := hf 1 (by simp)
      have f3 : Few m3 _ := hf 2 (by simp)
      have f4 := m4_few hv h hm
      match i, hi with
      | 0, _ => exact f1
      | 1, _ => exact f2
      | 2, _ => exact f3
      | 3, _ =>
        simp only [momAdds, cenAdds] at f1 f2 f3 ⊢
        have g1 : Few (m1 * m1) (2 * κ + 2 * μ + 9 + adds2 hg.diagmap.length) := (f1.mul f1).mono (by unfold adds2; omega)
        have g2 : Few (lit 6 * m2) (2 * κ + 2 * μ + 9 + adds2 hg.diagmap.length) := ((few_lit 6).mul f2).mono (by omega)
        have g3 : Few (m1 * (lit 6 * m2 + m1 * m1)) (3 * κ + 2 * μ + 14 + adds3 hg.diagmap.length hg.trimap.length) := (f1.mul (g2.add g1)).mono (by omega)
        have g4 : Few (lit 4 * m3) (3 * κ + 2 * μ + 14 + adds3 hg.diagmap.length hg.trimap.length) := ((few_lit 4).mul f3).mono (by omega)
        exact ((f4.mono (L := 4 * κ + 2 * μ + 16 + adds4 hg.diagmap.length hg.trimap.length) (by omega)).sub ((f1.mul (g4.add g3)).mono (by omega))).mono (by omega)
    | _ :: _ :: _ :: _ :: _, hl, _, _, hn => simp at hl; omega

theorem cen_fewM {x : UReal2 (Tr f u hu)} (hv : x.hg.Valid) (h : HFew μ κ x.hg) {n : ℕ} {m : Tr f u hu} (hm : x.m n = some m) :
    Few m (n * κ + momAdds μ n + cenAdds x.hg.diagmap.length x.hg.trimap.length n) := by
  unfold UReal2.m at hm
  split_ifs at hm with hn
  obtain ⟨l, h1, h2⟩ := Option.bind_eq_some_iff.1 hm
  obtain ⟨hl, hf⟩ := momArray_few hv h n hn.2 h1
  obtain ⟨hi, rfl⟩ := List.getElem?_eq_some_iff.1 h2
  have := hf (n - 1) hi
  rwa [show n - 1 + 1 = n by omega] at this

/-! ## covariance -/

theorem c2A_few {a b : SMap VId (Diag (Tr f u hu))} (ha : ∀ p ∈ a, DFew μ κ p.2) (hb : ∀ p ∈ b, DFew μ' κ' p.2) {m : Tr f u hu} {K : ℕ} (hm : Few m K) (hK : κ + κ' + μ + 3 ≤ K) :
    Few (c2A m a b) (K + 4 * a.length) := by
  induction hn : a.length + b.length using Nat.strong_induction_on generalizing a b m K with
  | _ n ih =>
  rcases a with _ | ⟨⟨i, d⟩, ta⟩
  · simpa [c2A] using hm
  rcases b with _ | ⟨⟨j, e⟩, tb⟩
  · rw [c2A]
    · exact hm.mono (by omega)
    · simp
  rw [c2A]
  have ha' : ∀ p ∈ ta, DFew μ κ p.2 := fun p hp => ha p (List.mem_cons_of_mem _ hp)
  have hb' : ∀ p ∈ tb, DFew μ' κ' p.2 := fun p hp => hb p (List.mem_cons_of_mem _ hp)
  split_ifs
  · exact (ih _ (by subst hn; simp) ha' hb hm hK rfl).mono (by simp)
  · exact ih _ (by subst hn; simp) ha hb' hm hK rfl
  · obtain ⟨g, h, v3, v4, -⟩ : DFew μ κ d := ha (i, d) (by simp)
    obtain ⟨g', h', -⟩ : DFew μ' κ' e := hb (j, e) (by simp)
    have s : Few (m + d.grad * e.grad + d.hhess * e.grad * d.mom.v3 + d.grad * e.hhess * d.mom.v3 + d.hhess * e.hhess * d.mom.v4) (K + 4) := by
      repeat fstep
      exact hm
    exact (ih _ (by subst hn; simp; omega) ha' hb' s (by omega) rfl).mono (by simp; omega)

theorem c2B_few {a b : List (Ent (Tr f u hu))} (ha : ∀ e ∈ a, EFew μ κ e) (hb : ∀ e ∈ b, EFew μ' κ' e) {m m' : Tr f u hu} {K : ℕ} (hm : Few m K) (hK : κ + κ' + μ + 3 ≤ K)
    (e' : c2B m a b = some m') : Few m' (K + a.length) := by
  induction hn : a.length + b.length using Nat.strong_induction_on generalizing a b m K with
  | _ n ih =>
  rcases a with _ | ⟨d, ta⟩
  · rw [c2B, Option.some_inj] at e'
    · subst e'; exact hm
    · simp
  rcases b with _ | ⟨e, tb⟩
  · rw [c2B, Option.some_inj] at e'
    · subst e'; exact hm.mono (by omega)
    · simp
  rw [c2B] at e'
  have ha' : ∀ p ∈ ta, EFew μ κ p := fun p hp => ha p (List.mem_cons_of_mem _ hp)
  have hb' : ∀ p ∈ tb, EFew μ' κ' p := fun p hp => hb p (List.mem_cons_of_mem _ hp)
  dsimp only at e'
  split_ifs at e'
  · exact (ih _ (by subst hn; simp) ha' hb hm hK e' rfl).mono (by simp)
  · exact ih _ (by subst hn; simp) ha hb' hm hK e' rfl
  · have v := (ha d (by simp)).val
    have v' := (hb e (by simp)).val
    have s : Few (m + lit (2 * 2) * d.val * e.val) (K + 1) := by
      fstep
      exact hm
    exact (ih _ (by subst hn; simp; omega) ha' hb' s (by omega) e' rfl).mono (by simp; omega)

theorem c2_few {x y : HessGrad (Tr f u hu)} (hx : x.Valid) (hy : y.Valid) (fx : HFew μ κ x) (fy : HFew μ' κ' y) {m : Tr f u hu} (hm : c2 x y = some m) :
    Few m (κ + κ' + μ + 3 + 4 * x.diagmap.length + x.trimap.length + x.diagmap.length * y.diagmap.length) := by
  rw [c2, triEntries_skip x hx, triEntries_skip y hy, Option.bind_some, Option.bind_some] at hm
  obtain ⟨m0, h0, rfl⟩ := Option.map_eq_some_iff.1 hm
  have a1 := c2A_few (m := 0) (K := κ + κ' + μ + 3) fx.diag fy.diag (few_zero _) le_rfl
  have a2 := c2B_few (fun e he => entries_few hx fx he) (fun e he => entries_few hy fy he) a1 (by omega) h0
  rw [List.length_map] at a2
  refine foldl_few (c := y.diagmap.length) (D := κ + κ' + μ + 3) x.diagmap (fun p hp m K hm hK => ?_) _ _ a2 (by omega)
  rw [← mul_one y.diagmap.length]
  refine foldl_few (c := 1) (D := κ + κ' + μ + 3) y.diagmap (fun q hq m K hm hK => ?_) _ _ hm hK
  split_ifs
  · exact hm.step ((fx.diag p hp).h.mul (fy.diag q hq).h) (by omega)
  · exact hm.mono (by omega)

/-- the roundings after those of the derivatives in the covariance -/
def covAdds (N T N' : ℕ) : ℕ := 4 + 4 * N + T + N * N' + N'

theorem cov_fewM {x y : UReal2 (Tr f u hu)} (hx : x.hg.Valid) (hy : y.hg.Valid) (fx : HFew μ κ x.hg) (fy : HFew μ' κ' y.hg) {m : Tr f u hu} (hm : UReal2.cov x y = some m) :
    Few m (κ + κ' + μ + covAdds x.hg.diagmap.length x.hg.trimap.length y.hg.diagmap.length) := by
  unfold UReal2.cov at hm
  obtain ⟨c, hc, hm⟩ := Option.bind_eq_some_iff.1 hm
  obtain ⟨a, ha, hm⟩ := Option.bind_eq_some_iff.1 hm
  obtain ⟨b, hb, rfl⟩ := Option.map_eq_some_iff.1 hm
  have f1 := c2_few hx hy fx fy hc
  have f2 := cen_fewM hx fx ha
  have f3 := cen_fewM hy fy hb
  simp only [momAdds, cenAdds] at f2 f3
  have f4 := (f2.mul f3).mono (L := κ + κ' + μ + 3 + 4 * x.hg.diagmap.length + x.hg.trimap.length + x.hg.diagmap.length * y.hg.diagmap.length + y.hg.diagmap.length) (by omega)
  exact ((f1.mono (Nat.le_add_right _ _)).sub f4).mono (by unfold covAdds; omega)

/-! ## moments of the variables without roundings -/

theorem cen_few {x : UReal2 (Tr f u hu)} (hv : x.hg.Valid) (h : HFew 0 κ x.hg) {n : ℕ} {m : Tr f u hu} (hm : x.m n = some m) :
    Few m (n * κ + cenAdds x.hg.diagmap.length x.hg.trimap.length n) := by
  refine (cen_fewM hv h hm).mono ?_
  have : momAdds 0 n = 0 := by unfold momAdds; split <;> rfl
  omega

theorem cov_few {x y : UReal2 (Tr f u hu)} (hx : x.hg.Valid) (hy : y.hg.Valid) (fx : HFew 0 κ x.hg) (fy : HFew 0 κ' y.hg) {m : Tr f u hu} (hm : UReal2.cov x y = some m) :
    Few m (κ + κ' + covAdds x.hg.diagmap.length x.hg.trimap.length y.hg.diagmap.length) := cov_fewM hx hy fx fy hm

end Unc
