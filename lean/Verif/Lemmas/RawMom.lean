import Verif.Lemmas.MomSums
import Verif.Lemmas.QuadMom

/-! # The functions of `moments.hpp` as expectations of polynomials -/

namespace Unc
namespace Mom
open SMap HessGrad Sums Expect
variable {R : Type*} [CommRing R] {hg : HessGrad R}

/-- All the moments of a standardized variable up to the eighth. -/
def mseq (m : Moments R) : ℕ → R
  | 0 => 1
  | 1 => 0
  | 2 => 1
  | 3 => m.v3
  | 4 => m.v4
  | 5 => m.v5
  | 6 => m.v6
  | 7 => m.v7
  | 8 => m.v8
  | _ => 0

/-- The moments stored in a value. -/
def mus (hg : HessGrad R) (i : VId) : ℕ → R := mseq (hg.dOf i).mom

theorem H_self (hg : HessGrad R) (i : VId) : hg.H i i = (hg.dOf i).hhess := by
  unfold H dOf
  rw [if_pos rfl]
  cases find? hg.diagmap i <;> rfl

theorem dOf_grad (hg : HessGrad R) (i : VId) : hg.G i = (hg.dOf i).grad := by
  unfold G dOf
  cases find? hg.diagmap i <;> rfl

theorem H_symm (hg : HessGrad R) (i j : VId) : hg.H i j = hg.H j i := by
  unfold H
  rcases eq_or_ne i j with rfl | h
  · rfl
  · rw [if_neg h, if_neg h.symm, min_comm, max_comm]

/-- The polynomial of a value. -/
noncomputable def poly (hg : HessGrad R) : MvPolynomial VId R := Q hg.vars hg.G hg.H

theorem S2_add (S : Finset VId) (f g : VId → VId → R) : S2 S f + S2 S g = S2 S fun a b => f a b + g a b := by
  unfold S2
  simp only [← Finset.sum_add_distrib]
  refine Finset.sum_congr rfl fun a _ => Finset.sum_congr rfl fun b _ => ?_
  split_ifs <;> simp

theorem S3_add (S : Finset VId) (f g : VId → VId → VId → R) :
    S3 S f + S3 S g = S3 S fun a b c => f a b c + g a b c := by
  unfold S3
  simp only [← Finset.sum_add_distrib]
  refine Finset.sum_congr rfl fun a _ => Finset.sum_congr rfl fun b _ => Finset.sum_congr rfl fun c _ => ?_
  split_ifs <;> simp

theorem S4_add (S : Finset VId) (f g : VId → VId → VId → VId → R) :
    S4 S f + S4 S g = S4 S fun a b c d => f a b c d + g a b c d := by
  unfold S4
  simp only [← Finset.sum_add_distrib]
  refine Finset.sum_congr rfl fun a _ => Finset.sum_congr rfl fun b _ => Finset.sum_congr rfl fun c _ =>
    Finset.sum_congr rfl fun d _ => ?_
  split_ifs <;> simp

theorem sub1 {S : Finset VId} {a : VId} (ha : a ∈ S) : ({a} : Finset VId) ⊆ S := by simpa using ha
theorem sub2 {S : Finset VId} {a b : VId} (ha : a ∈ S) (hb : b ∈ S) : insert b ({a} : Finset VId) ⊆ S :=
  Finset.insert_subset hb (sub1 ha)
theorem sub3 {S : Finset VId} {a b c : VId} (ha : a ∈ S) (hb : b ∈ S) (hc : c ∈ S) :
    insert c (insert b ({a} : Finset VId)) ⊆ S := Finset.insert_subset hc (sub2 ha hb)
theorem sub4 {S : Finset VId} {a b c d : VId} (ha : a ∈ S) (hb : b ∈ S) (hc : c ∈ S) (hd : d ∈ S) :
    insert d (insert c (insert b ({a} : Finset VId))) ⊆ S := Finset.insert_subset hd (sub3 ha hb hc)

theorem Q_empty (g : VId → R) (h : VId → VId → R) : Q ∅ g h = 0 := by simp [Q]

theorem pow_degree (p : MvPolynomial VId R) (hp : p.totalDegree ≤ 2) (n : ℕ) : (p ^ n).totalDegree ≤ 2 * n :=
  (MvPolynomial.totalDegree_pow p n).trans (by rw [mul_comm 2 n]; exact Nat.mul_le_mul_left n hp)

theorem raw3 (hv : hg.Valid) : m3 hg = some (E (mus hg) (poly hg ^ 3)) := by
  unfold poly
  rw [m3_eq hv, E_expand (S := hg.vars) (mus hg) (fun _ => rfl) (Subalgebra.pow_mem _ (Q_vars _ _ _) _)
    ((pow_degree _ (Q_degree _ _ _) 3).trans (by norm_num))]
  simp only [map_pow]
  have h1 : ∀ i, mus hg i 1 = 0 := fun _ => rfl
  have h2 : ∀ i, mus hg i 2 = 1 := fun _ => rfl
  congr 1
  rw [cut_Q (Finset.empty_subset _), Q_empty, zero_pow (by norm_num), map_zero, zero_add, D3_eq]
  have e4 : (S4 hg.vars fun x y z w => (Eo (mus hg) (insert w (insert z (insert y {x}))))
      (cut (insert w (insert z (insert y {x}))) (Q hg.vars hg.G hg.H) ^ 3)) = S4 hg.vars fun _ _ _ _ => 0 := by
    refine S4_congr fun a ha b hb c hc d hd hab hbc hcd => ?_
    rw [cut_Q (sub4 ha hb hc hd)]
    refine Eo_eq_zero _ h1 (pow_degree _ (Q_degree _ _ _) 3) ?_
    rw [Finset.card_insert_of_notMem, Finset.card_insert_of_notMem, Finset.card_insert_of_notMem,
      Finset.card_singleton]
    · norm_num
    · simpa using hab.ne'
    · simp [hbc.ne', (hab.trans hbc).ne']
    · simp [hcd.ne', (hbc.trans hcd).ne', (hab.trans (hbc.trans hcd)).ne']
  have e4' : (S4 hg.vars fun _ _ _ _ => (0 : R)) = 0 := by simp [S4]
  rw [e4, e4', add_zero]
  refine congrArg₂ _ (congrArg₂ _ ?_ ?_) ?_
  · refine Finset.sum_congr rfl fun a ha => ?_
    rw [cut_Q (sub1 ha), E3_1 (mus hg) h1 h2]
    simp only [F31, m3A, mus, mseq, ← H_self, ← dOf_grad, lit]
    push_cast; ring
  · refine S2_congr fun a ha b hb hab => ?_
    rw [cut_Q (sub2 ha hb), E3_2 (mus hg) h1 h2 _ _ (H_symm hg) hab.ne']
    simp only [F32, m3B, m3D, ent, mus, mseq, ← H_self, ← dOf_grad, lit]
    push_cast; ring
  · refine S3_congr fun a ha b hb c hc hab hbc => ?_
    have hac := hab.trans hbc
    rw [cut_Q (sub3 ha hb hc), E3_3 (mus hg) h1 h2 _ _ (H_symm hg) hab.ne' hac.ne' hbc.ne']
    simp only [hab, hbc, hac, hab.not_gt, hbc.not_gt, hac.not_gt, and_true, and_false, if_true, if_false]
    simp only [F33, m3C, mus, mseq, ← H_self, ← dOf_grad, lit]
    push_cast; ring

set_option maxHeartbeats 4000000 in
theorem raw4 (hv : hg.Valid) : m4 hg = some (E (mus hg) (poly hg ^ 4)) := by
  unfold poly
  rw [m4_eq hv, E_expand (S := hg.vars) (mus hg) (fun _ => rfl) (Subalgebra.pow_mem _ (Q_vars _ _ _) _)
    ((pow_degree _ (Q_degree _ _ _) 4).trans (by norm_num))]
  simp only [map_pow]
  have h1 : ∀ i, mus hg i 1 = 0 := fun _ => rfl
  have h2 : ∀ i, mus hg i 2 = 1 := fun _ => rfl
  congr 1
  rw [cut_Q (Finset.empty_subset _), Q_empty, zero_pow (by norm_num), map_zero, zero_add, D3_eq, D3_eq, D2_eq, D4_eq,
    D4_eq, S2_add, S3_add, S4_add]
  refine congrArg₂ _ (congrArg₂ _ (congrArg₂ _ ?_ ?_) ?_) ?_
  · refine Finset.sum_congr rfl fun a ha => ?_
    rw [cut_Q (sub1 ha), E4_1 (mus hg) h1 h2]
    simp only [F41, m4A, mus, mseq, ← H_self, ← dOf_grad, lit]
    push_cast; ring
  · refine S2_congr fun a ha b hb hab => ?_
    rw [cut_Q (sub2 ha hb), E4_2 (mus hg) h1 h2 _ _ (H_symm hg) hab.ne']
    simp only [F42, m4B, m4E, ent, mus, mseq, ← H_self, ← dOf_grad, lit]
    push_cast; ring
  · refine S3_congr fun a ha b hb c hc hab hbc => ?_
    have hac := hab.trans hbc
    rw [cut_Q (sub3 ha hb hc), E4_3 (mus hg) h1 h2 _ _ (H_symm hg) hab.ne' hac.ne' hbc.ne']
    simp only [hab, hbc, hac, hab.not_gt, hbc.not_gt, hac.not_gt, if_true, if_false]
    simp only [F43, m4C, m4F, inc4G, m4G2, m4G3, m4H, ent, hab.ne, hbc.ne, hac.ne, hab.ne', hbc.ne', hac.ne', or_self,
      if_false]
    simp only [mus, mseq, ← H_self, ← dOf_grad, lit, H_symm hg b a, H_symm hg c a, H_symm hg c b]
    push_cast; ring
  · refine S4_congr fun a ha b hb c hc d hd hab hbc hcd => ?_
    have hac := hab.trans hbc
    have hbd := hbc.trans hcd
    have had := hab.trans hbd
    rw [cut_Q (sub4 ha hb hc hd), E4_4 (mus hg) h1 h2 _ _ (H_symm hg) hab.ne' hac.ne' hbc.ne' had.ne' hbd.ne' hcd.ne']
    simp only [p6, hab, hbc, hac, hbd, hcd, had, hab.not_gt, hbc.not_gt, hac.not_gt, hbd.not_gt, hcd.not_gt, had.not_gt,
      and_true, and_false, if_true, if_false]
    simp only [F44, m4D, inc4J, inc4L, inc4I]
    simp only [← H_self, lit, H_symm hg b a, H_symm hg c a, H_symm hg c b, H_symm hg d a, H_symm hg d b, H_symm hg d c]
    push_cast; ring

end Mom
end Unc
