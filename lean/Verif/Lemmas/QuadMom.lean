import Verif.Lemmas.Expand

/-! # Values of the parts of the expectation of powers of a quadratic polynomial -/

namespace Unc
namespace Expect
open MvPolynomial

variable {σ R : Type*} [LinearOrder σ] [CommRing R]
variable (mu : σ → ℕ → R) (h1 : ∀ i, mu i 1 = 0) (h2 : ∀ i, mu i 2 = 1)

theorem Eo_empty_eq (p : MvPolynomial σ R) : Eo mu ∅ p = constantCoeff p := by
  rw [Eo_zero_free, constantCoeff_eq]

section shapes
variable {g : σ → R} {h : σ → σ → R} (hs : ∀ i j, h i j = h j i)

theorem Q_one (a : σ) : Q {a} g h = 0 + C (g a) * X a + C (h a a) * X a ^ 2 := by
  rw [← insert_empty_eq, Q_insert (Finset.notMem_empty a)]
  simp [Q]

include hs in
theorem Q_two {a b : σ} (hab : b ≠ a) : Q (insert b {a}) g h
    = (0 + C (g a) * X a + C (h a a) * X a ^ 2) + (C (g b) + C (2 * h a b) * X a) * X b + C (h b b) * X b ^ 2 := by
  rw [Q_insert (by simpa using hab), Q_one, Finset.sum_singleton, hs b a, ← two_mul]

include hs in
theorem Q_three {a b c : σ} (hab : b ≠ a) (hac : c ≠ a) (hbc : c ≠ b) : Q (insert c (insert b {a})) g h
    = ((0 + C (g a) * X a + C (h a a) * X a ^ 2) + (C (g b) + C (2 * h a b) * X a) * X b + C (h b b) * X b ^ 2)
      + ((C (g c) + C (2 * h a c) * X a) + C (2 * h b c) * X b) * X c + C (h c c) * X c ^ 2 := by
  rw [Q_insert (by simp [hac, hbc]), Q_two hs hab, Finset.sum_insert (by simpa using hab), Finset.sum_singleton,
    hs c a, hs c b, ← two_mul, ← two_mul]
  ring

include hs in
theorem Q_four {a b c d : σ} (hab : b ≠ a) (hac : c ≠ a) (hbc : c ≠ b) (had : d ≠ a) (hbd : d ≠ b) (hcd : d ≠ c) :
    Q (insert d (insert c (insert b {a}))) g h
    = (((0 + C (g a) * X a + C (h a a) * X a ^ 2) + (C (g b) + C (2 * h a b) * X a) * X b + C (h b b) * X b ^ 2)
      + ((C (g c) + C (2 * h a c) * X a) + C (2 * h b c) * X b) * X c + C (h c c) * X c ^ 2)
      + (((C (g d) + C (2 * h a d) * X a) + C (2 * h b d) * X b) + C (2 * h c d) * X c) * X d
      + C (h d d) * X d ^ 2 := by
  rw [Q_insert (by simp [had, hbd, hcd]), Q_three hs hab hac hbc, Finset.sum_insert (by simp [hac, hbc]),
    Finset.sum_insert (by simpa using hab), Finset.sum_singleton, hs d a, hs d b, hs d c, ← two_mul, ← two_mul,
    ← two_mul]
  ring

end shapes

/-- Proves `Free` goals with variables. -/
macro "free_tac'" : tactic => `(tactic| repeat' with_reducible (first
  | assumption
  | refine Free.add ?_ ?_
  | refine Free.mul ?_ ?_
  | refine Free.pow ?_ _
  | exact Free.ofNat _
  | exact Free.C _
  | exact Free.zero
  | refine Free.X ?_))

theorem single_eq (a : σ) : ({a} : Finset σ) = insert a ∅ := (insert_empty_eq a).symm

variable (g : σ → R) (h : σ → σ → R) 

section
include h1 h2

theorem E4_1 (a : σ) : Eo mu {a} (Q {a} g h ^ 4)
    = F41 0 (g a) (h a a) (mu a 3) (mu a 4) (mu a 5) (mu a 6) (mu a 7) (mu a 8) := by
  rw [Q_one, single_eq, F41_step mu (Finset.notMem_empty a) (h1 a) (h2 a) (by free_tac') (by free_tac')
    (by free_tac'), Eo_empty_eq]
  simp only [F41, map_add, map_mul, map_pow, map_ofNat, map_zero, constantCoeff_C]

variable (hs : ∀ i j, h i j = h j i)
include hs

theorem E4_2 {a b : σ} (hab : b ≠ a) : Eo mu (insert b {a}) (Q (insert b {a}) g h ^ 4)
    = F42 0 (g a) (h a a) (g b) (2 * h a b) (h b b)
        (mu b 3) (mu b 4) (mu b 5) (mu b 6) (mu b 7) (mu b 8) (mu a 3) (mu a 4) (mu a 5) (mu a 6) := by
  have hab' := hab.symm
  rw [Q_two hs hab, F41_step mu (by simpa using hab) (h1 b) (h2 b) (by free_tac') (by free_tac') (by free_tac'),
    single_eq, F42_step mu (Finset.notMem_empty a) (h1 a) (h2 a), Eo_empty_eq]
  · simp only [F42, map_add, map_mul, map_pow, map_ofNat, map_zero, constantCoeff_C]
  all_goals free_tac'

theorem E4_3 {a b c : σ} (hab : b ≠ a) (hac : c ≠ a) (hbc : c ≠ b) :
    Eo mu (insert c (insert b {a})) (Q (insert c (insert b {a})) g h ^ 4)
    = F43 0 (g a) (h a a) (g b) (2 * h a b) (h b b) (g c) (2 * h a c) (2 * h b c) (h c c)
        (mu c 3) (mu c 4) (mu c 5) (mu c 6) (mu c 7) (mu c 8) (mu b 3) (mu b 4) (mu b 5) (mu b 6)
        (mu a 3) (mu a 4) := by
  have hab' := hab.symm
  have hac' := hac.symm
  have hbc' := hbc.symm
  rw [Q_three hs hab hac hbc, F41_step mu (by simp [hac, hbc]) (h1 c) (h2 c), F42_step mu (by simpa using hab) (h1 b) (h2 b),
    single_eq, F43_step mu (Finset.notMem_empty a) (h1 a) (h2 a), Eo_empty_eq]
  · simp only [F43, map_add, map_mul, map_pow, map_ofNat, map_zero, constantCoeff_C]
  all_goals free_tac'

theorem E4_4 {a b c d : σ} (hab : b ≠ a) (hac : c ≠ a) (hbc : c ≠ b) (had : d ≠ a) (hbd : d ≠ b) (hcd : d ≠ c) :
    Eo mu (insert d (insert c (insert b {a}))) (Q (insert d (insert c (insert b {a}))) g h ^ 4)
    = F44 0 (g a) (h a a) (g b) (2 * h a b) (h b b) (g c) (2 * h a c) (2 * h b c) (h c c)
        (g d) (2 * h a d) (2 * h b d) (2 * h c d) (h d d)
        (mu d 3) (mu d 4) (mu d 5) (mu d 6) (mu d 7) (mu d 8) (mu c 3) (mu c 4) (mu c 5) (mu c 6)
        (mu b 3) (mu b 4) := by
  have hab' := hab.symm
  have hac' := hac.symm
  have hbc' := hbc.symm
  have had' := had.symm
  have hbd' := hbd.symm
  have hcd' := hcd.symm
  rw [Q_four hs hab hac hbc had hbd hcd, F41_step mu (by simp [had, hbd, hcd]) (h1 d) (h2 d),
    F42_step mu (by simp [hac, hbc]) (h1 c) (h2 c), F43_step mu (by simpa using hab) (h1 b) (h2 b),
    single_eq, F44_step mu (Finset.notMem_empty a) (h1 a) (h2 a), Eo_empty_eq]
  · simp only [F44, map_add, map_mul, map_pow, map_ofNat, map_zero, constantCoeff_C]
  all_goals free_tac'

omit hs in
theorem E3_1 (a : σ) : Eo mu {a} (Q {a} g h ^ 3)
    = F31 0 (g a) (h a a) (mu a 3) (mu a 4) (mu a 5) (mu a 6) := by
  rw [Q_one, single_eq, F31_step mu (Finset.notMem_empty a) (h1 a) (h2 a) (by free_tac') (by free_tac')
    (by free_tac'), Eo_empty_eq]
  simp only [F31, map_add, map_mul, map_pow, map_ofNat, map_zero, constantCoeff_C]

theorem E3_2 {a b : σ} (hab : b ≠ a) : Eo mu (insert b {a}) (Q (insert b {a}) g h ^ 3)
    = F32 0 (g a) (h a a) (g b) (2 * h a b) (h b b)
        (mu b 3) (mu b 4) (mu b 5) (mu b 6) (mu a 3) (mu a 4) := by
  have hab' := hab.symm
  rw [Q_two hs hab, F31_step mu (by simpa using hab) (h1 b) (h2 b) (by free_tac') (by free_tac') (by free_tac'),
    single_eq, F32_step mu (Finset.notMem_empty a) (h1 a) (h2 a), Eo_empty_eq]
  · simp only [F32, map_add, map_mul, map_pow, map_ofNat, map_zero, constantCoeff_C]
  all_goals free_tac'

theorem E3_3 {a b c : σ} (hab : b ≠ a) (hac : c ≠ a) (hbc : c ≠ b) :
    Eo mu (insert c (insert b {a})) (Q (insert c (insert b {a})) g h ^ 3)
    = F33 0 (g a) (h a a) (g b) (2 * h a b) (h b b) (g c) (2 * h a c) (2 * h b c) (h c c)
        (mu c 3) (mu c 4) (mu c 5) (mu c 6) (mu b 3) (mu b 4) := by
  have hab' := hab.symm
  have hac' := hac.symm
  have hbc' := hbc.symm
  rw [Q_three hs hab hac hbc, F31_step mu (by simp [hac, hbc]) (h1 c) (h2 c), F32_step mu (by simpa using hab) (h1 b) (h2 b),
    single_eq, F33_step mu (Finset.notMem_empty a) (h1 a) (h2 a), Eo_empty_eq]
  · simp only [F33, map_add, map_mul, map_pow, map_ofNat, map_zero, constantCoeff_C]
  all_goals free_tac'

variable (g' : σ → R) (h' : σ → σ → R)

omit hs in
theorem EP_1 (a : σ) : Eo mu {a} (Q {a} g h * Q {a} g' h')
    = P1 0 (g a) (h a a) 0 (g' a) (h' a a) (mu a 3) (mu a 4) := by
  rw [Q_one, Q_one, single_eq, P1_step mu (Finset.notMem_empty a) (h1 a) (h2 a), Eo_empty_eq]
  · simp only [P1, map_add, map_mul, map_pow, map_ofNat, map_zero, constantCoeff_C]
  all_goals free_tac'

theorem EP_2 (hs' : ∀ i j, h' i j = h' j i) {a b : σ} (hab : b ≠ a) :
    Eo mu (insert b {a}) (Q (insert b {a}) g h * Q (insert b {a}) g' h')
    = P2 0 (g a) (h a a) (g b) (2 * h a b) (h b b) 0 (g' a) (h' a a) (g' b) (2 * h' a b) (h' b b)
        (mu b 3) (mu b 4) := by
  have hab' := hab.symm
  rw [Q_two hs hab, Q_two hs' hab, P1_step mu (by simpa using hab) (h1 b) (h2 b), 
    single_eq, P2_step mu (Finset.notMem_empty a) (h1 a) (h2 a), Eo_empty_eq]
  · simp only [P2, map_add, map_mul, map_pow, map_ofNat, map_zero, constantCoeff_C]
  all_goals free_tac'

end

end Expect
end Unc
