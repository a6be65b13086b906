import Verif.Lemmas.Quad

/-!
# Expectations of powers of quadratic polynomials, one variable at a time

Generated by `tools/genexpand.py`.
-/

namespace Unc
namespace Expect
open MvPolynomial

variable {σ R : Type*} [LinearOrder σ] [CommRing R]

/-- Proves `Free` goals. -/
macro "free_tac" : tactic => `(tactic| repeat' with_reducible (first
  | assumption
  | refine Free.add ?_ ?_
  | refine Free.mul ?_ ?_
  | refine Free.pow ?_ _
  | exact Free.ofNat _
  | exact Free.C _
  | exact Free.zero
  | exact List.forall_mem_nil _
  | refine List.forall_mem_cons.2 ⟨?_, ?_⟩))

/-- Expansion step. -/
def F31 {α : Type*} [CommRing α] (A B K c3 c4 c5 c6 : α) : α :=
  6 * A * B * K * c3 + 3 * A * B ^ 2 + 3 * A * K ^ 2 * c4 + 3 * A ^ 2 * K + 3 * B * K ^ 2 * c5
    + 3 * B ^ 2 * K * c4 + B ^ 3 * c3 + K ^ 3 * c6

set_option maxHeartbeats 1000000 in
theorem F31_poly {α : Type*} [CommRing α] (x A B K : α) :
    ((A + B * x + K * x ^ 2)) ^ 3 = polyL x [A ^ 3, 3 * A ^ 2 * B, 3 * A * B ^ 2 + 3 * A ^ 2 * K, 6 * A * B * K + B ^ 3, 3 * A * K ^ 2 + 3 * B ^ 2 * K, 3 * B * K ^ 2, K ^ 3] := by
  simp only [polyL]; ring

theorem F31_step (mu : σ → ℕ → R) {d : σ} {T : Finset σ} (hd : d ∉ T) (h1 : mu d 1 = 0) (h2 : mu d 2 = 1)
    {A B K : MvPolynomial σ R} (_hA : Free d A) (_hB : Free d B) (_hK : Free d K) :
    Eo mu (insert d T) (((A + B * X d + K * X d ^ 2)) ^ 3) = Eo mu T (F31 A B K (C (mu d 3)) (C (mu d 4)) (C (mu d 5)) (C (mu d 6))) := by
  rw [F31_poly, Eo_list mu hd h1 h2 _ _ _ _ (by free_tac) (by free_tac) (by free_tac) (by free_tac)]
  refine congrArg (Eo mu T) ?_
  simp only [dotL, F31]; ring

/-- Expansion step. -/
def F32 {α : Type*} [CommRing α] (A0 A1 A2 B0 B1 K c3 c4 c5 c6 b3 b4 : α) : α :=
  6 * A0 * A2 * K + 3 * A0 * B1 ^ 2 + 6 * A1 * A2 * K * b3 + 6 * A1 * B0 * B1 + 6 * A1 * B1 * K * c3
    + 3 * A1 * B1 ^ 2 * b3 + 3 * A1 ^ 2 * K + 6 * A2 * B0 * B1 * b3 + 6 * A2 * B0 * K * c3 + 3 * A2 * B0 ^ 2
    + 6 * A2 * B1 * K * b3 * c3 + 3 * A2 * B1 ^ 2 * b4 + 3 * A2 * K ^ 2 * c4 + 3 * A2 ^ 2 * K * b4
    + 3 * B0 * B1 ^ 2 * c3 + 3 * B1 ^ 2 * K * c4 + B1 ^ 3 * b3 * c3

set_option maxHeartbeats 1000000 in
theorem F32_poly {α : Type*} [CommRing α] (x A0 A1 A2 B0 B1 K c3 c4 c5 c6 : α) :
    F31 (A0 + A1 * x + A2 * x ^ 2) (B0 + B1 * x) K c3 c4 c5 c6 = polyL x [6 * A0 * B0 * K * c3 + 3 * A0 * B0 ^ 2 + 3 * A0 * K ^ 2 * c4 + 3 * A0 ^ 2 * K + 3 * B0 * K ^ 2 * c5
        + 3 * B0 ^ 2 * K * c4 + B0 ^ 3 * c3 + K ^ 3 * c6, 6 * A0 * A1 * K + 6 * A0 * B0 * B1 + 6 * A0 * B1 * K * c3 + 6 * A1 * B0 * K * c3 + 3 * A1 * B0 ^ 2
        + 3 * A1 * K ^ 2 * c4 + 6 * B0 * B1 * K * c4 + 3 * B0 ^ 2 * B1 * c3 + 3 * B1 * K ^ 2 * c5, 6 * A0 * A2 * K + 3 * A0 * B1 ^ 2 + 6 * A1 * B0 * B1 + 6 * A1 * B1 * K * c3 + 3 * A1 ^ 2 * K
        + 6 * A2 * B0 * K * c3 + 3 * A2 * B0 ^ 2 + 3 * A2 * K ^ 2 * c4 + 3 * B0 * B1 ^ 2 * c3
        + 3 * B1 ^ 2 * K * c4, 6 * A1 * A2 * K + 3 * A1 * B1 ^ 2 + 6 * A2 * B0 * B1 + 6 * A2 * B1 * K * c3 + B1 ^ 3 * c3, 3 * A2 * B1 ^ 2 + 3 * A2 ^ 2 * K] := by
  simp only [polyL, F31]; ring

theorem F32_step (mu : σ → ℕ → R) {d : σ} {T : Finset σ} (hd : d ∉ T) (h1 : mu d 1 = 0) (h2 : mu d 2 = 1)
    {A0 A1 A2 B0 B1 K c3 c4 c5 c6 : MvPolynomial σ R} (_hA0 : Free d A0) (_hA1 : Free d A1) (_hA2 : Free d A2) (_hB0 : Free d B0) (_hB1 : Free d B1) (_hK : Free d K) (_hc3 : Free d c3) (_hc4 : Free d c4) (_hc5 : Free d c5) (_hc6 : Free d c6) :
    Eo mu (insert d T) (F31 (A0 + A1 * X d + A2 * X d ^ 2) (B0 + B1 * X d) K c3 c4 c5 c6) = Eo mu T (F32 A0 A1 A2 B0 B1 K c3 c4 c5 c6 (C (mu d 3)) (C (mu d 4))) := by
  rw [F32_poly, Eo_list mu hd h1 h2 _ _ _ _ (by free_tac) (by free_tac) (by free_tac) (by free_tac)]
  refine congrArg (Eo mu T) ?_
  simp only [dotL, F32]; ring

/-- Expansion step. -/
def F33 {α : Type*} [CommRing α] (A00 A01 A02 A10 A11 A2 B00 B01 B1 K c3 c4 c5 c6 b3 b4 : α) : α :=
  6 * A02 * A2 * K + 3 * A02 * B1 ^ 2 + 6 * A11 * B01 * B1 + 3 * A11 ^ 2 * K + 3 * A2 * B01 ^ 2

set_option maxHeartbeats 1000000 in
theorem F33_poly {α : Type*} [CommRing α] (x A00 A01 A02 A10 A11 A2 B00 B01 B1 K c3 c4 c5 c6 b3 b4 : α) :
    F32 (A00 + A01 * x + A02 * x ^ 2) (A10 + A11 * x) A2 (B00 + B01 * x) B1 K c3 c4 c5 c6 b3 b4 = polyL x [6 * A00 * A2 * K + 3 * A00 * B1 ^ 2 + 6 * A10 * A2 * K * b3 + 6 * A10 * B00 * B1 + 6 * A10 * B1 * K * c3
        + 3 * A10 * B1 ^ 2 * b3 + 3 * A10 ^ 2 * K + 6 * A2 * B00 * B1 * b3 + 6 * A2 * B00 * K * c3
        + 3 * A2 * B00 ^ 2 + 6 * A2 * B1 * K * b3 * c3 + 3 * A2 * B1 ^ 2 * b4 + 3 * A2 * K ^ 2 * c4
        + 3 * A2 ^ 2 * K * b4 + 3 * B00 * B1 ^ 2 * c3 + 3 * B1 ^ 2 * K * c4 + B1 ^ 3 * b3 * c3, 6 * A01 * A2 * K + 3 * A01 * B1 ^ 2 + 6 * A10 * A11 * K + 6 * A10 * B01 * B1 + 6 * A11 * A2 * K * b3
        + 6 * A11 * B00 * B1 + 6 * A11 * B1 * K * c3 + 3 * A11 * B1 ^ 2 * b3 + 6 * A2 * B00 * B01
        + 6 * A2 * B01 * B1 * b3 + 6 * A2 * B01 * K * c3 + 3 * B01 * B1 ^ 2 * c3, 6 * A02 * A2 * K + 3 * A02 * B1 ^ 2 + 6 * A11 * B01 * B1 + 3 * A11 ^ 2 * K + 3 * A2 * B01 ^ 2] := by
  simp only [polyL, F32]; ring

theorem F33_step (mu : σ → ℕ → R) {d : σ} {T : Finset σ} (hd : d ∉ T) (h1 : mu d 1 = 0) (h2 : mu d 2 = 1)
    {A00 A01 A02 A10 A11 A2 B00 B01 B1 K c3 c4 c5 c6 b3 b4 : MvPolynomial σ R} (_hA00 : Free d A00) (_hA01 : Free d A01) (_hA02 : Free d A02) (_hA10 : Free d A10) (_hA11 : Free d A11) (_hA2 : Free d A2) (_hB00 : Free d B00) (_hB01 : Free d B01) (_hB1 : Free d B1) (_hK : Free d K) (_hc3 : Free d c3) (_hc4 : Free d c4) (_hc5 : Free d c5) (_hc6 : Free d c6) (_hb3 : Free d b3) (_hb4 : Free d b4) :
    Eo mu (insert d T) (F32 (A00 + A01 * X d + A02 * X d ^ 2) (A10 + A11 * X d) A2 (B00 + B01 * X d) B1 K c3 c4 c5 c6 b3 b4) = Eo mu T (F33 A00 A01 A02 A10 A11 A2 B00 B01 B1 K c3 c4 c5 c6 b3 b4) := by
  rw [F33_poly, Eo_list mu hd h1 h2 _ _ _ _ (by free_tac) (by free_tac) (by free_tac) (by free_tac)]
  refine congrArg (Eo mu T) ?_
  simp only [dotL, F33]; ring

/-- Expansion step. -/
def F41 {α : Type*} [CommRing α] (A B K c3 c4 c5 c6 c7 c8 : α) : α :=
  12 * A * B * K ^ 2 * c5 + 12 * A * B ^ 2 * K * c4 + 4 * A * B ^ 3 * c3 + 4 * A * K ^ 3 * c6
    + 12 * A ^ 2 * B * K * c3 + 6 * A ^ 2 * B ^ 2 + 6 * A ^ 2 * K ^ 2 * c4 + 4 * A ^ 3 * K + 4 * B * K ^ 3 * c7
    + 6 * B ^ 2 * K ^ 2 * c6 + 4 * B ^ 3 * K * c5 + B ^ 4 * c4 + K ^ 4 * c8

set_option maxHeartbeats 1000000 in
theorem F41_poly {α : Type*} [CommRing α] (x A B K : α) :
    ((A + B * x + K * x ^ 2)) ^ 4 = polyL x [A ^ 4, 4 * A ^ 3 * B, 6 * A ^ 2 * B ^ 2 + 4 * A ^ 3 * K, 4 * A * B ^ 3 + 12 * A ^ 2 * B * K, 12 * A * B ^ 2 * K + 6 * A ^ 2 * K ^ 2 + B ^ 4, 12 * A * B * K ^ 2 + 4 * B ^ 3 * K, 4 * A * K ^ 3 + 6 * B ^ 2 * K ^ 2, 4 * B * K ^ 3, K ^ 4] := by
  simp only [polyL]; ring

theorem F41_step (mu : σ → ℕ → R) {d : σ} {T : Finset σ} (hd : d ∉ T) (h1 : mu d 1 = 0) (h2 : mu d 2 = 1)
    {A B K : MvPolynomial σ R} (_hA : Free d A) (_hB : Free d B) (_hK : Free d K) :
    Eo mu (insert d T) (((A + B * X d + K * X d ^ 2)) ^ 4) = Eo mu T (F41 A B K (C (mu d 3)) (C (mu d 4)) (C (mu d 5)) (C (mu d 6)) (C (mu d 7)) (C (mu d 8))) := by
  rw [F41_poly, Eo_list mu hd h1 h2 _ _ _ _ (by free_tac) (by free_tac) (by free_tac) (by free_tac)]
  refine congrArg (Eo mu T) ?_
  simp only [dotL, F41]; ring

/-- Expansion step. -/
def F42 {α : Type*} [CommRing α] (A0 A1 A2 B0 B1 K c3 c4 c5 c6 c7 c8 b3 b4 b5 b6 : α) : α :=
  24 * A0 * A1 * A2 * K * b3 + 24 * A0 * A1 * B0 * B1 + 24 * A0 * A1 * B1 * K * c3
    + 12 * A0 * A1 * B1 ^ 2 * b3 + 12 * A0 * A1 ^ 2 * K + 24 * A0 * A2 * B0 * B1 * b3
    + 24 * A0 * A2 * B0 * K * c3 + 12 * A0 * A2 * B0 ^ 2 + 24 * A0 * A2 * B1 * K * b3 * c3
    + 12 * A0 * A2 * B1 ^ 2 * b4 + 12 * A0 * A2 * K ^ 2 * c4 + 12 * A0 * A2 ^ 2 * K * b4
    + 12 * A0 * B0 * B1 ^ 2 * c3 + 12 * A0 * B1 ^ 2 * K * c4 + 4 * A0 * B1 ^ 3 * b3 * c3 + 12 * A0 ^ 2 * A2 * K
    + 6 * A0 ^ 2 * B1 ^ 2 + 24 * A1 * A2 * B0 * B1 * b4 + 24 * A1 * A2 * B0 * K * b3 * c3
    + 12 * A1 * A2 * B0 ^ 2 * b3 + 24 * A1 * A2 * B1 * K * b4 * c3 + 12 * A1 * A2 * B1 ^ 2 * b5
    + 12 * A1 * A2 * K ^ 2 * b3 * c4 + 12 * A1 * A2 ^ 2 * K * b5 + 24 * A1 * B0 * B1 * K * c4
    + 12 * A1 * B0 * B1 ^ 2 * b3 * c3 + 12 * A1 * B0 ^ 2 * B1 * c3 + 12 * A1 * B1 * K ^ 2 * c5
    + 12 * A1 * B1 ^ 2 * K * b3 * c4 + 4 * A1 * B1 ^ 3 * b4 * c3 + 12 * A1 ^ 2 * A2 * K * b4
    + 12 * A1 ^ 2 * B0 * B1 * b3 + 12 * A1 ^ 2 * B0 * K * c3 + 6 * A1 ^ 2 * B0 ^ 2
    + 12 * A1 ^ 2 * B1 * K * b3 * c3 + 6 * A1 ^ 2 * B1 ^ 2 * b4 + 6 * A1 ^ 2 * K ^ 2 * c4 + 4 * A1 ^ 3 * K * b3
    + 24 * A2 * B0 * B1 * K * b3 * c4 + 12 * A2 * B0 * B1 ^ 2 * b4 * c3 + 12 * A2 * B0 * K ^ 2 * c5
    + 12 * A2 * B0 ^ 2 * B1 * b3 * c3 + 12 * A2 * B0 ^ 2 * K * c4 + 4 * A2 * B0 ^ 3 * c3
    + 12 * A2 * B1 * K ^ 2 * b3 * c5 + 12 * A2 * B1 ^ 2 * K * b4 * c4 + 4 * A2 * B1 ^ 3 * b5 * c3
    + 4 * A2 * K ^ 3 * c6 + 12 * A2 ^ 2 * B0 * B1 * b5 + 12 * A2 ^ 2 * B0 * K * b4 * c3
    + 6 * A2 ^ 2 * B0 ^ 2 * b4 + 12 * A2 ^ 2 * B1 * K * b5 * c3 + 6 * A2 ^ 2 * B1 ^ 2 * b6
    + 6 * A2 ^ 2 * K ^ 2 * b4 * c4 + 4 * A2 ^ 3 * K * b6 + 12 * B0 * B1 ^ 2 * K * c5 + 4 * B0 * B1 ^ 3 * b3 * c4
    + 6 * B0 ^ 2 * B1 ^ 2 * c4 + 6 * B1 ^ 2 * K ^ 2 * c6 + 4 * B1 ^ 3 * K * b3 * c5 + B1 ^ 4 * b4 * c4

set_option maxHeartbeats 1000000 in
theorem F42_poly {α : Type*} [CommRing α] (x A0 A1 A2 B0 B1 K c3 c4 c5 c6 c7 c8 : α) :
    F41 (A0 + A1 * x + A2 * x ^ 2) (B0 + B1 * x) K c3 c4 c5 c6 c7 c8 = polyL x [12 * A0 * B0 * K ^ 2 * c5 + 12 * A0 * B0 ^ 2 * K * c4 + 4 * A0 * B0 ^ 3 * c3 + 4 * A0 * K ^ 3 * c6
        + 12 * A0 ^ 2 * B0 * K * c3 + 6 * A0 ^ 2 * B0 ^ 2 + 6 * A0 ^ 2 * K ^ 2 * c4 + 4 * A0 ^ 3 * K
        + 4 * B0 * K ^ 3 * c7 + 6 * B0 ^ 2 * K ^ 2 * c6 + 4 * B0 ^ 3 * K * c5 + B0 ^ 4 * c4 + K ^ 4 * c8, 24 * A0 * A1 * B0 * K * c3 + 12 * A0 * A1 * B0 ^ 2 + 12 * A0 * A1 * K ^ 2 * c4
        + 24 * A0 * B0 * B1 * K * c4 + 12 * A0 * B0 ^ 2 * B1 * c3 + 12 * A0 * B1 * K ^ 2 * c5
        + 12 * A0 ^ 2 * A1 * K + 12 * A0 ^ 2 * B0 * B1 + 12 * A0 ^ 2 * B1 * K * c3 + 12 * A1 * B0 * K ^ 2 * c5
        + 12 * A1 * B0 ^ 2 * K * c4 + 4 * A1 * B0 ^ 3 * c3 + 4 * A1 * K ^ 3 * c6 + 12 * B0 * B1 * K ^ 2 * c6
        + 12 * B0 ^ 2 * B1 * K * c5 + 4 * B0 ^ 3 * B1 * c4 + 4 * B1 * K ^ 3 * c7, 24 * A0 * A1 * B0 * B1 + 24 * A0 * A1 * B1 * K * c3 + 12 * A0 * A1 ^ 2 * K + 24 * A0 * A2 * B0 * K * c3
        + 12 * A0 * A2 * B0 ^ 2 + 12 * A0 * A2 * K ^ 2 * c4 + 12 * A0 * B0 * B1 ^ 2 * c3
        + 12 * A0 * B1 ^ 2 * K * c4 + 12 * A0 ^ 2 * A2 * K + 6 * A0 ^ 2 * B1 ^ 2 + 24 * A1 * B0 * B1 * K * c4
        + 12 * A1 * B0 ^ 2 * B1 * c3 + 12 * A1 * B1 * K ^ 2 * c5 + 12 * A1 ^ 2 * B0 * K * c3
        + 6 * A1 ^ 2 * B0 ^ 2 + 6 * A1 ^ 2 * K ^ 2 * c4 + 12 * A2 * B0 * K ^ 2 * c5 + 12 * A2 * B0 ^ 2 * K * c4
        + 4 * A2 * B0 ^ 3 * c3 + 4 * A2 * K ^ 3 * c6 + 12 * B0 * B1 ^ 2 * K * c5 + 6 * B0 ^ 2 * B1 ^ 2 * c4
        + 6 * B1 ^ 2 * K ^ 2 * c6, 24 * A0 * A1 * A2 * K + 12 * A0 * A1 * B1 ^ 2 + 24 * A0 * A2 * B0 * B1 + 24 * A0 * A2 * B1 * K * c3
        + 4 * A0 * B1 ^ 3 * c3 + 24 * A1 * A2 * B0 * K * c3 + 12 * A1 * A2 * B0 ^ 2 + 12 * A1 * A2 * K ^ 2 * c4
        + 12 * A1 * B0 * B1 ^ 2 * c3 + 12 * A1 * B1 ^ 2 * K * c4 + 12 * A1 ^ 2 * B0 * B1
        + 12 * A1 ^ 2 * B1 * K * c3 + 4 * A1 ^ 3 * K + 24 * A2 * B0 * B1 * K * c4 + 12 * A2 * B0 ^ 2 * B1 * c3
        + 12 * A2 * B1 * K ^ 2 * c5 + 4 * B0 * B1 ^ 3 * c4 + 4 * B1 ^ 3 * K * c5, 12 * A0 * A2 * B1 ^ 2 + 12 * A0 * A2 ^ 2 * K + 24 * A1 * A2 * B0 * B1 + 24 * A1 * A2 * B1 * K * c3
        + 4 * A1 * B1 ^ 3 * c3 + 12 * A1 ^ 2 * A2 * K + 6 * A1 ^ 2 * B1 ^ 2 + 12 * A2 * B0 * B1 ^ 2 * c3
        + 12 * A2 * B1 ^ 2 * K * c4 + 12 * A2 ^ 2 * B0 * K * c3 + 6 * A2 ^ 2 * B0 ^ 2 + 6 * A2 ^ 2 * K ^ 2 * c4
        + B1 ^ 4 * c4, 12 * A1 * A2 * B1 ^ 2 + 12 * A1 * A2 ^ 2 * K + 4 * A2 * B1 ^ 3 * c3 + 12 * A2 ^ 2 * B0 * B1
        + 12 * A2 ^ 2 * B1 * K * c3, 6 * A2 ^ 2 * B1 ^ 2 + 4 * A2 ^ 3 * K] := by
  simp only [polyL, F41]; ring

theorem F42_step (mu : σ → ℕ → R) {d : σ} {T : Finset σ} (hd : d ∉ T) (h1 : mu d 1 = 0) (h2 : mu d 2 = 1)
    {A0 A1 A2 B0 B1 K c3 c4 c5 c6 c7 c8 : MvPolynomial σ R} (_hA0 : Free d A0) (_hA1 : Free d A1) (_hA2 : Free d A2) (_hB0 : Free d B0) (_hB1 : Free d B1) (_hK : Free d K) (_hc3 : Free d c3) (_hc4 : Free d c4) (_hc5 : Free d c5) (_hc6 : Free d c6) (_hc7 : Free d c7) (_hc8 : Free d c8) :
    Eo mu (insert d T) (F41 (A0 + A1 * X d + A2 * X d ^ 2) (B0 + B1 * X d) K c3 c4 c5 c6 c7 c8) = Eo mu T (F42 A0 A1 A2 B0 B1 K c3 c4 c5 c6 c7 c8 (C (mu d 3)) (C (mu d 4)) (C (mu d 5)) (C (mu d 6))) := by
  rw [F42_poly, Eo_list mu hd h1 h2 _ _ _ _ (by free_tac) (by free_tac) (by free_tac) (by free_tac)]
  refine congrArg (Eo mu T) ?_
  simp only [dotL, F42]; ring

/-- Expansion step. -/
def F43 {α : Type*} [CommRing α] (A00 A01 A02 A10 A11 A2 B00 B01 B1 K c3 c4 c5 c6 c7 c8 b3 b4 b5 b6 a3 a4 : α) : α :=
  24 * A00 * A02 * A2 * K + 12 * A00 * A02 * B1 ^ 2 + 24 * A00 * A11 * B01 * B1 + 12 * A00 * A11 ^ 2 * K
    + 12 * A00 * A2 * B01 ^ 2 + 24 * A01 * A02 * A2 * K * a3 + 12 * A01 * A02 * B1 ^ 2 * a3
    + 24 * A01 * A10 * A11 * K + 24 * A01 * A10 * B01 * B1 + 24 * A01 * A11 * A2 * K * b3
    + 24 * A01 * A11 * B00 * B1 + 24 * A01 * A11 * B01 * B1 * a3 + 24 * A01 * A11 * B1 * K * c3
    + 12 * A01 * A11 * B1 ^ 2 * b3 + 12 * A01 * A11 ^ 2 * K * a3 + 24 * A01 * A2 * B00 * B01
    + 24 * A01 * A2 * B01 * B1 * b3 + 24 * A01 * A2 * B01 * K * c3 + 12 * A01 * A2 * B01 ^ 2 * a3
    + 12 * A01 * B01 * B1 ^ 2 * c3 + 12 * A01 ^ 2 * A2 * K + 6 * A01 ^ 2 * B1 ^ 2
    + 24 * A02 * A10 * A11 * K * a3 + 24 * A02 * A10 * A2 * K * b3 + 24 * A02 * A10 * B00 * B1
    + 24 * A02 * A10 * B01 * B1 * a3 + 24 * A02 * A10 * B1 * K * c3 + 12 * A02 * A10 * B1 ^ 2 * b3
    + 12 * A02 * A10 ^ 2 * K + 24 * A02 * A11 * A2 * K * a3 * b3 + 24 * A02 * A11 * B00 * B1 * a3
    + 24 * A02 * A11 * B01 * B1 * a4 + 24 * A02 * A11 * B1 * K * a3 * c3 + 12 * A02 * A11 * B1 ^ 2 * a3 * b3
    + 12 * A02 * A11 ^ 2 * K * a4 + 24 * A02 * A2 * B00 * B01 * a3 + 24 * A02 * A2 * B00 * B1 * b3
    + 24 * A02 * A2 * B00 * K * c3 + 12 * A02 * A2 * B00 ^ 2 + 24 * A02 * A2 * B01 * B1 * a3 * b3
    + 24 * A02 * A2 * B01 * K * a3 * c3 + 12 * A02 * A2 * B01 ^ 2 * a4 + 24 * A02 * A2 * B1 * K * b3 * c3
    + 12 * A02 * A2 * B1 ^ 2 * b4 + 12 * A02 * A2 * K ^ 2 * c4 + 12 * A02 * A2 ^ 2 * K * b4
    + 12 * A02 * B00 * B1 ^ 2 * c3 + 12 * A02 * B01 * B1 ^ 2 * a3 * c3 + 12 * A02 * B1 ^ 2 * K * c4
    + 4 * A02 * B1 ^ 3 * b3 * c3 + 12 * A02 ^ 2 * A2 * K * a4 + 6 * A02 ^ 2 * B1 ^ 2 * a4
    + 24 * A10 * A11 * B00 * B01 + 24 * A10 * A11 * B01 * B1 * b3 + 24 * A10 * A11 * B01 * K * c3
    + 12 * A10 * A11 * B01 ^ 2 * a3 + 12 * A10 * A11 ^ 2 * K * b3 + 12 * A10 * A2 * B01 ^ 2 * b3
    + 12 * A10 * B01 ^ 2 * B1 * c3 + 6 * A10 ^ 2 * B01 ^ 2 + 24 * A11 * A2 * B00 * B01 * b3
    + 24 * A11 * A2 * B01 * B1 * b4 + 24 * A11 * A2 * B01 * K * b3 * c3 + 12 * A11 * A2 * B01 ^ 2 * a3 * b3
    + 24 * A11 * B00 * B01 * B1 * c3 + 24 * A11 * B01 * B1 * K * c4 + 12 * A11 * B01 * B1 ^ 2 * b3 * c3
    + 12 * A11 * B01 ^ 2 * B1 * a3 * c3 + 12 * A11 ^ 2 * A2 * K * b4 + 12 * A11 ^ 2 * B00 * B01 * a3
    + 12 * A11 ^ 2 * B00 * B1 * b3 + 12 * A11 ^ 2 * B00 * K * c3 + 6 * A11 ^ 2 * B00 ^ 2
    + 12 * A11 ^ 2 * B01 * B1 * a3 * b3 + 12 * A11 ^ 2 * B01 * K * a3 * c3 + 6 * A11 ^ 2 * B01 ^ 2 * a4
    + 12 * A11 ^ 2 * B1 * K * b3 * c3 + 6 * A11 ^ 2 * B1 ^ 2 * b4 + 6 * A11 ^ 2 * K ^ 2 * c4
    + 4 * A11 ^ 3 * K * a3 * b3 + 12 * A2 * B00 * B01 ^ 2 * c3 + 12 * A2 * B01 ^ 2 * B1 * b3 * c3
    + 12 * A2 * B01 ^ 2 * K * c4 + 4 * A2 * B01 ^ 3 * a3 * c3 + 6 * A2 ^ 2 * B01 ^ 2 * b4
    + 6 * B01 ^ 2 * B1 ^ 2 * c4

set_option maxHeartbeats 1000000 in
theorem F43_poly {α : Type*} [CommRing α] (x A00 A01 A02 A10 A11 A2 B00 B01 B1 K c3 c4 c5 c6 c7 c8 b3 b4 b5 b6 : α) :
    F42 (A00 + A01 * x + A02 * x ^ 2) (A10 + A11 * x) A2 (B00 + B01 * x) B1 K c3 c4 c5 c6 c7 c8 b3 b4 b5 b6 = polyL x [24 * A00 * A10 * A2 * K * b3 + 24 * A00 * A10 * B00 * B1 + 24 * A00 * A10 * B1 * K * c3
        + 12 * A00 * A10 * B1 ^ 2 * b3 + 12 * A00 * A10 ^ 2 * K + 24 * A00 * A2 * B00 * B1 * b3
        + 24 * A00 * A2 * B00 * K * c3 + 12 * A00 * A2 * B00 ^ 2 + 24 * A00 * A2 * B1 * K * b3 * c3
        + 12 * A00 * A2 * B1 ^ 2 * b4 + 12 * A00 * A2 * K ^ 2 * c4 + 12 * A00 * A2 ^ 2 * K * b4
        + 12 * A00 * B00 * B1 ^ 2 * c3 + 12 * A00 * B1 ^ 2 * K * c4 + 4 * A00 * B1 ^ 3 * b3 * c3
        + 12 * A00 ^ 2 * A2 * K + 6 * A00 ^ 2 * B1 ^ 2 + 24 * A10 * A2 * B00 * B1 * b4
        + 24 * A10 * A2 * B00 * K * b3 * c3 + 12 * A10 * A2 * B00 ^ 2 * b3 + 24 * A10 * A2 * B1 * K * b4 * c3
        + 12 * A10 * A2 * B1 ^ 2 * b5 + 12 * A10 * A2 * K ^ 2 * b3 * c4 + 12 * A10 * A2 ^ 2 * K * b5
        + 24 * A10 * B00 * B1 * K * c4 + 12 * A10 * B00 * B1 ^ 2 * b3 * c3 + 12 * A10 * B00 ^ 2 * B1 * c3
        + 12 * A10 * B1 * K ^ 2 * c5 + 12 * A10 * B1 ^ 2 * K * b3 * c4 + 4 * A10 * B1 ^ 3 * b4 * c3
        + 12 * A10 ^ 2 * A2 * K * b4 + 12 * A10 ^ 2 * B00 * B1 * b3 + 12 * A10 ^ 2 * B00 * K * c3
        + 6 * A10 ^ 2 * B00 ^ 2 + 12 * A10 ^ 2 * B1 * K * b3 * c3 + 6 * A10 ^ 2 * B1 ^ 2 * b4
        + 6 * A10 ^ 2 * K ^ 2 * c4 + 4 * A10 ^ 3 * K * b3 + 24 * A2 * B00 * B1 * K * b3 * c4
        + 12 * A2 * B00 * B1 ^ 2 * b4 * c3 + 12 * A2 * B00 * K ^ 2 * c5 + 12 * A2 * B00 ^ 2 * B1 * b3 * c3
        + 12 * A2 * B00 ^ 2 * K * c4 + 4 * A2 * B00 ^ 3 * c3 + 12 * A2 * B1 * K ^ 2 * b3 * c5
        + 12 * A2 * B1 ^ 2 * K * b4 * c4 + 4 * A2 * B1 ^ 3 * b5 * c3 + 4 * A2 * K ^ 3 * c6
        + 12 * A2 ^ 2 * B00 * B1 * b5 + 12 * A2 ^ 2 * B00 * K * b4 * c3 + 6 * A2 ^ 2 * B00 ^ 2 * b4
        + 12 * A2 ^ 2 * B1 * K * b5 * c3 + 6 * A2 ^ 2 * B1 ^ 2 * b6 + 6 * A2 ^ 2 * K ^ 2 * b4 * c4
        + 4 * A2 ^ 3 * K * b6 + 12 * B00 * B1 ^ 2 * K * c5 + 4 * B00 * B1 ^ 3 * b3 * c4
        + 6 * B00 ^ 2 * B1 ^ 2 * c4 + 6 * B1 ^ 2 * K ^ 2 * c6 + 4 * B1 ^ 3 * K * b3 * c5 + B1 ^ 4 * b4 * c4, 24 * A00 * A01 * A2 * K + 12 * A00 * A01 * B1 ^ 2 + 24 * A00 * A10 * A11 * K + 24 * A00 * A10 * B01 * B1
        + 24 * A00 * A11 * A2 * K * b3 + 24 * A00 * A11 * B00 * B1 + 24 * A00 * A11 * B1 * K * c3
        + 12 * A00 * A11 * B1 ^ 2 * b3 + 24 * A00 * A2 * B00 * B01 + 24 * A00 * A2 * B01 * B1 * b3
        + 24 * A00 * A2 * B01 * K * c3 + 12 * A00 * B01 * B1 ^ 2 * c3 + 24 * A01 * A10 * A2 * K * b3
        + 24 * A01 * A10 * B00 * B1 + 24 * A01 * A10 * B1 * K * c3 + 12 * A01 * A10 * B1 ^ 2 * b3
        + 12 * A01 * A10 ^ 2 * K + 24 * A01 * A2 * B00 * B1 * b3 + 24 * A01 * A2 * B00 * K * c3
        + 12 * A01 * A2 * B00 ^ 2 + 24 * A01 * A2 * B1 * K * b3 * c3 + 12 * A01 * A2 * B1 ^ 2 * b4
        + 12 * A01 * A2 * K ^ 2 * c4 + 12 * A01 * A2 ^ 2 * K * b4 + 12 * A01 * B00 * B1 ^ 2 * c3
        + 12 * A01 * B1 ^ 2 * K * c4 + 4 * A01 * B1 ^ 3 * b3 * c3 + 24 * A10 * A11 * A2 * K * b4
        + 24 * A10 * A11 * B00 * B1 * b3 + 24 * A10 * A11 * B00 * K * c3 + 12 * A10 * A11 * B00 ^ 2
        + 24 * A10 * A11 * B1 * K * b3 * c3 + 12 * A10 * A11 * B1 ^ 2 * b4 + 12 * A10 * A11 * K ^ 2 * c4
        + 24 * A10 * A2 * B00 * B01 * b3 + 24 * A10 * A2 * B01 * B1 * b4 + 24 * A10 * A2 * B01 * K * b3 * c3
        + 24 * A10 * B00 * B01 * B1 * c3 + 24 * A10 * B01 * B1 * K * c4 + 12 * A10 * B01 * B1 ^ 2 * b3 * c3
        + 12 * A10 ^ 2 * A11 * K * b3 + 12 * A10 ^ 2 * B00 * B01 + 12 * A10 ^ 2 * B01 * B1 * b3
        + 12 * A10 ^ 2 * B01 * K * c3 + 24 * A11 * A2 * B00 * B1 * b4 + 24 * A11 * A2 * B00 * K * b3 * c3
        + 12 * A11 * A2 * B00 ^ 2 * b3 + 24 * A11 * A2 * B1 * K * b4 * c3 + 12 * A11 * A2 * B1 ^ 2 * b5
        + 12 * A11 * A2 * K ^ 2 * b3 * c4 + 12 * A11 * A2 ^ 2 * K * b5 + 24 * A11 * B00 * B1 * K * c4
        + 12 * A11 * B00 * B1 ^ 2 * b3 * c3 + 12 * A11 * B00 ^ 2 * B1 * c3 + 12 * A11 * B1 * K ^ 2 * c5
        + 12 * A11 * B1 ^ 2 * K * b3 * c4 + 4 * A11 * B1 ^ 3 * b4 * c3 + 24 * A2 * B00 * B01 * B1 * b3 * c3
        + 24 * A2 * B00 * B01 * K * c4 + 12 * A2 * B00 ^ 2 * B01 * c3 + 24 * A2 * B01 * B1 * K * b3 * c4
        + 12 * A2 * B01 * B1 ^ 2 * b4 * c3 + 12 * A2 * B01 * K ^ 2 * c5 + 12 * A2 ^ 2 * B00 * B01 * b4
        + 12 * A2 ^ 2 * B01 * B1 * b5 + 12 * A2 ^ 2 * B01 * K * b4 * c3 + 12 * B00 * B01 * B1 ^ 2 * c4
        + 12 * B01 * B1 ^ 2 * K * c5 + 4 * B01 * B1 ^ 3 * b3 * c4, 24 * A00 * A02 * A2 * K + 12 * A00 * A02 * B1 ^ 2 + 24 * A00 * A11 * B01 * B1 + 12 * A00 * A11 ^ 2 * K
        + 12 * A00 * A2 * B01 ^ 2 + 24 * A01 * A10 * A11 * K + 24 * A01 * A10 * B01 * B1
        + 24 * A01 * A11 * A2 * K * b3 + 24 * A01 * A11 * B00 * B1 + 24 * A01 * A11 * B1 * K * c3
        + 12 * A01 * A11 * B1 ^ 2 * b3 + 24 * A01 * A2 * B00 * B01 + 24 * A01 * A2 * B01 * B1 * b3
        + 24 * A01 * A2 * B01 * K * c3 + 12 * A01 * B01 * B1 ^ 2 * c3 + 12 * A01 ^ 2 * A2 * K
        + 6 * A01 ^ 2 * B1 ^ 2 + 24 * A02 * A10 * A2 * K * b3 + 24 * A02 * A10 * B00 * B1
        + 24 * A02 * A10 * B1 * K * c3 + 12 * A02 * A10 * B1 ^ 2 * b3 + 12 * A02 * A10 ^ 2 * K
        + 24 * A02 * A2 * B00 * B1 * b3 + 24 * A02 * A2 * B00 * K * c3 + 12 * A02 * A2 * B00 ^ 2
        + 24 * A02 * A2 * B1 * K * b3 * c3 + 12 * A02 * A2 * B1 ^ 2 * b4 + 12 * A02 * A2 * K ^ 2 * c4
        + 12 * A02 * A2 ^ 2 * K * b4 + 12 * A02 * B00 * B1 ^ 2 * c3 + 12 * A02 * B1 ^ 2 * K * c4
        + 4 * A02 * B1 ^ 3 * b3 * c3 + 24 * A10 * A11 * B00 * B01 + 24 * A10 * A11 * B01 * B1 * b3
        + 24 * A10 * A11 * B01 * K * c3 + 12 * A10 * A11 ^ 2 * K * b3 + 12 * A10 * A2 * B01 ^ 2 * b3
        + 12 * A10 * B01 ^ 2 * B1 * c3 + 6 * A10 ^ 2 * B01 ^ 2 + 24 * A11 * A2 * B00 * B01 * b3
        + 24 * A11 * A2 * B01 * B1 * b4 + 24 * A11 * A2 * B01 * K * b3 * c3 + 24 * A11 * B00 * B01 * B1 * c3
        + 24 * A11 * B01 * B1 * K * c4 + 12 * A11 * B01 * B1 ^ 2 * b3 * c3 + 12 * A11 ^ 2 * A2 * K * b4
        + 12 * A11 ^ 2 * B00 * B1 * b3 + 12 * A11 ^ 2 * B00 * K * c3 + 6 * A11 ^ 2 * B00 ^ 2
        + 12 * A11 ^ 2 * B1 * K * b3 * c3 + 6 * A11 ^ 2 * B1 ^ 2 * b4 + 6 * A11 ^ 2 * K ^ 2 * c4
        + 12 * A2 * B00 * B01 ^ 2 * c3 + 12 * A2 * B01 ^ 2 * B1 * b3 * c3 + 12 * A2 * B01 ^ 2 * K * c4
        + 6 * A2 ^ 2 * B01 ^ 2 * b4 + 6 * B01 ^ 2 * B1 ^ 2 * c4, 24 * A01 * A02 * A2 * K + 12 * A01 * A02 * B1 ^ 2 + 24 * A01 * A11 * B01 * B1 + 12 * A01 * A11 ^ 2 * K
        + 12 * A01 * A2 * B01 ^ 2 + 24 * A02 * A10 * A11 * K + 24 * A02 * A10 * B01 * B1
        + 24 * A02 * A11 * A2 * K * b3 + 24 * A02 * A11 * B00 * B1 + 24 * A02 * A11 * B1 * K * c3
        + 12 * A02 * A11 * B1 ^ 2 * b3 + 24 * A02 * A2 * B00 * B01 + 24 * A02 * A2 * B01 * B1 * b3
        + 24 * A02 * A2 * B01 * K * c3 + 12 * A02 * B01 * B1 ^ 2 * c3 + 12 * A10 * A11 * B01 ^ 2
        + 12 * A11 * A2 * B01 ^ 2 * b3 + 12 * A11 * B01 ^ 2 * B1 * c3 + 12 * A11 ^ 2 * B00 * B01
        + 12 * A11 ^ 2 * B01 * B1 * b3 + 12 * A11 ^ 2 * B01 * K * c3 + 4 * A11 ^ 3 * K * b3
        + 4 * A2 * B01 ^ 3 * c3, 24 * A02 * A11 * B01 * B1 + 12 * A02 * A11 ^ 2 * K + 12 * A02 * A2 * B01 ^ 2 + 12 * A02 ^ 2 * A2 * K
        + 6 * A02 ^ 2 * B1 ^ 2 + 6 * A11 ^ 2 * B01 ^ 2] := by
  simp only [polyL, F42]; ring

theorem F43_step (mu : σ → ℕ → R) {d : σ} {T : Finset σ} (hd : d ∉ T) (h1 : mu d 1 = 0) (h2 : mu d 2 = 1)
    {A00 A01 A02 A10 A11 A2 B00 B01 B1 K c3 c4 c5 c6 c7 c8 b3 b4 b5 b6 : MvPolynomial σ R} (_hA00 : Free d A00) (_hA01 : Free d A01) (_hA02 : Free d A02) (_hA10 : Free d A10) (_hA11 : Free d A11) (_hA2 : Free d A2) (_hB00 : Free d B00) (_hB01 : Free d B01) (_hB1 : Free d B1) (_hK : Free d K) (_hc3 : Free d c3) (_hc4 : Free d c4) (_hc5 : Free d c5) (_hc6 : Free d c6) (_hc7 : Free d c7) (_hc8 : Free d c8) (_hb3 : Free d b3) (_hb4 : Free d b4) (_hb5 : Free d b5) (_hb6 : Free d b6) :
    Eo mu (insert d T) (F42 (A00 + A01 * X d + A02 * X d ^ 2) (A10 + A11 * X d) A2 (B00 + B01 * X d) B1 K c3 c4 c5 c6 c7 c8 b3 b4 b5 b6) = Eo mu T (F43 A00 A01 A02 A10 A11 A2 B00 B01 B1 K c3 c4 c5 c6 c7 c8 b3 b4 b5 b6 (C (mu d 3)) (C (mu d 4))) := by
  rw [F43_poly, Eo_list mu hd h1 h2 _ _ _ _ (by free_tac) (by free_tac) (by free_tac) (by free_tac)]
  refine congrArg (Eo mu T) ?_
  simp only [dotL, F43]; ring

/-- Expansion step. -/
def F44 {α : Type*} [CommRing α] (A000 A001 A002 A010 A011 A02 A100 A101 A11 A2 B000 B001 B01 B1 K c3 c4 c5 c6 c7 c8 b3 b4 b5 b6 a3 a4 : α) : α :=
  24 * A002 * A02 * A2 * K + 12 * A002 * A02 * B1 ^ 2 + 24 * A002 * A11 * B01 * B1 + 12 * A002 * A11 ^ 2 * K
    + 12 * A002 * A2 * B01 ^ 2 + 24 * A011 * A101 * A11 * K + 24 * A011 * A101 * B01 * B1
    + 24 * A011 * A11 * B001 * B1 + 24 * A011 * A2 * B001 * B01 + 12 * A011 ^ 2 * A2 * K + 6 * A011 ^ 2 * B1 ^ 2
    + 24 * A02 * A101 * B001 * B1 + 12 * A02 * A101 ^ 2 * K + 12 * A02 * A2 * B001 ^ 2
    + 24 * A101 * A11 * B001 * B01 + 6 * A101 ^ 2 * B01 ^ 2 + 6 * A11 ^ 2 * B001 ^ 2

set_option maxHeartbeats 1000000 in
theorem F44_poly {α : Type*} [CommRing α] (x A000 A001 A002 A010 A011 A02 A100 A101 A11 A2 B000 B001 B01 B1 K c3 c4 c5 c6 c7 c8 b3 b4 b5 b6 a3 a4 : α) :
    F43 (A000 + A001 * x + A002 * x ^ 2) (A010 + A011 * x) A02 (A100 + A101 * x) A11 A2 (B000 + B001 * x) B01 B1 K c3 c4 c5 c6 c7 c8 b3 b4 b5 b6 a3 a4 = polyL x [24 * A000 * A02 * A2 * K + 12 * A000 * A02 * B1 ^ 2 + 24 * A000 * A11 * B01 * B1
        + 12 * A000 * A11 ^ 2 * K + 12 * A000 * A2 * B01 ^ 2 + 24 * A010 * A02 * A2 * K * a3
        + 12 * A010 * A02 * B1 ^ 2 * a3 + 24 * A010 * A100 * A11 * K + 24 * A010 * A100 * B01 * B1
        + 24 * A010 * A11 * A2 * K * b3 + 24 * A010 * A11 * B000 * B1 + 24 * A010 * A11 * B01 * B1 * a3
        + 24 * A010 * A11 * B1 * K * c3 + 12 * A010 * A11 * B1 ^ 2 * b3 + 12 * A010 * A11 ^ 2 * K * a3
        + 24 * A010 * A2 * B000 * B01 + 24 * A010 * A2 * B01 * B1 * b3 + 24 * A010 * A2 * B01 * K * c3
        + 12 * A010 * A2 * B01 ^ 2 * a3 + 12 * A010 * B01 * B1 ^ 2 * c3 + 12 * A010 ^ 2 * A2 * K
        + 6 * A010 ^ 2 * B1 ^ 2 + 24 * A02 * A100 * A11 * K * a3 + 24 * A02 * A100 * A2 * K * b3
        + 24 * A02 * A100 * B000 * B1 + 24 * A02 * A100 * B01 * B1 * a3 + 24 * A02 * A100 * B1 * K * c3
        + 12 * A02 * A100 * B1 ^ 2 * b3 + 12 * A02 * A100 ^ 2 * K + 24 * A02 * A11 * A2 * K * a3 * b3
        + 24 * A02 * A11 * B000 * B1 * a3 + 24 * A02 * A11 * B01 * B1 * a4 + 24 * A02 * A11 * B1 * K * a3 * c3
        + 12 * A02 * A11 * B1 ^ 2 * a3 * b3 + 12 * A02 * A11 ^ 2 * K * a4 + 24 * A02 * A2 * B000 * B01 * a3
        + 24 * A02 * A2 * B000 * B1 * b3 + 24 * A02 * A2 * B000 * K * c3 + 12 * A02 * A2 * B000 ^ 2
        + 24 * A02 * A2 * B01 * B1 * a3 * b3 + 24 * A02 * A2 * B01 * K * a3 * c3 + 12 * A02 * A2 * B01 ^ 2 * a4
        + 24 * A02 * A2 * B1 * K * b3 * c3 + 12 * A02 * A2 * B1 ^ 2 * b4 + 12 * A02 * A2 * K ^ 2 * c4
        + 12 * A02 * A2 ^ 2 * K * b4 + 12 * A02 * B000 * B1 ^ 2 * c3 + 12 * A02 * B01 * B1 ^ 2 * a3 * c3
        + 12 * A02 * B1 ^ 2 * K * c4 + 4 * A02 * B1 ^ 3 * b3 * c3 + 12 * A02 ^ 2 * A2 * K * a4
        + 6 * A02 ^ 2 * B1 ^ 2 * a4 + 24 * A100 * A11 * B000 * B01 + 24 * A100 * A11 * B01 * B1 * b3
        + 24 * A100 * A11 * B01 * K * c3 + 12 * A100 * A11 * B01 ^ 2 * a3 + 12 * A100 * A11 ^ 2 * K * b3
        + 12 * A100 * A2 * B01 ^ 2 * b3 + 12 * A100 * B01 ^ 2 * B1 * c3 + 6 * A100 ^ 2 * B01 ^ 2
        + 24 * A11 * A2 * B000 * B01 * b3 + 24 * A11 * A2 * B01 * B1 * b4 + 24 * A11 * A2 * B01 * K * b3 * c3
        + 12 * A11 * A2 * B01 ^ 2 * a3 * b3 + 24 * A11 * B000 * B01 * B1 * c3 + 24 * A11 * B01 * B1 * K * c4
        + 12 * A11 * B01 * B1 ^ 2 * b3 * c3 + 12 * A11 * B01 ^ 2 * B1 * a3 * c3 + 12 * A11 ^ 2 * A2 * K * b4
        + 12 * A11 ^ 2 * B000 * B01 * a3 + 12 * A11 ^ 2 * B000 * B1 * b3 + 12 * A11 ^ 2 * B000 * K * c3
        + 6 * A11 ^ 2 * B000 ^ 2 + 12 * A11 ^ 2 * B01 * B1 * a3 * b3 + 12 * A11 ^ 2 * B01 * K * a3 * c3
        + 6 * A11 ^ 2 * B01 ^ 2 * a4 + 12 * A11 ^ 2 * B1 * K * b3 * c3 + 6 * A11 ^ 2 * B1 ^ 2 * b4
        + 6 * A11 ^ 2 * K ^ 2 * c4 + 4 * A11 ^ 3 * K * a3 * b3 + 12 * A2 * B000 * B01 ^ 2 * c3
        + 12 * A2 * B01 ^ 2 * B1 * b3 * c3 + 12 * A2 * B01 ^ 2 * K * c4 + 4 * A2 * B01 ^ 3 * a3 * c3
        + 6 * A2 ^ 2 * B01 ^ 2 * b4 + 6 * B01 ^ 2 * B1 ^ 2 * c4, 24 * A001 * A02 * A2 * K + 12 * A001 * A02 * B1 ^ 2 + 24 * A001 * A11 * B01 * B1
        + 12 * A001 * A11 ^ 2 * K + 12 * A001 * A2 * B01 ^ 2 + 24 * A010 * A011 * A2 * K
        + 12 * A010 * A011 * B1 ^ 2 + 24 * A010 * A101 * A11 * K + 24 * A010 * A101 * B01 * B1
        + 24 * A010 * A11 * B001 * B1 + 24 * A010 * A2 * B001 * B01 + 24 * A011 * A02 * A2 * K * a3
        + 12 * A011 * A02 * B1 ^ 2 * a3 + 24 * A011 * A100 * A11 * K + 24 * A011 * A100 * B01 * B1
        + 24 * A011 * A11 * A2 * K * b3 + 24 * A011 * A11 * B000 * B1 + 24 * A011 * A11 * B01 * B1 * a3
        + 24 * A011 * A11 * B1 * K * c3 + 12 * A011 * A11 * B1 ^ 2 * b3 + 12 * A011 * A11 ^ 2 * K * a3
        + 24 * A011 * A2 * B000 * B01 + 24 * A011 * A2 * B01 * B1 * b3 + 24 * A011 * A2 * B01 * K * c3
        + 12 * A011 * A2 * B01 ^ 2 * a3 + 12 * A011 * B01 * B1 ^ 2 * c3 + 24 * A02 * A100 * A101 * K
        + 24 * A02 * A100 * B001 * B1 + 24 * A02 * A101 * A11 * K * a3 + 24 * A02 * A101 * A2 * K * b3
        + 24 * A02 * A101 * B000 * B1 + 24 * A02 * A101 * B01 * B1 * a3 + 24 * A02 * A101 * B1 * K * c3
        + 12 * A02 * A101 * B1 ^ 2 * b3 + 24 * A02 * A11 * B001 * B1 * a3 + 24 * A02 * A2 * B000 * B001
        + 24 * A02 * A2 * B001 * B01 * a3 + 24 * A02 * A2 * B001 * B1 * b3 + 24 * A02 * A2 * B001 * K * c3
        + 12 * A02 * B001 * B1 ^ 2 * c3 + 12 * A100 * A101 * B01 ^ 2 + 24 * A100 * A11 * B001 * B01
        + 24 * A101 * A11 * B000 * B01 + 24 * A101 * A11 * B01 * B1 * b3 + 24 * A101 * A11 * B01 * K * c3
        + 12 * A101 * A11 * B01 ^ 2 * a3 + 12 * A101 * A11 ^ 2 * K * b3 + 12 * A101 * A2 * B01 ^ 2 * b3
        + 12 * A101 * B01 ^ 2 * B1 * c3 + 24 * A11 * A2 * B001 * B01 * b3 + 24 * A11 * B001 * B01 * B1 * c3
        + 12 * A11 ^ 2 * B000 * B001 + 12 * A11 ^ 2 * B001 * B01 * a3 + 12 * A11 ^ 2 * B001 * B1 * b3
        + 12 * A11 ^ 2 * B001 * K * c3 + 12 * A2 * B001 * B01 ^ 2 * c3, 24 * A002 * A02 * A2 * K + 12 * A002 * A02 * B1 ^ 2 + 24 * A002 * A11 * B01 * B1
        + 12 * A002 * A11 ^ 2 * K + 12 * A002 * A2 * B01 ^ 2 + 24 * A011 * A101 * A11 * K
        + 24 * A011 * A101 * B01 * B1 + 24 * A011 * A11 * B001 * B1 + 24 * A011 * A2 * B001 * B01
        + 12 * A011 ^ 2 * A2 * K + 6 * A011 ^ 2 * B1 ^ 2 + 24 * A02 * A101 * B001 * B1 + 12 * A02 * A101 ^ 2 * K
        + 12 * A02 * A2 * B001 ^ 2 + 24 * A101 * A11 * B001 * B01 + 6 * A101 ^ 2 * B01 ^ 2
        + 6 * A11 ^ 2 * B001 ^ 2] := by
  simp only [polyL, F43]; ring

theorem F44_step (mu : σ → ℕ → R) {d : σ} {T : Finset σ} (hd : d ∉ T) (h1 : mu d 1 = 0) (h2 : mu d 2 = 1)
    {A000 A001 A002 A010 A011 A02 A100 A101 A11 A2 B000 B001 B01 B1 K c3 c4 c5 c6 c7 c8 b3 b4 b5 b6 a3 a4 : MvPolynomial σ R} (_hA000 : Free d A000) (_hA001 : Free d A001) (_hA002 : Free d A002) (_hA010 : Free d A010) (_hA011 : Free d A011) (_hA02 : Free d A02) (_hA100 : Free d A100) (_hA101 : Free d A101) (_hA11 : Free d A11) (_hA2 : Free d A2) (_hB000 : Free d B000) (_hB001 : Free d B001) (_hB01 : Free d B01) (_hB1 : Free d B1) (_hK : Free d K) (_hc3 : Free d c3) (_hc4 : Free d c4) (_hc5 : Free d c5) (_hc6 : Free d c6) (_hc7 : Free d c7) (_hc8 : Free d c8) (_hb3 : Free d b3) (_hb4 : Free d b4) (_hb5 : Free d b5) (_hb6 : Free d b6) (_ha3 : Free d a3) (_ha4 : Free d a4) :
    Eo mu (insert d T) (F43 (A000 + A001 * X d + A002 * X d ^ 2) (A010 + A011 * X d) A02 (A100 + A101 * X d) A11 A2 (B000 + B001 * X d) B01 B1 K c3 c4 c5 c6 c7 c8 b3 b4 b5 b6 a3 a4) = Eo mu T (F44 A000 A001 A002 A010 A011 A02 A100 A101 A11 A2 B000 B001 B01 B1 K c3 c4 c5 c6 c7 c8 b3 b4 b5 b6 a3 a4) := by
  rw [F44_poly, Eo_list mu hd h1 h2 _ _ _ _ (by free_tac) (by free_tac) (by free_tac) (by free_tac)]
  refine congrArg (Eo mu T) ?_
  simp only [dotL, F44]; ring

/-- Expansion step. -/
def P1 {α : Type*} [CommRing α] (A B K U V W c3 c4 : α) : α :=
  A * W + B * V + B * W * c3 + K * U + K * V * c3 + K * W * c4

set_option maxHeartbeats 1000000 in
theorem P1_poly {α : Type*} [CommRing α] (x A B K U V W : α) :
    ((A + B * x + K * x ^ 2)) * ((U + V * x + W * x ^ 2)) = polyL x [A * U, A * V + B * U, A * W + B * V + K * U, B * W + K * V, K * W] := by
  simp only [polyL]; ring

theorem P1_step (mu : σ → ℕ → R) {d : σ} {T : Finset σ} (hd : d ∉ T) (h1 : mu d 1 = 0) (h2 : mu d 2 = 1)
    {A B K U V W : MvPolynomial σ R} (_hA : Free d A) (_hB : Free d B) (_hK : Free d K) (_hU : Free d U) (_hV : Free d V) (_hW : Free d W) :
    Eo mu (insert d T) (((A + B * X d + K * X d ^ 2)) * ((U + V * X d + W * X d ^ 2))) = Eo mu T (P1 A B K U V W (C (mu d 3)) (C (mu d 4))) := by
  rw [P1_poly, Eo_list mu hd h1 h2 _ _ _ _ (by free_tac) (by free_tac) (by free_tac) (by free_tac)]
  refine congrArg (Eo mu T) ?_
  simp only [dotL, P1]; ring

/-- Expansion step. -/
def P2 {α : Type*} [CommRing α] (A0 A1 A2 B0 B1 K U0 U1 U2 V0 V1 W c3 c4 : α) : α :=
  A2 * W + B1 * V1 + K * U2

set_option maxHeartbeats 1000000 in
theorem P2_poly {α : Type*} [CommRing α] (x A0 A1 A2 B0 B1 K U0 U1 U2 V0 V1 W c3 c4 : α) :
    P1 (A0 + A1 * x + A2 * x ^ 2) (B0 + B1 * x) K (U0 + U1 * x + U2 * x ^ 2) (V0 + V1 * x) W c3 c4 = polyL x [A0 * W + B0 * V0 + B0 * W * c3 + K * U0 + K * V0 * c3 + K * W * c4, A1 * W + B0 * V1 + B1 * V0 + B1 * W * c3 + K * U1 + K * V1 * c3, A2 * W + B1 * V1 + K * U2] := by
  simp only [polyL, P1]; ring

theorem P2_step (mu : σ → ℕ → R) {d : σ} {T : Finset σ} (hd : d ∉ T) (h1 : mu d 1 = 0) (h2 : mu d 2 = 1)
    {A0 A1 A2 B0 B1 K U0 U1 U2 V0 V1 W c3 c4 : MvPolynomial σ R} (_hA0 : Free d A0) (_hA1 : Free d A1) (_hA2 : Free d A2) (_hB0 : Free d B0) (_hB1 : Free d B1) (_hK : Free d K) (_hU0 : Free d U0) (_hU1 : Free d U1) (_hU2 : Free d U2) (_hV0 : Free d V0) (_hV1 : Free d V1) (_hW : Free d W) (_hc3 : Free d c3) (_hc4 : Free d c4) :
    Eo mu (insert d T) (P1 (A0 + A1 * X d + A2 * X d ^ 2) (B0 + B1 * X d) K (U0 + U1 * X d + U2 * X d ^ 2) (V0 + V1 * X d) W c3 c4) = Eo mu T (P2 A0 A1 A2 B0 B1 K U0 U1 U2 V0 V1 W c3 c4) := by
  rw [P2_poly, Eo_list mu hd h1 h2 _ _ _ _ (by free_tac) (by free_tac) (by free_tac) (by free_tac)]
  refine congrArg (Eo mu T) ?_
  simp only [dotL, P2]; ring

end Expect
end Unc
