import Verif.Spec.Integers
import Verif.Spec.Error2
import Verif.Model.IEEE2

/-!
# Specification: integers and fractions with a power of two below

The numbers `n / 2 ^ e` with their operations, and beside each number its *size* `m / 2 ^ e`: what the same operations give with absolute values and `+` in place of `-`.
-/

namespace Unc.Spec

/-- the number `n / 2 ^ e`, of size `m / 2 ^ e` -/
structure Dy where
  n : ℤ
  m : ℕ
  e : ℕ
  le : n.natAbs ≤ m
deriving DecidableEq

namespace Dy

/-- the number -/
noncomputable def val (a : Dy) : ℝ := a.n / 2 ^ a.e

/-- an integer -/
def int (n : ℤ) : Dy := ⟨n, n.natAbs, 0, le_rfl⟩

instance : Zero Dy := ⟨int 0⟩
instance : One Dy := ⟨int 1⟩
instance : NatCast Dy := ⟨fun n => int n⟩
instance : Neg Dy := ⟨fun a => ⟨-a.n, a.m, a.e, by rw [Int.natAbs_neg]; exact a.le⟩⟩

/-- the sum; nothing is done where one of the numbers has size 0 -/
def plus (a b : Dy) : Dy :=
  if a.m = 0 then b else if b.m = 0 then a else
  ⟨a.n * 2 ^ (b.e - a.e) + b.n * 2 ^ (a.e - b.e), a.m * 2 ^ (b.e - a.e) + b.m * 2 ^ (a.e - b.e), max a.e b.e, by
    refine (Int.natAbs_add_le _ _).trans (Nat.add_le_add ?_ ?_) <;>
    · rw [Int.natAbs_mul, Int.natAbs_pow]
      exact Nat.mul_le_mul_right _ (by first | exact a.le | exact b.le)⟩

instance : Add Dy := ⟨plus⟩
instance : Sub Dy := ⟨fun a b => plus a (-b)⟩
instance : Mul Dy := ⟨fun a b => ⟨a.n * b.n, a.m * b.m, a.e + b.e, by rw [Int.natAbs_mul]; exact Nat.mul_le_mul a.le b.le⟩⟩

/-- half of the number.  Simplification: it stands for every division, as the calculations below only halve. -/
instance : Div Dy := ⟨fun a _ => ⟨a.n, a.m, a.e + 1, a.le⟩⟩

instance : CCmp Dy where
  ltb a b := a.n * 2 ^ b.e < b.n * 2 ^ a.e
  leb a b := a.n * 2 ^ b.e ≤ b.n * 2 ^ a.e
  eqb a b := a.n * 2 ^ b.e = b.n * 2 ^ a.e

/-- the number of the format nearest to it -/
noncomputable def fp (f : Fmt) (a : Dy) : FP f := FP.round f a.val

/-- the size is zero, or `m ≤ N` and `e ≤ E` -/
def Fits (N E : ℕ) (a : Dy) : Prop := a.m = 0 ∨ a.m ≤ N ∧ a.e ≤ E

instance (N E : ℕ) (a : Dy) : Decidable (a.Fits N E) := inferInstanceAs (Decidable (_ ∨ _))

end Dy

/-- The numbers `n / 2 ^ e` with `|n| ≤ N` and `e ≤ E` are in the format: in `double` with `N = 2 ^ 53` and `E = 1074`, in `float` with `N = 2 ^ 24` and `E = 149`. -/
def Dyadics (f : Fmt) (N E : ℕ) : Prop := ∀ (n : ℤ) (e : ℕ), n.natAbs ≤ N → e ≤ E → f.rd (n / 2 ^ e) = n / 2 ^ e

/-- no divisions -/
def Calc2.noDiv : Calc2 → Prop
  | .leaf _ => True
  | .neg a => a.noDiv
  | .add a b | .sub a b | .mul a b => a.noDiv ∧ b.noDiv
  | .div _ _ => False

end Unc.Spec
