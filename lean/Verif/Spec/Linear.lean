import Mathlib.Algebra.BigOperators.Group.Finset.Basic
import Mathlib.Algebra.BigOperators.Ring.Finset
import Mathlib.Algebra.Order.BigOperators.Ring.Finset
import Mathlib.Algebra.Order.BigOperators.Group.Finset
import Mathlib.Algebra.Order.Field.Basic

/-!
# Specification: first-order uncertain numbers as linear forms

Independent of the model: an uncertain number is a mean, the finite set of elementary variables it
was computed from, and one coefficient (derivative times standard deviation) per elementary variable.
-/

namespace Unc.Spec

/-- An uncertain number to first order: `mean + ∑ i ∈ deps, coef i * ξ i` with `ξ` standardized and independent. -/
structure LinForm (R : Type*) where
  /-- the mean -/
  mean : R
  /-- ids of the elementary variables it depends upon -/
  deps : Finset ℤ
  /-- derivative times standard deviation -/
  coef : ℤ → R

namespace LinForm
variable {R : Type*}

/-- coefficients vanish outside the dependency set -/
def Supported [Zero R] (a : LinForm R) : Prop := ∀ i, i ∉ a.deps → a.coef i = 0

/-- a constant -/
def const [Zero R] (n : R) : LinForm R := ⟨n, ∅, fun _ => 0⟩

/-- an elementary variable -/
def elem [Zero R] (i : ℤ) (n s : R) : LinForm R := ⟨n, {i}, fun j => if j = i then s else 0⟩

/-- result with mean `m` of a function with derivative `d` -/
def scale [Mul R] (a : LinForm R) (m d : R) : LinForm R := ⟨m, a.deps, fun i => d * a.coef i⟩

/-- result with mean `m` of a function of two arguments with derivatives `d`, `e` -/
def comb [Add R] [Mul R] (a b : LinForm R) (m d e : R) : LinForm R :=
  ⟨m, a.deps ∪ b.deps, fun i => d * a.coef i + e * b.coef i⟩

/-- covariance of two linear forms in independent standardized variables -/
def cov [AddCommMonoid R] [Mul R] (a b : LinForm R) : R :=
  ∑ i ∈ a.deps ∪ b.deps, a.coef i * b.coef i

/-- variance -/
def var [AddCommMonoid R] [Mul R] (a : LinForm R) : R := ∑ i ∈ a.deps, a.coef i * a.coef i

section semiring
variable [CommRing R]

theorem cov_eq_sum {a b : LinForm R} (ha : a.Supported) (S : Finset ℤ) (hS : a.deps ⊆ S) :
    cov a b = ∑ i ∈ S, a.coef i * b.coef i := by
  have h1 : cov a b = ∑ i ∈ a.deps, a.coef i * b.coef i :=
    (Finset.sum_subset Finset.subset_union_left
      (fun i _ hi => by rw [ha i hi, zero_mul])).symm
  rw [h1]
  exact Finset.sum_subset hS (fun i _ hi => by rw [ha i hi, zero_mul])

theorem cov_comm (a b : LinForm R) : cov a b = cov b a := by
  simp only [cov, Finset.union_comm a.deps b.deps, mul_comm]

theorem cov_eq_sum' {a b : LinForm R} (hb : b.Supported) (S : Finset ℤ) (hS : b.deps ⊆ S) :
    cov a b = ∑ i ∈ S, a.coef i * b.coef i := by
  rw [cov_comm, cov_eq_sum hb S hS]; simp only [mul_comm]

theorem cov_self (a : LinForm R) : cov a a = var a := by simp [cov, var]

theorem Supported.scale {a : LinForm R} (ha : a.Supported) (m d : R) : (a.scale m d).Supported :=
  fun i hi => by simp only [LinForm.scale] at *; rw [ha i hi, mul_zero]

theorem Supported.comb {a b : LinForm R} (ha : a.Supported) (hb : b.Supported) (m d e : R) :
    (a.comb b m d e).Supported := fun i hi => by
  simp only [LinForm.comb, Finset.mem_union, not_or] at *
  rw [ha i hi.1, hb i hi.2, mul_zero, mul_zero, add_zero]

theorem supported_const (n : R) : (const n).Supported := fun _ _ => rfl
theorem supported_elem (i : ℤ) (n s : R) : (elem i n s).Supported := fun j hj => by
  simp only [elem, Finset.mem_singleton] at *; rw [if_neg hj]

theorem cov_comb {a b w : LinForm R} (hw : w.Supported) (m d e : R) :
    cov (a.comb b m d e) w = d * cov a w + e * cov b w := by
  rw [cov_eq_sum' hw _ subset_rfl, cov_eq_sum' hw _ subset_rfl, cov_eq_sum' hw _ subset_rfl,
    Finset.mul_sum, Finset.mul_sum, ← Finset.sum_add_distrib]
  refine Finset.sum_congr rfl (fun i _ => ?_)
  simp only [LinForm.comb]; ring

theorem cov_scale {a w : LinForm R} (m d : R) :
    cov (a.scale m d) w = d * cov a w := by
  simp only [cov, LinForm.scale, Finset.mul_sum, mul_assoc]

end semiring

/-- observational equality: same mean and same coefficients (hence same covariance with everything) -/
def Equiv (a b : LinForm R) : Prop := a.mean = b.mean ∧ a.coef = b.coef

end LinForm
end Unc.Spec
