import Verif.Spec.Integers2
import Verif.Lemmas.Range2Run

/-!
# Calculations with integers at second order: numbers beside their sizes
-/

namespace Unc
open Unc.Spec HessGrad SMap Mom Unc.Props

/-! ## calculations without division and maps of the numbers -/

section
variable {R S : Type*} [Zero R] [One R] [Neg R] [Add R] [Sub R] [Mul R] [Div R] [NatCast R] [CCmp R] [Zero S] [One S] [Neg S] [Add S] [Sub S] [Mul S] [Div S] [NatCast S] [CCmp S]

/-- the map respects what `+`, `-`, `*` of the library use -/
structure LitHom (c : R → S) : Prop where
  hom : OpHom c
  one : c 1 = 1
  neg : ∀ a, c (-a) = -c a
  zero_half : c (0 / lit 2) = 0 / lit 2
  half : c (1 / lit 2) = 1 / lit 2
  skip : CCmp.eqb (0 / lit 2 : R) 0 = CCmp.eqb (0 / lit 2 : S) 0
  full : CCmp.eqb (1 / lit 2 : R) 0 = CCmp.eqb (1 / lit 2 : S) 0

variable {c : R → S} (hc : LitHom c)
include hc

theorem unary_lit (u : Moments R) (x : UReal2 R) (f fx : R) : UReal2.unary (mapM c u) (mapU c x) (c f) (c fx) 0 = (UReal2.unary u x f fx 0).map (mapU c) := by
  rw [unary_G, unary_G, ← hc.skip, ← hc.zero_half]
  exact unaryG_hom hc.hom _ u x f fx (0 / lit 2)

theorem linear_lit (u : Moments R) (x y : UReal2 R) (f fx fy : R) :
    UReal2.binary (mapM c u) (mapU c x) (mapU c y) (c f) (c fx) (c fy) 0 0 0 = (UReal2.binary u x y f fx fy 0 0 0).map (mapU c) := by
  rw [binary_G, binary_G, ← hc.skip, ← hc.zero_half]
  exact binaryG_hom hc.hom _ _ _ u x y f fx fy (0 / lit 2) (0 / lit 2) (0 / lit 2)

theorem mixed_lit (u : Moments R) (x y : UReal2 R) (f fx fy : R) :
    UReal2.binary (mapM c u) (mapU c x) (mapU c y) (c f) (c fx) (c fy) 0 0 1 = (UReal2.binary u x y f fx fy 0 0 1).map (mapU c) := by
  rw [binary_G, binary_G, ← hc.skip, ← hc.full, ← hc.zero_half, ← hc.half]
  exact binaryG_hom hc.hom _ _ _ u x y f fx fy (0 / lit 2) (0 / lit 2) (1 / lit 2)

theorem run_lit (u : Moments R) (env : ℕ → UReal2 R) : ∀ {t : Calc2}, t.noDiv → t.run (mapM c u) (fun i => mapU c (env i)) = (t.run u env).map (mapU c)
  | .leaf _, _ => rfl
  | .neg a, h => by
    rw [Calc2.run, Calc2.run, run_lit u env (t := a) h]
    cases a.run u env with
    | none => rfl
    | some x =>
      have := unary_lit hc u x (-x.mu) (-1)
      rw [hc.neg, hc.neg, hc.one] at this
      exact this
  | .add a b, h => by
    rw [Calc2.run, Calc2.run, run_lit u env (t := a) h.1, run_lit u env (t := b) h.2]
    cases a.run u env with
    | none => rfl
    | some x =>
      cases b.run u env with
      | none => rfl
      | some y =>
        have := linear_lit hc u x y (x.mu + y.mu) 1 1
        rw [hc.hom.add, hc.one] at this
        exact this
  | .sub a b, h => by
    rw [Calc2.run, Calc2.run, run_lit u env (t := a) h.1, run_lit u env (t := b) h.2]
    cases a.run u env with
    | none => rfl
    | some x =>
      cases b.run u env with
      | none => rfl
      | some y =>
        have := linear_lit hc u x y (x.mu - y.mu) 1 (-1)
        rw [hc.hom.sub, hc.neg, hc.one] at this
        exact this
  | .mul a b, h => by
    rw [Calc2.run, Calc2.run, run_lit u env (t := a) h.1, run_lit u env (t := b) h.2]
    cases a.run u env with
    | none => rfl
    | some x =>
      cases b.run u env with
      | none => rfl
      | some y =>
        have := mixed_lit hc u x y (x.mu * y.mu) y.mu x.mu
        rw [hc.hom.mul] at this
        exact this
end

/-- every calculation with valid objects has a result, whatever the numbers and the uninitialised moments -/
theorem run_ok {R : Type*} [Zero R] [One R] [Neg R] [Add R] [Sub R] [Mul R] [Div R] [NatCast R] [CCmp R] {env : ℕ → UReal2 R} (henv : ∀ i, Ok2 (env i)) :
    ∀ t : Calc2, ∃ z, (∀ v, t.run v env = some z) ∧ Ok2 z
  | .leaf i => ⟨env i, fun _ => rfl, henv i⟩
  | .neg a => by
    obtain ⟨x, hx, ox⟩ := run_ok henv a
    obtain ⟨z, e, zm, zv, zk, -⟩ := unary_lawfree ox.valid (-x.mu) (-1) 0
    exact ⟨z, fun v => by rw [Calc2.run, hx]; exact e v, zv, by unfold HessGrad.Below; rw [zk]; exact ox.below⟩
  | .add a b => by
    obtain ⟨x, hx, ox⟩ := run_ok henv a
    obtain ⟨y, hy, oy⟩ := run_ok henv b
    obtain ⟨z, e, zm, zv, zk, -⟩ := binary_lawfree ox oy (x.mu + y.mu) 1 1 0 0 0
    exact ⟨z, fun v => by rw [Calc2.run, hx, hy]; exact e v, zv, fun i hi => ((zk i).1 hi).elim (ox.below i) (oy.below i)⟩
  | .sub a b => by
    obtain ⟨x, hx, ox⟩ := run_ok henv a
    obtain ⟨y, hy, oy⟩ := run_ok henv b
    obtain ⟨z, e, zm, zv, zk, -⟩ := binary_lawfree ox oy (x.mu - y.mu) 1 (-1) 0 0 0
    exact ⟨z, fun v => by rw [Calc2.run, hx, hy]; exact e v, zv, fun i hi => ((zk i).1 hi).elim (ox.below i) (oy.below i)⟩
  | .mul a b => by
    obtain ⟨x, hx, ox⟩ := run_ok henv a
    obtain ⟨y, hy, oy⟩ := run_ok henv b
    obtain ⟨z, e, zm, zv, zk, -⟩ := binary_lawfree ox oy (x.mu * y.mu) y.mu x.mu 0 0 1
    exact ⟨z, fun v => by rw [Calc2.run, hx, hy]; exact e v, zv, fun i hi => ((zk i).1 hi).elim (ox.below i) (oy.below i)⟩
  | .div a b => by
    obtain ⟨x, hx, ox⟩ := run_ok henv a
    obtain ⟨y, hy, oy⟩ := run_ok henv b
    let i : R := 1 / y.mu
    obtain ⟨z, e, zm, zv, zk, -⟩ := binary_lawfree ox oy (x.mu / y.mu) i (-x.mu * (i * i)) 0 (lit 2 * x.mu * (i * i) * i) (-(i * i))
    exact ⟨z, fun v => by rw [Calc2.run, hx, hy]; exact e v, zv, fun i hi => ((zk i).1 hi).elim (ox.below i) (oy.below i)⟩

/-! ## the numbers -/

namespace Dy
open Spec.Dy

theorem val_of_zero {a : Dy} (h : a.m = 0) : a.val = 0 := by
  have : a.n = 0 := by have := a.le; omega
  rw [val, this]; simp

theorem val_int (n : ℤ) : (int n).val = n := by simp [val, int]
theorem val_zero : (0 : Dy).val = 0 := by rw [show (0 : Dy) = int 0 from rfl, val_int]; simp
theorem val_one : (1 : Dy).val = 1 := by rw [show (1 : Dy) = int 1 from rfl, val_int]; simp
theorem val_nat (n : ℕ) : (n : Dy).val = n := by rw [show (n : Dy) = int n from rfl, val_int]; simp
theorem val_neg (a : Dy) : (-a).val = -a.val := by
  show (((-a.n : ℤ) : ℝ)) / 2 ^ a.e = _
  rw [val]; push_cast; ring

theorem pow_max (a b : ℕ) : (2 : ℝ) ^ max a b = 2 ^ a * 2 ^ (b - a) := by
  rw [← pow_add]; congr 1; omega

theorem val_add (a b : Dy) : (a + b).val = a.val + b.val := by
  show (plus a b).val = _
  unfold plus
  split_ifs with h h'
  · rw [val_of_zero h, zero_add]
  · rw [val_of_zero h', add_zero]
  · have e1 := pow_max a.e b.e
    have e2 := pow_max b.e a.e
    rw [max_comm] at e2
    have p : ∀ n : ℕ, (2 : ℝ) ^ n ≠ 0 := fun n => by positivity
    simp only [val]
    push_cast
    rw [add_div]
    congr 1
    · rw [e1]; field_simp [p]
    · rw [e2]; field_simp [p]

theorem val_sub (a b : Dy) : (a - b).val = a.val - b.val := by
  rw [sub_eq_add_neg, ← val_neg, ← val_add]; rfl
theorem val_mul (a b : Dy) : (a * b).val = a.val * b.val := by
  show (((a.n * b.n : ℤ) : ℝ)) / 2 ^ (a.e + b.e) = _
  rw [val, val, pow_add]; push_cast; field_simp
theorem val_half (a b : Dy) : (a / b).val = a.val / 2 := by
  show ((a.n : ℝ)) / 2 ^ (a.e + 1) = _
  rw [val, pow_succ]; field_simp

theorem val_hom : LitHom Dy.val where
  hom := ⟨val_zero, val_add, val_sub, val_mul, val_nat⟩
  one := val_one
  neg := val_neg
  zero_half := by rw [val_half, val_zero]; simp
  half := by rw [val_half, val_one, real_half]
  skip := by rw [zero_div, eqb_zero_real]; rfl
  full := by rw [eqb_half_real]; rfl

end Dy

/-! ## a number with its size beside a rounded one -/

/-- the rounded number is exact if the size is small enough -/
structure Sz (f : Fmt) (N E : ℕ) (hf : Dyadics f N E) (hN : 2 ≤ N) where
  d : Dy
  b : FP f
  ex : d.Fits N E → b.val = d.val

namespace Sz
open Spec.Dy
variable {f : Fmt} {N E : ℕ} {hf : Dyadics f N E} {hN : 2 ≤ N}

omit hN in
theorem rd_val (hf : Dyadics f N E) {d : Dy} (h : d.Fits N E) : f.rd d.val = d.val := by
  rcases h with h | h
  · rw [Dy.val_of_zero h, Fmt.rd_zero]
  · exact hf d.n d.e (d.le.trans h.1) h.2

theorem ex_int (hf : Dyadics f N E) (n : ℕ) (h : (n : Dy).Fits N E) : ((n : FP f)).val = (n : Dy).val := by
  show f.rd (n : ℝ) = _
  rw [← Dy.val_nat, rd_val hf h]

theorem lit_two (hf : Dyadics f N E) (hN : 2 ≤ N) : (lit 2 : FP f).val = 2 := by
  have h := ex_int hf 2 (Or.inr ⟨hN, Nat.zero_le _⟩)
  rw [Dy.val_nat] at h
  exact_mod_cast h

theorem fits_left {a b : Dy} (h : (plus a b).Fits N E) : a.Fits N E ∧ b.Fits N E := by
  unfold plus at h
  split_ifs at h with h1 h2
  · exact ⟨Or.inl h1, h⟩
  · exact ⟨h, Or.inl h2⟩
  · have p1 : 1 ≤ 2 ^ (b.e - a.e) := Nat.one_le_two_pow
    have p2 : 1 ≤ 2 ^ (a.e - b.e) := Nat.one_le_two_pow
    have q1 : a.m * 1 ≤ a.m * 2 ^ (b.e - a.e) := Nat.mul_le_mul_left _ p1
    have q2 : b.m * 1 ≤ b.m * 2 ^ (a.e - b.e) := Nat.mul_le_mul_left _ p2
    rcases h with h | ⟨h, h'⟩
    · simp only at h; omega
    · simp only at h h'
      exact ⟨Or.inr ⟨by omega, by omega⟩, Or.inr ⟨by omega, by omega⟩⟩

theorem fits_neg {a : Dy} (h : (-a).Fits N E) : a.Fits N E := h

theorem ex_add {a b : Dy} {x y : FP f} (hf : Dyadics f N E) (ha : a.Fits N E → x.val = a.val) (hb : b.Fits N E → y.val = b.val) (h : (a + b).Fits N E) : (x + y).val = (a + b).val := by
  obtain ⟨h1, h2⟩ := fits_left h
  rw [FP.val_add, ha h1, hb h2, ← Dy.val_add, rd_val hf h]

theorem ex_sub {a b : Dy} {x y : FP f} (hf : Dyadics f N E) (ha : a.Fits N E → x.val = a.val) (hb : b.Fits N E → y.val = b.val) (h : (a - b).Fits N E) : (x - y).val = (a - b).val := by
  obtain ⟨h1, h2⟩ := fits_left h
  rw [FP.val_sub, ha h1, hb (fits_neg h2), ← Dy.val_sub, rd_val hf h]

theorem ex_mul {a b : Dy} {x y : FP f} (hf : Dyadics f N E) (ha : a.Fits N E → x.val = a.val) (hb : b.Fits N E → y.val = b.val) (h : (a * b).Fits N E) : (x * y).val = (a * b).val := by
  rw [FP.val_mul, Dy.val_mul]
  by_cases h1 : a.m = 0
  · rw [ha (Or.inl h1), Dy.val_of_zero h1, zero_mul, zero_mul, Fmt.rd_zero]
  by_cases h2 : b.m = 0
  · rw [hb (Or.inl h2), Dy.val_of_zero h2, mul_zero, mul_zero, Fmt.rd_zero]
  have h3 : a.m * b.m ≤ N ∧ a.e + b.e ≤ E := h.resolve_left (Nat.mul_ne_zero h1 h2)
  have p1 : a.m * 1 ≤ a.m * b.m := Nat.mul_le_mul_left _ (by omega)
  have p2 : 1 * b.m ≤ a.m * b.m := Nat.mul_le_mul_right _ (by omega)
  rw [ha (Or.inr ⟨by omega, by omega⟩), hb (Or.inr ⟨by omega, by omega⟩), ← Dy.val_mul, rd_val hf h]

theorem ex_half {a : Dy} {x : FP f} (hf : Dyadics f N E) (hN : 2 ≤ N) (ha : a.Fits N E → x.val = a.val) (h : (a / lit 2).Fits N E) : (x / lit 2).val = (a / lit 2).val := by
  have h' : a.Fits N E := h.imp_right fun h => ⟨h.1, Nat.le_of_succ_le h.2⟩
  rw [FP.val_div, lit_two hf hN, ha h', ← Dy.val_half a (lit 2), rd_val hf h]

noncomputable instance : Zero (Sz f N E hf hN) := ⟨⟨0, 0, fun _ => by rw [FP.val_zero, Dy.val_zero]⟩⟩
noncomputable instance : One (Sz f N E hf hN) := ⟨⟨1, 1, fun _ => by rw [FP.val_one, Dy.val_one]⟩⟩
noncomputable instance : NatCast (Sz f N E hf hN) := ⟨fun n => ⟨n, n, ex_int hf n⟩⟩
noncomputable instance : Neg (Sz f N E hf hN) := ⟨fun a => ⟨-a.d, -a.b, fun h => by rw [FP.val_neg, Dy.val_neg, a.ex h]⟩⟩
noncomputable instance : Add (Sz f N E hf hN) := ⟨fun a b => ⟨a.d + b.d, a.b + b.b, ex_add hf a.ex b.ex⟩⟩
noncomputable instance : Sub (Sz f N E hf hN) := ⟨fun a b => ⟨a.d - b.d, a.b - b.b, ex_sub hf a.ex b.ex⟩⟩
noncomputable instance : Mul (Sz f N E hf hN) := ⟨fun a b => ⟨a.d * b.d, a.b * b.b, ex_mul hf a.ex b.ex⟩⟩
noncomputable instance : Div (Sz f N E hf hN) := ⟨fun a _ => ⟨a.d / lit 2, a.b / lit 2, ex_half hf hN a.ex⟩⟩
instance : CCmp (Sz f N E hf hN) := ⟨fun a b => CCmp.ltb a.d b.d, fun a b => CCmp.leb a.d b.d, fun a b => CCmp.eqb a.d b.d⟩

theorem d_hom : LitHom (Sz.d (f := f) (N := N) (E := E) (hf := hf) (hN := hN)) :=
  ⟨⟨rfl, fun _ _ => rfl, fun _ _ => rfl, fun _ _ => rfl, fun _ => rfl⟩, rfl, fun _ => rfl, rfl, rfl, rfl, rfl⟩

theorem b_hom (hE : 1 ≤ E) : LitHom (Sz.b (f := f) (N := N) (E := E) (hf := hf) (hN := hN)) :=
  ⟨⟨rfl, fun _ _ => rfl, fun _ _ => rfl, fun _ _ => rfl, fun _ => rfl⟩, rfl, fun _ => rfl, rfl, rfl, by rw [fp_zero_half, eqb_zero_fp]; rfl, by
    have h2 : f.rd 2 = 2 := lit_two hf hN
    have h1 : f.rd (1 / 2) = 1 / 2 := by simpa using hf 1 1 (by omega) hE
    rw [eqb_half_fp ⟨h2, h1⟩]; rfl⟩

/-- a given number -/
noncomputable def of (hf : Dyadics f N E) (hN : 2 ≤ N) (d : Dy) : Sz f N E hf hN := ⟨d, d.fp f, fun h => rd_val hf h⟩

end Sz
end Unc
