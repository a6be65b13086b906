import Verif.Lemmas.ScaleOps
import Verif.Lemmas.Units1

/-!
# A change of units at second order
-/

namespace Unc
open Spec HessGrad SMap
variable {f : Fmt} {k l m : ℤ}

/-- multiplication by a power of two -/
noncomputable def two (hf : TwoScaled f) (k : ℤ) (a : FP f) : FP f := ⟨2 ^ k * a.val, by rw [hf, a.rep]⟩

theorem times_iff (hf : TwoScaled f) {a b : FP f} : Times2 k a b ↔ b = two hf k a :=
  ⟨fun h => FP.ext h, fun h => by rw [h]; rfl⟩

theorem two_scaling (hf : TwoScaled f) : Scaling (two hf) where
  zero k := ((times_iff hf).1 Times2.zero).symm
  add k a b := (times_iff hf).1 (Times2.add hf ((times_iff hf).2 rfl) ((times_iff hf).2 rfl))
  sub k a b := (times_iff hf).1 (Times2.sub hf ((times_iff hf).2 rfl) ((times_iff hf).2 rfl))
  mulL k a b := (times_iff hf).1 (Times2.mul hf (l := 0) ((times_iff hf).2 rfl) (by simp [Times2]) (by ring))
  mulR k a b := (times_iff hf).1 (Times2.mul hf (k := 0) (by simp [Times2]) ((times_iff hf).2 rfl) (by ring))
  comp k l a := FP.ext (by simp only [two]; rw [zpow_add₀ (by norm_num)]; ring)

theorem forall₂_map {α : Type*} {r : α → α → Prop} {g : α → α} (h : ∀ a b, r a b ↔ b = g a) {a b : List α} : List.Forall₂ r a b ↔ b = a.map g := by
  constructor
  · intro hab
    induction hab with
    | nil => rfl
    | cons hp _ ih => rw [(h _ _).1 hp, ih]; rfl
  · rintro rfl
    induction a with
    | nil => exact .nil
    | cons p t ih => exact .cons ((h _ _).2 rfl) ih

theorem inUnits2_iff (hf : TwoScaled f) {x y : UReal2 (FP f)} : InUnits2 k x y ↔ y = scU (two hf) k x := by
  obtain ⟨⟨dx, tx⟩, mx⟩ := x
  obtain ⟨⟨dy, ty⟩, my⟩ := y
  have hd : ∀ p q : VId × Diag (FP f), (p.1 = q.1 ∧ Times2 k p.2.grad q.2.grad ∧ Times2 k p.2.hhess q.2.hhess ∧ p.2.mom = q.2.mom) ↔ q = (p.1, scD (two hf) k p.2) := by
    rintro ⟨i, a, b, c⟩ ⟨j, a', b', c'⟩
    simp only [times_iff hf, scD, Prod.mk.injEq, Diag.mk.injEq]
    constructor <;> rintro ⟨h1, h2, h3, h4⟩ <;> exact ⟨h1.symm, h2, h3, h4.symm⟩
  have ht : ∀ p q : IdPair × FP f, (p.1 = q.1 ∧ Times2 k p.2 q.2) ↔ q = (p.1, two hf k p.2) := by
    rintro ⟨i, a⟩ ⟨j, a'⟩
    simp only [times_iff hf, Prod.mk.injEq]
    constructor <;> rintro ⟨h1, h2⟩ <;> exact ⟨h1.symm, h2⟩
  have e1 := fun a b => forall₂_map hd (a := a) (b := b)
  have e2 := fun a b => forall₂_map ht (a := a) (b := b)
  constructor
  · rintro ⟨h1, h2, h3⟩
    simp only [scU, scHG, mapVal] at h1 h2 h3 ⊢
    rw [(times_iff hf).1 h1, (e1 _ _).1 h2, (e2 _ _).1 h3]
  · intro h
    simp only [scU, scHG, mapVal, UReal2.mk.injEq, HessGrad.mk.injEq] at h
    exact ⟨(times_iff hf).2 h.2, (e1 _ _).2 h.1.1, (e2 _ _).2 h.1.2⟩

variable (hf : TwoScaled f)

theorem two_div (p : ℤ) (a b : FP f) : two hf p a / b = two hf p (a / b) :=
  (times_iff hf).1 (Times2.div hf (l := 0) ((times_iff hf).2 rfl) (by simp [Times2]) (by ring))

theorem two_eqb (p : ℤ) (a : FP f) : CCmp.eqb (two hf p a) 0 = CCmp.eqb a 0 := (Times2.eqb ((times_iff hf).2 rfl)).symm

theorem unary_sc {p q : ℤ} (hp : p + k = m) (hq : q + k + k = m) (u : Moments (FP f)) (x : UReal2 (FP f)) (a fx fxx : FP f) :
    UReal2.unary u (scU (two hf) k x) (two hf m a) (two hf p fx) (two hf q fxx) = (UReal2.unary u x a fx fxx).map (scU (two hf) m) := by
  rw [unary_G, unary_G, two_div, two_eqb, unaryG_sc (two_scaling hf) hp hq]

theorem binary_sc {p q p' q' r : ℤ} (hp : p + k = m) (hq : q + k + k = m) (hp' : p' + l = m) (hq' : q' + l + l = m) (hr : r + k + l = m) (u : Moments (FP f))
    (x y : UReal2 (FP f)) (a fx fy fxx fyy fxy : FP f) :
    UReal2.binary u (scU (two hf) k x) (scU (two hf) l y) (two hf m a) (two hf p fx) (two hf p' fy) (two hf q fxx) (two hf q' fyy) (two hf r fxy) =
      (UReal2.binary u x y a fx fy fxx fyy fxy).map (scU (two hf) m) := by
  rw [binary_G, binary_G, two_div, two_div, two_div, two_eqb, two_eqb, two_eqb, binaryG_sc (two_scaling hf) hp hq hp' hq' hr]

include hf in
theorem binary_units2 {x x' y y' : UReal2 (FP f)} (h : InUnits2 k x y) (h' : InUnits2 l x' y') {a a' fx fx' fy fy' fxx fxx' fyy fyy' fxy fxy' : FP f} {p q p' q' r : ℤ}
    (ha : Times2 m a a') (hx : Times2 p fx fx') (hy : Times2 p' fy fy') (hxx : Times2 q fxx fxx') (hyy : Times2 q' fyy fyy') (hxy : Times2 r fxy fxy')
    (hp : p + k = m) (hq : q + k + k = m) (hp' : p' + l = m) (hq' : q' + l + l = m) (hr : r + k + l = m) (u : Moments (FP f)) :
    Option.Rel (InUnits2 m) (UReal2.binary u x x' a fx fy fxx fyy fxy) (UReal2.binary u y y' a' fx' fy' fxx' fyy' fxy') := by
  rw [inUnits2_iff hf] at h h'
  rw [times_iff hf] at ha hx hy hxx hyy hxy
  subst h h' ha hx hy hxx hyy hxy
  rw [binary_sc hf hp hq hp' hq' hr]
  cases UReal2.binary u x x' a fx fy fxx fyy fxy with
  | none => exact .none
  | some z => exact .some ((inUnits2_iff hf).2 rfl)

include hf in
theorem unary_units2 {x y : UReal2 (FP f)} (h : InUnits2 k x y) {a a' fx fx' fxx fxx' : FP f} {p q : ℤ}
    (ha : Times2 m a a') (hx : Times2 p fx fx') (hxx : Times2 q fxx fxx') (hp : p + k = m) (hq : q + k + k = m) (u : Moments (FP f)) :
    Option.Rel (InUnits2 m) (UReal2.unary u x a fx fxx) (UReal2.unary u y a' fx' fxx') := by
  rw [inUnits2_iff hf] at h
  rw [times_iff hf] at ha hx hxx
  subst h ha hx hxx
  rw [unary_sc hf hp hq]
  cases UReal2.unary u x a fx fxx with
  | none => exact .none
  | some z => exact .some ((inUnits2_iff hf).2 rfl)

include hf

theorem neg_units2 {x y : UReal2 (FP f)} (h : InUnits2 k x y) (u : Moments (FP f)) : Option.Rel (InUnits2 k) (UReal2.neg u x) (UReal2.neg u y) :=
  unary_units2 hf h h.mu.neg Times2.one.neg (q := -k) Times2.zero (by ring) (by ring) u

theorem add_units2 {x x' y y' : UReal2 (FP f)} (h : InUnits2 k x y) (h' : InUnits2 k x' y') (u : Moments (FP f)) :
    Option.Rel (InUnits2 k) (UReal2.add u x x') (UReal2.add u y y') :=
  binary_units2 hf h h' (Times2.add hf h.mu h'.mu) Times2.one Times2.one (q := -k) (q' := -k) (r := -k) Times2.zero Times2.zero Times2.zero
    (by ring) (by ring) (by ring) (by ring) (by ring) u

theorem sub_units2 {x x' y y' : UReal2 (FP f)} (h : InUnits2 k x y) (h' : InUnits2 k x' y') (u : Moments (FP f)) :
    Option.Rel (InUnits2 k) (UReal2.sub u x x') (UReal2.sub u y y') :=
  binary_units2 hf h h' (Times2.sub hf h.mu h'.mu) Times2.one Times2.one.neg (q := -k) (q' := -k) (r := -k) Times2.zero Times2.zero Times2.zero
    (by ring) (by ring) (by ring) (by ring) (by ring) u

theorem mul_units2 {x x' y y' : UReal2 (FP f)} (h : InUnits2 k x y) (h' : InUnits2 l x' y') (u : Moments (FP f)) :
    Option.Rel (InUnits2 (k + l)) (UReal2.mul u x x') (UReal2.mul u y y') :=
  binary_units2 hf h h' (Times2.mul hf h.mu h'.mu rfl) h'.mu h.mu (q := l - k) (q' := k - l) (r := 0) Times2.zero Times2.zero Times2.one
    (by ring) (by ring) (by ring) (by ring) (by ring) u

theorem div_units2 {x x' y y' : UReal2 (FP f)} (h : InUnits2 k x y) (h' : InUnits2 l x' y') (u : Moments (FP f)) :
    Option.Rel (InUnits2 (k - l)) (UReal2.div u x x') (UReal2.div u y y') := by
  have hinv : Times2 (-l) (1 / x'.mu) (1 / y'.mu) := Times2.div hf Times2.one h'.mu (by ring)
  have hinv2 : Times2 (-l - l) (1 / x'.mu * (1 / x'.mu)) (1 / y'.mu * (1 / y'.mu)) := Times2.mul hf hinv hinv (by ring)
  have h2 : Times2 0 (Mom.lit 2 : FP f) (Mom.lit 2) := by simp [Times2]
  exact binary_units2 hf h h' (Times2.div hf h.mu h'.mu rfl) hinv (Times2.mul hf h.mu.neg hinv2 rfl) (q := -l - k) Times2.zero
    (Times2.mul hf (Times2.mul hf (Times2.mul hf h2 h.mu rfl) hinv2 rfl) hinv rfl) hinv2.neg (by ring) (by ring) (by ring) (by ring) (by ring) u

theorem run_units2 (u : Moments (FP f)) {env env' : ℕ → UReal2 (FP f)} {w : ℕ → ℤ} (h : ∀ i, InUnits2 (w i) (env i) (env' i)) (t : Calc2) {k : ℤ}
    (ht : t.unit w = some k) : Option.Rel (InUnits2 k) (t.run u env) (t.run u env') := by
  have key : ∀ {a b a' b' : Option (UReal2 (FP f))} {k l m : ℤ} {g : UReal2 (FP f) → UReal2 (FP f) → Option (UReal2 (FP f))},
      Option.Rel (InUnits2 k) a a' → Option.Rel (InUnits2 l) b b' →
      (∀ {x x' y y'}, InUnits2 k x y → InUnits2 l x' y' → Option.Rel (InUnits2 m) (g x x') (g y y')) →
      Option.Rel (InUnits2 m) (a.bind fun x => b.bind fun y => g x y) (a'.bind fun x => b'.bind fun y => g x y) := by
    intro a b a' b' k l m g ha hb hg
    cases ha with
    | none => exact .none
    | some ha =>
      cases hb with
      | none => exact .none
      | some hb => exact hg ha hb
  induction t generalizing k with
  | leaf i => cases ht; exact .some (h i)
  | neg a ih =>
    have := ih ht
    simp only [Calc2.run]
    generalize a.run u env = p at this
    generalize a.run u env' = q at this
    cases this with
    | none => exact .none
    | some hr => exact neg_units2 hf hr u
  | add a b iha ihb =>
    simp only [Calc2.unit, Option.bind_eq_some_iff] at ht
    obtain ⟨p, hp, q, hq, ho⟩ := ht
    split_ifs at ho with e; cases ho; subst e
    exact key (iha hp) (ihb hq) fun h1 h2 => add_units2 hf h1 h2 u
  | sub a b iha ihb =>
    simp only [Calc2.unit, Option.bind_eq_some_iff] at ht
    obtain ⟨p, hp, q, hq, ho⟩ := ht
    split_ifs at ho with e; cases ho; subst e
    exact key (iha hp) (ihb hq) fun h1 h2 => sub_units2 hf h1 h2 u
  | mul a b iha ihb =>
    simp only [Calc2.unit, Option.bind_eq_some_iff, Option.map_eq_some_iff] at ht
    obtain ⟨p, hp, q, hq, rfl⟩ := ht
    exact key (iha hp) (ihb hq) fun h1 h2 => mul_units2 hf h1 h2 u
  | div a b iha ihb =>
    simp only [Calc2.unit, Option.bind_eq_some_iff, Option.map_eq_some_iff] at ht
    obtain ⟨p, hp, q, hq, rfl⟩ := ht
    exact key (iha hp) (ihb hq) fun h1 h2 => div_units2 hf h1 h2 u

/-! ## moments -/

theorem m_units2 {x y : UReal2 (FP f)} (h : InUnits2 k x y) (n : ℕ) : Option.Rel (Times2 (n * k)) (x.m n) (y.m n) := by
  rw [inUnits2_iff hf] at h
  subst h
  rw [m_sc (two_scaling hf) (y := scU (two hf) k x) rfl]
  cases x.m n with
  | none => exact .none
  | some z => exact .some ((times_iff hf).2 rfl)

theorem cov_units2 {x x' y y' : UReal2 (FP f)} (h : InUnits2 k x y) (h' : InUnits2 l x' y') : Option.Rel (Times2 (k + l)) (UReal2.cov x x') (UReal2.cov y y') := by
  rw [inUnits2_iff hf] at h h'
  subst h h'
  rw [cov_sc (two_scaling hf) (x' := scU (two hf) k x) (y' := scU (two hf) l x') rfl rfl]
  cases UReal2.cov x x' with
  | none => exact .none
  | some z => exact .some ((times_iff hf).2 rfl)

end Unc
