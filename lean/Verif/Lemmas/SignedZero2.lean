import Verif.Lemmas.SignedZero

/-!
# Signed zeros at second order
-/

namespace Unc
open Spec HessGrad SMap Mom Ext Unc.Props

namespace SExt
variable {f : Fmt} {M : ℝ}

/-- two numbers which differ at most in signs of zeros and of infinities -/
structure SPair (f : Fmt) (M : ℝ) where
  /-- the first -/
  x : SExt f M
  /-- the second -/
  y : SExt f M
  near : Near x y

namespace SPair
noncomputable instance : Zero (SPair f M) := ⟨⟨0, 0, alike_refl _⟩⟩
noncomputable instance : One (SPair f M) := ⟨⟨1, 1, alike_refl _⟩⟩
noncomputable instance : Neg (SPair f M) := ⟨fun a => ⟨-a.x, -a.y, alike_neg a.near⟩⟩
noncomputable instance : Add (SPair f M) := ⟨fun a b => ⟨a.x + b.x, a.y + b.y, alike_add a.near b.near⟩⟩
noncomputable instance : Sub (SPair f M) := ⟨fun a b => ⟨a.x - b.x, a.y - b.y, alike_sub a.near b.near⟩⟩
noncomputable instance : Mul (SPair f M) := ⟨fun a b => ⟨a.x * b.x, a.y * b.y, alike_mul a.near b.near⟩⟩
noncomputable instance : NatCast (SPair f M) := ⟨fun n => ⟨n, n, alike_refl _⟩⟩
theorem x_hom : OpHom (SPair.x (f := f) (M := M)) := ⟨rfl, fun _ _ => rfl, fun _ _ => rfl, fun _ _ => rfl, fun _ => rfl⟩
theorem y_hom : OpHom (SPair.y (f := f) (M := M)) := ⟨rfl, fun _ _ => rfl, fun _ _ => rfl, fun _ _ => rfl, fun _ => rfl⟩
/-- a quotient -/
noncomputable def div (a b : SPair f M) (h : ¬ Infinite b.x.v) (h' : ¬ Infinite b.y.v) : SPair f M := ⟨a.x / b.x, a.y / b.y, near_div a.near b.near h h'⟩
end SPair

theorem pair_list {A B C : Type*} {g : A → C} {h : B → A} {k : B → A} (pair : ∀ a b, g a = g b → ∃ c, h c = a ∧ k c = b) : ∀ {l m : List A}, l.map g = m.map g →
    ∃ n : List B, n.map h = l ∧ n.map k = m
  | [], m, e => by
    cases m with
    | nil => exact ⟨[], rfl, rfl⟩
    | cons b m => cases e
  | a :: l, m, e => by
    cases m with
    | nil => cases e
    | cons b m =>
      simp only [List.map_cons, List.cons.injEq] at e
      obtain ⟨c, rfl, rfl⟩ := pair a b e.1
      obtain ⟨n, rfl, rfl⟩ := pair_list pair e.2
      exact ⟨c :: n, rfl, rfl⟩

/-- values which differ at most in the signs, as one value of pairs -/
theorem pair_up {x y : UReal2 (SExt f M)} (h : numbers SExt.v x = numbers SExt.v y) : ∃ Z : UReal2 (SPair f M), mapU SPair.x Z = x ∧ mapU SPair.y Z = y := by
  obtain ⟨⟨d, t⟩, m⟩ := x
  obtain ⟨⟨d', t'⟩, m'⟩ := y
  simp only [numbers, UReal2.mk.injEq, HessGrad.mk.injEq] at h
  obtain ⟨⟨h1, h2⟩, h3⟩ := h
  have P : ∀ {a b : SExt f M}, a.v = b.v → Near a b := fun e => by rw [Near, e]; exact alike_refl _
  obtain ⟨D, e1, e2⟩ := pair_list (B := VId × Diag (SPair f M)) (h := fun p => (p.1, mapD SPair.x p.2)) (k := fun p => (p.1, mapD SPair.y p.2)) (fun a b e => by
    obtain ⟨i, ⟨g, hh, ⟨m3, m4, m5, m6, m7, m8⟩⟩⟩ := a
    obtain ⟨i', ⟨g', hh', ⟨m3', m4', m5', m6', m7', m8'⟩⟩⟩ := b
    simp only [Prod.mk.injEq, Diag.mk.injEq, Moments.mk.injEq] at e
    obtain ⟨rfl, a1, a2, a3, a4, a5, a6, a7, a8⟩ := e
    exact ⟨(i, ⟨⟨g, g', P a1⟩, ⟨hh, hh', P a2⟩, ⟨⟨m3, m3', P a3⟩, ⟨m4, m4', P a4⟩, ⟨m5, m5', P a5⟩, ⟨m6, m6', P a6⟩, ⟨m7, m7', P a7⟩, ⟨m8, m8', P a8⟩⟩⟩), rfl, rfl⟩) h1
  obtain ⟨T, e3, e4⟩ := pair_list (B := IdPair × SPair f M) (h := fun p => (p.1, p.2.x)) (k := fun p => (p.1, p.2.y)) (fun a b e => by
    obtain ⟨i, a⟩ := a
    obtain ⟨j, b⟩ := b
    simp only [Prod.mk.injEq] at e
    obtain ⟨rfl, e⟩ := e
    exact ⟨(i, ⟨a, b, P e⟩), rfl, rfl⟩) h2
  refine ⟨⟨⟨D, T⟩, ⟨m, m', P h3⟩⟩, ?_, ?_⟩
  · simp only [mapU, mapHG, SMap.mapVal]
    rw [← e1, ← e3]
  · simp only [mapU, mapHG, SMap.mapVal]
    rw [← e2, ← e4]

theorem ok_of_mapU {R S : Type*} (c : R → S) {x : UReal2 R} (h : Ok2 (mapU c x)) : Ok2 x := by
  obtain ⟨⟨a, b, d⟩, e⟩ := h
  refine ⟨⟨?_, ?_, ?_⟩, ?_⟩
  · simpa [mapU, mapHG, Sorted] using a
  · simpa [mapU, mapHG, Sorted] using b
  · simpa [mapU, mapHG] using d
  · simpa [mapU, mapHG, Below] using e

section
variable (hM : 2 ≤ M) (hh : HasHalf f)
include hM hh

theorem two_not_inf : ¬ Infinite (lit 2 : SExt f M).v := half_not_inf hM hh

/-- half a second derivative -/
noncomputable def SPair.half (a : SPair f M) : SPair f M := SPair.div a (lit 2) (two_not_inf hM hh) (two_not_inf hM hh)

omit hh in
theorem sflag_eq (a : SPair f M) : CCmp.eqb a.x 0 = CCmp.eqb a.y 0 :=
  alike_eqb (a := a.x.v) (b := a.y.v) a.near ⟨_, _, _, zero_eq (by linarith), rfl⟩

theorem unary_pair {Z : UReal2 (SPair f M)} (hZ : Ok2 Z) (m fx fxx : SPair f M) :
    ∃ W, Ok2 W ∧ W.mu = m ∧ (∀ v, UReal2.unary v (mapU SPair.x Z) m.x fx.x fxx.x = some (mapU SPair.x W)) ∧ ∀ v, UReal2.unary v (mapU SPair.y Z) m.y fx.y fxx.y = some (mapU SPair.y W) := by
  obtain ⟨z, e, zm, zv, zk, -⟩ := unary_lawfree (ok_mapU SPair.x hZ).valid m.x fx.x fxx.x
  obtain ⟨w, e', wm, wv, wk, -⟩ := unary_lawfree (ok_mapU SPair.y hZ).valid m.y fx.y fxx.y
  have e1 := e (mapM SPair.x ⟨0, 0, 0, 0, 0, 0⟩)
  have e2 := e' (mapM SPair.y (⟨0, 0, 0, 0, 0, 0⟩ : Moments (SPair f M)))
  have fl := sflag_eq hM (SPair.half hM hh fxx)
  rw [unary_G] at e1 e2
  rw [show CCmp.eqb (fxx.x / lit 2) 0 = CCmp.eqb (fxx.y / lit 2) 0 from fl] at e1
  have hX := unaryG_hom SPair.x_hom (CCmp.eqb (fxx.y / lit 2) 0) ⟨0, 0, 0, 0, 0, 0⟩ Z m fx (SPair.half hM hh fxx)
  have hY := unaryG_hom SPair.y_hom (CCmp.eqb (fxx.y / lit 2) 0) ⟨0, 0, 0, 0, 0, 0⟩ Z m fx (SPair.half hM hh fxx)
  have hX' := e1.symm.trans hX
  have hY' := e2.symm.trans hY
  obtain ⟨W, hW, rfl⟩ := Option.map_eq_some_iff.1 hX'.symm
  rw [hW, Option.map_some, Option.some_inj] at hY'
  subst hY'
  refine ⟨W, ok_of_mapU SPair.x ⟨zv, by unfold HessGrad.Below; rw [zk]; exact (ok_mapU SPair.x hZ).below⟩, ?_, e, e'⟩
  obtain ⟨_, -, hW⟩ := Option.bind_eq_some_iff.1 hW
  obtain ⟨_, -, rfl⟩ := Option.map_eq_some_iff.1 hW
  rfl

theorem binary_pair {Z Z' : UReal2 (SPair f M)} (hZ : Ok2 Z) (hZ' : Ok2 Z') (m fx fy fxx fyy fxy : SPair f M) :
    ∃ W, Ok2 W ∧ W.mu = m ∧ (∀ v, UReal2.binary v (mapU SPair.x Z) (mapU SPair.x Z') m.x fx.x fy.x fxx.x fyy.x fxy.x = some (mapU SPair.x W)) ∧
      ∀ v, UReal2.binary v (mapU SPair.y Z) (mapU SPair.y Z') m.y fx.y fy.y fxx.y fyy.y fxy.y = some (mapU SPair.y W) := by
  have o1 := ok_mapU SPair.x hZ
  have o2 := ok_mapU SPair.x hZ'
  obtain ⟨z, e, zm, zv, zk, -⟩ := binary_lawfree o1 o2 m.x fx.x fy.x fxx.x fyy.x fxy.x
  obtain ⟨w, e', wm, wv, wk, -⟩ := binary_lawfree (ok_mapU SPair.y hZ) (ok_mapU SPair.y hZ') m.y fx.y fy.y fxx.y fyy.y fxy.y
  have e1 := e (mapM SPair.x ⟨0, 0, 0, 0, 0, 0⟩)
  have e2 := e' (mapM SPair.y (⟨0, 0, 0, 0, 0, 0⟩ : Moments (SPair f M)))
  rw [binary_G] at e1 e2
  rw [show CCmp.eqb (fxx.x / lit 2) 0 = CCmp.eqb (fxx.y / lit 2) 0 from sflag_eq hM (SPair.half hM hh fxx),
    show CCmp.eqb (fyy.x / lit 2) 0 = CCmp.eqb (fyy.y / lit 2) 0 from sflag_eq hM (SPair.half hM hh fyy),
    show CCmp.eqb (fxy.x / lit 2) 0 = CCmp.eqb (fxy.y / lit 2) 0 from sflag_eq hM (SPair.half hM hh fxy)] at e1
  have hX := binaryG_hom SPair.x_hom (CCmp.eqb (fxx.y / lit 2) 0) (CCmp.eqb (fyy.y / lit 2) 0) (CCmp.eqb (fxy.y / lit 2) 0) ⟨0, 0, 0, 0, 0, 0⟩ Z Z' m fx fy (SPair.half hM hh fxx)
    (SPair.half hM hh fyy) (SPair.half hM hh fxy)
  have hY := binaryG_hom SPair.y_hom (CCmp.eqb (fxx.y / lit 2) 0) (CCmp.eqb (fyy.y / lit 2) 0) (CCmp.eqb (fxy.y / lit 2) 0) ⟨0, 0, 0, 0, 0, 0⟩ Z Z' m fx fy (SPair.half hM hh fxx)
    (SPair.half hM hh fyy) (SPair.half hM hh fxy)
  have hX' := e1.symm.trans hX
  have hY' := e2.symm.trans hY
  obtain ⟨W, hW, rfl⟩ := Option.map_eq_some_iff.1 hX'.symm
  rw [hW, Option.map_some, Option.some_inj] at hY'
  subst hY'
  refine ⟨W, ok_of_mapU SPair.x ⟨zv, fun i hi => ?_⟩, ?_, e, e'⟩
  · rcases (zk i).1 hi with h1 | h1
    exacts [o1.below i h1, o2.below i h1]
  · unfold binaryG at hW
    obtain ⟨_, -, hW⟩ := Option.bind_eq_some_iff.1 hW
    obtain ⟨_, -, hW⟩ := Option.bind_eq_some_iff.1 hW
    obtain ⟨_, -, hW⟩ := Option.bind_eq_some_iff.1 hW
    obtain ⟨_, -, rfl⟩ := Option.map_eq_some_iff.1 hW
    rfl

/-- a whole calculation with two inputs which differ at most in the signs of zeros -/
theorem run_pair {env env' : ℕ → UReal2 (SExt f M)} (henv : ∀ i, Ok2 (env i)) (h : ∀ i, numbers SExt.v (env i) = numbers SExt.v (env' i)) :
    ∀ {c : Calc2}, TameS2 env c → TameS2 env' c → ∃ Z : UReal2 (SPair f M), Ok2 Z ∧ (∀ v, c.run v env = some (mapU SPair.x Z)) ∧ ∀ v, c.run v env' = some (mapU SPair.y Z)
  | .leaf i, _, _ => by
    obtain ⟨Z, e1, e2⟩ := pair_up (h i)
    exact ⟨Z, ok_of_mapU SPair.x (by rw [e1]; exact henv i), fun v => by rw [e1]; rfl, fun v => by rw [e2]; rfl⟩
  | .neg a, t, t' => by
    obtain ⟨Z, o, hx, hy⟩ := run_pair henv h (c := a) t t'
    obtain ⟨W, oW, -, wx, wy⟩ := unary_pair hM hh o (-Z.mu) (-1) 0
    refine ⟨W, oW, fun v => ?_, fun v => ?_⟩
    · rw [Calc2.run, hx, Option.bind_some]; exact wx v
    · rw [Calc2.run, hy, Option.bind_some]; exact wy v
  | .add a b, t, t' => by
    obtain ⟨Z, o, hx, hy⟩ := run_pair henv h (c := a) t.1 t'.1
    obtain ⟨Y, o', hx', hy'⟩ := run_pair henv h (c := b) t.2 t'.2
    obtain ⟨W, oW, -, wx, wy⟩ := binary_pair hM hh o o' (Z.mu + Y.mu) 1 1 0 0 0
    refine ⟨W, oW, fun v => ?_, fun v => ?_⟩
    · rw [Calc2.run, hx, hx', Option.bind_some, Option.bind_some]; exact wx v
    · rw [Calc2.run, hy, hy', Option.bind_some, Option.bind_some]; exact wy v
  | .sub a b, t, t' => by
    obtain ⟨Z, o, hx, hy⟩ := run_pair henv h (c := a) t.1 t'.1
    obtain ⟨Y, o', hx', hy'⟩ := run_pair henv h (c := b) t.2 t'.2
    obtain ⟨W, oW, -, wx, wy⟩ := binary_pair hM hh o o' (Z.mu - Y.mu) 1 (-1) 0 0 0
    refine ⟨W, oW, fun v => ?_, fun v => ?_⟩
    · rw [Calc2.run, hx, hx', Option.bind_some, Option.bind_some]; exact wx v
    · rw [Calc2.run, hy, hy', Option.bind_some, Option.bind_some]; exact wy v
  | .mul a b, t, t' => by
    obtain ⟨Z, o, hx, hy⟩ := run_pair henv h (c := a) t.1 t'.1
    obtain ⟨Y, o', hx', hy'⟩ := run_pair henv h (c := b) t.2 t'.2
    obtain ⟨W, oW, -, wx, wy⟩ := binary_pair hM hh o o' (Z.mu * Y.mu) Y.mu Z.mu 0 0 1
    refine ⟨W, oW, fun v => ?_, fun v => ?_⟩
    · rw [Calc2.run, hx, hx', Option.bind_some, Option.bind_some]; exact wx v
    · rw [Calc2.run, hy, hy', Option.bind_some, Option.bind_some]; exact wy v
  | .div a b, t, t' => by
    obtain ⟨Z, o, hx, hy⟩ := run_pair henv h (c := a) t.1 t'.1
    obtain ⟨Y, o', hx', hy'⟩ := run_pair henv h (c := b) t.2.1 t'.2.1
    have n1 : ¬ Infinite Y.mu.x.v := t.2.2 ⟨0, 0, 0, 0, 0, 0⟩ _ (hx' _)
    have n2 : ¬ Infinite Y.mu.y.v := t'.2.2 ⟨0, 0, 0, 0, 0, 0⟩ _ (hy' _)
    let I : SPair f M := SPair.div 1 Y.mu n1 n2
    obtain ⟨W, oW, -, wx, wy⟩ := binary_pair hM hh o o' (SPair.div Z.mu Y.mu n1 n2) I (-Z.mu * (I * I)) 0 (((2 : ℕ) : SPair f M) * Z.mu * (I * I) * I) (-(I * I))
    refine ⟨W, oW, fun v => ?_, fun v => ?_⟩
    · rw [Calc2.run, hx, hx', Option.bind_some, Option.bind_some]; exact wx v
    · rw [Calc2.run, hy, hy', Option.bind_some, Option.bind_some]; exact wy v

end

/-! ## results -/

theorem m_pair {Z : UReal2 (SPair f M)} (h : Ok2 Z) {n : ℕ} (hn : 1 ≤ n ∧ n ≤ 4) : ∃ a : SPair f M, (mapU SPair.x Z).m n = some a.x ∧ (mapU SPair.y Z).m n = some a.y := by
  obtain ⟨a, ha⟩ := Option.isSome_iff_exists.1 (m_isSome_any h hn)
  exact ⟨a, by rw [m_hom SPair.x_hom, ha]; rfl, by rw [m_hom SPair.y_hom, ha]; rfl⟩

theorem cov_pair {Z Z' : UReal2 (SPair f M)} (h : Ok2 Z) (h' : Ok2 Z') :
    ∃ a : SPair f M, UReal2.cov (mapU SPair.x Z) (mapU SPair.x Z') = some a.x ∧ UReal2.cov (mapU SPair.y Z) (mapU SPair.y Z') = some a.y := by
  obtain ⟨a, ha⟩ := Option.isSome_iff_exists.1 (cov_isSome_any h h')
  exact ⟨a, by rw [cov_hom SPair.x_hom, ha]; rfl, by rw [cov_hom SPair.y_hom, ha]; rfl⟩

/-! ## without the signs -/

theorem v_hom : OpHom (SExt.v (f := f) (M := M)) := ⟨rfl, fun _ _ => rfl, fun _ _ => rfl, fun _ _ => rfl, fun _ => rfl⟩

section
variable (hM : 2 ≤ M) (hh : HasHalf f)
include hM hh

theorem half_v (a : SExt f M) : (a / lit 2).v = a.v / lit 2 := by
  refine v_div_of_ne a (b := lit 2) ?_
  rintro ⟨c, hc, e, e0⟩
  obtain ⟨h2, e2, hv⟩ := lit_two (M := M) hM hh
  have e' : (lit 2 : Ext f M) = fin c hc := e
  rw [e2, fin.injEq] at e'
  rw [← e', hv] at e0
  norm_num at e0

theorem unary_forget {x : UReal2 (SExt f M)} (hx : Ok2 x) (m fx fxx : SExt f M) :
    ∃ z, Ok2 z ∧ z.mu = m ∧ (∀ v, UReal2.unary v x m fx fxx = some z) ∧ ∀ v, UReal2.unary v (mapU SExt.v x) m.v fx.v fxx.v = some (mapU SExt.v z) := by
  obtain ⟨z, e, zm, zv, zk, -⟩ := unary_lawfree hx.valid m fx fxx
  obtain ⟨w, e', -⟩ := unary_lawfree (ok_mapU SExt.v hx).valid m.v fx.v fxx.v
  have e1 := e ⟨0, 0, 0, 0, 0, 0⟩
  have e2 := e' (mapM SExt.v (⟨0, 0, 0, 0, 0, 0⟩ : Moments (SExt f M)))
  rw [unary_G] at e1 e2
  have hX := unaryG_hom v_hom (CCmp.eqb (fxx / lit 2) 0) ⟨0, 0, 0, 0, 0, 0⟩ x m fx (fxx / lit 2)
  have fl : CCmp.eqb (fxx.v / lit 2) 0 = CCmp.eqb (fxx / lit 2) 0 := by rw [← half_v hM hh]; rfl
  rw [fl, ← half_v hM hh, hX, e1, Option.map_some, Option.some_inj] at e2
  subst e2
  exact ⟨z, ⟨zv, by unfold HessGrad.Below; rw [zk]; exact hx.below⟩, zm, e, e'⟩

theorem binary_forget {x y : UReal2 (SExt f M)} (hx : Ok2 x) (hy : Ok2 y) (m fx fy fxx fyy fxy : SExt f M) :
    ∃ z, Ok2 z ∧ z.mu = m ∧ (∀ v, UReal2.binary v x y m fx fy fxx fyy fxy = some z) ∧
      ∀ v, UReal2.binary v (mapU SExt.v x) (mapU SExt.v y) m.v fx.v fy.v fxx.v fyy.v fxy.v = some (mapU SExt.v z) := by
  obtain ⟨z, e, zm, zv, zk, -⟩ := binary_lawfree hx hy m fx fy fxx fyy fxy
  obtain ⟨w, e', -⟩ := binary_lawfree (ok_mapU SExt.v hx) (ok_mapU SExt.v hy) m.v fx.v fy.v fxx.v fyy.v fxy.v
  have e1 := e ⟨0, 0, 0, 0, 0, 0⟩
  have e2 := e' (mapM SExt.v (⟨0, 0, 0, 0, 0, 0⟩ : Moments (SExt f M)))
  rw [binary_G] at e1 e2
  have hX := binaryG_hom v_hom (CCmp.eqb (fxx / lit 2) 0) (CCmp.eqb (fyy / lit 2) 0) (CCmp.eqb (fxy / lit 2) 0) ⟨0, 0, 0, 0, 0, 0⟩ x y m fx fy (fxx / lit 2) (fyy / lit 2) (fxy / lit 2)
  have fl : ∀ a : SExt f M, CCmp.eqb (a.v / lit 2) 0 = CCmp.eqb (a / lit 2) 0 := fun a => by rw [← half_v hM hh]; rfl
  rw [fl, fl, fl, ← half_v hM hh, ← half_v hM hh, ← half_v hM hh, hX, e1, Option.map_some, Option.some_inj] at e2
  subst e2
  refine ⟨z, ⟨zv, fun i hi => ?_⟩, zm, e, e'⟩
  rcases (zk i).1 hi with h1 | h1
  exacts [hx.below i h1, hy.below i h1]

/-- a whole calculation with and without the signs -/
theorem run_forget {env : ℕ → UReal2 (SExt f M)} (henv : ∀ i, Ok2 (env i)) :
    ∀ {c : Calc2}, NoZero2 env c → ∃ x : UReal2 (SExt f M), Ok2 x ∧ (∀ v, c.run v env = some x) ∧ ∀ v, c.run v (fun i => numbers SExt.v (env i)) = some (mapU SExt.v x)
  | .leaf i, _ => ⟨env i, henv i, fun _ => rfl, fun _ => rfl⟩
  | .neg a, t => by
    obtain ⟨x, o, hx, hy⟩ := run_forget henv (c := a) t
    obtain ⟨z, oz, -, zx, zy⟩ := unary_forget hM hh o (-x.mu) (-1) 0
    refine ⟨z, oz, fun v => ?_, fun v => ?_⟩
    · rw [Calc2.run, hx, Option.bind_some]; exact zx v
    · rw [Calc2.run, hy, Option.bind_some]; exact zy v
  | .add a b, t => by
    obtain ⟨x, o, hx, hy⟩ := run_forget henv (c := a) t.1
    obtain ⟨x', o', hx', hy'⟩ := run_forget henv (c := b) t.2
    obtain ⟨z, oz, -, zx, zy⟩ := binary_forget hM hh o o' (x.mu + x'.mu) 1 1 0 0 0
    refine ⟨z, oz, fun v => ?_, fun v => ?_⟩
    · rw [Calc2.run, hx, hx', Option.bind_some, Option.bind_some]; exact zx v
    · rw [Calc2.run, hy, hy', Option.bind_some, Option.bind_some]; exact zy v
  | .sub a b, t => by
    obtain ⟨x, o, hx, hy⟩ := run_forget henv (c := a) t.1
    obtain ⟨x', o', hx', hy'⟩ := run_forget henv (c := b) t.2
    obtain ⟨z, oz, -, zx, zy⟩ := binary_forget hM hh o o' (x.mu - x'.mu) 1 (-1) 0 0 0
    refine ⟨z, oz, fun v => ?_, fun v => ?_⟩
    · rw [Calc2.run, hx, hx', Option.bind_some, Option.bind_some]; exact zx v
    · rw [Calc2.run, hy, hy', Option.bind_some, Option.bind_some]; exact zy v
  | .mul a b, t => by
    obtain ⟨x, o, hx, hy⟩ := run_forget henv (c := a) t.1
    obtain ⟨x', o', hx', hy'⟩ := run_forget henv (c := b) t.2
    obtain ⟨z, oz, -, zx, zy⟩ := binary_forget hM hh o o' (x.mu * x'.mu) x'.mu x.mu 0 0 1
    refine ⟨z, oz, fun v => ?_, fun v => ?_⟩
    · rw [Calc2.run, hx, hx', Option.bind_some, Option.bind_some]; exact zx v
    · rw [Calc2.run, hy, hy', Option.bind_some, Option.bind_some]; exact zy v
  | .div a b, t => by
    obtain ⟨x, o, hx, hy⟩ := run_forget henv (c := a) t.1
    obtain ⟨x', o', hx', hy'⟩ := run_forget henv (c := b) t.2.1
    have n1 : ¬ Is x'.mu.v 0 := t.2.2 ⟨0, 0, 0, 0, 0, 0⟩ _ (hx' _)
    have i1 : (1 / x'.mu).v = 1 / x'.mu.v := v_div_of_ne 1 n1
    obtain ⟨z, oz, -, zx, zy⟩ := binary_forget hM hh o o' (x.mu / x'.mu) (1 / x'.mu) (-x.mu * ((1 / x'.mu) * (1 / x'.mu))) 0
      (((2 : ℕ) : SExt f M) * x.mu * ((1 / x'.mu) * (1 / x'.mu)) * (1 / x'.mu)) (-((1 / x'.mu) * (1 / x'.mu)))
    refine ⟨z, oz, fun v => ?_, fun v => ?_⟩
    · rw [Calc2.run, hx, hx', Option.bind_some, Option.bind_some]; exact zx v
    · rw [Calc2.run, hy, hy', Option.bind_some, Option.bind_some]
      have := zy v
      simp only [v_mul, v_neg, i1, v_div_of_ne _ n1, v_nat] at this
      exact this

end

end SExt
end Unc
