import Verif.Lemmas.TrackFun

/-!
# The roundings in a whole calculation
-/

namespace Unc
open Unc.Spec HessGrad SMap Mom Tr Unc.Props

variable {f : Fmt} {u : ℝ} {hu : Acc f.rd u} {κ κ' : ℕ}

theorem numbers_numbers {R S T : Type*} (c : R → S) (d : S → T) (x : UReal2 R) : numbers d (numbers c x) = numbers (fun a => d (c a)) x := mapU_mapU c d x

theorem binary_first {v : Moments ℝ} {x y z : UReal2 ℝ} {m fx fy fxx fyy fxy : ℝ} (h : UReal2.binary v x y m fx fy fxx fyy fxy = some z) : z.mu = m := by
  unfold UReal2.binary at h
  obtain ⟨_, -, h⟩ := Option.bind_eq_some_iff.1 h
  obtain ⟨_, -, h⟩ := Option.bind_eq_some_iff.1 h
  obtain ⟨_, -, h⟩ := Option.bind_eq_some_iff.1 h
  obtain ⟨_, -, rfl⟩ := Option.map_eq_some_iff.1 h
  rfl

/-- the whole calculation -/
theorem run_tr (hu : Acc f.rd u) (hh : HasHalf f) {env : ℕ → UReal2 (FP f)} (henv : ∀ i, Ok2 (env i)) : ∀ {c : CalcF f}, c.Safe u (fun i => (env i).mu.val) →
    ∃ Z : UReal2 (Tr f u hu), (Ok2 Z ∧ UFew c.rounds Z ∧ Z.mu.t = c.value (fun i => (env i).mu.val) ∧ Z.mu.w = c.size fun i => (env i).mu.val) ∧
    (∀ v, c.run v env = some (mapU Tr.v Z)) ∧ (∀ v, c.exact v (fun i => numbers FP.val (env i)) = some (mapU Tr.t Z)) ∧
    ∀ v, c.sizes v (fun i => numbers FP.val (env i)) = some (mapU Tr.w Z)
  | .leaf i, _ => by
    refine ⟨mapU (Tr.lift hu) (env i), ⟨ok_mapU _ (henv i), ⟨few_lift _, fun p hp => ?_, fun p hp => ?_⟩, rfl, rfl⟩, fun v => ?_, fun v => ?_, fun v => ?_⟩
    · obtain ⟨q, -, rfl⟩ := List.mem_map.1 hp
      exact ⟨few_lift _, few_lift _, few_lift _, few_lift _, few_lift _, few_lift _, few_lift _, few_lift _⟩
    · obtain ⟨q, -, rfl⟩ := List.mem_map.1 hp
      exact few_lift _
    · rw [mapU_mapU]
      exact congrArg some (mapU_id (fun _ => rfl) _).symm
    · rw [mapU_mapU]; rfl
    · rw [mapU_mapU, CalcF.sizes, numbers_numbers]; rfl
  | .neg a, h => by
    obtain ⟨X, ⟨oX, fX, tX, wX⟩, x1, x2, x3⟩ := run_tr hu hh henv (c := a) h
    obtain ⟨Z, oZ, fZ, z1, z2, z3⟩ := neg_tr X oX fX
    refine ⟨Z, ⟨oZ, fZ, ?_, ?_⟩, fun v => ?_, fun v => ?_, fun v => ?_⟩
    · obtain ⟨y, e, m, -⟩ := unary_cells (⟨0, 0, 0, 0, 0, 0⟩ : Moments ℝ) (ok_mapU Tr.t oX).valid (-X.mu.t) (-1) 0
      have := z2 ⟨0, 0, 0, 0, 0, 0⟩
      rw [UReal2.neg, show (mapU Tr.t X).mu = X.mu.t from rfl, e, Option.some_inj] at this
      rw [this] at m
      rw [CalcF.value, ← tX]; exact m
    · rw [CalcF.size, ← wX]; exact (congrArg UReal2.mu z3).symm
    · rw [CalcF.run, x1, Option.bind_some, z1]
    · rw [CalcF.exact, x2, Option.bind_some, z2]
    · rw [CalcF.sizes, x3, z3]
  | .add a b, h => by
    obtain ⟨X, ⟨oX, fX, tX, wX⟩, x1, x2, x3⟩ := run_tr hu hh henv (c := a) h.1
    obtain ⟨Y, ⟨oY, fY, tY, wY⟩, y1, y2, y3⟩ := run_tr hu hh henv (c := b) h.2
    obtain ⟨Z, oZ, fZ, z1, z2, z3⟩ := add_tr X Y oX oY fX fY
    refine ⟨Z, ⟨oZ, fZ, ?_, ?_⟩, fun v => ?_, fun v => ?_, fun v => ?_⟩
    · rw [CalcF.value, ← tX, ← tY]; exact binary_first (z2 ⟨0, 0, 0, 0, 0, 0⟩)
    · rw [CalcF.size, ← wX, ← wY]; exact binary_first (z3 ⟨0, 0, 0, 0, 0, 0⟩)
    · rw [CalcF.run, x1, y1, Option.bind_some, Option.bind_some, z1]
    · rw [CalcF.exact, x2, y2, Option.bind_some, Option.bind_some, z2]
    · rw [CalcF.sizes, x3, y3, Option.bind_some, Option.bind_some, z3]
  | .sub a b, h => by
    obtain ⟨X, ⟨oX, fX, tX, wX⟩, x1, x2, x3⟩ := run_tr hu hh henv (c := a) h.1
    obtain ⟨Y, ⟨oY, fY, tY, wY⟩, y1, y2, y3⟩ := run_tr hu hh henv (c := b) h.2
    obtain ⟨Z, oZ, fZ, z1, z2, z3⟩ := sub_tr X Y oX oY fX fY
    refine ⟨Z, ⟨oZ, fZ, ?_, ?_⟩, fun v => ?_, fun v => ?_, fun v => ?_⟩
    · rw [CalcF.value, ← tX, ← tY]; exact binary_first (z2 ⟨0, 0, 0, 0, 0, 0⟩)
    · rw [CalcF.size, ← wX, ← wY]; exact binary_first (z3 ⟨0, 0, 0, 0, 0, 0⟩)
    · rw [CalcF.run, x1, y1, Option.bind_some, Option.bind_some, z1]
    · rw [CalcF.exact, x2, y2, Option.bind_some, Option.bind_some, z2]
    · rw [CalcF.sizes, x3, y3, Option.bind_some, Option.bind_some, z3]
  | .mul a b, h => by
    obtain ⟨X, ⟨oX, fX, tX, wX⟩, x1, x2, x3⟩ := run_tr hu hh henv (c := a) h.1
    obtain ⟨Y, ⟨oY, fY, tY, wY⟩, y1, y2, y3⟩ := run_tr hu hh henv (c := b) h.2
    obtain ⟨Z, oZ, fZ, z1, z2, z3⟩ := mul_tr hh X Y oX oY fX fY
    refine ⟨Z, ⟨oZ, fZ, ?_, ?_⟩, fun v => ?_, fun v => ?_, fun v => ?_⟩
    · rw [CalcF.value, ← tX, ← tY]; exact binary_first (z2 ⟨0, 0, 0, 0, 0, 0⟩)
    · rw [CalcF.size, ← wX, ← wY]; exact binary_first (z3 ⟨0, 0, 0, 0, 0, 0⟩)
    · rw [CalcF.run, x1, y1, Option.bind_some, Option.bind_some, z1]
    · rw [CalcF.exact, x2, y2, Option.bind_some, Option.bind_some, z2]
    · rw [CalcF.sizes, x3, y3, Option.bind_some, Option.bind_some, z3]
  | .div a b, h => by
    obtain ⟨X, ⟨oX, fX, tX, wX⟩, x1, x2, x3⟩ := run_tr hu hh henv (c := a) h.1.1
    obtain ⟨Y, ⟨oY, fY, tY, wY⟩, y1, y2, y3⟩ := run_tr hu hh henv (c := b) h.1.2
    obtain ⟨-, h1, h2, h3⟩ := h
    rw [← tY] at h1
    rw [← tY, ← wY] at h2
    rw [← tX, ← wX] at h3
    obtain ⟨Z, oZ, fZ, tZ, wZ, z1, z2, z3⟩ := div_tr hh X Y oX oY fX fY h1 h2 h3 rfl
    refine ⟨Z, ⟨oZ, fZ, ?_, ?_⟩, fun v => ?_, fun v => ?_, fun v => ?_⟩
    · rw [CalcF.value, ← tX, ← tY, tZ]
    · rw [CalcF.size, ← wX, ← wY, ← tY, wZ]
    · rw [CalcF.run, x1, y1, Option.bind_some, Option.bind_some, z1]
    · rw [CalcF.exact, x2, y2, Option.bind_some, Option.bind_some, z2]
    · rw [CalcF.sizes, x3, y3, Option.bind_some, Option.bind_some]
      have : (b.value fun k => (numbers FP.val (env k)).mu) = Y.mu.t := tY.symm
      rw [this]
      exact z3 v
  | .fun1 h a, hs => by
    obtain ⟨X, ⟨oX, fX, tX, wX⟩, x1, x2, x3⟩ := run_tr hu hh henv (c := a) hs.1
    have good := hs.2
    rw [← tX, ← wX] at good
    obtain ⟨Z, oZ, fZ, tZ, wZ, z1, z2, z3⟩ := fun1_tr hh X oX fX h good
    refine ⟨Z, ⟨oZ, fZ, ?_, wZ⟩, fun v => ?_, fun v => ?_, fun v => ?_⟩
    · rw [CalcF.value, ← tX, tZ]
    · rw [CalcF.run, x1, Option.bind_some]; exact z1 v
    · rw [CalcF.exact, x2, Option.bind_some]; exact z2 v
    · rw [CalcF.sizes, x3, Option.bind_some]; exact z3 v
  | .fun2 h a b, hs => by
    obtain ⟨X, ⟨oX, fX, tX, wX⟩, x1, x2, x3⟩ := run_tr hu hh henv (c := a) hs.1.1
    obtain ⟨Y, ⟨oY, fY, tY, wY⟩, y1, y2, y3⟩ := run_tr hu hh henv (c := b) hs.1.2
    have good := hs.2
    rw [← tX, ← wX, ← tY, ← wY] at good
    obtain ⟨Z, oZ, fZ, tZ, wZ, z1, z2, z3⟩ := fun2_tr hh X Y oX oY fX fY h good
    refine ⟨Z, ⟨oZ, fZ, ?_, wZ⟩, fun v => ?_, fun v => ?_, fun v => ?_⟩
    · rw [CalcF.value, ← tX, ← tY, tZ]
    · rw [CalcF.run, x1, y1, Option.bind_some, Option.bind_some]; exact z1 v
    · rw [CalcF.exact, x2, y2, Option.bind_some, Option.bind_some]; exact z2 v
    · rw [CalcF.sizes, x3, y3, Option.bind_some, Option.bind_some]; exact z3 v

/-! ## results -/

theorem cenAdds_eq (N T n : ℕ) : cenAdds N T n = momRounds N T n := by
  match n with
  | 0 => rfl
  | 1 => rfl
  | 2 => rfl
  | 3 => simp only [cenAdds, momRounds, adds3]; ring
  | 4 => simp only [cenAdds, momRounds, adds4]; ring
  | _ + 5 => rfl

/-- the moments without signs -/
theorem mag_m (X : UReal2 (Tr f u hu)) {n : ℕ} {a : Tr f u hu} (h : X.m n = some a) : magnitude (mapU Tr.w X) n = some a.w := by
  have hc : ∀ n, compute (mapHG Tr.w X.hg) n = (compute X.hg n).map Tr.w := fun n => compute_hom Tr.m_hom X.hg n
  unfold UReal2.m at h
  split_ifs at h with hn
  obtain ⟨l, h1, h2⟩ := Option.bind_eq_some_iff.1 h
  obtain ⟨n1, n4⟩ := hn
  have w3 : (lit 3 : Tr f u hu).w = 3 := Nat.cast_ofNat
  have w4 : (lit 4 : Tr f u hu).w = 4 := Nat.cast_ofNat
  have w6 : (lit 6 : Tr f u hu).w = 6 := Nat.cast_ofNat
  have ws : ∀ a b : Tr f u hu, (a - b).w = a.w + b.w := fun _ _ => rfl
  have wm : ∀ a b : Tr f u hu, (a * b).w = a.w * b.w := fun _ _ => rfl
  have wa : ∀ a b : Tr f u hu, (a + b).w = a.w + b.w := fun _ _ => rfl
  cases e1 : compute X.hg 1 with
  | none => exact absurd e1 (by simp [compute])
  | some c1 =>
    interval_cases n
    · simp only [UReal2.momArray, UReal2.updateMom, e1, Option.bind_some, Option.map_some, Option.some_inj] at h1
      subst h1
      simp only [Nat.sub_self, List.getElem?_cons_zero, Option.some_inj] at h2
      subst h2
      simp only [magnitude, mapU, hc, e1, Option.map_some]
    all_goals
      cases e2 : compute X.hg 2 with
      | none => simp [UReal2.momArray, UReal2.updateMom, e1, e2] at h1
      | some c2 => ?_
    · simp only [UReal2.momArray, UReal2.updateMom, e1, e2, Option.bind_some, Option.map_some, Option.some_inj] at h1
      subst h1
      simp at h2
      subst h2
      simp only [magnitude, mapU, hc, e1, e2, Option.map_some, Option.bind_some, ws, wm, pow_two]
    all_goals
      cases e3 : compute X.hg 3 with
      | none => simp [UReal2.momArray, UReal2.updateMom, e1, e2, e3] at h1
      | some c3 => ?_
    · simp only [UReal2.momArray, UReal2.updateMom, e1, e2, e3, Option.bind_some, Option.map_some, Option.some_inj] at h1
      subst h1
      simp at h2
      subst h2
      simp only [magnitude, mapU, hc, e1, e2, e3, Option.map_some, Option.bind_some, ws, wm, wa, w3, Option.some_inj]
      ring
    · cases e4 : compute X.hg 4 with
      | none => simp [UReal2.momArray, UReal2.updateMom, e1, e2, e3, e4] at h1
      | some c4 =>
        simp only [UReal2.momArray, UReal2.updateMom, e1, e2, e3, e4, Option.bind_some, Option.map_some, Option.some_inj] at h1
        subst h1
        simp at h2
        subst h2
        simp only [magnitude, mapU, hc, e1, e2, e3, e4, Option.map_some, Option.bind_some, ws, wm, wa, w3, w4, w6, Option.some_inj]
        ring

theorem mag_cov (X Y : UReal2 (Tr f u hu)) {a : Tr f u hu} (h : UReal2.cov X Y = some a) : magnitudeCov (mapU Tr.w X) (mapU Tr.w Y) = some a.w := by
  have hc : ∀ (X : UReal2 (Tr f u hu)) n, compute (mapHG Tr.w X.hg) n = (compute X.hg n).map Tr.w := fun X n => compute_hom Tr.m_hom X.hg n
  have hc2 : c2 (mapHG Tr.w X.hg) (mapHG Tr.w Y.hg) = (c2 X.hg Y.hg).map Tr.w := c2_hom Tr.m_hom X.hg Y.hg
  unfold UReal2.cov at h
  obtain ⟨c, h0, h⟩ := Option.bind_eq_some_iff.1 h
  obtain ⟨a1, h1, h⟩ := Option.bind_eq_some_iff.1 h
  obtain ⟨b1, h2, rfl⟩ := Option.map_eq_some_iff.1 h
  have m1 : compute (mapHG Tr.w X.hg) 1 = some a1.w := mag_m X h1
  have m2 : compute (mapHG Tr.w Y.hg) 1 = some b1.w := mag_m Y h2
  rw [magnitudeCov, show (mapU Tr.w X).hg = mapHG Tr.w X.hg from rfl, show (mapU Tr.w Y).hg = mapHG Tr.w Y.hg from rfl, hc2, h0, m1, m2]
  rfl

end Unc
