import Verif.Lemmas.Integers2
import Verif.Props.Integers
import Verif.Props.Range2
import Verif.Model.CheckMoments

/-!
# C93: calculations with integers at second order
-/

namespace Unc.Props
open Unc.Spec HessGrad SMap Mom

variable {f : Fmt} {N E : ℕ}

/-- both runs from one, with the numbers beside their sizes -/
theorem run_sz (hf : Dyadics f N E) (hN : 2 ≤ N) (hE : 1 ≤ E) {g : ℕ → UReal2 Dy} (hg : ∀ i, Ok2 (g i)) {t : Calc2} (ht : t.noDiv) :
    ∃ Z : UReal2 (Sz f N E hf hN), Ok2 Z ∧ (∀ v, t.run v g = some (mapU Sz.d Z)) ∧ (∀ v, t.run v (fun i => numbers (Dy.fp f) (g i)) = some (mapU Sz.b Z)) ∧
      ∀ v, t.run v (fun i => numbers Dy.val (g i)) = some (mapU Dy.val (mapU Sz.d Z)) := by
  let G : ℕ → UReal2 (Sz f N E hf hN) := fun i => mapU (Sz.of hf hN) (g i)
  have oG : ∀ i, Ok2 (G i) := fun i => ok_mapU _ (hg i)
  obtain ⟨Z, hZ, oZ⟩ := run_ok oG t
  have hd : (fun i => mapU Sz.d (G i)) = g := funext fun i => by
    show mapU _ (mapU _ _) = _
    rw [mapU_mapU]; exact mapU_id (fun _ => rfl) _
  have hb : (fun i => mapU Sz.b (G i)) = fun i => numbers (Dy.fp f) (g i) := funext fun i => by
    show mapU _ (mapU _ _) = _
    rw [mapU_mapU]; rfl
  have z := hZ ⟨0, 0, 0, 0, 0, 0⟩
  have r1 := run_lit Sz.d_hom ⟨0, 0, 0, 0, 0, 0⟩ G ht
  have r2 := run_lit (Sz.b_hom hE) ⟨0, 0, 0, 0, 0, 0⟩ G ht
  rw [z, hd] at r1
  rw [z, hb] at r2
  have r3 := run_lit Dy.val_hom (mapM Sz.d (⟨0, 0, 0, 0, 0, 0⟩ : Moments (Sz f N E hf hN))) g ht
  rw [r1] at r3
  refine ⟨Z, oZ, fun v => ?_, fun v => ?_, fun v => ?_⟩
  · obtain ⟨w, hw, -⟩ := run_ok hg t
    exact (hw v).trans ((hw _).symm.trans r1)
  · obtain ⟨w, hw, -⟩ := run_ok (fun i => ok_mapU (Dy.fp f) (hg i)) t
    exact (hw v).trans ((hw _).symm.trans r2)
  · obtain ⟨w, hw, -⟩ := run_ok (fun i => ok_mapU Dy.val (hg i)) t
    exact (hw v).trans ((hw _).symm.trans r3)

/-- **C93** A calculation with `+`, `-`, `*` at second order from means, derivatives and moments which are integers or fractions with a power of two below: the mean without the correction,
the derivatives, the two means and the central moments are exact where their size is at most `N` (with enough negative exponents), whatever the sizes of the others. -/
theorem C93_exact (hf : Dyadics f N E) (hN : 2 ≤ N) (hE : 1 ≤ E) {g : ℕ → UReal2 Dy} (hg : ∀ i, Ok2 (g i)) {t : Calc2} (ht : t.noDiv) :
    ∃ (X : UReal2 Dy) (x : UReal2 (FP f)) (y : UReal2 ℝ), (∀ v, t.run v g = some X) ∧ (∀ v, t.run v (fun i => numbers (Dy.fp f) (g i)) = some x) ∧
      (∀ v, t.run v (fun i => numbers Dy.val (g i)) = some y) ∧ y = numbers Dy.val X ∧
      (X.mu.Fits N E → x.mu.val = y.mu) ∧
      (∀ i D, find? X.hg.diagmap i = some D → ∃ d, find? x.hg.diagmap i = some d ∧ (D.grad.Fits N E → d.grad.val = D.grad.val) ∧ (D.hhess.Fits N E → d.hhess.val = D.hhess.val)) ∧
      (∀ k D, find? X.hg.trimap k = some D → ∃ d, find? x.hg.trimap k = some d ∧ (D.Fits N E → d.val = D.val)) ∧
      (∀ k, 1 ≤ k ∧ k ≤ 4 → ∃ D a, X.m k = some D ∧ x.m k = some a ∧ y.m k = some D.val ∧ (D.Fits N E → a.val = D.val)) ∧
      ∀ p, ∃ D a, X.n p = some D ∧ x.n p = some a ∧ y.n p = some D.val ∧ (D.Fits N E → a.val = D.val) := by
  obtain ⟨Z, oZ, h1, h2, h3⟩ := run_sz hf hN hE hg ht
  have hm : ∀ k, 1 ≤ k ∧ k ≤ 4 → ∃ S : Sz f N E hf hN, (mapU Sz.d Z).m k = some S.d ∧ (mapU Sz.b Z).m k = some S.b ∧ (mapU Dy.val (mapU Sz.d Z)).m k = some S.d.val := by
    intro k hk
    obtain ⟨S, hS⟩ := Option.isSome_iff_exists.1 (m_isSome_any oZ hk)
    have e1 := m_hom (Sz.d_hom (hf := hf) (hN := hN)).hom Z k
    rw [hS] at e1
    refine ⟨S, e1, ?_, ?_⟩
    · rw [m_hom (Sz.b_hom hE).hom, hS]; rfl
    · rw [m_hom Dy.val_hom.hom, e1]; rfl
  refine ⟨_, _, _, h1, h2, h3, rfl, Z.mu.ex, fun i D hD => ?_, fun k D hD => ?_, fun k hk => ?_, fun p => ?_⟩
  · have e : ∀ {S : Type} (c : Sz f N E hf hN → S), find? (mapU c Z).hg.diagmap i = (find? Z.hg.diagmap i).map (mapD c) := fun c => find?_mapVal
    rw [e] at hD
    obtain ⟨S, hS, rfl⟩ := Option.map_eq_some_iff.1 hD
    exact ⟨mapD Sz.b S, by rw [e, hS]; rfl, S.grad.ex, S.hhess.ex⟩
  · have e : ∀ {S : Type} (c : Sz f N E hf hN → S), find? (mapU c Z).hg.trimap k = (find? Z.hg.trimap k).map c := fun c => find?_mapVal
    rw [e] at hD
    obtain ⟨S, hS, rfl⟩ := Option.map_eq_some_iff.1 hD
    exact ⟨S.b, by rw [e, hS]; rfl, S.ex⟩
  · obtain ⟨S, e1, e2, e3⟩ := hm k hk
    exact ⟨S.d, S.b, e1, e2, e3, S.ex⟩
  · obtain ⟨S, e1, e2, e3⟩ := hm 1 (by norm_num)
    cases p with
    | est =>
      refine ⟨(Z.mu + -S).d, (Z.mu + -S).b, by rw [UReal2.n, e1]; rfl, by rw [UReal2.n, e2]; rfl, ?_, (Z.mu + -S).ex⟩
      rw [UReal2.n, e3]
      exact congrArg some (by rw [show (Z.mu + -S).d = Z.mu.d + -S.d from rfl, Dy.val_add, Dy.val_neg]; rfl)
    | mean =>
      refine ⟨(Z.mu + S).d, (Z.mu + S).b, by rw [UReal2.n, e1]; rfl, by rw [UReal2.n, e2]; rfl, ?_, (Z.mu + S).ex⟩
      rw [UReal2.n, e3]
      exact congrArg some (by rw [show (Z.mu + S).d = Z.mu.d + S.d from rfl, Dy.val_add]; rfl)

/-- **C93** The covariance of two results. -/
theorem C93_cov (hf : Dyadics f N E) (hN : 2 ≤ N) (hE : 1 ≤ E) {g : ℕ → UReal2 Dy} (hg : ∀ i, Ok2 (g i)) {s t : Calc2} (hs : s.noDiv) (ht : t.noDiv)
    {X Y : UReal2 Dy} {x y : UReal2 (FP f)} {x' y' : UReal2 ℝ} {v : Moments Dy} {v' : Moments (FP f)} {v'' : Moments ℝ}
    (hX : s.run v g = some X) (hx : s.run v' (fun i => numbers (Dy.fp f) (g i)) = some x) (hx' : s.run v'' (fun i => numbers Dy.val (g i)) = some x')
    (hY : t.run v g = some Y) (hy : t.run v' (fun i => numbers (Dy.fp f) (g i)) = some y) (hy' : t.run v'' (fun i => numbers Dy.val (g i)) = some y') :
    ∃ D a, UReal2.cov X Y = some D ∧ UReal2.cov x y = some a ∧ UReal2.cov x' y' = some D.val ∧ (D.Fits N E → a.val = D.val) := by
  obtain ⟨Z, oZ, h1, h2, h3⟩ := run_sz hf hN hE hg hs
  obtain ⟨W, oW, k1, k2, k3⟩ := run_sz hf hN hE hg ht
  rw [h1, Option.some_inj] at hX
  rw [h2, Option.some_inj] at hx
  rw [h3, Option.some_inj] at hx'
  rw [k1, Option.some_inj] at hY
  rw [k2, Option.some_inj] at hy
  rw [k3, Option.some_inj] at hy'
  subst hX hx hx' hY hy hy'
  obtain ⟨S, hS⟩ := Option.isSome_iff_exists.1 (cov_isSome_any oZ oW)
  have e1 := cov_hom (Sz.d_hom (hf := hf) (hN := hN)).hom Z W
  rw [hS] at e1
  refine ⟨S.d, S.b, e1, ?_, ?_, S.ex⟩
  · rw [cov_hom (Sz.b_hom hE).hom, hS]; rfl
  · rw [cov_hom Dy.val_hom.hom, e1]; rfl

/-- **C93** `double` has these numbers with `N = 2^53`, `E = 1074`; `float` with `N = 2^24`, `E = 149`. -/
theorem C93_formats : Dyadics dblFmt (2 ^ 53) 1074 ∧ Dyadics fltFmt (2 ^ 24) 149 := by
  have up : ∀ (p : ℕ) (emin : ℤ) (hp : 1 ≤ p) (he : emin ≤ 0) (E : ℕ), emin - p + 1 ≤ -E → Dyadics (ieee p emin hp he) (2 ^ p) E := by
    intro p emin hp he E hk n e hn hE
    have hn' : |n| ≤ 2 ^ p := by rw [Int.abs_eq_natAbs]; exact_mod_cast hn
    have z : ∀ x : ℝ, x / 2 ^ e = x * 2 ^ (-e : ℤ) := fun x => by rw [zpow_neg, zpow_natCast]; rfl
    rw [z]
    rcases hn'.lt_or_eq with h1 | h1
    · exact ieee_int hp he n (-e) h1 (by omega)
    · have key := ieee_int hp he 1 (p - e) (by rw [abs_one]; exact one_lt_pow₀ (by norm_num) (by omega)) (by omega)
      have key' : (ieee p emin hp he).rd ((2 : ℝ) ^ p * 2 ^ (-e : ℤ)) = 2 ^ p * 2 ^ (-e : ℤ) := by
        rw [← zpow_natCast, ← zpow_add₀ (by norm_num), ← sub_eq_add_neg]; simpa using key
      rcases abs_choice n with h2 | h2
      · have : n = 2 ^ p := by rw [← h2, h1]
        rw [this]; push_cast; exact key'
      · have : n = -2 ^ p := by rw [← h1, h2]; ring
        rw [this]; push_cast; rw [neg_mul, Fmt.odd, key']
  exact ⟨up 53 (-1022) _ _ _ (by norm_num), up 24 (-126) _ _ _ (by norm_num)⟩

/-- **C93** The constructor from central moments: with an integer uncertainty `s` and integer standardized moments `t`, the eighth power of `s` being at most `N`, the object is
that of the constructor from the uncertainty and the standardized moments.  (Otherwise the uncertainty is a rounded square root.) -/
theorem C93_central (hf : Ints f N) {s : ℕ} (hs : 1 ≤ s) (h8 : s ^ 8 ≤ N) {t : ℕ → ℤ} (u : Moments (FP f)) (id : VId) (n : FP f) {c : ℕ → FP f}
    (h0 : (c 0).val = s ^ 2) (hc : ∀ k < 6, (c (k + 1)).val = t k * s ^ (k + 3)) {S : FP f} {T : ℕ → FP f} (hS : S.val = s) (hT : ∀ k < 6, (T k).val = t k) :
    UReal2.buildCentral u id n c = UReal2.buildStd u id n S T := by
  have s0 : (0 : ℝ) < s := by exact_mod_cast hs
  have pw : ∀ k ≤ 8, f.rd ((s : ℝ) ^ k) = s ^ k := fun k hk => by
    have := hf ((s : ℤ) ^ k) (by rw [Int.natAbs_pow, Int.natAbs_natCast]; exact (Nat.pow_le_pow_right hs hk).trans h8)
    push_cast at this
    exact this
  have hg : CSqrt.sqrt (c 0) = S := by
    apply FP.ext
    show f.rd (Real.sqrt (c 0).val) = _
    rw [h0, Real.sqrt_sq s0.le, hS]
    simpa using pw 1 (by norm_num)
  have p : ∀ {a : FP f} {k : ℕ}, a.val = s ^ k → k + 1 ≤ 8 → (a * S).val = s ^ (k + 1) := fun {a k} ha hk => by
    rw [FP.val_mul, ha, hS, ← pow_succ, pw _ hk]
  have q : ∀ {a : FP f} {k : ℕ}, k < 6 → a.val = s ^ (k + 3) → c (k + 1) / a = T k := fun {a k} hk ha => by
    apply FP.ext
    have : (t k : ℝ) * s ^ (k + 3) / s ^ (k + 3) = (T k).val := by rw [hT k hk]; field_simp
    rw [FP.val_div, ha, hc k hk, this, (T k).rep]
  have hpos : CCmp.ltb 0 S = true := by rw [FP.ltb_fp, FP.val_zero, hS]; exact s0
  have m : UReal2.stdMoments S c = UReal2.momOfArray T := by
    have a3 := p h0 (by norm_num)
    have a4 := p a3 (by norm_num)
    have a5 := p a4 (by norm_num)
    have a6 := p a5 (by norm_num)
    have a7 := p a6 (by norm_num)
    have a8 := p a7 (by norm_num)
    simp only [UReal2.stdMoments, UReal2.momOfArray]
    rw [q (k := 0) (by norm_num) a3, q (k := 1) (by norm_num) a4, q (k := 2) (by norm_num) a5, q (k := 3) (by norm_num) a6, q (k := 4) (by norm_num) a7, q (k := 5) (by norm_num) a8]
  simp only [UReal2.buildCentral, UReal2.buildStd, hg, hpos, if_true, m]

/-- **C93** The bound is sharp: if the integer `N + 1` is not in the format, the sum of the constants `N` and 1 has not the mean `N + 1`. -/
theorem C93_sharp (hn : ¬ Ints f (N + 1)) (hi : Ints f N) {x y z : UReal2 (FP f)} (hx : x.mu.val = N) (hy : y.mu.val = 1) {v : Moments (FP f)} (h : UReal2.add v x y = some z) : z.mu.val ≠ N + 1 := by
  have hz : z.mu = x.mu + y.mu := by
    unfold UReal2.add UReal2.binary at h
    obtain ⟨_, -, h⟩ := Option.bind_eq_some_iff.1 h
    obtain ⟨_, -, h⟩ := Option.bind_eq_some_iff.1 h
    obtain ⟨_, -, h⟩ := Option.bind_eq_some_iff.1 h
    obtain ⟨_, -, rfl⟩ := Option.map_eq_some_iff.1 h
    rfl
  intro e
  rw [hz, FP.val_add, hx, hy] at e
  refine hn fun n hn => ?_
  rcases Nat.lt_or_eq_of_le hn with h1 | h1
  · exact hi n (Nat.lt_succ_iff.1 h1)
  · rcases Int.natAbs_eq n with h2 | h2 <;> rw [h2, h1] <;> push_cast
    · exact e
    · rw [Fmt.odd, e]

/-! ## examples -/

/-- a normal variable with integer mean and uncertainty -/
def dyNormal (id : VId) (n s : ℤ) : UReal2 Dy := ⟨⟨[(id, ⟨Dy.int s, 0, ⟨0, Dy.int 3, 0, Dy.int 15, 0, Dy.int 105⟩⟩)], []⟩, Dy.int n⟩

/-- 3 ± 2 and -5 ± 1 -/
def exDy : ℕ → UReal2 Dy
  | 0 => dyNormal 1 3 2
  | 1 => dyNormal 2 (-5) 1
  | _ => ⟨HessGrad.empty, Dy.int 7⟩

/-- `(a * b - 7) * a` -/
def exDyT : Calc2 := .mul (.sub (.mul (.leaf 0) (.leaf 1)) (.leaf 2)) (.leaf 0)

theorem exDy_ok : ∀ i, Ok2 (exDy i)
  | 0 => ok_fresh (by decide) _ _
  | 1 => ok_fresh (by decide) _ _
  | _ + 2 => ok_plain _

/-- in `double` all is exact: the variance is 6501, the fourth central moment 259772235, the corrected mean -66 - (-20) -/
example : ∃ x : UReal2 (FP dblFmt), (∀ v, exDyT.run v (fun i => numbers (Dy.fp dblFmt) (exDy i)) = some x) ∧ (∃ a, x.m 2 = some a ∧ a.val = 6501) ∧ (∃ a, x.m 3 = some a ∧ a.val = -786352) ∧
    (∃ a, x.m 4 = some a ∧ a.val = 259772235) ∧ ∃ a, x.n .est = some a ∧ a.val = -46 := by
  obtain ⟨X, x, y, hX, hx, -, -, -, -, -, hm, hn⟩ := C93_exact C93_formats.1 (by norm_num) (by norm_num) exDy_ok (t := exDyT) (by simp [exDyT, Calc2.noDiv])
  have v : ∀ {n : ℤ} {m e : ℕ} {h}, (⟨n, m, e, h⟩ : Dy).val = n / 2 ^ e := rfl
  refine ⟨x, hx, ?_, ?_, ?_, ?_⟩
  · obtain ⟨D, a, h1, h2, -, h4⟩ := hm 2 (by norm_num)
    have : D = ⟨26004, 29204, 2, by decide⟩ := by
      have : ((exDyT.run ⟨0, 0, 0, 0, 0, 0⟩ exDy).bind fun x => x.m 2) = some ⟨26004, 29204, 2, by decide⟩ := by decide +kernel
      rw [hX, Option.bind_some, h1, Option.some_inj] at this; exact this
    subst this
    exact ⟨a, h2, (h4 (by decide)).trans (by rw [v]; norm_num)⟩
  · obtain ⟨D, a, h1, h2, -, h4⟩ := hm 3 (by norm_num)
    have : D = ⟨-6290816, 13043776, 3, by decide⟩ := by
      have : ((exDyT.run ⟨0, 0, 0, 0, 0, 0⟩ exDy).bind fun x => x.m 3) = some ⟨-6290816, 13043776, 3, by decide⟩ := by decide +kernel
      rw [hX, Option.bind_some, h1, Option.some_inj] at this; exact this
    subst this
    exact ⟨a, h2, (h4 (by decide)).trans (by rw [v]; norm_num)⟩
  · obtain ⟨D, a, h1, h2, -, h4⟩ := hm 4 (by norm_num)
    have : D = ⟨4156355760, 7785007280, 4, by decide⟩ := by
      have : ((exDyT.run ⟨0, 0, 0, 0, 0, 0⟩ exDy).bind fun x => x.m 4) = some ⟨4156355760, 7785007280, 4, by decide⟩ := by decide +kernel
      rw [hX, Option.bind_some, h1, Option.some_inj] at this; exact this
    subst this
    exact ⟨a, h2, (h4 (by decide)).trans (by rw [v]; norm_num)⟩
  · obtain ⟨D, a, h1, h2, -, h4⟩ := hn .est
    have : D = ⟨-92, 172, 1, by decide⟩ := by
      have : ((exDyT.run ⟨0, 0, 0, 0, 0, 0⟩ exDy).bind fun x => x.n .est) = some ⟨-92, 172, 1, by decide⟩ := by decide +kernel
      rw [hX, Option.bind_some, h1, Option.some_inj] at this; exact this
    subst this
    exact ⟨a, h2, (h4 (by decide)).trans (by rw [v]; norm_num)⟩

/-- in `float` too the covariance of `a * a` and `a * b`, 2·a·b·Var a = -120 -/
example {x y : UReal2 (FP fltFmt)} {v : Moments (FP fltFmt)} (hx : (Calc2.mul (.leaf 0) (.leaf 0)).run v (fun i => numbers (Dy.fp fltFmt) (exDy i)) = some x)
    (hy : (Calc2.mul (.leaf 0) (.leaf 1)).run v (fun i => numbers (Dy.fp fltFmt) (exDy i)) = some y) : ∃ a, UReal2.cov x y = some a ∧ a.val = -120 := by
  obtain ⟨X, -, x', hX, -, hx', -⟩ := C93_exact C93_formats.2 (by norm_num) (by norm_num) exDy_ok (t := .mul (.leaf 0) (.leaf 0)) (by simp [Calc2.noDiv])
  obtain ⟨Y, -, y', hY, -, hy', -⟩ := C93_exact C93_formats.2 (by norm_num) (by norm_num) exDy_ok (t := .mul (.leaf 0) (.leaf 1)) (by simp [Calc2.noDiv])
  obtain ⟨D, a, h1, h2, -, h4⟩ := C93_cov C93_formats.2 (by norm_num) (by norm_num) exDy_ok (s := .mul (.leaf 0) (.leaf 0)) (t := .mul (.leaf 0) (.leaf 1)) (by simp [Calc2.noDiv]) (by simp [Calc2.noDiv])
    (hX ⟨0, 0, 0, 0, 0, 0⟩) hx (hx' ⟨0, 0, 0, 0, 0, 0⟩) (hY _) hy (hy' _)
  have : D = ⟨-120, 120, 0, by decide⟩ := by
    have : (((Calc2.mul (.leaf 0) (.leaf 0)).run ⟨0, 0, 0, 0, 0, 0⟩ exDy).bind fun x => ((Calc2.mul (.leaf 0) (.leaf 1)).run ⟨0, 0, 0, 0, 0, 0⟩ exDy).bind fun y => UReal2.cov x y) =
      some ⟨-120, 120, 0, by decide⟩ := by decide +kernel
    rw [hX, hY, Option.bind_some, Option.bind_some, h1, Option.some_inj] at this; exact this
  subst this
  refine ⟨a, h2, (h4 (by decide)).trans ?_⟩
  show (((-120 : ℤ) : ℝ)) / 2 ^ 0 = -120
  norm_num

/-- 10 ± 3, normal: the central moments are 9, 0, 243, 0, 10935, 0, 688905 -/
example (u : Moments (FP dblFmt)) :
    UReal2.buildCentral u 1 (dI 10 (by norm_num)) (fun | 0 => dI 9 (by norm_num) | 2 => dI 243 (by norm_num) | 4 => dI 10935 (by norm_num) | 6 => dI 688905 (by norm_num) | _ => 0) =
    UReal2.buildStd u 1 (dI 10 (by norm_num)) (dI 3 (by norm_num)) (fun | 1 => dI 3 (by norm_num) | 3 => dI 15 (by norm_num) | 5 => dI 105 (by norm_num) | _ => 0) := by
  refine C93_central C92_formats.1.1 (s := 3) (by norm_num) (by norm_num) (t := fun | 1 => 3 | 3 => 15 | 5 => 105 | _ => 0) u 1 _ (by norm_num [dI]) (fun k hk => ?_) (by norm_num [dI]) fun k hk => ?_
  · interval_cases k <;> norm_num [dI]
  · interval_cases k <;> norm_num [dI]

/-- 2^53 + 1 -/
example {z : UReal2 (FP dblFmt)} {v : Moments (FP dblFmt)} (h : UReal2.add v (UReal2.const (dI (2 ^ 53) (by norm_num))) (UReal2.const 1) = some z) : z.mu.val ≠ 2 ^ 53 + 1 := by
  have := C93_sharp (N := 2 ^ 53) C92_formats.1.2 C92_formats.1.1 (by norm_num [dI, UReal2.const]) (by simp [UReal2.const]) h
  exact_mod_cast this

end Unc.Props
