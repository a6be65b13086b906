import Verif.Spec.FloatProg2
import Verif.Lemmas.Natural2
import Verif.Props.FloatMath
import Verif.Props.SecondOrder
import Verif.Props.Moments

/-!
# C66: the second-order class in floating point approaches exact arithmetic when the precision increases
-/

namespace Unc.Props
open Unc.Spec FP Filter Topology HessGrad Mom

section conv
variable {f : ℕ → Fmt}

/-- a sequence of numbers of the formats and its limit -/
structure CSeq (f : ℕ → Fmt) (hf : Finer f) where
  s : ∀ k, FP (f k)
  l : ℝ
  conv : Conv s l

namespace CSeq
variable {hf : Finer f}

instance : Zero (CSeq f hf) := ⟨⟨fun _ => 0, 0, conv_zero⟩⟩
noncomputable instance : Add (CSeq f hf) := ⟨fun a b => ⟨fun k => a.s k + b.s k, a.l + b.l, a.conv.add hf b.conv⟩⟩
noncomputable instance : Sub (CSeq f hf) := ⟨fun a b => ⟨fun k => a.s k - b.s k, a.l - b.l, a.conv.sub hf b.conv⟩⟩
noncomputable instance : Mul (CSeq f hf) := ⟨fun a b => ⟨fun k => a.s k * b.s k, a.l * b.l, a.conv.mul hf b.conv⟩⟩
noncomputable instance : NatCast (CSeq f hf) := ⟨fun n => ⟨fun _ => n, n, conv_nat hf n⟩⟩

/-- the number in format `k` -/
def proj (k : ℕ) (a : CSeq f hf) : FP (f k) := a.s k

theorem proj_hom (k : ℕ) : OpHom (proj (hf := hf) k) := ⟨rfl, fun _ _ => rfl, fun _ _ => rfl, fun _ _ => rfl, fun _ => rfl⟩
theorem lim_hom : OpHom (CSeq.l (f := f) (hf := hf)) := ⟨rfl, fun _ _ => rfl, fun _ _ => rfl, fun _ _ => rfl, fun _ => rfl⟩

end CSeq

open CSeq

theorem ok_of_mapU {R S : Type*} {c : R → S} {x : UReal2 R} (h : Ok2 (mapU c x)) : Ok2 x := by
  obtain ⟨⟨h1, h2, h3⟩, h4⟩ := h
  exact ⟨⟨by simpa [mapU, mapHG] using h1, by simpa [mapU, mapHG] using h2, by simpa [mapU, mapHG] using h3⟩, by simpa [mapU, mapHG, Below] using h4⟩

theorem unary_any {R : Type*} [Zero R] [One R] [Add R] [Sub R] [Neg R] [Mul R] [Div R] [NatCast R] [CCmp R] {x : UReal2 R} (hx : Ok2 x) (f fx fxx : R) (u u' : Moments R) :
    UReal2.unary u x f fx fxx = UReal2.unary u' x f fx fxx := by
  obtain ⟨z, h, -⟩ := unary_lawfree hx.valid f fx fxx
  rw [h, h]

theorem binary_any {R : Type*} [Zero R] [One R] [Add R] [Sub R] [Neg R] [Mul R] [Div R] [NatCast R] [CCmp R] {x y : UReal2 R} (hx : Ok2 x) (hy : Ok2 y) (f fx fy fxx fyy fxy : R) (u u' : Moments R) :
    UReal2.binary u x y f fx fy fxx fyy fxy = UReal2.binary u' x y f fx fy fxx fyy fxy := by
  obtain ⟨z, h, -⟩ := binary_lawfree hx hy f fx fy fxx fyy fxy
  rw [h, h]

/-- half a second derivative, and whether it is 0 -/
theorem half_conv (hf : Finer f) {e : ∀ k, FP (f k)} {E : ℝ} (he : Conv e E) (h0 : E ≠ 0 ∨ ∀ k, (e k).val = 0) :
    Conv (fun k => e k / lit 2) (E / lit 2) ∧ ∃ b : Bool, CCmp.eqb (E / lit 2) 0 = b ∧ ∀ᶠ k in atTop, CCmp.eqb (e k / lit 2) 0 = b := by
  have h1 : Conv (fun k => e k / lit 2) (E / lit 2) := he.div hf (conv_nat hf 2) (by norm_num [lit])
  refine ⟨h1, ?_⟩
  rcases h0 with h0 | h0
  · have hne : E / (lit 2 : ℝ) ≠ 0 := div_ne_zero h0 (by norm_num [lit])
    refine ⟨false, by rw [← Bool.not_eq_true, eqb_iff]; exact hne, ?_⟩
    filter_upwards [Tendsto.eventually_ne h1 hne] with k hk
    rw [← Bool.not_eq_true, eqb_fp]; exact hk
  · have hE : E = 0 := by
      have : (fun k => (e k).val) = fun _ => 0 := funext h0
      unfold Conv at he
      rw [this] at he
      exact tendsto_nhds_unique he tendsto_const_nhds
    refine ⟨true, by rw [eqb_iff, hE, zero_div], Eventually.of_forall fun k => ?_⟩
    rw [eqb_fp, val_div, h0, zero_div, Fmt.rd_zero]; rfl

variable {hf : Finer f}

theorem unary_conv {z : UReal2 (CSeq f hf)} (hz : Ok2 z) {m d e : ∀ k, FP (f k)} {M D E : ℝ} (hm : Conv m M) (hd : Conv d D) (he : Conv e E)
    (h0 : E ≠ 0 ∨ ∀ k, (e k).val = 0) :
    ∃ z' : UReal2 (CSeq f hf), Ok2 z' ∧ z'.mu = ⟨m, M, hm⟩ ∧ (∀ᶠ k in atTop, ∀ u, UReal2.unary u (mapU (proj k) z) (m k) (d k) (e k) = some (mapU (proj k) z')) ∧
      ∀ u, UReal2.unary u (mapU CSeq.l z) M D E = some (mapU CSeq.l z') := by
  obtain ⟨h1, b, h2, h3⟩ := half_conv hf he h0
  let u0 : Moments (CSeq f hf) := ⟨0, 0, 0, 0, 0, 0⟩
  have ex := unaryG_hom lim_hom b u0 z ⟨m, M, hm⟩ ⟨d, D, hd⟩ ⟨_, _, h1⟩
  have eR : ∀ u, UReal2.unary u (mapU CSeq.l z) M D E = (unaryG b u0 z ⟨m, M, hm⟩ ⟨d, D, hd⟩ ⟨_, _, h1⟩).map (mapU CSeq.l) := fun u => by
    rw [unary_any (ok_mapU _ hz) _ _ _ u (mapM CSeq.l u0), unary_G, h2]
    exact ex
  obtain ⟨Z, hZ, oZ⟩ := C21_unary (ok_mapU CSeq.l hz) M D E
  have := eR (mapM CSeq.l u0)
  rw [hZ] at this
  obtain ⟨z', hz', e'⟩ := Option.map_eq_some_iff.1 this.symm
  refine ⟨z', ok_of_mapU (c := CSeq.l) (e' ▸ oZ), ?_, ?_, fun u => by rw [eR, hz']; rfl⟩
  · unfold unaryG at hz'
    cases he : z.hg.hessEntries b with
    | none => rw [he] at hz'; simp at hz'
    | some es =>
      rw [he, Option.bind_some] at hz'
      obtain ⟨hg, -, e''⟩ := Option.map_eq_some_iff.1 hz'
      rw [← e'']
  · filter_upwards [h3] with k hk u
    rw [unary_any (ok_mapU _ hz) _ _ _ u (mapM (proj k) u0), unary_G, hk]
    have := unaryG_hom (proj_hom k) b u0 z ⟨m, M, hm⟩ ⟨d, D, hd⟩ ⟨_, _, h1⟩
    rw [hz'] at this
    exact this

theorem binary_conv {z w : UReal2 (CSeq f hf)} (hz : Ok2 z) (hw : Ok2 w) {m dx dy exx eyy exy : ∀ k, FP (f k)} {M Dx Dy Exx Eyy Exy : ℝ} (hm : Conv m M) (hdx : Conv dx Dx)
    (hdy : Conv dy Dy) (hxx : Conv exx Exx) (hyy : Conv eyy Eyy) (hxy : Conv exy Exy)
    (h0 : Exx ≠ 0 ∨ ∀ k, (exx k).val = 0) (h0' : Eyy ≠ 0 ∨ ∀ k, (eyy k).val = 0) (h0'' : Exy ≠ 0 ∨ ∀ k, (exy k).val = 0) :
    ∃ z' : UReal2 (CSeq f hf), Ok2 z' ∧ z'.mu = ⟨m, M, hm⟩ ∧
      (∀ᶠ k in atTop, ∀ u, UReal2.binary u (mapU (proj k) z) (mapU (proj k) w) (m k) (dx k) (dy k) (exx k) (eyy k) (exy k) = some (mapU (proj k) z')) ∧
      ∀ u, UReal2.binary u (mapU CSeq.l z) (mapU CSeq.l w) M Dx Dy Exx Eyy Exy = some (mapU CSeq.l z') := by
  obtain ⟨a1, a, a2, a3⟩ := half_conv hf hxx h0
  obtain ⟨b1, b, b2, b3⟩ := half_conv hf hyy h0'
  obtain ⟨c1, c, c2, c3⟩ := half_conv hf hxy h0''
  let u0 : Moments (CSeq f hf) := ⟨0, 0, 0, 0, 0, 0⟩
  have ex := binaryG_hom lim_hom a b c u0 z w ⟨m, M, hm⟩ ⟨dx, Dx, hdx⟩ ⟨dy, Dy, hdy⟩ ⟨_, _, a1⟩ ⟨_, _, b1⟩ ⟨_, _, c1⟩
  have eR : ∀ u, UReal2.binary u (mapU CSeq.l z) (mapU CSeq.l w) M Dx Dy Exx Eyy Exy =
      (binaryG a b c u0 z w ⟨m, M, hm⟩ ⟨dx, Dx, hdx⟩ ⟨dy, Dy, hdy⟩ ⟨_, _, a1⟩ ⟨_, _, b1⟩ ⟨_, _, c1⟩).map (mapU CSeq.l) := fun u => by
    rw [binary_any (ok_mapU _ hz) (ok_mapU _ hw) _ _ _ _ _ _ u (mapM CSeq.l u0), binary_G, a2, b2, c2]
    exact ex
  obtain ⟨Z, hZ, oZ⟩ := C21_binary (ok_mapU CSeq.l hz) (ok_mapU CSeq.l hw) M Dx Dy Exx Eyy Exy
  have := eR (mapM CSeq.l u0)
  rw [hZ] at this
  obtain ⟨z', hz', e'⟩ := Option.map_eq_some_iff.1 this.symm
  refine ⟨z', ok_of_mapU (c := CSeq.l) (e' ▸ oZ), ?_, ?_, fun u => by rw [eR, hz']; rfl⟩
  · unfold binaryG at hz'
    simp only [Option.bind_eq_some_iff, Option.map_eq_some_iff] at hz'
    obtain ⟨_, -, _, -, _, -, _, -, e''⟩ := hz'
    rw [← e'']
  · filter_upwards [a3, b3, c3] with k ka kb kc u
    rw [binary_any (ok_mapU _ hz) (ok_mapU _ hw) _ _ _ _ _ _ u (mapM (proj k) u0), binary_G, ka, kb, kc]
    have := binaryG_hom (proj_hom k) a b c u0 z w ⟨m, M, hm⟩ ⟨dx, Dx, hdx⟩ ⟨dy, Dy, hdy⟩ ⟨_, _, a1⟩ ⟨_, _, b1⟩ ⟨_, _, c1⟩
    rw [hz'] at this
    exact this

/-! ### results -/

theorem approach_hom {a : Option (CSeq f hf)} {A : Option ℝ} (hA : A.isSome) (h : A = a.map CSeq.l) : Approach (fun k => a.map (proj k)) A := by
  subst h
  cases a with
  | none => simp at hA
  | some a => exact ⟨a.s, a.l, Eventually.of_forall fun _ => rfl, rfl, a.conv⟩

theorem m_isSome {x : UReal2 ℝ} (hx : Ok2 x) {n : ℕ} (hn : 1 ≤ n ∧ n ≤ 4) : (x.m n).isSome := by
  obtain ⟨a1, a2, a3, a4⟩ := m_table hx.valid (mu := mus x.hg) fun _ _ _ => rfl
  obtain ⟨h1, h4⟩ := hn
  interval_cases n
  · rw [a1]; rfl
  · rw [a2]; rfl
  · rw [a3]; rfl
  · rw [a4]; rfl

theorem m_approach {z : UReal2 (CSeq f hf)} (hz : Ok2 z) {n : ℕ} (hn : 1 ≤ n ∧ n ≤ 4) :
    Approach (fun k => (mapU (proj k) z).m n) ((mapU CSeq.l z).m n) := by
  simp only [m_hom (proj_hom _)]
  exact approach_hom (m_isSome (ok_mapU CSeq.l hz) hn) (m_hom lim_hom z n)

theorem cov_approach {z w : UReal2 (CSeq f hf)} (hz : Ok2 z) (hw : Ok2 w) :
    Approach (fun k => UReal2.cov (mapU (proj k) z) (mapU (proj k) w)) (UReal2.cov (mapU CSeq.l z) (mapU CSeq.l w)) := by
  simp only [cov_hom (proj_hom _)]
  refine approach_hom ?_ (cov_hom lim_hom z w)
  rw [cov_form (ok_mapU CSeq.l hz).valid (ok_mapU CSeq.l hw).valid (Finset.subset_union_left (s₂ := (mapU CSeq.l w).hg.vars)) Finset.subset_union_right]
  rfl

theorem _root_.Unc.Spec.Approach.map {a : ∀ k, Option (FP (f k))} {A : Option ℝ} (h : Approach a A) {g : ∀ k, FP (f k) → FP (f k)} {G : ℝ → ℝ}
    (hg : ∀ (v : ∀ k, FP (f k)) V, A = some V → Conv v V → Conv (fun k => g k (v k)) (G V)) : Approach (fun k => (a k).map (g k)) (A.map G) := by
  obtain ⟨v, V, h1, h2, h3⟩ := h
  exact ⟨fun k => g k (v k), G V, h1.mono fun k hk => by simp only [hk, Option.map_some], by rw [h2]; rfl, hg v V h2 h3⟩

theorem _root_.Unc.Spec.Approach.map2 {a b : ∀ k, Option (FP (f k))} {A B : Option ℝ} (h : Approach a A) (h' : Approach b B) {g : ∀ k, FP (f k) → FP (f k) → FP (f k)} {G : ℝ → ℝ → ℝ}
    (hg : ∀ (v w : ∀ k, FP (f k)) V W, A = some V → B = some W → Conv v V → Conv w W → Conv (fun k => g k (v k) (w k)) (G V W)) :
    Approach (fun k => (a k).bind fun x => (b k).map (g k x)) (A.bind fun x => B.map (G x)) := by
  obtain ⟨v, V, h1, h2, h3⟩ := h
  obtain ⟨w, W, i1, i2, i3⟩ := h'
  refine ⟨fun k => g k (v k) (w k), G V W, ?_, by rw [h2, i2]; rfl, hg v w V W h2 i2 h3 i3⟩
  filter_upwards [h1, i1] with k hk ik
  simp only [hk, ik, Option.bind_some, Option.map_some]

end conv

/-! ### whole computations -/

section prog
variable {f : ℕ → Fmt} {hf : Finer f}

theorem getD_map' {A B : Type*} (g : A → B) (l : List A) (i : ℕ) (d : A) : (l.map g).getD i (g d) = g (l.getD i d) := by
  simp only [List.getD_eq_getElem?_getD, List.getElem?_map]
  cases l[i]? <;> rfl

theorem ok_getD {R : Type*} {l : List (UReal2 R)} (h : ∀ x ∈ l, Ok2 x) (i : ℕ) (c : R) : Ok2 (l.getD i (UReal2.const c)) := by
  rw [List.getD_eq_getElem?_getD]
  cases hi : l[i]? with
  | none => exact ⟨⟨by simp [UReal2.const, empty], by simp [UReal2.const, empty], by simp [UReal2.const, empty]⟩, by intro k hk; simp [UReal2.const, empty] at hk⟩
  | some x => exact h x (List.mem_of_getElem? hi)

open CSeq

theorem arg_map {R : Type*} [Zero R] [Zero S] (c : CSeq f hf → S) (h0 : c 0 = 0) (l : List (UReal2 (CSeq f hf))) (i : ℕ) :
    (l.map (mapU c)).getD i (UReal2.const 0) = mapU c (l.getD i (UReal2.const 0)) := by
  rw [← getD_map' (mapU c) l i (UReal2.const 0)]
  congr 1
  show UReal2.const 0 = UReal2.const (c 0)
  rw [h0]

/-- one step -/
theorem step_conv (u : Moments ℝ) (nd : FNode2) (l : List (UReal2 (CSeq f hf))) (hl : ∀ x ∈ l, Ok2 x) (t : List FNode2)
    (hr : Regular2 u (nd :: t) (l.map (mapU CSeq.l))) :
    ∃ z' : UReal2 (CSeq f hf), Ok2 z' ∧ (∀ u, nd.exact u (fun a => (l.map (mapU CSeq.l)).getD a (UReal2.const 0)) = some (mapU CSeq.l z')) ∧
      ∀ᶠ k in atTop, ∀ v, evalF2 (f k) v (nd :: t) (l.map (mapU (proj k))) = evalF2 (f k) v t (l.map (mapU (proj k)) ++ [mapU (proj k) z']) := by
  have aP : ∀ k i, (l.map (mapU (proj k))).getD i (UReal2.const 0) = mapU (proj k) (l.getD i (UReal2.const 0)) := fun k i =>
    arg_map (R := ℝ) (proj k) rfl l i
  have aL : ∀ i, (l.map (mapU CSeq.l)).getD i (UReal2.const 0) = mapU CSeq.l (l.getD i (UReal2.const 0)) := fun i => arg_map (R := ℝ) CSeq.l rfl l i
  have ok : ∀ i, Ok2 (l.getD i (UReal2.const 0)) := fun i => ok_getD hl i 0
  have cm : ∀ i, Conv (fun k => (mapU (proj k) (l.getD i (UReal2.const 0))).mu) (mapU CSeq.l (l.getD i (UReal2.const 0))).mu := fun i =>
    (l.getD i (UReal2.const 0)).mu.conv
  have z0 : ∀ k, ((0 : FP (f k))).val = 0 := fun _ => rfl
  obtain ⟨hr, -⟩ := hr
  simp only [aL] at hr ⊢
  simp only [evalF2, aP]
  cases nd with
  | const c =>
    refine ⟨UReal2.const ⟨fun k => FP.round (f k) c, c, conv_round hf c⟩,
      ⟨⟨by simp [UReal2.const, empty], by simp [UReal2.const, empty], by simp [UReal2.const, empty]⟩, by intro k hk; simp [UReal2.const, empty] at hk⟩, fun u => rfl,
      Eventually.of_forall fun k v => rfl⟩
  | neg a =>
    obtain ⟨z', h1, -, h3, h4⟩ := unary_conv (ok a) (cm a).neg conv_one.neg conv_zero (Or.inr z0)
    exact ⟨z', h1, fun u => h4 u, h3.mono fun k hk v => by simp only [UReal2.neg, hk v]; rfl⟩
  | add a b =>
    obtain ⟨z', h1, -, h3, h4⟩ := binary_conv (ok a) (ok b) ((cm a).add hf (cm b)) conv_one conv_one conv_zero conv_zero conv_zero (Or.inr z0) (Or.inr z0) (Or.inr z0)
    exact ⟨z', h1, fun u => h4 u, h3.mono fun k hk v => by simp only [UReal2.add, hk v]; rfl⟩
  | sub a b =>
    obtain ⟨z', h1, -, h3, h4⟩ := binary_conv (ok a) (ok b) ((cm a).sub hf (cm b)) conv_one conv_one.neg conv_zero conv_zero conv_zero (Or.inr z0) (Or.inr z0) (Or.inr z0)
    exact ⟨z', h1, fun u => h4 u, h3.mono fun k hk v => by simp only [UReal2.sub, hk v]; rfl⟩
  | mul a b =>
    obtain ⟨z', h1, -, h3, h4⟩ := binary_conv (ok a) (ok b) ((cm a).mul hf (cm b)) (cm b) (cm a) conv_zero conv_zero conv_one (Or.inr z0) (Or.inr z0) (Or.inl one_ne_zero)
    exact ⟨z', h1, fun u => h4 u, h3.mono fun k hk v => by simp only [UReal2.mul, hk v]; rfl⟩
  | div a b =>
    obtain ⟨ha, hb⟩ := hr
    have ci := conv_one.div hf (cm b) hb
    have ci2 := ci.mul hf ci
    have hi : (1 : ℝ) / (mapU CSeq.l (l.getD b (UReal2.const 0))).mu ≠ 0 := one_div_ne_zero hb
    obtain ⟨z', h1, -, h3, h4⟩ := binary_conv (ok a) (ok b) ((cm a).div hf (cm b) hb) ci ((cm a).neg.mul hf ci2) conv_zero
      ((((conv_nat hf 2).mul hf (cm a)).mul hf ci2).mul hf ci) ci2.neg (Or.inr z0)
      (Or.inl (mul_ne_zero (mul_ne_zero (mul_ne_zero (by norm_num) ha) (mul_ne_zero hi hi)) hi)) (Or.inl (neg_ne_zero.2 (mul_ne_zero hi hi)))
    exact ⟨z', h1, fun u => h4 u, h3.mono fun k hk v => by
      have e : UReal2.div v (mapU (proj k) (l.getD a (UReal2.const 0))) (mapU (proj k) (l.getD b (UReal2.const 0))) = some (mapU (proj k) z') := hk v
      simp only [e]; rfl⟩
  | call1 g G a =>
    obtain ⟨m, d, e, M, D, E, hg, hG, h0, hc⟩ := hr
    obtain ⟨c1, c2, c3⟩ := hc f _ hf (cm a)
    obtain ⟨z', h1, -, h3, h4⟩ := unary_conv (ok a) c1 c2 c3 (h0.imp_right fun h k => h _ _)
    exact ⟨z', h1, fun u => (hG u _).trans (h4 u), h3.mono fun k hk v => by simp only [hg, hk v]; rfl⟩
  | call2 g G a b =>
    obtain ⟨m, dx, dy, exx, eyy, exy, M, Dx, Dy, Exx, Eyy, Exy, hg, hG, h0, h0', h0'', hc⟩ := hr
    obtain ⟨c1, c2, c3, c4, c5, c6⟩ := hc f _ _ hf (cm a) (cm b)
    obtain ⟨z', h1, -, h3, h4⟩ := binary_conv (ok a) (ok b) c1 c2 c3 c4 c5 c6 (h0.imp_right fun h k => h _ _ _) (h0'.imp_right fun h k => h _ _ _)
      (h0''.imp_right fun h k => h _ _ _)
    exact ⟨z', h1, fun u => (hG u _ _).trans (h4 u), h3.mono fun k hk v => by simp only [hg, hk v]; rfl⟩

theorem prog_conv (u : Moments ℝ) (p : List FNode2) : ∀ (l : List (UReal2 (CSeq f hf))), (∀ x ∈ l, Ok2 x) → Regular2 u p (l.map (mapU CSeq.l)) →
    ∃ l' : List (UReal2 (CSeq f hf)), (∀ x ∈ l', Ok2 x) ∧ (∀ v, evalE2 v p (l.map (mapU CSeq.l)) = some (l'.map (mapU CSeq.l))) ∧
      ∀ᶠ k in atTop, ∀ v, evalF2 (f k) v p (l.map (mapU (proj k))) = some (l'.map (mapU (proj k))) := by
  induction p with
  | nil => intro l hl _; exact ⟨l, hl, fun v => rfl, Eventually.of_forall fun k v => rfl⟩
  | cons nd t ih =>
    intro l hl hr
    obtain ⟨z', h1, h2, h3⟩ := step_conv u nd l hl t hr
    have hr' := hr.2 _ (h2 u)
    obtain ⟨l', i1, i2, i3⟩ := ih (l ++ [z']) (by
      intro x hx
      rcases List.mem_append.1 hx with h | h
      · exact hl x h
      · rw [List.mem_singleton.1 h]; exact h1) (by rw [List.map_append]; exact hr')
    refine ⟨l', i1, fun v => ?_, ?_⟩
    · rw [evalE2, h2 v, Option.bind_some]
      have := i2 v
      rwa [List.map_append] at this
    · filter_upwards [h3, i3] with k hk ik v
      rw [hk v]
      have := ik v
      rwa [List.map_append] at this

end prog

/-- a value with its roundings -/
noncomputable def seqOf {f : ℕ → Fmt} (hf : Finer f) (a : ℝ) : CSeq f hf := ⟨fun k => FP.round (f k) a, a, conv_round hf a⟩

theorem roundU2_map {f : ℕ → Fmt} (hf : Finer f) (k : ℕ) (x : UReal2 ℝ) : roundU2 (f k) x = mapU (CSeq.proj k) (mapU (seqOf hf) x) := by
  simp [roundU2, mapU, mapHG, SMap.mapVal, mapD, mapM, seqOf, CSeq.proj]

theorem lim_map {f : ℕ → Fmt} (hf : Finer f) (x : UReal2 ℝ) : mapU CSeq.l (mapU (seqOf hf) x) = x := by
  obtain ⟨⟨d, t⟩, m⟩ := x
  simp only [mapU, mapHG, SMap.mapVal, mapD, mapM, seqOf, List.map_map]
  congr 2
  · exact (List.map_congr_left fun p _ => rfl).trans (List.map_id d)
  · exact (List.map_congr_left fun p _ => rfl).trans (List.map_id t)

/-- **C66** Second-order computations in floating point: from the same variables, rounded, in all formats which are fine enough they have no undefined behaviour, and the
mean, the moments and the covariances of the results approach those computed with exact real numbers; where the exact variance is not 0, so do standard deviation,
skewness, kurtosis and correlations, and the computed variance is positive. -/
theorem C66_converges {f : ℕ → Fmt} (hf : Finer f) (u : Moments ℝ) (p : List FNode2) (X : List (UReal2 ℝ)) (hX : ∀ x ∈ X, Ok2 x) (hr : Regular2 u p X) :
    ∃ (Y : List (UReal2 ℝ)) (y : ∀ k, List (UReal2 (FP (f k)))), (∀ v, evalE2 v p X = some Y) ∧
      (∀ᶠ k in atTop, ∀ v, evalF2 (f k) v p (X.map (roundU2 (f k))) = some (y k)) ∧
      ∀ i j : ℕ, let A := Y.getD i (UReal2.const 0)
        let B := Y.getD j (UReal2.const 0)
        let a := fun k => (y k).getD i (UReal2.const 0)
        let b := fun k => (y k).getD j (UReal2.const 0)
        Tendsto (fun k => (a k).mu.val) atTop (𝓝 A.mu) ∧ (∀ n, 1 ≤ n ∧ n ≤ 4 → Approach (fun k => (a k).m n) (A.m n)) ∧
        (∀ q, Approach (fun k => UReal2.n q (a k)) (UReal2.n q A)) ∧
        Approach (fun k => UReal2.cov (a k) (b k)) (UReal2.cov A B) ∧
        ∀ V, A.var = some V → 0 < V → (∀ᶠ k in atTop, ∃ v, (a k).var = some v ∧ 0 < v.val) ∧ Approach (fun k => (a k).s) A.s ∧
          Approach (fun k => (a k).skew) A.skew ∧ Approach (fun k => (a k).kurt) A.kurt ∧
          ∀ W, B.var = some W → 0 < W → Approach (fun k => UReal2.corr (a k) (b k)) (UReal2.corr A B) := by
  have hl : (X.map (mapU (seqOf hf))).map (mapU CSeq.l) = X := by
    rw [List.map_map]
    exact (List.map_congr_left fun x _ => lim_map hf x).trans (List.map_id X)
  have hp : ∀ k, (X.map (mapU (seqOf hf))).map (mapU (CSeq.proj k)) = X.map (roundU2 (f k)) := fun k => by
    rw [List.map_map]
    exact List.map_congr_left fun x _ => (roundU2_map hf k x).symm
  obtain ⟨l', h1, h2, h3⟩ := prog_conv u p (X.map (mapU (seqOf hf))) (by
    intro x hx
    obtain ⟨x0, hx0, rfl⟩ := List.mem_map.1 hx
    exact ok_mapU _ (hX x0 hx0)) (by rw [hl]; exact hr)
  rw [hl] at h2
  simp only [hp] at h3
  refine ⟨_, fun k => l'.map (mapU (CSeq.proj k)), h2, h3, fun i j => ?_⟩
  have aP : ∀ i k, (l'.map (mapU (CSeq.proj k))).getD i (UReal2.const 0) = mapU (CSeq.proj k) (l'.getD i (UReal2.const 0)) := fun i k =>
    arg_map (R := ℝ) (CSeq.proj k) rfl l' i
  have aL : ∀ i, (l'.map (mapU CSeq.l)).getD i (UReal2.const 0) = mapU CSeq.l (l'.getD i (UReal2.const 0)) := fun i => arg_map (R := ℝ) CSeq.l rfl l' i
  simp only [aP, aL]
  have oa := ok_getD h1 i 0
  have ob := ok_getD h1 j 0
  generalize l'.getD i (UReal2.const 0) = z at oa
  generalize l'.getD j (UReal2.const 0) = w at ob
  have hm : ∀ n, 1 ≤ n ∧ n ≤ 4 → _ := fun n hn => m_approach oa hn
  refine ⟨z.mu.conv, hm, fun q => ?_, cov_approach oa ob, fun V hV hpos => ?_⟩
  · have h1 := hm 1 (by norm_num)
    cases q
    · exact h1.map fun v V _ hv => Conv.add hf z.mu.conv hv.neg
    · exact h1.map fun v V _ hv => Conv.add hf z.mu.conv hv
  · have hs : ∀ {x : UReal2 (CSeq f hf)}, Ok2 x → Approach (fun k => (mapU (CSeq.proj k) x).s) (mapU CSeq.l x).s := fun hx =>
      (m_approach hx (n := 2) (by norm_num)).map fun v V _ hv => hv.sqrt hf
    have sV : (mapU CSeq.l z).s = some (Real.sqrt V) := by
      have : (mapU CSeq.l z).m 2 = some V := hV
      simp [UReal2.s, this]
    refine ⟨?_, hs oa, ?_, ?_, fun W hW hWpos => ?_⟩
    · obtain ⟨v, V', e1, e2, e3⟩ := hm 2 (by norm_num)
      have : V' = V := by
        have := hV
        rw [UReal2.var, e2] at this
        exact Option.some.inj this
      subst this
      filter_upwards [e1, e3.eventually_const_lt hpos] with k hk hk'
      exact ⟨v k, hk, hk'⟩
    · have h23 : Approach (fun k => (mapU (CSeq.proj k) z).s.bind fun sd => ((mapU (CSeq.proj k) z).m 2).map fun m2 => sd * m2)
          ((mapU CSeq.l z).s.bind fun sd => ((mapU CSeq.l z).m 2).map fun m2 => sd * m2) :=
        (hs oa).map2 (hm 2 (by norm_num)) fun v w V W _ _ hv hw => hv.mul hf hw
      have := (hm 3 (by norm_num)).map2 h23 (g := fun k a b => a / b) (G := fun a b => a / b) (fun v w V' W' _ eW hv hw => hv.div hf hw (by
        have e2 : (mapU CSeq.l z).m 2 = some V := hV
        rw [sV, e2] at eW
        simp only [Option.bind_some, Option.map_some, Option.some.injEq] at eW
        rw [← eW]; positivity))
      convert! this using 1
      · funext k
        unfold UReal2.skew
        cases (mapU (CSeq.proj k) z).m 3 <;> cases (mapU (CSeq.proj k) z).s <;> cases (mapU (CSeq.proj k) z).m 2 <;> rfl
      · unfold UReal2.skew
        cases (mapU CSeq.l z).m 3 <;> cases (mapU CSeq.l z).s <;> cases (mapU CSeq.l z).m 2 <;> rfl
    · exact (hm 2 (by norm_num)).map2 (hm 4 (by norm_num)) (g := fun k a b => b / (a * a)) (G := fun a b => b / (a * a)) (fun v w V' W' eV _ hv hw =>
        hw.div hf (hv.mul hf hv) (by
          have e2 : (mapU CSeq.l z).m 2 = some V := hV
          rw [e2] at eV
          cases eV
          positivity))
    · have sW : (mapU CSeq.l w).s = some (Real.sqrt W) := by
        have : (mapU CSeq.l w).m 2 = some W := hW
        simp [UReal2.s, this]
      have h23 : Approach (fun k => (mapU (CSeq.proj k) z).s.bind fun sd => (mapU (CSeq.proj k) w).s.map fun m2 => sd * m2)
          ((mapU CSeq.l z).s.bind fun sd => (mapU CSeq.l w).s.map fun m2 => sd * m2) :=
        (hs oa).map2 (hs ob) fun v w V W _ _ hv hw => hv.mul hf hw
      have := (cov_approach oa ob).map2 h23 (g := fun k a b => a / b) (G := fun a b => a / b) (fun v w V' W' _ eW hv hw => hv.div hf hw (by
        rw [sV, sW] at eW
        simp only [Option.bind_some, Option.map_some, Option.some.injEq] at eW
        rw [← eW]; positivity))
      convert! this using 1
      · funext k
        unfold UReal2.corr
        cases UReal2.cov (mapU (CSeq.proj k) z) (mapU (CSeq.proj k) w) <;> cases (mapU (CSeq.proj k) z).s <;> cases (mapU (CSeq.proj k) w).s <;> rfl
      · unfold UReal2.corr
        cases UReal2.cov (mapU CSeq.l z) (mapU CSeq.l w) <;> cases (mapU CSeq.l z).s <;> cases (mapU CSeq.l w).s <;> rfl

end Unc.Props
