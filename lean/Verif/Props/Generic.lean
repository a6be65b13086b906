import Verif.Spec.Generic
import Verif.Lemmas.UReal2Ops
import Verif.Props.FirstOrder
import Verif.Props.FloatExact
import Verif.Model.FloatMath
import Verif.Props.SecondOrder
import Mathlib.Data.Finset.Union

/-!
# C72: function templates with numbers, `UReal` and `UReal2`

The number type has no laws here: the statements hold for `double` with its rounding, infinities and NaN.
-/

namespace Unc.Props
open Unc Unc.Spec SMap

section lawfree
variable {R : Type*} [Zero R] [One R] [Neg R] [Add R] [Sub R] [Mul R] [Div R] [NatCast R] [CCmp R] [CSqrt R] [CMath R]

theorem first_un (f : Fn1) (x : UReal R) : f = .pos ∨ ∃ dx, f.first x = UReal.unary x (f.num x.n) dx := by
  cases f <;> first | exact Or.inl rfl | exact Or.inr ⟨_, rfl⟩

theorem first_bin (f : Fn2) (x y : UReal R) : ∃ dx dy, f.first x y = UReal.binary x y (f.num (fun a b => a * (1 / b)) x.n y.n) dx dy := by
  cases f <;> exact ⟨_, _, rfl⟩

theorem second_un (f : Fn1) (x : UReal2 R) : f = .pos ∨ ∃ dx dxx, ∀ u, f.second u x = UReal2.unary u x (f.num x.mu) dx dxx := by
  cases f <;> first | exact Or.inl rfl | exact Or.inr ⟨_, _, fun _ => rfl⟩

theorem second_bin (f : Fn2) (x y : UReal2 R) : ∃ dx dy dxx dyy dxy, ∀ u, f.second u x y = UReal2.binary u x y (f.num (· / ·) x.mu y.mu) dx dy dxx dyy dxy := by
  cases f <;> exact ⟨_, _, _, _, _, fun _ => rfl⟩

/-- what a well-formed value of known mean and dependencies is -/
structure Good1 (z : UReal R) (v : R) (D : Finset ℤ) : Prop where
  wf : z.WF
  mean : z.n = v
  deps : z.deps = D

theorem Good1.unary {x : UReal R} {v : R} {D : Finset ℤ} (h : Good1 x v D) (mu dx : R) : Good1 (UReal.unary x mu dx) mu D :=
  ⟨UReal.wf_unary h.wf mu dx, by unfold UReal.unary UReal.n; split_ifs <;> rfl, (UReal.deps_unary x mu dx).trans h.deps⟩

theorem Good1.binary {x y : UReal R} {v w : R} {D E : Finset ℤ} (h : Good1 x v D) (h' : Good1 y w E) (hD : ∀ i ∈ D, i < maxId)
    (hE : ∀ i ∈ E, i < maxId) (mu dx dy : R) : ∃ z, UReal.binary x y mu dx dy = some z ∧ Good1 z mu (D ∪ E) := by
  obtain ⟨z, e, wf, hd, hm, _⟩ := UReal.binary_spec h.wf h'.wf (fun i hi => hD i (h.deps ▸ hi)) (fun i hi => hE i (h'.deps ▸ hi)) mu dx dy
  exact ⟨z, e, wf, hm, by rw [hd, h.deps, h'.deps]⟩

/-- With `UReal` every expression is defined, its mean is the number the same code computes from the means if `a / b` is computed as
`a * (1 / b)`, and it depends on the variables its arguments depend on. -/
theorem C72_first (e : GExpr R) (x : ℕ → UReal R) (hx : ∀ i, (x i).WF) (hb : ∀ i, (x i).Below maxId) :
    ∃ z, e.first x = some z ∧ z.WF ∧ z.n = e.plainWith (fun a b => a * (1 / b)) (fun i => (x i).n) ∧ z.deps = e.args.biUnion fun i => (x i).deps := by
  have hB : ∀ a : GExpr R, ∀ i ∈ a.args.biUnion (fun i => (x i).deps), i < maxId := fun a i hi => by
    obtain ⟨j, _, hj⟩ := Finset.mem_biUnion.1 hi
    exact hb j i hj
  suffices ∃ z, e.first x = some z ∧ Good1 z (e.plainWith (fun a b => a * (1 / b)) fun i => (x i).n) (e.args.biUnion fun i => (x i).deps) by
    obtain ⟨z, h, g⟩ := this; exact ⟨z, h, g.wf, g.mean, g.deps⟩
  induction e with
  | arg i => exact ⟨x i, rfl, hx i, rfl, by simp [GExpr.args]⟩
  | num c => exact ⟨UReal.const c, rfl, ⟨fun _ => rfl, fun _ => rfl, List.Pairwise.nil, by simp [UReal.const, keys]⟩, rfl,
      by simp [GExpr.args, UReal.const, UReal.deps]⟩
  | un f a ih =>
    obtain ⟨z, h, g⟩ := ih
    refine ⟨f.first z, by simp [GExpr.first, h], ?_⟩
    rcases first_un f z with rfl | ⟨dx, e⟩
    · exact g
    · rw [e, g.mean]; exact g.unary _ _
  | bin f a b iha ihb =>
    obtain ⟨za, ha, ga⟩ := iha
    obtain ⟨zb, hb', gb⟩ := ihb
    obtain ⟨dx, dy, e⟩ := first_bin f za zb
    obtain ⟨z, hz, g⟩ := ga.binary gb (hB a) (hB b) (f.num (fun a b => a * (1 / b)) za.n zb.n) dx dy
    refine ⟨z, by simp [GExpr.first, ha, hb', e, hz], ?_⟩
    simpa [GExpr.plainWith, GExpr.args, ga.mean, gb.mean, Finset.union_biUnion] using g
  | user1 f df ddf a ih =>
    obtain ⟨z, h, g⟩ := ih
    refine ⟨UFun.uunary f df z, by simp [GExpr.first, h], ?_⟩
    have := g.unary (f z.n) (df z.n)
    rw [g.mean] at this
    simpa [UFun.uunary, GExpr.plainWith, GExpr.args, g.mean] using this
  | user2 f fx fy fxx fyy fxy a b iha ihb =>
    obtain ⟨za, ha, ga⟩ := iha
    obtain ⟨zb, hb', gb⟩ := ihb
    obtain ⟨z, hz, g⟩ := ga.binary gb (hB a) (hB b) (f za.n zb.n) (fx za.n zb.n) (fy za.n zb.n)
    refine ⟨z, by simp [GExpr.first, ha, hb', UFun.ubinary, hz], ?_⟩
    simpa [GExpr.plainWith, GExpr.args, ga.mean, gb.mean, Finset.union_biUnion] using g

/-- With `UReal2` every expression is defined, `first_order_n()` is the number the same code computes from the first order means of
the arguments, and it depends on the variables its arguments depend on.  Memory that was not initialised has no influence. -/
theorem C72_second (e : GExpr R) (x : ℕ → UReal2 R) (hx : ∀ i, Ok2 (x i)) :
    ∃ z, (∀ u, e.second u x = some z) ∧ Ok2 z ∧ z.mu = e.plain (fun i => (x i).mu) ∧
      ∀ k, k ∈ keys z.hg.diagmap ↔ ∃ i ∈ e.args, k ∈ keys (x i).hg.diagmap := by
  suffices ∃ z, (∀ u, e.second u x = some z) ∧ Ok2 z ∧ z.mu = e.plain (fun i => (x i).mu) ∧
      ∀ k, k ∈ keys z.hg.diagmap ↔ k ∈ e.args.biUnion fun i => (keys (x i).hg.diagmap).toFinset by
    obtain ⟨z, h1, h2, h3, h4⟩ := this
    exact ⟨z, h1, h2, h3, fun k => by rw [h4]; simp⟩
  have un : ∀ (a : GExpr R) (z : UReal2 R), (∀ u, a.second u x = some z) → Ok2 z →
      (∀ k, k ∈ keys z.hg.diagmap ↔ k ∈ a.args.biUnion fun i => (keys (x i).hg.diagmap).toFinset) → ∀ f fx fxx : R,
      ∃ z', (∀ u, UReal2.unary u z f fx fxx = some z') ∧ Ok2 z' ∧ z'.mu = f ∧
        ∀ k, k ∈ keys z'.hg.diagmap ↔ k ∈ a.args.biUnion fun i => (keys (x i).hg.diagmap).toFinset := by
    intro a z _ ok hk f fx fxx
    obtain ⟨z', h, m, v, k, _⟩ := unary_lawfree ok.valid f fx fxx
    exact ⟨z', h, ⟨v, fun i hi => ok.below i (k ▸ hi)⟩, m, fun i => by rw [k, hk]⟩
  have bi : ∀ (a b : GExpr R) (z w : UReal2 R), Ok2 z → Ok2 w →
      (∀ k, k ∈ keys z.hg.diagmap ↔ k ∈ a.args.biUnion fun i => (keys (x i).hg.diagmap).toFinset) →
      (∀ k, k ∈ keys w.hg.diagmap ↔ k ∈ b.args.biUnion fun i => (keys (x i).hg.diagmap).toFinset) → ∀ f fx fy fxx fyy fxy : R,
      ∃ z', (∀ u, UReal2.binary u z w f fx fy fxx fyy fxy = some z') ∧ Ok2 z' ∧ z'.mu = f ∧
        ∀ k, k ∈ keys z'.hg.diagmap ↔ k ∈ (a.args ∪ b.args).biUnion fun i => (keys (x i).hg.diagmap).toFinset := by
    intro a b z w ok ok' hk hk' f fx fy fxx fyy fxy
    obtain ⟨z', h, m, v, k, _⟩ := binary_lawfree ok ok' f fx fy fxx fyy fxy
    exact ⟨z', h, ⟨v, fun i hi => ((k i).1 hi).elim (ok.below i) (ok'.below i)⟩, m, fun i => by
      rw [k, hk, hk', Finset.union_biUnion, Finset.mem_union]⟩
  induction e with
  | arg i => exact ⟨x i, fun _ => rfl, hx i, rfl, by simp [GExpr.args]⟩
  | num c => exact ⟨UReal2.const c, fun _ => rfl, ⟨⟨by simp [UReal2.const, HessGrad.empty], by simp [UReal2.const, HessGrad.empty],
      by simp [UReal2.const, HessGrad.empty]⟩, by simp [UReal2.const, HessGrad.empty, HessGrad.Below]⟩, rfl, by simp [GExpr.args, UReal2.const, HessGrad.empty, keys]⟩
  | un f a ih =>
    obtain ⟨z, h, ok, hm, hk⟩ := ih
    rcases second_un f z with rfl | ⟨dx, dxx, e⟩
    · exact ⟨z, fun u => by simp [GExpr.second, h, Fn1.second], ok, hm, hk⟩
    · obtain ⟨z', h', ok', hm', hk'⟩ := un a z h ok hk (f.num z.mu) dx dxx
      exact ⟨z', fun u => by simp [GExpr.second, h, e, h'], ok', by rw [hm', hm]; rfl, hk'⟩
  | bin f a b iha ihb =>
    obtain ⟨z, h, ok, hm, hk⟩ := iha
    obtain ⟨w, hw, okw, hmw, hkw⟩ := ihb
    obtain ⟨dx, dy, dxx, dyy, dxy, e⟩ := second_bin f z w
    obtain ⟨z', h', ok', hm', hk'⟩ := bi a b z w ok okw hk hkw (f.num (· / ·) z.mu w.mu) dx dy dxx dyy dxy
    exact ⟨z', fun u => by simp [GExpr.second, h, hw, e, h'], ok', by rw [hm', hm, hmw]; rfl, hk'⟩
  | user1 f df ddf a ih =>
    obtain ⟨z, h, ok, hm, hk⟩ := ih
    obtain ⟨z', h', ok', hm', hk'⟩ := un a z h ok hk (f z.mu) (df z.mu) (ddf z.mu)
    exact ⟨z', fun u => by simp [GExpr.second, h, UFun2.uunary2, h'], ok', by rw [hm', hm]; rfl, hk'⟩
  | user2 f fx fy fxx fyy fxy a b iha ihb =>
    obtain ⟨z, h, ok, hm, hk⟩ := iha
    obtain ⟨w, hw, okw, hmw, hkw⟩ := ihb
    obtain ⟨z', h', ok', hm', hk'⟩ := bi a b z w ok okw hk hkw (f z.mu w.mu) (fx z.mu w.mu) (fy z.mu w.mu) (fxx z.mu w.mu) (fyy z.mu w.mu) (fxy z.mu w.mu)
    exact ⟨z', fun u => by simp [GExpr.second, h, hw, UFun2.ubinary2, h'], ok', by rw [hm', hm, hmw]; rfl, hk'⟩

theorem plainWith_congr (d d' : R → R → R) (e : GExpr R) (h : e.NoDiv ∨ ∀ a b, d a b = d' a b) (x y : ℕ → R)
    (hxy : ∀ i ∈ e.args, x i = y i) : e.plainWith d x = e.plainWith d' y := by
  induction e with
  | arg i => exact hxy i (by simp [GExpr.args])
  | num c => rfl
  | un f a ih => simp only [GExpr.plainWith, ih h hxy]
  | bin f a b iha ihb =>
    have ha := iha (h.imp (fun h => h.2.1) _root_.id) fun i hi => hxy i (Finset.mem_union_left _ hi)
    have hb := ihb (h.imp (fun h => h.2.2) _root_.id) fun i hi => hxy i (Finset.mem_union_right _ hi)
    simp only [GExpr.plainWith, ha, hb]
    cases f <;> first | rfl | skip
    rcases h with h | h
    · exact absurd rfl h.1
    · exact h _ _
  | user1 f df ddf a ih => simp only [GExpr.plainWith, ih h hxy]
  | user2 f fx fy fxx fyy fxy a b iha ihb =>
    have ha := iha (h.imp (fun h => h.1) _root_.id) fun i hi => hxy i (Finset.mem_union_left _ hi)
    have hb := ihb (h.imp (fun h => h.2) _root_.id) fun i hi => hxy i (Finset.mem_union_right _ hi)
    simp only [GExpr.plainWith, ha, hb]

/-- With `UReal` the mean of an expression without `/` is the number the same code computes from the means.

Full statement: the same for every expression; it fails for `/` when the numbers are rounded (`C72_false`). -/
theorem C72_first_partial (e : GExpr R) (he : e.NoDiv) (x : ℕ → UReal R) (hx : ∀ i, (x i).WF) (hb : ∀ i, (x i).Below maxId) :
    ∃ z, e.first x = some z ∧ z.n = e.plain fun i => (x i).n := by
  obtain ⟨z, h, -, hn, -⟩ := C72_first e x hx hb
  exact ⟨z, h, hn.trans (plainWith_congr _ _ e (Or.inl he) _ _ fun _ _ => rfl)⟩

/-- With `UReal2` and arguments without uncertainty the result is the number the same code computes, without uncertainty. -/
theorem C72_second_const (e : GExpr R) (x : ℕ → UReal2 R) (hx : ∀ i, Ok2 (x i)) (c : ℕ → R) (hc : ∀ i ∈ e.args, x i = UReal2.const (c i))
    (u : Moments R) : e.second u x = some (UReal2.const (e.plain c)) := by
  obtain ⟨⟨⟨d, t⟩, mu⟩, h, ok, hm, hk⟩ := C72_second e x hx
  have hd : d = [] := by
    cases d with
    | nil => rfl
    | cons p l =>
      obtain ⟨i, hi, h⟩ := (hk p.1).1 (by simp)
      rw [hc i hi] at h
      simp [UReal2.const, HessGrad.empty] at h
  have ht : t = [] := by
    cases t with
    | nil => rfl
    | cons p l =>
      have := ok.valid.tri (ofLex p.1).1 (ofLex p.1).2 (by simp)
      subst hd
      simp at this
  rw [h u, hd, ht]
  change some (UReal2.mk (HessGrad.mk [] []) mu) = _
  have : mu = e.plain c := hm.trans (plainWith_congr _ _ e (Or.inr fun _ _ => rfl) _ _ fun i hi => by rw [hc i hi]; rfl)
  rw [this]; rfl

end lawfree

section real

/-- In exact arithmetic the mean of every expression is the number the same code computes from the means, `/` included. -/
theorem C72_first_exact {R : Type*} [Field R] [CCmp R] [CSqrt R] [CMath R] (e : GExpr R) (x : ℕ → UReal R) (hx : ∀ i, (x i).WF)
    (hb : ∀ i, (x i).Below maxId) : ∃ z, e.first x = some z ∧ z.n = e.plain fun i => (x i).n := by
  obtain ⟨z, h, -, hn, -⟩ := C72_first e x hx hb
  exact ⟨z, h, hn.trans (plainWith_congr _ _ e (Or.inr fun a b => by rw [one_div, div_eq_mul_inv]) _ _ fun _ _ => rfl)⟩

/-- With arguments without uncertainty the result depends on nothing and has covariance zero with everything, itself included. -/
theorem C72_first_const (e : GExpr ℝ) (x : ℕ → UReal ℝ) (hx : ∀ i, (x i).WF) (hb : ∀ i, (x i).Below maxId)
    (hc : ∀ i ∈ e.args, (x i).deps = ∅) : ∃ z, e.first x = some z ∧ z.n = e.plain (fun i => (x i).n) ∧ z.deps = ∅ ∧
      ∀ w : UReal ℝ, w.WF → UReal.cov z w = 0 := by
  obtain ⟨z, h, hn⟩ := C72_first_exact e x hx hb
  obtain ⟨z', h', wf, -, hd⟩ := C72_first e x hx hb
  obtain rfl : z = z' := Option.some.inj (h.symm.trans h')
  have hd0 : z.deps = ∅ := by
    rw [hd, Finset.eq_empty_iff_forall_notMem]
    intro k hk
    obtain ⟨i, hi, hk⟩ := Finset.mem_biUnion.1 hk
    simp [hc i hi] at hk
  refine ⟨z, h, hn, hd0, fun w hw => ?_⟩
  rw [UReal.cov_eq wf hw, LinForm.cov_eq_sum (UReal.supported z) _ subset_rfl]
  change ∑ i ∈ z.deps, _ = _
  rw [hd0, Finset.sum_empty]

end real

/-- `exp(x) / y + fma(x, x, 3)`, the last function wrapped by the user -/
def exTempl (R : Type*) [One R] [Add R] [Mul R] [Zero R] : GExpr R :=
  .bin .add (.bin .div (.un .exp (.arg 0)) (.arg 1))
    (.user2 (fun a b => a * b + (1 + 1 + 1)) (fun _ b => b) (fun a _ => a) (fun _ _ => 0) (fun _ _ => 0) (fun _ _ => 1) (.arg 0) (.arg 0))

/-- with `double`: a value which depends on three variables, and 49 -/
example : ∃ z, (exTempl (FP binary64)).first (fun i => if i = 0 then exThree binary64 else UReal.const fp49) = some z ∧ z.WF ∧
    z.n = CMath.exp (exThree binary64).n * (1 / fp49) + ((exThree binary64).n * (exThree binary64).n + (1 + 1 + 1)) ∧
    z.deps = (exThree binary64).deps := by
  obtain ⟨z, h, wf, hn, hd⟩ := C72_first (exTempl (FP binary64)) (fun i => if i = 0 then exThree binary64 else UReal.const fp49)
    (by intro i; beta_reduce; split_ifs; exacts [exThree_wf _, UReal.wf_const _])
    (by
      intro i; beta_reduce; split_ifs
      · intro i hi; simp [UReal.deps, exThree] at hi; rcases hi with h | h | h <;> subst h <;> decide
      · intro i hi; simp [UReal.deps, UReal.const] at hi)
  refine ⟨z, h, wf, by rw [hn]; rfl, ?_⟩
  rw [hd]
  ext k
  simp [exTempl, GExpr.args, UReal.deps, UReal.const, exThree]

/-- without the quotient -/
example : ∃ z, (GExpr.bin .hypot (.un .sin (.arg 0)) (.num fp49)).first (fun _ => exThree binary64) = some z ∧
    z.n = CMath.hypot (CMath.sin (exThree binary64).n) fp49 := by
  obtain ⟨z, h, hn⟩ := C72_first_partial (GExpr.bin .hypot (.un .sin (.arg 0)) (.num fp49)) ⟨nofun, trivial, trivial⟩
    (fun _ => exThree binary64) (fun _ => exThree_wf _)
    (by intro i i hi; simp [UReal.deps, exThree] at hi; rcases hi with h | h | h <;> subst h <;> decide)
  exact ⟨z, h, hn⟩

/-- second order: `exp(x) / y + (x * x + 3)` with `x = 3`, `y = -1` -/
example (u : Moments ℝ) : ∃ z, (exTempl ℝ).second u (fun i => if i = 0 then ex2a else ex2b) = some z ∧
    z.mu = Real.exp 3 / -1 + (3 * 3 + (1 + 1 + 1)) ∧ 5 ∈ keys z.hg.diagmap := by
  obtain ⟨z, h, _, hn, hd⟩ := C72_second (exTempl ℝ) (fun i => if i = 0 then ex2a else ex2b)
    (by intro i; beta_reduce; split_ifs; exacts [ok_ex2a, ok_ex2b])
  exact ⟨z, h u, by rw [hn]; rfl, (hd 5).2 ⟨1, by simp [exTempl, GExpr.args], by simp [ex2b, exH3]⟩⟩

/-- second order in `double`, no uncertainty -/
example (u : Moments (FP binary64)) : (exTempl (FP binary64)).second u (fun i => UReal2.const (if i = 0 then 1 else fp49)) =
    some (UReal2.const (CMath.exp 1 / fp49 + (1 * 1 + (1 + 1 + 1)))) :=
  C72_second_const (exTempl (FP binary64)) _ (fun i => ⟨⟨by simp [UReal2.const, HessGrad.empty], by simp [UReal2.const, HessGrad.empty],
    by simp [UReal2.const, HessGrad.empty]⟩, by simp [UReal2.const, HessGrad.empty, HessGrad.Below]⟩)
    (fun i => if i = 0 then 1 else fp49) (fun _ _ => rfl) u

example : ∃ z, (exTempl ℝ).first (fun i => if i = 0 then ex2 else ex1) = some z ∧
    z.n = Real.exp ex2.n / ex1.n + (ex2.n * ex2.n + (1 + 1 + 1)) := by
  obtain ⟨z, h, hn⟩ := C72_first_exact (exTempl ℝ) (fun i => if i = 0 then ex2 else ex1)
    (by intro i; beta_reduce; split_ifs; exacts [valid_ex2.wf, valid_ex1.wf])
    (by intro i; beta_reduce; split_ifs; exacts [below_ex2, below_ex1])
  exact ⟨z, h, by rw [hn]; rfl⟩

example : ∃ z, (exTempl ℝ).first (fun i => if i < 2 then UReal.const 2 else ex1) = some z ∧ UReal.cov z z = 0 ∧ UReal.cov z ex1 = 0 := by
  have wf : ∀ i : ℕ, (if i < 2 then UReal.const (2 : ℝ) else ex1).WF := by intro i; split_ifs; exacts [UReal.wf_const _, valid_ex1.wf]
  have hb : ∀ i : ℕ, (if i < 2 then UReal.const (2 : ℝ) else ex1).Below maxId := by
    intro i; split_ifs
    · intro i hi; simp [UReal.deps, UReal.const] at hi
    · exact below_ex1
  obtain ⟨z, h, -, -, hc⟩ := C72_first_const (exTempl ℝ) _ wf hb (by
    intro i hi
    have : i < 2 := by simp [exTempl, GExpr.args] at hi; omega
    simp [this, UReal.deps, UReal.const])
  obtain ⟨z', h', wf', -⟩ := C72_first (exTempl ℝ) _ wf hb
  exact ⟨z, h, hc z (Option.some.inj (h.symm.trans h') ▸ wf'), hc _ valid_ex1.wf⟩

/-- In `double` the template `x / y` does not give the same number with `UReal` as with `double`: for `49 / 49` it gives
`1 - 2^-53` instead of 1. -/
theorem C72_false : ∃ (e : GExpr (FP binary64)) (x : ℕ → UReal (FP binary64)) (z : UReal (FP binary64)),
    (∀ i, (x i).WF) ∧ (∀ i, (x i).deps = ∅) ∧ e.first x = some z ∧ z.n.val = 1 - 1 / 2 ^ 53 ∧ (e.plain fun i => (x i).n).val = 1 := by
  obtain ⟨z, h, hm, h1⟩ := C62_div_false
  exact ⟨.bin .div (.arg 0) (.arg 1), fun _ => UReal.const fp49, z, fun _ => UReal.wf_const _, fun _ => by simp [UReal.deps, UReal.const], h, hm, h1⟩

end Unc.Props
