import Verif.Spec.AnyNode
import Verif.Props.Degenerate

/-!
# C57, C58: first order computations with arbitrary functions
-/

namespace Unc.Props
open Unc Unc.Spec

/-- at given means, such a function is the right one for a function with the derivative it gives -/
theorem linear1 {g : UReal ℝ → UReal ℝ} (h : OfMean1 g) (a : ℝ) : ∃ F, Propagates1 g F a := by
  obtain ⟨F, D, e⟩ := h
  refine ⟨fun t => F a + D a * (t - a), D a, ?_, fun x hx hn => ?_⟩
  · simpa using (((hasDerivAt_id a).sub_const a).const_mul (D a)).const_add (F a)
  · obtain ⟨h1, h2, h3⟩ := C01_unary_linear hx.valid (F x.n) (D x.n)
    rw [e]
    subst hn
    exact ⟨⟨h1, fun i hi => hx.below i (by rwa [UReal.deps_unary] at hi)⟩, by simpa using h2, h3⟩

theorem linear2 {g : UReal ℝ → UReal ℝ → Option (UReal ℝ)} (h : OfMean2 g) (a b : ℝ) : ∃ F, Propagates2 g F a b := by
  obtain ⟨F, Dx, Dy, e⟩ := h
  have hd : HasFDerivAt (fun p : ℝ × ℝ => F a b + Dx a b * (p.1 - a) + Dy a b * (p.2 - b)) (Dx a b • ContinuousLinearMap.fst ℝ ℝ ℝ + Dy a b • ContinuousLinearMap.snd ℝ ℝ ℝ) (a, b) := by
    have h1 := ((hasFDerivAt_fst (𝕜 := ℝ) (p := (a, b))).sub_const a).const_mul (Dx a b)
    have h2 := ((hasFDerivAt_snd (𝕜 := ℝ) (p := (a, b))).sub_const b).const_mul (Dy a b)
    exact (h1.const_add (F a b)).add h2
  refine ⟨fun s t => F a b + Dx a b * (s - a) + Dy a b * (t - b), Dx a b, Dy a b, hd, fun x y hx hy hn hm => ?_⟩
  obtain ⟨dx, dy, hd', hp⟩ := propagates2_of (F := fun s t => F a b + Dx a b * (s - a) + Dy a b * (t - b)) (Dx := fun _ _ => Dx a b) (Dy := fun _ _ => Dy a b) (a := a) (b := b)
    (fun x y => UReal.binary x y (F a b + Dx a b * (x.n - a) + Dy a b * (y.n - b)) (Dx a b) (Dy a b)) (fun _ _ => rfl) hd
  obtain ⟨e1, e2⟩ := lin_inj (hd'.unique hd)
  subst e1 e2
  have := hp x y hx hy hn hm
  rw [e, hn, hm]
  simp only [hn, hm, sub_self, mul_zero, add_zero] at this ⊢
  exact this

/-- the same computation with other real functions beside the implementations -/
theorem nodes_right : ∀ {p : List Node} {acc : List ℝ}, NodesOfMean p acc.length → ∃ q : List Node, q.length = p.length ∧ (∀ env, evalU q env = evalU p env) ∧ NodesRight q acc
  | [], _, _ => ⟨[], rfl, fun _ => rfl, trivial⟩
  | .const c :: t, acc, h => by
    obtain ⟨q, l, e, r⟩ := nodes_right (p := t) (acc := acc ++ [c]) (by simpa [NodesOfMean] using h)
    exact ⟨.const c :: q, by simp [l], fun env => by simp [evalU, e], r⟩
  | .un g F a :: t, acc, h => by
    obtain ⟨ha, hg, ht⟩ := h
    obtain ⟨F', hF⟩ := linear1 hg (acc.getD a 0)
    obtain ⟨q, l, e, r⟩ := nodes_right (p := t) (acc := acc ++ [F' (acc.getD a 0)]) (by simpa using ht)
    exact ⟨.un g F' a :: q, by simp [l], fun env => by simp [evalU, e], ha, hF, r⟩
  | .bin g F a b :: t, acc, h => by
    obtain ⟨ha, hb, hg, ht⟩ := h
    obtain ⟨F', hF⟩ := linear2 hg (acc.getD a 0) (acc.getD b 0)
    obtain ⟨q, l, e, r⟩ := nodes_right (p := t) (acc := acc ++ [F' (acc.getD a 0) (acc.getD b 0)]) (by simpa using ht)
    exact ⟨.bin g F' a b :: q, by simp [l], fun env => by simp [evalU, e], ha, hb, hF, r⟩

/-- **C58** First order, with any functions, whether they propagate their derivatives or not: the results do not depend on the identifiers. -/
theorem C58_any {n : ℕ} {ids ids' : Fin n → ℤ} (hinj : Function.Injective ids) (hpos : ∀ i, 0 < ids i) (hlt : ∀ i, ids i < maxId)
    (hinj' : Function.Injective ids') (hpos' : ∀ i, 0 < ids' i) (hlt' : ∀ i, ids' i < maxId) (mu s : Fin n → ℝ) {p : List Node} (hp : NodesOfMean p n) :
    ∃ out out', evalU p (elems ids mu s) = some out ∧ evalU p (elems ids' mu s) = some out' ∧ out.length = n + p.length ∧
      out'.length = n + p.length ∧
      ∀ (k : ℕ) (x x' : UReal ℝ), out[k]? = some x → out'[k]? = some x' → x.n = x'.n ∧ x.s = x'.s ∧ UReal.var x = UReal.var x' ∧
        ∀ (l : ℕ) (y y' : UReal ℝ), out[l]? = some y → out'[l]? = some y' → UReal.cov x y = UReal.cov x' y' ∧ UReal.corr x y = UReal.corr x' y' := by
  obtain ⟨q, l, e, r⟩ := nodes_right (p := p) (acc := Spec.vars mu) (by simpa [Spec.vars] using hp)
  rw [← e, ← e, ← l]
  exact C58_first hinj hpos hlt hinj' hpos' hlt' mu s r

/-- **C57** First order, with any functions, whether they propagate their derivatives or not: variables with zero uncertainty can be replaced by plain numbers. -/
theorem C57_any {n : ℕ} {ids : Fin n → ℤ} (hinj : Function.Injective ids) (hpos : ∀ i, 0 < ids i) (hlt : ∀ i, ids i < maxId)
    (mu s : Fin n → ℝ) {p : List Node} (hp : NodesOfMean p n) :
    ∃ out out', evalU p (elems ids mu s) = some out ∧ evalU p (consts ids mu s) = some out' ∧ out.length = n + p.length ∧
      out'.length = n + p.length ∧
      ∀ (k : ℕ) (x x' : UReal ℝ), out[k]? = some x → out'[k]? = some x' → x.n = x'.n ∧ x.s = x'.s ∧ UReal.var x = UReal.var x' ∧
        ∀ (l : ℕ) (y y' : UReal ℝ), out[l]? = some y → out'[l]? = some y' → UReal.cov x y = UReal.cov x' y' ∧ UReal.corr x y = UReal.corr x' y' := by
  obtain ⟨q, l, e, r⟩ := nodes_right (p := p) (acc := Spec.vars mu) (by simpa [Spec.vars] using hp)
  rw [← e, ← e, ← l]
  exact C57_first hinj hpos hlt mu s r

/-- **C58** All operators and functions of the library are such.  At points where a function of the C library gives NaN (`C14_domain`, `C14_cbrt_nan`) the numbers of this theorem are those of the total real functions of Mathlib, so there the statement is not about the code. -/
theorem C58_library :
    (∀ g ∈ [UReal.neg, UMath.abs, UMath.exp, UMath.exp2, UMath.expm1, UMath.log, UMath.log10, UMath.log2, UMath.log1p, UMath.sqrt, UMath.cbrt, UMath.sin, UMath.cos, UMath.tan, UMath.asin,
      UMath.acos, UMath.atan, UMath.sinh, UMath.cosh, UMath.tanh, UMath.asinh, UMath.acosh, UMath.atanh, UMath.erf, UMath.erfc], OfMean1 g) ∧
    ∀ g ∈ [UReal.add, UReal.sub, UReal.mul, UReal.div, UMath.fmod, UMath.remainder, UMath.fmax, UMath.fmin, UMath.pow, UMath.hypot, UMath.atan2], OfMean2 g := by
  constructor
  · simp only [List.forall_mem_cons]
    refine ⟨?_, ?_, ?_, ?_, ?_, ?_, ?_, ?_, ?_, ?_, ?_, ?_, ?_, ?_, ?_, ?_, ?_, ?_, ?_, ?_, ?_, ?_, ?_, ?_, ?_, by simp⟩
    · exact ⟨fun a => -a, fun a => -1, fun _ => rfl⟩
    · exact ⟨fun a => CSqrt.abs a, fun a => if CCmp.leb 0 a then 1 else -1, fun _ => rfl⟩
    · exact ⟨fun a => CMath.exp a, fun a => (CMath.exp a), fun _ => rfl⟩
    · exact ⟨fun a => CMath.exp2 a, fun a => (CMath.log ((2 : ℕ) : ℝ) * CMath.exp2 a), fun _ => rfl⟩
    · exact ⟨fun a => CMath.expm1 a, fun a => (CMath.exp a), fun _ => rfl⟩
    · exact ⟨fun a => CMath.log a, fun a => (1 / a), fun _ => rfl⟩
    · exact ⟨fun a => CMath.log10 a, fun a => (1 / (a * CMath.log ((10 : ℕ) : ℝ))), fun _ => rfl⟩
    · exact ⟨fun a => CMath.log2 a, fun a => (1 / (a * CMath.log ((2 : ℕ) : ℝ))), fun _ => rfl⟩
    · exact ⟨fun a => CMath.log1p a, fun a => (1 / (1 + a)), fun _ => rfl⟩
    · exact ⟨fun a => CSqrt.sqrt a, fun a => (1 / (((2 : ℕ) : ℝ) * CSqrt.sqrt a)), fun _ => rfl⟩
    · exact ⟨fun a => CMath.cbrt a, fun a => (CMath.pow a (-((2 : ℕ) : ℝ) / ((3 : ℕ) : ℝ)) / ((3 : ℕ) : ℝ)), fun _ => rfl⟩
    · exact ⟨fun a => CMath.sin a, fun a => (CMath.cos a), fun _ => rfl⟩
    · exact ⟨fun a => CMath.cos a, fun a => (-CMath.sin a), fun _ => rfl⟩
    · exact ⟨fun a => CMath.tan a, fun a => 1 + (CMath.tan a) * (CMath.tan a), fun _ => rfl⟩
    · exact ⟨fun a => CMath.asin a, fun a => (1 / CSqrt.sqrt (1 - a * a)), fun _ => rfl⟩
    · exact ⟨fun a => CMath.acos a, fun a => (-1 / CSqrt.sqrt (1 - a * a)), fun _ => rfl⟩
    · exact ⟨fun a => CMath.atan a, fun a => (1 / (1 + a * a)), fun _ => rfl⟩
    · exact ⟨fun a => CMath.sinh a, fun a => (CMath.cosh a), fun _ => rfl⟩
    · exact ⟨fun a => CMath.cosh a, fun a => (CMath.sinh a), fun _ => rfl⟩
    · exact ⟨fun a => CMath.tanh a, fun a => 1 - (CMath.tanh a) * (CMath.tanh a), fun _ => rfl⟩
    · exact ⟨fun a => CMath.asinh a, fun a => (1 / CSqrt.sqrt (a * a + 1)), fun _ => rfl⟩
    · exact ⟨fun a => CMath.acosh a, fun a => (1 / CSqrt.sqrt (a * a - 1)), fun _ => rfl⟩
    · exact ⟨fun a => CMath.atanh a, fun a => (1 / (1 - a * a)), fun _ => rfl⟩
    · exact ⟨fun a => CMath.erf a, fun a => (UMath.erfCoeff * CMath.exp (-a * a)), fun _ => rfl⟩
    · exact ⟨fun a => CMath.erfc a, fun a => (-UMath.erfCoeff * CMath.exp (-a * a)), fun _ => rfl⟩
  · simp only [List.forall_mem_cons]
    refine ⟨?_, ?_, ?_, ?_, ?_, ?_, ?_, ?_, ?_, ?_, ?_, by simp⟩
    · exact ⟨fun a b => a + b, fun _ _ => 1, fun _ _ => 1, fun _ _ => rfl⟩
    · exact ⟨fun a b => a - b, fun _ _ => 1, fun _ _ => -1, fun _ _ => rfl⟩
    · exact ⟨fun a b => a * b, fun _ b => b, fun a _ => a, fun _ _ => rfl⟩
    · exact ⟨fun a b => a * (1 / b), fun _ b => 1 / b, fun a b => -(a * (1 / b)) * (1 / b), fun _ _ => rfl⟩
    · exact ⟨fun a b => CMath.fmod a b, fun _ _ => 1, fun a b => -CMath.trunc (a / b), fun _ _ => rfl⟩
    · exact ⟨fun a b => CMath.remainder a b, fun _ _ => 1, fun a b => -CMath.round (a / b), fun _ _ => rfl⟩
    · exact ⟨fun a b => CMath.fmax a b, fun a b => if CCmp.eqb (CMath.fmax a b) a then 1 else 0, fun a b => if CCmp.eqb (CMath.fmax a b) a then 0 else 1, fun _ _ => rfl⟩
    · exact ⟨fun a b => CMath.fmin a b, fun a b => if CCmp.eqb (CMath.fmin a b) a then 1 else 0, fun a b => if CCmp.eqb (CMath.fmin a b) a then 0 else 1, fun _ _ => rfl⟩
    · exact ⟨fun a b => CMath.pow a b, fun a b => CMath.pow a b * b / a, fun a b => CMath.pow a b * CMath.log a, fun _ _ => rfl⟩
    · exact ⟨fun a b => CMath.hypot a b, fun a b => a / CMath.hypot a b, fun a b => b / CMath.hypot a b, fun _ _ => rfl⟩
    · exact ⟨fun a b => CMath.atan2 a b, fun a b => 1 / ((1 + b / a * (b / a)) * a) * -(b / a), fun a b => 1 / ((1 + b / a * (b / a)) * a), fun _ _ => rfl⟩

/-- `atan2(x, y) * cbrt(z)`, where `atan2` has the wrong derivatives -/
noncomputable def anyProg : List Node := [.bin UMath.atan2 (fun _ _ => 0) 0 1, .un UMath.cbrt (fun _ => 0) 2, .bin UReal.mul (fun _ _ => 0) 3 4]

theorem anyProg_ok : NodesOfMean anyProg 3 :=
  ⟨by decide, by decide, C58_library.2 _ (by simp), by decide, C58_library.1 _ (by simp), by decide, by decide, C58_library.2 _ (by simp), trivial⟩

example := C58_any (ids := ![1, 2, 3]) (ids' := ![7, 2, 5]) (by decide) (by decide) (by decide) (by decide) (by decide) (by decide) ![2, 3, 4] ![1, 1, 2] anyProg_ok
example := C57_any (ids := ![1, 2, 3]) (by decide) (by decide) (by decide) ![2, 3, 4] ![1, 0, 2] anyProg_ok

end Unc.Props
