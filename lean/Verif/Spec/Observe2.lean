import Verif.Spec.Moments
import Verif.Model.Num
import Mathlib.Algebra.MvPolynomial.Eval

/-!
# What a user can observe of a second-order value, and algebraic expressions
-/

namespace Unc.Spec
open Unc

/-- Every observable quantity of the two values is the same: means, moments, covariances and correlations with values which
agree on the moments of shared variables, derivatives with respect to other values.  (`isindep` and `indepid` are not included: a
value can store variables its derivatives with respect to which are 0.) -/
structure SameObs2 (x y : UReal2 ℝ) : Prop where
  first : x.mu = y.mu
  n : ∀ p, x.n p = y.n p
  m : ∀ k, x.m k = y.m k
  s : x.s = y.s
  skew : x.skew = y.skew
  kurt : x.kurt = y.kurt
  cov : ∀ z : UReal2 ℝ, z.hg.Valid → AgreeMoments x.hg z.hg → AgreeMoments y.hg z.hg → x.cov z = y.cov z ∧ z.cov x = z.cov y
  corr : ∀ z : UReal2 ℝ, z.hg.Valid → AgreeMoments x.hg z.hg → AgreeMoments y.hg z.hg → x.corr z = y.corr z ∧ z.corr x = z.corr y
  grad : ∀ u z, UReal2.grad u x z = UReal2.grad u y z
  hess : ∀ u z w, UReal2.hess u x z w = UReal2.hess u y z w

/-- Expressions made with constants, `+`, `-`, `*` and unary `-`. -/
inductive RExpr where
  | var (i : ℕ)
  | const (c : ℝ)
  | neg (e : RExpr)
  | add (e f : RExpr)
  | sub (e f : RExpr)
  | mul (e f : RExpr)

/-- The polynomial written by an expression. -/
noncomputable def RExpr.poly : RExpr → MvPolynomial ℕ ℝ
  | .var i => MvPolynomial.X i
  | .const c => MvPolynomial.C c
  | .neg e => -e.poly
  | .add e f => e.poly + f.poly
  | .sub e f => e.poly - f.poly
  | .mul e f => e.poly * f.poly

/-- The expression computed with the operators of `UReal2`; `u` is the content of uninitialised moments, `none` is undefined
behaviour. -/
noncomputable def RExpr.eval2 (u : Moments ℝ) (v : ℕ → UReal2 ℝ) : RExpr → Option (UReal2 ℝ)
  | .var i => some (v i)
  | .const c => some (UReal2.const c)
  | .neg e => (e.eval2 u v).bind (UReal2.neg u)
  | .add e f => (e.eval2 u v).bind fun x => (f.eval2 u v).bind fun y => UReal2.add u x y
  | .sub e f => (e.eval2 u v).bind fun x => (f.eval2 u v).bind fun y => UReal2.sub u x y
  | .mul e f => (e.eval2 u v).bind fun x => (f.eval2 u v).bind fun y => UReal2.mul u x y

end Unc.Spec
