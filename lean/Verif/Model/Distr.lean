import Verif.Model.CheckMoments

/-!
# Model of `uncertainties/distr.hpp` and of the binomial table in `uncertainties/impl.hpp`
-/

namespace Unc
namespace Distr

/-- `C[n][k] = v` (uncertainties/impl.hpp:70, 72). -/
def setAt (C : ℕ → ℕ → ℤ) (n k : ℕ) (v : ℤ) : ℕ → ℕ → ℤ := fun a b => if a = n ∧ b = k then v else C a b

/-- Body of the inner loop of `compute_binom_coeffs` (uncertainties/impl.hpp:69-73). -/
def binomStep (n : ℕ) (C : ℕ → ℕ → ℤ) (k : ℕ) : ℕ → ℕ → ℤ :=
  if n = k ∨ k = 0 then setAt C n k 1 else setAt C n k (C (n - 1) (k - 1) + C (n - 1) k)

/-- `compute_binom_coeffs` (uncertainties/impl.hpp:65-77); the array is uninitialised (`junk`), the elements
above the diagonal remain so. -/
def computeBinomCoeffs (junk : ℕ → ℕ → ℤ) : ℕ → ℕ → ℤ :=
  (List.range 9).foldl (fun C n => (List.range (n + 1)).foldl (binomStep n) C) junk

/-- `binom_coeff` (uncertainties/distr.hpp:50-56); `none` is a failed assert. -/
def binomCoeff (junk : ℕ → ℕ → ℤ) (n k : ℕ) : Option ℤ :=
  if n ≤ 8 ∧ k ≤ n then some (computeBinomCoeffs junk n k) else none

section
variable {R : Type*} [Zero R] [One R] [Add R] [Mul R] [IntCast R]

/-- `mun[i]`: filled from `mun[0] = 1` by `mun[i] = mun[i - 1] * zm[0]` (uncertainties/distr.hpp:60-63). -/
def mun (zm : ℕ → R) : ℕ → R
  | 0 => 1
  | i + 1 => mun zm i * zm 0

/-- `n % 2 == 0 ? 1 : -1` (uncertainties/distr.hpp:67, 71). -/
def sgn (n : ℕ) : ℤ := if n % 2 = 0 then 1 else -1

/-- Body of the loop over `k` (uncertainties/distr.hpp:70-72); the product of the three integers is computed
in `int` and converted. -/
def cmStep (junk : ℕ → ℕ → ℤ) (zm : ℕ → R) (n : ℕ) (c : R) (k : ℕ) : Option R :=
  (binomCoeff junk n k).map fun b => c + ((sgn n * sgn k * b : ℤ) : R) * zm (k - 1) * mun zm (n - k)

/-- `cm[n - 2]` (uncertainties/distr.hpp:65-75). -/
def cmEntry (junk : ℕ → ℕ → ℤ) (zm : ℕ → R) (n : ℕ) : Option R :=
  let c := ((sgn n * (1 - n) : ℤ) : R) * mun zm n
  ((List.range' 2 (n - 2)).foldlM (cmStep junk zm n) c).map fun c => c + zm (n - 2 + 1)

/-- `central_moments` (uncertainties/distr.hpp:58-77): raw moments 1 to 8 to central moments 2 to 8. -/
def centralMoments (junk : ℕ → ℕ → ℤ) (zm : ℕ → R) : Option (List R) :=
  (List.range' 2 7).mapM (cmEntry junk zm)

end

section
variable {R : Type*} [Mul R] [Div R] [CSqrt R]

/-- Loop of `std_moments`: the pair of `sn` and the elements computed so far
(uncertainties/distr.hpp:86-89). -/
def stdLoop (m : ℕ → R) (s : R) : ℕ → R × List R
  | 0 => (m 0, [])
  | i + 1 =>
    let p := stdLoop m s i
    let sn := p.1 * s
    (sn, p.2 ++ [m (i + 1) / sn])

/-- `std_moments` (uncertainties/distr.hpp:79-90): central moments 2 to 8 to standardized moments 3 to 8. -/
def stdMoments (m : ℕ → R) : List R := (stdLoop m (CSqrt.sqrt (m 0)) 6).2

end

section
variable {R : Type*} [Zero R] [One R] [Neg R] [Add R] [Sub R] [Mul R] [Div R] [NatCast R] [IntCast R] [CCmp R] [CSqrt R]

/-- A `std::array<Real, 6>` (uncertainties/distr.hpp:106, 137, 157). -/
def arr6 (a b c d e f : R) : ℕ → R
  | 0 => a
  | 1 => b
  | 2 => c
  | 3 => d
  | 4 => e
  | 5 => f
  | _ => 0

/-- `distr::normal<UReal2>(mu, sigma)` (uncertainties/distr.hpp:102-114); the threshold is the default 0 of the
constructor (uncertainties/ureal2.hpp:552). -/
def normal (solve : (ℕ → ℕ → R) → Option (List R)) (junk : ℕ → ℕ → R) (u : Moments R) (id : VId)
    (mu sigma : R) : Option (Except Exn (UReal2 R)) :=
  UReal2.mkStd solve junk u id mu sigma
    (arr6 0 (Mom.lit 3) 0 (Mom.lit (3 * 5)) 0 (Mom.lit (3 * 5 * 7))) 0

/-- The standardized moments in `chisquare`; `sqrt2` and `sqrtK` are the values of `sqrt(Real(2))` and
`sqrt(K)` (uncertainties/distr.hpp:137-144). -/
def chiMoments (sqrt2 sqrtK K : R) : ℕ → R :=
  let lit := fun n : ℕ => (Mom.lit n : R)
  arr6 (lit 2 * sqrt2 / sqrtK)
    (lit 3 + lit 12 / K)
    (sqrt2 * (lit 20 + lit 48 / K) / sqrtK)
    (lit 15 + (lit 260 + lit 480 / K) / K)
    (sqrt2 * ((lit 2880 / K + lit 1848) / K + lit 210) / sqrtK)
    (lit 105 + ((lit 40320 / K + lit 29232) / K + lit 4760) / K)

/-- `distr::chisquare<UReal2>(k)` (uncertainties/distr.hpp:121-145). -/
def chisquare (solve : (ℕ → ℕ → R) → Option (List R)) (junk : ℕ → ℕ → R) (u : Moments R) (id : VId)
    (k : ℤ) : Option (Except Exn (UReal2 R)) :=
  if k < 0 then some (.error .invalidArgument)
  else if k = 0 then some (.ok (UReal2.const 0))
  else
    let K : R := (k : R)
    let sqrtK := CSqrt.sqrt K
    let sqrt2 := CSqrt.sqrt (Mom.lit 2 : R)
    UReal2.mkStd solve junk u id K (sqrt2 * sqrtK) (chiMoments sqrt2 sqrtK K) 0

/-- `distr::uniform<UReal2>(left, right)` (uncertainties/distr.hpp:152-168). -/
def uniform (solve : (ℕ → ℕ → R) → Option (List R)) (junk : ℕ → ℕ → R) (u : Moments R) (id : VId)
    (left right : R) : Option (Except Exn (UReal2 R)) :=
  let moments := arr6 0 (Mom.lit (3 * 3) / Mom.lit 5) 0 (Mom.lit (3 * 3 * 3) / Mom.lit 7) 0 (Mom.lit (3 * 3))
  let mu := (right + left) / Mom.lit 2
  let sigma := CSqrt.sqrt (Mom.lit 1 / Mom.lit (3 * 2 * 2)) * (right - left)
  UReal2.mkStd solve junk u id mu sigma moments 0

end
end Distr
end Unc
