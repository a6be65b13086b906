# Formal model of uncertainties-cpp: design

Written before the proofs; sections "Status" and "Disagreements" are updated as the work proceeds.

## 1. Trusted base

* Lean 4.33.0's kernel, and the three standard axioms `propext`, `Classical.choice`, `Quot.sound`
  (inherited from Mathlib; `Verif/Audit.lean` runs `#print axioms` on the theorems named in MANIFEST.json).
  No axiom of our own, no `sorry`, no `native_decide`, no `bv_decide`.
* The transcription from C++ to Lean (by hand; every definition cites file and lines).
* Idealisations, all stated in the modules concerned:
  * **Numbers.** The template parameter `Real` is a type `R`. Model functions only use the operations the C++ uses
    (`+ * - / < <= ==`, `sqrt`, `abs`). Structural theorems (ids, key sets, exceptions, iterator safety) are proved for *any*
    `R` with those operations and no laws, so they hold for `float`/`double`. Theorems about values are
    proved in exact arithmetic (an ordered field, or `ℝ` where square roots or analysis are needed). Rounding is modelled in `Verif/Model/Float.lean` (first order class only: C61-C63; the `<cmath>` functions are taken correctly rounded, `Verif/Model/FloatMath.lean`): each operation gives the
    exact result rounded, without overflow, without contraction of `a*b+c`; the binary formats there have unbounded exponents and round halfway cases
    away from zero (no halfway case occurs in the witnesses with `double`). `Verif/Model/IEEE.lean` (C68) has numbers with limited exponents, gradual underflow, infinities and NaN, and rounds
    halfway cases to even; there is one zero without sign, with which the operators give the same as with signed zeros (`Verif/Model/SignedZero.lean`) unless they divide by zero (C89); `Verif/Model/FormatFP.lean` (C69) is `format` with these numbers, with `log10`, `pow` and `fmod` correctly rounded. Elsewhere rounding, overflow, NaN and
    infinities of floating point are **not** modelled, except in the exact formatting model, where the input of
    `format` is `nan | +-inf | finite` (the finite numbers are exact reals, also the `float` logarithm).
  * **std::map** is a strictly sorted association list; iterators over a map that is not modified are
    suffixes of the list (`end` = `[]`); `m[k]` inserts a default at the sorted place.
  * **Uninitialised memory.** `Moments()` (hessgrad.hpp) leaves its array uninitialised: every default-constructed entry
    gets an arbitrary `junk` value, a parameter of the model functions; theorems hold for every `junk`.
  * **UB and failed asserts** are a distinct outcome (`none`) of the model functions which can reach them.
  * **Exceptions** are `Except`/`Option` outcomes.
  * **Concurrency**: the only shared mutable state of the library is `internal::last_id`, a `std::atomic<int>`
    changed only by `++`. An execution of several threads is a list of atomic steps (sequential consistency,
    which is the default of `std::atomic`). Concurrent use of one variable object from two threads is a data race in C++ and out of scope.
  * **Eigen** is external. `LDLT` is a parameter constrained by its documented contract
    (`A = P^T L D L^T P`, `L` unit lower triangular, `D >= 0` when `isPositive()`);
    `SelfAdjointEigenSolver` is a parameter constrained by its contract (`EigenSolver`: it reads the lower triangle only,
    and the numbers it returns are the eigenvalues of the symmetric matrix with that lower triangle).
* Not modelled: template/overload resolution (`is_scalar`, `_HasSame`), stream output `operator<<` (a call of `format`), `ubinary`/`uunary` as closures (modelled by the value
  they return), `std::numeric_limits` epsilon (step is a parameter), `isfinite`/`isnormal` (floating point predicates; for `UReal2` they call `x.all(...)` as a member
  although `all` is a friend, so they cannot be instantiated), Python development scripts, `Eigen` `NumTraits` boilerplate.

## 2. Model

| Lean module | C++ |
|---|---|
| `Verif/Model/Map.lean` | `std::map` |
| `Verif/Model/Num.lean` | operations required of `Real` |
| `Verif/Model/UReal.lean` | `ureal.hpp` |
| `Verif/Model/World.lean` | programs over `UReal` variables + `last_id` (impl.hpp), threads |
| `Verif/Model/Stat.lean` | `stat.hpp` |
| `Verif/Model/UReals.lean` | `ureals.hpp` |
| `Verif/Model/HessGrad.lean` | `internal/hessgrad.hpp` |
| `Verif/Model/HessCalls.lean` | `internal/hessgrad.hpp`: the interface call by call |
| `Verif/Model/Moments.lean` | `internal/moments.hpp` |
| `Verif/Model/CheckMoments.lean` | `internal/checkmoments.hpp` |
| `Verif/Model/UReal2.lean` | `ureal2.hpp` |
| `Verif/Model/Distr.lean` | `distr.hpp` |
| `Verif/Model/Math.lean`, `Math2.lean` | `math.hpp`, `functions.hpp` (first and second order) |
| `Verif/Model/NaN.lean` | the number operations with a NaN (for `cbrt`, `isfinite`) |
| `Verif/Model/Float.lean` | the types `float` and `double` as template parameter (`ureal.hpp` 831-832) |
| `Verif/Model/Stat2.lean` | `stat.hpp` on `UReal2` |
| `Verif/Model/StatIt.lean` | the functions of `stat.hpp` with iterators, also on one array and on a stream |
| `Verif/Model/BinaryAssign2.lean`, `BinaryAssign2Self.lean` | `UReal2::binary_assign` (unfinished code), with different objects and with the same object as arguments |
| `Verif/Model/World2.lean` | programs over `UReal2` variables |
| `Verif/Model/Cost.lean`, `Cost2.lean` | `unary`, `binary`, `nary`, `binary_assign` of `UReal`, `unary`, `binary` of `UReal2` with a counter of the operations |
| `Verif/Model/Memory.lean` | calls of `UReal` in which an allocation fails, and programs that go on |
| `Verif/Model/Memory2.lean` | the same for `UReal2` |
| `Verif/Model/Moves.lean` | implicit move assignments, and programs with variables that were moved from |
| `Verif/Model/Mixed.lean` | programs with variables of both classes sharing `last_id` |
| `Verif/Model/Format.lean`, `FormatSecond.lean` | `io.hpp`, `impl.hpp` string helpers; `format` of `UReal2` |
| `Verif/Model/IEEE.lean`, `IEEE2.lean`, `SignedZero.lean`, `FormatFP.lean`, `Precision.lean`, `Predicates.lean` | `double` with limited range, signed zeros; `isfinite` and `isnormal`; conversion between `double` and `float`; `io.hpp` in `double` and `float` |

Specifications (`Verif/Spec/*.lean`) do not use model helpers: linear forms over ids, the moment functional on polynomials /
integrals against probability measures, Mathlib derivatives, decimal-number parsing.
`Verif/Conform.lean` runs the model on the inputs of the library's own test programs (deriv2.cpp, distr.cpp, indep.cpp, format.cpp) and finds the expected
values written there; these are tests of the model, not claims. The 43 strings of format.cpp are obtained through `Verif/Lemmas/FormatQ.lean`,
a computable version of the formatting functions on rational numbers with a proof that it agrees with the model.
Property theorems are in `Verif/Props/*.lean`, one file per group; helper lemmas in `Verif/Lemmas/*.lean`.

## 3. Plan per property

* **C01, C02, C03, C04, C05, C06, C07, C09, C11, C15, C16, C47** (UReal). A value is abstracted to
  (mean, finite set of ids, coefficient function id -> R). Lemmas: every operation commutes with the abstraction, `cov` is the inner product of the coefficient functions.
  A class invariant `Valid` is preserved by every operation, and by every program. Programs (World) are lists of steps on registers, with an
  abstract interpreter as specification; refinement by simulation. C03 by Cauchy-Schwarz. C05 includes the alias branch as a separate model function (object identity is explicit).
  C11 and C15 need no arithmetic laws.
* **C08, C10**: `last_id` as a 32-bit wrapping counter; a schedule is a list of thread names; ids are distinct & positive for < 2^31 steps; a witness after the wrap.
* **C12**: expected false: `grad` looks only in the dependency map, which is empty for an independent `this`. Prove the negation with a witness, and the partial theorem for dependent `this`.
* **C13**: expressions over `ℝ` with Mathlib's derivatives (`HasFDerivAt`/`HasDerivAt`), the library evaluation gives the true partial derivatives.
* **C14, C35**: for each function of math.hpp the derivative expression in the code against `HasDerivAt`. Expected: UReal `atan2` has both signs flipped (negation proved), UReal `cbrt` uses
  `pow(x, -2/3)`, NaN for x < 0.
* **C17-C19**: direct; Eigen's LDLT by contract; sizes of 64 bit `size_type` wrap in `corr2cov` (`n*n`), not in `ureals`.
* **C20**: algebra plus Mathlib limits.
* **C21-C23, C45, C46**: list-level model of the iterators. Expected: C46 and C23 are false for the "missing elements included" mode of `ConstHessIt`; negation with witnesses, exact
  characterisation of what is visited, partial theorem for the cases that work (skip mode; at most one variable).
* **C24-C28**: specification is the moment functional `E` on multivariate polynomials (and its agreement with integrals over independent random variables). The code's sums and `E[Q^k]` are both sums over sets of at most k variables; equality on small sets
  is a polynomial identity, and extends to any number of variables by Moebius inversion.
* **C29**: sum of squares; 3x3 Hankel minor.
* **C30-C32, C44**: algebra, spectral theorem, integrals.
* **C33, C36, C37**: two-jets; little-o Taylor expansions.
* **C34**: expected false (self-declared unfinished); witness.
* **C38-C43**: model of `format` on exact numbers, specification by reading the printed string back. Expected: C40 false on carries of the mean, C41 false for s = 0, C39/C42 false
  when errdig >= 2 is not an integer.

## 4. Disagreements between code, documentation and properties

Found by reading, to be confirmed by proof (see Status):

1. `ConstHessIt::operator++` with `skipmissing == false` does not visit missing elements: a row without stored off-diagonal entries is skipped, and a row with k stored entries visits the first column k times. Hence second-order
   `exp(x+y)`, `1/(x+y)`, ... lose mixed second derivatives (C46, C23).
2. `atan2(UReal, UReal)`: both partial derivatives have the wrong sign (C14), so that `atan2(x, 1)` and `atan(x)` have opposite covariances with every value (C48_atan2_false).
3. `UReal::grad` returns 0 when `this` is independent (C12).
4. `cbrt(UReal)` at negative arguments: `pow` of a negative number with non-integer exponent (C14).
5. `format` with zero or infinite uncertainty drops the minus sign (C41).
6. `ndigits` returns an uncertainty scaled by 10^(n-1) when rounding to n = floor(errdig) digits takes it below the threshold, n >= 2 and errdig is not an integer: 9.99 with errdig 2.5 prints as 100 (C39, C42, C43).
7. `format` drops one digit of the mean when its mantissa carries: 9.996 ± 0.10 prints `10.0 ± 0.10` (C40), and, when there are no decimals, 9.6 ± 25 prints `1 ± 25`, with the default arguments (C39).
8. `format` throws for errdig == 1 although the documentation says only below 1 (C38).
9. The id counter wraps after 2^31-1 constructions; id INT_MAX equals the end sentinel in `binary` (C08, C15).
10. `UReal2::binary_assign` is unfinished and wrong (C34): the gradient is always off by that of `x` (C34_gradient), and the result is right only for an `x`
    without first derivatives (C34_right_iff).  With the same object as both arguments the first derivatives are multiplied by `(1 + dfdx) * (1 + dfdy)` (C34_same).
11. `corr2cov` compares with `n*n` computed modulo 2^64 (C18).
12. The moment check accepts central moments which no distribution has (a singular Hankel matrix does not make the last moment
    attainable), and with the check off a zero variance silently discards the other moments (C31_accepts_impossible, C30_unchecked).
13. `isfinite(UReal2)` and `isnormal(UReal2)` call `x.all(...)` as a member although `all` is a friend: they cannot be instantiated.
14. Construction with s == 0 does consume an id (a comment in ureal.hpp says it has id 0). For `UReal` there is no observable effect apart from isindep/indepid (C57_first); for
    `UReal2` a variable 0 ± 0 created between two others changes the uncertainty of a result from 1 to 0 (C57_uncertainty).
15. The uncertainty of a second order result depends on the order in which the variables were created (C58_uncertainty) and on how the function is written (C49_false).
16. The number of digits of the printed uncertainty is not the one documented for some non-integer `errdig` (C42_false: 9.6 and 3.3 with errdig 1.5; C42_exact is the rule the code follows).
17. In `double` the correlation of a value with itself can exceed 1, and `var` changes when `s()` is called (C61_corr_false, C61_cache_false); the quotient is computed as
    `x * (1 / y)`, so `UReal(49) / UReal(49)` is not 1 (C62_div_false); a function template which divides does not give the same number with
    `UReal` as with `double` or `UReal2` (C72_false).
18. `pow(x, n)` at mean 0 with constant integer `n > 0`, and `atan2(y, x)` at mean `y = 0`, give NaN uncertainties although the functions are differentiable there
    (C14_pow_zero_nan, C14_atan2_zero_nan).
19. `default_step` is absolute: in `double`, for means of at least 2^28, numerically differentiated functions get derivative 0 and uncertainty 0 (C64_large_false).
20. In `double` the variance of a `UReal2` can come out negative, so that `s()` is NaN (C66_var_false): `m(2)` subtracts the square of `m(1)`.
21. The results of `UReal2` are not continuous in the second derivatives at 0: if the second derivative is 0 up to rounding, e.g. the sine near π, elements of the Hessian
    are overlooked which are kept if it is exactly 0 (C66_zero_derivative_false; the cause is that of C46).
22. In `double` an overflow can be hidden: `c / (a * b)` is 0 ± 0 if the mean of `a * b` overflows (C68_divide_false), and a correlation of 1/2 is returned as 0 if the product of the
    uncertainties overflows (C68_corr_false). The sum of squares overflows for coefficients from 2^512 and vanishes for those below 2^-538 (C68_overflow_false, C68_underflow_false).
    The quotient of two equal numbers below 2^-1024 is infinite (C68_tiny_false). The constructor accepts a NaN uncertainty (C68_constructor).
23. `format` in `double` (C69): `999999999999999 ± 20` with two digits fails the assertion in `mantissa`, because the logarithm of the mean is rounded to 15 (C69_assert_false). For uncertainties
    below 1e-310, constants below 1e-305 and means above 1e310 times the uncertainty the power of ten or the product overflows, and `int_mantissa_string(inf)` converts NaN to `int`, which is
    undefined, in a loop which does not end (C69_tiny_false, C69_tiny_constant_false, C69_wide_false).
24. The moments of `UReal2` are not those of the function even if it is a polynomial of degree 2: the variance of `pow(x + y, 2)` is wrong although that of `(x + y) * (x + y)` is right
    (C70_false), and its third moment is wrong at the leading order of the correction to first order propagation (C70_limit_false). The cause is that of C46. Mean, variance and covariances are right to the order of the correction for all computations
    (C70_mean_var_cov).
25. The template parameter of `cov_matrix(begin, end, matrix)` is called `InputIt`, but with an iterator which can be read only once just the first row is written (C73_stream_false).
26. `operator!=` of the iterators over second derivatives has `and` where it should have `or`: two positions in the same row or column compare equal (C75_ne_false). The library only
    compares with the end.
27. A formatted number read back and formatted again may print differently (C76): with the default arguments if the leading digits of the uncertainty are from 3.15 to 3.5, if the
    mean is rounded up to a power of ten, or if it is negative and rounds to zero.
28. A mean rounded up to a power of ten may bring in an exponent which is not needed: 9.6 ± 4 prints as "(1 ± 0.4)e+1" and not as "10 ± 4" (C77_exponent_false).
29. With the default threshold 0 and eigenvalues that have an error, the constructors may reject the moments of a distribution on few points and accept slightly impossible ones (C78_sharp, C78_false, C78_accepts_false); ε/(1-ε) is the smallest threshold that accepts every distribution.
30. `kurt()` divides by `s2*s2`, which leaves the range of the type long before the kurtosis does: in `double` no positive kurtosis is returned for an uncertainty of 2^256 or more or of 2^-269 or less, in `float` already from 2^32 (about 4·10⁹) and to 2^-38 (about 4·10⁻¹²) (C79_double_false, C79_float_false). The fourth moment itself leaves the range there, so the standardized value would have to be computed directly.
31. Dividing by a second-order value whose mean has overflowed gives 0 with uncertainty 0, as at first order, and `skew()` divides by `s*m2`, which can overflow while the third moment does not, so that the skewness comes out as 0 (C81_divide_false, C81_skew_false: two variables with uncertainty 2^341). All other results at second order show an overflow (C81_visible_partial, C81_shown).
32. What is computed from variables created by different threads depends on the interleaving of the constructors: at second order through the entries the iterator over the Hessian skips (disagreement about the order of creation, C58), so that the variance of `exp(x*y+z)` is 5/2 or 3/2 (C82_joined_false), at first order only through rounding (C82_rounding_false). Each thread by itself always gets the same answers (C82_threads_partial), and with exact arithmetic at first order so does what is computed afterwards (C82_after_partial); at second order this holds for `+`, `-`, `*` of any values and for functions of independent values (C82_after2_partial).
33. `binary_assign` changes the members one after the other, so a compound assignment which throws `std::bad_alloc` can leave a variable whose cached uncertainty and covariances disagree, and the implicit copy assignment one with the new mean and no uncertainty (C83_false). Nothing else is lost: no other variable changes, and the program can go on without undefined behaviour (C83_kept_partial, C83_defined_partial). At second order a copy assignment that fails in the first map leaves the second map of the old value: asking for the covariances or the third moment of such a variable is undefined behaviour (C83_second_false), and this is the only way (C83_second_defined_partial).
34. The implicit move of `UReal` moves the map and copies the cached uncertainty, so a variable that was moved from, or moved to itself, can have an uncertainty and no covariance with itself, against the class invariants (C84_false). Programs which do not read such variables are not affected (C84_unread).
35. With numerical derivatives a function with a large offset, such as 2^60 + t, gets derivative 0 and the result no uncertainty (C86_offset_false). The errors are bounded by the size of the function and of its derivatives (C86_forward_double, C86_central_double).
36. The number of operations of the fourth moment grows as the fourth power of the number of variables also for values without second derivatives, such as sums (C87_sparse_false): cycle D of `compute_m4` multiplies the diagonal elements of each four variables without looking if they are 0. TODO.md:260 says O(n^4) and suggests not to compute it by default.
37. The formula for the covariance in the documentation (uncertainties/ureal.hpp:241-249) is a sum over all pairs of variables, which gives a covariance of 1 for two independent variables with uncertainty 1 (C88_formula_false). The code sums over the variables in common (C88_formula).
38. The documentation says that independent variables have zero or full correlation (uncertainties/ureal.hpp:165-166); with zero uncertainty `isindep()` is true and the correlation is NaN (C88_full_false).
39. The examples in uncertainties/functions.hpp:31-52 call `ubinary` with a function of one argument, which does not compile; `uunary` is meant. Not in the model, which has no ill-typed programs.
40. `1 / (1 / x + 1 / y)` is 0 for `x = y = 0` and NaN if `y` is `-0`, which compares equal to 0 (C89_false).
41. With rounding, at second order, `x * y` and `y * x` can differ in a mixed second derivative, one being zero and the other not (C90_mul_false).
42. With rounding, at second order, `cov(x, y)` and `cov(y, x)` can differ, one being zero and the other not (C90_cov_false), and `var(x)` and `cov(x, x)` in the last digit (C90_var_false).
43. In `double`, a second-order variable made with central moments and a standard deviation of 2^-140 has NaN as fourth moment, and one with a standard deviation of 2^-270 has NaN as uncertainty, whatever the other moments are (C94_fourth_false, C94_tiny_false): the constructor divides by powers of the standard deviation which underflow, and the method multiplies the result by a second derivative 0. The constructor with standardized moments does not have this problem (C94_uncertainty_partial).
44. In `double`, `cov_matrix` of two multiples of one variable, (1 + 43620761 ε) x and (1 + 80530636 ε) x with ε = 2^-52, has a negative determinant (C95_false), so that `ureals` can refuse a matrix which the library has computed itself (C95_ureals_false): the products are rounded one by one.  At second order the matrix of one value can already be negative (C95_second_false). Increasing the diagonal by a few roundings makes it positive again (C95_jitter_partial).
45. "Converting to an `UReal` with different numerical type preserves all the correlations" (ureal.hpp:477-478): from `double` to `float` a variable with uncertainty 2^-200 gets the uncertainty 0 and its correlation with itself becomes NaN (C96_false); a mean of 2^200 becomes infinite (C96_infinite_false). Without a limit on the exponents the correlations are preserved but for the rounding (C96_corr_partial).
46. One expects that a larger uncertainty of a variable does not make a result more certain. At second order it does for skewed variables with v4 < 1 + 9/8 v3^2 (C97_skew, C97_second_sharp): the expansion is exact for `x * x`, so this is a property of the variance, not a mistake of the code. In `double` it does because of the rounding of `x * 5 - x * 4` (C97_double).
47. The second-order uncertainty of a smooth function can jump: `sin(x * y + z)` with the mean of `z` equal to 0 has the right variance 2, with any other small mean about 1 instead of about 2 (C98_jump). It is another consequence of the iteration over the Hessian in `unary`, which loses mixed derivatives unless the second derivative passed on is 0.
48. `isfinite` and `isnormal` of a computed value look at the uncertainty, which is the square root of a sum of squares: with an uncertainty of 2^512 they are true for `x` and false for `x + 0`, although all the numbers stored are finite and normal (C99_overflow_false); `isnormal` is false for every constant (C99_isnormal_zero).
49. A value can be reported without uncertainty although it is never near the mean reported: for `x` and `y` equal to 1 or -1 the square of `x + y` written with `uunary2` is 2 with uncertainty 0, and really 0 or 4 (C100_false). It is the iteration over the Hessian again, which loses the mixed derivative.

## 5. Status

MANIFEST.json has the theorems of each property; the notes there say what is missing. Summary:

* Proved as stated: C01-C11, C13, C15-C22, C24-C32, C35, C38, C44, C45, C47, C48, C50-C56, C59, C60, C63, C65, C67, C71, C74, C80, C85, C86, C87, C91, C92, C93.
* False in the code (negation proved with a concrete witness), with the part that is true proved as `_partial`, and where possible the exact behaviour of the
  code: C12 (`grad` of an independent value), C14 (`atan2`, `cbrt`), C23, C33, C36, C37, C46, C49, C57, C58 (all from the Hessian iteration), C34 (`binary_assign`),
  C39-C43 (`format`), C61, C62 (rounding), C64 (step of numerical derivatives), C66 (second order in floating point), C68 (overflow and underflow), C69 (`format` in `double`), C70 (law of the second order results),
  C72 (function templates), C73 (matrices through iterators), C75 (iterators of `HessGrad`), C76 (`format` of what was formatted), C77 (the whole text of `format`), C78 (the check of the moments with inexact eigenvalues), C79 (changes of units), C81 (overflow at second order), C82 (threads), C83 (memory exhausted), C84 (variables moved from), C88 (two statements of the documentation), C89 (signed zeros), C90 (order of operands with rounding at second order), C94 (constructors for small uncertainties), C95 (positive matrices with rounding), C96 (correlations after the conversion to `float`), C97 (larger uncertainties, for skewed variables at second order and with rounding), C98 (small changes of the data, at second order), C99 (isfinite and isnormal, out of the range of the squares), C100 (probabilities of large errors, functions of sums at second order).
* Properties C48-C100 were added while the model grew: C48/C49 results depend only on the function computed, C50 algebraic identities, C51/C52 scaling, shifts and sums of
  independent values, C53 covariance matrices, C54 possible third and fourth moments, C55 the two propagation modes, C56/C59 identifiers in programs with both classes,
  C57 variables without uncertainty in whole computations, C58 order of creation, C60 conversions, C61-C63 floating point (errors, exact identities, limit of increasing precision),
  C64 numerical derivatives in floating point, C65 number of operations, C66 second-order results in
  floating point of increasing precision, C67 the meaning of the uncertainties for random variables, C68 overflow and underflow, C69 formatting in `double`, C70 the meaning of second order results for random variables, C71 sums of independent values and the normal and chi-square families (test/distr.cpp), C72 function templates instantiated with numbers, `UReal` and `UReal2`, C73 matrices written through iterators, C74 sparsity of second-order values, C75 the accessors of `HessGrad`, C76 formatting what was read from a formatted text, C77 the whole formatted text, C78 the check of the moments with eigenvalues that have an error, C79 changes of units by powers of two, C80 bounds of the rounding errors of second-order results, C81 overflow at second order, C82 threads which use both classes in any arithmetic, C83 calls which run out of memory, C84 variables which are moved, C85 `ureals` in floating point, C86 errors of numerical derivatives, C87 operations of the moments, C88 examples of the documentation, C89 the sign of zeros, C90 identities exact with rounding at second order, C91 operations of the propagation to second order, C92 calculations with integers do not round, C93 the same at second order, C94 the constructors with rounding, C95 covariance matrices with rounding, C96 conversion between precisions, C97 larger uncertainties of the variables, C98 small changes of the data, C99 isfinite and isnormal, C100 probabilities of large errors.
* `seeded/LOG.jsonl` records the wrong programs the theorems were tested with.
