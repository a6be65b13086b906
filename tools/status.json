{
 "C01": [
  "proved",
  "unary, binary, any values satisfying the class invariants; C01_program: any program with fewer than 2^31-1 constructions. Exact arithmetic (ordered commutative rings / reals)."
 ],
 "C02": [
  "proved",
  "Exact arithmetic; symmetry also for any commutative product without other laws."
 ],
 "C03": [
  "proved",
  "Bound and the +1/-1/0 case; exact real arithmetic."
 ],
 "C04": [
  "proved",
  "Ten laws, observational equality of mean, s, var and covariance with every variable; reals."
 ],
 "C05": [
  "proved",
  "Different objects and aliased object, generic call and the four operators; reals."
 ],
 "C06": [
  "proved",
  "Sum of contributions, permutation invariance, agreement with binary and chained binary; reals."
 ],
 "C07": [
  "proved",
  "C07_erase_reads/C07_observers hold for any arithmetic; C07_cache_unobservable for exact reals (cached s*s = s2 needs exact sqrt)."
 ],
 "C08": [
  "proved",
  "Distinct ids for any interleaving up to 2^31-1 constructions, schedule independence of all observations; the failure beyond the bound is proved with three witnesses."
 ],
 "C09": [
  "proved",
  "After any program with fewer than 2^31-1 constructions; after that many the next id is negative (C08_wrap_negative)."
 ],
 "C10": [
  "proved",
  "UReal: any arithmetic. UReal2: throws iff s < 0 or (threshold 0, exact eigenvalues) the Hankel matrix is not positive semidefinite; nothing changes on failure."
 ],
 "C11": [
  "proved",
  "Any arithmetic with 0<0 false; dependency sets given by a data-flow specification. Correlation part in C03_corr_single."
 ],
 "C12": [
  "partial",
  "C12_false proves the property does not hold (x.grad(x)=0); C12_grad_partial proves it for values stored with id<=0; C12_throws_iff the exception condition."
 ],
 "C15": [
  "proved",
  "No undefined behaviour/assert failure below 2^31-1 constructions for any arithmetic; undefined behaviour at the bound proved with a witness program."
 ],
 "C16": [
  "proved",
  "change_nom; conversion: structure for any conversion, values for exact conversions."
 ],
 "C47": [
  "proved",
  "Covariance 0 with everything, sum and product with a zero-uncertainty value; reals."
 ],
 "C17": [
  "proved",
  "Entries, symmetry, positive semidefiniteness, unit diagonal; vectors of fewer than 2^32 elements, with more the size of the buffer wraps and the behaviour is undefined (C17_size); reals."
 ],
 "C18": [
  "proved",
  "Exact result and inverse of corr(); size check modulo 2^64 with a witness where it accepts a wrong size."
 ],
 "C19": [
  "proved",
  "Any n, any decomposition result satisfying the Eigen LDLT contract (Spec/Ldlt.lean; trusted base); exact reals. C19_ureals_near: with a decomposition which is exact only within epsilon, so is the covariance matrix, which is still positive semidefinite. C19_rejects, C19_accepts_iff: only positive semidefinite matrices are accepted, and all of them if the routine decomposes all of them; C19_contract_complete: such a routine exists. C19_empty: n = 0, whatever the decomposition routine."
 ],
 "C13": [
  "proved",
  "Straight-line computations with sharing over any node functions that propagate their own derivative; C14 supplies the library's functions; reals."
 ],
 "C14": [
  "partial",
  "All 31 functions and the operators proved on their domain of differentiability except: atan2, where the property is false (C14_atan2_false; C14_atan2_partial gives what holds), and cbrt of negative values, where the result is NaN (C14_cbrt_nan; C14_cbrt_partial for positive values). At mean 0 pow with a constant positive integer exponent and atan2 with positive second argument are differentiable but the code gives NaN (C14_pow_zero_nan, C14_atan2_zero_nan); C14_domain is where each function of the model may give NaN. C14_all: isfinite and isnormal of UReal2."
 ],
 "C20": [
  "proved",
  "All helpers of functions.hpp on both types: given derivatives are passed on; affine (UReal), quadratic (UReal2) exact for any non-zero step; limits as the step tends to 0 under differentiability. Exact real arithmetic; rounding errors of the differences are in C86."
 ],
 "C21": [
  "proved",
  "All programs of constructors, unary, binary, copies with fewer than 2^31-1 constructions: no UB, invariant, moments shared, independence of uninitialised storage; both iteration modes. Assumes no NaN threshold and that the eigenvalue solver reads only the lower triangle. binary_assign is treated under C34. Sharpness of the bound proved."
 ],
 "C22": [
  "proved",
  "Gradient, set of variables and moments of results of unary/binary, all modes, any ordered field."
 ],
 "C23": [
  "partial",
  "The statement is false for the code: C23_unary_false, C23_binary_false, C23_div_false, C23_function_of_sum. Proved: the chain rule when the full iteration is not needed or works (C23_*_partial), operators neg/add/sub/mul for all operands, exact behaviour of unary otherwise. C23_unary_terms, C23_binary_terms: for all operands the diagonal is complete, and off the diagonal only whole terms can be missing."
 ],
 "C45": [
  "proved",
  "Both modes of ConstTriIt."
 ],
 "C46": [
  "partial",
  "skipmissing=true proved; skipmissing=false is false for the code (C46_full_false) and characterised exactly (C46_full_behaviour, C46_full_iff)."
 ],
 "C24": [
  "proved",
  "Any number of variables, integrals over a probability space; also the assert on the argument of m()."
 ],
 "C25": [
  "proved",
  "m(2), var, s as integrals over a probability space with independent variables having the stored moments; closed form over any commutative ring. Existence of such a space for any family of distributions: Mom.stdIndep_pi."
 ],
 "C26": [
  "proved",
  "m(3) and skew for any number of variables. NaN for variance 0 excluded."
 ],
 "C27": [
  "proved",
  "m(4) and kurt for any number of variables. NaN for variance 0 excluded."
 ],
 "C28": [
  "proved",
  "Integral form, symmetry, self-covariance, disjoint values; without agreement on shared moments symmetry fails (C28_not_symm)."
 ],
 "C29": [
  "proved",
  "C29_program: for all programs constructing with threshold 0 and a solver meeting the eigenvalue contract, var >= 0, s its root, |corr| <= 1. C29_needs_check: without the check the variance can be negative."
 ],
 "C30": [
  "proved",
  "Both constructors; also the stored moments 5 to 8 (C30_central_distribution), zero variance with the check on, and the loss of moments with the check off (C30_unchecked)."
 ],
 "C31": [
  "proved",
  "Under the eigenvalue contract of Eigen (EigenSolver) in exact arithmetic. C31_accepts_impossible: the check is weaker than its documentation."
 ],
 "C32": [
  "proved",
  "The law of each named distribution (Gaussian, chi-square, uniform) is a Mathlib measure; its moments up to 8 are computed and compared with the stored ones, for all parameters. Degenerate and negative parameters have their own theorems."
 ],
 "C44": [
  "proved",
  "Binomial table equal to Nat.choose for every row the code builds; central moments over every commutative ring and over probability spaces; standardisation."
 ],
 "C35": [
  "proved",
  "All 31 functions and the operators on their domain of twice differentiability (cbrt also for negative values, pow also for negative base with constant integer exponent); C35_result1/2 say what the result is. isfinite/isnormal of UReal2 cannot be instantiated (DESIGN.md). Exact real arithmetic."
 ],
 "C36": [
  "partial",
  "C36_false proves the property does not hold (exp(x+y) lacks the mixed term). C36_polynomial: computations with + - * and constants, any number of variables; C36_taylor_partial: one variable, or computations where the iteration over the Hessian works at each node; C36_axis: all computations, along each variable."
 ],
 "C33": [
  "partial",
  "grad and hess(x,x): proved for every computation whose nodes pass their derivatives (C33_computation), x any non-linear function of one variable. Mixed hess(x,y): proved for values that carry the right Hessian (C33_hess_mixed_partial) and for every library function of two arguments on different variables (C33_function2); false where the Hessian is wrong (C33_mixed_false, a consequence of C23/C46). Exceptions: exact conditions."
 ],
 "C37": [
  "partial",
  "C37_first_order_partial: any computation with nodes right on both sides, i.e. (C14, C35) all functions and operators except atan2 and cbrt of negative values. C37_atan2_opposite/C37_atan2_false: for atan2 the property is false, the derivatives are opposite. cbrt of negative values: C14_cbrt_nan. Exact reals."
 ],
 "C34": [
  "partial",
  "False: for all valid operands the gradient is wrong by the gradient of x (C34_gradient), so the result differs from binary's whenever x has a non-zero first derivative (C34_wrong; C34_false, C34_mixed_false are witnesses). C34_unmixed gives the unmixed second derivatives it leaves for all operands, C34_behaviour all second derivatives and C34_right_iff the exact condition for a right result, both where the Hessian iteration works (IterOk); true for constant x with zero mixed derivative (C34_const_partial). With x and y the same object (C34_same) the first derivatives are multiplied by (1+dfdx)(1+dfdy) instead of dfdx+dfdy, right only if dfdx*dfdy = -1 (C34_same_gradient, C34_same_wrong, C34_same_square, C34_same_false), and the second derivatives left are given, the mixed ones where IterOk holds (C34_same_mixed). Left out: the mixed second derivatives where IterOk fails. The source says the function is not finished and nothing in the library calls it."
 ],
 "C38": [
  "proved",
  "C38_throws: exactly errdig <= 1 (the code; C38_doc_false: the documentation says < 1). C38_total: otherwise, with a finite errdig, always a result for all numbers, NaN and infinities included. C38_undefined: NaN or infinite errdig. Exact arithmetic. For second-order values: C38_second."
 ],
 "C39": [
  "partial",
  "False for the code (C39_false: 9.6 ± 25 prints as 1 ± 25 by default; C39_crosses_false: 9.99 with 2.5 digits prints as 100). C39_exact_partial: if and only if characterisation of when the output is right; C39_default_partial for the default arguments. Exact arithmetic. The same for the text of second-order values, with the mean and standard deviation of the quadratic expansion as integrals: C39_second_partial."
 ],
 "C40": [
  "partial",
  "False for the code (C40_false: 9.996 ± 0.10). C40_partial: equal decimals exactly unless the mean is rounded up to a power of ten."
 ],
 "C41": [
  "partial",
  "False for zero or non-finite uncertainty: the sign of a finite mean is always lost (C41_lost, C41_false). True otherwise (C41_partial, C41_nonfinite_partial). Second-order values: C41_second_partial."
 ],
 "C42": [
  "partial",
  "True for errdig below 2, for integer errdig, and whenever rounding does not cross the threshold, when the digits asked for by the value, or by the power of ten it is rounded up to, are meant (C42_partial, C42_default). C42_exact is the exact rule for all uncertainties and errdig; C42_false shows that both literal readings of the statement fail with the default arguments. C42_crosses: what is printed when the threshold is crossed. C42_range: n or n+1 digits always. Second-order values: C42_second."
 ],
 "C43": [
  "partial",
  "Sign, non-zero exponent, normalised mantissa and value of the mean: always (C43_any). Value of the uncertainty: C43_partial, except where C42_crosses shows it is wrong. Numbers without uncertainty: C43_tostring."
 ],
 "C50": [
  "proved",
  "The proof evaluates the polynomial on hyper-dual numbers."
 ],
 "C51": [
  "proved",
  "All polynomial expressions equal to a x + b (C51_affine)."
 ],
 "C52": [
  "proved",
  "All polynomial expressions equal to x + y (C52_independent)."
 ],
 "C53": [
  "proved",
  "C53_bilinear for all polynomial expressions equal to a x + b y + c; C53_cov_matrix, C53_corr_matrix (uncertainties not zero), C53_nom_vector for vectors of any length below 2^32, the range of the index type."
 ],
 "C48": [
  "proved",
  "C48_same_function needs every node to propagate its derivatives, which C14 proves function by function. C48_atan2_false: with atan2 it fails, atan2(x, 1) and atan(x) have opposite covariances with everything."
 ],
 "C49": [
  "partial",
  "False in general (C49_false: exp(x+y) and exp(x)*exp(y)), because of the iteration defect of C46. True for one variable and for all computations in which the iteration works at every node (C49_partial); means, first derivatives and unmixed second derivatives always agree (C49_mean)."
 ],
 "C54": [
  "proved",
  "C54_program for whole programs with an eigenvalue solver meeting its contract; C54_moments, C54_kurt for single values; C54_unchecked: false without the check (kurtosis 0)."
 ],
 "C55": [
  "proved",
  "C55_cubic: degree 2 is the limit."
 ],
 "C58": [
  "partial",
  "UReal: proved for all computations with the operators and functions which propagate their derivatives (C58_first; C14: all but atan2, and cbrt of negative means), and for all functions which give unary and binary numbers depending on the means only, right or not (C58_any), as all functions of the library (C58_library; over the reals, so not where a function gives NaN). UReal2: proved if the iteration over the Hessian works at every node (C58_partial, C58_polynomial); means, first derivatives and unmixed second derivatives always (C58_mean); false in general (C58_false): the uncertainty of exp(x*y+z) depends on the order in which x, y, z are created (C58_uncertainty)."
 ],
 "C56": [
  "proved",
  "C56_program: all programs with both classes with fewer than 2^31-1 constructions, in any arithmetic in which not 0 < 0; the origins are computed by a data-flow specification. C56_observers: for any value."
 ],
 "C59": [
  "proved",
  "C59_program: all programs with both classes with fewer than 2^31-1 constructions, including constructors which throw."
 ],
 "C60": [
  "proved",
  "C60_structure for any conversion; C60_mode for the propagation mode; C60_exact and C60_derivatives for ring homomorphisms; C60_unary and C60_binary: later operations commute with the conversion."
 ],
 "C57": [
  "partial",
  "UReal: proved for all computations with the operators and functions which propagate their derivatives (C57_first; C14: all but atan2, and cbrt of negative means), and for all functions which give unary and binary numbers depending on the means only, right or not (C57_any), as all functions of the library (C58_library; over the reals, so not where a function gives NaN). UReal2: proved if the iteration over the Hessian works at every node (C57_partial, C57_polynomial); means, first derivatives and unmixed second derivatives always (C57_mean); false in general (C57_false): exp(x*y+z) has uncertainty 1 if z is the number 0, and 0 if z is 0 +/- 0 created between x and y (C57_uncertainty)."
 ],
 "C61": [
  "partial",
  "Proved for every format with relative rounding error u: nothing negative under the square root (C61_nonneg), errors of cov, var, s, corr and of the coefficients in unary and binary (C61_cov, C61_var, C61_s, C61_var_after, C61_corr, C61_unary, C61_binary), repeated s() exact (C61_s_again). False in double: |corr| <= 1 (C61_corr_false), var unchanged by s() (C61_cache_false)."
 ],
 "C62": [
  "partial",
  "Proved for every format: C62_cov_comm, C62_comm, C62_sub_self, C62_neg_neg, C62_sub_neg, C62_units, C62_assign. False in double: quotient of equal numbers is 1 (C62_div_false: UReal(49)/UReal(49)), associativity (C62_assoc_false)."
 ],
 "C63": [
  "proved",
  "C63_converges for whole computations; C63_abs ... C63_hypot show that the functions of math.hpp meet its hypothesis when the <cmath> functions are correctly rounded (all but atan2, whose derivatives have the wrong sign, C14_atan2_false; cbrt for positive means). Formats have no overflow and no NaN."
 ],
 "C64": [
  "partial",
  "C64_forward, C64_forward2: the numerical derivatives tend to the true ones when the precision increases and the step tends to 0 more slowly than the accuracy of the function; C64_default_step: the default step sqrt(epsilon) does so; C64_elementary: the whole result. What fails: the step is absolute, so in double it is lost for means of at least 2^28, and every function then gives uncertainty 0 (C64_large_false). Formats have no overflow and no NaN."
 ],
 "C65": [
  "proved",
  "The cost counted is the number of assignments to coefficients. C65_erase: counting does not change the results; C65_unary, C65_binary, C65_nary, C65_assign: exact counts; C65_quadratic: n(n+1)/2 for x = x + u (the 'about 500000' of the documentation is 500500); C65_accumulate: linear for x += u. The searches in std::map (logarithmic) and allocations are not counted."
 ],
 "C66": [
  "partial",
  "C66_converges: whole computations with the operators and the functions of math.hpp (C66_exp ... C66_atan2), in any sequence of formats with accuracy tending to 0: no undefined behaviour in fine enough formats, and mean, corrected mean, moments, covariances, and (variance not 0) standard deviation, skewness, kurtosis and correlation approach those of the same library with exact real numbers. Needs second derivatives not 0, or 0 without rounding: C66_zero_derivative_false shows that it is false otherwise (sine near pi). C66_var_false: in double the variance of x*x + y*y can be -64. No overflow, NaN, infinities; correctly rounded <cmath>."
 ],
 "C67": [
  "proved",
  "Exact reals. Computations as in C13 (all functions of math.hpp on their domain except atan2). C67_affine: exact for affine functions with any uncertainties. C67_limit, C67_chebyshev, C67_coverage: limit of small uncertainties for all functions; C67_coverage needs normal errors. The results whose limit probability is considered are measurable functions."
 ],
 "C68": [
  "partial",
  "double modelled with 53 digits, ties to even, gradual underflow, infinities and NaN (one zero without sign; see C89 for signed zeros). C68_visible_partial, C68_visible2_partial: ordinary results are those without limit on the range, for all computations with the operators whose divisors do not have infinite means, and correlations whose denominator is not infinite. Without these conditions it is false: C68_divide_false, C68_corr_false. C68_s_partial, C68_s_double_partial: the uncertainty is accurate if the squares of the coefficients do not underflow and their sum does not overflow; C68_overflow_false, C68_underflow_false outside, C68_tiny_false for the quotient of small numbers. C68_shown: non-finite coefficients show in the uncertainty. C68_constructor: exactly which uncertainties are refused. C68_rounding: the rounding of the model is the one of IEEE 754, defined independently (nearest, ties to even). C68_limits, C68_limits_div, C68_finite, C68_div_zero, C68_unary, C68_compare: what the operations do with infinities and NaN, as limits (zero has no sign in the model). The uncertainty in float: C68_s_float_partial."
 ],
 "C69": [
  "partial",
  "format in double (C68's numbers), the part in float included; log10, pow, fmod correctly rounded. C69_digits_partial, C69_error_partial, C69_frac_partial, C69_default_partial: uncertainties from 1e-280 to 1e280, up to 13 digits, means at most 10^(12-digits) times the uncertainty, no mean within a unit of a power of ten unless it is three times the uncertainty; the text reads back as the rounding of numbers within 4e-16 of the given ones. C69_tostring_partial: numbers without uncertainty. C69_throws, C69_special: errdig at most 1, infinities and NaN. False outside: C69_tiny_false and C69_tiny_constant_false (below 1e-310 or 1e-305), C69_wide_false (mean above 1e310 times the uncertainty), C69_assert_false (999999999999999 with uncertainty 20)."
 ],
 "C70": [
  "partial",
  "C70_exact_partial, C70_polynomial: for functions of degree at most 2, mean, standard deviation, moments 2 to 4, skewness, kurtosis, covariances are exactly those of the random variables, if there is one variable or the Hessian iteration works at each node (always with + - * and constants). C70_limit_partial: for any functions and bounded errors of size t, the mean is right to o(t^2), the moment r to o(t^(r+1)), covariances to o(t^3), under the same condition. False in general: C70_false (the variance of pow(x+y,2)), C70_limit_false (its third moment, at order t^4). C70_mean_var_cov: mean o(t^2), variance and covariances o(t^3) hold for all computations, without that condition."
 ],
 "C71": [
  "proved",
  "C71_cumulants: any number of values without common variables. C71_quadratic: any polynomial of degree at most 2 of independent variables, moments and covariances. C71_normal, C71_squares, C71_chisquare: the distributions which reproduce, for the values made by normal() and chisquare(). C71_normal_cov: covariance of quadratic polynomials of normal variables, with the test of a shared square as an example. The expressions are only required to be the right polynomial."
 ],
 "C72": [
  "partial",
  "No laws of the number type are used: the statements hold for double, NaN and infinities included. C72_second: UReal2, in full. C72_first: UReal, with a / b read as a * (1 / b), which is what the code does; C72_first_partial: expressions without /; C72_first_exact: all expressions if the arithmetic is exact; C72_false: 49 / 49 in double. C72_first_const, C72_second_const: arguments without uncertainty."
 ],
 "C73": [
  "partial",
  "C73_written, C73_ub, C73_vector: iterators which can be read more than once, in any arithmetic. C73_same_array: input and output in the same array without overlap; C73_overlap_false: with overlap. C73_stream, C73_stream_false: iterators which read a stream, for which the template parameter is named but the code does not work."
 ],
 "C74": [
  "proved",
  "C74_unary_stored, C74_binary_stored: exactly which elements are stored, in any arithmetic (the elements next to the diagonal include ones which should not be there and leave out ones which should: the values are C23's concern). C74_sparse, C74_linear, C74_size: programs. C74_iterations, C74_pair_iterations: number of steps of the loops."
 ],
 "C75": [
  "partial",
  "C75_calls: all sequences of calls, any number type. C75_tri_defined, C75_hess_defined: the loops over what is stored are defined exactly if each pair is of stored variables (or, for the second, there are no variables). C75_ne_end, C75_ne_false: operator!= is right for the comparison with the end, which is the only one the library makes, but does not tell apart two positions in the same row or column."
 ],
 "C76": [
  "partial",
  "The code violates the property. C76_again_partial: any errdig above 1, under three conditions. C76_integer_partial: integer errdig. C76_default_partial: exact conditions with the default arguments. C76_digits_false, C76_carry_false, C76_sign_false: each condition is needed. Exact arithmetic."
 ],
 "C77": [
  "partial",
  "The code violates the property. C77_text_partial: the output is the only text that writes the two rounded numbers, except that a mean rounded up to a power of ten has its last digit one place above; it excludes the numbers printed wrong (C39). C77_lost: the exact text when the mean loses a digit. C77_exponent: when and which exponent, for all s and errdig > 1. C77_tostring: numbers without uncertainty. C77_false, C77_exponent_false: 9.6 ± 4 prints as (1 ± 0.4)e+1. Exact arithmetic."
 ],
 "C78": [
  "partial",
  "The code violates the property with its default threshold 0. C78_accepts_partial: possible moments are accepted if the threshold is at least ε/(1-ε). C78_sharp: with a smaller one a two-point distribution may be rejected. C78_rejects: what is accepted is impossible at most by (t(1+ε)+ε)N. C78_false, C78_accepts_false: with threshold 0 both directions fail. C78_normal, C78_uniform, C78_chisquare: the distributions of the library pass with threshold 0 if ε is at most 1/7500, 1/340, 10^-9. C78_margin: moments at a distance from the impossible ones are accepted by every solver with a small enough error. C78_tests: so are all rows of test/checkmom.cpp (decimal numbers taken exactly) if ε is at most 10^-13. The solver is assumed backward stable with relative error ε; the arithmetic outside it (moments, threshold times maximum) is exact."
 ],
 "C79": [
  "partial",
  "Proved for floating point of any precision without limits of the exponent, with every rounding error included: in a dimensionally correct calculation with the operators a change of units by powers of two changes means, uncertainties, variances, covariances and central moments exactly as their units and leaves correlations, skewness and kurtosis bit for bit the same, at both orders (C79_formats, C79_values, C79_pairs, C79_values2, C79_pairs2). False with the limits of the types: kurt() computes s2*s2, which overflows or underflows long before the result, so in double it fails for uncertainties from 2^256 or to 2^-269, in float from 2^32 or to 2^-38 (C79_double_false, C79_float_false)."
 ],
 "C80": [
  "proved",
  "For floating point of any precision without limits of the exponent, every calculation with unary -, +, -, *, / and with functions of one or two variables at second order: first order value, n() in both modes, central moments 1 to 4, covariances, s(), skew(), kurt() and corr() (C80_first, C80_moments, C80_mean, C80_cov, C80_sdev, C80_skew, C80_kurt, C80_corr), with explicit numbers of roundings; C80_linear bounds the error of k roundings by ku/(1-ku). The bounds are relative to the sums of the magnitudes of the terms, where the magnitude of 1/b is the one of b over the square of b; C66_var_false shows that no bound relative to the variance itself is possible. A calculation has to be Safe: the bound of the error of the first order value of each divisor is at most the half of it, the computed functions and derivatives have errors of a stated number of roundings of a stated magnitude, and the first order value of each numerator and each second derivative of a function is zero in all the calculations or in none, because the iterators skip entries when a second derivative is zero (C66_zero_derivative_false). The hypothesis on the functions is proved for all functions of the library when the mathematical functions of C++ are correctly rounded (C80_exp, C80_sin, C80_log, C80_pow, C80_atan2, C80_fmod and so on, one theorem for each): explicitly for abs, exp, sin, cos, log, sqrt, atan, hypot, fmax and fmin; for the others given a bound of the change of the mathematical function near the argument (C80_lip gets it from a bound of the derivative), and where the denominators are known to half of their value and the second derivatives are zero or distinguished from zero. C80_calls is the connection with the functions of the library."
 ],
 "C81": [
  "partial",
  "False: a mean that overflows and is then divided by gives an ordinary 0 with uncertainty 0 (C81_divide_false, 2^1000/(2^512*(2^512±1))), and skew() gives 0 where the skewness is 0.09 because s*m2 overflows before the third moment does (C81_skew_false). Proved for every type with a largest number of at least 2 in which 2 and 1/2 are numbers: if no mean by which the calculation divides is infinite, every mean, n() in both modes, central moment, s() and covariance that is an ordinary number is the one without limits on the range (C81_visible_partial), and so are skew, kurt and corr where the product by which they divide is not infinite (C81_ratios_partial). A derivative which is infinite or NaN always makes variance and uncertainty infinite or NaN, and a second derivative with respect to one variable also the mean (C81_shown). One zero without sign; see C89 for signed zeros."
 ],
 "C82": [
  "partial",
  "False for what is computed from variables of different threads after they have finished: at second order already with exact arithmetic the variance of exp(x*y+z) is 5/2 or 3/2 depending on whether z was created after y or between x and y by another thread (C82_joined_false), and at first order in double the variance of a sum of three variables is 2^54 or 2^54+4 (C82_rounding_false). Proved, in any arithmetic in which 0<0 is false and for both classes: after a sequential phase, a thread which makes the same calls receives the same return values and exceptions and all answers about the variables it sees are the same, whatever race-free calls the other threads make, however the calls are interleaved and whatever uninitialised storage contains (C82_threads_partial); so are covariance and correlation of UReal variables of two threads (C82_across_partial). For UReal variables and exact arithmetic the schedule cannot be seen afterwards either: any further calls which use the variables of all threads return the same values and leave the same means, uncertainties, covariances and correlations (C82_after_partial). The same holds for UReal2 variables in exact arithmetic, with the third and fourth moments, gradients and Hessians, if in the calls made after the threads each operand has second derivative 0, as with + - *, or satisfies isindep() (C82_after2_partial). The increment of the counter is assumed atomic, as for C08."
 ],
 "C83": [
  "partial",
  "False for compound assignments and for copy assignments: binary_assign overwrites the coefficients before the nominal value and the cached uncertainty, so that after x *= y has thrown std::bad_alloc the uncertainty of x is 1 while cov(x, x) is 4, and a constant sum to which sum += z was applied is correlated but has uncertainty 0; after a failed copy the mean is the new one without uncertainty (C83_false). The exact state after a failed compound assignment is in C83_assign. Proved: for each call there is the number of allocations it needs (C83_enough); all variables except the one assigned to, and all variables for the other calls, are unchanged (C83_kept_partial); += and -= with an independent variable keep the value (C83_add_partial); programs that go on after such exceptions have no undefined behaviour and keep the class invariants apart from the cache (C83_defined_partial). For UReal2: the calls with enough allocations and the variables kept as at first order (C83_second_enough, C83_second_kept_partial); false for copy assignments, which can leave a variable with the mixed derivatives of the old value and without its first map, whose covariances and third moment are undefined behaviour (C83_second_false); undefined behaviour is possible only after such a copy into a variable with mixed derivatives (C83_second_defined_partial)."
 ],
 "C84": [
  "partial",
  "False: the cached uncertainty of UReal is not moved. After the uncertainty of z = x + y was read, t = std::move(z) leaves z with uncertainty 5, no dependencies and covariance 0 with itself, and z = std::move(z) loses the value (C84_false); what is left is in C84_left. Proved: programs which do not read variables that were moved from, before assigning to them, do the same as with copies, whatever moves leave in the maps (C84_unread), for instance std::swap, also of a variable with itself as in ureals (C84_swap, C84_swap_self); a UReal2 which was moved from is a constant with the same mean (C84_left_second); reading variables that were moved from is never undefined behaviour if the maps are left empty, as in the known standard libraries (C84_defined_partial)."
 ],
 "C85": [
  "proved",
  "For every format: exceptions exactly as in exact arithmetic (C85_throws_iff), otherwise it returns, without undefined behaviour or failed assert, with exact means and coefficients which are the numbers of the decomposition rounded (C85_returns). With relative rounding error u, the covariances are those of the decomposition up to n + 4 roundings and the uncertainties up to n + 6 (C85_cov), so those asked for within the error of the decomposition and n + 4 roundings (C85_near). Nothing better than an error bound holds: in double, with an exact decomposition, one variable of variance 2 gets a larger variance (C85_false). The error of Eigen::LDLT is an argument, not proved; numbers do not overflow or underflow."
 ],
 "C86": [
  "proved",
  "For every format with relative rounding error u <= 1/8, every step > 0, every function implemented with relative error c near the mean: the forward differences of uunary and ubinary (C86_forward, C86_forward2) and of the second derivatives from given first derivatives (C86_fwd, C86_fwd2), the central differences of uunary2 (C86_central) and ubinary2 with the mixed derivative (C86_central2; these two for formats where doubling is exact). In double with the default steps: C86_forward_double (coefficients of the result) and C86_central_double. The bounds are relative to the function and not to its change, and cannot be otherwise: C86_offset_false. Numbers do not overflow or underflow."
 ],
 "C87": [
  "proved",
  "The moment functions are run on numbers that count their own additions and multiplications (Spec/Tally.lean); the theorems state that the values are those of the original run and give the count. Exactly: n for the mean (C87_m1), 3 n^2 + 6 n for the second moment (C87_m2), 2 n n' + 9 c + 3 t for the covariance (C87_cov). Third and fourth moment: explicit lower and upper bounds in the numbers of variables and of stored off-diagonal elements (C87_m3, C87_m4), of the same order n^3 and n^4 (C87_growth). The order does not improve for sparse values: C87_sparse_false. Searches in the maps and steps of the iterators are not counted."
 ],
 "C88": [
  "partial",
  "The examples are proved with arbitrary numbers (C88_cov, C88_indep, C88_readme) or as they stand (C88_print, C88_print_second, C88_io). Two statements of the documentation are false: the formula of the covariance is a sum over all pairs of variables (C88_formula_false; C88_formula is the sum which is computed), and independent variables have zero or full correlation only if their uncertainties are not zero (C88_full_partial, C88_full_false). The examples of the second-order class are instances of C36, C55 and C56."
 ],
 "C89": [
  "partial",
  "False: with x = y = 0 the expression 1/(1/x + 1/y) is 0, and NaN if y is -0 (C89_false). Proved for all computations with the operators in every type with signed zeros, infinities and NaN, if no mean by which they divide is infinite (no matter whether it is zero): means, uncertainties, variances, covariances, and correlations where the product of the uncertainties is not infinite, at second order also n(), the central moments, skewness and kurtosis, are the same ordinary numbers or in both cases not ordinary numbers (C89_first_partial, C89_pairs_partial, C89_second_partial, C89_ratios_partial). If no mean by which they divide is zero the results are those of a type with only one zero, infinities and NaN included, so that C68 and C81 hold for them (C89_exact, C89_exact_second). The signs themselves are those of section 6.3 of IEEE 754 (C89_ieee_signs, C89_division), and x - y is exactly x + -y, (-x) * (-y) exactly x * y and (-x) / (-y) exactly x / y, signs of zero derivatives included, for all values (C89_minus). The functions of math.hpp are not covered: atan2 and the functions of infinite arguments depend on the sign."
 ],
 "C90": [
  "partial",
  "Proved for every rounding: sums do not depend on the order (C90_add_comm), x - y = x + (-y) = -(y - x) (C90_sub), -(-x) = x (C90_neg_neg), x - x is zero without uncertainty, bias, higher moments or correlation (C90_sub_self), x + 0, x - 0, x * 1, x / 1 are x (C90_units), all elements of the result being identical. For formats where halving is exact, products do not depend on the order if no mixed second derivative of a factor belongs to two shared variables (C90_mul_comm_partial), and cov(x, y) = cov(y, x), var(x) = cov(x, x) for values without second derivatives with respect to one variable (C90_cov_partial, C90_var_partial). Otherwise false with double: C90_mul_false, C90_cov_false, C90_var_false."
 ],
 "C91": [
  "proved",
  "Exact counts for every numeric type (C91_unary, C91_binary; C91_erase relates the counted functions to the model). The count for functions with a second derivative is small because pairs which are not stored are not computed (C33, C74). Divisions by 2, comparisons and searches in the maps are not counted."
 ],
 "C92": [
  "proved",
  "Any format with the integers up to N (C92_formats: 2^53 for double, 2^24 for float, not one more; C92_sharp: one beyond is wrong). Operators +, -, * and the assignments in any combination, also the same object on both sides; no divisions. Intermediate results need not be small, only the numbers asked for. The infinities of the format are not considered (with C68 no overflow can be hidden)."
 ],
 "C93": [
  "proved",
  "Any format with the numbers n/2^e, |n| <= N, e <= E (C93_formats: 2^53 and 1074 for double, 2^24 and 149 for float; C93_sharp: the integer N + 1 is wrong). Operators +, -, * in any combination, no divisions. The sizes are computed by the same calculation with the dyadic numbers of Spec/Integers2, each number being exact if its own size is small, whatever the sizes of the other numbers. The exact result is the calculation with real numbers, whose moments are those of the second-order expansion by C22-C28. C93_central: the constructor from central moments with an integer uncertainty."
 ],
 "C94": [
  "partial",
  "False for small uncertainties in double: the uncertainty 2^-540 comes back as 0 (C94_uncertainty_false); made with central moments, a standard deviation of 2^-140 gives a fourth moment which is never a number (C94_fourth_false) and 2^-270 a variance and an uncertainty which are never numbers (C94_tiny_false), whatever the other moments are. Proved without underflow: s() is exactly the given uncertainty in every binary format rounding to nearest even (C94_uncertainty_partial, underflow being only that of its square; C94_double_partial in double, where the square must not overflow either), and the correctly rounded square root of the given variance (C94_central_partial); the other moments in formats without a limit on the exponents, with the number of roundings (C94_stored_partial, C94_moments_partial). The variance does not come back exactly (C94_variance_false). The constructors are those of the model after the check of the moments."
 ],
 "C95": [
  "partial",
  "False in double: the covariance matrix of two multiples of one variable, as the library computes it, can have a negative determinant (C95_false), and ureals with a decomposition without errors then refuses it with std::runtime_error (C95_ureals_false); at second order even the matrix of a single value can be a negative number, -64 for x*x + y*y with x = ±23203 and y = ±1, which ureals with a decomposition without errors refuses (C95_second_false). Proved with rounding of relative error u and at most K variables for each value: the matrices are exactly symmetric, the elements have an error of K roundings relative to the product of the uncertainties, the quadratic form is not less than minus the same error (C95_cov_partial), and the matrix is positive semidefinite after multiplying the diagonal by 1 + n((1+u)^K - 1)/(1-u)^K (C95_jitter_partial); the same for correlations with 2K+4 roundings if no uncertainty is zero (C95_corr_partial); ureals given the matrix back returns the means and the covariances within the errors if the decomposition succeeds (C95_back_partial), and refuses every matrix that is not positive semidefinite if it is exact (C95_refused). At second order with possible moments: the elements are those of the exact formulas within the errors of C80, and the quadratic form is not less than minus these errors (C95_second_partial; no symmetry, see C90). Formats without a limit on the exponents."
 ],
 "C96": [
  "partial",
  "False for float and double because of the range: a variable with uncertainty 2^-200 has correlation 1 with itself in double and NaN after the conversion to float (C96_false), the mean 2^200 becomes infinite (C96_infinite_false), and a variable which is ±2^32 with equal probability has kurtosis 1 in double and none in float, though the conversion changes no stored number (C96_kurt_false). The conversion of a sum is not the sum of the conversions (C96_sum_false). Proved: the conversion to a type which has all the numbers of the first one changes no number and the conversion back gives the identical value, at first order, at second order in both modes (C96_widen, C96_widen2), and from float to double with infinities and NaN (C96_range); with a relative error v of the new type and no limit on the exponents, the error of the covariances (C96_cov_partial), of the uncertainty if computed after the conversion (C96_sdev_partial), of the correlations, 2K+8 roundings with at most K variables and no zero uncertainty (C96_corr_partial); an uncertainty that was asked for before is the conversion of that number (C96_cached); at second order n() in both modes, the central moments, covariances and s() (C96_mean_partial, C96_moments_partial, C96_cov2_partial, C96_sdev2_partial), with one more rounding of each stored number, and skew(), kurt() and corr from the relative errors of the moments in them (C96_skew_partial, C96_kurt_partial, C96_corr2_partial)."
 ],
 "C97": [
  "partial",
  "False at second order for skewed variables: for x*x, with a variable of two values and mean -1, the uncertainty decreases from 5/8 to 1/2 when the one of x increases from 1/2 to 1 (C97_skew, C97_second_false). False with rounding: in double the uncertainty of x*5 - x*4 decreases from 7205759403792800 to 7205759403792796 when the one of x increases from 7205759403792798 to ...799 (C97_double, C97_float_false). Proved: at first order for all functions which pass on numbers depending on the means (C97_first, C58_library), with the condition for equality (C97_same), bounds by the contributions (C97_between), triangle inequalities (C97_triangle); at second order if v4 >= 1 + 9/8 v3^2 for each variable (C97_second_partial), a condition that cannot be weakened (C97_second_sharp); in floating point with any rounding if the derivatives passed on are not negative (C97_float_partial, with compound assignments C97_float_assign_partial, with nary C97_float_nary_partial). A common factor of the uncertainties multiplies the uncertainties of first order results (C97_scale) and its square the correction of the mean at second order (C97_scale_mean)."
 ],
 "C98": [
  "partial",
  "False at second order: the variance of sin(x*y + z) for standard normal errors, x and y with mean 0, z with mean t and created between x and y, is 2 at t = 0 and cos^2 t + sin^2 t / 2, near 1, for all other small t (C98_jump, C98_second_false), because the operator for functions of one variable goes over the Hessian differently when the second derivative passed on is 0. Proved: at first order means, uncertainties, covariances, and correlations of values with an uncertainty are continuous in means and uncertainties wherever the functions are continuously differentiable (C98_first), with a bound for the change of an uncertainty (C98_uncertainty); at second order moments, skewness, kurtosis, covariances, correlations with one variable or where the iteration over the Hessian works nearby (C98_second_partial), for + - * everywhere (C98_polynomial), with any number of variables where each second derivative passed on is not 0, or 0 for all means nearby, whether the Hessian computed is right or not (C98_second_steady; which arguments these are for the operators and functions of math.hpp: C98_operators, C98_functions, C98_functions_more, C98_functions_two, C98_functions_rest, C98_functions_rest_two, C98_user, C98_user_numeric; cbrt only for positive means), and in the uncertainties alone for all functions (C98_second_uncertainty). The correlation of x and x + y has no limit as the uncertainties tend to 0, so the restriction to values with an uncertainty is needed (C98_corr_sum, C98_corr_nolimit)."
 ],
 "C99": [
  "partial",
  "False for computed values outside a range: a variable with mean 1 and uncertainty 2^512 is finite and normal, x + 0 has finite mean and coefficient but isfinite and isnormal are false, because the square overflows (C99_overflow_false); with uncertainty 2^-538 isnormal(x) is true and isnormal(x + 0) false (C99_underflow_false). isnormal is false for all constants (C99_isnormal_zero). Proved: isfinite is exact for elementary variables and never misses an infinite or NaN coefficient (C99_isfinite), isnormal is exactly about mean and uncertainty reported and implies isfinite (C99_isnormal), both are exact where the squares neither overflow nor underflow (C99_isfinite_partial, C99_isnormal_partial, in float C99_float_partial). Asking for the uncertainty before, which stores it, changes neither (C99_cached). Left out: the versions for UReal2, which do not compile, see C14 for the function all they mean to call."
 ],
 "C100": [
  "partial",
  "False in general: with x and y equal to 1 or -1, the square of x + y through uunary2 is reported as 2 with uncertainty 0 but is always 0 or 4 (C100_false), a consequence of C46. Proved for all distributions of the errors with the moments given: at second order for polynomials of degree at most 2, computed with + - * (C100_polynomial) or with one variable or where the iteration over the Hessian works (C100_second_partial), the inequality of Chebyshev, the one of Cantelli for one side, the bound with the kurtosis, and a lower bound; at first order for affine functions (C100_affine). Several results together, all within c_j uncertainties with probability at least 1 - sum 1/c_j^2: C100_joint_affine, C100_joint_polynomial. The bounds 1/c^2 and 1/(1+c^2) are attained by some distribution for each c (C100_sharp). First order in the limit of small uncertainties: C67_chebyshev, C67_coverage. Exact arithmetic, mode mean."
 ]
}