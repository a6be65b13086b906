{"id": "C01", "title": "First-order propagation is linear", "statement": "For variables x, y of type UReal and any numbers mu, dx, dy, the result z of binary(x, y, mu, dx, dy) has mean mu, and its covariance with every variable w is dx*cov(x,w) + dy*cov(y,w); unary(x, mu, dx) has mean mu and covariance dx*cov(x,w) with every w.", "quantifier": "all valid UReal values x, y, w (independent, dependent, constant; any number of shared or unshared dependencies; cached or uncached uncertainty), all mu, dx, dy", "why_tests_cant": "the merge of two dependency maps has unboundedly many shapes (disjoint, overlapping, interleaved, one empty, one side independent); tests try a few.", "anchors": ["uncertainties/ureal.hpp: UReal::unary, UReal::binary, UReal::cov"]}
{"id": "C02", "title": "Covariance is a symmetric, bilinear, positive semidefinite form with cov(x,x)=var(x)=s(x)^2", "statement": "cov(x,y)=cov(y,x); cov(x,x)=var(x); s(x)>=0 and s(x)^2=var(x); every quadratic form sum a_i a_j cov(x_i,x_j) is >=0.", "quantifier": "all valid UReal values, every finite family of them, all coefficients (exact arithmetic)", "why_tests_cant": "positivity and symmetry are statements about all families of variables.", "anchors": ["uncertainties/ureal.hpp: UReal::cov, UReal::var, UReal::s"]}
{"id": "C03", "title": "Correlation is bounded by one", "statement": "corr(x,y) lies in [-1,1] whenever neither uncertainty is zero; two variables each depending on one elementary variable have correlation exactly 0, +1 or -1 according to whether the elementary variable is shared and the sign.", "quantifier": "all valid UReal values with non-zero uncertainty (exact arithmetic)", "why_tests_cant": "inequality over all inputs (Cauchy-Schwarz).", "anchors": ["uncertainties/ureal.hpp: UReal::corr, UReal::cov, UReal::s"]}
{"id": "C04", "title": "Algebraic identities hold up to observation", "statement": "The arithmetic operators on UReal obey the commutative ring/field laws observationally: both sides of each law (commutativity, associativity, distributivity, x-x=0, (x/y)*y=x when y.n() is not 0, ...) have equal mean, equal uncertainty and equal covariance with every variable.", "quantifier": "all valid UReal operands and all observers w", "why_tests_cant": "laws quantify over all correlated triples; a test checks particular numbers.", "anchors": ["uncertainties/ureal.hpp: operator+, operator-, operator*, operator/, unary operator-"]}
{"id": "C05", "title": "In-place operators agree with the out-of-place ones, including self-assignment", "statement": "After x op= y the variable x has the same mean, uncertainty and covariance with every variable as x op y computed before; this also holds when y is the same object as x.", "quantifier": "all valid x, y including y aliased to x, with or without a cached uncertainty, all derivative values passed to binary_assign", "why_tests_cant": "the code has a dedicated aliasing branch whose correctness depends on cached state reachable only through particular histories.", "anchors": ["uncertainties/ureal.hpp: UReal::binary_assign, operator+=, operator-=, operator*=, operator/="]}
{"id": "C06", "title": "n-ary propagation equals the sum of the single contributions", "statement": "nary over a sequence of variables x_k with derivatives d_k gives covariance sum_k d_k cov(x_k,w) with every w and the given mean; the order of the sequence does not matter; it agrees with chained binary.", "quantifier": "all finite sequences of valid variables (repeated variables allowed) and derivatives", "why_tests_cant": "unbounded sequence length and repetition.", "anchors": ["uncertainties/ureal.hpp: UReal::nary"]}
{"id": "C07", "title": "Caching the uncertainty is unobservable", "statement": "Calling the non-const s(), sdev() or var() (which cache) at any points of any program never changes any value observed later.", "quantifier": "all programs (operation histories) with caching reads inserted anywhere", "why_tests_cant": "history property: the cache must be invalidated by every later mutation.", "anchors": ["uncertainties/ureal.hpp: UReal::s, UReal::var, UReal::binary_assign, UReal::change_nom"]}
{"id": "C08", "title": "Elementary variables have distinct identities under concurrent creation", "statement": "Whatever the interleaving of threads constructing variables, as long as fewer than 2^31 constructions happen, every construction gets a distinct positive id, so separately constructed variables are never correlated. Beyond that the counter wraps and the property fails.", "quantifier": "all schedules of any number of threads, all construction counts", "why_tests_cant": "schedules and 2^31 constructions cannot be enumerated by tests.", "anchors": ["uncertainties/impl.hpp: internal::last_id", "uncertainties/ureal.hpp: UReal::UReal(n, s)", "uncertainties/ureal2.hpp: UReal2::UReal2"]}
{"id": "C09", "title": "A new variable is independent of everything that exists", "statement": "Immediately after UReal(n, s) is constructed, its covariance with every variable that existed before is 0, its mean is n, its uncertainty is s.", "quantifier": "all reachable program states with fewer than 2^31 - 1 constructions so far, all n, s >= 0", "why_tests_cant": "quantifies over all previous histories.", "anchors": ["uncertainties/ureal.hpp: UReal::UReal(n, s), UReal::cov"]}
{"id": "C10", "title": "Construction fails exactly for negative uncertainty", "statement": "UReal(n, s) throws invalid_argument iff s < 0, UReal2(n, s, mom) iff s < 0 or the moments fail the check; a failed construction leaves every existing variable unchanged, a successful one stores n and s.", "quantifier": "all n, s", "why_tests_cant": "for-all statement; interplay with global id counter.", "anchors": ["uncertainties/ureal.hpp: UReal::UReal(n, s)", "uncertainties/ureal2.hpp: UReal2::UReal2(n, s, std_moments)"]}
{"id": "C11", "title": "isindep and indepid report the dependency set", "statement": "isindep() is true iff the value was computed from at most one elementary variable; indepid() is that variable's id, 0 for constants, -1 otherwise; two values for which indepid() is positive and equal have correlation +1, -1 or undefined, and if different covariance 0.", "quantifier": "all programs built from construction, unary, binary, n-ary and in-place operations, for any numeric type (no arithmetic laws used)", "why_tests_cant": "history property over all expression graphs.", "anchors": ["uncertainties/ureal.hpp: UReal::isindep, UReal::indepid"]}
{"id": "C12", "title": "grad(x) is the derivative with respect to an independent variable", "statement": "For y computed from independent x (with non-zero uncertainty), y.grad(x) is the accumulated derivative dy/dx; in particular x.grad(x) = 1.", "quantifier": "all y, all independent x", "why_tests_cant": "holds for all dependency shapes, including the shape y itself independent.", "anchors": ["uncertainties/ureal.hpp: UReal::grad"]}
{"id": "C13", "title": "First-order uncertainty equals the analytic linear propagation formula", "statement": "For every expression built from elementary variables with functions whose passed derivatives are the true partial derivatives, the variance is sum_i (df/dx_i)^2 s_i^2 and the covariance of two expressions is sum_i (df/dx_i)(dg/dx_i) s_i^2, with derivatives taken of the whole expression at the means.", "quantifier": "all expression trees (with sharing), all differentiable node functions", "why_tests_cant": "unbounded expression structure; correctness of forward-mode differentiation.", "anchors": ["uncertainties/ureal.hpp: UReal::unary, UReal::binary, UReal::cov, UReal::var", "uncertainties/math.hpp"]}
{"id": "C14", "title": "Each UReal math function propagates the true derivative", "statement": "For every function f in math.hpp taking UReal, the propagated coefficient is the partial derivative of the real function at the means wherever f is differentiable.", "quantifier": "all arguments in the domain of differentiability (reals)", "why_tests_cant": "tests check one point each and only compare uncertainties, not signs of correlations.", "anchors": ["uncertainties/math.hpp: abs, fmod, remainder, fmax, fmin, exp, exp2, expm1, log, log10, log2, log1p, pow, sqrt, cbrt, hypot, sin, cos, tan, asin, acos, atan, atan2, sinh, cosh, tanh, asinh, acosh, atanh, erf, erfc"]}
{"id": "C15", "title": "No undefined behaviour in dependency merging", "statement": "The operations on UReal never dereference an end iterator nor violate an assert of the class, provided every id is smaller than the largest int; at the largest id the merge of two dependent variables is undefined behaviour.", "quantifier": "all pairs of valid variables and ids", "why_tests_cant": "the failing id is reached only after 2^31-1 constructions.", "anchors": ["uncertainties/ureal.hpp: UReal::binary, UReal::isindep, UReal::indepid"]}
{"id": "C16", "title": "change_nom and numeric conversion only touch what they say", "statement": "change_nom(x, n) changes the mean and nothing else observable; converting to another numeric type converts mean, uncertainty and every covariance by the conversion and keeps correlations with converted variables.", "quantifier": "all valid values and all (exact) conversions", "why_tests_cant": "for-all statement over dependency maps.", "anchors": ["uncertainties/ureal.hpp: UReal::change_nom, UReal::operator UReal<OtherReal>", "uncertainties/ureal2.hpp: UReal2::operator UReal2<OtherReal, otherprop>"]}
{"id": "C17", "title": "Covariance and correlation matrices", "statement": "cov_matrix(x) has n*n entries, entry [n*i+j] is cov(x_i,x_j), it is symmetric with the variances on the diagonal and positive semidefinite; corr_matrix has unit diagonal where uncertainties are non-zero.", "quantifier": "all finite vectors of valid variables", "why_tests_cant": "any length, any correlation structure; row-major indexing.", "anchors": ["uncertainties/stat.hpp: outer, cov_matrix, corr_matrix"]}
{"id": "C18", "title": "corr2cov inverts the correlation matrix and checks sizes", "statement": "corr2cov(s, corr) throws iff corr.size() differs from n*n, otherwise returns corr[n*i+j]*s_i*s_j; corr2cov(s of x, corr_matrix(x)) = cov_matrix(x) when no uncertainty is zero.", "quantifier": "all vectors, including sizes for which n*n overflows the size type", "why_tests_cant": "size overflow is unreachable in tests; equality quantifies over all vectors.", "anchors": ["uncertainties/stat.hpp: corr2cov, corr_matrix, cov_matrix"]}
{"id": "C19", "title": "ureals produces variables with the requested means and covariance matrix", "statement": "When ureals(mu, cov) returns, the result has means mu and cov_matrix(result) equals the symmetric completion of the triangle it reads; it throws invalid_argument iff the sizes do not match and runtime_error iff the decomposition fails or is not positive; n = 0 is accepted. A matrix which is not positive semidefinite is never accepted. If the decomposition is off by epsilon, the covariances are off by at most epsilon.", "quantifier": "all sizes, all positive semidefinite matrices, every LDLT result meeting the documented contract of the decomposition, including any pivoting permutation", "why_tests_cant": "pivot sequences and matrices are unbounded.", "anchors": ["uncertainties/ureals.hpp: ureals"]}
{"id": "C20", "title": "Numerical differentiation helpers are exact where they should be and converge", "statement": "uunary propagates the exact derivative for affine f for any step, uunary2 the exact first and second derivatives for quadratic f, ubinary2 the exact partial and mixed derivatives for quadratic f(x,y); for differentiable f the computed derivative tends to the true one as the step tends to 0.", "quantifier": "all such functions, all points, all non-zero steps", "why_tests_cant": "for-all over functions.", "anchors": ["uncertainties/functions.hpp: uunary, ubinary, uunary2, ubinary2"]}
{"id": "C21", "title": "Second-order representation invariant and iterator safety", "statement": "In every value of type UReal2 that can be built, each stored mixed second-derivative entry refers to two distinct stored variables in increasing order, iterating never dereferences an end iterator nor fails an assert, and results never depend on uninitialised moments.", "quantifier": "all values built with the API, all iteration modes", "why_tests_cant": "history property; depends on the sparsity pattern.", "anchors": ["uncertainties/internal/hessgrad.hpp: ConstTriIt, ConstHessIt, HessGrad", "uncertainties/ureal2.hpp: unary, binary"]}
{"id": "C22", "title": "Second-order gradient propagation", "statement": "For UReal2, the first-order part of unary/binary follows the chain rule: gradient = dfdx*grad(x) + dfdy*grad(y) for every variable; moments and ids of the elementary variables are carried over.", "quantifier": "all valid UReal2 values and derivative values, both iteration modes", "why_tests_cant": "arbitrary sparsity patterns.", "anchors": ["uncertainties/ureal2.hpp: unary, binary"]}
{"id": "C23", "title": "Second-order Hessian propagation", "statement": "For UReal2, the second-order part of unary/binary follows the second-order chain rule: H = f_xx/2 gx gx^T + f_yy/2 gy gy^T + f_xy/2 (gx gy^T + gy gx^T) + f_x Hx + f_y Hy for every pair of variables.", "quantifier": "all valid UReal2 values with any number of variables and any sparsity pattern, all derivative values", "why_tests_cant": "needs several variables and particular sparsity patterns to exercise every path of the iterator.", "anchors": ["uncertainties/ureal2.hpp: unary, binary", "uncertainties/internal/hessgrad.hpp: ConstHessIt::operator++"]}
{"id": "C24", "title": "m(1), n() and the propagation mode", "statement": "m(1) is the expectation of the quadratic expansion, n() is first_order_n()+m(1) in mean mode and first_order_n()-m(1) in estimate mode.", "quantifier": "all valid values", "why_tests_cant": "for-all.", "anchors": ["uncertainties/ureal2.hpp: n, m, first_order_n, internal::propsign", "uncertainties/internal/moments.hpp: compute_m1"]}
{"id": "C25", "title": "Variance is the exact second central moment of the quadratic expansion", "statement": "m(2)=var(x) equals E[(Q-E Q)^2], Q = sum G_i X_i + sum H_ij X_i X_j, for independent standardized X_i with the stored moments.", "quantifier": "any number of variables, any G, H, any stored third and fourth moments", "why_tests_cant": "unbounded number of variables; combinatorial formula.", "anchors": ["uncertainties/internal/moments.hpp: compute_m2, compute_mom", "uncertainties/ureal2.hpp: m, var", "uncertainties/ureal2.hpp: internal::update_mom"]}
{"id": "C26", "title": "Third moment is exact", "statement": "m(3) equals E[(Q-E Q)^3].", "quantifier": "any number of variables, any coefficients and stored moments", "why_tests_cant": "combinatorial formula with many index patterns.", "anchors": ["uncertainties/internal/moments.hpp: compute_m3", "uncertainties/ureal2.hpp: m, internal::update_mom"]}
{"id": "C27", "title": "Fourth moment is exact", "statement": "m(4) equals E[(Q-E Q)^4].", "quantifier": "any number of variables, any coefficients and stored moments", "why_tests_cant": "about fifty index patterns over up to four variables at a time.", "anchors": ["uncertainties/internal/moments.hpp: compute_m4", "uncertainties/ureal2.hpp: m, internal::update_mom"]}
{"id": "C28", "title": "Second-order covariance is exact and symmetric", "statement": "cov(x,y) equals E[Qx Qy]-E[Qx]E[Qy]; cov(x,y)=cov(y,x); cov(x,x)=var(x); variables without common elementary variables have covariance 0.", "quantifier": "all pairs of valid values that agree on the moments of shared variables", "why_tests_cant": "unbounded structure.", "anchors": ["uncertainties/ureal2.hpp: cov, corr, var", "uncertainties/internal/moments.hpp: compute_c2"]}
{"id": "C29", "title": "Second-order variance is non-negative and correlation bounded", "statement": "If the moments of every elementary variable passed the constructor check (exact arithmetic, threshold 0) then var(x) >= 0, so s() is the square root of a non-negative number, and |corr| <= 1.", "quantifier": "all values built from checked elementary variables", "why_tests_cant": "inequality over all coefficients.", "anchors": ["uncertainties/ureal2.hpp: s, var, corr", "uncertainties/internal/checkmoments.hpp"]}
{"id": "C30", "title": "UReal2 constructors store what was asked", "statement": "UReal2(n, {m2..m8}) gives a variable with mean n, variance m2, m(3)=m3, m(4)=m4, skew and kurtosis the standardized ones; UReal2(n, s, {k3..k8}) gives s()=s, skew()=k3, kurt()=k4.", "quantifier": "all moments accepted by the check", "why_tests_cant": "for-all.", "anchors": ["uncertainties/ureal2.hpp: UReal2::UReal2", "uncertainties/ureal2.hpp: skew, kurt, s, m"]}
{"id": "C31", "title": "The moment check accepts exactly the positive semidefinite Hankel sequences", "statement": "With threshold 0 check_moments_throw does not throw iff the 5x5 Hankel matrix of the moments is positive semidefinite; the moments of any probability distribution with finite eighth moment are accepted; the division by the largest eigenvalue is never by zero.", "quantifier": "all moment arrays, all distributions", "why_tests_cant": "for-all over distributions.", "anchors": ["uncertainties/internal/checkmoments.hpp: hamburger, check_moments, check_moments_throw"]}
{"id": "C32", "title": "distr:: distributions carry the true moments", "statement": "normal, uniform and chisquare return variables whose mean, uncertainty and standardized moments 3..8 are those of the distribution; invalid parameters throw; chisquare(0) is the constant 0.", "quantifier": "all parameters", "why_tests_cant": "moments of a parametric family.", "anchors": ["uncertainties/distr.hpp: normal, uniform, chisquare"]}
{"id": "C33", "title": "UReal2::grad and hess are derivatives", "statement": "grad(x) is d this/dx and hess(x,y) is d^2 this/dx dy with respect to values x, y each depending on one elementary variable, also when x is a non-linear function of it.", "quantifier": "all values and all pairs x, y depending on one variable each, with non-zero derivative", "why_tests_cant": "for-all.", "anchors": ["uncertainties/ureal2.hpp: grad, hess"]}
{"id": "C34", "title": "Second-order in-place binary agrees with the out-of-place one", "statement": "binary_assign(x, y, ...) leaves x equal to binary(x, y, ...).", "quantifier": "all values", "why_tests_cant": "in-place update while iterating the same container.", "anchors": ["uncertainties/ureal2.hpp: binary_assign"]}
{"id": "C35", "title": "Each UReal2 math function propagates true first and second derivatives", "statement": "For every function in math.hpp taking UReal2 the passed first and second partial derivatives are the true ones at the first order mean.", "quantifier": "all arguments in the domain of twice differentiability", "why_tests_cant": "one point per function in tests.", "anchors": ["uncertainties/math.hpp"]}
{"id": "C36", "title": "Second-order Taylor expansion of expressions", "statement": "For expressions in UReal2 built with correct node derivatives, F(mu + S z) = first_order_n + G.z + z^T H z + o(|z|^2).", "quantifier": "all expression trees", "why_tests_cant": "unbounded structure; fails where C23 fails.", "anchors": ["uncertainties/ureal2.hpp: unary, binary", "uncertainties/math.hpp"]}
{"id": "C37", "title": "First-order and second-order types agree to first order", "statement": "The same expression computed with UReal and UReal2 has first_order_n equal to the UReal mean and gradient equal to the UReal coefficients.", "quantifier": "all expressions", "why_tests_cant": "for-all.", "anchors": ["uncertainties/ureal.hpp", "uncertainties/ureal2.hpp"]}
{"id": "C38", "title": "format rejects exactly errdig <= 1", "statement": "format(x, errdig) throws invalid_argument iff errdig <= 1 (the documentation says errdig < 1).", "quantifier": "all x, errdig", "why_tests_cant": "boundary disagreement between code and documentation.", "anchors": ["uncertainties/io.hpp: format", "uncertainties/core.hpp: format"]}
{"id": "C39", "title": "Printed uncertainty and mean are correctly rounded", "statement": "When the uncertainty is finite and non-zero, the printed mean and uncertainty, read as decimal numbers, are the mean and uncertainty rounded (half away from zero) to the same decimal place, determined by the uncertainty.", "quantifier": "all means, uncertainties, errdig > 1 (exact arithmetic)", "why_tests_cant": "all magnitudes, carries such as 9.96 -> 10.", "anchors": ["uncertainties/io.hpp: format, ndigits, mantissa, exponent, int_mantissa", "uncertainties/impl.hpp: insert_dot"]}
{"id": "C40", "title": "Mean and uncertainty are printed with aligned least significant digits", "statement": "The printed mean has the same number of decimals as the printed uncertainty.", "quantifier": "all means, uncertainties, errdig > 1", "why_tests_cant": "carry cases.", "anchors": ["uncertainties/io.hpp: format, mantissa", "uncertainties/impl.hpp: insert_dot"]}
{"id": "C41", "title": "The sign of the mean is printed", "statement": "If the mean is negative the printed mean starts with a minus sign, otherwise not.", "quantifier": "all means and uncertainties, including zero and non-finite uncertainty", "why_tests_cant": "branch combinations.", "anchors": ["uncertainties/io.hpp: format, tostring"]}
{"id": "C42", "title": "The number of significant digits of the uncertainty follows errdig", "statement": "With errdig = n + p, 0<=p<1, the uncertainty has n or n+1 significant digits, n+1 iff its (rounded) leading digits are below 10^p.", "quantifier": "all uncertainties and errdig", "why_tests_cant": "carry and threshold cases.", "anchors": ["uncertainties/io.hpp: ndigits, naive_ndigits, format"]}
{"id": "C43", "title": "The exponent is printed with the right sign and never as zero", "statement": "When scientific notation is used, the printed exponent e is non-zero, has its sign printed, and mantissa*10^e is the value.", "quantifier": "all inputs", "why_tests_cant": "the sign rule of format_exp is wrong at 0, reachable only if exponent 0 can be selected.", "anchors": ["uncertainties/io.hpp: format, tostring", "uncertainties/impl.hpp: format_exp"]}
{"id": "C44", "title": "Moment translation and binomial tables are exact", "statement": "Central moments computed from zero-centered moments equal sum_k binom(n,k) m_k (-mu)^(n-k) for n=2..8; standardization divides by sigma^n.", "quantifier": "all moment arrays", "why_tests_cant": "for-all.", "anchors": ["uncertainties/distr.hpp: internal::central_moments, internal::std_moments, internal::binom_coeff", "uncertainties/impl.hpp: compute_binom_coeffs"]}
{"id": "C45", "title": "Triangular iteration with missing elements visits every pair once", "statement": "Iterating over the off-diagonal part of the second-order coefficients with missing elements included visits every pair of distinct variables exactly once in order, with the stored value or zero; without missing elements it visits exactly the stored entries.", "quantifier": "all sparsity patterns", "why_tests_cant": "arbitrary sparsity patterns.", "anchors": ["uncertainties/internal/hessgrad.hpp: ConstTriIt"]}
{"id": "C46", "title": "Hessian iteration with missing elements visits every pair once", "statement": "Iterating over the second-order coefficients with missing elements included visits every pair (i<=j) exactly once with the stored value or zero; without missing elements it visits the diagonal and the stored entries.", "quantifier": "all sparsity patterns", "why_tests_cant": "arbitrary sparsity patterns.", "anchors": ["uncertainties/internal/hessgrad.hpp: ConstHessIt"]}
{"id": "C47", "title": "Degenerate variables behave as constants", "statement": "Values with zero uncertainty (constants, zero-uncertainty variables) have covariance 0 with everything, do not change the uncertainty of sums, and scale linearly in products.", "quantifier": "all such values and all other operands", "why_tests_cant": "several representations of a constant (id 0, id > 0 with sdev 0, empty dependency map).", "anchors": ["uncertainties/ureal.hpp: UReal::UReal(n), UReal::cov, UReal::binary"]}
{"id": "C48", "title": "First-order results depend only on the function computed", "statement": "Two computations on UReal values which give the same real function near the means of the elementary variables (sin^2+cos^2 and 1, exp(log x) and x, ...) give results with the same mean, uncertainty and covariance with every value; conversely, equal results mean equal value and equal derivatives with respect to every variable with non-zero uncertainty.", "quantifier": "all pairs of computations made with the operators and with functions which propagate their derivatives (C14: all functions of math.hpp at regular arguments but atan2, and cbrt for negative means), all elementary variables", "why_tests_cant": "infinitely many identities, all inputs.", "anchors": ["uncertainties/ureal.hpp: UReal::unary, UReal::binary, UReal::cov", "uncertainties/math.hpp: all functions"]}
{"id": "C49", "title": "Second-order results depend only on the function computed", "statement": "The same for UReal2: same means, moments, covariances, first and second derivatives.", "quantifier": "all pairs of computations, all elementary variables", "why_tests_cant": "infinitely many identities; fails when the iteration over the Hessian skips mixed terms.", "anchors": ["uncertainties/ureal2.hpp: UReal2::unary, UReal2::binary", "uncertainties/internal/hessgrad.hpp: ConstHessIt", "uncertainties/math.hpp: all functions"]}
{"id": "C50", "title": "Second-order algebraic identities hold up to observation", "statement": "Two expressions written with +, -, * and constants which are the same polynomial give, on any UReal2 operands, results which can not be told apart: same mean, moments, uncertainty, skewness, kurtosis, covariances and correlations with other values, first and second derivatives.", "quantifier": "all pairs of expressions, all valid operands", "why_tests_cant": "infinitely many identities, operands with arbitrary sets of variables.", "anchors": ["uncertainties/ureal2.hpp: UReal2::binary, UReal2::unary, operators +, -, *, UReal2::m, cov", "uncertainties/internal/hessgrad.hpp: HessGrad"]}
{"id": "C51", "title": "Second-order values shift and scale as random variables", "statement": "For z = a x + b, however it is written: m(1) scales by a, the central moments by a^k, n() becomes a n + b in both propagation modes, s scales by |a|, skew by the sign of a, kurt is unchanged, covariances scale by a.", "quantifier": "all valid operands, all a and b, all ways of writing the expression", "why_tests_cant": "for-all.", "anchors": ["uncertainties/ureal2.hpp: UReal2::m, UReal2::n, UReal2::s, UReal2::skew, UReal2::kurt, cov, operators"]}
{"id": "C52", "title": "Moments of sums of independent second-order values", "statement": "If x and y have no common variables, the mean correction and the central moments 2 and 3 of x + y are the sums of those of x and y, and m4(x+y) = m4(x) + m4(y) + 6 m2(x) m2(y).", "quantifier": "all valid operands without common variables, all ways of writing the sum", "why_tests_cant": "for-all; the moment code is a sum over many index patterns.", "anchors": ["uncertainties/ureal2.hpp: UReal2::m", "uncertainties/internal/moments.hpp: compute_m2, compute_m3, compute_m4"]}
{"id": "C53", "title": "Second-order covariance is bilinear and covariance matrices are positive semidefinite", "statement": "cov(a x + b y + c, w) = a cov(x, w) + b cov(y, w), also in the other argument; var(a x + b y + c) is the quadratic form; cov_matrix of UReal2 values is symmetric, has the variances on the diagonal and is positive semidefinite; corr_matrix is symmetric with ones on the diagonal and entries in [-1, 1]; nom_vector has the values of n().", "quantifier": "all valid values whose moments satisfy the check of the constructors", "why_tests_cant": "every finite family of values.", "anchors": ["uncertainties/ureal2.hpp: cov, corr, var", "uncertainties/stat.hpp: cov_matrix, corr_matrix, nom_vector", "uncertainties/internal/moments.hpp: compute_c2"]}
{"id": "C54", "title": "Third and fourth moments of second-order results are possible", "statement": "In a program which constructs its UReal2 variables with the check of the moments on, every value satisfies m3^2 + m2^3 <= m2 m4, so kurt() >= 1 + skew()^2 where s() is not 0.", "quantifier": "all programs, all values", "why_tests_cant": "for-all; depends on all the stored moments up to the eighth and on the check.", "anchors": ["uncertainties/ureal2.hpp: UReal2::m, UReal2::skew, UReal2::kurt", "uncertainties/internal/moments.hpp: compute_m2, compute_m3, compute_m4", "uncertainties/internal/checkmoments.hpp: check_moments"]}
{"id": "C55", "title": "Prop::mean gives the mean and Prop::est an unbiased estimate", "statement": "If the function computed is a polynomial of degree at most 2 in the elementary variables, n() with Prop::mean is the mean of the function of the random variables, and the mean of n() with Prop::est over the distribution of the measured values is the function of the true values.", "quantifier": "all computations whose function is a polynomial of degree at most 2, all means and standard deviations, all uncorrelated errors", "why_tests_cant": "for-all over computations and distributions.", "anchors": ["uncertainties/ureal2.hpp: UReal2::n, propsign, documentation lines 220-330"]}
{"id": "C58", "title": "Results do not depend on the order of creation of the variables", "statement": "The same computation on the same variables, created in another order or with other variables created in between (other identifiers), gives the same means, uncertainties, covariances, correlations, moments and derivatives, for UReal and UReal2.", "quantifier": "all computations, all assignments of distinct identifiers", "why_tests_cant": "every order of the identifiers; the maps are ordered by identifier and the loops merge them.", "anchors": ["uncertainties/ureal.hpp: UReal::UReal, UReal::binary, cov", "uncertainties/ureal2.hpp: UReal2::unary, UReal2::binary", "uncertainties/internal/hessgrad.hpp: ConstHessIt", "uncertainties/impl.hpp: last_id"]}
{"id": "C56", "title": "isindep and indepid of UReal2 report the elementary variables a value was computed from", "statement": "In any program, UReal2::isindep() is true iff at most one construction of an elementary variable went into the value, so a computation which involves only one variable gives an independent variable; indepid() is 0 if none, the identifier of that variable if one, invalid_id if more.", "quantifier": "all programs with both classes, all outcomes of the constructors", "why_tests_cant": "for-all over programs.", "anchors": ["uncertainties/ureal2.hpp: UReal2::isindep, UReal2::indepid, documentation lines 398-438", "uncertainties/internal/hessgrad.hpp: HessGrad::size"]}
{"id": "C59", "title": "A UReal and a UReal2 never share an identifier", "statement": "In any program with both classes, no elementary variable is common to a UReal value and a UReal2 value, so independent variables of the two classes have different identifiers.", "quantifier": "all programs with both classes", "why_tests_cant": "for-all over programs; depends on the counter and on when the constructors increment it.", "anchors": ["uncertainties/ureal2.hpp: UReal2::UReal2, documentation line 425", "uncertainties/ureal.hpp: UReal::UReal", "uncertainties/impl.hpp: last_id"]}
{"id": "C60", "title": "Conversion of UReal2 keeps everything it should", "statement": "Converting a UReal2 to another propagation mode keeps all the stored data; converting to another numeric type keeps the variables (isindep, indepid), converts moments, mean, covariances, derivatives by the conversion, and commutes with all later operations.", "quantifier": "all valid values, all exact conversions of numbers", "why_tests_cant": "for-all over sparse maps and over operations done after the conversion.", "anchors": ["uncertainties/ureal2.hpp: UReal2::operator UReal2<OtherReal, prop>, UReal2(const UReal2<AnyReal, any_prop> &)", "uncertainties/internal/hessgrad.hpp: HessGrad::operator HessGrad<OtherReal>"]}
{"id": "C57", "title": "In whole computations with either class, variables with zero uncertainty can be replaced by plain numbers", "statement": "Replacing the variables with zero uncertainty by plain numbers in a computation changes no mean, uncertainty, moment, covariance or derivative of the results.", "quantifier": "all computations, all values and uncertainties of the inputs, any subset of the inputs without uncertainty", "why_tests_cant": "for-all over computations; the failure needs a variable without uncertainty created between two others.", "anchors": ["uncertainties/ureal.hpp: binary, binary_assign", "uncertainties/ureal2.hpp: unary, binary", "uncertainties/internal/hessgrad.hpp: HessGrad::ConstHessIt::operator++"]}
{"id": "C61", "title": "Rounding errors of uncertainties, variances, covariances and correlations", "statement": "With the floating point arithmetic of double (each operation rounded with relative error u): the variance, the uncertainty and the number under the square root are never negative; var has relative error at most n roundings for n variables, s*s n+2, cov c roundings relative to the sum of absolute values for c common variables and exactly 0 for none; the correlation stays in [-1, 1]; var does not change when s() is called.", "quantifier": "all values of the class, all formats with monotone odd rounding of relative error u < 1", "why_tests_cant": "rounding errors depend on every bit of every coefficient; tests compare with a tolerance on a few values.", "anchors": ["uncertainties/ureal.hpp: UReal::s2, UReal::s, var, cov, corr, unary, binary, using udouble = UReal<double>"]}
{"id": "C62", "title": "Identities which are exact in floating point", "statement": "In floating point, exactly: cov and corr symmetric, x+y = y+x, x*y = y*x, x-x is 0 with zero uncertainty and zero covariance with everything, -(-x) = x, x-y = -(y-x), x+0 = x*1 = x/1 = x, the compound assignments give the object of the operators, x/x = 1 for numbers, (x+y)-y = x+(y-y).", "quantifier": "all values of the class, all formats", "why_tests_cant": "equalities of all bits of means and coefficients for all inputs.", "anchors": ["uncertainties/ureal.hpp: operator+, operator-, operator*, operator/, binary, binary_assign, cov, corr"]}
{"id": "C63", "title": "Floating point results approach exact linear propagation as the precision increases", "statement": "A straight-line computation from elementary variables with the operators and the functions of math.hpp, run in finer and finer floating point formats, never hits an assertion, and means, variances, uncertainties, covariances and correlations of all results tend to those of exact linear propagation of the real function computed.", "quantifier": "all computations with operators (non-zero divisors) and functions of math.hpp differentiable at the means, except atan2 and cbrt of negative means, all numbers of variables, all means and uncertainties, all sequences of formats with relative rounding error tending to 0", "why_tests_cant": "a limit over formats for all computations; tests run in one format and compare with a tolerance.", "anchors": ["uncertainties/ureal.hpp: unary, binary, operators, UReal::s, var, cov, corr", "uncertainties/math.hpp: all functions"]}
{"id": "C64", "title": "Numerical derivatives with the default step are accurate in floating point", "statement": "The forward differences of uunary(f, step) and ubinary(f, step), computed in floating point with the default step sqrt(epsilon), approximate the true derivatives: means, uncertainties and covariances of the results tend to those of exact propagation as the precision increases, and at a given precision the result keeps the uncertainty of the argument.", "quantifier": "all functions differentiable at the mean, all implementations with relative error of the order of the format, all means and uncertainties, all sequences of formats", "why_tests_cant": "for a fixed format the loss depends on the size of the mean; tests use means near 1. Numeric limits cannot be observed by running in one format.", "anchors": ["uncertainties/functions.hpp: uunary(f, step), ubinary(f, step), default_step"]}
{"id": "C65", "title": "The number of operations is linear in the number of variables", "statement": "unary, binary and nary assign a number of coefficients linear in the numbers of elementary variables of the arguments; += assigns a number of coefficients which does not depend on the number of variables of the left operand; so summing n elementary variables with x = x + u is quadratic, n(n+1)/2 assignments, and with x += u is linear, n assignments.", "quantifier": "all well-formed values, all derivatives, all numbers of summands", "why_tests_cant": "timings depend on the machine and on the allocator; a test can only compare some sizes and cannot separate the algorithm from noise.", "anchors": ["uncertainties/ureal.hpp: Efficiency (documentation)", "uncertainties/ureal.hpp: unary, binary, nary, binary_assign"]}
{"id": "C66", "title": "Second-order results in floating point approach those of exact arithmetic", "statement": "When the precision of the number type increases, a computation with UReal2 done in floating point, from rounded variables, has results whose mean, moments and covariances approach those of the same computation with exact real numbers, and the computed variance is not negative.", "quantifier": "all straight-line computations with the operators and the functions of math.hpp, all variables with any moments, all sequences of formats", "why_tests_cant": "tests run with one precision (double) on a few computations, and compare with a tolerance; they do not tell rounding from a discontinuity such as that of the Hessian iteration where a second derivative is 0.", "anchors": ["uncertainties/ureal2.hpp: unary, binary, m, cov, skew, kurt", "uncertainties/internal/moments.hpp: compute_m1 ... compute_m4, compute_c2", "uncertainties/math.hpp: functions of UReal2"]}
{"id": "C67", "title": "Uncertainties are those of random variables, exactly for affine functions and in the limit of small errors otherwise", "statement": "Let the elementary variables be independent random variables with the given means and standard deviations. An affine function computed with UReal has the mean, variance and covariances of the random variable it stands for. For other functions this holds in the limit of small uncertainties, where the true value lies in n +- c s with the probability of the normal distribution if the errors are normal, and outside with probability at most 1/c^2 in any case.", "quantifier": "all computations whose nodes propagate their derivatives, all independent errors with finite variance (all independent normal errors for the coverage), all c", "why_tests_cant": "a statement on probabilities in a limit; simulations estimate coverages for some functions with statistical error.", "anchors": ["uncertainties/ureal.hpp: unary, binary, n, s, var, cov", "uncertainties/math.hpp: functions of UReal"]}
{"id": "C68", "title": "Overflow, underflow, infinities and NaN", "statement": "In double a result which is a finite number is the one that would be computed without overflow: an overflow in the computation shows as infinity or NaN in all results that depend on it. A coefficient which is infinite or NaN makes the uncertainty infinite or NaN. The uncertainty of a value with representable coefficients is finite and accurate. The constructor refuses exactly the negative uncertainties.", "quantifier": "all computations with the operators of UReal, all means and uncertainties of the type, any binary format with infinities and NaN", "why_tests_cant": "overflow depends on the values of all intermediate results; tests use moderate numbers.", "anchors": ["uncertainties/ureal.hpp: s, s2, var, cov, corr, binary, binary_assign, operators"]}
{"id": "C69", "title": "Formatting in double precision", "statement": "format, computed in double and float, prints texts which read back as the given mean and uncertainty rounded at the same decimal place, with the number of digits asked for; by default two digits if the leading digits of the uncertainty are below 3.16 or round to 10, otherwise one. It ends and has no undefined behaviour for all finite numbers.", "quantifier": "all means and uncertainties of the type double, all errdig, all separators", "why_tests_cant": "the logarithm and the powers of ten are rounded; the failures need numbers near powers of ten or at the limits of the range.", "anchors": ["uncertainties/io.hpp: format, exponent, int_mantissa, int_mantissa_string, naive_ndigits, ndigits, mantissa, tostring"]}
{"id": "C70", "title": "Second-order results as statements about random variables", "statement": "If the measured quantities are random variables with independent errors which have the moments given to the constructor, then mean, variance, third and fourth moment, skewness, kurtosis and covariances reported by UReal2 are those of the computed function of the random variables if this is a polynomial of degree at most 2; for other functions they are so in the limit of small errors, one order better than with UReal.", "quantifier": "all computations, all numbers of variables, all distributions of the errors (bounded for the limit)", "why_tests_cant": "a statement about the law of a function of random variables, and about a limit.", "anchors": ["uncertainties/ureal2.hpp: m, n, s, skew, kurt, cov, unary, binary", "uncertainties/internal/moments.hpp: compute_m1..m4, compute_c2"]}
{"id": "C71", "title": "Sums of independent values, and the distributions which reproduce", "statement": "When values without common variables are summed, means, second and third central moments and fourth cumulants add up. Linear functions of values made by normal() report the moments of a normal distribution, sums of squares of normal(0, 1) those of chi-square, sums of chisquare(k_i) those of chisquare(sum k_i). The covariance of quadratic polynomials of normal variables is the sum of the products of the first derivatives plus half the sum of the products of the second ones. All this however the expression is written.", "quantifier": "all numbers of operands, all parameters, all expressions with + - * and constants which are the polynomial in question", "why_tests_cant": "test/distr.cpp checks up to 10 operands with integer parameters and one way of writing the sum.", "anchors": ["uncertainties/distr.hpp: normal, chisquare", "uncertainties/ureal2.hpp: m, n, s, cov, unary, binary", "uncertainties/internal/moments.hpp: compute_m1..m4, compute_c2"]}
{"id": "C72", "title": "A function template gives the same value with numbers, UReal and UReal2", "statement": "A function written as a template, with the operators, the mathematical functions of math.hpp, numbers, and functions wrapped with uunary, ubinary, uunary2, ubinary2, instantiated with UReal has as mean, and with UReal2 as first_order_n, exactly the number it returns when instantiated with the number type on the means of the arguments. The result depends on the variables the arguments which appear depend on. With arguments without uncertainty the result has no uncertainty.", "quantifier": "all expressions, all well-formed arguments, any number type, with or without the laws of arithmetic", "why_tests_cant": "Tests check functions one at a time with a tolerance; the property is about every composition and about each bit of the result.", "anchors": ["uncertainties/ureal.hpp: operators", "uncertainties/ureal2.hpp: operators", "uncertainties/math.hpp: all functions", "uncertainties/functions.hpp: uunary, ubinary, uunary2, ubinary2", "uncertainties/core.hpp: nom"]}
{"id": "C73", "title": "Covariance and correlation matrices written through iterators", "statement": "cov_matrix(begin, end, matrix) and corr_matrix(begin, end, matrix) write the n * n elements row by row from the position given, do not touch anything else, and return the position after the last element; they are undefined exactly if the room is not enough. The functions which return a vector agree with them.", "quantifier": "all sequences, all output arrays and positions, any number type", "why_tests_cant": "test/ureals.cpp calls the vector version, test/generic.cpp prints a matrix; no test looks at the rest of the array, at the iterator returned or at overlapping arrays.", "anchors": ["uncertainties/stat.hpp: outer, cov_matrix, corr_matrix"]}
{"id": "C74", "title": "Second-order values are sparse", "statement": "A UReal2 stores a second derivative for a pair of variables only if the program couples them: both enter a nonlinear function of one value, or the two sides of an operation with a mixed derivative. A program all of whose second derivatives are zero stores no pair; a value with n variables stores at most n (n - 1) / 2 pairs; the loops over gradient and hessian make one step for each stored element.", "quantifier": "all programs with less than 2^31 - 1 variables, any number type", "why_tests_cant": "The README says gradients and hessians are always sparse; no test looks at what is stored, only at the values it gives.", "anchors": ["uncertainties/internal/hessgrad.hpp: HessGrad, ConstHessIt, ConstTriIt", "uncertainties/ureal2.hpp: unary, binary"]}
{"id": "C75", "title": "The storage of gradients and hessians", "statement": "HessGrad is a map on variables and a map on unordered pairs of variables: each sequence of calls of its accessors returns what was last written there, the value for missing elements or the exception which the comments promise, and is undefined exactly if the identifiers of a pair must be in order and are not. Loops over the stored elements are defined exactly if each pair is of stored variables. Two iterators compare different exactly if they are at different elements.", "quantifier": "all sequences of calls, any number type", "why_tests_cant": "There is no test of HessGrad but through UReal2, which never calls the accessors out of order nor compares two iterators neither of which is the end.", "anchors": ["uncertainties/internal/hessgrad.hpp: size, diag, diag_get, tri, tri_get, tri_find, hhess, hhess_get, ConstTriIt, ConstHessIt"]}
{"id": "C76", "title": "Formatting again", "statement": "A formatted number, read back at face value and formatted again with the same arguments, gives the same text.", "quantifier": "all finite means and uncertainties, all errdig > 1, all separators that start with a space", "why_tests_cant": "The tests compare given numbers with given texts, and no text is read back. With the default errdig the text changes when the leading digits of the uncertainty are from 3.15 to 3.5, when the mean is rounded up to a power of ten and when a negative mean rounds to zero.", "anchors": ["uncertainties/io.hpp: format, ndigits, naive_ndigits, mantissa", "uncertainties/impl.hpp: insert_dot, format_exp"]}
{"id": "C77", "title": "The whole text of a formatted number", "statement": "The text is the only one that writes the mean and the uncertainty rounded at the same place, with a common exponent exactly if the larger number is below 0.1 or the last digit is above the units; the exponent is the position of the leading digit of the larger number.", "quantifier": "all finite means, all uncertainties, all errdig > 1, all separators, all candidate texts", "why_tests_cant": "The tests compare given numbers with given texts. That no other text is possible and that the exponent is used exactly where stated is about all numbers; 9.6 \u00b1 4 prints as (1 \u00b1 0.4)e+1.", "anchors": ["uncertainties/io.hpp: format, ndigits, mantissa, tostring", "uncertainties/impl.hpp: insert_dot, format_exp"]}
{"id": "C78", "title": "The check of the moments with eigenvalues which have an error", "statement": "With an eigenvalue routine of relative error \u03b5 the constructors accept the moments of every distribution and reject all others; normal, uniform and chisquare never throw and give the variables they name.", "quantifier": "all arrays of moments, all backward stable eigenvalue routines, all errors and thresholds, all parameters of the distributions", "why_tests_cant": "The tests try a few arrays with one library and one rounding. Which threshold is enough for every distribution and every routine, and that the default is not, concerns all of them.", "anchors": ["uncertainties/internal/checkmoments.hpp: check_moments, check_moments_throw", "uncertainties/ureal2.hpp: constructors", "uncertainties/distr.hpp: normal, uniform, chisquare"]}
{"id": "C79", "title": "Changing the units by powers of two is exact", "statement": "In a dimensionally correct calculation, expressing the given values in units that are smaller by powers of two changes every result exactly as its unit, rounding errors included; correlations, skewness and kurtosis do not change.", "quantifier": "all calculations with the operators at first and second order, all values, all powers of two, all precisions", "why_tests_cant": "Tests compare a few results in fixed units up to a tolerance. Equality of all digits for every calculation and every unit, and the range of uncertainties where the kurtosis is lost in double and float, concern infinitely many values.", "anchors": ["uncertainties/ureal.hpp: operators, s, cov, corr", "uncertainties/ureal2.hpp: operators, m, skew, kurt, cov, corr", "uncertainties/internal/moments.hpp: compute_m2, compute_m3, compute_m4, compute_c2"]}
{"id": "C80", "title": "Rounding errors of second-order results", "statement": "In a calculation at second order with the operators and with functions of one or two variables, whose divisors are known to half of their value or better and whose functions are computed with known errors, every computed mean, central moment and covariance differs from the one of the exact calculation by at most a stated number of relative rounding errors of the sum of the magnitudes of its terms; where that is less than the variance the computed variance is positive and the uncertainty has a relative error of the same size, and the skewness, the kurtosis and the correlation have errors which are bounded by those of the moments in them.", "quantifier": "all calculations with the operators and with functions where the bound of the error of each divisor is at most half of it, and the numerators and the second derivatives of the functions are zero or distinguished from zero, all given values with any derivatives and moments, all precisions", "why_tests_cant": "Tests compare a few results with a tolerance chosen by hand. A bound of the error which holds for every calculation and every precision, with the number of roundings of each loop of the moments, cannot be sampled.", "anchors": ["uncertainties/ureal2.hpp: operators, unary, binary, n, m, var, s, skew, kurt, cov, corr", "uncertainties/math.hpp: the functions of UReal2", "uncertainties/internal/moments.hpp: compute_m1, compute_m2, compute_m3, compute_m4, compute_c2", "uncertainties/internal/hessgrad.hpp: iterators"]}
{"id": "C81", "title": "Overflow, infinities and NaN at second order", "statement": "In calculations at second order with numbers of limited range, an overflow shows in the results: a mean, a central moment, an uncertainty, a covariance, a skewness, a kurtosis or a correlation which is an ordinary number is the one that would be computed without limits on the range.", "quantifier": "all calculations with the operators, all given values with any derivatives and moments, all types with a largest number (float, double)", "why_tests_cant": "Overflow happens at magnitudes tests do not use, and whether an infinity in one derivative is lost in a later step, in a term multiplied by zero or in a skipped loop, depends on the whole calculation.", "anchors": ["uncertainties/ureal2.hpp: operators, unary, binary, n, m, s, skew, kurt, cov, corr", "uncertainties/internal/moments.hpp: compute_m1, compute_m2, compute_m3, compute_m4, compute_c2", "uncertainties/internal/hessgrad.hpp: iterators"]}
{"id": "C82", "title": "Independence of the schedule for both classes in any arithmetic", "statement": "In programs whose threads do not share variables which are written, no answer depends on the order in which the calls of the threads are interleaved: neither return values and exceptions in a thread, nor means, uncertainties, moments, covariances, correlations and derivatives, nor the results of what is computed afterwards from variables of different threads.", "quantifier": "all programs with UReal and UReal2 variables, all race-free interleavings, all arithmetics (in particular floating point)", "why_tests_cant": "The interleaving decides the identifiers and so the order of the entries in every map and the order of every sum; tests cannot choose the interleaving, and differences appear only for some of them.", "anchors": ["uncertainties/impl.hpp: last_id", "uncertainties/ureal.hpp: UReal(n, s), unary, binary, binary_assign, nary, cov, corr, grad", "uncertainties/ureal2.hpp: constructors, unary, binary, m, cov, corr, grad, hess", "uncertainties/internal/hessgrad.hpp: iterators", "uncertainties/internal/moments.hpp: moments", "uncertainties/math.hpp: exp"]}
{"id": "C83", "title": "Running out of memory", "statement": "If memory is exhausted during a call, std::bad_alloc is thrown, all variables keep their values, and the program can go on.", "quantifier": "all programs with UReal variables and all programs with UReal2 variables, any number of successful allocations in each call, all arithmetics", "why_tests_cant": "The exception can come from any insertion in any map, with any operands; tests do not make allocations fail.", "anchors": ["uncertainties/ureal.hpp: binary_assign, unary, binary, nary, change_nom, implicit copy assignment, class invariants", "uncertainties/ureal2.hpp: constructors, unary, binary, implicit copy assignment", "uncertainties/internal/hessgrad.hpp: implicit copy assignment"]}
{"id": "C84", "title": "Moving variables", "statement": "Moving a value out of a variable gives the other variable that value, leaves the first in a state that satisfies the class invariants, and has no other effect: programs which do not use what is left give the same results as with copies.", "quantifier": "all programs with variables of both classes which move some of them, all arithmetics, any content of the maps which were moved from", "why_tests_cant": "What is left in a variable after a move depends on the standard library and on which functions were called on it before; the tests do not move variables.", "anchors": ["uncertainties/ureal.hpp: implicit move assignment, class invariants, s, var", "uncertainties/ureal2.hpp: implicit move assignment", "uncertainties/internal/hessgrad.hpp: implicit move assignment"]}
{"id": "C85", "title": "ureals in floating point", "statement": "In floating point with relative rounding error u, ureals of n means and a matrix returns variables with exactly those means and with the covariances of the matrix, within the error of the decomposition and n + 4 roundings relative to the product of the two standard deviations; it throws exactly when the sizes do not match or the decomposition fails or is not positive.", "quantifier": "all formats with relative rounding error u without overflow and underflow, all n and means and matrices, all decompositions (unit lower triangular L, D not negative) with any error", "why_tests_cant": "The tests compare a few covariance matrices with a fixed tolerance; the bound for all sizes, matrices and precisions cannot be sampled.", "anchors": ["uncertainties/ureals.hpp:71-137", "uncertainties/ureal.hpp: operator+=, operator*, cov, s"]}
{"id": "C86", "title": "Error of numerical derivatives", "statement": "The derivatives computed with finite differences by uunary, ubinary, uunary2, ubinary2 differ from the exact ones by at most the errors of the values of the function divided by the step (or its square), the rounding of the displaced arguments, and the remainder of Taylor formula of the order of the documentation: step for forward differences, step squared for central differences.", "quantifier": "all formats with relative rounding error u <= 1/8 without overflow and underflow, all steps > 0, all arguments, all functions with bounded derivatives implemented with relative error c; in particular double with the default steps", "why_tests_cant": "The tests compare the numerical derivatives of a few functions at a few points with a tolerance; the orders O(step) and O(step^2) of the documentation and the size of the rounding errors are statements on all functions and steps.", "anchors": ["uncertainties/functions.hpp:140-179 uunary(f, step), ubinary(f, step)", "uncertainties/functions.hpp:240-370 uunary2, ubinary2 with a step", "uncertainties/functions.hpp: default_step"]}
{"id": "C87", "title": "Operations of the moments at second order", "statement": "With n variables the mean correction takes n additions, the second moment 3 n^2 + 6 n operations, the third a multiple of n^3, the fourth a multiple of n^4 (TODO.md:260), and the covariance a multiple of the product of the numbers of variables. Saving time for values with few second derivatives is false: the fourth moment of a sum of independent variables also takes n^4 operations.", "quantifier": "all numeric types, all valid hessians and gradients with any number of variables and of stored elements", "why_tests_cant": "The tests have no timing or counting, and use at most a few variables.", "anchors": ["uncertainties/internal/moments.hpp:41-89 compute_m1, compute_m2", "uncertainties/internal/moments.hpp:92-194 compute_m3", "uncertainties/internal/moments.hpp:197-475 compute_m4", "uncertainties/internal/moments.hpp:495-563 compute_c2", "TODO.md:260"]}
{"id": "C88", "title": "The examples of the documentation", "statement": "The examples in the documentation give the results written there: covariances and correlations of x, y, y + x, y - x and x + y, which values are independent and their identifiers, the printed texts, the covariance formula, and that independent variables have correlation 0, 1 or -1.", "quantifier": "all means, uncertainties and identifiers of the variables of the examples; all valid values for the covariance formula and the correlation of independent variables", "why_tests_cant": "A test of an example has its numbers only, and the formula and the statement about correlations are about all values.", "anchors": ["uncertainties/ureal.hpp:64-166", "uncertainties/ureal.hpp:241-249", "uncertainties/io.hpp:26-37", "README.md:39-53"]}
{"id": "C89", "title": "The sign of zeros does not matter", "statement": "Replacing zeros by zeros of the other sign in means, uncertainties, derivatives and moments changes no result of a calculation: means, uncertainties, variances, central moments, covariances and correlations which are ordinary numbers remain the same, and those which are infinite or NaN remain infinite or NaN.", "quantifier": "all calculations with the operators of both classes, all given values, all floating-point types with signed zeros, infinities and NaN", "why_tests_cant": "The two zeros compare equal, so comparing results as tests do does not see the sign, and it matters only after divisions; no test has negative zeros.", "anchors": ["uncertainties/ureal.hpp: operators, unary, binary, binary_assign, s, var, cov, corr", "uncertainties/ureal2.hpp: operators, unary, binary, n, m, s, skew, kurt, cov, corr", "uncertainties/internal/moments.hpp: compute_m1, compute_m2, compute_m3, compute_m4, compute_c2"]}
{"id": "C90", "title": "Identities exact in floating point, second order", "statement": "In floating-point arithmetic, second-order calculations satisfy, with all means, derivatives and moments identical in the last digit: x + y = y + x, x * y = y * x, x - y = x + (-y) = -(y - x), -(-x) = x, x + 0 = x - 0 = x * 1 = x / 1 = x, x - x is zero without uncertainty, cov(x, y) = cov(y, x), var(x) = cov(x, x).", "quantifier": "all second-order values, all roundings which are monotone, odd and exact on the numbers of the format", "why_tests_cant": "Tests compare with a tolerance, and the loops treat the two operands differently (the first operand fills the result, the second is added, moments are read from the first).", "anchors": ["uncertainties/ureal2.hpp: operators, unary, binary, cov, var", "uncertainties/internal/moments.hpp: compute_m1, compute_m2, compute_c2"]}
{"id": "C91", "title": "Operations of the propagation to second order", "statement": "A function of a value with n variables and t stored pairs takes 5 n + 4 t operations to propagate the derivatives; a function of two values with n and m variables, s and t pairs takes 5 n + 4 s + 7 m + 5 t, and 3 n m plus the number of variables in common if there is a mixed derivative; so at most a multiple of n^2 (TODO.md:296). Adding n variables one after the other takes a multiple of n^2 as at first order, multiplying them a multiple of n^3.", "quantifier": "all numeric types, all values with valid maps, all derivatives", "why_tests_cant": "The tests have no timing or counting, and use at most a few variables.", "anchors": ["uncertainties/ureal2.hpp:784-897 unary, binary", "TODO.md:274-297", "uncertainties/internal/hessgrad.hpp: ConstHessIt"]}
{"id": "C92", "title": "Calculations with integers do not round", "statement": "In a calculation with sums, differences, products and the assignments from values with integer means and uncertainties, the mean, the coefficient of each variable, the variance and the covariances are the exact integers and the uncertainty is the correctly rounded square root of the exact variance, whenever their size (the same number computed with absolute values) is at most 2^53 in double, 2^24 in float; one more is not possible. In particular the sum accumulated in a loop, as in test/accumulate.cpp, is exact: a million variables 1 +- 1 give 1000000 +- 1000.", "quantifier": "all calculations of any length with the operators +, -, *, +=, -=, *= and unary minus, all integer means and uncertainties, all formats with rounding to the integers up to N", "why_tests_cant": "A loop of a million additions is only timed in the tests, the result is not looked at; exactness for all calculations and all integers is not a finite check.", "anchors": ["uncertainties/ureal.hpp:640-808 operators", "uncertainties/ureal.hpp:414-559 s, cov, var", "test/accumulate.cpp"]}
{"id": "C93", "title": "Calculations with integers at second order do not round", "statement": "In a calculation with sums, differences and products of second-order values whose means, derivatives and standardized moments are integers or fractions with a power of two below, the mean with and without the correction, the first and second derivatives, the central moments to the fourth and the covariances are exact, whenever their size (the same number computed with absolute values) written as m/2^e has m at most 2^53 in double, 2^24 in float (and e at most 1074, 149). The constructor from central moments gives exactly the integer uncertainty and the integer standardized moments if the eighth power of the uncertainty is at most 2^53 or 2^24.", "quantifier": "all calculations of any length with the operators +, -, * and unary minus, all integer or dyadic means, derivatives and moments, all formats with the numbers n/2^e", "why_tests_cant": "The tests of the second-order moments compare with a tolerance; that no rounding occurs for all calculations with integers is not a finite check.", "anchors": ["uncertainties/ureal2.hpp:619-661 n, m", "uncertainties/ureal2.hpp:711-713 cov", "uncertainties/ureal2.hpp:519-567 constructors", "uncertainties/ureal2.hpp:988-1040 operators", "uncertainties/internal/moments.hpp"]}
{"id": "C94", "title": "The constructors of second-order variables give back what was given, with rounding", "statement": "A variable made with mean, standard deviation and standardized moments has s() exactly equal to the given standard deviation. A variable made with central moments has as s() the correctly rounded square root of the given variance, and as m(2), m(3), m(4), skew() and kurt() the given numbers or ratios of them with the error of at most 3, 9, 13, 18 and 21 roundings.", "quantifier": "all standard deviations and all central moments with a positive variance, all binary formats with rounding to nearest even (s()), all formats with a relative error (the moments)", "why_tests_cant": "The tests construct variables from a few distributions and compare with a tolerance; that the square root of the rounded square is the same number for all numbers, and the bounds on the errors for all moments, are not finite checks.", "anchors": ["uncertainties/ureal2.hpp:519-567 constructors", "uncertainties/ureal2.hpp:623-661 s, skew, kurt, m", "uncertainties/internal/moments.hpp:54-490 compute_m2, compute_m3, compute_m4"]}
{"id": "C95", "title": "Covariance and correlation matrices computed with rounding", "statement": "The matrices computed by cov_matrix and corr_matrix are symmetric and positive semidefinite, their elements are the covariances and the correlations of the values but for the rounding, and ureals accepts the covariance matrix and returns values with the same means and covariances.", "quantifier": "all lists of fewer than 2^32 values of type UReal with any variables, all formats with a relative error, all errors of the decomposition", "why_tests_cant": "The tests compare the matrices of a few random values with a tolerance and never look at the sign of the smallest eigenvalue; whether a matrix with rounding errors stays positive depends on the last digits.", "anchors": ["uncertainties/stat.hpp:84-102 internal::outer", "uncertainties/stat.hpp:116-169 cov_matrix, corr_matrix", "uncertainties/ureal.hpp:495-536 cov", "uncertainties/ureal.hpp:567-569 corr", "uncertainties/ureals.hpp:71-140 ureals"]}
{"id": "C96", "title": "Conversion between types of different precision", "statement": "The conversion of UReal and UReal2 between numerical types of different precision preserves the correlations: it loses nothing to a type with more digits, and to a type with fewer digits means, uncertainties, covariances and correlations are those before the conversion but for the rounding.", "quantifier": "all values of type UReal and UReal2 with any variables, all pairs of formats with a relative error or contained in one another, in particular float and double", "why_tests_cant": "The tests convert one or two values between float, double and long double whose numbers are small integers; the correlations after a conversion that rounds each coefficient are not looked at, nor small or large numbers.", "anchors": ["uncertainties/ureal.hpp:474-490 operator UReal<OtherReal>", "uncertainties/ureal2.hpp:676-699 conversions of UReal2", "uncertainties/ureal.hpp:495-536 cov", "uncertainties/ureal.hpp:567-569 corr", "uncertainties/ureal.hpp:414-451 s"]}
{"id": "C97", "title": "Larger uncertainties of the variables give larger uncertainties of the results", "statement": "If the uncertainties of some independent variables are increased, the mean not, no uncertainty of a result decreases; if all are multiplied by the same number, the first order uncertainties of the results are multiplied by it and the second order corrections of the means by its square; the uncertainty of a sum is at most the sum of the uncertainties.", "quantifier": "all computations with any number of variables and steps, all functions of the library and of the user, all means and pairs of uncertainties, first and second order, floating point with any rounding", "why_tests_cant": "The tests compute each uncertainty for one choice of the uncertainties of the variables and compare with a formula; no two choices are compared, and where it fails the two numbers are each as accurate as expected.", "anchors": ["uncertainties/ureal.hpp:604-632 unary", "uncertainties/ureal.hpp:645-696 binary", "uncertainties/ureal.hpp:416-422 s", "uncertainties/ureal2.hpp:784-805 unary", "uncertainties/ureal2.hpp:816-897 binary", "uncertainties/internal/moments.hpp m2"]}
{"id": "C98", "title": "Small changes of the data give small changes of the results", "statement": "Where the functions applied are smooth, means, uncertainties, covariances, and correlations of the results, and at second order also their other moments, skewness and kurtosis, are continuous functions of the means and uncertainties of the variables, the correlation, skewness and kurtosis where the uncertainties of the results are not 0; if the uncertainties of the variables are right within a fraction, so are those of the results.", "quantifier": "all computations with any number of variables and steps, all smooth functions, all means and uncertainties including 0, first and second order", "why_tests_cant": "A test computes with single data and compares within a tolerance; continuity speaks of all data in a neighbourhood, and the jump found is at a single mean of one variable with all results near it plausible.", "anchors": ["uncertainties/ureal.hpp:604-632 unary", "uncertainties/ureal.hpp:645-696 binary", "uncertainties/ureal.hpp:416-422 s", "uncertainties/ureal2.hpp:756-790 unary", "uncertainties/ureal2.hpp:816-897 binary", "uncertainties/internal/hessgrad.hpp hhess_iterator", "uncertainties/internal/moments.hpp m2"]}
{"id": "C99", "title": "isfinite and isnormal tell what the values are", "statement": "isfinite(x) is true exactly if the mean and all the coefficients of x are finite numbers; isnormal(x) is true exactly if the mean and the standard deviation, which is not 0, are normal numbers, and then isfinite(x) is true too. Adding 0 does not change the answers.", "quantifier": "all values of type UReal<double> and UReal<float>, with infinities, NaN, subnormal numbers, any number of variables", "why_tests_cant": "There is no test of the two functions; the failures need uncertainties whose squares are out of range while they are not.", "anchors": ["uncertainties/math.hpp isfinite", "uncertainties/math.hpp isnormal", "uncertainties/ureal.hpp:416-422 s"]}
{"id": "C100", "title": "How often a quantity is away from its mean", "statement": "If the errors of the variables are independent with the moments given to the constructors, the quantity differs from n() by c * s() or more with probability at most 1 / c^2, on one given side at most 1 / (1 + c^2), and with the kurtosis k at most (k - 1) / (k - 1 + (c^2 - 1)^2) for c > 1; for c < 1 it differs by more than c * s() with probability at least (1 - c^2)^2 / (k - 1 + (1 - c^2)^2).", "quantifier": "all distributions of the errors, all numbers of variables, all computations of affine functions at first order and of polynomials of degree at most 2 at second order", "why_tests_cant": "The tests with random numbers compare means and variances for given distributions; a bound on a probability for all distributions cannot be sampled.", "anchors": ["uncertainties/ureal.hpp:416-422 s", "uncertainties/ureal2.hpp n, s, kurt, unary, binary", "uncertainties/internal/moments.hpp m2, m4", "uncertainties/functions.hpp:201-209 uunary2"]}
