#!/usr/bin/env python3
"""Regenerates /verif/properties.jsonl (one JSON object per line)."""
import json, os
P = []
def p(id, title, statement, quantifier, why, anchors):
    P.append(dict(id=id, title=title, statement=statement, quantifier=quantifier,
                  why_tests_cant=why, anchors=anchors))
U='uncertainties/ureal.hpp'; U2='uncertainties/ureal2.hpp'; M='uncertainties/math.hpp'
ST='uncertainties/stat.hpp'; US='uncertainties/ureals.hpp'; F='uncertainties/functions.hpp'
D='uncertainties/distr.hpp'; IO='uncertainties/io.hpp'; HG='uncertainties/internal/hessgrad.hpp'
MO='uncertainties/internal/moments.hpp'; CM='uncertainties/internal/checkmoments.hpp'
I='uncertainties/impl.hpp'; C='uncertainties/core.hpp'

p('C01','First-order propagation is linear',
  'For variables x, y of type UReal and any numbers mu, dx, dy, the result z of binary(x, y, mu, dx, dy) has mean mu, and its covariance with every variable w is dx*cov(x,w) + dy*cov(y,w); unary(x, mu, dx) has mean mu and covariance dx*cov(x,w) with every w.',
  'all valid UReal values x, y, w (independent, dependent, constant; any number of shared or unshared dependencies; cached or uncached uncertainty), all mu, dx, dy',
  'the merge of two dependency maps has unboundedly many shapes (disjoint, overlapping, interleaved, one empty, one side independent); tests try a few.',
  [U+': UReal::unary, UReal::binary, UReal::cov'])
p('C02','Covariance is a symmetric, bilinear, positive semidefinite form with cov(x,x)=var(x)=s(x)^2',
  'cov(x,y)=cov(y,x); cov(x,x)=var(x); s(x)>=0 and s(x)^2=var(x); every quadratic form sum a_i a_j cov(x_i,x_j) is >=0.',
  'all valid UReal values, every finite family of them, all coefficients (exact arithmetic)',
  'positivity and symmetry are statements about all families of variables.',
  [U+': UReal::cov, UReal::var, UReal::s'])
p('C03','Correlation is bounded by one',
  'corr(x,y) lies in [-1,1] whenever neither uncertainty is zero; two variables each depending on one elementary variable have correlation exactly 0, +1 or -1 according to whether the elementary variable is shared and the sign.',
  'all valid UReal values with non-zero uncertainty (exact arithmetic)',
  'inequality over all inputs (Cauchy-Schwarz).',
  [U+': UReal::corr, UReal::cov, UReal::s'])
p('C04','Algebraic identities hold up to observation',
  'The arithmetic operators on UReal obey the commutative ring/field laws observationally: both sides of each law (commutativity, associativity, distributivity, x-x=0, (x/y)*y=x when y.n() is not 0, ...) have equal mean, equal uncertainty and equal covariance with every variable.',
  'all valid UReal operands and all observers w',
  'laws quantify over all correlated triples; a test checks particular numbers.',
  [U+': operator+, operator-, operator*, operator/, unary operator-'])
p('C05','In-place operators agree with the out-of-place ones, including self-assignment',
  'After x op= y the variable x has the same mean, uncertainty and covariance with every variable as x op y computed before; this also holds when y is the same object as x.',
  'all valid x, y including y aliased to x, with or without a cached uncertainty, all derivative values passed to binary_assign',
  'the code has a dedicated aliasing branch whose correctness depends on cached state reachable only through particular histories.',
  [U+': UReal::binary_assign, operator+=, operator-=, operator*=, operator/='])
p('C06','n-ary propagation equals the sum of the single contributions',
  'nary over a sequence of variables x_k with derivatives d_k gives covariance sum_k d_k cov(x_k,w) with every w and the given mean; the order of the sequence does not matter; it agrees with chained binary.',
  'all finite sequences of valid variables (repeated variables allowed) and derivatives',
  'unbounded sequence length and repetition.',
  [U+': UReal::nary'])
p('C07','Caching the uncertainty is unobservable',
  'Calling the non-const s(), sdev() or var() (which cache) at any points of any program never changes any value observed later.',
  'all programs (operation histories) with caching reads inserted anywhere',
  'history property: the cache must be invalidated by every later mutation.',
  [U+': UReal::s, UReal::var, UReal::binary_assign, UReal::change_nom'])
p('C08','Elementary variables have distinct identities under concurrent creation',
  'Whatever the interleaving of threads constructing variables, as long as fewer than 2^31 constructions happen, every construction gets a distinct positive id, so separately constructed variables are never correlated. Beyond that the counter wraps and the property fails.',
  'all schedules of any number of threads, all construction counts',
  'schedules and 2^31 constructions cannot be enumerated by tests.',
  [I+': internal::last_id', U+': UReal::UReal(n, s)', U2+': UReal2::UReal2'])
p('C09','A new variable is independent of everything that exists',
  'Immediately after UReal(n, s) is constructed, its covariance with every variable that existed before is 0, its mean is n, its uncertainty is s.',
  'all reachable program states with fewer than 2^31 - 1 constructions so far, all n, s >= 0',
  'quantifies over all previous histories.',
  [U+': UReal::UReal(n, s), UReal::cov'])
p('C10','Construction fails exactly for negative uncertainty',
  'UReal(n, s) throws invalid_argument iff s < 0, UReal2(n, s, mom) iff s < 0 or the moments fail the check; a failed construction leaves every existing variable unchanged, a successful one stores n and s.',
  'all n, s',
  'for-all statement; interplay with global id counter.',
  [U+': UReal::UReal(n, s)', U2+': UReal2::UReal2(n, s, std_moments)'])
p('C11','isindep and indepid report the dependency set',
  'isindep() is true iff the value was computed from at most one elementary variable; indepid() is that variable\'s id, 0 for constants, -1 otherwise; two values for which indepid() is positive and equal have correlation +1, -1 or undefined, and if different covariance 0.',
  'all programs built from construction, unary, binary, n-ary and in-place operations, for any numeric type (no arithmetic laws used)',
  'history property over all expression graphs.',
  [U+': UReal::isindep, UReal::indepid'])
p('C12','grad(x) is the derivative with respect to an independent variable',
  'For y computed from independent x (with non-zero uncertainty), y.grad(x) is the accumulated derivative dy/dx; in particular x.grad(x) = 1.',
  'all y, all independent x',
  'holds for all dependency shapes, including the shape y itself independent.',
  [U+': UReal::grad'])
p('C13','First-order uncertainty equals the analytic linear propagation formula',
  'For every expression built from elementary variables with functions whose passed derivatives are the true partial derivatives, the variance is sum_i (df/dx_i)^2 s_i^2 and the covariance of two expressions is sum_i (df/dx_i)(dg/dx_i) s_i^2, with derivatives taken of the whole expression at the means.',
  'all expression trees (with sharing), all differentiable node functions',
  'unbounded expression structure; correctness of forward-mode differentiation.',
  [U+': UReal::unary, UReal::binary, UReal::cov, UReal::var', M])
p('C14','Each UReal math function propagates the true derivative',
  'For every function f in math.hpp taking UReal, the propagated coefficient is the partial derivative of the real function at the means wherever f is differentiable.',
  'all arguments in the domain of differentiability (reals)',
  'tests check one point each and only compare uncertainties, not signs of correlations.',
  [M+': abs, fmod, remainder, fmax, fmin, exp, exp2, expm1, log, log10, log2, log1p, pow, sqrt, cbrt, hypot, sin, cos, tan, asin, acos, atan, atan2, sinh, cosh, tanh, asinh, acosh, atanh, erf, erfc'])
p('C15','No undefined behaviour in dependency merging',
  'The operations on UReal never dereference an end iterator nor violate an assert of the class, provided every id is smaller than the largest int; at the largest id the merge of two dependent variables is undefined behaviour.',
  'all pairs of valid variables and ids',
  'the failing id is reached only after 2^31-1 constructions.',
  [U+': UReal::binary, UReal::isindep, UReal::indepid'])
p('C16','change_nom and numeric conversion only touch what they say',
  'change_nom(x, n) changes the mean and nothing else observable; converting to another numeric type converts mean, uncertainty and every covariance by the conversion and keeps correlations with converted variables.',
  'all valid values and all (exact) conversions',
  'for-all statement over dependency maps.',
  [U+': UReal::change_nom, UReal::operator UReal<OtherReal>', U2+': UReal2::operator UReal2<OtherReal, otherprop>'])
p('C17','Covariance and correlation matrices',
  'cov_matrix(x) has n*n entries, entry [n*i+j] is cov(x_i,x_j), it is symmetric with the variances on the diagonal and positive semidefinite; corr_matrix has unit diagonal where uncertainties are non-zero.',
  'all finite vectors of valid variables',
  'any length, any correlation structure; row-major indexing.',
  [ST+': outer, cov_matrix, corr_matrix'])
p('C18','corr2cov inverts the correlation matrix and checks sizes',
  'corr2cov(s, corr) throws iff corr.size() differs from n*n, otherwise returns corr[n*i+j]*s_i*s_j; corr2cov(s of x, corr_matrix(x)) = cov_matrix(x) when no uncertainty is zero.',
  'all vectors, including sizes for which n*n overflows the size type',
  'size overflow is unreachable in tests; equality quantifies over all vectors.',
  [ST+': corr2cov, corr_matrix, cov_matrix'])
p('C19','ureals produces variables with the requested means and covariance matrix',
  'When ureals(mu, cov) returns, the result has means mu and cov_matrix(result) equals the symmetric completion of the triangle it reads; it throws invalid_argument iff the sizes do not match and runtime_error iff the decomposition fails or is not positive; n = 0 is accepted. A matrix which is not positive semidefinite is never accepted. If the decomposition is off by epsilon, the covariances are off by at most epsilon.',
  'all sizes, all positive semidefinite matrices, every LDLT result meeting the documented contract of the decomposition, including any pivoting permutation',
  'pivot sequences and matrices are unbounded.',
  [US+': ureals'])
p('C20','Numerical differentiation helpers are exact where they should be and converge',
  'uunary propagates the exact derivative for affine f for any step, uunary2 the exact first and second derivatives for quadratic f, ubinary2 the exact partial and mixed derivatives for quadratic f(x,y); for differentiable f the computed derivative tends to the true one as the step tends to 0.',
  'all such functions, all points, all non-zero steps',
  'for-all over functions.',
  [F+': uunary, ubinary, uunary2, ubinary2'])
p('C21','Second-order representation invariant and iterator safety',
  'In every value of type UReal2 that can be built, each stored mixed second-derivative entry refers to two distinct stored variables in increasing order, iterating never dereferences an end iterator nor fails an assert, and results never depend on uninitialised moments.',
  'all values built with the API, all iteration modes',
  'history property; depends on the sparsity pattern.',
  [HG+': ConstTriIt, ConstHessIt, HessGrad', U2+': unary, binary'])
p('C22','Second-order gradient propagation',
  'For UReal2, the first-order part of unary/binary follows the chain rule: gradient = dfdx*grad(x) + dfdy*grad(y) for every variable; moments and ids of the elementary variables are carried over.',
  'all valid UReal2 values and derivative values, both iteration modes',
  'arbitrary sparsity patterns.',
  [U2+': unary, binary'])
p('C23','Second-order Hessian propagation',
  'For UReal2, the second-order part of unary/binary follows the second-order chain rule: H = f_xx/2 gx gx^T + f_yy/2 gy gy^T + f_xy/2 (gx gy^T + gy gx^T) + f_x Hx + f_y Hy for every pair of variables.',
  'all valid UReal2 values with any number of variables and any sparsity pattern, all derivative values',
  'needs several variables and particular sparsity patterns to exercise every path of the iterator.',
  [U2+': unary, binary', HG+': ConstHessIt::operator++'])
p('C24','m(1), n() and the propagation mode',
  'm(1) is the expectation of the quadratic expansion, n() is first_order_n()+m(1) in mean mode and first_order_n()-m(1) in estimate mode.',
  'all valid values',
  'for-all.',
  [U2+': n, m, first_order_n, internal::propsign', MO+': compute_m1'])
p('C25','Variance is the exact second central moment of the quadratic expansion',
  'm(2)=var(x) equals E[(Q-E Q)^2], Q = sum G_i X_i + sum H_ij X_i X_j, for independent standardized X_i with the stored moments.',
  'any number of variables, any G, H, any stored third and fourth moments',
  'unbounded number of variables; combinatorial formula.',
  [MO+': compute_m2, compute_mom', U2+': m, var', U2+': internal::update_mom'])
p('C26','Third moment is exact','m(3) equals E[(Q-E Q)^3].',
  'any number of variables, any coefficients and stored moments','combinatorial formula with many index patterns.',
  [MO+': compute_m3', U2+': m, internal::update_mom'])
p('C27','Fourth moment is exact','m(4) equals E[(Q-E Q)^4].',
  'any number of variables, any coefficients and stored moments','about fifty index patterns over up to four variables at a time.',
  [MO+': compute_m4', U2+': m, internal::update_mom'])
p('C28','Second-order covariance is exact and symmetric',
  'cov(x,y) equals E[Qx Qy]-E[Qx]E[Qy]; cov(x,y)=cov(y,x); cov(x,x)=var(x); variables without common elementary variables have covariance 0.',
  'all pairs of valid values that agree on the moments of shared variables','unbounded structure.',
  [U2+': cov, corr, var', MO+': compute_c2'])
p('C29','Second-order variance is non-negative and correlation bounded',
  'If the moments of every elementary variable passed the constructor check (exact arithmetic, threshold 0) then var(x) >= 0, so s() is the square root of a non-negative number, and |corr| <= 1.',
  'all values built from checked elementary variables','inequality over all coefficients.',
  [U2+': s, var, corr', CM])
p('C30','UReal2 constructors store what was asked',
  'UReal2(n, {m2..m8}) gives a variable with mean n, variance m2, m(3)=m3, m(4)=m4, skew and kurtosis the standardized ones; UReal2(n, s, {k3..k8}) gives s()=s, skew()=k3, kurt()=k4.',
  'all moments accepted by the check','for-all.',
  [U2+': UReal2::UReal2', U2+': skew, kurt, s, m'])
p('C31','The moment check accepts exactly the positive semidefinite Hankel sequences',
  'With threshold 0 check_moments_throw does not throw iff the 5x5 Hankel matrix of the moments is positive semidefinite; the moments of any probability distribution with finite eighth moment are accepted; the division by the largest eigenvalue is never by zero.',
  'all moment arrays, all distributions','for-all over distributions.',
  [CM+': hamburger, check_moments, check_moments_throw'])
p('C32','distr:: distributions carry the true moments',
  'normal, uniform and chisquare return variables whose mean, uncertainty and standardized moments 3..8 are those of the distribution; invalid parameters throw; chisquare(0) is the constant 0.',
  'all parameters','moments of a parametric family.',
  [D+': normal, uniform, chisquare'])
p('C33','UReal2::grad and hess are derivatives',
  'grad(x) is d this/dx and hess(x,y) is d^2 this/dx dy with respect to values x, y each depending on one elementary variable, also when x is a non-linear function of it.',
  'all values and all pairs x, y depending on one variable each, with non-zero derivative','for-all.',
  [U2+': grad, hess'])
p('C34','Second-order in-place binary agrees with the out-of-place one',
  'binary_assign(x, y, ...) leaves x equal to binary(x, y, ...).','all values','in-place update while iterating the same container.',
  [U2+': binary_assign'])
p('C35','Each UReal2 math function propagates true first and second derivatives',
  'For every function in math.hpp taking UReal2 the passed first and second partial derivatives are the true ones at the first order mean.',
  'all arguments in the domain of twice differentiability','one point per function in tests.',
  [M])
p('C36','Second-order Taylor expansion of expressions',
  'For expressions in UReal2 built with correct node derivatives, F(mu + S z) = first_order_n + G.z + z^T H z + o(|z|^2).',
  'all expression trees','unbounded structure; fails where C23 fails.',
  [U2+': unary, binary', M])
p('C37','First-order and second-order types agree to first order',
  'The same expression computed with UReal and UReal2 has first_order_n equal to the UReal mean and gradient equal to the UReal coefficients.',
  'all expressions','for-all.',
  [U, U2])
p('C38','format rejects exactly errdig <= 1',
  'format(x, errdig) throws invalid_argument iff errdig <= 1 (the documentation says errdig < 1).',
  'all x, errdig','boundary disagreement between code and documentation.',
  [IO+': format', C+': format'])
p('C39','Printed uncertainty and mean are correctly rounded',
  'When the uncertainty is finite and non-zero, the printed mean and uncertainty, read as decimal numbers, are the mean and uncertainty rounded (half away from zero) to the same decimal place, determined by the uncertainty.',
  'all means, uncertainties, errdig > 1 (exact arithmetic)','all magnitudes, carries such as 9.96 -> 10.',
  [IO+': format, ndigits, mantissa, exponent, int_mantissa', I+': insert_dot'])
p('C40','Mean and uncertainty are printed with aligned least significant digits',
  'The printed mean has the same number of decimals as the printed uncertainty.',
  'all means, uncertainties, errdig > 1','carry cases.',
  [IO+': format, mantissa', I+': insert_dot'])
p('C41','The sign of the mean is printed',
  'If the mean is negative the printed mean starts with a minus sign, otherwise not.',
  'all means and uncertainties, including zero and non-finite uncertainty','branch combinations.',
  [IO+': format, tostring'])
p('C42','The number of significant digits of the uncertainty follows errdig',
  'With errdig = n + p, 0<=p<1, the uncertainty has n or n+1 significant digits, n+1 iff its (rounded) leading digits are below 10^p.',
  'all uncertainties and errdig','carry and threshold cases.',
  [IO+': ndigits, naive_ndigits, format'])
p('C43','The exponent is printed with the right sign and never as zero',
  'When scientific notation is used, the printed exponent e is non-zero, has its sign printed, and mantissa*10^e is the value.',
  'all inputs','the sign rule of format_exp is wrong at 0, reachable only if exponent 0 can be selected.',
  [IO+': format, tostring', I+': format_exp'])
p('C44','Moment translation and binomial tables are exact',
  'Central moments computed from zero-centered moments equal sum_k binom(n,k) m_k (-mu)^(n-k) for n=2..8; standardization divides by sigma^n.',
  'all moment arrays','for-all.',
  [D+': internal::central_moments, internal::std_moments, internal::binom_coeff', I+': compute_binom_coeffs'])
p('C45','Triangular iteration with missing elements visits every pair once',
  'Iterating over the off-diagonal part of the second-order coefficients with missing elements included visits every pair of distinct variables exactly once in order, with the stored value or zero; without missing elements it visits exactly the stored entries.',
  'all sparsity patterns','arbitrary sparsity patterns.',
  [HG+': ConstTriIt'])
p('C46','Hessian iteration with missing elements visits every pair once',
  'Iterating over the second-order coefficients with missing elements included visits every pair (i<=j) exactly once with the stored value or zero; without missing elements it visits the diagonal and the stored entries.',
  'all sparsity patterns','arbitrary sparsity patterns.',
  [HG+': ConstHessIt'])
p('C47','Degenerate variables behave as constants',
  'Values with zero uncertainty (constants, zero-uncertainty variables) have covariance 0 with everything, do not change the uncertainty of sums, and scale linearly in products.',
  'all such values and all other operands','several representations of a constant (id 0, id > 0 with sdev 0, empty dependency map).',
  [U+': UReal::UReal(n), UReal::cov, UReal::binary'])
p('C48','First-order results depend only on the function computed',
  'Two computations on UReal values which give the same real function near the means of the elementary variables (sin^2+cos^2 and 1, exp(log x) and x, ...) give results with the same mean, uncertainty and covariance with every value; conversely, equal results mean equal value and equal derivatives with respect to every variable with non-zero uncertainty.',
  'all pairs of computations made with the operators and with functions which propagate their derivatives (C14: all functions of math.hpp at regular arguments but atan2, and cbrt for negative means), all elementary variables',
  'infinitely many identities, all inputs.',
  [U+': UReal::unary, UReal::binary, UReal::cov', M+': all functions'])
p('C49','Second-order results depend only on the function computed',
  'The same for UReal2: same means, moments, covariances, first and second derivatives.',
  'all pairs of computations, all elementary variables','infinitely many identities; fails when the iteration over the Hessian skips mixed terms.',
  [U2+': UReal2::unary, UReal2::binary', HG+': ConstHessIt', M+': all functions'])
p('C50','Second-order algebraic identities hold up to observation',
  'Two expressions written with +, -, * and constants which are the same polynomial give, on any UReal2 operands, results which can not be told apart: same mean, moments, uncertainty, skewness, kurtosis, covariances and correlations with other values, first and second derivatives.',
  'all pairs of expressions, all valid operands','infinitely many identities, operands with arbitrary sets of variables.',
  [U2+': UReal2::binary, UReal2::unary, operators +, -, *, UReal2::m, cov', HG+': HessGrad'])
p('C51','Second-order values shift and scale as random variables',
  'For z = a x + b, however it is written: m(1) scales by a, the central moments by a^k, n() becomes a n + b in both propagation modes, s scales by |a|, skew by the sign of a, kurt is unchanged, covariances scale by a.',
  'all valid operands, all a and b, all ways of writing the expression','for-all.',
  [U2+': UReal2::m, UReal2::n, UReal2::s, UReal2::skew, UReal2::kurt, cov, operators'])
p('C52','Moments of sums of independent second-order values',
  'If x and y have no common variables, the mean correction and the central moments 2 and 3 of x + y are the sums of those of x and y, and m4(x+y) = m4(x) + m4(y) + 6 m2(x) m2(y).',
  'all valid operands without common variables, all ways of writing the sum','for-all; the moment code is a sum over many index patterns.',
  [U2+': UReal2::m', MO+': compute_m2, compute_m3, compute_m4'])
p('C53','Second-order covariance is bilinear and covariance matrices are positive semidefinite',
  'cov(a x + b y + c, w) = a cov(x, w) + b cov(y, w), also in the other argument; var(a x + b y + c) is the quadratic form; cov_matrix of UReal2 values is symmetric, has the variances on the diagonal and is positive semidefinite; corr_matrix is symmetric with ones on the diagonal and entries in [-1, 1]; nom_vector has the values of n().',
  'all valid values whose moments satisfy the check of the constructors','every finite family of values.',
  [U2+': cov, corr, var', ST+': cov_matrix, corr_matrix, nom_vector', MO+': compute_c2'])
p('C54','Third and fourth moments of second-order results are possible',
  'In a program which constructs its UReal2 variables with the check of the moments on, every value satisfies m3^2 + m2^3 <= m2 m4, so kurt() >= 1 + skew()^2 where s() is not 0.',
  'all programs, all values','for-all; depends on all the stored moments up to the eighth and on the check.',
  [U2+': UReal2::m, UReal2::skew, UReal2::kurt', MO+': compute_m2, compute_m3, compute_m4', CM+': check_moments'])
p('C55','Prop::mean gives the mean and Prop::est an unbiased estimate',
  'If the function computed is a polynomial of degree at most 2 in the elementary variables, n() with Prop::mean is the mean of the function of the random variables, and the mean of n() with Prop::est over the distribution of the measured values is the function of the true values.',
  'all computations whose function is a polynomial of degree at most 2, all means and standard deviations, all uncorrelated errors','for-all over computations and distributions.',
  [U2+': UReal2::n, propsign, documentation lines 220-330'])
p('C58','Results do not depend on the order of creation of the variables',
  'The same computation on the same variables, created in another order or with other variables created in between (other identifiers), gives the same means, uncertainties, covariances, correlations, moments and derivatives, for UReal and UReal2.',
  'all computations, all assignments of distinct identifiers','every order of the identifiers; the maps are ordered by identifier and the loops merge them.',
  [U+': UReal::UReal, UReal::binary, cov', U2+': UReal2::unary, UReal2::binary', HG+': ConstHessIt', I+': last_id'])
p('C56','isindep and indepid of UReal2 report the elementary variables a value was computed from',
  'In any program, UReal2::isindep() is true iff at most one construction of an elementary variable went into the value, so a computation which involves only one variable gives an independent variable; indepid() is 0 if none, the identifier of that variable if one, invalid_id if more.',
  'all programs with both classes, all outcomes of the constructors','for-all over programs.',
  [U2+': UReal2::isindep, UReal2::indepid, documentation lines 398-438', HG+': HessGrad::size'])
p('C59','A UReal and a UReal2 never share an identifier',
  'In any program with both classes, no elementary variable is common to a UReal value and a UReal2 value, so independent variables of the two classes have different identifiers.',
  'all programs with both classes','for-all over programs; depends on the counter and on when the constructors increment it.',
  [U2+': UReal2::UReal2, documentation line 425', U+': UReal::UReal', 'uncertainties/impl.hpp: last_id'])
p('C60','Conversion of UReal2 keeps everything it should',
  'Converting a UReal2 to another propagation mode keeps all the stored data; converting to another numeric type keeps the variables (isindep, indepid), converts moments, mean, covariances, derivatives by the conversion, and commutes with all later operations.',
  'all valid values, all exact conversions of numbers','for-all over sparse maps and over operations done after the conversion.',
  [U2+': UReal2::operator UReal2<OtherReal, prop>, UReal2(const UReal2<AnyReal, any_prop> &)', HG+': HessGrad::operator HessGrad<OtherReal>'])
p('C57','In whole computations with either class, variables with zero uncertainty can be replaced by plain numbers',
  'Replacing the variables with zero uncertainty by plain numbers in a computation changes no mean, uncertainty, moment, covariance or derivative of the results.',
  'all computations, all values and uncertainties of the inputs, any subset of the inputs without uncertainty','for-all over computations; the failure needs a variable without uncertainty created between two others.',
  [U+': binary, binary_assign', U2+': unary, binary', HG+': HessGrad::ConstHessIt::operator++'])
p('C61','Rounding errors of uncertainties, variances, covariances and correlations',
  'With the floating point arithmetic of double (each operation rounded with relative error u): the variance, the uncertainty and the number under the square root are never negative; var has relative error at most n roundings for n variables, s*s n+2, cov c roundings relative to the sum of absolute values for c common variables and exactly 0 for none; the correlation stays in [-1, 1]; var does not change when s() is called.',
  'all values of the class, all formats with monotone odd rounding of relative error u < 1','rounding errors depend on every bit of every coefficient; tests compare with a tolerance on a few values.',
  [U+': UReal::s2, UReal::s, var, cov, corr, unary, binary, using udouble = UReal<double>'])
p('C62','Identities which are exact in floating point',
  'In floating point, exactly: cov and corr symmetric, x+y = y+x, x*y = y*x, x-x is 0 with zero uncertainty and zero covariance with everything, -(-x) = x, x-y = -(y-x), x+0 = x*1 = x/1 = x, the compound assignments give the object of the operators, x/x = 1 for numbers, (x+y)-y = x+(y-y).',
  'all values of the class, all formats','equalities of all bits of means and coefficients for all inputs.',
  [U+': operator+, operator-, operator*, operator/, binary, binary_assign, cov, corr'])
p('C63','Floating point results approach exact linear propagation as the precision increases',
  'A straight-line computation from elementary variables with the operators and the functions of math.hpp, run in finer and finer floating point formats, never hits an assertion, and means, variances, uncertainties, covariances and correlations of all results tend to those of exact linear propagation of the real function computed.',
  'all computations with operators (non-zero divisors) and functions of math.hpp differentiable at the means, except atan2 and cbrt of negative means, all numbers of variables, all means and uncertainties, all sequences of formats with relative rounding error tending to 0',
  'a limit over formats for all computations; tests run in one format and compare with a tolerance.',
  [U+': unary, binary, operators, UReal::s, var, cov, corr', M+': all functions'])
p('C64','Numerical derivatives with the default step are accurate in floating point',
  'The forward differences of uunary(f, step) and ubinary(f, step), computed in floating point with the default step sqrt(epsilon), approximate the true derivatives: means, uncertainties and covariances of the results tend to those of exact propagation as the precision increases, and at a given precision the result keeps the uncertainty of the argument.',
  'all functions differentiable at the mean, all implementations with relative error of the order of the format, all means and uncertainties, all sequences of formats',
  'for a fixed format the loss depends on the size of the mean; tests use means near 1. Numeric limits cannot be observed by running in one format.',
  [F+': uunary(f, step), ubinary(f, step), default_step'])
p('C65','The number of operations is linear in the number of variables',
  'unary, binary and nary assign a number of coefficients linear in the numbers of elementary variables of the arguments; += assigns a number of coefficients which does not depend on the number of variables of the left operand; so summing n elementary variables with x = x + u is quadratic, n(n+1)/2 assignments, and with x += u is linear, n assignments.',
  'all well-formed values, all derivatives, all numbers of summands',
  'timings depend on the machine and on the allocator; a test can only compare some sizes and cannot separate the algorithm from noise.',
  [U+': Efficiency (documentation)', U+': unary, binary, nary, binary_assign'])
p('C66','Second-order results in floating point approach those of exact arithmetic',
  'When the precision of the number type increases, a computation with UReal2 done in floating point, from rounded variables, has results whose mean, moments and covariances approach those of the same computation with exact real numbers, and the computed variance is not negative.',
  'all straight-line computations with the operators and the functions of math.hpp, all variables with any moments, all sequences of formats',
  'tests run with one precision (double) on a few computations, and compare with a tolerance; they do not tell rounding from a discontinuity such as that of the Hessian iteration where a second derivative is 0.',
  [U2+': unary, binary, m, cov, skew, kurt', MO+': compute_m1 ... compute_m4, compute_c2', M+': functions of UReal2'])
p('C67','Uncertainties are those of random variables, exactly for affine functions and in the limit of small errors otherwise',
  'Let the elementary variables be independent random variables with the given means and standard deviations. An affine function computed with UReal has the mean, variance and covariances of the random variable it stands for. For other functions this holds in the limit of small uncertainties, where the true value lies in n +- c s with the probability of the normal distribution if the errors are normal, and outside with probability at most 1/c^2 in any case.',
  'all computations whose nodes propagate their derivatives, all independent errors with finite variance (all independent normal errors for the coverage), all c',
  'a statement on probabilities in a limit; simulations estimate coverages for some functions with statistical error.',
  [U+': unary, binary, n, s, var, cov', M+': functions of UReal'])
p('C68','Overflow, underflow, infinities and NaN',
  'In double a result which is a finite number is the one that would be computed without overflow: an overflow in the computation shows as infinity or NaN in all results that depend on it. A coefficient which is infinite or NaN makes the uncertainty infinite or NaN. The uncertainty of a value with representable coefficients is finite and accurate. The constructor refuses exactly the negative uncertainties.',
  'all computations with the operators of UReal, all means and uncertainties of the type, any binary format with infinities and NaN',
  'overflow depends on the values of all intermediate results; tests use moderate numbers.',
  [U+': s, s2, var, cov, corr, binary, binary_assign, operators'])
p('C69','Formatting in double precision',
  'format, computed in double and float, prints texts which read back as the given mean and uncertainty rounded at the same decimal place, with the number of digits asked for; by default two digits if the leading digits of the uncertainty are below 3.16 or round to 10, otherwise one. It ends and has no undefined behaviour for all finite numbers.',
  'all means and uncertainties of the type double, all errdig, all separators',
  'the logarithm and the powers of ten are rounded; the failures need numbers near powers of ten or at the limits of the range.',
  [IO+': format, exponent, int_mantissa, int_mantissa_string, naive_ndigits, ndigits, mantissa, tostring'])
p('C70','Second-order results as statements about random variables',
  'If the measured quantities are random variables with independent errors which have the moments given to the constructor, then mean, variance, third and fourth moment, skewness, kurtosis and covariances reported by UReal2 are those of the computed function of the random variables if this is a polynomial of degree at most 2; for other functions they are so in the limit of small errors, one order better than with UReal.',
  'all computations, all numbers of variables, all distributions of the errors (bounded for the limit)',
  'a statement about the law of a function of random variables, and about a limit.',
  [U2+': m, n, s, skew, kurt, cov, unary, binary', MO+': compute_m1..m4, compute_c2'])
p('C71','Sums of independent values, and the distributions which reproduce',
  'When values without common variables are summed, means, second and third central moments and fourth cumulants add up. Linear functions of values made by normal() report the moments of a normal distribution, sums of squares of normal(0, 1) those of chi-square, sums of chisquare(k_i) those of chisquare(sum k_i). The covariance of quadratic polynomials of normal variables is the sum of the products of the first derivatives plus half the sum of the products of the second ones. All this however the expression is written.',
  'all numbers of operands, all parameters, all expressions with + - * and constants which are the polynomial in question',
  'test/distr.cpp checks up to 10 operands with integer parameters and one way of writing the sum.',
  [D+': normal, chisquare', U2+': m, n, s, cov, unary, binary', MO+': compute_m1..m4, compute_c2'])
p('C72','A function template gives the same value with numbers, UReal and UReal2',
  'A function written as a template, with the operators, the mathematical functions of math.hpp, numbers, and functions wrapped with uunary, ubinary, uunary2, ubinary2, instantiated with UReal has as mean, and with UReal2 as first_order_n, exactly the number it returns when instantiated with the number type on the means of the arguments. The result depends on the variables the arguments which appear depend on. With arguments without uncertainty the result has no uncertainty.',
  'all expressions, all well-formed arguments, any number type, with or without the laws of arithmetic',
  'Tests check functions one at a time with a tolerance; the property is about every composition and about each bit of the result.',
  [U+': operators', U2+': operators', M+': all functions', F+': uunary, ubinary, uunary2, ubinary2', C+': nom'])
p('C73','Covariance and correlation matrices written through iterators',
  'cov_matrix(begin, end, matrix) and corr_matrix(begin, end, matrix) write the n * n elements row by row from the position given, do not touch anything else, and return the position after the last element; they are undefined exactly if the room is not enough. The functions which return a vector agree with them.',
  'all sequences, all output arrays and positions, any number type',
  'test/ureals.cpp calls the vector version, test/generic.cpp prints a matrix; no test looks at the rest of the array, at the iterator returned or at overlapping arrays.',
  [ST+': outer, cov_matrix, corr_matrix'])
p('C74','Second-order values are sparse',
  'A UReal2 stores a second derivative for a pair of variables only if the program couples them: both enter a nonlinear function of one value, or the two sides of an operation with a mixed derivative. A program all of whose second derivatives are zero stores no pair; a value with n variables stores at most n (n - 1) / 2 pairs; the loops over gradient and hessian make one step for each stored element.',
  'all programs with less than 2^31 - 1 variables, any number type',
  'The README says gradients and hessians are always sparse; no test looks at what is stored, only at the values it gives.',
  [HG+': HessGrad, ConstHessIt, ConstTriIt',U2+': unary, binary'])
p('C75','The storage of gradients and hessians',
  'HessGrad is a map on variables and a map on unordered pairs of variables: each sequence of calls of its accessors returns what was last written there, the value for missing elements or the exception which the comments promise, and is undefined exactly if the identifiers of a pair must be in order and are not. Loops over the stored elements are defined exactly if each pair is of stored variables. Two iterators compare different exactly if they are at different elements.',
  'all sequences of calls, any number type',
  'There is no test of HessGrad but through UReal2, which never calls the accessors out of order nor compares two iterators neither of which is the end.',
  [HG+': size, diag, diag_get, tri, tri_get, tri_find, hhess, hhess_get, ConstTriIt, ConstHessIt'])
p('C76','Formatting again',
  'A formatted number, read back at face value and formatted again with the same arguments, gives the same text.',
  'all finite means and uncertainties, all errdig > 1, all separators that start with a space',
  'The tests compare given numbers with given texts, and no text is read back. With the default errdig the text changes when the leading digits of the uncertainty are from 3.15 to 3.5, when the mean is rounded up to a power of ten and when a negative mean rounds to zero.',
  [IO+': format, ndigits, naive_ndigits, mantissa', I+': insert_dot, format_exp'])
p('C77','The whole text of a formatted number',
  'The text is the only one that writes the mean and the uncertainty rounded at the same place, with a common exponent exactly if the larger number is below 0.1 or the last digit is above the units; the exponent is the position of the leading digit of the larger number.',
  'all finite means, all uncertainties, all errdig > 1, all separators, all candidate texts',
  'The tests compare given numbers with given texts. That no other text is possible and that the exponent is used exactly where stated is about all numbers; 9.6 ± 4 prints as (1 ± 0.4)e+1.',
  [IO+': format, ndigits, mantissa, tostring', I+': insert_dot, format_exp'])
p('C78','The check of the moments with eigenvalues which have an error',
  'With an eigenvalue routine of relative error ε the constructors accept the moments of every distribution and reject all others; normal, uniform and chisquare never throw and give the variables they name.',
  'all arrays of moments, all backward stable eigenvalue routines, all errors and thresholds, all parameters of the distributions',
  'The tests try a few arrays with one library and one rounding. Which threshold is enough for every distribution and every routine, and that the default is not, concerns all of them.',
  [CM+': check_moments, check_moments_throw', U2+': constructors', D+': normal, uniform, chisquare'])
p('C79','Changing the units by powers of two is exact',
  'In a dimensionally correct calculation, expressing the given values in units that are smaller by powers of two changes every result exactly as its unit, rounding errors included; correlations, skewness and kurtosis do not change.',
  'all calculations with the operators at first and second order, all values, all powers of two, all precisions',
  'Tests compare a few results in fixed units up to a tolerance. Equality of all digits for every calculation and every unit, and the range of uncertainties where the kurtosis is lost in double and float, concern infinitely many values.',
  [U+': operators, s, cov, corr', U2+': operators, m, skew, kurt, cov, corr', MO+': compute_m2, compute_m3, compute_m4, compute_c2'])

p('C80','Rounding errors of second-order results',
  'In a calculation at second order with the operators and with functions of one or two variables, whose divisors are known to half of their value or better and whose functions are computed with known errors, every computed mean, central moment and covariance differs from the one of the exact calculation by at most a stated number of relative rounding errors of the sum of the magnitudes of its terms; where that is less than the variance the computed variance is positive and the uncertainty has a relative error of the same size, and the skewness, the kurtosis and the correlation have errors which are bounded by those of the moments in them.',
  'all calculations with the operators and with functions where the bound of the error of each divisor is at most half of it, and the numerators and the second derivatives of the functions are zero or distinguished from zero, all given values with any derivatives and moments, all precisions',
  'Tests compare a few results with a tolerance chosen by hand. A bound of the error which holds for every calculation and every precision, with the number of roundings of each loop of the moments, cannot be sampled.',
  [U2+': operators, unary, binary, n, m, var, s, skew, kurt, cov, corr', M+': the functions of UReal2', MO+': compute_m1, compute_m2, compute_m3, compute_m4, compute_c2', HG+': iterators'])

p('C81','Overflow, infinities and NaN at second order',
  'In calculations at second order with numbers of limited range, an overflow shows in the results: a mean, a central moment, an uncertainty, a covariance, a skewness, a kurtosis or a correlation which is an ordinary number is the one that would be computed without limits on the range.',
  'all calculations with the operators, all given values with any derivatives and moments, all types with a largest number (float, double)',
  'Overflow happens at magnitudes tests do not use, and whether an infinity in one derivative is lost in a later step, in a term multiplied by zero or in a skipped loop, depends on the whole calculation.',
  [U2+': operators, unary, binary, n, m, s, skew, kurt, cov, corr', MO+': compute_m1, compute_m2, compute_m3, compute_m4, compute_c2', HG+': iterators'])

p('C82','Independence of the schedule for both classes in any arithmetic',
  'In programs whose threads do not share variables which are written, no answer depends on the order in which the calls of the threads are interleaved: neither return values and exceptions in a thread, nor means, uncertainties, moments, covariances, correlations and derivatives, nor the results of what is computed afterwards from variables of different threads.',
  'all programs with UReal and UReal2 variables, all race-free interleavings, all arithmetics (in particular floating point)',
  'The interleaving decides the identifiers and so the order of the entries in every map and the order of every sum; tests cannot choose the interleaving, and differences appear only for some of them.',
  [I+': last_id', U+': UReal(n, s), unary, binary, binary_assign, nary, cov, corr, grad', U2+': constructors, unary, binary, m, cov, corr, grad, hess', HG+': iterators', MO+': moments', M+': exp'])

p('C83','Running out of memory',
  'If memory is exhausted during a call, std::bad_alloc is thrown, all variables keep their values, and the program can go on.',
  'all programs with UReal variables and all programs with UReal2 variables, any number of successful allocations in each call, all arithmetics',
  'The exception can come from any insertion in any map, with any operands; tests do not make allocations fail.',
  [U+': binary_assign, unary, binary, nary, change_nom, implicit copy assignment, class invariants', U2+': constructors, unary, binary, implicit copy assignment', HG+': implicit copy assignment'])

p('C84','Moving variables',
  'Moving a value out of a variable gives the other variable that value, leaves the first in a state that satisfies the class invariants, and has no other effect: programs which do not use what is left give the same results as with copies.',
  'all programs with variables of both classes which move some of them, all arithmetics, any content of the maps which were moved from',
  'What is left in a variable after a move depends on the standard library and on which functions were called on it before; the tests do not move variables.',
  [U+': implicit move assignment, class invariants, s, var', U2+': implicit move assignment', HG+': implicit move assignment'])

p('C85','ureals in floating point',
  'In floating point with relative rounding error u, ureals of n means and a matrix returns variables with exactly those means and with the covariances of the matrix, within the error of the decomposition and n + 4 roundings relative to the product of the two standard deviations; it throws exactly when the sizes do not match or the decomposition fails or is not positive.',
  'all formats with relative rounding error u without overflow and underflow, all n and means and matrices, all decompositions (unit lower triangular L, D not negative) with any error',
  'The tests compare a few covariance matrices with a fixed tolerance; the bound for all sizes, matrices and precisions cannot be sampled.',
  [US+':71-137', U+': operator+=, operator*, cov, s'])

p('C86','Error of numerical derivatives',
  'The derivatives computed with finite differences by uunary, ubinary, uunary2, ubinary2 differ from the exact ones by at most the errors of the values of the function divided by the step (or its square), the rounding of the displaced arguments, and the remainder of Taylor formula of the order of the documentation: step for forward differences, step squared for central differences.',
  'all formats with relative rounding error u <= 1/8 without overflow and underflow, all steps > 0, all arguments, all functions with bounded derivatives implemented with relative error c; in particular double with the default steps',
  'The tests compare the numerical derivatives of a few functions at a few points with a tolerance; the orders O(step) and O(step^2) of the documentation and the size of the rounding errors are statements on all functions and steps.',
  [F+':140-179 uunary(f, step), ubinary(f, step)', F+':240-370 uunary2, ubinary2 with a step', F+': default_step'])

p('C87','Operations of the moments at second order',
  'With n variables the mean correction takes n additions, the second moment 3 n^2 + 6 n operations, the third a multiple of n^3, the fourth a multiple of n^4 (TODO.md:260), and the covariance a multiple of the product of the numbers of variables. Saving time for values with few second derivatives is false: the fourth moment of a sum of independent variables also takes n^4 operations.',
  'all numeric types, all valid hessians and gradients with any number of variables and of stored elements',
  'The tests have no timing or counting, and use at most a few variables.',
  [MO+':41-89 compute_m1, compute_m2', MO+':92-194 compute_m3', MO+':197-475 compute_m4', MO+':495-563 compute_c2', 'TODO.md:260'])

p('C88','The examples of the documentation',
  'The examples in the documentation give the results written there: covariances and correlations of x, y, y + x, y - x and x + y, which values are independent and their identifiers, the printed texts, the covariance formula, and that independent variables have correlation 0, 1 or -1.',
  'all means, uncertainties and identifiers of the variables of the examples; all valid values for the covariance formula and the correlation of independent variables',
  'A test of an example has its numbers only, and the formula and the statement about correlations are about all values.',
  [U+':64-166', U+':241-249', IO+':26-37', 'README.md:39-53'])

p('C89','The sign of zeros does not matter',
  'Replacing zeros by zeros of the other sign in means, uncertainties, derivatives and moments changes no result of a calculation: means, uncertainties, variances, central moments, covariances and correlations which are ordinary numbers remain the same, and those which are infinite or NaN remain infinite or NaN.',
  'all calculations with the operators of both classes, all given values, all floating-point types with signed zeros, infinities and NaN',
  'The two zeros compare equal, so comparing results as tests do does not see the sign, and it matters only after divisions; no test has negative zeros.',
  [U+': operators, unary, binary, binary_assign, s, var, cov, corr', U2+': operators, unary, binary, n, m, s, skew, kurt, cov, corr', MO+': compute_m1, compute_m2, compute_m3, compute_m4, compute_c2'])

p('C90','Identities exact in floating point, second order',
  'In floating-point arithmetic, second-order calculations satisfy, with all means, derivatives and moments identical in the last digit: x + y = y + x, x * y = y * x, x - y = x + (-y) = -(y - x), -(-x) = x, x + 0 = x - 0 = x * 1 = x / 1 = x, x - x is zero without uncertainty, cov(x, y) = cov(y, x), var(x) = cov(x, x).',
  'all second-order values, all roundings which are monotone, odd and exact on the numbers of the format',
  'Tests compare with a tolerance, and the loops treat the two operands differently (the first operand fills the result, the second is added, moments are read from the first).',
  [U2+': operators, unary, binary, cov, var', MO+': compute_m1, compute_m2, compute_c2'])

p('C91','Operations of the propagation to second order',
  'A function of a value with n variables and t stored pairs takes 5 n + 4 t operations to propagate the derivatives; a function of two values with n and m variables, s and t pairs takes 5 n + 4 s + 7 m + 5 t, and 3 n m plus the number of variables in common if there is a mixed derivative; so at most a multiple of n^2 (TODO.md:296). Adding n variables one after the other takes a multiple of n^2 as at first order, multiplying them a multiple of n^3.',
  'all numeric types, all values with valid maps, all derivatives',
  'The tests have no timing or counting, and use at most a few variables.',
  [U2+':784-897 unary, binary', 'TODO.md:274-297', HG+': ConstHessIt'])

p('C92','Calculations with integers do not round',
  'In a calculation with sums, differences, products and the assignments from values with integer means and uncertainties, the mean, the coefficient of each variable, the variance and the covariances are the exact integers and the uncertainty is the correctly rounded square root of the exact variance, whenever their size (the same number computed with absolute values) is at most 2^53 in double, 2^24 in float; one more is not possible. In particular the sum accumulated in a loop, as in test/accumulate.cpp, is exact: a million variables 1 +- 1 give 1000000 +- 1000.',
  'all calculations of any length with the operators +, -, *, +=, -=, *= and unary minus, all integer means and uncertainties, all formats with rounding to the integers up to N',
  'A loop of a million additions is only timed in the tests, the result is not looked at; exactness for all calculations and all integers is not a finite check.',
  [U+':640-808 operators', U+':414-559 s, cov, var', 'test/accumulate.cpp'])

p('C93','Calculations with integers at second order do not round',
  'In a calculation with sums, differences and products of second-order values whose means, derivatives and standardized moments are integers or fractions with a power of two below, the mean with and without the correction, the first and second derivatives, the central moments to the fourth and the covariances are exact, whenever their size (the same number computed with absolute values) written as m/2^e has m at most 2^53 in double, 2^24 in float (and e at most 1074, 149). The constructor from central moments gives exactly the integer uncertainty and the integer standardized moments if the eighth power of the uncertainty is at most 2^53 or 2^24.',
  'all calculations of any length with the operators +, -, * and unary minus, all integer or dyadic means, derivatives and moments, all formats with the numbers n/2^e',
  'The tests of the second-order moments compare with a tolerance; that no rounding occurs for all calculations with integers is not a finite check.',
  [U2+':619-661 n, m', U2+':711-713 cov', U2+':519-567 constructors', U2+':988-1040 operators', MO])

p('C94','The constructors of second-order variables give back what was given, with rounding',
  'A variable made with mean, standard deviation and standardized moments has s() exactly equal to the given standard deviation. A variable made with central moments has as s() the correctly rounded square root of the given variance, and as m(2), m(3), m(4), skew() and kurt() the given numbers or ratios of them with the error of at most 3, 9, 13, 18 and 21 roundings.',
  'all standard deviations and all central moments with a positive variance, all binary formats with rounding to nearest even (s()), all formats with a relative error (the moments)',
  'The tests construct variables from a few distributions and compare with a tolerance; that the square root of the rounded square is the same number for all numbers, and the bounds on the errors for all moments, are not finite checks.',
  [U2+':519-567 constructors', U2+':623-661 s, skew, kurt, m', MO+':54-490 compute_m2, compute_m3, compute_m4'])

p('C95','Covariance and correlation matrices computed with rounding',
  'The matrices computed by cov_matrix and corr_matrix are symmetric and positive semidefinite, their elements are the covariances and the correlations of the values but for the rounding, and ureals accepts the covariance matrix and returns values with the same means and covariances.',
  'all lists of fewer than 2^32 values of type UReal with any variables, all formats with a relative error, all errors of the decomposition',
  'The tests compare the matrices of a few random values with a tolerance and never look at the sign of the smallest eigenvalue; whether a matrix with rounding errors stays positive depends on the last digits.',
  [ST+':84-102 internal::outer', ST+':116-169 cov_matrix, corr_matrix', U+':495-536 cov', U+':567-569 corr', US+':71-140 ureals'])

p('C96','Conversion between types of different precision',
  'The conversion of UReal and UReal2 between numerical types of different precision preserves the correlations: it loses nothing to a type with more digits, and to a type with fewer digits means, uncertainties, covariances and correlations are those before the conversion but for the rounding.',
  'all values of type UReal and UReal2 with any variables, all pairs of formats with a relative error or contained in one another, in particular float and double',
  'The tests convert one or two values between float, double and long double whose numbers are small integers; the correlations after a conversion that rounds each coefficient are not looked at, nor small or large numbers.',
  [U+':474-490 operator UReal<OtherReal>', U2+':676-699 conversions of UReal2', U+':495-536 cov', U+':567-569 corr', U+':414-451 s'])

p('C97','Larger uncertainties of the variables give larger uncertainties of the results',
  'If the uncertainties of some independent variables are increased, the mean not, no uncertainty of a result decreases; if all are multiplied by the same number, the first order uncertainties of the results are multiplied by it and the second order corrections of the means by its square; the uncertainty of a sum is at most the sum of the uncertainties.',
  'all computations with any number of variables and steps, all functions of the library and of the user, all means and pairs of uncertainties, first and second order, floating point with any rounding',
  'The tests compute each uncertainty for one choice of the uncertainties of the variables and compare with a formula; no two choices are compared, and where it fails the two numbers are each as accurate as expected.',
  [U+':604-632 unary', U+':645-696 binary', U+':416-422 s', U2+':784-805 unary', U2+':816-897 binary', MO+' m2'])

p('C98','Small changes of the data give small changes of the results',
  'Where the functions applied are smooth, means, uncertainties, covariances, and correlations of the results, and at second order also their other moments, skewness and kurtosis, are continuous functions of the means and uncertainties of the variables, the correlation, skewness and kurtosis where the uncertainties of the results are not 0; if the uncertainties of the variables are right within a fraction, so are those of the results.',
  'all computations with any number of variables and steps, all smooth functions, all means and uncertainties including 0, first and second order',
  'A test computes with single data and compares within a tolerance; continuity speaks of all data in a neighbourhood, and the jump found is at a single mean of one variable with all results near it plausible.',
  [U+':604-632 unary', U+':645-696 binary', U+':416-422 s', U2+':756-790 unary', U2+':816-897 binary', HG+' hhess_iterator', MO+' m2'])

p('C99','isfinite and isnormal tell what the values are',
  'isfinite(x) is true exactly if the mean and all the coefficients of x are finite numbers; isnormal(x) is true exactly if the mean and the standard deviation, which is not 0, are normal numbers, and then isfinite(x) is true too. Adding 0 does not change the answers.',
  'all values of type UReal<double> and UReal<float>, with infinities, NaN, subnormal numbers, any number of variables',
  'There is no test of the two functions; the failures need uncertainties whose squares are out of range while they are not.',
  [M+' isfinite', M+' isnormal', U+':416-422 s'])

p('C100','How often a quantity is away from its mean',
  'If the errors of the variables are independent with the moments given to the constructors, the quantity differs from n() by c * s() or more with probability at most 1 / c^2, on one given side at most 1 / (1 + c^2), and with the kurtosis k at most (k - 1) / (k - 1 + (c^2 - 1)^2) for c > 1; for c < 1 it differs by more than c * s() with probability at least (1 - c^2)^2 / (k - 1 + (1 - c^2)^2).',
  'all distributions of the errors, all numbers of variables, all computations of affine functions at first order and of polynomials of degree at most 2 at second order',
  'The tests with random numbers compare means and variances for given distributions; a bound on a probability for all distributions cannot be sampled.',
  [U+':416-422 s', U2+' n, s, kurt, unary, binary', MO+' m2, m4', F+':201-209 uunary2'])

out = os.path.join(os.path.dirname(os.path.abspath(__file__)), '..', 'properties.jsonl')
with open(out,'w') as f:
    for d in P: f.write(json.dumps(d)+'\n')
print(len(P))
