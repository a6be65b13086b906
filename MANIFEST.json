{
 "claims": [
  {
   "property": "C01",
   "status": "proved",
   "theorems": [
    "Unc.Props.C01_binary_linear",
    "Unc.Props.C01_unary_linear",
    "Unc.Props.C01_binary_var",
    "Unc.Props.C01_program"
   ],
   "note": "unary, binary, any values satisfying the class invariants; C01_program: any program with fewer than 2^31-1 constructions. Exact arithmetic (ordered commutative rings / reals)."
  },
  {
   "property": "C02",
   "status": "proved",
   "theorems": [
    "Unc.Props.C02_cov_symm",
    "Unc.Props.C02_cov_self",
    "Unc.Props.C02_psd",
    "Unc.Props.C02_s_sq",
    "Unc.Props.C02_cov_symm_noarith"
   ],
   "note": "Exact arithmetic; symmetry also for any commutative product without other laws."
  },
  {
   "property": "C03",
   "status": "proved",
   "theorems": [
    "Unc.Props.C03_corr_le_one",
    "Unc.Props.C03_corr_single"
   ],
   "note": "Bound and the +1/-1/0 case; exact real arithmetic."
  },
  {
   "property": "C04",
   "status": "proved",
   "theorems": [
    "Unc.Props.C04_add_comm",
    "Unc.Props.C04_add_assoc",
    "Unc.Props.C04_mul_comm",
    "Unc.Props.C04_mul_assoc",
    "Unc.Props.C04_distrib",
    "Unc.Props.C04_sub_self",
    "Unc.Props.C04_sub_eq_add_neg",
    "Unc.Props.C04_div_mul_cancel",
    "Unc.Props.C04_div_self",
    "Unc.Props.C04_add_sub_cancel"
   ],
   "note": "Ten laws, observational equality of mean, s, var and covariance with every variable; reals."
  },
  {
   "property": "C05",
   "status": "proved",
   "theorems": [
    "Unc.Props.C05_assign_eq_binary",
    "Unc.Props.C05_assign_self_eq_binary",
    "Unc.Props.C05_compound_ops",
    "Unc.Props.C05_compound_ops_self"
   ],
   "note": "Different objects and aliased object, generic call and the four operators; reals."
  },
  {
   "property": "C06",
   "status": "proved",
   "theorems": [
    "Unc.Props.C06_nary_linear",
    "Unc.Props.C06_nary_perm",
    "Unc.Props.C06_nary_two",
    "Unc.Props.C06_nary_snoc"
   ],
   "note": "Sum of contributions, permutation invariance, agreement with binary and chained binary; reals."
  },
  {
   "property": "C07",
   "status": "proved",
   "theorems": [
    "Unc.Props.C07_erase_reads",
    "Unc.Props.C07_observers",
    "Unc.Props.C07_cache_unobservable"
   ],
   "note": "C07_erase_reads/C07_observers hold for any arithmetic; C07_cache_unobservable for exact reals (cached s*s = s2 needs exact sqrt)."
  },
  {
   "property": "C08",
   "status": "proved",
   "theorems": [
    "Unc.Props.C08_distinct_ids",
    "Unc.Props.C08_wrap_negative",
    "Unc.Props.C08_wrap_breaks_cov",
    "Unc.Props.C08_wrap_collision",
    "Unc.Props.C08_schedule_independent"
   ],
   "note": "Distinct ids for any interleaving up to 2^31-1 constructions, schedule independence of all observations; the failure beyond the bound is proved with three witnesses."
  },
  {
   "property": "C09",
   "status": "proved",
   "theorems": [
    "Unc.Props.C09_new_independent"
   ],
   "note": "After any program with fewer than 2^31-1 constructions; after that many the next id is negative (C08_wrap_negative)."
  },
  {
   "property": "C10",
   "status": "proved",
   "theorems": [
    "Unc.Props.C10_second_negative",
    "Unc.Props.C10_second_std",
    "Unc.Props.C10_second_central",
    "Unc.Props.C10_ctor_throws_iff"
   ],
   "note": "UReal: any arithmetic. UReal2: throws iff s < 0 or (threshold 0, exact eigenvalues) the Hankel matrix is not positive semidefinite; nothing changes on failure."
  },
  {
   "property": "C11",
   "status": "proved",
   "theorems": [
    "Unc.Props.C11_observers",
    "Unc.Props.C11_program"
   ],
   "note": "Any arithmetic with 0<0 false; dependency sets given by a data-flow specification. Correlation part in C03_corr_single."
  },
  {
   "property": "C12",
   "status": "partial",
   "theorems": [
    "Unc.Props.C12_false",
    "Unc.Props.C12_grad_partial",
    "Unc.Props.C12_throws_iff"
   ],
   "note": "C12_false proves the property does not hold (x.grad(x)=0); C12_grad_partial proves it for values stored with id<=0; C12_throws_iff the exception condition."
  },
  {
   "property": "C13",
   "status": "proved",
   "theorems": [
    "Unc.Props.C13_linear_propagation",
    "Unc.Props.C01_program"
   ],
   "note": "Straight-line computations with sharing over any node functions that propagate their own derivative; C14 supplies the library's functions; reals."
  },
  {
   "property": "C14",
   "status": "partial",
   "theorems": [
    "Unc.Props.C14_all_stored",
    "Unc.Props.C14_all",
    "Unc.Props.C14_all_zero",
    "Unc.Props.C14_neg",
    "Unc.Props.C14_add",
    "Unc.Props.C14_sub",
    "Unc.Props.C14_mul",
    "Unc.Props.C14_div",
    "Unc.Props.C14_abs",
    "Unc.Props.C14_exp",
    "Unc.Props.C14_exp2",
    "Unc.Props.C14_expm1",
    "Unc.Props.C14_log",
    "Unc.Props.C14_log10",
    "Unc.Props.C14_log2",
    "Unc.Props.C14_log1p",
    "Unc.Props.C14_sqrt",
    "Unc.Props.C14_cbrt_partial",
    "Unc.Props.C14_sin",
    "Unc.Props.C14_cos",
    "Unc.Props.C14_tan",
    "Unc.Props.C14_asin",
    "Unc.Props.C14_acos",
    "Unc.Props.C14_atan",
    "Unc.Props.C14_sinh",
    "Unc.Props.C14_cosh",
    "Unc.Props.C14_tanh",
    "Unc.Props.C14_asinh",
    "Unc.Props.C14_acosh",
    "Unc.Props.C14_atanh",
    "Unc.Props.C14_erf",
    "Unc.Props.C14_erfc",
    "Unc.Props.C14_fmod",
    "Unc.Props.C14_remainder",
    "Unc.Props.C14_fmax",
    "Unc.Props.C14_fmin",
    "Unc.Props.C14_pow",
    "Unc.Props.C14_pow_int",
    "Unc.Props.C14_hypot",
    "Unc.Props.C14_atan2_false",
    "Unc.Props.C14_atan2_partial",
    "Unc.Props.C14_cbrt_nan",
    "Unc.Props.C14_isfinite",
    "Unc.Props.C14_fmax_nan",
    "Unc.Props.C14_pow_zero_nan",
    "Unc.Props.C14_atan2_zero_nan",
    "Unc.Props.C14_domain",
    "Unc.Props.C14_domain_all"
   ],
   "note": "All 31 functions and the operators proved on their domain of differentiability except: atan2, where the property is false (C14_atan2_false; C14_atan2_partial gives what holds), and cbrt of negative values, where the result is NaN (C14_cbrt_nan; C14_cbrt_partial for positive values). At mean 0 pow with a constant positive integer exponent and atan2 with positive second argument are differentiable but the code gives NaN (C14_pow_zero_nan, C14_atan2_zero_nan); C14_domain is where each function of the model may give NaN. C14_all: isfinite and isnormal of UReal2."
  },
  {
   "property": "C15",
   "status": "proved",
   "theorems": [
    "Unc.Props.C15_no_ub",
    "Unc.Props.C15_ub_at_max_id"
   ],
   "note": "No undefined behaviour/assert failure below 2^31-1 constructions for any arithmetic; undefined behaviour at the bound proved with a witness program."
  },
  {
   "property": "C16",
   "status": "proved",
   "theorems": [
    "Unc.Props.C16_change_nom",
    "Unc.Props.C16_convert_structure",
    "Unc.Props.C16_convert_exact"
   ],
   "note": "change_nom; conversion: structure for any conversion, values for exact conversions."
  },
  {
   "property": "C17",
   "status": "proved",
   "theorems": [
    "Unc.Props.C17_cov_matrix_entries",
    "Unc.Props.C17_corr_matrix_entries",
    "Unc.Props.C17_size",
    "Unc.Props.C17_cov_matrix_psd",
    "Unc.Props.C17_corr_matrix",
    "Unc.Props.C17_nom_vector"
   ],
   "note": "Entries, symmetry, positive semidefiniteness, unit diagonal; vectors of fewer than 2^32 elements, with more the size of the buffer wraps and the behaviour is undefined (C17_size); reals."
  },
  {
   "property": "C18",
   "status": "proved",
   "theorems": [
    "Unc.Props.C18_corr2cov",
    "Unc.Props.C18_size_check_wraps",
    "Unc.Props.C18_corr2cov_inverse"
   ],
   "note": "Exact result and inverse of corr(); size check modulo 2^64 with a witness where it accepts a wrong size."
  },
  {
   "property": "C19",
   "status": "proved",
   "theorems": [
    "Unc.Props.C19_throws_iff",
    "Unc.Props.C19_ureals_cov",
    "Unc.Props.C19_ureals_near",
    "Unc.Props.C19_rejects",
    "Unc.Props.C19_accepts_iff",
    "Unc.Props.C19_contract_complete",
    "Unc.Props.C19_empty"
   ],
   "note": "Any n, any decomposition result satisfying the Eigen LDLT contract (Spec/Ldlt.lean; trusted base); exact reals. C19_ureals_near: with a decomposition which is exact only within epsilon, so is the covariance matrix, which is still positive semidefinite. C19_rejects, C19_accepts_iff: only positive semidefinite matrices are accepted, and all of them if the routine decomposes all of them; C19_contract_complete: such a routine exists. C19_empty: n = 0, whatever the decomposition routine."
  },
  {
   "property": "C20",
   "status": "proved",
   "theorems": [
    "Unc.Props.C20_uunary",
    "Unc.Props.C20_ubinary",
    "Unc.Props.C20_uunary_num_affine",
    "Unc.Props.C20_ubinary_num_affine",
    "Unc.Props.C20_uunary_num_tendsto",
    "Unc.Props.C20_ubinary_num_tendsto",
    "Unc.Props.C20_default_step",
    "Unc.Props.C20_uunary2",
    "Unc.Props.C20_ubinary2",
    "Unc.Props.C20_uunary2_num_quadratic",
    "Unc.Props.C20_uunary2_num_cubic",
    "Unc.Props.C20_uunary2_fwd_quadratic",
    "Unc.Props.C20_ubinary2_num_quadratic",
    "Unc.Props.C20_ubinary2_fwd_quadratic",
    "Unc.Props.C20_uunary2_num_tendsto",
    "Unc.Props.C20_uunary2_fwd_tendsto",
    "Unc.Props.C20_ubinary2_num_tendsto",
    "Unc.Props.C20_ubinary2_fwd_tendsto",
    "Unc.Props.C20_uunary2_num_result"
   ],
   "note": "All helpers of functions.hpp on both types: given derivatives are passed on; affine (UReal), quadratic (UReal2) exact for any non-zero step; limits as the step tends to 0 under differentiability. Exact real arithmetic; rounding errors of the differences are in C86."
  },
  {
   "property": "C21",
   "status": "proved",
   "theorems": [
    "Unc.Props.C21_unary",
    "Unc.Props.C21_binary",
    "Unc.Props.C21_iterators",
    "Unc.Props.C21_hess_all",
    "Unc.Props.C21_program",
    "Unc.Props.C21_ub_at_max_id"
   ],
   "note": "All programs of constructors, unary, binary, copies with fewer than 2^31-1 constructions: no UB, invariant, moments shared, independence of uninitialised storage; both iteration modes. Assumes no NaN threshold and that the eigenvalue solver reads only the lower triangle. binary_assign is treated under C34. Sharpness of the bound proved."
  },
  {
   "property": "C22",
   "status": "proved",
   "theorems": [
    "Unc.Props.C22_unary",
    "Unc.Props.C22_binary"
   ],
   "note": "Gradient, set of variables and moments of results of unary/binary, all modes, any ordered field."
  },
  {
   "property": "C23",
   "status": "partial",
   "theorems": [
    "Unc.Props.C23_unary_terms",
    "Unc.Props.C23_binary_terms",
    "Unc.Props.C23_unary_partial",
    "Unc.Props.C23_binary_partial",
    "Unc.Props.C23_neg",
    "Unc.Props.C23_add",
    "Unc.Props.C23_sub",
    "Unc.Props.C23_mul",
    "Unc.Props.C23_div_partial",
    "Unc.Props.C23_unary_behaviour",
    "Unc.Props.C23_function_of_sum",
    "Unc.Props.C23_function_of_const",
    "Unc.Props.C23_unary_false",
    "Unc.Props.C23_div_false",
    "Unc.Props.C23_binary_false"
   ],
   "note": "The statement is false for the code: C23_unary_false, C23_binary_false, C23_div_false, C23_function_of_sum. Proved: the chain rule when the full iteration is not needed or works (C23_*_partial), operators neg/add/sub/mul for all operands, exact behaviour of unary otherwise. C23_unary_terms, C23_binary_terms: for all operands the diagonal is complete, and off the diagonal only whole terms can be missing."
  },
  {
   "property": "C24",
   "status": "proved",
   "theorems": [
    "Unc.Props.C24_m1",
    "Unc.Props.C24_n_est",
    "Unc.Props.C24_n_mean",
    "Unc.Props.C24_trace",
    "Unc.Props.C24_range"
   ],
   "note": "Any number of variables, integrals over a probability space; also the assert on the argument of m()."
  },
  {
   "property": "C25",
   "status": "proved",
   "theorems": [
    "Unc.Props.C25_var",
    "Unc.Props.C25_s",
    "Unc.Props.C25_closed"
   ],
   "note": "m(2), var, s as integrals over a probability space with independent variables having the stored moments; closed form over any commutative ring. Existence of such a space for any family of distributions: Mom.stdIndep_pi."
  },
  {
   "property": "C26",
   "status": "proved",
   "theorems": [
    "Unc.Props.C26_m3",
    "Unc.Props.C26_skew"
   ],
   "note": "m(3) and skew for any number of variables. NaN for variance 0 excluded."
  },
  {
   "property": "C27",
   "status": "proved",
   "theorems": [
    "Unc.Props.C27_m4",
    "Unc.Props.C27_kurt"
   ],
   "note": "m(4) and kurt for any number of variables. NaN for variance 0 excluded."
  },
  {
   "property": "C28",
   "status": "proved",
   "theorems": [
    "Unc.Props.C28_cov",
    "Unc.Props.C28_symm",
    "Unc.Props.C28_self",
    "Unc.Props.C28_disjoint",
    "Unc.Props.C28_not_symm"
   ],
   "note": "Integral form, symmetry, self-covariance, disjoint values; without agreement on shared moments symmetry fails (C28_not_symm)."
  },
  {
   "property": "C29",
   "status": "proved",
   "theorems": [
    "Unc.Props.C29_program",
    "Unc.Props.C29_var",
    "Unc.Props.C29_cov_sq",
    "Unc.Props.C29_corr",
    "Unc.Props.C29_needs_check"
   ],
   "note": "C29_program: for all programs constructing with threshold 0 and a solver meeting the eigenvalue contract, var >= 0, s its root, |corr| <= 1. C29_needs_check: without the check the variance can be negative."
  },
  {
   "property": "C30",
   "status": "proved",
   "theorems": [
    "Unc.Props.C30_std",
    "Unc.Props.C30_central",
    "Unc.Props.C30_central_distribution",
    "Unc.Props.C30_central_checked",
    "Unc.Props.C30_unchecked"
   ],
   "note": "Both constructors; also the stored moments 5 to 8 (C30_central_distribution), zero variance with the check on, and the loss of moments with the check off (C30_unchecked)."
  },
  {
   "property": "C31",
   "status": "proved",
   "theorems": [
    "Unc.Props.C31_hamburger",
    "Unc.Props.C31_std",
    "Unc.Props.C31_central",
    "Unc.Props.C31_threshold",
    "Unc.Props.C31_no_div_zero",
    "Unc.Props.C31_disabled",
    "Unc.Props.C31_distribution_central",
    "Unc.Props.C31_distribution_std",
    "Unc.Props.C31_accepts_impossible"
   ],
   "note": "Under the eigenvalue contract of Eigen (EigenSolver) in exact arithmetic. C31_accepts_impossible: the check is weaker than its documentation."
  },
  {
   "property": "C32",
   "status": "proved",
   "theorems": [
    "Unc.Props.C32_normal",
    "Unc.Props.C32_normal_edge",
    "Unc.Props.C32_uniform",
    "Unc.Props.C32_uniform_edge",
    "Unc.Props.C32_chisquare",
    "Unc.Props.C32_chisquare_edge"
   ],
   "note": "The law of each named distribution (Gaussian, chi-square, uniform) is a Mathlib measure; its moments up to 8 are computed and compared with the stored ones, for all parameters. Degenerate and negative parameters have their own theorems."
  },
  {
   "property": "C33",
   "status": "partial",
   "theorems": [
    "Unc.Props.C33_grad_hess",
    "Unc.Props.C33_hess_mixed_partial",
    "Unc.Props.C33_function1",
    "Unc.Props.C33_function2",
    "Unc.Props.C33_computation",
    "Unc.Props.C33_mixed_false",
    "Unc.Props.C33_grad_throws",
    "Unc.Props.C33_hess_throws"
   ],
   "note": "grad and hess(x,x): proved for every computation whose nodes pass their derivatives (C33_computation), x any non-linear function of one variable. Mixed hess(x,y): proved for values that carry the right Hessian (C33_hess_mixed_partial) and for every library function of two arguments on different variables (C33_function2); false where the Hessian is wrong (C33_mixed_false, a consequence of C23/C46). Exceptions: exact conditions."
  },
  {
   "property": "C34",
   "status": "partial",
   "theorems": [
    "Unc.Props.C34_const_partial",
    "Unc.Props.C34_elementary",
    "Unc.Props.C34_elementary_wrong",
    "Unc.Props.C34_gradient",
    "Unc.Props.C34_wrong",
    "Unc.Props.C34_behaviour",
    "Unc.Props.C34_right_iff",
    "Unc.Props.C34_false",
    "Unc.Props.C34_mixed_false",
    "Unc.Props.C34_same",
    "Unc.Props.C34_same_mixed",
    "Unc.Props.C34_unmixed",
    "Unc.Props.C34_same_gradient",
    "Unc.Props.C34_same_wrong",
    "Unc.Props.C34_same_square",
    "Unc.Props.C34_same_false"
   ],
   "note": "False: for all valid operands the gradient is wrong by the gradient of x (C34_gradient), so the result differs from binary's whenever x has a non-zero first derivative (C34_wrong; C34_false, C34_mixed_false are witnesses). C34_unmixed gives the unmixed second derivatives it leaves for all operands, C34_behaviour all second derivatives and C34_right_iff the exact condition for a right result, both where the Hessian iteration works (IterOk); true for constant x with zero mixed derivative (C34_const_partial). With x and y the same object (C34_same) the first derivatives are multiplied by (1+dfdx)(1+dfdy) instead of dfdx+dfdy, right only if dfdx*dfdy = -1 (C34_same_gradient, C34_same_wrong, C34_same_square, C34_same_false), and the second derivatives left are given, the mixed ones where IterOk holds (C34_same_mixed). Left out: the mixed second derivatives where IterOk fails. The source says the function is not finished and nothing in the library calls it."
  },
  {
   "property": "C35",
   "status": "proved",
   "theorems": [
    "Unc.Props.C35_result1",
    "Unc.Props.C35_result2",
    "Unc.Props.C35_const_right",
    "Unc.Props.C35_neg",
    "Unc.Props.C35_add",
    "Unc.Props.C35_sub",
    "Unc.Props.C35_mul",
    "Unc.Props.C35_div",
    "Unc.Props.C35_abs",
    "Unc.Props.C35_exp",
    "Unc.Props.C35_exp2",
    "Unc.Props.C35_expm1",
    "Unc.Props.C35_log",
    "Unc.Props.C35_log10",
    "Unc.Props.C35_log2",
    "Unc.Props.C35_log1p",
    "Unc.Props.C35_sqrt",
    "Unc.Props.C35_cbrt",
    "Unc.Props.C35_sin",
    "Unc.Props.C35_cos",
    "Unc.Props.C35_tan",
    "Unc.Props.C35_asin",
    "Unc.Props.C35_acos",
    "Unc.Props.C35_atan",
    "Unc.Props.C35_sinh",
    "Unc.Props.C35_cosh",
    "Unc.Props.C35_tanh",
    "Unc.Props.C35_asinh",
    "Unc.Props.C35_acosh",
    "Unc.Props.C35_atanh",
    "Unc.Props.C35_erf",
    "Unc.Props.C35_erfc",
    "Unc.Props.C35_fmod",
    "Unc.Props.C35_remainder",
    "Unc.Props.C35_fmax",
    "Unc.Props.C35_fmin",
    "Unc.Props.C35_pow",
    "Unc.Props.C35_pow_int",
    "Unc.Props.C35_hypot",
    "Unc.Props.C35_atan2"
   ],
   "note": "All 31 functions and the operators on their domain of twice differentiability (cbrt also for negative values, pow also for negative base with constant integer exponent); C35_result1/2 say what the result is. isfinite/isnormal of UReal2 cannot be instantiated (DESIGN.md). Exact real arithmetic."
  },
  {
   "property": "C36",
   "status": "partial",
   "theorems": [
    "Unc.Props.C36_taylor_partial",
    "Unc.Props.C36_axis",
    "Unc.Props.C36_polynomial",
    "Unc.Props.C36_false"
   ],
   "note": "C36_false proves the property does not hold (exp(x+y) lacks the mixed term). C36_polynomial: computations with + - * and constants, any number of variables; C36_taylor_partial: one variable, or computations where the iteration over the Hessian works at each node; C36_axis: all computations, along each variable."
  },
  {
   "property": "C37",
   "status": "partial",
   "theorems": [
    "Unc.Props.C37_call1",
    "Unc.Props.C37_call2",
    "Unc.Props.C37_first_order_partial",
    "Unc.Props.C37_atan2_opposite",
    "Unc.Props.C37_atan2_false"
   ],
   "note": "C37_first_order_partial: any computation with nodes right on both sides, i.e. (C14, C35) all functions and operators except atan2 and cbrt of negative values. C37_atan2_opposite/C37_atan2_false: for atan2 the property is false, the derivatives are opposite. cbrt of negative values: C14_cbrt_nan. Exact reals."
  },
  {
   "property": "C38",
   "status": "proved",
   "theorems": [
    "Unc.Props.C38_throws",
    "Unc.Props.C38_doc_false",
    "Unc.Props.C38_total",
    "Unc.Props.C38_undefined",
    "Unc.Props.C38_second"
   ],
   "note": "C38_throws: exactly errdig <= 1 (the code; C38_doc_false: the documentation says < 1). C38_total: otherwise, with a finite errdig, always a result for all numbers, NaN and infinities included. C38_undefined: NaN or infinite errdig. Exact arithmetic. For second-order values: C38_second."
  },
  {
   "property": "C39",
   "status": "partial",
   "theorems": [
    "Unc.Props.C39_partial",
    "Unc.Props.C39_exact_partial",
    "Unc.Props.C39_default_partial",
    "Unc.Props.C39_false",
    "Unc.Props.C39_crosses_false",
    "Unc.Props.C39_second_partial"
   ],
   "note": "False for the code (C39_false: 9.6 \u00b1 25 prints as 1 \u00b1 25 by default; C39_crosses_false: 9.99 with 2.5 digits prints as 100). C39_exact_partial: if and only if characterisation of when the output is right; C39_default_partial for the default arguments. Exact arithmetic. The same for the text of second-order values, with the mean and standard deviation of the quadratic expansion as integrals: C39_second_partial."
  },
  {
   "property": "C40",
   "status": "partial",
   "theorems": [
    "Unc.Props.C40_partial",
    "Unc.Props.C40_false"
   ],
   "note": "False for the code (C40_false: 9.996 \u00b1 0.10). C40_partial: equal decimals exactly unless the mean is rounded up to a power of ten."
  },
  {
   "property": "C41",
   "status": "partial",
   "theorems": [
    "Unc.Props.C41_partial",
    "Unc.Props.C41_nonfinite_partial",
    "Unc.Props.C41_lost",
    "Unc.Props.C41_false",
    "Unc.Props.C41_second_partial"
   ],
   "note": "False for zero or non-finite uncertainty: the sign of a finite mean is always lost (C41_lost, C41_false). True otherwise (C41_partial, C41_nonfinite_partial). Second-order values: C41_second_partial."
  },
  {
   "property": "C42",
   "status": "partial",
   "theorems": [
    "Unc.Props.C42_partial",
    "Unc.Props.C42_default",
    "Unc.Props.C42_range",
    "Unc.Props.C42_crosses",
    "Unc.Props.C42_exact",
    "Unc.Props.C42_false",
    "Unc.Props.C42_second"
   ],
   "note": "True for errdig below 2, for integer errdig, and whenever rounding does not cross the threshold, when the digits asked for by the value, or by the power of ten it is rounded up to, are meant (C42_partial, C42_default). C42_exact is the exact rule for all uncertainties and errdig; C42_false shows that both literal readings of the statement fail with the default arguments. C42_crosses: what is printed when the threshold is crossed. C42_range: n or n+1 digits always. Second-order values: C42_second."
  },
  {
   "property": "C43",
   "status": "partial",
   "theorems": [
    "Unc.Props.C43_partial",
    "Unc.Props.C43_any",
    "Unc.Props.C43_tostring"
   ],
   "note": "Sign, non-zero exponent, normalised mantissa and value of the mean: always (C43_any). Value of the uncertainty: C43_partial, except where C42_crosses shows it is wrong. Numbers without uncertainty: C43_tostring."
  },
  {
   "property": "C44",
   "status": "proved",
   "theorems": [
    "Unc.Props.C44_binomial",
    "Unc.Props.C44_central_ring",
    "Unc.Props.C44_central",
    "Unc.Props.C44_std"
   ],
   "note": "Binomial table equal to Nat.choose for every row the code builds; central moments over every commutative ring and over probability spaces; standardisation."
  },
  {
   "property": "C45",
   "status": "proved",
   "theorems": [
    "Unc.Props.C45_full",
    "Unc.Props.C45_skip"
   ],
   "note": "Both modes of ConstTriIt."
  },
  {
   "property": "C46",
   "status": "partial",
   "theorems": [
    "Unc.Props.C46_skip",
    "Unc.Props.C46_full_behaviour",
    "Unc.Props.C46_full_partial",
    "Unc.Props.C46_full_iff",
    "Unc.Props.C46_full_false"
   ],
   "note": "skipmissing=true proved; skipmissing=false is false for the code (C46_full_false) and characterised exactly (C46_full_behaviour, C46_full_iff)."
  },
  {
   "property": "C47",
   "status": "proved",
   "theorems": [
    "Unc.Props.C47_cov_zero",
    "Unc.Props.C47_add_mul_const"
   ],
   "note": "Covariance 0 with everything, sum and product with a zero-uncertainty value; reals."
  },
  {
   "property": "C48",
   "status": "proved",
   "theorems": [
    "Unc.Props.C48_same_function",
    "Unc.Props.C48_converse",
    "Unc.Props.C48_atan2_false"
   ],
   "note": "C48_same_function needs every node to propagate its derivatives, which C14 proves function by function. C48_atan2_false: with atan2 it fails, atan2(x, 1) and atan(x) have opposite covariances with everything."
  },
  {
   "property": "C49",
   "status": "partial",
   "theorems": [
    "Unc.Props.C49_partial",
    "Unc.Props.C49_mean",
    "Unc.Props.C49_false"
   ],
   "note": "False in general (C49_false: exp(x+y) and exp(x)*exp(y)), because of the iteration defect of C46. True for one variable and for all computations in which the iteration works at every node (C49_partial); means, first derivatives and unmixed second derivatives always agree (C49_mean)."
  },
  {
   "property": "C50",
   "status": "proved",
   "theorems": [
    "Unc.Props.C50_identity"
   ],
   "note": "The proof evaluates the polynomial on hyper-dual numbers."
  },
  {
   "property": "C51",
   "status": "proved",
   "theorems": [
    "Unc.Props.C51_affine"
   ],
   "note": "All polynomial expressions equal to a x + b (C51_affine)."
  },
  {
   "property": "C52",
   "status": "proved",
   "theorems": [
    "Unc.Props.C52_independent"
   ],
   "note": "All polynomial expressions equal to x + y (C52_independent)."
  },
  {
   "property": "C53",
   "status": "proved",
   "theorems": [
    "Unc.Props.C53_bilinear",
    "Unc.Props.C53_cov_matrix",
    "Unc.Props.C53_corr_matrix",
    "Unc.Props.C53_nom_vector"
   ],
   "note": "C53_bilinear for all polynomial expressions equal to a x + b y + c; C53_cov_matrix, C53_corr_matrix (uncertainties not zero), C53_nom_vector for vectors of any length below 2^32, the range of the index type."
  },
  {
   "property": "C54",
   "status": "proved",
   "theorems": [
    "Unc.Props.C54_moments",
    "Unc.Props.C54_kurt",
    "Unc.Props.C54_program",
    "Unc.Props.C54_unchecked"
   ],
   "note": "C54_program for whole programs with an eigenvalue solver meeting its contract; C54_moments, C54_kurt for single values; C54_unchecked: false without the check (kurtosis 0)."
  },
  {
   "property": "C55",
   "status": "proved",
   "theorems": [
    "Unc.Props.C55_mean",
    "Unc.Props.C55_unbiased",
    "Unc.Props.C55_cubic"
   ],
   "note": "C55_cubic: degree 2 is the limit."
  },
  {
   "property": "C58",
   "status": "partial",
   "theorems": [
    "Unc.Props.C58_any",
    "Unc.Props.C58_library",
    "Unc.Props.C58_first",
    "Unc.Props.C58_partial",
    "Unc.Props.C58_polynomial",
    "Unc.Props.C58_mean",
    "Unc.Props.C58_uncertainty",
    "Unc.Props.C58_false"
   ],
   "note": "UReal: proved for all computations with the operators and functions which propagate their derivatives (C58_first; C14: all but atan2, and cbrt of negative means), and for all functions which give unary and binary numbers depending on the means only, right or not (C58_any), as all functions of the library (C58_library; over the reals, so not where a function gives NaN). UReal2: proved if the iteration over the Hessian works at every node (C58_partial, C58_polynomial); means, first derivatives and unmixed second derivatives always (C58_mean); false in general (C58_false): the uncertainty of exp(x*y+z) depends on the order in which x, y, z are created (C58_uncertainty)."
  },
  {
   "property": "C56",
   "status": "proved",
   "theorems": [
    "Unc.Props.C56_observers",
    "Unc.Props.C56_program"
   ],
   "note": "C56_program: all programs with both classes with fewer than 2^31-1 constructions, in any arithmetic in which not 0 < 0; the origins are computed by a data-flow specification. C56_observers: for any value."
  },
  {
   "property": "C59",
   "status": "proved",
   "theorems": [
    "Unc.Props.C59_program"
   ],
   "note": "C59_program: all programs with both classes with fewer than 2^31-1 constructions, including constructors which throw."
  },
  {
   "property": "C60",
   "status": "proved",
   "theorems": [
    "Unc.Props.C60_structure",
    "Unc.Props.C60_mode",
    "Unc.Props.C60_exact",
    "Unc.Props.C60_derivatives",
    "Unc.Props.C60_unary",
    "Unc.Props.C60_binary"
   ],
   "note": "C60_structure for any conversion; C60_mode for the propagation mode; C60_exact and C60_derivatives for ring homomorphisms; C60_unary and C60_binary: later operations commute with the conversion."
  },
  {
   "property": "C57",
   "status": "partial",
   "theorems": [
    "Unc.Props.C57_any",
    "Unc.Props.C57_first",
    "Unc.Props.C57_partial",
    "Unc.Props.C57_polynomial",
    "Unc.Props.C57_mean",
    "Unc.Props.C57_uncertainty",
    "Unc.Props.C57_false"
   ],
   "note": "UReal: proved for all computations with the operators and functions which propagate their derivatives (C57_first; C14: all but atan2, and cbrt of negative means), and for all functions which give unary and binary numbers depending on the means only, right or not (C57_any), as all functions of the library (C58_library; over the reals, so not where a function gives NaN). UReal2: proved if the iteration over the Hessian works at every node (C57_partial, C57_polynomial); means, first derivatives and unmixed second derivatives always (C57_mean); false in general (C57_false): exp(x*y+z) has uncertainty 1 if z is the number 0, and 0 if z is 0 +/- 0 created between x and y (C57_uncertainty)."
  },
  {
   "property": "C61",
   "status": "partial",
   "theorems": [
    "Unc.Props.C61_nonneg",
    "Unc.Props.C61_cov",
    "Unc.Props.C61_cov_zero",
    "Unc.Props.C61_var",
    "Unc.Props.C61_s",
    "Unc.Props.C61_s_again",
    "Unc.Props.C61_var_after",
    "Unc.Props.C61_corr_partial",
    "Unc.Props.C61_unary",
    "Unc.Props.C61_binary",
    "Unc.Props.C61_corr_false",
    "Unc.Props.C61_cache_false"
   ],
   "note": "Proved for every format with relative rounding error u: nothing negative under the square root (C61_nonneg), errors of cov, var, s, corr and of the coefficients in unary and binary (C61_cov, C61_var, C61_s, C61_var_after, C61_corr, C61_unary, C61_binary), repeated s() exact (C61_s_again). False in double: |corr| <= 1 (C61_corr_false), var unchanged by s() (C61_cache_false)."
  },
  {
   "property": "C62",
   "status": "partial",
   "theorems": [
    "Unc.Props.C62_cov_comm",
    "Unc.Props.C62_comm",
    "Unc.Props.C62_sub_self",
    "Unc.Props.C62_neg_neg",
    "Unc.Props.C62_sub_neg",
    "Unc.Props.C62_units",
    "Unc.Props.C62_assign",
    "Unc.Props.C62_div_false",
    "Unc.Props.C62_div_partial",
    "Unc.Props.C62_assoc_false"
   ],
   "note": "Proved for every format: C62_cov_comm, C62_comm, C62_sub_self, C62_neg_neg, C62_sub_neg, C62_units, C62_assign. False in double: quotient of equal numbers is 1 (C62_div_false: UReal(49)/UReal(49)), associativity (C62_assoc_false)."
  },
  {
   "property": "C63",
   "status": "proved",
   "theorems": [
    "Unc.Props.C63_converges",
    "Unc.Props.C63_abs",
    "Unc.Props.C63_exp",
    "Unc.Props.C63_exp2",
    "Unc.Props.C63_expm1",
    "Unc.Props.C63_log",
    "Unc.Props.C63_log10",
    "Unc.Props.C63_log2",
    "Unc.Props.C63_log1p",
    "Unc.Props.C63_sqrt",
    "Unc.Props.C63_cbrt",
    "Unc.Props.C63_sin",
    "Unc.Props.C63_cos",
    "Unc.Props.C63_tan",
    "Unc.Props.C63_asin",
    "Unc.Props.C63_acos",
    "Unc.Props.C63_atan",
    "Unc.Props.C63_sinh",
    "Unc.Props.C63_cosh",
    "Unc.Props.C63_tanh",
    "Unc.Props.C63_asinh",
    "Unc.Props.C63_acosh",
    "Unc.Props.C63_atanh",
    "Unc.Props.C63_erf",
    "Unc.Props.C63_erfc",
    "Unc.Props.C63_fmod",
    "Unc.Props.C63_remainder",
    "Unc.Props.C63_fmax",
    "Unc.Props.C63_fmin",
    "Unc.Props.C63_pow",
    "Unc.Props.C63_hypot"
   ],
   "note": "C63_converges for whole computations; C63_abs ... C63_hypot show that the functions of math.hpp meet its hypothesis when the <cmath> functions are correctly rounded (all but atan2, whose derivatives have the wrong sign, C14_atan2_false; cbrt for positive means). Formats have no overflow and no NaN."
  },
  {
   "property": "C64",
   "status": "partial",
   "theorems": [
    "Unc.Props.C64_forward",
    "Unc.Props.C64_forward2",
    "Unc.Props.C64_default_step",
    "Unc.Props.C64_elementary",
    "Unc.Props.C64_large_false"
   ],
   "note": "C64_forward, C64_forward2: the numerical derivatives tend to the true ones when the precision increases and the step tends to 0 more slowly than the accuracy of the function; C64_default_step: the default step sqrt(epsilon) does so; C64_elementary: the whole result. What fails: the step is absolute, so in double it is lost for means of at least 2^28, and every function then gives uncertainty 0 (C64_large_false). Formats have no overflow and no NaN."
  },
  {
   "property": "C65",
   "status": "proved",
   "theorems": [
    "Unc.Props.C65_erase",
    "Unc.Props.C65_unary",
    "Unc.Props.C65_binary",
    "Unc.Props.C65_nary",
    "Unc.Props.C65_assign",
    "Unc.Props.C65_accumulate",
    "Unc.Props.C65_quadratic"
   ],
   "note": "The cost counted is the number of assignments to coefficients. C65_erase: counting does not change the results; C65_unary, C65_binary, C65_nary, C65_assign: exact counts; C65_quadratic: n(n+1)/2 for x = x + u (the 'about 500000' of the documentation is 500500); C65_accumulate: linear for x += u. The searches in std::map (logarithmic) and allocations are not counted."
  },
  {
   "property": "C66",
   "status": "partial",
   "theorems": [
    "Unc.Props.C66_converges",
    "Unc.Props.C66_var_false",
    "Unc.Props.C66_zero_derivative_false",
    "Unc.Props.C66_exp",
    "Unc.Props.C66_exp2",
    "Unc.Props.C66_expm1",
    "Unc.Props.C66_log",
    "Unc.Props.C66_log10",
    "Unc.Props.C66_log2",
    "Unc.Props.C66_log1p",
    "Unc.Props.C66_sqrt",
    "Unc.Props.C66_cbrt",
    "Unc.Props.C66_sin",
    "Unc.Props.C66_cos",
    "Unc.Props.C66_tan",
    "Unc.Props.C66_asin",
    "Unc.Props.C66_acos",
    "Unc.Props.C66_atan",
    "Unc.Props.C66_sinh",
    "Unc.Props.C66_cosh",
    "Unc.Props.C66_tanh",
    "Unc.Props.C66_asinh",
    "Unc.Props.C66_acosh",
    "Unc.Props.C66_atanh",
    "Unc.Props.C66_erf",
    "Unc.Props.C66_erfc",
    "Unc.Props.C66_abs",
    "Unc.Props.C66_fmod",
    "Unc.Props.C66_remainder",
    "Unc.Props.C66_fmax",
    "Unc.Props.C66_fmin",
    "Unc.Props.C66_pow",
    "Unc.Props.C66_hypot",
    "Unc.Props.C66_atan2"
   ],
   "note": "C66_converges: whole computations with the operators and the functions of math.hpp (C66_exp ... C66_atan2), in any sequence of formats with accuracy tending to 0: no undefined behaviour in fine enough formats, and mean, corrected mean, moments, covariances, and (variance not 0) standard deviation, skewness, kurtosis and correlation approach those of the same library with exact real numbers. Needs second derivatives not 0, or 0 without rounding: C66_zero_derivative_false shows that it is false otherwise (sine near pi). C66_var_false: in double the variance of x*x + y*y can be -64. No overflow, NaN, infinities; correctly rounded <cmath>."
  },
  {
   "property": "C67",
   "status": "proved",
   "theorems": [
    "Unc.Props.C67_affine",
    "Unc.Props.C67_limit",
    "Unc.Props.C67_chebyshev",
    "Unc.Props.C67_coverage"
   ],
   "note": "Exact reals. Computations as in C13 (all functions of math.hpp on their domain except atan2). C67_affine: exact for affine functions with any uncertainties. C67_limit, C67_chebyshev, C67_coverage: limit of small uncertainties for all functions; C67_coverage needs normal errors. The results whose limit probability is considered are measurable functions."
  },
  {
   "property": "C68",
   "status": "partial",
   "theorems": [
    "Unc.Props.C68_s_float_partial",
    "Unc.Props.C68_visible_partial",
    "Unc.Props.C68_visible2_partial",
    "Unc.Props.C68_shown",
    "Unc.Props.C68_constructor",
    "Unc.Props.C68_s_partial",
    "Unc.Props.C68_s_double_partial",
    "Unc.Props.C68_divide_false",
    "Unc.Props.C68_corr_false",
    "Unc.Props.C68_overflow_false",
    "Unc.Props.C68_underflow_false",
    "Unc.Props.C68_tiny_false",
    "Unc.Props.C68_rounding",
    "Unc.Props.C68_limits",
    "Unc.Props.C68_limits_div",
    "Unc.Props.C68_finite",
    "Unc.Props.C68_div_zero",
    "Unc.Props.C68_unary",
    "Unc.Props.C68_compare"
   ],
   "note": "double modelled with 53 digits, ties to even, gradual underflow, infinities and NaN (one zero without sign; see C89 for signed zeros). C68_visible_partial, C68_visible2_partial: ordinary results are those without limit on the range, for all computations with the operators whose divisors do not have infinite means, and correlations whose denominator is not infinite. Without these conditions it is false: C68_divide_false, C68_corr_false. C68_s_partial, C68_s_double_partial: the uncertainty is accurate if the squares of the coefficients do not underflow and their sum does not overflow; C68_overflow_false, C68_underflow_false outside, C68_tiny_false for the quotient of small numbers. C68_shown: non-finite coefficients show in the uncertainty. C68_constructor: exactly which uncertainties are refused. C68_rounding: the rounding of the model is the one of IEEE 754, defined independently (nearest, ties to even). C68_limits, C68_limits_div, C68_finite, C68_div_zero, C68_unary, C68_compare: what the operations do with infinities and NaN, as limits (zero has no sign in the model). The uncertainty in float: C68_s_float_partial."
  },
  {
   "property": "C69",
   "status": "partial",
   "theorems": [
    "Unc.Props.C69_throws",
    "Unc.Props.C69_digits_partial",
    "Unc.Props.C69_error_partial",
    "Unc.Props.C69_frac_partial",
    "Unc.Props.C69_default_partial",
    "Unc.Props.C69_tostring_partial",
    "Unc.Props.C69_special",
    "Unc.Props.C69_tiny_false",
    "Unc.Props.C69_tiny_constant_false",
    "Unc.Props.C69_wide_false",
    "Unc.Props.C69_assert_false"
   ],
   "note": "format in double (C68's numbers), the part in float included; log10, pow, fmod correctly rounded. C69_digits_partial, C69_error_partial, C69_frac_partial, C69_default_partial: uncertainties from 1e-280 to 1e280, up to 13 digits, means at most 10^(12-digits) times the uncertainty, no mean within a unit of a power of ten unless it is three times the uncertainty; the text reads back as the rounding of numbers within 4e-16 of the given ones. C69_tostring_partial: numbers without uncertainty. C69_throws, C69_special: errdig at most 1, infinities and NaN. False outside: C69_tiny_false and C69_tiny_constant_false (below 1e-310 or 1e-305), C69_wide_false (mean above 1e310 times the uncertainty), C69_assert_false (999999999999999 with uncertainty 20)."
  },
  {
   "property": "C70",
   "status": "partial",
   "theorems": [
    "Unc.Props.C70_exact_partial",
    "Unc.Props.C70_polynomial",
    "Unc.Props.C70_limit_partial",
    "Unc.Props.C70_false",
    "Unc.Props.C70_limit_false",
    "Unc.Props.C70_mean_var_cov"
   ],
   "note": "C70_exact_partial, C70_polynomial: for functions of degree at most 2, mean, standard deviation, moments 2 to 4, skewness, kurtosis, covariances are exactly those of the random variables, if there is one variable or the Hessian iteration works at each node (always with + - * and constants). C70_limit_partial: for any functions and bounded errors of size t, the mean is right to o(t^2), the moment r to o(t^(r+1)), covariances to o(t^3), under the same condition. False in general: C70_false (the variance of pow(x+y,2)), C70_limit_false (its third moment, at order t^4). C70_mean_var_cov: mean o(t^2), variance and covariances o(t^3) hold for all computations, without that condition."
  },
  {
   "property": "C71",
   "status": "proved",
   "theorems": [
    "Unc.Props.C71_cumulants",
    "Unc.Props.C71_quadratic",
    "Unc.Props.C71_normal",
    "Unc.Props.C71_normal_cov",
    "Unc.Props.C71_squares",
    "Unc.Props.C71_chisquare"
   ],
   "note": "C71_cumulants: any number of values without common variables. C71_quadratic: any polynomial of degree at most 2 of independent variables, moments and covariances. C71_normal, C71_squares, C71_chisquare: the distributions which reproduce, for the values made by normal() and chisquare(). C71_normal_cov: covariance of quadratic polynomials of normal variables, with the test of a shared square as an example. The expressions are only required to be the right polynomial."
  },
  {
   "property": "C72",
   "status": "partial",
   "theorems": [
    "Unc.Props.C72_first",
    "Unc.Props.C72_second",
    "Unc.Props.C72_first_partial",
    "Unc.Props.C72_second_const",
    "Unc.Props.C72_first_exact",
    "Unc.Props.C72_first_const",
    "Unc.Props.C72_false"
   ],
   "note": "No laws of the number type are used: the statements hold for double, NaN and infinities included. C72_second: UReal2, in full. C72_first: UReal, with a / b read as a * (1 / b), which is what the code does; C72_first_partial: expressions without /; C72_first_exact: all expressions if the arithmetic is exact; C72_false: 49 / 49 in double. C72_first_const, C72_second_const: arguments without uncertainty."
  },
  {
   "property": "C73",
   "status": "partial",
   "theorems": [
    "Unc.Props.C73_written",
    "Unc.Props.C73_ub",
    "Unc.Props.C73_vector",
    "Unc.Props.C73_same_array",
    "Unc.Props.C73_stream",
    "Unc.Props.C73_stream_false",
    "Unc.Props.C73_overlap_false"
   ],
   "note": "C73_written, C73_ub, C73_vector: iterators which can be read more than once, in any arithmetic. C73_same_array: input and output in the same array without overlap; C73_overlap_false: with overlap. C73_stream, C73_stream_false: iterators which read a stream, for which the template parameter is named but the code does not work."
  },
  {
   "property": "C74",
   "status": "proved",
   "theorems": [
    "Unc.Props.C74_unary_stored",
    "Unc.Props.C74_binary_stored",
    "Unc.Props.C74_iterations",
    "Unc.Props.C74_pair_iterations",
    "Unc.Props.C74_sparse",
    "Unc.Props.C74_linear",
    "Unc.Props.C74_size"
   ],
   "note": "C74_unary_stored, C74_binary_stored: exactly which elements are stored, in any arithmetic (the elements next to the diagonal include ones which should not be there and leave out ones which should: the values are C23's concern). C74_sparse, C74_linear, C74_size: programs. C74_iterations, C74_pair_iterations: number of steps of the loops."
  },
  {
   "property": "C75",
   "status": "partial",
   "theorems": [
    "Unc.Props.C75_calls",
    "Unc.Props.C75_tri_defined",
    "Unc.Props.C75_hess_defined",
    "Unc.Props.C75_ne_end",
    "Unc.Props.C75_ne_false"
   ],
   "note": "C75_calls: all sequences of calls, any number type. C75_tri_defined, C75_hess_defined: the loops over what is stored are defined exactly if each pair is of stored variables (or, for the second, there are no variables). C75_ne_end, C75_ne_false: operator!= is right for the comparison with the end, which is the only one the library makes, but does not tell apart two positions in the same row or column."
  },
  {
   "property": "C76",
   "status": "partial",
   "theorems": [
    "Unc.Props.C76_again_partial",
    "Unc.Props.C76_integer_partial",
    "Unc.Props.C76_default_partial",
    "Unc.Props.C76_digits_false",
    "Unc.Props.C76_carry_false",
    "Unc.Props.C76_sign_false"
   ],
   "note": "The code violates the property. C76_again_partial: any errdig above 1, under three conditions. C76_integer_partial: integer errdig. C76_default_partial: exact conditions with the default arguments. C76_digits_false, C76_carry_false, C76_sign_false: each condition is needed. Exact arithmetic."
  },
  {
   "property": "C77",
   "status": "partial",
   "theorems": [
    "Unc.Props.C77_exponent",
    "Unc.Props.C77_text_partial",
    "Unc.Props.C77_lost",
    "Unc.Props.C77_tostring",
    "Unc.Props.C77_false",
    "Unc.Props.C77_exponent_false"
   ],
   "note": "The code violates the property. C77_text_partial: the output is the only text that writes the two rounded numbers, except that a mean rounded up to a power of ten has its last digit one place above; it excludes the numbers printed wrong (C39). C77_lost: the exact text when the mean loses a digit. C77_exponent: when and which exponent, for all s and errdig > 1. C77_tostring: numbers without uncertainty. C77_false, C77_exponent_false: 9.6 \u00b1 4 prints as (1 \u00b1 0.4)e+1. Exact arithmetic."
  },
  {
   "property": "C78",
   "status": "partial",
   "theorems": [
    "Unc.Props.C78_accepts_partial",
    "Unc.Props.C78_rejects",
    "Unc.Props.C78_sharp",
    "Unc.Props.C78_false",
    "Unc.Props.C78_accepts_false",
    "Unc.Props.C78_normal",
    "Unc.Props.C78_chisquare",
    "Unc.Props.C78_uniform",
    "Unc.Props.C78_margin",
    "Unc.Props.C78_tests"
   ],
   "note": "The code violates the property with its default threshold 0. C78_accepts_partial: possible moments are accepted if the threshold is at least \u03b5/(1-\u03b5). C78_sharp: with a smaller one a two-point distribution may be rejected. C78_rejects: what is accepted is impossible at most by (t(1+\u03b5)+\u03b5)N. C78_false, C78_accepts_false: with threshold 0 both directions fail. C78_normal, C78_uniform, C78_chisquare: the distributions of the library pass with threshold 0 if \u03b5 is at most 1/7500, 1/340, 10^-9. C78_margin: moments at a distance from the impossible ones are accepted by every solver with a small enough error. C78_tests: so are all rows of test/checkmom.cpp (decimal numbers taken exactly) if \u03b5 is at most 10^-13. The solver is assumed backward stable with relative error \u03b5; the arithmetic outside it (moments, threshold times maximum) is exact."
  },
  {
   "property": "C79",
   "status": "partial",
   "theorems": [
    "Unc.Props.C79_formats",
    "Unc.Props.C79_values",
    "Unc.Props.C79_pairs",
    "Unc.Props.C79_values2",
    "Unc.Props.C79_pairs2",
    "Unc.Props.C79_double_false",
    "Unc.Props.C79_float_false"
   ],
   "note": "Proved for floating point of any precision without limits of the exponent, with every rounding error included: in a dimensionally correct calculation with the operators a change of units by powers of two changes means, uncertainties, variances, covariances and central moments exactly as their units and leaves correlations, skewness and kurtosis bit for bit the same, at both orders (C79_formats, C79_values, C79_pairs, C79_values2, C79_pairs2). False with the limits of the types: kurt() computes s2*s2, which overflows or underflows long before the result, so in double it fails for uncertainties from 2^256 or to 2^-269, in float from 2^32 or to 2^-38 (C79_double_false, C79_float_false)."
  },
  {
   "property": "C80",
   "status": "proved",
   "theorems": [
    "Unc.Props.C80_half",
    "Unc.Props.C80_moments",
    "Unc.Props.C80_first",
    "Unc.Props.C80_mean",
    "Unc.Props.C80_cov",
    "Unc.Props.C80_sdev",
    "Unc.Props.C80_linear",
    "Unc.Props.C80_function",
    "Unc.Props.C80_exp",
    "Unc.Props.C80_sin",
    "Unc.Props.C80_cos",
    "Unc.Props.C80_log",
    "Unc.Props.C80_sqrt",
    "Unc.Props.C80_hypot",
    "Unc.Props.C80_calls",
    "Unc.Props.C80_size",
    "Unc.Props.C80_lip",
    "Unc.Props.C80_abs",
    "Unc.Props.C80_exp2",
    "Unc.Props.C80_expm1",
    "Unc.Props.C80_log10",
    "Unc.Props.C80_log2",
    "Unc.Props.C80_log1p",
    "Unc.Props.C80_cbrt",
    "Unc.Props.C80_tan",
    "Unc.Props.C80_tanh",
    "Unc.Props.C80_sinh",
    "Unc.Props.C80_cosh",
    "Unc.Props.C80_asin",
    "Unc.Props.C80_acos",
    "Unc.Props.C80_atan",
    "Unc.Props.C80_asinh",
    "Unc.Props.C80_acosh",
    "Unc.Props.C80_atanh",
    "Unc.Props.C80_erf",
    "Unc.Props.C80_erfc",
    "Unc.Props.C80_pow",
    "Unc.Props.C80_atan2",
    "Unc.Props.C80_fmod",
    "Unc.Props.C80_remainder",
    "Unc.Props.C80_fmax",
    "Unc.Props.C80_fmin",
    "Unc.Props.C80_kurt",
    "Unc.Props.C80_skew",
    "Unc.Props.C80_corr"
   ],
   "note": "For floating point of any precision without limits of the exponent, every calculation with unary -, +, -, *, / and with functions of one or two variables at second order: first order value, n() in both modes, central moments 1 to 4, covariances, s(), skew(), kurt() and corr() (C80_first, C80_moments, C80_mean, C80_cov, C80_sdev, C80_skew, C80_kurt, C80_corr), with explicit numbers of roundings; C80_linear bounds the error of k roundings by ku/(1-ku). The bounds are relative to the sums of the magnitudes of the terms, where the magnitude of 1/b is the one of b over the square of b; C66_var_false shows that no bound relative to the variance itself is possible. A calculation has to be Safe: the bound of the error of the first order value of each divisor is at most the half of it, the computed functions and derivatives have errors of a stated number of roundings of a stated magnitude, and the first order value of each numerator and each second derivative of a function is zero in all the calculations or in none, because the iterators skip entries when a second derivative is zero (C66_zero_derivative_false). The hypothesis on the functions is proved for all functions of the library when the mathematical functions of C++ are correctly rounded (C80_exp, C80_sin, C80_log, C80_pow, C80_atan2, C80_fmod and so on, one theorem for each): explicitly for abs, exp, sin, cos, log, sqrt, atan, hypot, fmax and fmin; for the others given a bound of the change of the mathematical function near the argument (C80_lip gets it from a bound of the derivative), and where the denominators are known to half of their value and the second derivatives are zero or distinguished from zero. C80_calls is the connection with the functions of the library."
  },
  {
   "property": "C81",
   "status": "partial",
   "theorems": [
    "Unc.Props.C81_visible_partial",
    "Unc.Props.C81_ratios_partial",
    "Unc.Props.C81_shown",
    "Unc.Props.C81_divide_false",
    "Unc.Props.C81_skew_false"
   ],
   "note": "False: a mean that overflows and is then divided by gives an ordinary 0 with uncertainty 0 (C81_divide_false, 2^1000/(2^512*(2^512\u00b11))), and skew() gives 0 where the skewness is 0.09 because s*m2 overflows before the third moment does (C81_skew_false). Proved for every type with a largest number of at least 2 in which 2 and 1/2 are numbers: if no mean by which the calculation divides is infinite, every mean, n() in both modes, central moment, s() and covariance that is an ordinary number is the one without limits on the range (C81_visible_partial), and so are skew, kurt and corr where the product by which they divide is not infinite (C81_ratios_partial). A derivative which is infinite or NaN always makes variance and uncertainty infinite or NaN, and a second derivative with respect to one variable also the mean (C81_shown). One zero without sign; see C89 for signed zeros."
  },
  {
   "property": "C82",
   "status": "partial",
   "theorems": [
    "Unc.Props.C82_after_partial",
    "Unc.Props.C82_after2_partial",
    "Unc.Props.C82_threads_partial",
    "Unc.Props.C82_across_partial",
    "Unc.Props.C82_joined_false",
    "Unc.Props.C82_rounding_false"
   ],
   "note": "False for what is computed from variables of different threads after they have finished: at second order already with exact arithmetic the variance of exp(x*y+z) is 5/2 or 3/2 depending on whether z was created after y or between x and y by another thread (C82_joined_false), and at first order in double the variance of a sum of three variables is 2^54 or 2^54+4 (C82_rounding_false). Proved, in any arithmetic in which 0<0 is false and for both classes: after a sequential phase, a thread which makes the same calls receives the same return values and exceptions and all answers about the variables it sees are the same, whatever race-free calls the other threads make, however the calls are interleaved and whatever uninitialised storage contains (C82_threads_partial); so are covariance and correlation of UReal variables of two threads (C82_across_partial). For UReal variables and exact arithmetic the schedule cannot be seen afterwards either: any further calls which use the variables of all threads return the same values and leave the same means, uncertainties, covariances and correlations (C82_after_partial). The same holds for UReal2 variables in exact arithmetic, with the third and fourth moments, gradients and Hessians, if in the calls made after the threads each operand has second derivative 0, as with + - *, or satisfies isindep() (C82_after2_partial). The increment of the counter is assumed atomic, as for C08."
  },
  {
   "property": "C83",
   "status": "partial",
   "theorems": [
    "Unc.Props.C83_enough",
    "Unc.Props.C83_kept_partial",
    "Unc.Props.C83_assign",
    "Unc.Props.C83_add_partial",
    "Unc.Props.C83_false",
    "Unc.Props.C83_defined_partial",
    "Unc.Props.C83_second_enough",
    "Unc.Props.C83_second_kept_partial",
    "Unc.Props.C83_second_defined_partial",
    "Unc.Props.C83_second_false"
   ],
   "note": "False for compound assignments and for copy assignments: binary_assign overwrites the coefficients before the nominal value and the cached uncertainty, so that after x *= y has thrown std::bad_alloc the uncertainty of x is 1 while cov(x, x) is 4, and a constant sum to which sum += z was applied is correlated but has uncertainty 0; after a failed copy the mean is the new one without uncertainty (C83_false). The exact state after a failed compound assignment is in C83_assign. Proved: for each call there is the number of allocations it needs (C83_enough); all variables except the one assigned to, and all variables for the other calls, are unchanged (C83_kept_partial); += and -= with an independent variable keep the value (C83_add_partial); programs that go on after such exceptions have no undefined behaviour and keep the class invariants apart from the cache (C83_defined_partial). For UReal2: the calls with enough allocations and the variables kept as at first order (C83_second_enough, C83_second_kept_partial); false for copy assignments, which can leave a variable with the mixed derivatives of the old value and without its first map, whose covariances and third moment are undefined behaviour (C83_second_false); undefined behaviour is possible only after such a copy into a variable with mixed derivatives (C83_second_defined_partial)."
  },
  {
   "property": "C84",
   "status": "partial",
   "theorems": [
    "Unc.Props.C84_unread",
    "Unc.Props.C84_swap",
    "Unc.Props.C84_swap_self",
    "Unc.Props.C84_left",
    "Unc.Props.C84_left_second",
    "Unc.Props.C84_false",
    "Unc.Props.C84_defined_partial"
   ],
   "note": "False: the cached uncertainty of UReal is not moved. After the uncertainty of z = x + y was read, t = std::move(z) leaves z with uncertainty 5, no dependencies and covariance 0 with itself, and z = std::move(z) loses the value (C84_false); what is left is in C84_left. Proved: programs which do not read variables that were moved from, before assigning to them, do the same as with copies, whatever moves leave in the maps (C84_unread), for instance std::swap, also of a variable with itself as in ureals (C84_swap, C84_swap_self); a UReal2 which was moved from is a constant with the same mean (C84_left_second); reading variables that were moved from is never undefined behaviour if the maps are left empty, as in the known standard libraries (C84_defined_partial)."
  },
  {
   "property": "C85",
   "status": "proved",
   "theorems": [
    "Unc.Props.C85_throws_iff",
    "Unc.Props.C85_returns",
    "Unc.Props.C85_cov",
    "Unc.Props.C85_near",
    "Unc.Props.C85_false"
   ],
   "note": "For every format: exceptions exactly as in exact arithmetic (C85_throws_iff), otherwise it returns, without undefined behaviour or failed assert, with exact means and coefficients which are the numbers of the decomposition rounded (C85_returns). With relative rounding error u, the covariances are those of the decomposition up to n + 4 roundings and the uncertainties up to n + 6 (C85_cov), so those asked for within the error of the decomposition and n + 4 roundings (C85_near). Nothing better than an error bound holds: in double, with an exact decomposition, one variable of variance 2 gets a larger variance (C85_false). The error of Eigen::LDLT is an argument, not proved; numbers do not overflow or underflow."
  },
  {
   "property": "C86",
   "status": "proved",
   "theorems": [
    "Unc.Props.C86_forward",
    "Unc.Props.C86_forward2",
    "Unc.Props.C86_central",
    "Unc.Props.C86_fwd",
    "Unc.Props.C86_fwd2",
    "Unc.Props.C86_central2",
    "Unc.Props.C86_forward_double",
    "Unc.Props.C86_central_double",
    "Unc.Props.C86_offset_false"
   ],
   "note": "For every format with relative rounding error u <= 1/8, every step > 0, every function implemented with relative error c near the mean: the forward differences of uunary and ubinary (C86_forward, C86_forward2) and of the second derivatives from given first derivatives (C86_fwd, C86_fwd2), the central differences of uunary2 (C86_central) and ubinary2 with the mixed derivative (C86_central2; these two for formats where doubling is exact). In double with the default steps: C86_forward_double (coefficients of the result) and C86_central_double. The bounds are relative to the function and not to its change, and cannot be otherwise: C86_offset_false. Numbers do not overflow or underflow."
  },
  {
   "property": "C87",
   "status": "proved",
   "theorems": [
    "Unc.Props.C87_m1",
    "Unc.Props.C87_m2",
    "Unc.Props.C87_m3",
    "Unc.Props.C87_m4",
    "Unc.Props.C87_cov",
    "Unc.Props.C87_growth",
    "Unc.Props.C87_sparse_false"
   ],
   "note": "The moment functions are run on numbers that count their own additions and multiplications (Spec/Tally.lean); the theorems state that the values are those of the original run and give the count. Exactly: n for the mean (C87_m1), 3 n^2 + 6 n for the second moment (C87_m2), 2 n n' + 9 c + 3 t for the covariance (C87_cov). Third and fourth moment: explicit lower and upper bounds in the numbers of variables and of stored off-diagonal elements (C87_m3, C87_m4), of the same order n^3 and n^4 (C87_growth). The order does not improve for sparse values: C87_sparse_false. Searches in the maps and steps of the iterators are not counted."
  },
  {
   "property": "C88",
   "status": "partial",
   "theorems": [
    "Unc.Props.C88_cov",
    "Unc.Props.C88_formula",
    "Unc.Props.C88_formula_false",
    "Unc.Props.C88_indep",
    "Unc.Props.C88_full_partial",
    "Unc.Props.C88_full_false",
    "Unc.Props.C88_print",
    "Unc.Props.C88_io",
    "Unc.Props.C88_readme",
    "Unc.Props.C88_print_second"
   ],
   "note": "The examples are proved with arbitrary numbers (C88_cov, C88_indep, C88_readme) or as they stand (C88_print, C88_print_second, C88_io). Two statements of the documentation are false: the formula of the covariance is a sum over all pairs of variables (C88_formula_false; C88_formula is the sum which is computed), and independent variables have zero or full correlation only if their uncertainties are not zero (C88_full_partial, C88_full_false). The examples of the second-order class are instances of C36, C55 and C56."
  },
  {
   "property": "C89",
   "status": "partial",
   "theorems": [
    "Unc.Props.C89_first_partial",
    "Unc.Props.C89_pairs_partial",
    "Unc.Props.C89_exact",
    "Unc.Props.C89_false",
    "Unc.Props.C89_second_partial",
    "Unc.Props.C89_ratios_partial",
    "Unc.Props.C89_exact_second",
    "Unc.Props.C89_ieee_signs",
    "Unc.Props.C89_division",
    "Unc.Props.C89_minus"
   ],
   "note": "False: with x = y = 0 the expression 1/(1/x + 1/y) is 0, and NaN if y is -0 (C89_false). Proved for all computations with the operators in every type with signed zeros, infinities and NaN, if no mean by which they divide is infinite (no matter whether it is zero): means, uncertainties, variances, covariances, and correlations where the product of the uncertainties is not infinite, at second order also n(), the central moments, skewness and kurtosis, are the same ordinary numbers or in both cases not ordinary numbers (C89_first_partial, C89_pairs_partial, C89_second_partial, C89_ratios_partial). If no mean by which they divide is zero the results are those of a type with only one zero, infinities and NaN included, so that C68 and C81 hold for them (C89_exact, C89_exact_second). The signs themselves are those of section 6.3 of IEEE 754 (C89_ieee_signs, C89_division), and x - y is exactly x + -y, (-x) * (-y) exactly x * y and (-x) / (-y) exactly x / y, signs of zero derivatives included, for all values (C89_minus). The functions of math.hpp are not covered: atan2 and the functions of infinite arguments depend on the sign."
  },
  {
   "property": "C90",
   "status": "partial",
   "theorems": [
    "Unc.Props.C90_add_comm",
    "Unc.Props.C90_neg_neg",
    "Unc.Props.C90_sub",
    "Unc.Props.C90_units",
    "Unc.Props.C90_sub_self",
    "Unc.Props.C90_mul_comm_partial",
    "Unc.Props.C90_cov_partial",
    "Unc.Props.C90_var_partial",
    "Unc.Props.C90_cov_false",
    "Unc.Props.C90_var_false",
    "Unc.Props.C90_mul_false"
   ],
   "note": "Proved for every rounding: sums do not depend on the order (C90_add_comm), x - y = x + (-y) = -(y - x) (C90_sub), -(-x) = x (C90_neg_neg), x - x is zero without uncertainty, bias, higher moments or correlation (C90_sub_self), x + 0, x - 0, x * 1, x / 1 are x (C90_units), all elements of the result being identical. For formats where halving is exact, products do not depend on the order if no mixed second derivative of a factor belongs to two shared variables (C90_mul_comm_partial), and cov(x, y) = cov(y, x), var(x) = cov(x, x) for values without second derivatives with respect to one variable (C90_cov_partial, C90_var_partial). Otherwise false with double: C90_mul_false, C90_cov_false, C90_var_false."
  },
  {
   "property": "C91",
   "status": "proved",
   "theorems": [
    "Unc.Props.C91_erase",
    "Unc.Props.C91_unary",
    "Unc.Props.C91_binary",
    "Unc.Props.C91_quadratic",
    "Unc.Props.C91_sum",
    "Unc.Props.C91_product"
   ],
   "note": "Exact counts for every numeric type (C91_unary, C91_binary; C91_erase relates the counted functions to the model). The count for functions with a second derivative is small because pairs which are not stored are not computed (C33, C74). Divisions by 2, comparisons and searches in the maps are not counted."
  },
  {
   "property": "C92",
   "status": "proved",
   "theorems": [
    "Unc.Props.C92_exact",
    "Unc.Props.C92_cov",
    "Unc.Props.C92_formats",
    "Unc.Props.C92_accumulate",
    "Unc.Props.C92_sharp"
   ],
   "note": "Any format with the integers up to N (C92_formats: 2^53 for double, 2^24 for float, not one more; C92_sharp: one beyond is wrong). Operators +, -, * and the assignments in any combination, also the same object on both sides; no divisions. Intermediate results need not be small, only the numbers asked for. The infinities of the format are not considered (with C68 no overflow can be hidden)."
  },
  {
   "property": "C93",
   "status": "proved",
   "theorems": [
    "Unc.Props.C93_exact",
    "Unc.Props.C93_cov",
    "Unc.Props.C93_formats",
    "Unc.Props.C93_central",
    "Unc.Props.C93_sharp"
   ],
   "note": "Any format with the numbers n/2^e, |n| <= N, e <= E (C93_formats: 2^53 and 1074 for double, 2^24 and 149 for float; C93_sharp: the integer N + 1 is wrong). Operators +, -, * in any combination, no divisions. The sizes are computed by the same calculation with the dyadic numbers of Spec/Integers2, each number being exact if its own size is small, whatever the sizes of the other numbers. The exact result is the calculation with real numbers, whose moments are those of the second-order expansion by C22-C28. C93_central: the constructor from central moments with an integer uncertainty."
  },
  {
   "property": "C94",
   "status": "partial",
   "theorems": [
    "Unc.Props.C94_uncertainty_partial",
    "Unc.Props.C94_central_partial",
    "Unc.Props.C94_stored_partial",
    "Unc.Props.C94_moments_partial",
    "Unc.Props.C94_uncertainty_false",
    "Unc.Props.C94_variance_false",
    "Unc.Props.C94_fourth_false",
    "Unc.Props.C94_tiny_false",
    "Unc.Props.C94_double_partial"
   ],
   "note": "False for small uncertainties in double: the uncertainty 2^-540 comes back as 0 (C94_uncertainty_false); made with central moments, a standard deviation of 2^-140 gives a fourth moment which is never a number (C94_fourth_false) and 2^-270 a variance and an uncertainty which are never numbers (C94_tiny_false), whatever the other moments are. Proved without underflow: s() is exactly the given uncertainty in every binary format rounding to nearest even (C94_uncertainty_partial, underflow being only that of its square; C94_double_partial in double, where the square must not overflow either), and the correctly rounded square root of the given variance (C94_central_partial); the other moments in formats without a limit on the exponents, with the number of roundings (C94_stored_partial, C94_moments_partial). The variance does not come back exactly (C94_variance_false). The constructors are those of the model after the check of the moments."
  },
  {
   "property": "C95",
   "status": "partial",
   "theorems": [
    "Unc.Props.C95_cov_partial",
    "Unc.Props.C95_jitter_partial",
    "Unc.Props.C95_corr_partial",
    "Unc.Props.C95_back_partial",
    "Unc.Props.C95_refused",
    "Unc.Props.C95_false",
    "Unc.Props.C95_ureals_false",
    "Unc.Props.C95_second_false",
    "Unc.Props.C95_second_partial"
   ],
   "note": "False in double: the covariance matrix of two multiples of one variable, as the library computes it, can have a negative determinant (C95_false), and ureals with a decomposition without errors then refuses it with std::runtime_error (C95_ureals_false); at second order even the matrix of a single value can be a negative number, -64 for x*x + y*y with x = \u00b123203 and y = \u00b11, which ureals with a decomposition without errors refuses (C95_second_false). Proved with rounding of relative error u and at most K variables for each value: the matrices are exactly symmetric, the elements have an error of K roundings relative to the product of the uncertainties, the quadratic form is not less than minus the same error (C95_cov_partial), and the matrix is positive semidefinite after multiplying the diagonal by 1 + n((1+u)^K - 1)/(1-u)^K (C95_jitter_partial); the same for correlations with 2K+4 roundings if no uncertainty is zero (C95_corr_partial); ureals given the matrix back returns the means and the covariances within the errors if the decomposition succeeds (C95_back_partial), and refuses every matrix that is not positive semidefinite if it is exact (C95_refused). At second order with possible moments: the elements are those of the exact formulas within the errors of C80, and the quadratic form is not less than minus these errors (C95_second_partial; no symmetry, see C90). Formats without a limit on the exponents."
  },
  {
   "property": "C96",
   "status": "partial",
   "theorems": [
    "Unc.Props.C96_widen",
    "Unc.Props.C96_widen2",
    "Unc.Props.C96_cov_partial",
    "Unc.Props.C96_sdev_partial",
    "Unc.Props.C96_cached",
    "Unc.Props.C96_corr_partial",
    "Unc.Props.C96_moments_partial",
    "Unc.Props.C96_mean_partial",
    "Unc.Props.C96_cov2_partial",
    "Unc.Props.C96_sdev2_partial",
    "Unc.Props.C96_range",
    "Unc.Props.C96_false",
    "Unc.Props.C96_infinite_false",
    "Unc.Props.C96_sum_false",
    "Unc.Props.C96_kurt_false",
    "Unc.Props.C96_kurt_partial",
    "Unc.Props.C96_skew_partial",
    "Unc.Props.C96_corr2_partial"
   ],
   "note": "False for float and double because of the range: a variable with uncertainty 2^-200 has correlation 1 with itself in double and NaN after the conversion to float (C96_false), the mean 2^200 becomes infinite (C96_infinite_false), and a variable which is \u00b12^32 with equal probability has kurtosis 1 in double and none in float, though the conversion changes no stored number (C96_kurt_false). The conversion of a sum is not the sum of the conversions (C96_sum_false). Proved: the conversion to a type which has all the numbers of the first one changes no number and the conversion back gives the identical value, at first order, at second order in both modes (C96_widen, C96_widen2), and from float to double with infinities and NaN (C96_range); with a relative error v of the new type and no limit on the exponents, the error of the covariances (C96_cov_partial), of the uncertainty if computed after the conversion (C96_sdev_partial), of the correlations, 2K+8 roundings with at most K variables and no zero uncertainty (C96_corr_partial); an uncertainty that was asked for before is the conversion of that number (C96_cached); at second order n() in both modes, the central moments, covariances and s() (C96_mean_partial, C96_moments_partial, C96_cov2_partial, C96_sdev2_partial), with one more rounding of each stored number, and skew(), kurt() and corr from the relative errors of the moments in them (C96_skew_partial, C96_kurt_partial, C96_corr2_partial)."
  },
  {
   "property": "C97",
   "status": "partial",
   "theorems": [
    "Unc.Props.C97_first",
    "Unc.Props.C97_same",
    "Unc.Props.C97_scale",
    "Unc.Props.C97_between",
    "Unc.Props.C97_triangle",
    "Unc.Props.C97_second_partial",
    "Unc.Props.C97_second_sharp",
    "Unc.Props.C97_skew",
    "Unc.Props.C97_second_false",
    "Unc.Props.C97_scale_mean",
    "Unc.Props.C97_library",
    "Unc.Props.C97_triangle_second",
    "Unc.Props.C97_float_assign_partial",
    "Unc.Props.C97_float_nary_partial",
    "Unc.Props.C97_float_partial",
    "Unc.Props.C97_double",
    "Unc.Props.C97_float_false"
   ],
   "note": "False at second order for skewed variables: for x*x, with a variable of two values and mean -1, the uncertainty decreases from 5/8 to 1/2 when the one of x increases from 1/2 to 1 (C97_skew, C97_second_false). False with rounding: in double the uncertainty of x*5 - x*4 decreases from 7205759403792800 to 7205759403792796 when the one of x increases from 7205759403792798 to ...799 (C97_double, C97_float_false). Proved: at first order for all functions which pass on numbers depending on the means (C97_first, C58_library), with the condition for equality (C97_same), bounds by the contributions (C97_between), triangle inequalities (C97_triangle); at second order if v4 >= 1 + 9/8 v3^2 for each variable (C97_second_partial), a condition that cannot be weakened (C97_second_sharp); in floating point with any rounding if the derivatives passed on are not negative (C97_float_partial, with compound assignments C97_float_assign_partial, with nary C97_float_nary_partial). A common factor of the uncertainties multiplies the uncertainties of first order results (C97_scale) and its square the correction of the mean at second order (C97_scale_mean)."
  },
  {
   "property": "C98",
   "status": "partial",
   "theorems": [
    "Unc.Props.C98_first",
    "Unc.Props.C98_uncertainty",
    "Unc.Props.C98_second_partial",
    "Unc.Props.C98_polynomial",
    "Unc.Props.C98_second_uncertainty",
    "Unc.Props.C98_corr_sum",
    "Unc.Props.C98_corr_nolimit",
    "Unc.Props.C98_jump",
    "Unc.Props.C98_second_false",
    "Unc.Props.C98_functions_rest",
    "Unc.Props.C98_functions_rest_two",
    "Unc.Props.C98_second_steady",
    "Unc.Props.C98_operators",
    "Unc.Props.C98_functions",
    "Unc.Props.C98_user",
    "Unc.Props.C98_user_numeric",
    "Unc.Props.C98_functions_more",
    "Unc.Props.C98_functions_two"
   ],
   "note": "False at second order: the variance of sin(x*y + z) for standard normal errors, x and y with mean 0, z with mean t and created between x and y, is 2 at t = 0 and cos^2 t + sin^2 t / 2, near 1, for all other small t (C98_jump, C98_second_false), because the operator for functions of one variable goes over the Hessian differently when the second derivative passed on is 0. Proved: at first order means, uncertainties, covariances, and correlations of values with an uncertainty are continuous in means and uncertainties wherever the functions are continuously differentiable (C98_first), with a bound for the change of an uncertainty (C98_uncertainty); at second order moments, skewness, kurtosis, covariances, correlations with one variable or where the iteration over the Hessian works nearby (C98_second_partial), for + - * everywhere (C98_polynomial), with any number of variables where each second derivative passed on is not 0, or 0 for all means nearby, whether the Hessian computed is right or not (C98_second_steady; which arguments these are for the operators and functions of math.hpp: C98_operators, C98_functions, C98_functions_more, C98_functions_two, C98_functions_rest, C98_functions_rest_two, C98_user, C98_user_numeric; cbrt only for positive means), and in the uncertainties alone for all functions (C98_second_uncertainty). The correlation of x and x + y has no limit as the uncertainties tend to 0, so the restriction to values with an uncertainty is needed (C98_corr_sum, C98_corr_nolimit)."
  },
  {
   "property": "C99",
   "status": "partial",
   "theorems": [
    "Unc.Props.C99_isfinite",
    "Unc.Props.C99_isfinite_partial",
    "Unc.Props.C99_isnormal",
    "Unc.Props.C99_isnormal_zero",
    "Unc.Props.C99_cached",
    "Unc.Props.C99_isnormal_partial",
    "Unc.Props.C99_overflow_false",
    "Unc.Props.C99_underflow_false",
    "Unc.Props.C99_float_partial"
   ],
   "note": "False for computed values outside a range: a variable with mean 1 and uncertainty 2^512 is finite and normal, x + 0 has finite mean and coefficient but isfinite and isnormal are false, because the square overflows (C99_overflow_false); with uncertainty 2^-538 isnormal(x) is true and isnormal(x + 0) false (C99_underflow_false). isnormal is false for all constants (C99_isnormal_zero). Proved: isfinite is exact for elementary variables and never misses an infinite or NaN coefficient (C99_isfinite), isnormal is exactly about mean and uncertainty reported and implies isfinite (C99_isnormal), both are exact where the squares neither overflow nor underflow (C99_isfinite_partial, C99_isnormal_partial, in float C99_float_partial). Asking for the uncertainty before, which stores it, changes neither (C99_cached). Left out: the versions for UReal2, which do not compile, see C14 for the function all they mean to call."
  },
  {
   "property": "C100",
   "status": "partial",
   "theorems": [
    "Unc.Props.C100_second_partial",
    "Unc.Props.C100_polynomial",
    "Unc.Props.C100_affine",
    "Unc.Props.C100_false",
    "Unc.Props.C100_joint_affine",
    "Unc.Props.C100_joint_polynomial",
    "Unc.Props.C100_sharp"
   ],
   "note": "False in general: with x and y equal to 1 or -1, the square of x + y through uunary2 is reported as 2 with uncertainty 0 but is always 0 or 4 (C100_false), a consequence of C46. Proved for all distributions of the errors with the moments given: at second order for polynomials of degree at most 2, computed with + - * (C100_polynomial) or with one variable or where the iteration over the Hessian works (C100_second_partial), the inequality of Chebyshev, the one of Cantelli for one side, the bound with the kurtosis, and a lower bound; at first order for affine functions (C100_affine). Several results together, all within c_j uncertainties with probability at least 1 - sum 1/c_j^2: C100_joint_affine, C100_joint_polynomial. The bounds 1/c^2 and 1/(1+c^2) are attained by some distribution for each c (C100_sharp). First order in the limit of small uncertainties: C67_chebyshev, C67_coverage. Exact arithmetic, mode mean."
  }
 ]
}