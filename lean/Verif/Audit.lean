import Verif.Props.Agree
import Verif.Props.Algebra2
import Verif.Props.All
import Verif.Props.AnyNode
import Verif.Props.AutoDiff
import Verif.Props.Bias
import Verif.Props.BinaryAssign2
import Verif.Props.BinaryAssign2Self
import Verif.Props.CheckNear
import Verif.Props.CheckTests
import Verif.Props.Checked
import Verif.Props.Constructors
import Verif.Props.Cont
import Verif.Props.ContCorr
import Verif.Props.ContFalse
import Verif.Props.ContRest
import Verif.Props.ContSteady
import Verif.Props.Convert
import Verif.Props.Cost
import Verif.Props.Cost2
import Verif.Props.Degenerate
import Verif.Props.Distr
import Verif.Props.Doc
import Verif.Props.Error2
import Verif.Props.Error2Fun
import Verif.Props.Error2More
import Verif.Props.Error2More2
import Verif.Props.Error2Ratio
import Verif.Props.FirstOrder
import Verif.Props.Float
import Verif.Props.FloatConv
import Verif.Props.FloatConv2
import Verif.Props.FloatCtor
import Verif.Props.FloatExact
import Verif.Props.FloatExact2
import Verif.Props.FloatFail2
import Verif.Props.FloatMath
import Verif.Props.FloatMath2
import Verif.Props.FloatMatrix
import Verif.Props.FloatMatrix2
import Verif.Props.FloatMatrix3
import Verif.Props.FloatNum
import Verif.Props.FloatUReals
import Verif.Props.Format
import Verif.Props.FormatAgain
import Verif.Props.FormatFP
import Verif.Props.FormatSecond
import Verif.Props.FormatText
import Verif.Props.Functions
import Verif.Props.Functions2
import Verif.Props.Generic
import Verif.Props.GradHess
import Verif.Props.HessCalls
import Verif.Props.Integers
import Verif.Props.Integers2
import Verif.Props.Iterators
import Verif.Props.Joined
import Verif.Props.Joined2
import Verif.Props.Kurt
import Verif.Props.Larger
import Verif.Props.LargerAssign
import Verif.Props.LargerFloat
import Verif.Props.Law
import Verif.Props.Law2
import Verif.Props.Law2False
import Verif.Props.LawAll
import Verif.Props.Math
import Verif.Props.Math2
import Verif.Props.MathNaN
import Verif.Props.MathNaN2
import Verif.Props.Memory
import Verif.Props.Memory2
import Verif.Props.Mixed
import Verif.Props.MomCost
import Verif.Props.Moments
import Verif.Props.Moves
import Verif.Props.NumDiff
import Verif.Props.Order
import Verif.Props.Precision
import Verif.Props.PrecisionRange2
import Verif.Props.PrecisionRatio
import Verif.Props.Predicates
import Verif.Props.PredicatesFloat
import Verif.Props.Programs
import Verif.Props.Range
import Verif.Props.Range2
import Verif.Props.Repro
import Verif.Props.Rounding
import Verif.Props.SameFunction
import Verif.Props.SameFunction2
import Verif.Props.Schedule
import Verif.Props.SecondOrder
import Verif.Props.SignedZero
import Verif.Props.SignedZero2
import Verif.Props.Sparse
import Verif.Props.Special
import Verif.Props.Stat
import Verif.Props.StatIt
import Verif.Props.Tail
import Verif.Props.TailJoint
import Verif.Props.TailSharp
import Verif.Props.Taylor
import Verif.Props.Threads
import Verif.Props.UReals
import Verif.Props.URealsMore
import Verif.Props.Units

/-! Axioms of every theorem listed in MANIFEST.json (generated by tools/mkmanifest.py). -/

#print axioms Unc.Props.C01_binary_linear
#print axioms Unc.Props.C01_unary_linear
#print axioms Unc.Props.C01_binary_var
#print axioms Unc.Props.C01_program
#print axioms Unc.Props.C02_cov_symm
#print axioms Unc.Props.C02_cov_self
#print axioms Unc.Props.C02_psd
#print axioms Unc.Props.C02_s_sq
#print axioms Unc.Props.C02_cov_symm_noarith
#print axioms Unc.Props.C03_corr_le_one
#print axioms Unc.Props.C03_corr_single
#print axioms Unc.Props.C04_add_comm
#print axioms Unc.Props.C04_add_assoc
#print axioms Unc.Props.C04_mul_comm
#print axioms Unc.Props.C04_mul_assoc
#print axioms Unc.Props.C04_distrib
#print axioms Unc.Props.C04_sub_self
#print axioms Unc.Props.C04_sub_eq_add_neg
#print axioms Unc.Props.C04_div_mul_cancel
#print axioms Unc.Props.C04_div_self
#print axioms Unc.Props.C04_add_sub_cancel
#print axioms Unc.Props.C05_assign_eq_binary
#print axioms Unc.Props.C05_assign_self_eq_binary
#print axioms Unc.Props.C05_compound_ops
#print axioms Unc.Props.C05_compound_ops_self
#print axioms Unc.Props.C06_nary_linear
#print axioms Unc.Props.C06_nary_perm
#print axioms Unc.Props.C06_nary_two
#print axioms Unc.Props.C06_nary_snoc
#print axioms Unc.Props.C07_erase_reads
#print axioms Unc.Props.C07_observers
#print axioms Unc.Props.C07_cache_unobservable
#print axioms Unc.Props.C08_distinct_ids
#print axioms Unc.Props.C08_wrap_negative
#print axioms Unc.Props.C08_wrap_breaks_cov
#print axioms Unc.Props.C08_wrap_collision
#print axioms Unc.Props.C08_schedule_independent
#print axioms Unc.Props.C09_new_independent
#print axioms Unc.Props.C10_second_negative
#print axioms Unc.Props.C10_second_std
#print axioms Unc.Props.C10_second_central
#print axioms Unc.Props.C10_ctor_throws_iff
#print axioms Unc.Props.C11_observers
#print axioms Unc.Props.C11_program
#print axioms Unc.Props.C12_false
#print axioms Unc.Props.C12_grad_partial
#print axioms Unc.Props.C12_throws_iff
#print axioms Unc.Props.C13_linear_propagation
#print axioms Unc.Props.C01_program
#print axioms Unc.Props.C14_all_stored
#print axioms Unc.Props.C14_all
#print axioms Unc.Props.C14_all_zero
#print axioms Unc.Props.C14_neg
#print axioms Unc.Props.C14_add
#print axioms Unc.Props.C14_sub
#print axioms Unc.Props.C14_mul
#print axioms Unc.Props.C14_div
#print axioms Unc.Props.C14_abs
#print axioms Unc.Props.C14_exp
#print axioms Unc.Props.C14_exp2
#print axioms Unc.Props.C14_expm1
#print axioms Unc.Props.C14_log
#print axioms Unc.Props.C14_log10
#print axioms Unc.Props.C14_log2
#print axioms Unc.Props.C14_log1p
#print axioms Unc.Props.C14_sqrt
#print axioms Unc.Props.C14_cbrt_partial
#print axioms Unc.Props.C14_sin
#print axioms Unc.Props.C14_cos
#print axioms Unc.Props.C14_tan
#print axioms Unc.Props.C14_asin
#print axioms Unc.Props.C14_acos
#print axioms Unc.Props.C14_atan
#print axioms Unc.Props.C14_sinh
#print axioms Unc.Props.C14_cosh
#print axioms Unc.Props.C14_tanh
#print axioms Unc.Props.C14_asinh
#print axioms Unc.Props.C14_acosh
#print axioms Unc.Props.C14_atanh
#print axioms Unc.Props.C14_erf
#print axioms Unc.Props.C14_erfc
#print axioms Unc.Props.C14_fmod
#print axioms Unc.Props.C14_remainder
#print axioms Unc.Props.C14_fmax
#print axioms Unc.Props.C14_fmin
#print axioms Unc.Props.C14_pow
#print axioms Unc.Props.C14_pow_int
#print axioms Unc.Props.C14_hypot
#print axioms Unc.Props.C14_atan2_false
#print axioms Unc.Props.C14_atan2_partial
#print axioms Unc.Props.C14_cbrt_nan
#print axioms Unc.Props.C14_isfinite
#print axioms Unc.Props.C14_fmax_nan
#print axioms Unc.Props.C14_pow_zero_nan
#print axioms Unc.Props.C14_atan2_zero_nan
#print axioms Unc.Props.C14_domain
#print axioms Unc.Props.C14_domain_all
#print axioms Unc.Props.C15_no_ub
#print axioms Unc.Props.C15_ub_at_max_id
#print axioms Unc.Props.C16_change_nom
#print axioms Unc.Props.C16_convert_structure
#print axioms Unc.Props.C16_convert_exact
#print axioms Unc.Props.C17_cov_matrix_entries
#print axioms Unc.Props.C17_corr_matrix_entries
#print axioms Unc.Props.C17_size
#print axioms Unc.Props.C17_cov_matrix_psd
#print axioms Unc.Props.C17_corr_matrix
#print axioms Unc.Props.C17_nom_vector
#print axioms Unc.Props.C18_corr2cov
#print axioms Unc.Props.C18_size_check_wraps
#print axioms Unc.Props.C18_corr2cov_inverse
#print axioms Unc.Props.C19_throws_iff
#print axioms Unc.Props.C19_ureals_cov
#print axioms Unc.Props.C19_ureals_near
#print axioms Unc.Props.C19_rejects
#print axioms Unc.Props.C19_accepts_iff
#print axioms Unc.Props.C19_contract_complete
#print axioms Unc.Props.C19_empty
#print axioms Unc.Props.C20_uunary
#print axioms Unc.Props.C20_ubinary
#print axioms Unc.Props.C20_uunary_num_affine
#print axioms Unc.Props.C20_ubinary_num_affine
#print axioms Unc.Props.C20_uunary_num_tendsto
#print axioms Unc.Props.C20_ubinary_num_tendsto
#print axioms Unc.Props.C20_default_step
#print axioms Unc.Props.C20_uunary2
#print axioms Unc.Props.C20_ubinary2
#print axioms Unc.Props.C20_uunary2_num_quadratic
#print axioms Unc.Props.C20_uunary2_num_cubic
#print axioms Unc.Props.C20_uunary2_fwd_quadratic
#print axioms Unc.Props.C20_ubinary2_num_quadratic
#print axioms Unc.Props.C20_ubinary2_fwd_quadratic
#print axioms Unc.Props.C20_uunary2_num_tendsto
#print axioms Unc.Props.C20_uunary2_fwd_tendsto
#print axioms Unc.Props.C20_ubinary2_num_tendsto
#print axioms Unc.Props.C20_ubinary2_fwd_tendsto
#print axioms Unc.Props.C20_uunary2_num_result
#print axioms Unc.Props.C21_unary
#print axioms Unc.Props.C21_binary
#print axioms Unc.Props.C21_iterators
#print axioms Unc.Props.C21_hess_all
#print axioms Unc.Props.C21_program
#print axioms Unc.Props.C21_ub_at_max_id
#print axioms Unc.Props.C22_unary
#print axioms Unc.Props.C22_binary
#print axioms Unc.Props.C23_unary_terms
#print axioms Unc.Props.C23_binary_terms
#print axioms Unc.Props.C23_unary_partial
#print axioms Unc.Props.C23_binary_partial
#print axioms Unc.Props.C23_neg
#print axioms Unc.Props.C23_add
#print axioms Unc.Props.C23_sub
#print axioms Unc.Props.C23_mul
#print axioms Unc.Props.C23_div_partial
#print axioms Unc.Props.C23_unary_behaviour
#print axioms Unc.Props.C23_function_of_sum
#print axioms Unc.Props.C23_function_of_const
#print axioms Unc.Props.C23_unary_false
#print axioms Unc.Props.C23_div_false
#print axioms Unc.Props.C23_binary_false
#print axioms Unc.Props.C24_m1
#print axioms Unc.Props.C24_n_est
#print axioms Unc.Props.C24_n_mean
#print axioms Unc.Props.C24_trace
#print axioms Unc.Props.C24_range
#print axioms Unc.Props.C25_var
#print axioms Unc.Props.C25_s
#print axioms Unc.Props.C25_closed
#print axioms Unc.Props.C26_m3
#print axioms Unc.Props.C26_skew
#print axioms Unc.Props.C27_m4
#print axioms Unc.Props.C27_kurt
#print axioms Unc.Props.C28_cov
#print axioms Unc.Props.C28_symm
#print axioms Unc.Props.C28_self
#print axioms Unc.Props.C28_disjoint
#print axioms Unc.Props.C28_not_symm
#print axioms Unc.Props.C29_program
#print axioms Unc.Props.C29_var
#print axioms Unc.Props.C29_cov_sq
#print axioms Unc.Props.C29_corr
#print axioms Unc.Props.C29_needs_check
#print axioms Unc.Props.C30_std
#print axioms Unc.Props.C30_central
#print axioms Unc.Props.C30_central_distribution
#print axioms Unc.Props.C30_central_checked
#print axioms Unc.Props.C30_unchecked
#print axioms Unc.Props.C31_hamburger
#print axioms Unc.Props.C31_std
#print axioms Unc.Props.C31_central
#print axioms Unc.Props.C31_threshold
#print axioms Unc.Props.C31_no_div_zero
#print axioms Unc.Props.C31_disabled
#print axioms Unc.Props.C31_distribution_central
#print axioms Unc.Props.C31_distribution_std
#print axioms Unc.Props.C31_accepts_impossible
#print axioms Unc.Props.C32_normal
#print axioms Unc.Props.C32_normal_edge
#print axioms Unc.Props.C32_uniform
#print axioms Unc.Props.C32_uniform_edge
#print axioms Unc.Props.C32_chisquare
#print axioms Unc.Props.C32_chisquare_edge
#print axioms Unc.Props.C33_grad_hess
#print axioms Unc.Props.C33_hess_mixed_partial
#print axioms Unc.Props.C33_function1
#print axioms Unc.Props.C33_function2
#print axioms Unc.Props.C33_computation
#print axioms Unc.Props.C33_mixed_false
#print axioms Unc.Props.C33_grad_throws
#print axioms Unc.Props.C33_hess_throws
#print axioms Unc.Props.C34_const_partial
#print axioms Unc.Props.C34_elementary
#print axioms Unc.Props.C34_elementary_wrong
#print axioms Unc.Props.C34_gradient
#print axioms Unc.Props.C34_wrong
#print axioms Unc.Props.C34_behaviour
#print axioms Unc.Props.C34_right_iff
#print axioms Unc.Props.C34_false
#print axioms Unc.Props.C34_mixed_false
#print axioms Unc.Props.C34_same
#print axioms Unc.Props.C34_same_mixed
#print axioms Unc.Props.C34_unmixed
#print axioms Unc.Props.C34_same_gradient
#print axioms Unc.Props.C34_same_wrong
#print axioms Unc.Props.C34_same_square
#print axioms Unc.Props.C34_same_false
#print axioms Unc.Props.C35_result1
#print axioms Unc.Props.C35_result2
#print axioms Unc.Props.C35_const_right
#print axioms Unc.Props.C35_neg
#print axioms Unc.Props.C35_add
#print axioms Unc.Props.C35_sub
#print axioms Unc.Props.C35_mul
#print axioms Unc.Props.C35_div
#print axioms Unc.Props.C35_abs
#print axioms Unc.Props.C35_exp
#print axioms Unc.Props.C35_exp2
#print axioms Unc.Props.C35_expm1
#print axioms Unc.Props.C35_log
#print axioms Unc.Props.C35_log10
#print axioms Unc.Props.C35_log2
#print axioms Unc.Props.C35_log1p
#print axioms Unc.Props.C35_sqrt
#print axioms Unc.Props.C35_cbrt
#print axioms Unc.Props.C35_sin
#print axioms Unc.Props.C35_cos
#print axioms Unc.Props.C35_tan
#print axioms Unc.Props.C35_asin
#print axioms Unc.Props.C35_acos
#print axioms Unc.Props.C35_atan
#print axioms Unc.Props.C35_sinh
#print axioms Unc.Props.C35_cosh
#print axioms Unc.Props.C35_tanh
#print axioms Unc.Props.C35_asinh
#print axioms Unc.Props.C35_acosh
#print axioms Unc.Props.C35_atanh
#print axioms Unc.Props.C35_erf
#print axioms Unc.Props.C35_erfc
#print axioms Unc.Props.C35_fmod
#print axioms Unc.Props.C35_remainder
#print axioms Unc.Props.C35_fmax
#print axioms Unc.Props.C35_fmin
#print axioms Unc.Props.C35_pow
#print axioms Unc.Props.C35_pow_int
#print axioms Unc.Props.C35_hypot
#print axioms Unc.Props.C35_atan2
#print axioms Unc.Props.C36_taylor_partial
#print axioms Unc.Props.C36_axis
#print axioms Unc.Props.C36_polynomial
#print axioms Unc.Props.C36_false
#print axioms Unc.Props.C37_call1
#print axioms Unc.Props.C37_call2
#print axioms Unc.Props.C37_first_order_partial
#print axioms Unc.Props.C37_atan2_opposite
#print axioms Unc.Props.C37_atan2_false
#print axioms Unc.Props.C38_throws
#print axioms Unc.Props.C38_doc_false
#print axioms Unc.Props.C38_total
#print axioms Unc.Props.C38_undefined
#print axioms Unc.Props.C38_second
#print axioms Unc.Props.C39_partial
#print axioms Unc.Props.C39_exact_partial
#print axioms Unc.Props.C39_default_partial
#print axioms Unc.Props.C39_false
#print axioms Unc.Props.C39_crosses_false
#print axioms Unc.Props.C39_second_partial
#print axioms Unc.Props.C40_partial
#print axioms Unc.Props.C40_false
#print axioms Unc.Props.C41_partial
#print axioms Unc.Props.C41_nonfinite_partial
#print axioms Unc.Props.C41_lost
#print axioms Unc.Props.C41_false
#print axioms Unc.Props.C41_second_partial
#print axioms Unc.Props.C42_partial
#print axioms Unc.Props.C42_default
#print axioms Unc.Props.C42_range
#print axioms Unc.Props.C42_crosses
#print axioms Unc.Props.C42_exact
#print axioms Unc.Props.C42_false
#print axioms Unc.Props.C42_second
#print axioms Unc.Props.C43_partial
#print axioms Unc.Props.C43_any
#print axioms Unc.Props.C43_tostring
#print axioms Unc.Props.C44_binomial
#print axioms Unc.Props.C44_central_ring
#print axioms Unc.Props.C44_central
#print axioms Unc.Props.C44_std
#print axioms Unc.Props.C45_full
#print axioms Unc.Props.C45_skip
#print axioms Unc.Props.C46_skip
#print axioms Unc.Props.C46_full_behaviour
#print axioms Unc.Props.C46_full_partial
#print axioms Unc.Props.C46_full_iff
#print axioms Unc.Props.C46_full_false
#print axioms Unc.Props.C47_cov_zero
#print axioms Unc.Props.C47_add_mul_const
#print axioms Unc.Props.C48_same_function
#print axioms Unc.Props.C48_converse
#print axioms Unc.Props.C48_atan2_false
#print axioms Unc.Props.C49_partial
#print axioms Unc.Props.C49_mean
#print axioms Unc.Props.C49_false
#print axioms Unc.Props.C50_identity
#print axioms Unc.Props.C51_affine
#print axioms Unc.Props.C52_independent
#print axioms Unc.Props.C53_bilinear
#print axioms Unc.Props.C53_cov_matrix
#print axioms Unc.Props.C53_corr_matrix
#print axioms Unc.Props.C53_nom_vector
#print axioms Unc.Props.C54_moments
#print axioms Unc.Props.C54_kurt
#print axioms Unc.Props.C54_program
#print axioms Unc.Props.C54_unchecked
#print axioms Unc.Props.C55_mean
#print axioms Unc.Props.C55_unbiased
#print axioms Unc.Props.C55_cubic
#print axioms Unc.Props.C58_any
#print axioms Unc.Props.C58_library
#print axioms Unc.Props.C58_first
#print axioms Unc.Props.C58_partial
#print axioms Unc.Props.C58_polynomial
#print axioms Unc.Props.C58_mean
#print axioms Unc.Props.C58_uncertainty
#print axioms Unc.Props.C58_false
#print axioms Unc.Props.C56_observers
#print axioms Unc.Props.C56_program
#print axioms Unc.Props.C59_program
#print axioms Unc.Props.C60_structure
#print axioms Unc.Props.C60_mode
#print axioms Unc.Props.C60_exact
#print axioms Unc.Props.C60_derivatives
#print axioms Unc.Props.C60_unary
#print axioms Unc.Props.C60_binary
#print axioms Unc.Props.C57_any
#print axioms Unc.Props.C57_first
#print axioms Unc.Props.C57_partial
#print axioms Unc.Props.C57_polynomial
#print axioms Unc.Props.C57_mean
#print axioms Unc.Props.C57_uncertainty
#print axioms Unc.Props.C57_false
#print axioms Unc.Props.C61_nonneg
#print axioms Unc.Props.C61_cov
#print axioms Unc.Props.C61_cov_zero
#print axioms Unc.Props.C61_var
#print axioms Unc.Props.C61_s
#print axioms Unc.Props.C61_s_again
#print axioms Unc.Props.C61_var_after
#print axioms Unc.Props.C61_corr_partial
#print axioms Unc.Props.C61_unary
#print axioms Unc.Props.C61_binary
#print axioms Unc.Props.C61_corr_false
#print axioms Unc.Props.C61_cache_false
#print axioms Unc.Props.C62_cov_comm
#print axioms Unc.Props.C62_comm
#print axioms Unc.Props.C62_sub_self
#print axioms Unc.Props.C62_neg_neg
#print axioms Unc.Props.C62_sub_neg
#print axioms Unc.Props.C62_units
#print axioms Unc.Props.C62_assign
#print axioms Unc.Props.C62_div_false
#print axioms Unc.Props.C62_div_partial
#print axioms Unc.Props.C62_assoc_false
#print axioms Unc.Props.C63_converges
#print axioms Unc.Props.C63_abs
#print axioms Unc.Props.C63_exp
#print axioms Unc.Props.C63_exp2
#print axioms Unc.Props.C63_expm1
#print axioms Unc.Props.C63_log
#print axioms Unc.Props.C63_log10
#print axioms Unc.Props.C63_log2
#print axioms Unc.Props.C63_log1p
#print axioms Unc.Props.C63_sqrt
#print axioms Unc.Props.C63_cbrt
#print axioms Unc.Props.C63_sin
#print axioms Unc.Props.C63_cos
#print axioms Unc.Props.C63_tan
#print axioms Unc.Props.C63_asin
#print axioms Unc.Props.C63_acos
#print axioms Unc.Props.C63_atan
#print axioms Unc.Props.C63_sinh
#print axioms Unc.Props.C63_cosh
#print axioms Unc.Props.C63_tanh
#print axioms Unc.Props.C63_asinh
#print axioms Unc.Props.C63_acosh
#print axioms Unc.Props.C63_atanh
#print axioms Unc.Props.C63_erf
#print axioms Unc.Props.C63_erfc
#print axioms Unc.Props.C63_fmod
#print axioms Unc.Props.C63_remainder
#print axioms Unc.Props.C63_fmax
#print axioms Unc.Props.C63_fmin
#print axioms Unc.Props.C63_pow
#print axioms Unc.Props.C63_hypot
#print axioms Unc.Props.C64_forward
#print axioms Unc.Props.C64_forward2
#print axioms Unc.Props.C64_default_step
#print axioms Unc.Props.C64_elementary
#print axioms Unc.Props.C64_large_false
#print axioms Unc.Props.C65_erase
#print axioms Unc.Props.C65_unary
#print axioms Unc.Props.C65_binary
#print axioms Unc.Props.C65_nary
#print axioms Unc.Props.C65_assign
#print axioms Unc.Props.C65_accumulate
#print axioms Unc.Props.C65_quadratic
#print axioms Unc.Props.C66_converges
#print axioms Unc.Props.C66_var_false
#print axioms Unc.Props.C66_zero_derivative_false
#print axioms Unc.Props.C66_exp
#print axioms Unc.Props.C66_exp2
#print axioms Unc.Props.C66_expm1
#print axioms Unc.Props.C66_log
#print axioms Unc.Props.C66_log10
#print axioms Unc.Props.C66_log2
#print axioms Unc.Props.C66_log1p
#print axioms Unc.Props.C66_sqrt
#print axioms Unc.Props.C66_cbrt
#print axioms Unc.Props.C66_sin
#print axioms Unc.Props.C66_cos
#print axioms Unc.Props.C66_tan
#print axioms Unc.Props.C66_asin
#print axioms Unc.Props.C66_acos
#print axioms Unc.Props.C66_atan
#print axioms Unc.Props.C66_sinh
#print axioms Unc.Props.C66_cosh
#print axioms Unc.Props.C66_tanh
#print axioms Unc.Props.C66_asinh
#print axioms Unc.Props.C66_acosh
#print axioms Unc.Props.C66_atanh
#print axioms Unc.Props.C66_erf
#print axioms Unc.Props.C66_erfc
#print axioms Unc.Props.C66_abs
#print axioms Unc.Props.C66_fmod
#print axioms Unc.Props.C66_remainder
#print axioms Unc.Props.C66_fmax
#print axioms Unc.Props.C66_fmin
#print axioms Unc.Props.C66_pow
#print axioms Unc.Props.C66_hypot
#print axioms Unc.Props.C66_atan2
#print axioms Unc.Props.C67_affine
#print axioms Unc.Props.C67_limit
#print axioms Unc.Props.C67_chebyshev
#print axioms Unc.Props.C67_coverage
#print axioms Unc.Props.C68_s_float_partial
#print axioms Unc.Props.C68_visible_partial
#print axioms Unc.Props.C68_visible2_partial
#print axioms Unc.Props.C68_shown
#print axioms Unc.Props.C68_constructor
#print axioms Unc.Props.C68_s_partial
#print axioms Unc.Props.C68_s_double_partial
#print axioms Unc.Props.C68_divide_false
#print axioms Unc.Props.C68_corr_false
#print axioms Unc.Props.C68_overflow_false
#print axioms Unc.Props.C68_underflow_false
#print axioms Unc.Props.C68_tiny_false
#print axioms Unc.Props.C68_rounding
#print axioms Unc.Props.C68_limits
#print axioms Unc.Props.C68_limits_div
#print axioms Unc.Props.C68_finite
#print axioms Unc.Props.C68_div_zero
#print axioms Unc.Props.C68_unary
#print axioms Unc.Props.C68_compare
#print axioms Unc.Props.C69_throws
#print axioms Unc.Props.C69_digits_partial
#print axioms Unc.Props.C69_error_partial
#print axioms Unc.Props.C69_frac_partial
#print axioms Unc.Props.C69_default_partial
#print axioms Unc.Props.C69_tostring_partial
#print axioms Unc.Props.C69_special
#print axioms Unc.Props.C69_tiny_false
#print axioms Unc.Props.C69_tiny_constant_false
#print axioms Unc.Props.C69_wide_false
#print axioms Unc.Props.C69_assert_false
#print axioms Unc.Props.C70_exact_partial
#print axioms Unc.Props.C70_polynomial
#print axioms Unc.Props.C70_limit_partial
#print axioms Unc.Props.C70_false
#print axioms Unc.Props.C70_limit_false
#print axioms Unc.Props.C70_mean_var_cov
#print axioms Unc.Props.C71_cumulants
#print axioms Unc.Props.C71_quadratic
#print axioms Unc.Props.C71_normal
#print axioms Unc.Props.C71_normal_cov
#print axioms Unc.Props.C71_squares
#print axioms Unc.Props.C71_chisquare
#print axioms Unc.Props.C72_first
#print axioms Unc.Props.C72_second
#print axioms Unc.Props.C72_first_partial
#print axioms Unc.Props.C72_second_const
#print axioms Unc.Props.C72_first_exact
#print axioms Unc.Props.C72_first_const
#print axioms Unc.Props.C72_false
#print axioms Unc.Props.C73_written
#print axioms Unc.Props.C73_ub
#print axioms Unc.Props.C73_vector
#print axioms Unc.Props.C73_same_array
#print axioms Unc.Props.C73_stream
#print axioms Unc.Props.C73_stream_false
#print axioms Unc.Props.C73_overlap_false
#print axioms Unc.Props.C74_unary_stored
#print axioms Unc.Props.C74_binary_stored
#print axioms Unc.Props.C74_iterations
#print axioms Unc.Props.C74_pair_iterations
#print axioms Unc.Props.C74_sparse
#print axioms Unc.Props.C74_linear
#print axioms Unc.Props.C74_size
#print axioms Unc.Props.C75_calls
#print axioms Unc.Props.C75_tri_defined
#print axioms Unc.Props.C75_hess_defined
#print axioms Unc.Props.C75_ne_end
#print axioms Unc.Props.C75_ne_false
#print axioms Unc.Props.C76_again_partial
#print axioms Unc.Props.C76_integer_partial
#print axioms Unc.Props.C76_default_partial
#print axioms Unc.Props.C76_digits_false
#print axioms Unc.Props.C76_carry_false
#print axioms Unc.Props.C76_sign_false
#print axioms Unc.Props.C77_exponent
#print axioms Unc.Props.C77_text_partial
#print axioms Unc.Props.C77_lost
#print axioms Unc.Props.C77_tostring
#print axioms Unc.Props.C77_false
#print axioms Unc.Props.C77_exponent_false
#print axioms Unc.Props.C78_accepts_partial
#print axioms Unc.Props.C78_rejects
#print axioms Unc.Props.C78_sharp
#print axioms Unc.Props.C78_false
#print axioms Unc.Props.C78_accepts_false
#print axioms Unc.Props.C78_normal
#print axioms Unc.Props.C78_chisquare
#print axioms Unc.Props.C78_uniform
#print axioms Unc.Props.C78_margin
#print axioms Unc.Props.C78_tests
#print axioms Unc.Props.C79_formats
#print axioms Unc.Props.C79_values
#print axioms Unc.Props.C79_pairs
#print axioms Unc.Props.C79_values2
#print axioms Unc.Props.C79_pairs2
#print axioms Unc.Props.C79_double_false
#print axioms Unc.Props.C79_float_false
#print axioms Unc.Props.C80_half
#print axioms Unc.Props.C80_moments
#print axioms Unc.Props.C80_first
#print axioms Unc.Props.C80_mean
#print axioms Unc.Props.C80_cov
#print axioms Unc.Props.C80_sdev
#print axioms Unc.Props.C80_linear
#print axioms Unc.Props.C80_function
#print axioms Unc.Props.C80_exp
#print axioms Unc.Props.C80_sin
#print axioms Unc.Props.C80_cos
#print axioms Unc.Props.C80_log
#print axioms Unc.Props.C80_sqrt
#print axioms Unc.Props.C80_hypot
#print axioms Unc.Props.C80_calls
#print axioms Unc.Props.C80_size
#print axioms Unc.Props.C80_lip
#print axioms Unc.Props.C80_abs
#print axioms Unc.Props.C80_exp2
#print axioms Unc.Props.C80_expm1
#print axioms Unc.Props.C80_log10
#print axioms Unc.Props.C80_log2
#print axioms Unc.Props.C80_log1p
#print axioms Unc.Props.C80_cbrt
#print axioms Unc.Props.C80_tan
#print axioms Unc.Props.C80_tanh
#print axioms Unc.Props.C80_sinh
#print axioms Unc.Props.C80_cosh
#print axioms Unc.Props.C80_asin
#print axioms Unc.Props.C80_acos
#print axioms Unc.Props.C80_atan
#print axioms Unc.Props.C80_asinh
#print axioms Unc.Props.C80_acosh
#print axioms Unc.Props.C80_atanh
#print axioms Unc.Props.C80_erf
#print axioms Unc.Props.C80_erfc
#print axioms Unc.Props.C80_pow
#print axioms Unc.Props.C80_atan2
#print axioms Unc.Props.C80_fmod
#print axioms Unc.Props.C80_remainder
#print axioms Unc.Props.C80_fmax
#print axioms Unc.Props.C80_fmin
#print axioms Unc.Props.C80_kurt
#print axioms Unc.Props.C80_skew
#print axioms Unc.Props.C80_corr
#print axioms Unc.Props.C81_visible_partial
#print axioms Unc.Props.C81_ratios_partial
#print axioms Unc.Props.C81_shown
#print axioms Unc.Props.C81_divide_false
#print axioms Unc.Props.C81_skew_false
#print axioms Unc.Props.C82_after_partial
#print axioms Unc.Props.C82_after2_partial
#print axioms Unc.Props.C82_threads_partial
#print axioms Unc.Props.C82_across_partial
#print axioms Unc.Props.C82_joined_false
#print axioms Unc.Props.C82_rounding_false
#print axioms Unc.Props.C83_enough
#print axioms Unc.Props.C83_kept_partial
#print axioms Unc.Props.C83_assign
#print axioms Unc.Props.C83_add_partial
#print axioms Unc.Props.C83_false
#print axioms Unc.Props.C83_defined_partial
#print axioms Unc.Props.C83_second_enough
#print axioms Unc.Props.C83_second_kept_partial
#print axioms Unc.Props.C83_second_defined_partial
#print axioms Unc.Props.C83_second_false
#print axioms Unc.Props.C84_unread
#print axioms Unc.Props.C84_swap
#print axioms Unc.Props.C84_swap_self
#print axioms Unc.Props.C84_left
#print axioms Unc.Props.C84_left_second
#print axioms Unc.Props.C84_false
#print axioms Unc.Props.C84_defined_partial
#print axioms Unc.Props.C85_throws_iff
#print axioms Unc.Props.C85_returns
#print axioms Unc.Props.C85_cov
#print axioms Unc.Props.C85_near
#print axioms Unc.Props.C85_false
#print axioms Unc.Props.C86_forward
#print axioms Unc.Props.C86_forward2
#print axioms Unc.Props.C86_central
#print axioms Unc.Props.C86_fwd
#print axioms Unc.Props.C86_fwd2
#print axioms Unc.Props.C86_central2
#print axioms Unc.Props.C86_forward_double
#print axioms Unc.Props.C86_central_double
#print axioms Unc.Props.C86_offset_false
#print axioms Unc.Props.C87_m1
#print axioms Unc.Props.C87_m2
#print axioms Unc.Props.C87_m3
#print axioms Unc.Props.C87_m4
#print axioms Unc.Props.C87_cov
#print axioms Unc.Props.C87_growth
#print axioms Unc.Props.C87_sparse_false
#print axioms Unc.Props.C88_cov
#print axioms Unc.Props.C88_formula
#print axioms Unc.Props.C88_formula_false
#print axioms Unc.Props.C88_indep
#print axioms Unc.Props.C88_full_partial
#print axioms Unc.Props.C88_full_false
#print axioms Unc.Props.C88_print
#print axioms Unc.Props.C88_io
#print axioms Unc.Props.C88_readme
#print axioms Unc.Props.C88_print_second
#print axioms Unc.Props.C89_first_partial
#print axioms Unc.Props.C89_pairs_partial
#print axioms Unc.Props.C89_exact
#print axioms Unc.Props.C89_false
#print axioms Unc.Props.C89_second_partial
#print axioms Unc.Props.C89_ratios_partial
#print axioms Unc.Props.C89_exact_second
#print axioms Unc.Props.C89_ieee_signs
#print axioms Unc.Props.C89_division
#print axioms Unc.Props.C89_minus
#print axioms Unc.Props.C90_add_comm
#print axioms Unc.Props.C90_neg_neg
#print axioms Unc.Props.C90_sub
#print axioms Unc.Props.C90_units
#print axioms Unc.Props.C90_sub_self
#print axioms Unc.Props.C90_mul_comm_partial
#print axioms Unc.Props.C90_cov_partial
#print axioms Unc.Props.C90_var_partial
#print axioms Unc.Props.C90_cov_false
#print axioms Unc.Props.C90_var_false
#print axioms Unc.Props.C90_mul_false
#print axioms Unc.Props.C91_erase
#print axioms Unc.Props.C91_unary
#print axioms Unc.Props.C91_binary
#print axioms Unc.Props.C91_quadratic
#print axioms Unc.Props.C91_sum
#print axioms Unc.Props.C91_product
#print axioms Unc.Props.C92_exact
#print axioms Unc.Props.C92_cov
#print axioms Unc.Props.C92_formats
#print axioms Unc.Props.C92_accumulate
#print axioms Unc.Props.C92_sharp
#print axioms Unc.Props.C93_exact
#print axioms Unc.Props.C93_cov
#print axioms Unc.Props.C93_formats
#print axioms Unc.Props.C93_central
#print axioms Unc.Props.C93_sharp
#print axioms Unc.Props.C94_uncertainty_partial
#print axioms Unc.Props.C94_central_partial
#print axioms Unc.Props.C94_stored_partial
#print axioms Unc.Props.C94_moments_partial
#print axioms Unc.Props.C94_uncertainty_false
#print axioms Unc.Props.C94_variance_false
#print axioms Unc.Props.C94_fourth_false
#print axioms Unc.Props.C94_tiny_false
#print axioms Unc.Props.C94_double_partial
#print axioms Unc.Props.C95_cov_partial
#print axioms Unc.Props.C95_jitter_partial
#print axioms Unc.Props.C95_corr_partial
#print axioms Unc.Props.C95_back_partial
#print axioms Unc.Props.C95_refused
#print axioms Unc.Props.C95_false
#print axioms Unc.Props.C95_ureals_false
#print axioms Unc.Props.C95_second_false
#print axioms Unc.Props.C95_second_partial
#print axioms Unc.Props.C96_widen
#print axioms Unc.Props.C96_widen2
#print axioms Unc.Props.C96_cov_partial
#print axioms Unc.Props.C96_sdev_partial
#print axioms Unc.Props.C96_cached
#print axioms Unc.Props.C96_corr_partial
#print axioms Unc.Props.C96_moments_partial
#print axioms Unc.Props.C96_mean_partial
#print axioms Unc.Props.C96_cov2_partial
#print axioms Unc.Props.C96_sdev2_partial
#print axioms Unc.Props.C96_range
#print axioms Unc.Props.C96_false
#print axioms Unc.Props.C96_infinite_false
#print axioms Unc.Props.C96_sum_false
#print axioms Unc.Props.C96_kurt_false
#print axioms Unc.Props.C96_kurt_partial
#print axioms Unc.Props.C96_skew_partial
#print axioms Unc.Props.C96_corr2_partial
#print axioms Unc.Props.C97_first
#print axioms Unc.Props.C97_same
#print axioms Unc.Props.C97_scale
#print axioms Unc.Props.C97_between
#print axioms Unc.Props.C97_triangle
#print axioms Unc.Props.C97_second_partial
#print axioms Unc.Props.C97_second_sharp
#print axioms Unc.Props.C97_skew
#print axioms Unc.Props.C97_second_false
#print axioms Unc.Props.C97_scale_mean
#print axioms Unc.Props.C97_library
#print axioms Unc.Props.C97_triangle_second
#print axioms Unc.Props.C97_float_assign_partial
#print axioms Unc.Props.C97_float_nary_partial
#print axioms Unc.Props.C97_float_partial
#print axioms Unc.Props.C97_double
#print axioms Unc.Props.C97_float_false
#print axioms Unc.Props.C98_first
#print axioms Unc.Props.C98_uncertainty
#print axioms Unc.Props.C98_second_partial
#print axioms Unc.Props.C98_polynomial
#print axioms Unc.Props.C98_second_uncertainty
#print axioms Unc.Props.C98_corr_sum
#print axioms Unc.Props.C98_corr_nolimit
#print axioms Unc.Props.C98_jump
#print axioms Unc.Props.C98_second_false
#print axioms Unc.Props.C98_functions_rest
#print axioms Unc.Props.C98_functions_rest_two
#print axioms Unc.Props.C98_second_steady
#print axioms Unc.Props.C98_operators
#print axioms Unc.Props.C98_functions
#print axioms Unc.Props.C98_user
#print axioms Unc.Props.C98_user_numeric
#print axioms Unc.Props.C98_functions_more
#print axioms Unc.Props.C98_functions_two
#print axioms Unc.Props.C99_isfinite
#print axioms Unc.Props.C99_isfinite_partial
#print axioms Unc.Props.C99_isnormal
#print axioms Unc.Props.C99_isnormal_zero
#print axioms Unc.Props.C99_cached
#print axioms Unc.Props.C99_isnormal_partial
#print axioms Unc.Props.C99_overflow_false
#print axioms Unc.Props.C99_underflow_false
#print axioms Unc.Props.C99_float_partial
#print axioms Unc.Props.C100_second_partial
#print axioms Unc.Props.C100_polynomial
#print axioms Unc.Props.C100_affine
#print axioms Unc.Props.C100_false
#print axioms Unc.Props.C100_joint_affine
#print axioms Unc.Props.C100_joint_polynomial
#print axioms Unc.Props.C100_sharp
