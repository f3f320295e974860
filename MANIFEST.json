{
 "claims": [
  {
   "property": "C01",
   "status": "proved",
   "theorems": [
    "MU.C01_piecewise_affine",
    "MU.C01_range_covered",
    "MU.C01_node"
   ],
   "note": "Any linearly ordered field of abscissae, any vector space of ordinates, both build modes."
  },
  {
   "property": "C02",
   "status": "proved",
   "theorems": [
    "MU.C02_between",
    "MU.C02_monotone"
   ],
   "note": ""
  },
  {
   "property": "C03",
   "status": "proved",
   "theorems": [
    "MU.C03_linear_exits",
    "MU.C03_saturate_left",
    "MU.C03_saturate_right",
    "MU.C03_saturate_total"
   ],
   "note": ""
  },
  {
   "property": "C04",
   "status": "partial",
   "theorems": [
    "MU.C04_extrapolate_left_partial",
    "MU.C04_right_extrapolation_throws",
    "MU.C04_refuted"
   ],
   "note": "Left side proved; on the right side the code throws std::out_of_range for every table and every x > xmax (C04_right_extrapolation_throws), so the full statement is refuted."
  },
  {
   "property": "C05",
   "status": "partial",
   "theorems": [
    "MU.C05_first_table_survives",
    "MU.C05_same_data_partial",
    "MU.C05_refuted",
    "MU.C05_refuted_2d"
   ],
   "note": "Refuted, in 1D and 2D: Initialize appends to the coefficient vectors without clearing them. C05_first_table_survives describes what happens for every history; only re-initialisation with the same data is harmless."
  },
  {
   "property": "C06",
   "status": "proved",
   "theorems": [
    "MU.C06_elementwise",
    "MU.C06_first_failure",
    "MU.C06_elementwise_2d"
   ],
   "note": "For every object state, initialised or not."
  },
  {
   "property": "C07",
   "status": "proved",
   "theorems": [
    "MU.C07_linear",
    "MU.C07_affine"
   ],
   "note": ""
  },
  {
   "property": "C08",
   "status": "proved",
   "theorems": [
    "MU.C08_bilinear",
    "MU.C08_range_covered",
    "MU.C08_node"
   ],
   "note": ""
  },
  {
   "property": "C09",
   "status": "proved",
   "theorems": [
    "MU.C09_between",
    "MU.C09_bilinear_exact"
   ],
   "note": ""
  },
  {
   "property": "C10",
   "status": "partial",
   "theorems": [
    "MU.C10_in_range_returns",
    "MU.C10_checked_aborts_partial",
    "MU.C10_ndebug_right_throws",
    "MU.C10_ndebug_wrong_cell",
    "MU.C10_refuted"
   ],
   "note": "In range: proved in both build modes. Out of range: aborts with assertions on; with NDEBUG a value of another cell may be returned (C10_ndebug_wrong_cell), so the full statement is refuted."
  },
  {
   "property": "C11",
   "status": "proved",
   "theorems": [
    "MU.C11_refines_map",
    "MU.C11_eval_vector",
    "MU.C11_addY_result",
    "MU.C11_eval_all"
   ],
   "note": "Refinement of a map specification, by induction over histories; Eval of all series for every iteration order of the hash map."
  },
  {
   "property": "C12",
   "status": "proved",
   "theorems": [
    "MU.C12_duplicate_1d",
    "MU.C12_duplicate_2d"
   ],
   "note": ""
  },
  {
   "property": "C13",
   "status": "partial",
   "theorems": [
    "MU.C13_earlier_series_partial",
    "MU.C13_failure_shifts_names",
    "MU.C13_refuted"
   ],
   "note": "Refuted: a throwing AddY leaves its name registered, and shifts the following names (C13_failure_shifts_names). Series registered before are unaffected."
  },
  {
   "property": "C14",
   "status": "proved",
   "theorems": [
    "MU.C14_refines_map"
   ],
   "note": ""
  },
  {
   "property": "C15",
   "status": "partial",
   "theorems": [
    "MU.C15_earlier_series_partial",
    "MU.C15_failed_name_registered",
    "MU.C15_refuted"
   ],
   "note": "Refuted: after a throwing AddData, HasSerie reports the failed name. Series registered before are unaffected."
  },
  {
   "property": "C16",
   "status": "proved",
   "theorems": [
    "MU.C16_node_reproduction"
   ],
   "note": "Any dimension, any history ending with a successful AddVar (rejected axes and failed AddVar calls included), with and without bound check."
  },
  {
   "property": "C17",
   "status": "proved",
   "theorems": [
    "MU.C17_clamping",
    "MU.C17_clamped_exists"
   ],
   "note": ""
  },
  {
   "property": "C18",
   "status": "proved",
   "theorems": [
    "MU.C18_tensor_product",
    "MU.C18_cell_exists",
    "MU.C18_within_data_bounds",
    "MU.C18_exact_on_separately_affine"
   ],
   "note": ""
  },
  {
   "property": "C19",
   "status": "proved",
   "theorems": [
    "MU.C19_bound_check"
   ],
   "note": ""
  },
  {
   "property": "C20",
   "status": "proved",
   "theorems": [
    "MU.C20_add_coord",
    "MU.C20_axes_at_most_dim",
    "MU.C20_valid_iff_some_add_var_succeeded",
    "MU.C20_add_var_incomplete",
    "MU.C20_add_var_complete"
   ],
   "note": "By induction over histories of AddCoord/AddVar in which exceptions are caught. The object must not be given an empty axis: AddVar is then undefined behaviour."
  },
  {
   "property": "C21",
   "status": "partial",
   "theorems": [
    "MU.C21_refuted",
    "MU.C21_shape_partial",
    "MU.C21_iff_partial"
   ],
   "note": "Refuted: only the number of elements is checked, so an array of shape 3x2 is accepted on a 2x3 grid and read with the wrong indices. Holds when the shapes agree."
  },
  {
   "property": "C22",
   "status": "partial",
   "theorems": [
    "MU.C22_refuted",
    "MU.C22_after_failure",
    "MU.C22_recovers_partial"
   ],
   "note": "Refuted: AddVar overwrites and reallocates the data before the check, and keeps the previous interpolator, which points to the released storage. A later successful AddVar restores a working object."
  },
  {
   "property": "C23",
   "status": "proved",
   "theorems": [
    "MU.C23_convex_combination",
    "MU.C23_within_data_bounds",
    "MU.C23_exact_on_affine",
    "MU.C23_node_reproduction"
   ],
   "note": "For every sorting function allowed by the standard (any order of equal fractions)."
  },
  {
   "property": "C24",
   "status": "proved",
   "theorems": [
    "MU.C24_nearest"
   ],
   "note": "Any dimension, any point."
  },
  {
   "property": "C25",
   "status": "proved",
   "theorems": [
    "MU.C25_surrounding_inside"
   ],
   "note": "Axes of at most 2^32 nodes (unsigned int index)."
  },
  {
   "property": "C26",
   "status": "partial",
   "theorems": [
    "MU.C26_above_partial",
    "MU.C26_below_returns_last",
    "MU.C26_refuted"
   ],
   "note": "Refuted: below an axis the wrapped index selects the LAST node (C26_below_returns_last, for every grid and point). Above the axis the statement holds."
  },
  {
   "property": "C27",
   "status": "proved",
   "theorems": [
    "MU.C27_horner"
   ],
   "note": "Coefficients in any field, point in any field extension. Exact arithmetic."
  },
  {
   "property": "C28",
   "status": "proved",
   "theorems": [
    "MU.C28_horner_derivative"
   ],
   "note": "Derivative over any nontrivially normed field containing the coefficients."
  },
  {
   "property": "C29",
   "status": "proved",
   "theorems": [
    "MU.C29_evaluate_1d",
    "MU.C29_evaluate_2d",
    "MU.C29_evaluate_3d",
    "MU.C29_constructors_3d"
   ],
   "note": "All seven concrete classes through the Built1/Built2/Built3 relations of Spec/PowerSeries.lean."
  },
  {
   "property": "C30",
   "status": "proved",
   "theorems": [
    "MU.C30_derivative_1d",
    "MU.C30_derivative_2d",
    "MU.C30_derivative_3d"
   ],
   "note": "Real derivative, all seven concrete classes, every variable."
  },
  {
   "property": "C31",
   "status": "partial",
   "theorems": [
    "MU.C31_z_predefined_partial",
    "MU.C31_y_derivative_partial",
    "MU.C31_y_derivative_wrong",
    "MU.C31_refuted"
   ],
   "note": "False for the y derivative of PowerSeries3dYZOpenedXClosed: Evaluate_derivative_y_z_predefined passes x instead of y to the derivative of the change of variable (PowerSeries3d.h line 439). Proved for everything else; C31_y_derivative_wrong says exactly what is returned."
  },
  {
   "property": "C32",
   "status": "proved",
   "theorems": [
    "MU.C32_nodes"
   ],
   "note": "Real arithmetic; node values by cos; F pure"
  },
  {
   "property": "C33",
   "status": "proved",
   "theorems": [
    "MU.C33_polynomial_1d",
    "MU.C33_polynomial_2d",
    "MU.C33_polynomial_3d"
   ],
   "note": ""
  },
  {
   "property": "C34",
   "status": "proved",
   "theorems": [
    "MU.C34_sum_1d",
    "MU.C34_sum_2d",
    "MU.C34_sum_3d"
   ],
   "note": ""
  },
  {
   "property": "C35",
   "status": "proved",
   "theorems": [
    "MU.C35_derivative_1d",
    "MU.C35_derivative_2d",
    "MU.C35_derivative_3d"
   ],
   "note": ""
  },
  {
   "property": "C36",
   "status": "proved",
   "theorems": [
    "MU.C36_coefficients",
    "MU.C36_power_series_1d",
    "MU.C36_power_series_2d",
    "MU.C36_power_series_3d",
    "MU.C36_order_guard"
   ],
   "note": "Conversion up to order 18, formula for every order, exit above 18"
  },
  {
   "property": "C37",
   "status": "proved",
   "theorems": [
    "MU.C37_inverse",
    "MU.C37_image",
    "MU.C37_coefficient",
    "MU.C37_nodes",
    "MU.C37_sampling"
   ],
   "note": ""
  },
  {
   "property": "C38",
   "status": "partial",
   "theorems": [
    "MU.C38_refuted",
    "MU.C38_unchanged_partial",
    "MU.C38_second_call_partial",
    "MU.C38_calls_1d_partial",
    "MU.C38_calls_2d_partial",
    "MU.C38_calls_3d_partial",
    "MU.C38_unchanged_2d_partial",
    "MU.C38_unchanged_3d_partial"
   ],
   "note": "Refuted: a second call of Compute_ai/aij/aijk adds to the old coefficients. Proved: exactly what any number of calls does, in one, two and three variables, and that further calls are harmless only when the function is zero at the nodes."
  },
  {
   "property": "C39",
   "status": "proved",
   "theorems": [
    "MU.C39_nodes_2d",
    "MU.C39_nodes_3d"
   ],
   "note": ""
  },
  {
   "property": "C40",
   "status": "proved",
   "theorems": [
    "MU.C40_integral",
    "MU.C40_integral_uniform",
    "MU.C40_panels",
    "MU.C40_affine",
    "MU.C40_affine_uniform",
    "MU.C40_linear",
    "MU.C40_monotone",
    "MU.C40_guard"
   ],
   "note": "Both Trapz overloads; integral of the piecewise affine interpolant over the reals, the value over any field of characteristic not 2."
  },
  {
   "property": "C41",
   "status": "proved",
   "theorems": [
    "MU.C41_agree",
    "MU.C41_split"
   ],
   "note": "Any field of characteristic not 2."
  },
  {
   "property": "C42",
   "status": "partial",
   "theorems": [
    "MU.C42_refuted",
    "MU.C42_current_partial",
    "MU.C42_exact_partial",
    "MU.C42_right_iff_partial",
    "MU.C42_bounds_partial",
    "MU.C42_recover_partial"
   ],
   "note": "Refuted: SetIntegrationMethod does not invalidate the cached result. C42_exact_partial says what Get does after every history, C42_right_iff_partial exactly when it is right."
  },
  {
   "property": "C43",
   "status": "proved",
   "theorems": [
    "MU.C43_function",
    "MU.C43_affine",
    "MU.C43_vector"
   ],
   "note": "At least 2 and fewer than 2^32 points; vector of as many values as points."
  },
  {
   "property": "C44",
   "status": "proved",
   "theorems": [
    "MU.C44_exact",
    "MU.C44_space"
   ],
   "note": "Tables as rationals in the kernel; bound 3e-14 because the tables are rounded."
  },
  {
   "property": "C45",
   "status": "proved",
   "theorems": [
    "MU.C45_orders"
   ],
   "note": ""
  },
  {
   "property": "C46",
   "status": "proved",
   "theorems": [
    "MU.C46_linear",
    "MU.C46_swap_last",
    "MU.C46_permute"
   ],
   "note": ""
  },
  {
   "property": "C47",
   "status": "proved",
   "theorems": [
    "MU.C47_0_360",
    "MU.C47_0_2PI",
    "MU.C47_180_180",
    "MU.C47_PI_PI",
    "MU.C47_true_turn",
    "MU.C47_unit_names"
   ],
   "note": ""
  },
  {
   "property": "C48",
   "status": "partial",
   "theorems": [
    "MU.C48_refuted",
    "MU.C48_sign_partial",
    "MU.C48_iff_partial"
   ],
   "note": "Refuted: fmod keeps the sign, so negative angles stay negative. C48_sign_partial gives the interval for each sign."
  },
  {
   "property": "C49",
   "status": "proved",
   "theorems": [
    "MU.C49_linspace",
    "MU.C49_refused"
   ],
   "note": ""
  },
  {
   "property": "C50",
   "status": "partial",
   "theorems": [
    "MU.C50_refuted",
    "MU.C50_values_partial",
    "MU.C50_right_iff_partial"
   ],
   "note": "Refuted: arange passes num*step instead of stop to linspace. C50_values_partial gives what is returned, C50_right_iff_partial exactly when it is right."
  },
  {
   "property": "C51",
   "status": "proved",
   "theorems": [
    "MU.C51_logspace"
   ],
   "note": ""
  },
  {
   "property": "C52",
   "status": "proved",
   "theorems": [
    "MU.C52_heaviside",
    "MU.C52_door",
    "MU.C52_ramp",
    "MU.C52_dirac",
    "MU.C52_dirac_short",
    "MU.C52_sinc"
   ],
   "note": ""
  },
  {
   "property": "C53",
   "status": "proved",
   "theorems": [
    "MU.C53_sgn",
    "MU.C53_saturate",
    "MU.C53_sgnSqrt",
    "MU.C53_parity"
   ],
   "note": ""
  },
  {
   "property": "C54",
   "status": "proved",
   "theorems": [
    "MU.C54_isClose",
    "MU.C54_asymmetric",
    "MU.C54_vectors",
    "MU.C54_assert",
    "MU.C54_assert_vectors"
   ],
   "note": ""
  },
  {
   "property": "C55",
   "status": "proved",
   "theorems": [
    "MU.C55_elementwise",
    "MU.C55_refused",
    "MU.C55_inverse",
    "MU.C55_scalar",
    "MU.C55_pow"
   ],
   "note": ""
  },
  {
   "property": "C56",
   "status": "proved",
   "theorems": [
    "MU.C56_zyx",
    "MU.C56_euler",
    "MU.C56_quaternion",
    "MU.C56_unit",
    "MU.C56_acts"
   ],
   "note": ""
  },
  {
   "property": "C57",
   "status": "proved",
   "theorems": [
    "MU.C57_euler_quaternion_matrix",
    "MU.C57_opposite",
    "MU.C57_only_opposite",
    "MU.C57_extraction"
   ],
   "note": ""
  },
  {
   "property": "C58",
   "status": "proved",
   "theorems": [
    "MU.C58_matrix",
    "MU.C58_quaternion"
   ],
   "note": ""
  },
  {
   "property": "C59",
   "status": "proved",
   "theorems": [
    "MU.C59_rotation",
    "MU.C59_inverse",
    "MU.C59_norm",
    "MU.C59_versions",
    "MU.C59_add"
   ],
   "note": ""
  },
  {
   "property": "C60",
   "status": "partial",
   "theorems": [
    "MU.C60_others_partial",
    "MU.C60_vector2d_partial",
    "MU.C60_refuted"
   ],
   "note": "Refuted for Vector2d (maxCoeff without abs); proved for Vector3d, Vector6d, VectorN."
  },
  {
   "property": "C61",
   "status": "partial",
   "theorems": [
    "MU.C61_square_partial",
    "MU.C61_lower_triangle",
    "MU.C61_refuted",
    "MU.C61_always_true"
   ],
   "note": "Refuted: IsSymmetric computes the comparison and returns true regardless; the Cholesky factor then is that of the symmetrised lower triangle."
  },
  {
   "property": "C62",
   "status": "proved",
   "theorems": [
    "MU.C62_truncated",
    "MU.C62_moore_penrose",
    "MU.C62_zero_tolerance",
    "MU.C62_unique"
   ],
   "note": "For any SVD meeting the documented contract (satisfiable: documented_exists)."
  },
  {
   "property": "C63",
   "status": "proved",
   "theorems": [
    "MU.C63_optimal",
    "MU.C63_refused"
   ],
   "note": "For any QR/LU/least-squares meeting the documented contract."
  },
  {
   "property": "C64",
   "status": "proved",
   "theorems": [
    "MU.C64_velocity",
    "MU.C64_velocity_compose",
    "MU.C64_velocity_direct",
    "MU.C64_frequency",
    "MU.C64_frequency_compose",
    "MU.C64_vectors",
    "MU.C64_copies"
   ],
   "note": ""
  },
  {
   "property": "C65",
   "status": "proved",
   "theorems": [
    "MU.C65_frequencies",
    "MU.C65_period",
    "MU.C65_bins"
   ],
   "note": ""
  },
  {
   "property": "C66",
   "status": "proved",
   "theorems": [
    "MU.C66_value",
    "MU.C66_single",
    "MU.C66_reverse",
    "MU.C66_bilinear",
    "MU.C66_refused",
    "MU.C66_empty"
   ],
   "note": "Non-empty kernels; an empty kernel is undefined behaviour (C66_empty)."
  },
  {
   "property": "C67",
   "status": "proved",
   "theorems": [
    "MU.C67_equal",
    "MU.C67_agree",
    "MU.C67_refused"
   ],
   "note": "The original claim of equality everywhere is false of the code: below 24 expEi calls boost. C67_equal is exact from 24 on; C67_agree takes as hypothesis that boost::math::expint returns Ei(x)."
  },
  {
   "property": "C68",
   "status": "partial",
   "theorems": [
    "MU.C68_same_method_partial",
    "MU.C68_move_eval_partial",
    "MU.C68_addY_after_move_construct",
    "MU.C68_refuted"
   ],
   "note": "Evaluation is transferred; interp_method is not, so AddY after a move construction is undefined behaviour."
  },
  {
   "property": "C69",
   "status": "partial",
   "theorems": [
    "MU.C69_copy_of_loaded_partial",
    "MU.C69_refuted",
    "MU.C69_unloaded_source"
   ],
   "note": "Proved for a source on which the last AddVar succeeded and any target; refuted for a default-constructed source (copying it is undefined behaviour)."
  },
  {
   "property": "C70",
   "status": "proved",
   "theorems": [
    "MU.C70_zinf_limit"
   ],
   "note": "Half-line classes only."
  },
  {
   "property": "C71",
   "status": "proved",
   "theorems": [
    "MU.C71_accepts",
    "MU.C71_refuses",
    "MU.C71_empty",
    "MU.C71_never_undefined"
   ],
   "note": ""
  },
  {
   "property": "C72",
   "status": "proved",
   "theorems": [
    "MU.C72_table_range",
    "MU.C72_grid_range"
   ],
   "note": ""
  },
  {
   "property": "C73",
   "status": "partial",
   "theorems": [
    "MU.C73_refuted",
    "MU.C73_0_360_partial",
    "MU.C73_0_360_iff_partial",
    "MU.C73_180_180_same",
    "MU.C73_180_180"
   ],
   "note": "Refuted for Normalize_0_360 (a tiny negative angle gives 360); Normalize__180_180 is proved, range and same angle up to (|a|+720)/2^53. Rounding to nearest, any tie rule, unbounded exponent."
  },
  {
   "property": "C74",
   "status": "proved",
   "theorems": [
    "MU.C74_matrix_quaternion",
    "MU.C74_quaternion_matrix"
   ],
   "note": ""
  },
  {
   "property": "C75",
   "status": "partial",
   "theorems": [
    "MU.C75_matrix_euler_partial",
    "MU.C75_refuted",
    "MU.C75_gimbal_partial",
    "MU.C75_right_iff_partial"
   ],
   "note": "Refuted at the gimbal lock; proved for every rotation matrix away from it. C75_gimbal_partial gives the angles at the lock, C75_right_iff_partial exactly for which rotations the round trip holds."
  },
  {
   "property": "C76",
   "status": "proved",
   "theorems": [
    "MU.C76_velocity",
    "MU.C76_set"
   ],
   "note": ""
  },
  {
   "property": "C77",
   "status": "partial",
   "theorems": [
    "MU.C77_transport_partial",
    "MU.C77_compose",
    "MU.C77_refuted",
    "MU.C77_refuted_output",
    "MU.C77_aliased"
   ],
   "note": "Refuted when the output or the vector is the point; proved for distinct objects."
  },
  {
   "property": "C78",
   "status": "proved",
   "theorems": [
    "MU.C78_sort"
   ],
   "note": ""
  },
  {
   "property": "C79",
   "status": "proved",
   "theorems": [
    "MU.C79_projected"
   ],
   "note": ""
  },
  {
   "property": "C80",
   "status": "proved",
   "theorems": [
    "MU.C80_normalize"
   ],
   "note": ""
  },
  {
   "property": "C81",
   "status": "proved",
   "theorems": [
    "MU.C81_positive_definite",
    "MU.C81_factor",
    "MU.C81_unique",
    "MU.C81_complete"
   ],
   "note": "Eigen LLT modelled as its algorithm, exact reals."
  },
  {
   "property": "C82",
   "status": "proved",
   "theorems": [
    "MU.C82_thin",
    "MU.C82_full",
    "MU.C82_refused"
   ],
   "note": "For any QR meeting the documented contract."
  },
  {
   "property": "C83",
   "status": "proved",
   "theorems": [
    "MU.C83_lu",
    "MU.C83_refused"
   ],
   "note": "For any LU meeting the documented contract."
  },
  {
   "property": "C84",
   "status": "proved",
   "theorems": [
    "MU.C84_from_upper",
    "MU.C84_from_lower",
    "MU.C84_transpose"
   ],
   "note": ""
  },
  {
   "property": "C85",
   "status": "proved",
   "theorems": [
    "MU.C85_symmetric",
    "MU.C85_semidefinite",
    "MU.C85_all_tolerances",
    "MU.C85_not_symmetric"
   ],
   "note": "For symmetric matrices; C85_not_symmetric shows the restriction is needed."
  },
  {
   "property": "C86",
   "status": "proved",
   "theorems": [
    "MU.C86_exact",
    "MU.C86_least_squares",
    "MU.C86_refused"
   ],
   "note": "For any solver meeting the documented contract."
  },
  {
   "property": "C87",
   "status": "partial",
   "theorems": [
    "MU.C87_forward",
    "MU.C87_round_trip_partial",
    "MU.C87_refuted",
    "MU.C87_flags"
   ],
   "note": "Refuted for odd sizes with the half spectrum; proved for all the others. Eigen::FFT is modelled by the sums it computes."
  },
  {
   "property": "C88",
   "status": "proved",
   "theorems": [
    "MU.C88_pow2"
   ],
   "note": ""
  },
  {
   "property": "C89",
   "status": "partial",
   "theorems": [
    "MU.C89_accuracy_partial",
    "MU.C89_refuted"
   ],
   "note": "Refuted on [6, 12): the last alphaj coefficient (BoostFunctions.h:292) has a wrong digit, the relative error reaches 2.4e-11. Proved outside [6, 12); inside with the bound 2.51e-11."
  },
  {
   "property": "C90",
   "status": "partial",
   "theorems": [
    "MU.C90_accuracy_partial",
    "MU.C90_refuted",
    "MU.C90_not_decreasing",
    "MU.C90_refused"
   ],
   "note": "Refuted from 1 on: pj[3], pj[7] (BoostFunctions.h:487, 491) and qj[4], qj[8] (533, 537) have wrong digits; relative errors 1.4e-9 and 9.3e-4, and a jump up at 4. Proved below 1; elsewhere with those bounds."
  },
  {
   "property": "C91",
   "status": "proved",
   "theorems": [
    "MU.C91_expEi"
   ],
   "note": "boost expint is a parameter below 24."
  },
  {
   "property": "C92",
   "status": "proved",
   "theorems": [
    "MU.C92_zero",
    "MU.C92_one",
    "MU.C92_derivative",
    "MU.C92_refused"
   ],
   "note": "Proved for every argument, with the exact reals: certificates on [0,3] against the series; above 3 the difference with Y is an integral that solves Bessel's equation with a source, bounded from infinity. boost's cyl_neumann is assumed exact. Rounding is not modelled."
  },
  {
   "property": "C93",
   "status": "partial",
   "theorems": [
    "MU.C93_first_kind_partial",
    "MU.C93_second_kind",
    "MU.C93_modified_first_kind_partial",
    "MU.C93_modified_second_kind",
    "MU.C93_hankel",
    "MU.C93_refuted",
    "MU.C93_modified_refuted"
   ],
   "note": "Proved for every real order at positive arguments and, for J and I, at whole orders and every non-zero argument, from the integral representations. Refuted at 0: J_1'(0) = I_1'(0) = 1/2 but order / x is not finite there (C93_refuted, C93_modified_refuted). boost's functions are assumed exact."
  },
  {
   "property": "C94",
   "status": "proved",
   "theorems": [
    "MU.C94_components"
   ],
   "note": ""
  },
  {
   "property": "C95",
   "status": "partial",
   "theorems": [
    "MU.C95_update_partial",
    "MU.C95_inplace_partial",
    "MU.C95_nonneg_partial",
    "MU.C95_roundtrip_partial",
    "MU.C95_sizes",
    "MU.C95_refuted",
    "MU.C95_refuted_downdate"
   ],
   "note": "Proved for symmetric positive definite A whose update is positive definite, any size and sign of sigma (C95_update_partial, C95_inplace_partial, C95_nonneg_partial, C95_roundtrip_partial). The refusal is refuted: neither function reads info(), so an indefinite A gives a wrong factor (C95_refuted) and an impossible downdate silently gives the factor of A (C95_refuted_downdate)."
  },
  {
   "property": "C96",
   "status": "proved",
   "theorems": [
    "MU.C96_inverse",
    "MU.C96_involution",
    "MU.C96_refused"
   ],
   "note": "inverse() of Eigen is a parameter with its contract IsInverse."
  },
  {
   "property": "C97",
   "status": "proved",
   "theorems": [
    "MU.C97_eigenvalues",
    "MU.C97_conjugate",
    "MU.C97_refused"
   ],
   "note": "eigenvalues() of Eigen is a parameter with its contract AreEigenvalues."
  },
  {
   "property": "C98",
   "status": "proved",
   "theorems": [
    "MU.C98_meaning",
    "MU.C98_reflexive_symmetric",
    "MU.C98_elements",
    "MU.C98_scale",
    "MU.C98_identity"
   ],
   "note": ""
  },
  {
   "property": "C99",
   "status": "proved",
   "theorems": [
    "MU.C99_inner",
    "MU.C99_inner_linear",
    "MU.C99_transpose",
    "MU.C99_outer",
    "MU.C99_square",
    "MU.C99_diagonal"
   ],
   "note": ""
  },
  {
   "property": "C100",
   "status": "proved",
   "theorems": [
    "MU.C100_at",
    "MU.C100_parts",
    "MU.C100_set"
   ],
   "note": ""
  },
  {
   "property": "C101",
   "status": "partial",
   "theorems": [
    "MU.C101_axes",
    "MU.C101_copy",
    "MU.C101_coordinates",
    "MU.C101_valid_partial",
    "MU.C101_refuted"
   ],
   "note": "Copies, axes, coordinate getters: proved for every dimension. IsValid is refuted: it is always true, also of an empty object on which Nearest is undefined; GetData has no return statement, so every call is undefined (C101_refuted). C101_valid_partial is the true half."
  },
  {
   "property": "C102",
   "status": "proved",
   "theorems": [
    "MU.C102_interpolates",
    "MU.C102_constructors",
    "MU.C102_unsorted",
    "MU.C102_degenerate"
   ],
   "note": "Eigen Splines algorithms modelled from memory; the linear solver is a parameter (SolvesRegular, satisfiable). Schoenberg-Whitney theorem proved."
  },
  {
   "property": "C103",
   "status": "proved",
   "theorems": [
    "MU.C103_smooth",
    "MU.C103_pieces",
    "MU.C103_polynomial",
    "MU.C103_linear",
    "MU.C103_rescale"
   ],
   "note": "As C102; Dim = 1."
  },
  {
   "property": "C104",
   "status": "proved",
   "theorems": [
    "MU.C104_horner",
    "MU.C104_horner_derivative"
   ],
   "note": ""
  },
  {
   "property": "C105",
   "status": "proved",
   "theorems": [
    "MU.C105_linspace"
   ],
   "note": ""
  },
  {
   "property": "C106",
   "status": "proved",
   "theorems": [
    "MU.C106_uniform",
    "MU.C106_general"
   ],
   "note": ""
  },
  {
   "property": "C107",
   "status": "partial",
   "theorems": [
    "MU.C107_error_partial",
    "MU.C107_refuted"
   ],
   "note": "Refuted on a table of constants with close abscissas far from 0; the error bound is proved for every table and point."
  },
  {
   "property": "C108",
   "status": "partial",
   "theorems": [
    "MU.C108_error_partial",
    "MU.C108_refuted"
   ],
   "note": "Refuted on [2,3] with 4 points; the drift of the points and the error of the sum are bounded for every function, interval and number of points."
  },
  {
   "property": "C109",
   "status": "proved",
   "theorems": [
    "MU.C109_smooth",
    "MU.C109_sharp",
    "MU.C109_lipschitz"
   ],
   "note": ""
  },
  {
   "property": "C110",
   "status": "proved",
   "theorems": [
    "MU.C110_trapz",
    "MU.C110_trapz_uniform",
    "MU.C110_integrate1d"
   ],
   "note": ""
  },
  {
   "property": "C111",
   "status": "proved",
   "theorems": [
    "MU.C111_bilinear",
    "MU.C111_multilinear"
   ],
   "note": ""
  },
  {
   "property": "C112",
   "status": "proved",
   "theorems": [
    "MU.C112_error_1d",
    "MU.C112_error_segment",
    "MU.C112_error_2d",
    "MU.C112_error_3d"
   ],
   "note": ""
  },
  {
   "property": "C113",
   "status": "proved",
   "theorems": [
    "MU.C113_linear_exits",
    "MU.C113_saturate_left",
    "MU.C113_saturate_right",
    "MU.C113_saturate_total"
   ],
   "note": ""
  },
  {
   "property": "C114",
   "status": "proved",
   "theorems": [
    "MU.C114_interp1d_nan",
    "MU.C114_linear_infinite",
    "MU.C114_saturate_infinite",
    "MU.C114_extrapolate_infinite",
    "MU.C114_interp2d_checked",
    "MU.C114_interp2d_ndebug",
    "MU.C114_interp2d_nan"
   ],
   "note": ""
  },
  {
   "property": "C115",
   "status": "partial",
   "theorems": [
    "MU.C115_grid_any_point",
    "MU.C115_bound_check_partial",
    "MU.C115_infinite_rejected_partial",
    "MU.C115_nan_returns_last_node",
    "MU.C115_refuted",
    "MU.C115_nearest_infinite_partial",
    "MU.C115_nearest_nan_undefined",
    "MU.C115_surrounding"
   ],
   "note": "Refuted by C115_refuted and C115_nearest_nan_undefined: NaN passes the bound check of RegularGridInterpolator, whose search then returns the last cell, so that the value at the last node comes back; RegularGridNearest::Nearest reads coord[size] for NaN. Proved: infinite coordinates are rejected or clamped, and exactly what NaN does."
  },
  {
   "property": "C116",
   "status": "partial",
   "theorems": [
    "MU.C116_interp1d_partial",
    "MU.C116_interp2d_partial",
    "MU.C116_refuted"
   ],
   "note": "Refuted for changes of the abscissas (C116_refuted); proved for changes of all other vectors, the ordinates included. Missing: a guarantee under changes of the abscissas, which the code does not give."
  },
  {
   "property": "C117",
   "status": "proved",
   "theorems": [
    "MU.C117_interp1d",
    "MU.C117_saturate",
    "MU.C117_interp1d_data",
    "MU.C117_grid",
    "MU.C117_grid_data",
    "MU.C117_interp2d",
    "MU.C117_interp2d_data"
   ],
   "note": ""
  },
  {
   "property": "C118",
   "status": "proved",
   "theorems": [
    "MU.C118_linear",
    "MU.C118_symmetric",
    "MU.C118_parseval",
    "MU.C118_sinusoid"
   ],
   "note": ""
  },
  {
   "property": "C119",
   "status": "proved",
   "theorems": [
    "MU.C119_node",
    "MU.C119_constant",
    "MU.C119_clamping",
    "MU.C119_bound_check",
    "MU.C119_error"
   ],
   "note": ""
  },
  {
   "property": "C120",
   "status": "proved",
   "theorems": [
    "MU.C120_one_axis",
    "MU.C120_two_axes",
    "MU.C120_row",
    "MU.C120_trapz",
    "MU.C120_insert"
   ],
   "note": ""
  },
  {
   "property": "C121",
   "status": "proved",
   "theorems": [
    "MU.C121_convex",
    "MU.C121_concave",
    "MU.C121_samples",
    "MU.C121_above",
    "MU.C121_trapz"
   ],
   "note": ""
  },
  {
   "property": "C122",
   "status": "proved",
   "theorems": [
    "MU.C122_value",
    "MU.C122_failure",
    "MU.C122_retry",
    "MU.C122_cached"
   ],
   "note": ""
  },
  {
   "property": "C123",
   "status": "partial",
   "theorems": [
    "MU.C123_first_partial",
    "MU.C123_returns_partial",
    "MU.C123_refuted",
    "MU.C123_history_partial",
    "MU.C123_exact_partial",
    "MU.C123_first_call_partial"
   ],
   "note": "Refuted by C123_refuted: after a call in which the function threw, Compute_ai adds to the coefficients of the failed call. Proved: the first Compute_ai, whether or not the function has a state; the exact coefficients after any number of failed calls (C123_history_partial); a later call is right if and only if the failed call left every coefficient at zero (C123_exact_partial), as when the function throws at its first call (C123_first_call_partial)."
  },
  {
   "property": "C124",
   "status": "proved",
   "theorems": [
    "MU.C124_eval",
    "MU.C124_alone",
    "MU.C124_get",
    "MU.C124_first_get_races"
   ],
   "note": ""
  },
  {
   "property": "C125",
   "status": "proved",
   "theorems": [
    "MU.C125_velocity",
    "MU.C125_velocity_round_trip",
    "MU.C125_velocity_order",
    "MU.C125_frequency",
    "MU.C125_frequency_round_trip",
    "MU.C125_frequency_order",
    "MU.C125_angles"
   ],
   "note": ""
  },
  {
   "property": "C126",
   "status": "proved",
   "theorems": [
    "MU.C126_interp1d",
    "MU.C126_trapz",
    "MU.C126_integrate1d",
    "MU.C126_multilinear",
    "MU.C126_interp2d"
   ],
   "note": ""
  },
  {
   "property": "C127",
   "status": "proved",
   "theorems": [
    "MU.C127_exact",
    "MU.C127_sharp"
   ],
   "note": ""
  },
  {
   "property": "C128",
   "status": "proved",
   "theorems": [
    "MU.C128_lipschitz",
    "MU.C128_converges"
   ],
   "note": ""
  },
  {
   "property": "C129",
   "status": "partial",
   "theorems": [
    "MU.C129_nearly",
    "MU.C129_agrees",
    "MU.C129_node_partial",
    "MU.C129_refuted"
   ],
   "note": "The first two clauses are proved for every grid and point (C129_nearly, C129_agrees). The last clause is false for nodes that are neighbouring doubles: with nodes 1 and 1+2^-52 and ties to even, Nearest at the node 1 returns the other node (C129_refuted); it holds when neighbouring nodes p < q differ by more than |p+q|/2^53 (C129_node_partial)."
  },
  {
   "property": "C130",
   "status": "partial",
   "theorems": [
    "MU.C130_inside",
    "MU.C130_monotone_partial",
    "MU.C130_refuted",
    "MU.C130_approximation",
    "MU.C130_variation",
    "MU.C130_lipschitz",
    "MU.C130_converges"
   ],
   "note": "Monotonicity holds for orders 1, 2, 4, 5, 6, 8 (C130_monotone_partial) and is refuted for orders 3 and 7, whose tables have a negative weight (C130_refuted). The other clauses are proved for all orders."
  },
  {
   "property": "C131",
   "status": "partial",
   "theorems": [
    "MU.C131_error_partial",
    "MU.C131_refuted"
   ],
   "note": "The error bound is proved (C131_error_partial); a result between the data of the corners is refuted (C131_refuted)."
  },
  {
   "property": "C132",
   "status": "proved",
   "theorems": [
    "MU.C132_error_1d",
    "MU.C132_error_2d",
    "MU.C132_error_3d"
   ],
   "note": ""
  },
  {
   "property": "C133",
   "status": "proved",
   "theorems": [
    "MU.C133_error_1d",
    "MU.C133_error_2d",
    "MU.C133_error_3d",
    "MU.C133_derivative_1d"
   ],
   "note": ""
  },
  {
   "property": "C134",
   "status": "proved",
   "theorems": [
    "MU.C134_error_1d",
    "MU.C134_error_2d",
    "MU.C134_error_3d",
    "MU.C134_converges_1d",
    "MU.C134_converges_2d",
    "MU.C134_converges_3d",
    "MU.C134_geometric_1d"
   ],
   "note": ""
  },
  {
   "property": "C135",
   "status": "proved",
   "theorems": [
    "MU.C135_error_1d",
    "MU.C135_accuracy_1d",
    "MU.C135_spectral_1d",
    "MU.C135_error_2d",
    "MU.C135_error_3d",
    "MU.C135_accuracy_2d",
    "MU.C135_spectral_2d",
    "MU.C135_accuracy_3d",
    "MU.C135_spectral_3d"
   ],
   "note": ""
  },
  {
   "property": "C136",
   "status": "proved",
   "theorems": [
    "MU.C136_error_1d",
    "MU.C136_error_2d_x",
    "MU.C136_error_2d_y",
    "MU.C136_error_3d_x",
    "MU.C136_error_3d_y",
    "MU.C136_error_3d_z",
    "MU.C136_converges_1d",
    "MU.C136_converges_2d_x",
    "MU.C136_converges_2d_y",
    "MU.C136_converges_3d_x",
    "MU.C136_converges_3d_y",
    "MU.C136_converges_3d_z"
   ],
   "note": ""
  },
  {
   "property": "C137",
   "status": "proved",
   "theorems": [
    "MU.C137_error_1d",
    "MU.C137_error_2d_x",
    "MU.C137_error_2d_y",
    "MU.C137_error_3d_x",
    "MU.C137_error_3d_y",
    "MU.C137_error_3d_z",
    "MU.C137_total_1d",
    "MU.C137_total_2d_x",
    "MU.C137_total_2d_y",
    "MU.C137_total_3d_x",
    "MU.C137_total_3d_y",
    "MU.C137_total_3d_z"
   ],
   "note": ""
  },
  {
   "property": "C138",
   "status": "partial",
   "theorems": [
    "MU.C138_euler_matrix",
    "MU.C138_euler_quaternion",
    "MU.C138_quaternion_matrix",
    "MU.C138_euler_quaternion_matrix",
    "MU.C138_euler_orthogonal",
    "MU.C138_quaternion_rotation",
    "MU.C138_quaternion_orthogonal",
    "MU.C138_matrix_angles",
    "MU.C138_quaternion_angles_partial",
    "MU.C138_round_trip_matrix",
    "MU.C138_round_trip_quaternion_partial",
    "MU.C138_refuted"
   ],
   "note": "Refuted at a pitch of 90 degrees (C138_refuted: asin of a number above one). The matrices, the quaternion of Euler angles and the angles of matrices are proved; the angles of a quaternion (C138_quaternion_angles_partial, C138_round_trip_quaternion_partial) need the pitch to be away from 90 degrees by more than about the square root of the error."
  },
  {
   "property": "C139",
   "status": "proved",
   "theorems": [
    "MU.C139_e1_rounding",
    "MU.C139_e1_accuracy",
    "MU.C139_e1_refused"
   ],
   "note": ""
  },
  {
   "property": "C140",
   "status": "proved",
   "theorems": [
    "MU.C140_ei_rounding",
    "MU.C140_ei_accuracy",
    "MU.C140_ei_refused",
    "MU.C140_expEi"
   ],
   "note": ""
  },
  {
   "property": "C141",
   "status": "proved",
   "theorems": [
    "MU.C141_zero_rounding",
    "MU.C141_one_rounding",
    "MU.C141_zero_accuracy",
    "MU.C141_one_accuracy",
    "MU.C141_derivative",
    "MU.C141_refused"
   ],
   "note": ""
  },
  {
   "property": "C142",
   "status": "proved",
   "theorems": [
    "MU.C142_integral"
   ],
   "note": ""
  },
  {
   "property": "C143",
   "status": "proved",
   "theorems": [
    "MU.C143_interp1d",
    "MU.C143_interp2d",
    "MU.C143_grid"
   ],
   "note": ""
  },
  {
   "property": "C144",
   "status": "proved",
   "theorems": [
    "MU.C144_rounding",
    "MU.C144_accuracy"
   ],
   "note": ""
  },
  {
   "property": "C145",
   "status": "partial",
   "theorems": [
    "MU.C145_no_failure",
    "MU.C145_set_x",
    "MU.C145_values_stay_partial",
    "MU.C145_loaded_partial",
    "MU.C145_early_failure_partial",
    "MU.C145_retry_is_refused",
    "MU.C145_alias",
    "MU.C145_shift",
    "MU.C145_eval_all_undefined",
    "MU.C145_refuted",
    "MU.C145_reported"
   ],
   "note": "The code violates the full property (C145_refuted); proved for values available before the failing call, for failures before the name is inserted, and for SetX."
  },
  {
   "property": "C146",
   "status": "partial",
   "theorems": [
    "MU.C146_no_failure",
    "MU.C146_set_x",
    "MU.C146_set_y",
    "MU.C146_values_stay_partial",
    "MU.C146_loaded_partial",
    "MU.C146_early_failure_partial",
    "MU.C146_retry_is_refused",
    "MU.C146_alias",
    "MU.C146_shift",
    "MU.C146_refuted",
    "MU.C146_reported"
   ],
   "note": "The code violates the full property (C146_refuted); proved for values available before the failing call, for failures before the name is inserted, and for SetX and SetY."
  },
  {
   "property": "C147",
   "status": "partial",
   "theorems": [
    "MU.C147_returns_1d_partial",
    "MU.C147_returns_2d_partial",
    "MU.C147_bound_1d_partial",
    "MU.C147_bound_2d_partial",
    "MU.C147_lost",
    "MU.C147_refuted"
   ],
   "note": "The code violates the full property (C147_refuted); proved for calls that return, and at most one object per call otherwise."
  },
  {
   "property": "C148",
   "status": "partial",
   "theorems": [
    "MU.C148_add_coord",
    "MU.C148_no_failure",
    "MU.C148_early_failure_partial",
    "MU.C148_late_failure",
    "MU.C148_recovers_partial",
    "MU.C148_refuted",
    "MU.C148_copy",
    "MU.C148_assign_partial",
    "MU.C148_assign_early_partial",
    "MU.C148_assign_refuted",
    "MU.C148_nearest",
    "MU.C148_nearest_assign_partial",
    "MU.C148_nearest_refuted",
    "MU.C148_nearest_states",
    "MU.C148_assign_states"
   ],
   "note": "Refuted in general: AddVar that fails after the values were replaced leaves an interpolator that refers to freed storage (C148_refuted, C148_late_failure); same for the assignments (C148_assign_refuted, C148_nearest_refuted). Proved: AddCoord, early failures of AddVar, the copy constructor, recovery by a later AddVar or assignment, RegularGridNearest AddCoord and AddVar."
  },
  {
   "property": "C149",
   "status": "proved",
   "theorems": [
    "MU.C149_rotation",
    "MU.C149_norm",
    "MU.C149_round_trip",
    "MU.C149_axes",
    "MU.C149_velocity",
    "MU.C149_transport"
   ],
   "note": ""
  },
  {
   "property": "C150",
   "status": "proved",
   "theorems": [
    "MU.C150_components",
    "MU.C150_unit",
    "MU.C150_isUnit",
    "MU.C150_recognised",
    "MU.C150_projected"
   ],
   "note": ""
  },
  {
   "property": "C151",
   "status": "partial",
   "theorems": [
    "MU.C151_ramp_partial",
    "MU.C151_refuted"
   ],
   "note": "Full statement refuted (C151_refuted): the ramp from 0 to 0.2 over [2^52, 2^52+1] ends at 0.25. C151_ramp_partial proves the exact levels outside and an error bound inside."
  },
  {
   "property": "C152",
   "status": "proved",
   "theorems": [
    "MU.C152_elementwise",
    "MU.C152_sum",
    "MU.C152_sinc",
    "MU.C152_door",
    "MU.C152_dirac"
   ],
   "note": ""
  },
  {
   "property": "C153",
   "status": "proved",
   "theorems": [
    "MU.C153_convolution",
    "MU.C153_logspace"
   ],
   "note": ""
  },
  {
   "property": "C154",
   "status": "proved",
   "theorems": [
    "MU.C154_calls",
    "MU.C154_serializable",
    "MU.C154_races"
   ],
   "note": ""
  },
  {
   "property": "C155",
   "status": "proved",
   "theorems": [
    "MU.C155_calls",
    "MU.C155_serializable",
    "MU.C155_races"
   ],
   "note": ""
  },
  {
   "property": "C156",
   "status": "proved",
   "theorems": [
    "MU.C156_calls",
    "MU.C156_serializable",
    "MU.C156_races"
   ],
   "note": ""
  },
  {
   "property": "C157",
   "status": "proved",
   "theorems": [
    "MU.C157_calls",
    "MU.C157_serializable",
    "MU.C157_races"
   ],
   "note": ""
  },
  {
   "property": "C158",
   "status": "proved",
   "theorems": [
    "MU.C158_matrix_quaternion",
    "MU.C158_matrix_back",
    "MU.C158_quaternion_back",
    "MU.C158_euler"
   ],
   "note": ""
  },
  {
   "property": "C159",
   "status": "proved",
   "theorems": [
    "MU.C159_ties",
    "MU.C159_data",
    "MU.C159_accuracy",
    "MU.C159_rate",
    "MU.C159_diagonal"
   ],
   "note": ""
  },
  {
   "property": "C160",
   "status": "proved",
   "theorems": [
    "MU.C160_coefficients_1d",
    "MU.C160_error_1d",
    "MU.C160_coefficients_2d",
    "MU.C160_error_2d",
    "MU.C160_coefficients_3d",
    "MU.C160_error_3d",
    "MU.C160_order_guard",
    "MU.C160_accuracy_1d",
    "MU.C160_accuracy_2d",
    "MU.C160_accuracy_3d"
   ],
   "note": ""
  },
  {
   "property": "C161",
   "status": "proved",
   "theorems": [
    "MU.C161_pointwise",
    "MU.C161_values",
    "MU.C161_multilinear",
    "MU.C161_no_points",
    "MU.C161_over_data"
   ],
   "note": ""
  },
  {
   "property": "C162",
   "status": "partial",
   "theorems": [
    "MU.C162_right_size",
    "MU.C162_small_partial",
    "MU.C162_accepts_iff",
    "MU.C162_accepted_short",
    "MU.C162_refuted"
   ],
   "note": "AddVar counts modulo 2^32: an array short by a multiple of 2^32 elements is accepted (C162_refuted). Below 2^32 the check is exact (C162_small_partial), and an array of the right size is never refused (C162_right_size)."
  },
  {
   "property": "C163",
   "status": "proved",
   "theorems": [
    "MU.C163_error",
    "MU.C163_constant",
    "MU.C163_node_inexact"
   ],
   "note": ""
  },
  {
   "property": "C164",
   "status": "proved",
   "theorems": [
    "MU.C164_grid",
    "MU.C164_interp2d",
    "MU.C164_simplex"
   ],
   "note": ""
  },
  {
   "property": "C165",
   "status": "proved",
   "theorems": [
    "MU.C165_lipschitz",
    "MU.C165_data",
    "MU.C165_continuous"
   ],
   "note": ""
  },
  {
   "property": "C166",
   "status": "proved",
   "theorems": [
    "MU.C166_elements",
    "MU.C166_last",
    "MU.C166_new"
   ],
   "note": ""
  },
  {
   "property": "C167",
   "status": "proved",
   "theorems": [
    "MU.C167_0_2PI",
    "MU.C167_PI_PI",
    "MU.C167_PI_PI_idempotent"
   ],
   "note": "All double angles, with the constants of the header rounded to doubles; the exponent range is unbounded. The smallest double of ]-pi, pi], minus M_PI, is moved to M_PI, which is the same angle up to rounding."
  },
  {
   "property": "C168",
   "status": "proved",
   "theorems": [
    "MU.C168_isClose",
    "MU.C168_vectors"
   ],
   "note": ""
  },
  {
   "property": "C169",
   "status": "proved",
   "theorems": [
    "MU.C169_polar"
   ],
   "note": ""
  },
  {
   "property": "C170",
   "status": "proved",
   "theorems": [
    "MU.C170_frequencies"
   ],
   "note": ""
  },
  {
   "property": "C171",
   "status": "partial",
   "theorems": [
    "MU.C171_finite_partial",
    "MU.C171_refuted"
   ],
   "note": "False for data near the largest double (C171_refuted). Proved when (1+X)(1+Y)(1+1/(x1-x0)) is at most 2^1020 for the cell of the point."
  },
  {
   "property": "C172",
   "status": "partial",
   "theorems": [
    "MU.C172_unit_partial",
    "MU.C172_refuted"
   ],
   "note": "False for vectors of norm 2^512 and more or below 2^-538 (C172_refuted). Proved for norms from 2^-505 to 2^509."
  },
  {
   "property": "C173",
   "status": "partial",
   "theorems": [
    "MU.C173_elements",
    "MU.C173_range",
    "MU.C173_values",
    "MU.C173_symmetric",
    "MU.C173_equal",
    "MU.C173_equal_exact",
    "MU.C173_identity",
    "MU.C173_semidefinite",
    "MU.C173_inverse33",
    "MU.C173_inverse66",
    "MU.C173_qr",
    "MU.C173_lu",
    "MU.C173_cholesky",
    "MU.C173_solvers",
    "MU.C173_least_squares_partial",
    "MU.C173_refuted",
    "MU.C173_refuted_symmetry"
   ],
   "note": "LeastSquareSolver aborts with assertions on (C173_refuted; rests on our knowledge of an eigen_assert in Eigen 3.3.7, whose source is not in the sandbox) and minimises the residual with NDEBUG (C173_least_squares_partial). IsSymmetric accepts every matrix (C173_refuted_symmetry). Everything else is proved for every matrix."
  },
  {
   "property": "C174",
   "status": "partial",
   "theorems": [
    "MU.C174_first_2d_partial",
    "MU.C174_returns_2d",
    "MU.C174_calls_2d",
    "MU.C174_exact_2d_partial",
    "MU.C174_first_call_2d_partial",
    "MU.C174_first_3d_partial",
    "MU.C174_returns_3d",
    "MU.C174_calls_3d",
    "MU.C174_exact_3d_partial",
    "MU.C174_first_call_3d_partial",
    "MU.C174_refuted",
    "MU.C174_refuted_3d"
   ],
   "note": "Refuted by C174_refuted (two variables) and C174_refuted_3d: after a call in which the function threw, the coefficients keep the partial sums. Proved for all histories of calls: the points and the number of the calls of the function and the exception that comes out (C174_calls_2d, C174_calls_3d), the call returns when the function does (C174_returns_2d, _3d), the first call is right, and a later call that returns is right if and only if all coefficients were zero before it (C174_exact_2d_partial, _3d_partial), as when every failure was at the first call of the function (C174_first_call_2d_partial, _3d_partial)."
  },
  {
   "property": "C175",
   "status": "partial",
   "theorems": [
    "MU.C175_linspace_partial",
    "MU.C175_refuted",
    "MU.C175_refuted_underflow"
   ],
   "note": "Refuted when the difference of the ends overflows (C175_refuted) or the step underflows (C175_refuted_underflow); C175_linspace_partial is the full claim when stop - start does not overflow and the step is a normal number."
  },
  {
   "property": "C176",
   "status": "partial",
   "theorems": [
    "MU.C176_horner_partial",
    "MU.C176_horner_derivative_partial",
    "MU.C176_refuted"
   ],
   "note": "Refuted near the largest number (C176_refuted); C176_horner_partial and C176_horner_derivative_partial give a finite result and the error bound when the sum of the magnitudes of the terms is at most 2^1020."
  },
  {
   "property": "C177",
   "status": "partial",
   "theorems": [
    "MU.C177_uniform_partial",
    "MU.C177_general_partial",
    "MU.C177_refuted"
   ],
   "note": "Refuted near the largest number (C177_refuted); C177_uniform_partial and C177_general_partial give a finite result and the error bound when the sums of the magnitudes are at most 2^1020 and 2^1018."
  },
  {
   "property": "C178",
   "status": "proved",
   "theorems": [
    "MU.C178_value",
    "MU.C178_failure",
    "MU.C178_returns",
    "MU.C178_points",
    "MU.C178_orders",
    "MU.C178_retry"
   ],
   "note": ""
  },
  {
   "property": "C179",
   "status": "proved",
   "theorems": [
    "MU.C179_pseudo_inverse",
    "MU.C179_residual",
    "MU.C179_inverse",
    "MU.C179_qr",
    "MU.C179_constraint"
   ],
   "note": ""
  },
  {
   "property": "C180",
   "status": "proved",
   "theorems": [
    "MU.C180_Ei_infinity",
    "MU.C180_E1_infinity",
    "MU.C180_equivalent_infinity",
    "MU.C180_zero",
    "MU.C180_struve_relative",
    "MU.C180_struve_zero",
    "MU.C180_struve_not_exact"
   ],
   "note": ""
  },
  {
   "property": "C181",
   "status": "proved",
   "theorems": [
    "MU.C181_linear",
    "MU.C181_interp1d",
    "MU.C181_degree_capped",
    "MU.C181_few",
    "MU.C181_few_error",
    "MU.C181_linear_error",
    "MU.C181_degree_zero"
   ],
   "note": ""
  },
  {
   "property": "C182",
   "status": "partial",
   "theorems": [
    "MU.C182_linear",
    "MU.C182_bilinear_partial",
    "MU.C182_mended",
    "MU.C182_refuted"
   ],
   "note": "The printed formula in two variables is wrong: C182_refuted. C182_bilinear_partial: with a_1 and a_3 mended it is the function computed."
  },
  {
   "property": "C183",
   "status": "proved",
   "theorems": [
    "MU.C183_modulo",
    "MU.C183_degrees",
    "MU.C183_radians",
    "MU.C183_not_finite"
   ],
   "note": ""
  },
  {
   "property": "C184",
   "status": "proved",
   "theorems": [
    "MU.C184_velocity",
    "MU.C184_frequency",
    "MU.C184_angles",
    "MU.C184_velocity_order",
    "MU.C184_frequency_order",
    "MU.C184_not_finite",
    "MU.C184_ends"
   ],
   "note": ""
  },
  {
   "property": "C185",
   "status": "proved",
   "theorems": [
    "MU.C185_product",
    "MU.C185_filter",
    "MU.C185_padding",
    "MU.C185_delay",
    "MU.C185_mean",
    "MU.C185_energy"
   ],
   "note": ""
  },
  {
   "property": "C186",
   "status": "partial",
   "theorems": [
    "MU.C186_one_axis_partial",
    "MU.C186_nodes_partial",
    "MU.C186_several_axes",
    "MU.C186_refuted",
    "MU.C186_bounds",
    "MU.C186_two_axes_partial"
   ],
   "note": "One axis is proved; with two axes or more the property is false (C186_several_axes, C186_refuted): the size that is checked and the extents of the array disagree. Between nodes where the table of two axes has its four values the bilinear and simplex formulas are proved (C186_two_axes_partial), and the bounds for any number of axes (C186_bounds)."
  },
  {
   "property": "C187",
   "status": "partial",
   "theorems": [
    "MU.C187_finite_partial",
    "MU.C187_nan_partial",
    "MU.C187_infinite_first_partial",
    "MU.C187_infinite_second",
    "MU.C187_refuted",
    "MU.C187_vectors_partial"
   ],
   "note": "False when the second argument is infinite (C187_infinite_second, C187_refuted); everything else is proved."
  },
  {
   "property": "C188",
   "status": "partial",
   "theorems": [
    "MU.C188_node_partial",
    "MU.C188_constant",
    "MU.C188_finite_partial",
    "MU.C188_clamping_partial",
    "MU.C188_bound_check",
    "MU.C188_refuted",
    "MU.C188_refuted_axis"
   ],
   "note": "False for finite data whose differences overflow (C188_refuted: NaN at a node) and for axes whose length overflows (C188_refuted_axis). Proved otherwise: nodes exact when no difference of data overflows, finite and accurate and clamped for data below 2^1021; constants and bound check for every size of the data."
  },
  {
   "property": "C189",
   "status": "partial",
   "theorems": [
    "MU.C189_finite_partial",
    "MU.C189_completes",
    "MU.C189_refused",
    "MU.C189_refuted"
   ],
   "note": "False for large coordinates (C189_refuted: NaN on a table of ones). Proved: completion for every size; finite and accurate for abscissas up to 2^p, ordinates up to 2^q, data up to 2^c and cells at least 2^-a wide and 2^-b high whenever p + q + c + a + b is at most 1014."
  },
  {
   "property": "C190",
   "status": "partial",
   "theorems": [
    "MU.C190_1d_partial",
    "MU.C190_2d_partial",
    "MU.C190_3d_partial",
    "MU.C190_refuted",
    "MU.C190_refuted_large"
   ],
   "note": "Finite and accurate when the domain is not extremely wide or narrow and the coefficients are not extremely large (one, two and three variables). Missing, and false: segments whose width overflows (C190_refuted) and coefficients whose double overflows (C190_refuted_large)."
  },
  {
   "property": "C191",
   "status": "partial",
   "theorems": [
    "MU.C191_1d_partial",
    "MU.C191_2d_partial",
    "MU.C191_3d_partial",
    "MU.C191_refuted",
    "MU.C191_refuted_large"
   ],
   "note": "Proved: finite and accurate (error of C133 and one smallest number per coefficient) when the bounds, the width and their ratio are between 2^-1000 and 2^1000 and the number of coefficients times the sum of their magnitudes is below 2^1018. Refuted: on a segment whose width overflows all points have the coordinate of the centre (C191_refuted); a partial sum may overflow though the value does not (C191_refuted_large). Missing: values near the largest number."
  },
  {
   "property": "C192",
   "status": "proved",
   "theorems": [
    "MU.C192_derivative_2d",
    "MU.C192_derivative_3d",
    "MU.C192_combined",
    "MU.C192_zinf",
    "MU.C192_z_predefined"
   ],
   "note": ""
  },
  {
   "property": "C193",
   "status": "partial",
   "theorems": [
    "MU.C193_heaviside_partial",
    "MU.C193_door_partial",
    "MU.C193_saturate",
    "MU.C193_sgn_partial",
    "MU.C193_sgnSqrt",
    "MU.C193_dirac_partial",
    "MU.C193_ramp_partial",
    "MU.C193_refuted",
    "MU.C193_refuted_ramp"
   ],
   "note": "Proved for points that are not NaN; a NaN is silently turned into a number (C193_refuted). Saturate and SgnSqrt are proved for all doubles. Dirac: grid steps from 2^-1021 that do not overflow. Ramp: between the limits when the bound of the limits times that of the levels over the distance of the limits is a hundred times below the overflow threshold; false for large ones (C193_refuted_ramp)."
  },
  {
   "property": "C194",
   "status": "proved",
   "theorems": [
    "MU.C194_arange",
    "MU.C194_tenth"
   ],
   "note": ""
  },
  {
   "property": "C195",
   "status": "proved",
   "theorems": [
    "MU.C195_elementwise",
    "MU.C195_scalar",
    "MU.C195_negate",
    "MU.C195_sum",
    "MU.C195_sum_nan",
    "MU.C195_symmetric",
    "MU.C195_order"
   ],
   "note": ""
  },
  {
   "property": "C196",
   "status": "partial",
   "theorems": [
    "MU.C196_saturate_partial",
    "MU.C196_saturate_long_partial",
    "MU.C196_refuted",
    "MU.C196_sgnSqrt",
    "MU.C196_isClose_partial",
    "MU.C196_refuted_isClose",
    "MU.C196_degrees_partial",
    "MU.C196_refuted_degrees"
   ],
   "note": "Refuted for 64-bit integers (Saturate holds its value in a double: C196_refuted) and where a-b or a+180 overflows an int (C196_refuted_isClose, C196_refuted_degrees). Proved for all other int arguments, for Saturate of integers up to 2^53 exactly and, with a relative error of 2^-53, of long up to 2^63 - 2^10."
  },
  {
   "property": "C197",
   "status": "partial",
   "theorems": [
    "MU.C197_linspace_partial",
    "MU.C197_refuted_linspace",
    "MU.C197_elementwise_partial",
    "MU.C197_refuted_divide",
    "MU.C197_sum",
    "MU.C197_steps",
    "MU.C197_ramp_partial",
    "MU.C197_ramp_int_partial",
    "MU.C197_refuted_ramp"
   ],
   "note": "Refuted: linspace of int is not equally spaced when the number of intervals does not divide the length (C197_refuted_linspace), Ramp of int can stay at its first level or divide by zero (C197_refuted_ramp), Divide is undefined for INT_MIN / -1 and zero divisors (C197_refuted_divide). Proved: the rest, when the intermediate results fit the type; Ramp up to the truncation of its slope."
  },
  {
   "property": "C198",
   "status": "partial",
   "theorems": [
    "MU.C198_horner_partial",
    "MU.C198_derivative_partial",
    "MU.C198_refuted",
    "MU.C198_trapz"
   ],
   "note": "Refuted for coefficients that are not integers: every partial result of Horner is converted to int (C198_refuted: 1/2 + x/2 at 1 gives 0). Proved for integer coefficients and for Trapz."
  },
  {
   "property": "C199",
   "status": "partial",
   "theorems": [
    "MU.C199_interp1d_units",
    "MU.C199_interp1d_mirror_partial",
    "MU.C199_refuted",
    "MU.C199_trapz_units",
    "MU.C199_trapz_mirror",
    "MU.C199_integrate_units",
    "MU.C199_integrate_swap",
    "MU.C199_interp2d_transpose",
    "MU.C199_interp2d_units",
    "MU.C199_grid_units",
    "MU.C199_grid_exchange",
    "MU.C199_grid_mirror"
   ],
   "note": "Proved for LINEAR and LINEAR_SATURATE at every point, for LINEAR_EXTRAPOLATE in the range (units: everywhere), for Interp2d in the box and, with assertions, everywhere, for grids everywhere, for the integrals. Missing: mirrored LINEAR_EXTRAPOLATE out of the range (refuted), Interp2d out of the box without assertions."
  },
  {
   "property": "C200",
   "status": "proved",
   "theorems": [
    "MU.C200_linear_1d",
    "MU.C200_linear_2d",
    "MU.C200_linear_3d",
    "MU.C200_product_2d",
    "MU.C200_product_3d",
    "MU.C200_units_1d",
    "MU.C200_units_2d",
    "MU.C200_reversed",
    "MU.C200_parity",
    "MU.C200_exchange_2d",
    "MU.C200_exchange_3d",
    "MU.C200_exchange_3d_last"
   ],
   "note": ""
  },
  {
   "property": "C201",
   "status": "proved",
   "theorems": [
    "MU.C201_affine",
    "MU.C201_similarity",
    "MU.C201_translation"
   ],
   "note": ""
  },
  {
   "property": "C202",
   "status": "partial",
   "theorems": [
    "MU.C202_determined",
    "MU.C202_transpose",
    "MU.C202_scaled_partial",
    "MU.C202_negated",
    "MU.C202_orthogonal",
    "MU.C202_normal",
    "MU.C202_twice_partial",
    "MU.C202_refuted"
   ],
   "note": "The tolerance of GetPseudoInverse is absolute: with the default 1e-6 the rules for c A and for the pseudo-inverse of the pseudo-inverse fail (C202_refuted). Proved with a tolerance that follows the units (C202_scaled_partial), and for singular values between the tolerances (C202_twice_partial). The other rules are proved for every matrix and tolerance."
  },
  {
   "property": "C203",
   "status": "proved",
   "theorems": [
    "MU.C203_inverse_product",
    "MU.C203_inverse_transpose",
    "MU.C203_inverse_scaled",
    "MU.C203_equations",
    "MU.C203_superposition",
    "MU.C203_least_squares_superposition",
    "MU.C203_least_squares_orthogonal",
    "MU.C203_cholesky_scaled",
    "MU.C203_cholesky_leading",
    "MU.C203_eigenvalues_transpose",
    "MU.C203_eigenvalues_product",
    "MU.C203_eigenvalues_basis",
    "MU.C203_eigenvalues_shift",
    "MU.C203_eigenvalues_scaled"
   ],
   "note": ""
  },
  {
   "property": "C204",
   "status": "partial",
   "theorems": [
    "MU.C204_sorts",
    "MU.C204_simplex_units",
    "MU.C204_simplex_exchange",
    "MU.C204_simplex_mirror_partial",
    "MU.C204_refuted",
    "MU.C204_nearest_units",
    "MU.C204_nearest_exchange",
    "MU.C204_nearest_mirror_partial",
    "MU.C204_refuted_nearest"
   ],
   "note": "Missing: simplex interpolation with only some of the axes mirrored (refuted: the diagonals of the cells change), Nearest mirrored in the middle of two nodes (refuted: the upper one is taken)."
  },
  {
   "property": "C205",
   "status": "proved",
   "theorems": [
    "MU.C205_is_spline",
    "MU.C205_unique",
    "MU.C205_given_back",
    "MU.C205_mirror",
    "MU.C205_symmetric",
    "MU.C205_units"
   ],
   "note": ""
  },
  {
   "property": "C206",
   "status": "proved",
   "theorems": [
    "MU.C206_same_rotation",
    "MU.C206_same_quaternion",
    "MU.C206_turn",
    "MU.C206_product",
    "MU.C206_conjugate",
    "MU.C206_product_matrix",
    "MU.C206_size",
    "MU.C206_size_quaternion",
    "MU.C206_length_needed",
    "MU.C206_range",
    "MU.C206_every_rotation"
   ],
   "note": ""
  },
  {
   "property": "C207",
   "status": "proved",
   "theorems": [
    "MU.C207_front",
    "MU.C207_back",
    "MU.C207_delay",
    "MU.C207_memory",
    "MU.C207_superposition",
    "MU.C207_impulse",
    "MU.C207_steady",
    "MU.C207_not_yet",
    "MU.C207_bounded",
    "MU.C207_accuracy"
   ],
   "note": ""
  },
  {
   "property": "C208",
   "status": "proved",
   "theorems": [
    "MU.C208_interp1d",
    "MU.C208_trapz",
    "MU.C208_interp2d_first",
    "MU.C208_interp2d_second",
    "MU.C208_grid",
    "MU.C208_simplex_differs"
   ],
   "note": ""
  },
  {
   "property": "C209",
   "status": "proved",
   "theorems": [
    "MU.C209_inverse",
    "MU.C209_inverse_value",
    "MU.C209_inverse_decreasing",
    "MU.C209_strict",
    "MU.C209_saturate"
   ],
   "note": ""
  },
  {
   "property": "C210",
   "status": "proved",
   "theorems": [
    "MU.C210_stationary",
    "MU.C210_unique",
    "MU.C210_given_back",
    "MU.C210_superposition",
    "MU.C210_equivalent",
    "MU.C210_unknowns",
    "MU.C210_weaker"
   ],
   "note": ""
  },
  {
   "property": "C211",
   "status": "proved",
   "theorems": [
    "MU.C211_linear_1d",
    "MU.C211_linear_2d",
    "MU.C211_linear_3d",
    "MU.C211_product",
    "MU.C211_zeros_1d",
    "MU.C211_zeros_2d",
    "MU.C211_exchange",
    "MU.C211_mirror",
    "MU.C211_units",
    "MU.C211_determined"
   ],
   "note": ""
  },
  {
   "property": "C212",
   "status": "proved",
   "theorems": [
    "MU.C212_same",
    "MU.C212_sums",
    "MU.C212_intervals",
    "MU.C212_opposite",
    "MU.C212_units",
    "MU.C212_smallest",
    "MU.C212_distance"
   ],
   "note": ""
  },
  {
   "property": "C213",
   "status": "proved",
   "theorems": [
    "MU.C213_step",
    "MU.C213_window",
    "MU.C213_impulse",
    "MU.C213_impulse_lost",
    "MU.C213_ramp",
    "MU.C213_step_at_the_ends"
   ],
   "note": ""
  },
  {
   "property": "C214",
   "status": "proved",
   "theorems": [
    "MU.C214_lines",
    "MU.C214_straight",
    "MU.C214_spread",
    "MU.C214_plane",
    "MU.C214_order"
   ],
   "note": ""
  },
  {
   "property": "C215",
   "status": "proved",
   "theorems": [
    "MU.C215_determined",
    "MU.C215_synthesis",
    "MU.C215_synthesis_half",
    "MU.C215_impulse",
    "MU.C215_reversed",
    "MU.C215_padded",
    "MU.C215_repeated",
    "MU.C215_aliases",
    "MU.C215_ends"
   ],
   "note": ""
  },
  {
   "property": "C216",
   "status": "proved",
   "theorems": [
    "MU.C216_bounds",
    "MU.C216_magnitude",
    "MU.C216_product",
    "MU.C216_mean_square",
    "MU.C216_jensen",
    "MU.C216_joined",
    "MU.C216_refined"
   ],
   "note": ""
  },
  {
   "property": "C217",
   "status": "proved",
   "theorems": [
    "MU.C217_motion",
    "MU.C217_frame",
    "MU.C217_rigid",
    "MU.C217_centre"
   ],
   "note": ""
  },
  {
   "property": "C218",
   "status": "proved",
   "theorems": [
    "MU.C218_units",
    "MU.C218_mirrored",
    "MU.C218_refined",
    "MU.C218_joined",
    "MU.C218_mean",
    "MU.C218_logs",
    "MU.C218_base",
    "MU.C218_inverse"
   ],
   "note": ""
  },
  {
   "property": "C219",
   "status": "proved",
   "theorems": [
    "MU.C219_linear",
    "MU.C219_joined",
    "MU.C219_padded",
    "MU.C219_units",
    "MU.C219_reversed",
    "MU.C219_derivative",
    "MU.C219_product",
    "MU.C219_zeros",
    "MU.C219_determined",
    "MU.C219_increasing",
    "MU.C219_conjugate"
   ],
   "note": ""
  },
  {
   "property": "C220",
   "status": "proved",
   "theorems": [
    "MU.C220_part_1d",
    "MU.C220_order_1d",
    "MU.C220_part_2d",
    "MU.C220_order_2d"
   ],
   "note": ""
  },
  {
   "property": "C221",
   "status": "partial",
   "theorems": [
    "MU.C221_minus_partial",
    "MU.C221_minus_long",
    "MU.C221_door_partial",
    "MU.C221_door_long",
    "MU.C221_refuted",
    "MU.C221_isClose_partial",
    "MU.C221_isClose_long",
    "MU.C221_isClose_refuted",
    "MU.C221_convolution_partial",
    "MU.C221_convolution_refuted",
    "MU.C221_init_partial",
    "MU.C221_init_refuted",
    "MU.C221_eval_partial",
    "MU.C221_eval_refuted",
    "MU.C221_init2d_refuted",
    "MU.C221_init2d_partial"
   ],
   "note": "Refuted: from 2^32 elements on (2^31 for Eval) the 32-bit counters wrap or overflow. Proved: below these lengths the functions are those of the other properties (2D Initialize: on well-formed tables)."
  },
  {
   "property": "C222",
   "status": "partial",
   "theorems": [
    "MU.C222_eval_partial",
    "MU.C222_make_partial",
    "MU.C222_init_partial",
    "MU.C222_addY_partial",
    "MU.C222_table_partial",
    "MU.C222_table2d_partial",
    "MU.C222_grid_partial",
    "MU.C222_nearest_partial",
    "MU.C222_angle_partial",
    "MU.C222_expInt_refuted",
    "MU.C222_struve_refuted",
    "MU.C222_triangle_refuted",
    "MU.C222_refuted"
   ],
   "note": "Refuted: the special functions, the conversion of Chebyshev series and the triangle quadrature end the program with status 0 for every argument they refuse. Proved: all other calls that end the program do it with status 1, exactly in the refused cases."
  },
  {
   "property": "C223",
   "status": "partial",
   "theorems": [
    "MU.C223_table_partial",
    "MU.C223_table2d_partial",
    "MU.C223_refuted",
    "MU.C223_grid_partial",
    "MU.C223_nearest_partial",
    "MU.C223_integral_partial",
    "MU.C223_cholesky_partial"
   ],
   "note": "Refuted: 2D interpolators of a method other than LINEAR throw a const char*, exactly then. Proved: every other exception of these classes is of the type stated."
  },
  {
   "property": "C224",
   "status": "proved",
   "theorems": [
    "MU.C224_interp1d",
    "MU.C224_table",
    "MU.C224_interp2d",
    "MU.C224_interp2d_points",
    "MU.C224_table2d",
    "MU.C224_table2d_eval",
    "MU.C224_generation",
    "MU.C224_vectors",
    "MU.C224_functions",
    "MU.C224_comparisons",
    "MU.C224_quadrature",
    "MU.C224_exponential_integrals",
    "MU.C224_chebyshev1d",
    "MU.C224_chebyshev2d",
    "MU.C224_chebyshev3d",
    "MU.C224_power1d",
    "MU.C224_power2d",
    "MU.C224_power3d",
    "MU.C224_power3d_predefined",
    "MU.C224_matrix_access",
    "MU.C224_cholesky",
    "MU.C224_decompositions",
    "MU.C224_solvers",
    "MU.C224_spline",
    "MU.C224_double_interp1d",
    "MU.C224_double_interp2d",
    "MU.C224_double_vectors",
    "MU.C224_binary64_vectors",
    "MU.C224_integer_vectors",
    "MU.C224_double_exponential_integrals",
    "MU.C224_double_chebyshev1d",
    "MU.C224_double_chebyshev2d",
    "MU.C224_double_chebyshev3d",
    "MU.C224_double_power",
    "MU.C224_double_power3d",
    "MU.C224_binary64_series",
    "MU.C224_fixed_matrices",
    "MU.C224_cholesky_update"
   ],
   "note": ""
  },
  {
   "property": "C225",
   "status": "proved",
   "theorems": [
    "MU.C225_trapz",
    "MU.C225_trapz_uniform",
    "MU.C225_signal",
    "MU.C225_kernel",
    "MU.C225_horner",
    "MU.C225_horner_unit",
    "MU.C225_horner_derivative",
    "MU.C225_chebyshev_1d",
    "MU.C225_chebyshev_2d",
    "MU.C225_chebyshev_3d",
    "MU.C225_power_1d",
    "MU.C225_power_2d",
    "MU.C225_power_3d",
    "MU.C225_fft",
    "MU.C225_triangle"
   ],
   "note": ""
  },
  {
   "property": "C226",
   "status": "proved",
   "theorems": [
    "MU.C226_grid",
    "MU.C226_section",
    "MU.C226_product",
    "MU.C226_sum",
    "MU.C226_unused",
    "MU.C226_interp2d",
    "MU.C226_chebyshev_2d",
    "MU.C226_power_2d",
    "MU.C226_chebyshev_3d",
    "MU.C226_power_3d"
   ],
   "note": ""
  },
  {
   "property": "C227",
   "status": "proved",
   "theorems": [
    "MU.C227_dominant",
    "MU.C227_dominant_size",
    "MU.C227_matrix",
    "MU.C227_coercive",
    "MU.C227_least_squares",
    "MU.C227_fitted",
    "MU.C227_constrained"
   ],
   "note": ""
  },
  {
   "property": "C228",
   "status": "proved",
   "theorems": [
    "MU.C228_order",
    "MU.C228_product",
    "MU.C228_linear",
    "MU.C228_bounds",
    "MU.C228_errors",
    "MU.C228_bilinear"
   ],
   "note": ""
  }
 ]
}