{
 "C01": {
  "note": "Any linearly ordered field of abscissae, any vector space of ordinates, both build modes."
 },
 "C02": {
  "note": ""
 },
 "C03": {
  "note": ""
 },
 "C04": {
  "note": "Left side proved; on the right side the code throws std::out_of_range for every table and every x > xmax (C04_right_extrapolation_throws), so the full statement is refuted."
 },
 "C05": {
  "note": "Refuted, in 1D and 2D: Initialize appends to the coefficient vectors without clearing them. C05_first_table_survives describes what happens for every history; only re-initialisation with the same data is harmless."
 },
 "C06": {
  "note": "For every object state, initialised or not."
 },
 "C07": {
  "note": ""
 },
 "C10": {
  "note": "In range: proved in both build modes. Out of range: aborts with assertions on; with NDEBUG a value of another cell may be returned (C10_ndebug_wrong_cell), so the full statement is refuted."
 },
 "C11": {
  "note": "Refinement of a map specification, by induction over histories; Eval of all series for every iteration order of the hash map."
 },
 "C13": {
  "note": "Refuted: a throwing AddY leaves its name registered, and shifts the following names (C13_failure_shifts_names). Series registered before are unaffected."
 },
 "C15": {
  "note": "Refuted: after a throwing AddData, HasSerie reports the failed name. Series registered before are unaffected."
 },
 "C68": {
  "note": "Evaluation is transferred; interp_method is not, so AddY after a move construction is undefined behaviour."
 },
 "C16": {
  "note": "Any dimension, any history ending with a successful AddVar (rejected axes and failed AddVar calls included), with and without bound check."
 },
 "C20": {
  "note": "By induction over histories of AddCoord/AddVar in which exceptions are caught. The object must not be given an empty axis: AddVar is then undefined behaviour."
 },
 "C21": {
  "note": "Refuted: only the number of elements is checked, so an array of shape 3x2 is accepted on a 2x3 grid and read with the wrong indices. Holds when the shapes agree."
 },
 "C22": {
  "note": "Refuted: AddVar overwrites and reallocates the data before the check, and keeps the previous interpolator, which points to the released storage. A later successful AddVar restores a working object."
 },
 "C23": {
  "note": "For every sorting function allowed by the standard (any order of equal fractions)."
 },
 "C69": {
  "note": "Proved for a source on which the last AddVar succeeded and any target; refuted for a default-constructed source (copying it is undefined behaviour)."
 },
 "C24": {
  "note": "Any dimension, any point."
 },
 "C25": {
  "note": "Axes of at most 2^32 nodes (unsigned int index)."
 },
 "C26": {
  "note": "Refuted: below an axis the wrapped index selects the LAST node (C26_below_returns_last, for every grid and point). Above the axis the statement holds."
 },
 "C27": {
  "note": "Coefficients in any field, point in any field extension. Exact arithmetic."
 },
 "C28": {
  "note": "Derivative over any nontrivially normed field containing the coefficients."
 },
 "C29": {
  "note": "All seven concrete classes through the Built1/Built2/Built3 relations of Spec/PowerSeries.lean."
 },
 "C30": {
  "note": "Real derivative, all seven concrete classes, every variable."
 },
 "C31": {
  "note": "False for the y derivative of PowerSeries3dYZOpenedXClosed: Evaluate_derivative_y_z_predefined passes x instead of y to the derivative of the change of variable (PowerSeries3d.h line 439). Proved for everything else; C31_y_derivative_wrong says exactly what is returned."
 },
 "C70": {
  "note": "Half-line classes only."
 },
 "C38": {
  "note": "Refuted: a second call of Compute_ai/aij/aijk adds to the old coefficients. Proved: exactly what any number of calls does, in one, two and three variables, and that further calls are harmless only when the function is zero at the nodes.",
  "status": "partial"
 },
 "C32": {
  "note": "Real arithmetic; node values by cos; F pure"
 },
 "C36": {
  "note": "Conversion up to order 18, formula for every order, exit above 18"
 },
 "C40": {
  "note": "Both Trapz overloads; integral of the piecewise affine interpolant over the reals, the value over any field of characteristic not 2."
 },
 "C41": {
  "note": "Any field of characteristic not 2."
 },
 "C42": {
  "note": "Refuted: SetIntegrationMethod does not invalidate the cached result. C42_exact_partial says what Get does after every history, C42_right_iff_partial exactly when it is right.",
  "status": "partial"
 },
 "C43": {
  "note": "At least 2 and fewer than 2^32 points; vector of as many values as points."
 },
 "C67": {
  "note": "The original claim of equality everywhere is false of the code: below 24 expEi calls boost. C67_equal is exact from 24 on; C67_agree takes as hypothesis that boost::math::expint returns Ei(x)."
 },
 "C89": {
  "note": "Refuted on [6, 12): the last alphaj coefficient (BoostFunctions.h:292) has a wrong digit, the relative error reaches 2.4e-11. Proved outside [6, 12); inside with the bound 2.51e-11.",
  "status": "partial"
 },
 "C90": {
  "note": "Refuted from 1 on: pj[3], pj[7] (BoostFunctions.h:487, 491) and qj[4], qj[8] (533, 537) have wrong digits; relative errors 1.4e-9 and 9.3e-4, and a jump up at 4. Proved below 1; elsewhere with those bounds.",
  "status": "partial"
 },
 "C92": {
  "note": "Proved for every argument, with the exact reals: certificates on [0,3] against the series; above 3 the difference with Y is an integral that solves Bessel's equation with a source, bounded from infinity. boost's cyl_neumann is assumed exact. Rounding is not modelled."
 },
 "C93": {
  "note": "Proved for every real order at positive arguments and, for J and I, at whole orders and every non-zero argument, from the integral representations. Refuted at 0: J_1'(0) = I_1'(0) = 1/2 but order / x is not finite there (C93_refuted, C93_modified_refuted). boost's functions are assumed exact.",
  "status": "partial"
 },
 "C95": {
  "note": "Proved for symmetric positive definite A whose update is positive definite, any size and sign of sigma (C95_update_partial, C95_inplace_partial, C95_nonneg_partial, C95_roundtrip_partial). The refusal is refuted: neither function reads info(), so an indefinite A gives a wrong factor (C95_refuted) and an impossible downdate silently gives the factor of A (C95_refuted_downdate).",
  "status": "partial"
 },
 "C101": {
  "note": "Copies, axes, coordinate getters: proved for every dimension. IsValid is refuted: it is always true, also of an empty object on which Nearest is undefined; GetData has no return statement, so every call is undefined (C101_refuted). C101_valid_partial is the true half.",
  "status": "partial"
 },
 "C48": {
  "note": "Refuted: fmod keeps the sign, so negative angles stay negative. C48_sign_partial gives the interval for each sign."
 },
 "C50": {
  "note": "Refuted: arange passes num*step instead of stop to linspace. C50_values_partial gives what is returned, C50_right_iff_partial exactly when it is right."
 },
 "C60": {
  "note": "Refuted for Vector2d (maxCoeff without abs); proved for Vector3d, Vector6d, VectorN."
 },
 "C61": {
  "note": "Refuted: IsSymmetric computes the comparison and returns true regardless; the Cholesky factor then is that of the symmetrised lower triangle."
 },
 "C73": {
  "note": "Refuted for Normalize_0_360 (a tiny negative angle gives 360); Normalize__180_180 is proved, range and same angle up to (|a|+720)/2^53. Rounding to nearest, any tie rule, unbounded exponent."
 },
 "C75": {
  "note": "Refuted at the gimbal lock; proved for every rotation matrix away from it. C75_gimbal_partial gives the angles at the lock, C75_right_iff_partial exactly for which rotations the round trip holds."
 },
 "C77": {
  "note": "Refuted when the output or the vector is the point; proved for distinct objects."
 },
 "C87": {
  "note": "Refuted for odd sizes with the half spectrum; proved for all the others. Eigen::FFT is modelled by the sums it computes."
 },
 "C44": {
  "note": "Tables as rationals in the kernel; bound 3e-14 because the tables are rounded."
 },
 "C62": {
  "note": "For any SVD meeting the documented contract (satisfiable: documented_exists)."
 },
 "C63": {
  "note": "For any QR/LU/least-squares meeting the documented contract."
 },
 "C82": {
  "note": "For any QR meeting the documented contract."
 },
 "C83": {
  "note": "For any LU meeting the documented contract."
 },
 "C86": {
  "note": "For any solver meeting the documented contract."
 },
 "C85": {
  "note": "For symmetric matrices; C85_not_symmetric shows the restriction is needed."
 },
 "C66": {
  "note": "Non-empty kernels; an empty kernel is undefined behaviour (C66_empty)."
 },
 "C96": {
  "note": "inverse() of Eigen is a parameter with its contract IsInverse."
 },
 "C97": {
  "note": "eigenvalues() of Eigen is a parameter with its contract AreEigenvalues."
 },
 "C91": {
  "note": "boost expint is a parameter below 24."
 },
 "C102": {
  "note": "Eigen Splines algorithms modelled from memory; the linear solver is a parameter (SolvesRegular, satisfiable). Schoenberg-Whitney theorem proved."
 },
 "C103": {
  "note": "As C102; Dim = 1."
 },
 "C81": {
  "note": "Eigen LLT modelled as its algorithm, exact reals."
 },
 "C107": {
  "note": "Refuted on a table of constants with close abscissas far from 0; the error bound is proved for every table and point."
 },
 "C108": {
  "note": "Refuted on [2,3] with 4 points; the drift of the points and the error of the sum are bounded for every function, interval and number of points."
 },
 "C115": {
  "note": "Refuted by C115_refuted and C115_nearest_nan_undefined: NaN passes the bound check of RegularGridInterpolator, whose search then returns the last cell, so that the value at the last node comes back; RegularGridNearest::Nearest reads coord[size] for NaN. Proved: infinite coordinates are rejected or clamped, and exactly what NaN does.",
  "status": "partial"
 },
 "C116": {
  "note": "Refuted for changes of the abscissas (C116_refuted); proved for changes of all other vectors, the ordinates included. Missing: a guarantee under changes of the abscissas, which the code does not give.",
  "status": "partial"
 },
 "C123": {
  "note": "Refuted by C123_refuted: after a call in which the function threw, Compute_ai adds to the coefficients of the failed call. Proved: the first Compute_ai, whether or not the function has a state; the exact coefficients after any number of failed calls (C123_history_partial); a later call is right if and only if the failed call left every coefficient at zero (C123_exact_partial), as when the function throws at its first call (C123_first_call_partial).",
  "status": "partial"
 },
 "C129": {
  "note": "The first two clauses are proved for every grid and point (C129_nearly, C129_agrees). The last clause is false for nodes that are neighbouring doubles: with nodes 1 and 1+2^-52 and ties to even, Nearest at the node 1 returns the other node (C129_refuted); it holds when neighbouring nodes p < q differ by more than |p+q|/2^53 (C129_node_partial).",
  "status": "partial"
 },
 "C130": {
  "note": "Monotonicity holds for orders 1, 2, 4, 5, 6, 8 (C130_monotone_partial) and is refuted for orders 3 and 7, whose tables have a negative weight (C130_refuted). The other clauses are proved for all orders.",
  "status": "partial"
 },
 "C131": {
  "note": "The error bound is proved (C131_error_partial); a result between the data of the corners is refuted (C131_refuted).",
  "status": "partial"
 },
 "C138": {
  "note": "Refuted at a pitch of 90 degrees (C138_refuted: asin of a number above one). The matrices, the quaternion of Euler angles and the angles of matrices are proved; the angles of a quaternion (C138_quaternion_angles_partial, C138_round_trip_quaternion_partial) need the pitch to be away from 90 degrees by more than about the square root of the error.",
  "status": "partial"
 },
 "C145": {
  "note": "The code violates the full property (C145_refuted); proved for values available before the failing call, for failures before the name is inserted, and for SetX.",
  "status": "partial"
 },
 "C146": {
  "note": "The code violates the full property (C146_refuted); proved for values available before the failing call, for failures before the name is inserted, and for SetX and SetY.",
  "status": "partial"
 },
 "C147": {
  "note": "The code violates the full property (C147_refuted); proved for calls that return, and at most one object per call otherwise.",
  "status": "partial"
 },
 "C148": {
  "note": "Refuted in general: AddVar that fails after the values were replaced leaves an interpolator that refers to freed storage (C148_refuted, C148_late_failure); same for the assignments (C148_assign_refuted, C148_nearest_refuted). Proved: AddCoord, early failures of AddVar, the copy constructor, recovery by a later AddVar or assignment, RegularGridNearest AddCoord and AddVar.",
  "status": "partial"
 },
 "C151": {
  "note": "Full statement refuted (C151_refuted): the ramp from 0 to 0.2 over [2^52, 2^52+1] ends at 0.25. C151_ramp_partial proves the exact levels outside and an error bound inside.",
  "status": "partial"
 },
 "C162": {
  "note": "AddVar counts modulo 2^32: an array short by a multiple of 2^32 elements is accepted (C162_refuted). Below 2^32 the check is exact (C162_small_partial), and an array of the right size is never refused (C162_right_size).",
  "status": "partial"
 },
 "C167": {
  "note": "All double angles, with the constants of the header rounded to doubles; the exponent range is unbounded. The smallest double of ]-pi, pi], minus M_PI, is moved to M_PI, which is the same angle up to rounding."
 },
 "C171": {
  "note": "False for data near the largest double (C171_refuted). Proved when (1+X)(1+Y)(1+1/(x1-x0)) is at most 2^1020 for the cell of the point.",
  "status": "partial"
 },
 "C172": {
  "note": "False for vectors of norm 2^512 and more or below 2^-538 (C172_refuted). Proved for norms from 2^-505 to 2^509.",
  "status": "partial"
 },
 "C173": {
  "note": "LeastSquareSolver aborts with assertions on (C173_refuted; rests on our knowledge of an eigen_assert in Eigen 3.3.7, whose source is not in the sandbox) and minimises the residual with NDEBUG (C173_least_squares_partial). IsSymmetric accepts every matrix (C173_refuted_symmetry). Everything else is proved for every matrix.",
  "status": "partial"
 },
 "C174": {
  "note": "Refuted by C174_refuted (two variables) and C174_refuted_3d: after a call in which the function threw, the coefficients keep the partial sums. Proved for all histories of calls: the points and the number of the calls of the function and the exception that comes out (C174_calls_2d, C174_calls_3d), the call returns when the function does (C174_returns_2d, _3d), the first call is right, and a later call that returns is right if and only if all coefficients were zero before it (C174_exact_2d_partial, _3d_partial), as when every failure was at the first call of the function (C174_first_call_2d_partial, _3d_partial).",
  "status": "partial"
 },
 "C175": {
  "note": "Refuted when the difference of the ends overflows (C175_refuted) or the step underflows (C175_refuted_underflow); C175_linspace_partial is the full claim when stop - start does not overflow and the step is a normal number.",
  "status": "partial"
 },
 "C176": {
  "note": "Refuted near the largest number (C176_refuted); C176_horner_partial and C176_horner_derivative_partial give a finite result and the error bound when the sum of the magnitudes of the terms is at most 2^1020.",
  "status": "partial"
 },
 "C177": {
  "note": "Refuted near the largest number (C177_refuted); C177_uniform_partial and C177_general_partial give a finite result and the error bound when the sums of the magnitudes are at most 2^1020 and 2^1018.",
  "status": "partial"
 },
 "C182": {
  "note": "The printed formula in two variables is wrong: C182_refuted. C182_bilinear_partial: with a_1 and a_3 mended it is the function computed.",
  "status": "partial"
 },
 "C186": {
  "note": "One axis is proved; with two axes or more the property is false (C186_several_axes, C186_refuted): the size that is checked and the extents of the array disagree. Between nodes where the table of two axes has its four values the bilinear and simplex formulas are proved (C186_two_axes_partial), and the bounds for any number of axes (C186_bounds).",
  "status": "partial"
 },
 "C187": {
  "note": "False when the second argument is infinite (C187_infinite_second, C187_refuted); everything else is proved.",
  "status": "partial"
 },
 "C188": {
  "note": "False for finite data whose differences overflow (C188_refuted: NaN at a node) and for axes whose length overflows (C188_refuted_axis). Proved otherwise: nodes exact when no difference of data overflows, finite and accurate and clamped for data below 2^1021; constants and bound check for every size of the data.",
  "status": "partial"
 },
 "C189": {
  "note": "False for large coordinates (C189_refuted: NaN on a table of ones). Proved: completion for every size; finite and accurate for abscissas up to 2^p, ordinates up to 2^q, data up to 2^c and cells at least 2^-a wide and 2^-b high whenever p + q + c + a + b is at most 1014.",
  "status": "partial"
 },
 "C190": {
  "note": "Finite and accurate when the domain is not extremely wide or narrow and the coefficients are not extremely large (one, two and three variables). Missing, and false: segments whose width overflows (C190_refuted) and coefficients whose double overflows (C190_refuted_large).",
  "status": "partial"
 },
 "C191": {
  "note": "Proved: finite and accurate (error of C133 and one smallest number per coefficient) when the bounds, the width and their ratio are between 2^-1000 and 2^1000 and the number of coefficients times the sum of their magnitudes is below 2^1018. Refuted: on a segment whose width overflows all points have the coordinate of the centre (C191_refuted); a partial sum may overflow though the value does not (C191_refuted_large). Missing: values near the largest number.",
  "status": "partial"
 },
 "C193": {
  "note": "Proved for points that are not NaN; a NaN is silently turned into a number (C193_refuted). Saturate and SgnSqrt are proved for all doubles. Dirac: grid steps from 2^-1021 that do not overflow. Ramp: between the limits when the bound of the limits times that of the levels over the distance of the limits is a hundred times below the overflow threshold; false for large ones (C193_refuted_ramp).",
  "status": "partial"
 },
 "C196": {
  "note": "Refuted for 64-bit integers (Saturate holds its value in a double: C196_refuted) and where a-b or a+180 overflows an int (C196_refuted_isClose, C196_refuted_degrees). Proved for all other int arguments, for Saturate of integers up to 2^53 exactly and, with a relative error of 2^-53, of long up to 2^63 - 2^10.",
  "status": "partial"
 },
 "C197": {
  "note": "Refuted: linspace of int is not equally spaced when the number of intervals does not divide the length (C197_refuted_linspace), Ramp of int can stay at its first level or divide by zero (C197_refuted_ramp), Divide is undefined for INT_MIN / -1 and zero divisors (C197_refuted_divide). Proved: the rest, when the intermediate results fit the type; Ramp up to the truncation of its slope.",
  "status": "partial"
 },
 "C198": {
  "note": "Refuted for coefficients that are not integers: every partial result of Horner is converted to int (C198_refuted: 1/2 + x/2 at 1 gives 0). Proved for integer coefficients and for Trapz.",
  "status": "partial"
 },
 "C199": {
  "note": "Proved for LINEAR and LINEAR_SATURATE at every point, for LINEAR_EXTRAPOLATE in the range (units: everywhere), for Interp2d in the box and, with assertions, everywhere, for grids everywhere, for the integrals. Missing: mirrored LINEAR_EXTRAPOLATE out of the range (refuted), Interp2d out of the box without assertions.",
  "status": "partial"
 },
 "C202": {
  "note": "The tolerance of GetPseudoInverse is absolute: with the default 1e-6 the rules for c A and for the pseudo-inverse of the pseudo-inverse fail (C202_refuted). Proved with a tolerance that follows the units (C202_scaled_partial), and for singular values between the tolerances (C202_twice_partial). The other rules are proved for every matrix and tolerance.",
  "status": "partial"
 },
 "C204": {
  "note": "Missing: simplex interpolation with only some of the axes mirrored (refuted: the diagonals of the cells change), Nearest mirrored in the middle of two nodes (refuted: the upper one is taken).",
  "status": "partial"
 },
 "C221": {
  "note": "Refuted: from 2^32 elements on (2^31 for Eval) the 32-bit counters wrap or overflow. Proved: below these lengths the functions are those of the other properties (2D Initialize: on well-formed tables).",
  "status": "partial"
 },
 "C222": {
  "note": "Refuted: the special functions, the conversion of Chebyshev series and the triangle quadrature end the program with status 0 for every argument they refuse. Proved: all other calls that end the program do it with status 1, exactly in the refused cases.",
  "status": "partial"
 },
 "C223": {
  "note": "Refuted: 2D interpolators of a method other than LINEAR throw a const char*, exactly then. Proved: every other exception of these classes is of the type stated.",
  "status": "partial"
 }
}