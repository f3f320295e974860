# Formal model of mathutils: design

The library (`/repo/src/MathUtils`, header-only C++) is modelled in Lean 4 with Mathlib. The properties are in
`properties.jsonl`, the claims made about each one in `MANIFEST.json`.

## Layout

- `lean/Verif/Core.lean`: outcomes of a C++ call (`Res`), build modes, checked vector access, unsigned arithmetic.
- `lean/Verif/Model/*.lean`: the model, one module per header, every definition citing file and lines.
- `lean/Verif/Spec/*.lean`: small independent specifications (what the English property says), no reference to the model.
- `lean/Verif/Lemmas/*.lean`: helper lemmas.
- `lean/Verif/Props/*.lean`: the property theorems, each followed by an `example` on a concrete case meeting its hypotheses.
- `seeded/LOG.jsonl`: mutation attempts against the model.

## Modelling decisions

1. **Outcomes.** A C++ call is a value of `Res α`: `ok a`, `throws e` (a C++ exception), `exits c` (`exit(c)`),
   `aborts` (failed `assert`), `ub` (undefined behaviour: out-of-bounds `operator[]`, null dereference, read of freed or
   uninitialised memory) or `nonfinite` (an IEEE division by zero: the result is inf or NaN, outside the model's numbers). These are distinct
   outcomes: no partial operation is totalised silently. Theorems of the form `= ok v` therefore also prove absence of
   every failure.
2. **Build modes.** `assert` is modelled by a `Build` parameter (`checked = true`: assertions on, `false`: `NDEBUG`).
   Theorems hold for both unless they say otherwise.
3. **Numbers.** `double`/`Scalar` is an arbitrary linearly ordered field `K` (algebraic code) or `ℝ` (code using
   transcendental functions). Rounding, overflow to infinity, NaN inputs and signed zeros are not modelled, except in the properties listed under *Numbers* in the
   trusted base: double arithmetic is then a second model of the same function (`...R`), in which every operation is followed by a rounding `rnd`, with
   the hypothesis `ToNearest rnd` (`roundNearest_toNearest` shows that it can be met). Integers:
   `unsigned`/`size_t` arithmetic is modelled with wrap-around where a subtraction can go below zero. Loops count with natural numbers; those of the code whose counter is narrower
   than a `size_t` are also modelled with their own width (C221).
4. **State.** An object is a structure of its fields; a method returns the new state together with the outcome. A
   method that throws half-way returns the half-updated state, because that is what the next call sees.
5. **External code.** `std::lower_bound`, `upper_bound`, `sort`, `min_element` are modelled by their specification.
   Boost (`chebyshev_t`, Clenshaw recurrence, Bessel functions) and Eigen (decompositions) enter as definitions taken from
   their documentation or as parameters with their contract as an explicit hypothesis of the theorem.

## Plan per property

- **C01** 1D linear interpolation is the piecewise-affine interpolant: Model Interp1d.h loop by loop (coefficient vectors a,b; lower_bound; at()). Prove Eval = the bracket line of a separate spec, for every bracket.
- **C02** 1D interpolation never overshoots and preserves monotonicity: Corollaries of C01 (convexity); monotonicity by case split on brackets.
- **C03** Out-of-range policy of LINEAR and LINEAR_SATURATE: Decision-logic theorems on the three Eval functions over all reals.
- **C04** LINEAR_EXTRAPOLATE extends the end segments on both sides: Left side proved; right side is false of the code (index runs past the coefficient vector, out_of_range): negation proved for every table, `_partial` theorem for the left side.
- **C05** Re-initialising an interpolator replaces its data: False of the code (coefficients are appended, never cleared). Negation with a witness; `_partial`: first initialisation, and the exact stale behaviour afterwards.
- **C06** Vector evaluation is element-wise evaluation: mapM law of the vector loop, including the failing element.
- **C07** 1D interpolation is linear in the ordinates and exact on affine data: Corollary of C01.
- **C08** 2D interpolation is the bilinear interpolant of the bracketing cell: Model Interp2d.h (four coefficient vectors, flat index). Prove Eval = bilinear spec for every cell containing the point.
- **C09** 2D interpolation bounded by the corners and exact on bilinear data: Corollary of C08.
- **C10** 2D interpolation never indexes outside its tables and refuses out-of-range points: In-range: result is ok in both build modes. Out of range: aborts with assertions on; with NDEBUG the statement is false (a point above ymax silently reads the next row): witness.
- **C11** LookupTable1D behaves as a map from series names to interpolants: State machine over operations, refinement to an association `name -> (X, Y, method)`; induction over histories.
- **C12** A duplicate series name is rejected without effect: Step theorem for every state of the machine (hence reachable ones).
- **C13** A failed AddY does not corrupt the 1D table: False of the code: witness history (empty abscissae make Initialize throw after the name was registered; the next series are shifted). `_partial`: histories without failing AddY (C11).
- **C14** LookupTable2D behaves as a map from series names to interpolants: As C11 for 2D.
- **C15** A failed AddData does not corrupt the 2D table: False of the code: witness history with an unsupported method, then two good series.
- **C16** Multilinear grid interpolation reproduces the data at every node: Model linterp.h find_cell/get_f_val/unit-cube recursion for any dimension (lists of axes). Prove by induction on the dimension.
- **C17** Multilinear grid interpolation is clamped outside the grid: Same model; induction on axes.
- **C18** Multilinear grid interpolation is the tensor-product interpolant, within the data bounds: Refinement of the 2^N-vertex recursion to the iterated 1D interpolation of a spec; bounds and multi-affine exactness by induction.
- **C19** Bound checking decides exactly membership of the grid's box: Decision logic.
- **C20** RegularGridInterpolator life cycle: State machine with histories.
- **C21** Grid interpolation reads the array with the shape of the grid, or refuses it: False of the code (only the product of the extents is compared): witness; `_partial` when shapes agree.
- **C22** A failed AddVar leaves the interpolator unchanged: False of the code: the old interpolator keeps a view of replaced storage; storage modelled with generations, read of a dead generation = ub; witness.
- **C23** Simplex interpolation is a convex combination, exact on affine data: Model InterpSimplex::interp (sort of the fractions, walk of the vertices); prove convex combination with the right barycentre.
- **C24** Nearest-node search returns a nearest node: Model of the search; minimality over all nodes of the axis.
- **C25** Surrounding nodes inside the grid bracket the point: Model with 32-bit unsigned cell index; vertices = all combinations.
- **C26** Surrounding nodes outside the grid are the nearest boundary nodes: Above: proved. Below: false of the code (wrap-around selects the last node): negation for every axis with at least two nodes.
- **C27** Horner evaluates the polynomial: Loop model = Polynomial.eval / sum, by induction on the loop.
- **C28** Horner_derivative evaluates the derivative: Loop model = derivative (HasDerivAt of the modelled Horner itself).
- **C29** Power series evaluate the polynomial in the mapped variables: Nested Horner = triple sum.
- **C30** Power series derivatives are the derivatives of Evaluate: HasDerivAt of the modelled Evaluate, per variant, by C28 and chain rule.
- **C31** Fixed-z evaluation of 3D power series agrees with the direct one: Equality of the two algorithms; the y-derivative passes x instead of y: false for y-opened variant (witness), proved for y-closed variants and `_partial`.
- **C32** Chebyshev series interpolate the function at the Chebyshev nodes (1D): Discrete orthogonality of cosines at Chebyshev nodes for every order.
- **C33** Chebyshev series reproduce polynomials up to their order: C32 plus uniqueness of interpolation (Mathlib polynomials).
- **C34** Evaluate computes the Chebyshev sum: Invariant of the Clenshaw loop against Mathlib's Chebyshev.T.
- **C35** Chebyshev series derivatives are the derivatives of Evaluate: HasDerivAt of modelled Evaluate.
- **C36** Conversion to a power series preserves the function: Transformation coefficients = coefficients of Chebyshev.T for all l, k; sum exchange.
- **C37** Coordinate maps are mutually inverse and hit [-1, 1]: Field algebra and range of cos.
- **C38** Computing Chebyshev coefficients again gives the same series: False of the code (+= accumulates): negation for every series with non-zero coefficients; first call = C32.
- **C39** 2D and 3D Chebyshev series interpolate the function at all tensor nodes: Tensor version of C32.
- **C40** Trapezoidal rule is exact on affine data and linear, monotone in the data: Loop = sum of panel areas; affine exactness, linearity, monotonicity.
- **C41** Uniform and non-uniform trapezoidal rules agree: Same normal form for both; splitting lemma.
- **C42** Integrate1d returns the integral of its current settings: Cache state machine; false after SetIntegrationMethod (witness); `_partial` for histories of bounds setters.
- **C43** Integrate1d on a function equals the trapezoidal sum of its samples: Loop model.
- **C44** Triangle quadrature integrates polynomials up to its order: Rational tables in the kernel; monomial errors by exact rational arithmetic, lifted to all polynomials; exact integral of monomials over the reference triangle proved with Mathlib integrals.
- **C45** Triangle quadrature accepts exactly the tabulated orders: Decision logic over Int.
- **C46** Triangle quadrature is invariant under renaming the vertices: Permutation of tables, numeric bound.
- **C47** Angle normalisation gives the representative of the angle in the documented interval: Real fmod model (truncated quotient).
- **C48** modulo360 and modulo2pi return a value in the documented half-open interval: False of the code for negative angles (witness, and for every negative non-multiple); `_partial` for a >= 0.
- **C49** linspace gives equally spaced points hitting both ends: Loop model.
- **C50** arange gives values start, start+step, ...: False of the code whenever start is non-zero or stop is not a multiple (witness); `_partial`: what it does return.
- **C51** logspace is geometric and hits both ends: From C49 with Real.rpow.
- **C52** Step functions: Heaviside, Door, Ramp, Dirac: Element-wise models.
- **C53** Saturation and sign: Order reasoning over a linear ordered field / reals.
- **C54** Tolerance comparison: Order reasoning.
- **C55** Element-wise vector algebra: List lemmas.
- **C56** Euler angles and unit quaternions give proper rotation matrices: Ring identities modulo sin^2+cos^2=1.
- **C57** Euler, quaternion and matrix conversions agree: Half-angle identities.
- **C58** Euler angle round trips: atan2 modelled as Complex.arg; arcsin.
- **C59** NED/local projections are inverse rotations: Ring identities; in-place update order modelled.
- **C60** infNorm is the maximum absolute component: False for Vector2d (maxCoeff without abs): witness; proved for the others.
- **C61** IsSymmetric tells symmetric matrices; Cholesky refuses the others: False of the code (always true): for all matrices.
- **C62** Pseudo-inverse satisfies the Moore-Penrose conditions: Eigen's SVD is a parameter with its contract as hypothesis; matrix algebra in Mathlib.
- **C63** Constrained least squares satisfies the constraint and is optimal: Eigen's QR/LU/LS are parameters with their contracts as hypotheses; optimality for all feasible points.
- **C64** Unit conversions are consistent: Case analysis over units, field algebra with pi. The conversions of vectors in place and by copy (C64_copies: two of the vectors of a program, possibly the same).
- **C65** FFT frequency vector: Loop with accumulation = i*df.
- **C66** Convolution weights: Loop model on top of C40.
- **C67** Ei/expEi consistency: Branch models; the original claim (equality everywhere) is false below 24, where expEi calls boost: equality from 24 on for every boost, closeness below when boost returns Ei.
- **C68** Moving a 1D lookup table: move construction and assignment as functions of the two objects; the uninitialised `interp_method` is a distinct state. Refuted for move construction; `_partial` for evaluation and for equal methods.
- **C69** Copying a grid interpolator: copy with fresh storage generations. Refuted for a source without axes; `_partial` for loaded sources.
- **C70** Infinite-depth evaluation is the limit: Filter.Tendsto of the modelled Evaluate.
- **C71** 1D interpolators accept exactly well-formed data: decision logic plus absence of `ub` for all inputs.
- **C72** Reported coordinate ranges: on top of the machines of C11, C20.
- **C73** Normalised angles in double arithmetic: rounding as any function to nearest doubles (`Spec.ToNearest`, unbounded exponent). Refuted for `Normalize_0_360` at -2^-60; `_partial` closed interval; proved for `Normalize__180_180`.
- **C74** Quaternions of rotation matrices: the four branches of Eigen's algorithm, ring identities.
- **C75** Euler angles describe the rotation they were extracted from: refuted at the gimbal lock; `_partial` elsewhere.
- **C76** Local speeds give the NED velocity: memory of vectors addressed by pointers, so aliasing is an input.
- **C77** Velocity transport: same memory model. Refuted when the arguments alias; `_partial` for distinct objects.
- **C78** Sorting and reversing: `std::sort` by its specification (any sorted permutation).
- **C79** Projected angles: atan2 as Complex.arg.
- **C80** Normalisation and unit test: exact reals.
- **C81** Cholesky factor: Eigen's LLT modelled as its outer-product algorithm; success iff positive definite, by induction on the columns.
- **C82**, **C83**, **C86** QR, LU, solvers: Eigen's decompositions are parameters with the documented contract `Spec.Documented`; `documented_exists` proves that the contract can be met by functions for all matrices.
- **C84** Symmetric matrices from a triangle: loops.
- **C85** IsPositiveSemiDefinite: eigenvalues through Mathlib's spectral theorem.
- **C87** FFT round trip: Eigen::FFT replaced by the sums it computes; orthogonality of the roots of unity. Refuted for odd sizes with the half spectrum.
- **C88** Powers of two: shift with the undefined range.
- **C89**, **C90**, **C91** Accuracy of the exponential integrals: Ei and E1 defined by Mathlib integrals/series (`Spec/SpecialFunctions.lean`); error of the rational approximations by certificates checked in the kernel (residual of the differential equation, Bernstein bounds), generated by `tools/expint`. C89, C90 refuted on the ranges of the mistyped coefficients.
- **C92** Accuracy of the Struve functions: series up to 3, integral representation and Bessel's equation above; certificates from `tools/struve`; boost's Y is a parameter assumed exact in the theorem.
- **C93** Derivatives of Bessel functions: integral representations, differentiation under the integral. Refuted at 0 for order one.
- **C94** Complex vectors: Complex.abs and arg, element-wise.
- **C95** Cholesky updates: Eigen's `llt_rank_update_lower` modelled; invariant of the column loop. Refuted when `info()` is ignored; `_partial` otherwise.
- **C96**, **C97** Inverse, eigenvalues: Eigen's functions are parameters (`IsInverse`, `AreEigenvalues`); the examples show that the contracts can be met. That a singular matrix has the outcome `nonfinite` is how the model reads Eigen, not a theorem about it.
- **C98** Approximate equality: Eigen's documented `isApprox`/`isIdentity`.
- **C99**, **C100** Products of vectors; elements, rows, columns and diagonals: direct.
- **C101** RegularGridNearest life cycle: records of the fields; refuted for `IsValid` and `GetData`.
- **C102** The spline passes through every point: de Boor/Cox recurrences of Eigen's Splines module; the collocation matrix is regular by the Schoenberg-Whitney theorem (`Lemmas/SplineTheory.lean`), hence any correct linear solver (`SolvesRegular`) gives the interpolant.
- **C103** Smoothness, linearity, exactness on polynomials: glueing of the polynomial pieces (`Lemmas/SplineGlue.lean`) and uniqueness.
- **C104**-**C108** The same functions with a rounding after every operation (`Model/Rounded.lean`); `rnd` is any function that rounds to nearest with 53 bits and unbounded exponent, whatever the rule for ties. Error bounds by the relation `Near k Q P r` (`Lemmas/Rounding.lean`), composed operation by operation. C107 and C108 are refuted by concrete doubles; the error bounds are `_partial`.
- **C109**, **C110** Accuracy of linear interpolation and trapezoids: `DerivBound k f S M` (`Spec/Accuracy.lean`) gives the derivatives explicitly; the error of a chord by convexity of `f + M x^2 / 2`, integrated over a panel.
- **C111** Several variables: axis by axis, the interpolation operator of one axis does not enlarge the error of the others.
- **C112** Chebyshev series: the model's coefficients give the interpolating polynomial at the Chebyshev nodes (C34), repeated Rolle gives its error, `T_(n+1)/2^n` the node polynomial; several variables with the bound `2n+1` of the operator.
- **C113** Out of range in double arithmetic: on the rounded model of C107, for any rounding.
- **C114**, **C115** Infinite and NaN coordinates: the evaluation functions again over `Dbl K` (a number, an infinity or NaN; `Model/NonFinite.lean`), proved equal to the plain model on numbers. C115 is refuted: NaN passes the bound check and is treated as the last node of its axis; `Nearest` reads behind the end of the axis.
- **C116** Vectors shared with the caller: an object holds the addresses of its vectors and each call reads their contents of that moment (`Model/Alias.lean`). Refuted: after the caller moves an abscissa the interpolator combines the old coefficients with the new intervals, and its answer belongs to neither table. `_partial`: it is unaffected by any change of the ordinates, which are read at `Initialize` only.
- **C117** Lipschitz bounds and stability of the interpolants: along an axis from the mean value over the cells between the two points, by induction on the dimension for grids.
- **C118** Spectrum of a real signal: from C65 and C87 (the spectrum is the discrete Fourier transform) and the orthogonality of the characters.
- **C119** `RegularGridInterpolator` in double arithmetic: every operation of `interp_vec` and `linterp_nd_unitcube` followed by a rounding to nearest (`Model/RoundedGrid.lean`, exponent range unbounded as in C104–C108); the error is carried through the recursion over the dimensions.
- **C120** Agreement of `Interp1d`, `Interp2d`, `RegularGridInterpolator` and `Trapz` with one another: from the closed forms of C01, C08, C18 and C40 on the same data; insertion by cases on the cell.
- **C121** Convexity: the interpolant on two cells compared through the slopes (induction over the cells between two points); samples of a convex function by the chord inequality; `Trapz` by integrating the inequality with C120.
- **C122** `Integrate1d` with a user function as a transition function `List K → K → Res K` of the arguments of the calls made so far (`Model/Callback.lean`); invariant over all histories of calls: a computed object holds the rule of the last n calls.
- **C123** Chebyshev series with such a function. Refuted: `Compute_ai` accumulates into the coefficients left by the failed call (witness: the constant 1 gives 3/2). Proved: the first `Compute_ai` (suffix `_partial`).
- **C124** Threads: methods as programs of accesses to fields, interleaved one access at a time (`Model/Threads.lean`); programs that only read are invariant under all schedules; the programs refine the sequential models. The granularity is one field; the memory model is that of race-free programs.
- **C125** Unit conversions with each operation and each constant rounded (`Model/RoundedUnit.lean`); a calculus of relative errors (`Rel k`: the value is the exact one times at most k factors (1+δ), |δ| ≤ u).
- **C126** Convergence: uniform continuity (Heine–Cantor) and the fact that an interpolant lies between the data of its cell; panels of the trapezoidal rule. `exists_loaded` shows that every increasing grid can be loaded, so that the hypotheses are met by grids as fine as one wants.
- **C127** Trapezoidal rule on a period: geometric sums of roots of unity; the integral of a harmonic over a period is zero. `C127_sharp` shows the order cannot be raised.
- **C128** The nearest node is at most half a step away on each axis (from C24); Lipschitz bound per axis, uniform continuity for convergence.
- **C129** `Nearest` with the midpoint rounded (`Model/RoundedNearest.lean`). The last clause is refuted for nodes that are neighbouring doubles: with nodes 1 and 1+2^-52 the midpoint is rounded to 1 and `Nearest` at the node 1 returns the other node (`C129_refuted`); `C129_node_partial` holds when the gap exceeds |p+q|/2^53.
- **C130** The tables checked in C18/C47 have their points in the triangle and a sum of absolute weights of at most 5/2, so the error is that of the best polynomial times 7/2 (from the exactness theorem). Monotonicity is refuted for orders 3 and 7, whose tables have a negative weight (`C130_refuted`: a continuous non-negative integrand with a negative result); `C130_monotone_partial` covers the other orders.
- **C131** `Interp2dLinear` with every operation rounded (`Model/RoundedInterp2d.lean`). The last clause is refuted: the coefficients of the bilinear polynomial are computed for the origin, not for the cell, so cells small against their distance to the origin lose all digits (`C131_refuted`: the constant table 0.2 on [2^52, 2^52+1] x [0, 1] gives 0.25 everywhere); `C131_error_partial` is the explicit error.
- **C132** `Evaluate` of the Chebyshev series with every operation rounded (`Model/RoundedChebyshev.lean`). Backward analysis: the rounded Clenshaw loop is the exact loop for perturbed coefficients, by induction with |U_k| <= k+1; the rounding of the coordinate goes into the perturbation; then |T_k| <= 1.
- **C133** `Evaluate` of the power series with every operation rounded (`Model/RoundedPowerSeries.lean`), from C104 and the error of the coordinate of C132; nested for two and three variables.
- **C134** Aliasing: at the n+1 nodes T_k takes the values of plus or minus T_j with j <= n, or zero, so the interpolant of T_k is at most 1 in magnitude on [-1, 1] and is T_k if k <= n; interpolation is linear, so it commutes with the sum of the series. Convergence by dominated convergence of the tail. Example: the generating function of the T_k.
- **C135** Model/RoundedChebyshevCompute.lean repeats Compute_ai, Compute_aij and Compute_aijk with a rounding after each operation. The cosine of the C library and boost::math::chebyshev_t are not code of /repo: they are parameters, assumed within 2^-52 of the cosine (CosClose) and within epsilon of the polynomials on [-1, 1] (PolyClose). The theorems C135_error_1d/2d/3d bound the distance to the exact program, C135_accuracy_* and C135_spectral_* combine this with C112 and C134; the examples give the sine at order 12 to 1e-10, 1e-8 and 1e-5. Underflow and overflow are not modelled, as in the other statements on double arithmetic.
- **C136** Model/Chebyshev.lean. The interpolant of T_k of a large order is plus or minus T_i with i at most k, or zero (cheb_alias, proved for C134), so each term of the difference is Lipschitz with constant 2 k^2 |a_k| by Markov's bound on T_k'. The derivative of the interpolant is the one returned (C35), that of F comes from the theorem on series of derivatives; the difference of the two functions is Lipschitz, which bounds the difference of the derivatives.
- **C137** Model/RoundedChebyshevDerivative.lean, with the functions of Boost as the parameters TR and TpR, near the exact polynomials (PolyNear, PrimeNear) slightly beyond [-1, 1], where rounding may carry the variable. The change of T_i' over the rounding of the variable is bounded by an identity for U_n(t) - U_n(u) and an induction (chebU_near), the sums by a calculus of relative errors (Apx). The error against the derivative of G adds the errors of the coefficients (C135) and C136.
- **C138** Model/RoundedGeometry.lean, with the library functions as the structure CMath, assumed close to the exact functions (CMath.Close). The formulas are bounded with the calculus of relative errors, the angles by a lemma on the direction of a perturbed vector (dir_dev). Refuted at a pitch of 90 degrees: the square root of one half rounds up to a double whose square, rounded, is above one half, so the argument of asin is 1 + 2^-52 (C138_refuted). Partial: accuracy of the angles of a quaternion away from a pitch of 90 degrees.
- **C139** Model/RoundedSpecialFunctions.lean, with exp and log as the structure ELib, assumed within one unit in the last place (ELib.Close). Coefficients of one sign, or dominated by the denominator, make the calculus of relative errors of Rounding.lean sharp for Horner sums and for sums of inverse powers; the exact values are those of C90.
- **C140** Model/RoundedSpecialFunctions.lean. A running error analysis of the continued fraction (Lemmas/RoundedFraction.lean): one rounded level perturbs numerator and denominator of the unfolded fraction by amounts bounded by a second polynomial pair, so the total error is bounded by a rational function of x, whose comparison with the value is a certificate of polynomial positivity checked by the kernel (RoundedFractionCert.lean). Below 6 the Chebyshev quotient is bounded with PolyClose and the zero of Ei makes an absolute term necessary. The exact values are those of C89 and C91.
- **C141** Model/RoundedSpecialFunctions.lean (struveZeroR, struveFirstR, struveZeroDerivativeR). The calculus of relative errors of Rounding.lean, extended with powers and one-ulp library calls; all terms of the fractions are positive, and |H0| <= 1, |H1| <= 1.64 by their integrals, which bounds the last rounding. The exact values are those of C92.
- **C142** Combination of the rounding bound of Integrate1d (C108), of the discretisation bound of the trapezoidal rule (C110) and of the displacement of the abscissae computed by linspace; the sum of panels is 1-Lipschitz in the data.
- **C143** Combination of the rounding bounds of C107, C131 and C119 with the interpolation errors of C111; a line and a tensor product of lines are averages of the data, so that errors of the data are not amplified.
- **C144** Model/RoundedTriangle.lean. Relative-error calculus of Rounding.lean for the points and the sum; the computed vector product is compared with the exact one in Euclidean norm; C130 gives the discretisation error. Vectors and matrices as integrand types are handled component by component by the code and are not stated separately.
- **C145** Model/OutOfMemory: AddY, SetX and Initialize with an explicit failure point at each allocation (arguments, pair, map node, make_shared, push_back, new, the reserves, last push_back), and clients that catch exceptions and go on. The code violates the property: the name is registered before the data are copied. C145_refuted is the witness; C145_retry_is_refused, C145_alias, C145_shift and C145_eval_all_undefined say for every table what happens instead (a retry returns false; the failed name becomes an alias of the next series; the next series is unreachable; evaluating all series is undefined behaviour). Proved: values once available stay, over any history with any failures (C145_values_stay_partial), series loaded before keep being their interpolation (C145_loaded_partial), failures before the insertion have no effect (C145_early_failure_partial), SetX is all or nothing (C145_set_x); C145_no_failure ties the model to that of C11-C13. C145_reported: no failed allocation is hidden.
- **C146** As C145, with AddData: Model/OutOfMemory. C146_refuted (HasSerie finds the failed series), C146_retry_is_refused, C146_alias, C146_shift; proved: C146_values_stay_partial, C146_loaded_partial, C146_early_failure_partial, C146_set_x, C146_set_y, C146_no_failure. C146_reported: no failed allocation is hidden.
- **C147** The model of C145-C146 counts the objects created by new that nothing owns any more. The code violates the property: the raw pointer is given to a unique_ptr only after Initialize. C147_refuted is a witness without memory exhaustion (empty abscissae), C147_lost with it, for every table. Proved: a call that returns loses nothing (C147_returns_1d_partial, C147_returns_2d_partial), a program loses at most one object per call (C147_bound_1d_partial, C147_bound_2d_partial).
- **C148** Model/OutOfMemoryGrid: the loading functions with an explicit failure point at each allocation. The code violates the property: the values are replaced before the new interpolator is made, so that the old one refers to freed storage. C148_refuted is the witness, C148_late_failure says for every loaded grid that after such a failure the object reports itself valid and every evaluation is undefined behaviour. Proved: AddCoord is all or nothing (C148_add_coord), AddVar is when the first allocations fail (C148_early_failure_partial), a later AddVar repairs the object (C148_recovers_partial), RegularGridNearest is all or nothing in AddCoord and AddVar (C148_nearest) but not in its assignment (C148_nearest_refuted; C148_nearest_assign_partial: assigning again repairs it); C148_no_failure ties the model to that of C15-C25. Copies and assignments: a copy that cannot be allocated leaves no object, one that can answers as the original (C148_copy); an assignment that ends answers as its source (C148_assign_partial); when the axes or the values cannot be allocated evaluation is unchanged (C148_assign_early_partial). The assignment is not all or nothing: C148_assign_refuted has an object with new axes that interpolates on the old ones, and one that claims to be valid although evaluating it is undefined. C148_nearest_states and C148_assign_states: what a failed assignment leaves.
- **C149** Model/RoundedVectors: the functions of Vector2d.h with a rounding after every operation, the C library as a parameter. C149_rotation, C149_norm, C149_round_trip, C149_axes, C149_velocity, C149_transport: forward error analysis (Lemmas/Rounding) against rotations of the complex plane by the true angle.
- **C150** Model/RoundedVectors: C150_components, C150_unit, C150_isUnit, C150_recognised, C150_projected.
- **C151** Model/RoundedSignals.lean `rampR` (the exact `ramp` with a rounding after every operation). False of the code: the line is evaluated as a*x+b with b = y_left - a*x_min, so between 2^52 and 2^52+1 the ramp from 0 to 0.2 ends at 0.25 (`C151_refuted`). Proved instead (`C151_ramp_partial`): the levels outside the range are exact, and inside it the error is at most 8u(|y_left| + (|y_left|+|y_right|)(|x|+|x_min|)/(x_max-x_min)).
- **C152** Model/RoundedSignals.lean; the rounding calculus of Lemmas/Rounding.lean; for Dirac a comparison of two roundings to nearest that does not depend on the rule for ties. Theorems C152_elementwise, C152_sum, C152_sinc, C152_door, C152_dirac.
- **C153** Model/RoundedSignals.lean `naiveConvolutionR`, `logspaceR`; from C106 and C105. Theorems C153_convolution, C153_logspace.
- **C154** Model/ThreadTables.lean writes each public call as a program of reads and assignments of the fields of the table (interpolators are read together with the vector that holds them; the name map is read before the loop that visits it). C154_calls proves that such a program, run alone, is the call of Model/LookupTable1D.lean. Lemmas/Threads.lean proves that programs with disjoint footprints are serializable in every schedule, by induction on the schedule (C154_serializable), and C154_races builds the racing schedule for every clash.
- **C155** As for C154, with Model/LookupTable2d.lean.
- **C156** Model/ThreadGrids.lean writes each public call as a program of reads and assignments of the fields. C156_calls proves that these programs, run alone, are the functions of Model/RegularGridInterpolator.lean; C156_serializable by a frame argument (Lemmas/Threads.lean); C156_races exhibits the schedule. The elements of the axes, which the interpolator reads through pointers, are assigned by operator= only, which is not among the calls.
- **C157** As for C156, with Model/RegularGridNearest.lean.
- **C158** Model/RoundedGeometry.lean: the algorithm of Eigen with a rounding after each operation, the trace being added in any order. The branch taken by the rounded program is shown to have a component of at least 0.47 for the exact rotation, so that neither the square root nor the division amplifies the errors; the candidate of each branch is a unit quaternion of the rotation by C74.
- **C159** Spec/Simplex.lean states the bounds of the derivatives with a gradient along segments. The weights of C23 have the point as their mean, so the linear part of f vanishes and the variance of a coordinate that takes the values a and b only is (x-a)(b-x). For ties the walk over a group of equal fractions telescopes and the vertex reached depends only on the set of lowered axes.
- **C160** Model/RoundedConversion.lean rounds every operation of the three loops and of the transformation coefficient. The factorials up to 18! and the powers of two are doubles, so a coefficient costs five roundings; the sums follow by counting roundings. The magnitudes of the coefficients of T_r add up to at most (1+sqrt 2)^r by the recurrence, which bounds the loss over the domain, and C133 bounds the evaluation.
- **C161** Model/LinterpC.lean: memory as a family of blocks, interp_vec as a loop which reads the coordinates of a point and stores its result. C161_pointwise: the results are those of the one-point function, by a loop invariant on memory; C161_values restates them through C23; C161_multilinear is the same for InterpMultilinear::interp_vec; C161_no_points. C161_over_data shows that the result array must not be the data. Partially overlapping arrays are not modelled.
- **C162** Model/Widths.lean: the check with an unsigned int and an int of 32 bits, both modulo 2^32. The code violates the property: C162_refuted, a grid of 65536 by 65536 nodes accepts an empty array; C162_accepted_short: every query at or beyond the last node is then undefined behaviour. Proved: C162_accepts_iff (accepted exactly when the difference is a multiple of 2^32), C162_right_size (no false refusal, and the same effect as in the model of C16-C25, for any size), C162_small_partial (below 2^32 nodes and elements the two models agree).
- **C163** (Model/RoundedSimplex, Lemmas/SimplexLipschitz, Props/RoundedSimplex): the walk again with every operation rounded. The rounded walk is compared with the exact walk of the same fractions by the calculus of Lemmas/Rounding; the exact walks of the rounded and of the exact fractions, whose orders may differ, are compared by writing the walk as the integral over a threshold t in [0, 1] of the datum of the vertex whose bits tell which fractions are below t: only a set of thresholds of measure the sum of the changes of the fractions sees different vertices. Refutation of exactness at nodes by a concrete witness, for every rounding to nearest.
- **C164** (Spec/Trend, Lemmas/GridCoupling, Lemmas/SimplexThreshold, Props/GridTrend): along one axis the weights of the nodes at two points in order are the marginals of weights on pairs of nodes in order (an explicit coupling: three pairs in the same cell, four otherwise); induction on the dimensions. For simplex interpolation the same threshold in all the axes gives the coupling: the value is the integral over t of the datum of the node found by comparing every fraction with t.
- **C165** (Lemmas/SimplexThreshold, Props/GridTrend): the integral over thresholds of C164; along an axis the mean distance of the nodes of the thresholds at two points is the distance of the coordinates moved into the box. Continuity follows from the rate that data on a finite grid always have.
- **C166** Elements of vectors and matrices hold the value last given to them: Coefficients are `some a` or indeterminate (`none`, reading is undefined behaviour). Histories of operations; refinement to a specification that looks back in the history (`heldAfter`), by induction on the history.
- **C167** Model/RoundedAngles.lean: the functions with the constants rounded as well. The constant is computed in the proof (the only double nearest to the decimal of the header), fmod of doubles is a multiple of the last bit of the turn, so that no result falls between the bounds and their neighbours.
- **C168** Model/RoundedSpectrum.lean. Relative errors of sums of non-negative terms (Rel.add_nonneg), induction on the loop.
- **C169** Model/RoundedSpectrum.lean: x*x, y*y, their sum, the square root and the product by the unit are rounded.
- **C170** Model/RoundedSpectrum.lean: the loop with its accumulator. Induction on the bins with relative errors.
- **C171** Model/Ieee.lean: the operations of Initialize and PrivEval on finite numbers, infinities and NaN, each rounded by a function to the finite numbers of binary64 that overflows from 2^1024 - 2^970 on (Spec/Ieee.lean). False as stated (C171_refuted: -2^1023 at 0 and 2^1023 at 1 give an infinity at every point after 0 and NaN at 0). Proved in part: when (1 + X)(1 + Y)(1 + 1/(x1 - x0)) is at most 2^1020 for the cell, nothing overflows and the result differs from the line by the bound of C107 and a term for underflow; the other cells may be of any size, since the subtraction of two different doubles is never zero and an overflow in another cell is kept there.
- **C172** Model/IeeeVectors.lean, on the operations of Model/Ieee.lean. False as stated (C172_refuted: (a, 0, 0) becomes the null vector when |a| is at least 2^512 and is left as it is when |a| is below 2^-538). Proved in part for norms between 2^-505 and 2^509: components that underflow when squared lose nothing that counts, since their squares are then below a rounding of the sum.
- **C173** Model/FixedMatrix.lean: one model for both sizes, over matrices of Mathlib; Eigen inverts 3 by 3 matrices by cofactors, which is modelled, and the other decompositions are parameters. False as stated: LeastSquareSolver stops on an assertion of Eigen 3.3.7 for every matrix (C173_refuted: thin U and V need a dynamic number of columns; from the knowledge of Eigen 3.3.7, whose source is not at hand) and IsSymmetric accepts everything (C173_refuted_symmetry). The rest is proved by direct calculation (cofactors), and from the theorems on MatrixMN of the same elements (Cholesky, semi-definiteness).
- **C174** Model/CallbackMulti.lean: the function of the user as for C122 and C123, one state for both dimensions. Refuted as C123: the failed call leaves its partial sums in the coefficients (witness: the constant 1 gives 3/2). Proved by a simulation of the pure program, part by part (Step): the first call, the number and the points of the calls, the exception, and that a later call is right if and only if all coefficients were zero.
- **C175** Model/IeeeGeneration.lean: linspace with every operation rounded in binary64 or overflowing. Refuted at both ends of the range: the difference of -2^1023 and 2^1023 overflows (first point not a number), and a step below the smallest number is rounded up (points beyond the end). Proved otherwise through Lemmas/IeeeBridge.lean: operations in range agree with a rounding to nearest without range, so C105 applies.
- **C176** Model/IeeeNumerics.lean, on the operations of Model/Ieee.lean. Refuted: 3 2^1022 (x + x^2) at 1/2 is in range and the result infinite (C176_refuted). Proved in part, when the sum of 1 + |c_i| times max(1, |x|)^i is at most 2^1020, by errors that carry an absolute part for the underflows (Lemmas/IeeeNear.lean: FNear).
- **C177** Model/IeeeNumerics.lean. Refuted: two samples of 3 2^1022 are added before they are multiplied by one half (C177_refuted, both functions). Proved in part, when the sums of magnitudes are at most 2^1020 (uniform) and 2^1018 (general), with FNear as C176.
- **C178** Model/CallbackTriangle.lean: the integrand is a function of the calls made so far and of the point, with a result that may be a failure; the loop is recursive over the Gauss points. Proved by induction over the loop: either all calls returned and the sum is the weighted sum, or the first failing call ends it; then an invariant over histories.
- **C179** Uses the models of C62, C63, C82, C86 and C96, in exact arithmetic, with what Eigen documents as hypotheses. The answer of the least-squares solver and the product with the pseudo-inverse both satisfy the normal equations, which have one solution when the columns are independent; residuals are split by Pythagoras.
- **C180** Uses the models of C89 to C92. At infinity: the continued fraction and the quotient of the last branch are bounded by polynomial certificates checked by the kernel. Near zero: E1(x) + ln x tends to minus the constant of Euler and Mascheroni (integration by parts and the derivative of the gamma function at 1), its derivative is between 0 and 1. Struve: certificates for the quotient of the residual by the partial sum of the series.
- **C181** Uses the model of C102 and C103. C103_pieces gives the break points, which for degree one are the abscissas; two values determine each affine piece. For few points C103_polynomial is applied to the polynomial of Lagrange. The errors by the theorem of Rolle, repeated.
- **C182** From C01_piecewise_affine and C08_bilinear by algebra; the printed formulas are in Spec/DocumentedInterp.lean. The formula in one variable holds. In two variables the printed a_1 has f(x_1, y_1) twice and the printed a_3 has the values at (x_1, y_2) and (x_2, y_1) exchanged: C182_refuted for each of the two and for both, C182_bilinear_partial with the two coefficients mended.
- **C183** Model/IeeeAngles.lean, with the arithmetic of C171. The value of fmod on two numbers of binary64 is one (double64_fmod: it is a multiple of the smaller last bit, and small enough). Sums with constants below 1000 neither overflow nor underflow, so that the functions are those of C73 and C167 for a rounding to nearest that agrees with binary64 in its range (Lemmas/IeeeBridge.lean).
- **C184** Model/IeeeUnit.lean, with the arithmetic of C171. Magnitudes between two powers of two are kept by rounding and add up in products (Mag), so that in the stated range the functions are those of C125 for a rounding that agrees with binary64 there. Monotonicity is that of rounding with infinities (ofReal_mono), for all magnitudes. C184_ends shows that bounds are needed.
- **C185** With C87 for the transforms. A delay is a change of the variable of summation modulo n; the convolution is a sum of delays. The specification (circular, convolved) does not mention the model. Exact arithmetic.
- **C186** Model/LinterpJumps. True with one axis: C186_one_axis_partial (both interpolators give the function of the specification Jumps, which exists and is unique on the points), C186_nodes_partial (value and limit from below at each node). False with two axes or more: the constructor compares the number of values with twice the number of nodes, but doubles every extent of the array. C186_several_axes says for every such grid that a table of the size of the array is refused, and that with a table that is accepted the last node, and every point beyond it, is read past the end of the values; C186_refuted is the witness on a 2 x 2 grid.
- **C187** Model/IeeeVectors (isCloseI) and Model/IeeeCheck. Finite numbers, NaN, an infinite first argument and vectors: C187_finite_partial, C187_nan_partial, C187_infinite_first_partial, C187_vectors_partial. With an infinite second argument the code is wrong, C187_infinite_second: every finite number and the opposite infinity are close to it, the infinity itself is not; C187_refuted with the default tolerances.
- **C188** Model/IeeeGrid, by induction on the dimensions. Proved when the axes have lengths that do not overflow: C188_bound_check and C188_constant for every size of the data; C188_node_partial when no difference of two data overflows; C188_finite_partial and C188_clamping_partial when the data, with the growth of the rounding errors, are below 2^1021. C188_refuted: between -2^1023 and 2^1023 the answer at a node is NaN. C188_refuted_axis: on an axis whose length overflows the answer in the middle is that of the first node.
- **C189** Model/IeeeInterp2d, with the counting of roundings, sizes and underflows of PNear. C189_completes for every size. C189_finite_partial when the abscissas are at most 2^p, the ordinates 2^q, the data 2^c in magnitude and the cell is at least 2^-a wide and 2^-b high, with p + q + c + a + b at most 1014. False otherwise, C189_refuted: the table of ones on [2^600, 2^601]^2 gives NaN at every point, as the products of a datum and two coordinates overflow.
- **C190** Model/IeeeChebyshev: the map to [-1, 1] and the recurrence, each operation rounded or overflowing. C190_1d_partial, C190_2d_partial, C190_3d_partial: finite, with the error of C132 and one smallest number for each coefficient, when the bounds, the width and their ratio are between 2^-1000 and 2^1000 and the number of coefficients times their sum is below 2^1018 (2^1020 in one variable). The underflow of a product is a change of a coefficient, so the backward analysis of C132 carries over. False otherwise: C190_refuted, on a segment whose width overflows every point has the coordinate of the centre; C190_refuted_large, the constant 2^1023 is evaluated to an infinity.
- **C191** Model/IeeePowerSeries: the map to [-1, 1] and the Horner scheme, each operation rounded or overflowing, the partial sums of the rows not necessarily finite. C191_1d_partial, C191_2d_partial, C191_3d_partial: finite, with the error of C133 and one smallest number for each coefficient, when the bounds, the width and their ratio are between 2^-1000 and 2^1000 and the number of coefficients times their sum is below 2^1018 (2^1020 in one variable). From C176 at the rounded coordinate; several variables by the argument of C190. False otherwise: C191_refuted, on a segment whose width overflows every point has the coordinate of the centre; C191_refuted_large, a partial sum overflows though the value does not.
- **C192** Model/RoundedPowerSeriesD: the loops of PowerSeries2d.h and PowerSeries3d.h with the rounded Horner schemes of C133. C192_derivative_2d, C192_derivative_3d: the derivative in the sense of calculus (HasDerivAt) of the series composed with the map to [-1, 1], error relative to the sum of the orders times the magnitudes of the coefficients and to the derivative of the map. C192_combined: the same numbers from the combined function. C192_zinf: the limit (Tendsto) and its derivatives. C192_z_predefined: Compute_cij followed by the four functions taking its result. Sums of one variable are nested by SummedR.nested, whatever the order of the loops.
- **C193** Model/IeeeSignals: the functions over binary64 with infinities and NaN (Dbl). Spec/Extended: a double that is not NaN as an extended real number (EReal). Theorems C193_heaviside_partial, C193_door_partial, C193_saturate, C193_sgn_partial, C193_sgnSqrt, C193_dirac_partial (finite grid step from 2^-1021; the comparison is reduced to C152), C193_ramp_partial (between the limits: when the product of the sizes of limits and levels over the distance of the limits is a hundred times below the overflow threshold). C193_refuted: a NaN gives 1/2, 0, 0, the right value and 0. C193_refuted_ramp: a ramp whose slope overflows is NaN inside.
- **C194** Model/RoundedSignals: arange with every operation rounded. C194_arange: for every rounding to nearest, the number of values by the relative error of the quotient and the floor, the values by C105. C194_tenth: arange(0, 1, 0.1) with the double 0.1 has ten values, though ten of this number do not fit.
- **C195** Model/IeeeStdVector.lean runs the loops of StdVector.h on doubles with infinities and NaN. Spec/Extended.lean maps doubles to the extended reals and states rounding there (RoundedTo) and the pairs without result. Proved case by case for one element and by the loop lemma for vectors; the sum by induction with the error calculus of Lemmas/IeeeNear.lean.
- **C196** Model/Integers.lean runs the templates with machine integers: overflow and out-of-range conversions are undefined, the double inside Saturate and IsClose is rounded. Proved for all int by arithmetic on integers and doubles. Saturate keeps its value in a double: refuted for long, proved up to 2^53 and, with the rounding error, away from the ends of the type. IsClose and Normalize__180_180 overflow for large arguments: refuted there, proved elsewhere.
- **C197** Model/Integers.lean as for C196, with the unsigned arithmetic of linspace modulo 2^64 and 2^32. linspace is proved to be in order from end to end always and in equal steps when the number of intervals divides the length, refuted otherwise. Ramp likewise; it is undefined between equal abscissas. Element-wise operations and sums are exact when every result fits and undefined otherwise.
- **C198** Model/Integers.lean as for C196. Horner truncates every partial sum to int: refuted for coefficients that are not integers, proved for integer coefficients when the sum of the magnitudes of the terms is below 2^31. Trapz by induction along its loop, with bounds on the partial sums.
- **C199** The models of C01-C10, C16-C19, C40-C43. From the characterisation of the values (C01, C03, C04, C08, C10) for one and two variables; on grids the bracketing found on every axis is carried over. Does not hold for LINEAR_EXTRAPOLATE out of the range (C04: a value on the left, an exception on the right): refuted; without assertions Interp2d out of the box is left out.
- **C200** The model of C32-C39. Evaluate after Compute is the interpolation operator at the nodes applied in each variable, which is linear, commutes between variables and with the reflection of the nodes.
- **C201** The model of C44-C46. The Gauss points of the image are the images of the Gauss points, and the area follows the inner products, which the distances determine.
- **C202** The model of C62. Functions of the singular values are polynomials of the Gram matrix, by interpolation at the squares of the singular values, so they do not depend on the singular vectors. The tolerance is absolute: the rule for c A holds when the tolerance is multiplied by c too, and fails with the default one (refuted), as does the rule for the pseudo-inverse of the pseudo-inverse unless the singular values are zero or between the tolerance and its inverse.
- **C203** The models of C81, C86, C96 and C97 with the uniqueness proved there: the candidate of the rule is shown to be an inverse, a solution or a factor. Eigenvalues through the characteristic polynomial.
- **C204** The models of C23 and C24. Simplex interpolation is the mean over thresholds of the data (lemma simplex_integral), which does not see the order of the axes; mirroring all the axes exchanges the thresholds t and 1 - t. Mirroring one axis changes the diagonals of the cells: refuted, as is Nearest in the middle of two nodes.
- **C205** The model of C102. The specification of a spline is Spec/SplineFunction.lean. The derivatives of a competing function at the break points are those of its pieces on both sides, so that it is one of the smooth piecewise polynomials of the Schoenberg-Whitney theorem. The rest follows from the uniqueness.
- **C206** The model of C56-C58. Which angles are the same: comparison of the elements of the matrices with a case distinction on the cosine of the pitch. Products: the Hamilton product of Mathlib, element by element; C57 and C74 carry it over to the quaternions of matrices.
- **C207** Model/CircularBuffer.lean: boost::circular_buffer by its documentation, push_front and push_back on full and other buffers. The content after any history by induction on it; the value by C66; the accuracy by C110.
- **C208** From the closed forms of C01, C08 and the cube of C18: the line of a segment cut at one of its points is the line of the whole; the brackets of the refined axis are compared with those of the axis. For simplices a concrete square that differs.
- **C209** From C01: in each bracket the two lines are inverse of one another, and the value lies in the bracket of the ordinates. Strictness from C02 and the inverse.
- **C210** From the optimality of C63: the residual along any line that respects the constraint is a quadratic with its minimum at the answer, which gives the orthogonality; the orthogonality determines the answer when the problem is determined, and each rule follows by checking it for the claimed answer.
- **C211** Values from C29. The derivatives follow from C30: each call returns the derivative of the function that the evaluations compute, and this is unique. The determination of the coefficients from the number of roots of a polynomial.
- **C212** From C47: each function gives the only representative of the angle in its interval; every rule exhibits a representative in the interval.
- **C213** From the values of C49 and C52 and the sum of panels of C40; each sum in closed form by induction on the number of panels.
- **C214** From the sum of terms of the simplex walk and the nested form of the unit cube: at a node coordinate the fraction is 0, so that terms with the upper vertex have no weight. Two axes: the two orders of the fractions, in closed form.
- **C215** From the sums of C87: orthogonality of the roots of unity, the mirror identity of the bins, sums over blocks, periodicity of the cosine.
- **C216** Both functions are sums with weights that are not negative and add up to the length (from C40); then the inequalities of Cauchy and Schwarz and of Jensen for finite sums. Joining and refinement: panel by panel.
- **C217** The transport as a complex number plus i times the speed times the point (from C77) and the projections as multiplication by the exponential (from C59); then derivatives and norms of complex numbers.
- **C218** From the closed forms of C49 and C51, point by point.
- **C219** From the sum of C27 and C28: sums by the places of the coefficients, the Cauchy product, and the number of roots of a polynomial.
- **C220** A program succeeds exactly when each new series can be built on the axis of the time (induction on the program, from the representation invariants of C11 and C14). The table after part of the program is matched with the table after the whole program by induction; the values are then those of C11_refines_map and C14_refines_map.
- **C221** Model/LongVectors.lean: these loops with an unsigned int that goes back to 0 after 2^32 - 1 and an int whose overflow is undefined; a loop that may not end is watched for any number of turns. The code violates the property. C221_refuted, C221_minus_long, C221_door_long: from 2^32 elements on Minus and Door stop at their assertion, and without assertions return only the first elements, as many as the length modulo 2^32. C221_isClose_refuted, C221_convolution_refuted, C221_init_refuted, C221_init2d_refuted: IsClose of vectors whose first 2^32 elements are close, NaiveConvolution and Initialize never return. C221_eval_refuted: Eval on 2^31 abscissae overflows its int. Proved: below these lengths all of them do what the models with natural numbers do, on which all the other properties rest (the theorems _partial).
- **C222** Props/ExitStatus.lean: for each function that calls exit, exactly when it does and with which status; for the code it calls, that it never does. The code violates the property: C222_expInt_refuted, C222_struve_refuted, C222_triangle_refuted, C222_refuted (Chebyshev series above order 18) call exit(0) for every argument they refuse. Proved: the interpolators, tables, regular grids and STRING2ANGLE end the program only with status 1, and exactly in the cases documented (the theorems _partial); 2D tables never do.
- **C223** Props/ExceptionTypes.lean: the types of the exceptions of each class, by a rule for every operation the code is made of, and for the exceptions thrown by the code itself exactly when. The code violates the property: C223_refuted, MakeInterp2d of any method but LINEAR and AddData of a new name to a 2D table of such a method throw a string (const char*), and AddData in no other case. Proved: all the other exceptions are of the types stated (the theorems _partial).
- **C224** Props/Assertions.lean: the outcome of a call as a function of the build; a relation between the outcomes of the two builds that holds of every operation the code is made of and is kept by sequencing, loops and conditionals, applied to each function. Proved: C224_interp1d, C224_interp2d, C224_table, C224_table2d, C224_generation, C224_vectors, C224_functions, C224_comparisons, C224_quadrature, C224_exponential_integrals, C224_chebyshev1d to 3d, C224_power1d to 3d, C224_matrix_access, C224_cholesky, C224_decompositions, C224_solvers, C224_spline. Props/AssertionsDouble.lean: the same for the models with rounding, in binary64, and on integers (C224_double_…, C224_binary64_…, C224_integer_vectors), for matrices of fixed size and for updates of Cholesky factors.
- **C225** Props/DataErrors.lean: from the values of C40, C66, C27, the linearity of C200 with the bound of the Chebyshev interpolant, and the sum of the magnitudes of the quadrature weights. Proved: C225_trapz, C225_trapz_uniform, C225_signal, C225_kernel, C225_horner, C225_horner_unit, C225_horner_derivative, C225_power_1d, C225_power_2d, C225_power_3d, C225_fft, C225_chebyshev_1d, C225_chebyshev_2d, C225_chebyshev_3d, C225_triangle. The interpolations are in C117 and C165.
- **C226** Props/OneAtATime.lean: the weights of the code for a list of axes are those of its two parts side by side, and the iterated interpolation over the whole list is the iterated interpolation over the first part of that over the second. Proved: C226_grid, C226_section, C226_product, C226_sum, C226_unused, C226_interp2d, C226_chebyshev_2d, C226_power_2d, C226_chebyshev_3d, C226_power_3d.
- **C227** Props/SystemErrors.lean: the difference of two solutions solves the system for the difference of the right-hand sides; its largest element is bounded by dominance, its norm by Cauchy and Schwarz; for least squares the normal equations make the change of the fit orthogonal to the change of the residual. The determinant is shown not to vanish in both cases. Proved: C227_dominant, C227_dominant_size, C227_coercive, C227_least_squares, C227_fitted, C227_matrix, C227_constrained.
- **C228** Props/RepeatedIntegrals.lean: both functions Trapz are sums with weights that are not negative and add up to the length (Spec.Trapezoids.weights), so that the repeated integral is a double sum. Proved: C228_order, C228_product, C228_linear, C228_bounds, C228_errors, C228_bilinear.

## Trusted base

**Kernel and axioms.** Lean's kernel (4.33.0). Every theorem of `lean/Verif/Props` depends on at most `propext`, `Classical.choice` and
`Quot.sound`; no axiom is added, and there is no `sorry`, `native_decide` or `bv_decide`. The numerical certificates (C44, C46, C89-C92, C130, C140) are
checked by `decide +kernel` on closed rational or integer statements, that is by the kernel's own evaluation; they are then lifted to all arguments.

**Reading of the C++.** The correspondence between `lean/Verif/Model` and `/repo` is by reading: every definition cites the lines it models. Nothing
was compiled or run.

**Numbers.** Exact reals or an exact ordered field instead of `double`, with three exceptions (C224 is proved in all of these arithmetics). In C73, C104-C108, C113, C119, C125, C129, C131-C133, C135, C137-C144,
C149-C153, C158, C160, C163 and C167-C170 numbers are doubles without overflow and underflow, with rounding to nearest and no fused operations; the functions of the C library and of boost are
parameters with an assumed accuracy (`CMath.Close`, `SinClose`, `PowerClose`, `PolyClose`, `CosClose` and the like), and the order in which Eigen adds is a
parameter. In C114 and C115 arguments may be NaN or infinite. In C171, C172, C175-C177, C183, C184, C187-C191, C193 and C195 numbers are those of binary64, with overflow to an infinity, gradual underflow and NaN, but one zero. `float` literals and constants such as `M_PI` are the decimal
numbers that are written.

**Code outside the repository**, which the model states rather than proves:

| Library | Where | How it enters |
|---|---|---|
| `std::lower_bound`, `upper_bound`, `sort`, `min_element`, `fmod`, `atan2` | everywhere | by specification (for `sort`, any permitted result) |
| Eigen assertions on indices and sizes | all vectors, matrices | `eigenFail`: abort with assertions, undefined behaviour with `NDEBUG` |
| Eigen QR, LU, SVD, solvers | C62, C63, C82, C83, C86 | parameter `EigenLA` with hypothesis `Documented`; satisfiable (`documented_exists`) |
| Eigen `llt`, `rankUpdate`, `Quaternion(Matrix3)` | C74, C81, C95 | their algorithms, written down from the public source text from memory |
| Eigen `inverse`, `eigenvalues` | C85, C96, C97 | parameters with hypotheses `IsInverse`, `AreEigenvalues` |
| Eigen unsupported `FFT` | C65, C87 | the discrete Fourier sums with the library's handling of sizes and flags |
| Eigen unsupported `Splines` | C102, C103 | its algorithms (`Span`, `BasisFunctions`, `KnotAveraging`, `Interpolate`) from memory; the solver is a parameter (`SolvesRegular`, satisfiable: `solvesRegular_exists`) |
| boost `chebyshev_t`, `chebyshev_clenshaw_recurrence`, `horner` | C27-C39 | recurrences |
| boost `expint`, `cyl_neumann`, Bessel functions | C67, C91-C93 | parameters; theorems that need their values take them as hypotheses |
| C library `cos`, `sin`, `asin`, `atan2`, `pow`, `exp`, `log`, boost polynomials, in double arithmetic | C135, C137-C144, C149-C153, C169 | parameters (`CMath`, `ELib`, `TR`, ...), assumed within about a unit in the last place of the exact functions |
| boost `circular_buffer` | C66, C207 | its documentation: a list in the order of `operator[]`, pushes on a full buffer drop the element at the other end |
| boost `multi_array` storage | C16-C26, C69, C101, C148 | list of elements in row-major order and a generation number for the storage |
| `boost::numeric::ublas::array_adaptor` (axes inside the interpolator) | C16-C26, C69, C148 | a list: copies of an adaptor own their elements, so an interpolator does not refer to the axes of the class that made it |

**Not modelled.** Output (`print`, `operator<<`), random numbers (`Randomize`), `Transform3d.h` (declarations without bodies), the expression-template
constructors of the Eigen classes, `Spline` for `Dim` other than 1, `LookupTable2d::Eval(name, vector)` (does not instantiate), `ConvolveNaive` (FFT.h:86-90: `nf + g - 1` with a vector `g` does not
compile when used), members of
`Matrix33`/`Matrix66` that do not instantiate (`GetSVDDecomposition`, `GetPseudoInverse`, `Pinv`, `Eigenvalues`: Eigen's static assertions on
sizes) and `IsOrthogonal` on matrices (Eigen has it for vectors only). Time is not modelled. Memory exhaustion is modelled for
the functions that load lookup tables and regular grids (C145-C148), and nowhere else. Threads are modelled for
evaluations of interpolators, `Integrate1d`, lookup tables and regular grids (C124, C154-C157): a step is one access to one field, schedules are sequentially consistent, which is sound
for programs without data races; elsewhere there is one thread. `Matrix33` and `Matrix66`
are modelled apart from `MatrixMN` (C173).

## Disagreements found between the code and the properties

Each is a theorem `Cxx_refuted` (or the one named) with a concrete witness; what remains true is in the `_partial` theorems beside it.

- **C04** `LINEAR_EXTRAPOLATE` throws above the last abscissa.
- **C05** `Initialize` appends to the coefficients of an initialised interpolator.
- **C10** 2D evaluation out of range reads another cell when assertions are off.
- **C13** a throwing `AddY` leaves its name registered and shifts later names.
- **C15** a throwing `AddData` leaves its name registered.
- **C21** `AddVar` compares the number of elements, not the shape.
- **C22** a failed `AddVar` leaves the old interpolator on released storage.
- **C26** below an axis the surrounding node is the last one (unsigned wrap).
- **C31** `Evaluate_derivative_y_z_predefined` passes x instead of y.
- **C38** computing Chebyshev coefficients twice doubles them.
- **C42** `SetIntegrationMethod` does not invalidate the cached result.
- **C48** `modulo360`, `modulo2pi` are negative on negative angles.
- **C50** `arange` is right only when start = step.
- **C60** `Vector2d::infNorm` forgets the absolute value.
- **C61** `IsSymmetric` is true of every square matrix.
- **C66** an empty kernel is read out of bounds (`C66_empty`).
- **C68** move construction leaves `interp_method` uninitialised.
- **C69** copying a grid interpolator without axes is undefined.
- **C73** `Normalize_0_360(-2^-60)` is 360 in double arithmetic.
- **C75** Euler angles at the gimbal lock do not describe the matrix.
- **C77** `TransportAtPoint` overwrites its argument when they alias.
- **C85** without symmetry `IsPositiveSemiDefinite` accepts matrices with a negative quadratic form (`C85_not_symmetric`).
- **C87** the half spectrum of an odd number of samples loses one sample.
- **C89** a digit of `alphaj` (BoostFunctions.h:292) is wrong.
- **C90** digits of `pj`, `qj` (BoostFunctions.h:487, 491, 533, 537) are wrong.
- **C93** derivatives of J and I at 0 for order one divide by zero.
- **C95** `GetCholeskyUpdate` and `InPlaceCholeskyUpdate` ignore the failure of the factorisation.
- **C101** `RegularGridNearest::IsValid` is always true and `GetData` returns nothing.
- **C102** `Spline` silently accepts abscissas that are not sorted (`C102_unsorted`).
- **C107** in double arithmetic a table of constants 0.2 at 2^52, 2^52 + 1 is interpolated by 0.25: the intercept cancels.
- **C108** in double arithmetic `Integrate1d` on [2, 3] with 4 points calls the integrand above 3 (the abscissa is accumulated).
- **C115** NaN passes the bound check of `RegularGridInterpolator`; `RegularGridNearest::Nearest` reads past its axis for NaN.
- **C116** an interpolator shares the caller's abscissas: changing them changes its answers.
- **C123** after an exception of the user's function `Compute_ai` adds to the coefficients of the failed call.
- **C129** with neighbouring doubles as nodes, `Nearest` at a node may return the next one.
- **C130** the triangle rules of order 3 and 7 are not monotone (a negative weight).
- **C131** in double arithmetic 2D interpolation leaves the range of the data of the cell.
- **C138** `quaternionToEulerAnglesZYX` takes the arc sine of a number above one at a pitch of 90 degrees.
- **C145**, **C146** an allocation that fails in `AddY` or `AddData` leaves the name registered.
- **C147** the interpolator object is lost when `Initialize` throws.
- **C148** an allocation that fails in `AddVar` or in an assignment leaves an interpolator that refers to freed storage.
- **C151** in double arithmetic `Ramp` does not end at its level (0.25 instead of 0.2).
- **C162** the check of the number of elements in `AddVar` counts modulo 2^32: an empty array is accepted on a grid of 65536 by 65536 nodes.
- **C171** differences of ordinates and products of abscissas and ordinates overflow although the interpolated values do not: finite tables can give infinities and NaN (in the interior of their range and at their nodes).
- **C172** `Normalize` returns the null vector for large vectors (the squares overflow) and leaves small ones as they are (the squares underflow).
- **C173** `LeastSquareSolver` of `Matrix33` and `Matrix66` stops on an assertion of Eigen's in the default build, whatever its arguments. This rests on the text of `SVDBase::allocate` in Eigen 3.3.7 as we know it: Eigen's source is not in /repo, and the code was not run. `IsSymmetric` is true of every matrix, so that `GetCholeskyDecomposition` factors the lower triangle of a matrix that is not symmetric.
- **C174** after an exception of the function, `Compute_aij` and `Compute_aijk` add to the coefficients of the failed call.
- **C175** `linspace` from -2^1023 to 2^1023 gives NaN and infinity; with a step below the smallest positive number it gives points beyond the end.
- **C176** `Horner` gives infinity for polynomials whose value is in range (3 2^1022 (x + x^2) at 1/2).
- **C177** `Trapz` adds the first and the last sample before it halves them: infinity for two samples of 3 2^1022.
- **C182** the technical notes print `f(x_1, y_1)` twice in `a_1` and exchange two values in `a_3` of the bilinear formula; the code is right.
- **C186** with `Continuous = false` and two axes or more, the number of values that linterp.h asks for is smaller than the array it reads.
- **C187** `IsClose(a, b)` is true for `b` infinite and `a` any finite number or the opposite infinity, and false for two equal infinities.
- **C188** `RegularGridInterpolator<double>` returns NaN at a node of a finite table when two neighbouring data differ by more than the range of `double` (`-2^1023` and `2^1023`), and the value of the first node in the middle of an axis whose length overflows.
- **C189** `Interp2d<double>` returns NaN everywhere on a table of ones whose coordinates are around `2^600`: the products of a datum and two coordinates overflow.
- **C190** On a segment wider than the largest double, `Evaluate` of a Chebyshev series returns the same value at all points, as `2 / (max - min)` is zero; the constant series `2^1023` is evaluated to an infinity, as the first coefficient is doubled.
- **C191** On a segment wider than the largest double, `Evaluate` of a power series returns the same value at all points, as `2 / (max - min)` is zero; `-2^1023 + 2^1023 t + 2^1023 t^2` on `[-1, 1]` is evaluated to an infinity at 1, where the value is `2^1023`.
- **C193** A point that is NaN gives 1/2 in `Heaviside`, 0 in `Door` and `Dirac`, the right value in `Ramp` and 0 in `sgn`: it is not seen in the result. `Ramp` from `-2^1023` at 0 to `2^1023` at 2 is NaN at 1 and 2, as its slope overflows.
- **C196** `Saturate` keeps its value in a `double`: a `long` above 2^53 inside the interval is changed, and the largest `long` makes the conversion back undefined. `IsClose` of `int`s far apart and `Normalize__180_180` of `int`s near the largest overflow.
- **C197** With `int` arguments (`linspace(0, 10, 4)` has type `int`) the step of `linspace` and the slope of `Ramp` are truncated: the points are not equally spaced, the ramp does not reach its second level.
- **C198** `Horner(coefficients, 1)` has `T = int` and truncates every partial sum: `1/2 + x/2` at 1 gives 0.
- **C199** `LINEAR_EXTRAPOLATE` out of the range: the table `0 1 3 / 5 7 1` gives 3 at -1, the mirrored table throws at 1 (the defect of C04).
- **C202** `GetPseudoInverse` compares the singular values with an absolute tolerance, 1e-6 by default: the pseudo-inverse of a matrix in units ten million times larger is zero (`C202_refuted`).
- **C204** Simplex interpolation depends on the direction of the axes: `x y` on the unit square at (1/4, 3/4) gives 1/4, with the first axis mirrored 0 (`C204_refuted`). `Nearest` takes the upper node in the middle of two, in the mirrored grid the other one (`C204_refuted_nearest`).
- **C221** `Minus` and `Door` lose all or most elements of vectors of 2^32 elements or more, or stop at their assertion; `IsClose`, `NaiveConvolution` and `Initialize` never return on them; `Eval` on 2^31 abscissae is undefined.
- **C222** `Ei_approximation`, `E1_approximation`, the Struve functions, `Compute_bi/bij/bijk` above order 18 and the triangle quadrature of an order outside of 1 to 8 call `exit(0)`: the program ends as if it had succeeded.
- **C223** `MakeInterp2d` of a method other than `LINEAR`, and `AddData` on a table of such a method, throw a `const char*`, which no handler of `std::exception` catches.
