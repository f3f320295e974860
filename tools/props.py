import json
P=[]
def p(title, statement, quantifier, why, *anchors):
    P.append(dict(id=f"C{len(P)+1:02d}", title=title, statement=statement, quantifier=quantifier, why_tests_cant=why, anchors=list(anchors)))
S="src/MathUtils/"
# ---- Interp1d
p("1D linear interpolation is the piecewise-affine interpolant",
  "Once an Interp1d (LINEAR, LINEAR_SATURATE or LINEAR_EXTRAPOLATE) has been initialised once with strictly increasing abscissae and as many ordinates (at least two), Eval(x) for x in [xmin, xmax] returns, for whichever pair of consecutive nodes brackets x, the value at x of the straight line through these two nodes; in particular it returns the ordinate at each node.",
  "all table sizes >= 2, all strictly increasing abscissae, all ordinates, all x in range, all three linear methods",
  "Tests sample a few x of one table; the claim is about every table and every bracket, including x equal to a node where two brackets apply.",
  S+"Interp1d.h: Interp1dLinearBase::Initialize, Interp1dLinearBase::PrivEval, Interp1dLinear::Eval, Interp1dLinearSaturate::Eval, Interp1dLinearExtrapolate::Eval")
p("1D interpolation never overshoots and preserves monotonicity",
  "Every value returned by Eval inside the range lies between the smallest and the largest of the two bracketing ordinates, and if the ordinates are non-decreasing then x <= x' implies Eval(x) <= Eval(x').",
  "all tables, all points (and pairs of points) of the range",
  "Overshoot or a reversed order at one unlucky point is not visible on sampled points.",
  S+"Interp1d.h: Interp1dLinearBase::PrivEval")
p("Out-of-range policy of LINEAR and LINEAR_SATURATE",
  "With method LINEAR, Eval(x) for x < xmin or x > xmax never returns a value: the process exits. With LINEAR_SATURATE Eval returns the first ordinate for x <= xmin and the last ordinate for x >= xmax, and never fails for any x.",
  "all tables, all real x",
  "The claim covers an unbounded set of out-of-range points and the exact boundary points.",
  S+"Interp1d.h: Interp1dLinear::Eval, Interp1dLinearSaturate::Eval")
p("LINEAR_EXTRAPOLATE extends the end segments on both sides",
  "With LINEAR_EXTRAPOLATE, Eval(x) for x < xmin returns the value at x of the line through the first two nodes, and for x > xmax the value at x of the line through the last two nodes.",
  "all tables, all x outside the range, on both sides",
  "A test of one side says nothing of the other; the claim is for all tables and all x.",
  S+"Interp1d.h: Interp1dLinearExtrapolate::Eval, Interp1dLinearBase::PrivEval")
p("Re-initialising an interpolator replaces its data",
  "After any sequence of successful Initialize calls on the same 1D (or 2D) interpolator, Eval interpolates the data given to the last call.",
  "all sequences of Initialize calls, all data, all x in range",
  "Histories of calls are unbounded; tests only initialise once.",
  S+"Interp1d.h: Interp1dLinearBase::Initialize", S+"Interp2d.h: Interp2dLinear::Initialize")
p("Vector evaluation is element-wise evaluation",
  "Eval of a vector of abscissae (and operator() on it) returns a vector of the same length whose i-th entry is Eval of the i-th abscissa; if one of the scalar evaluations fails, the vector evaluation fails in the same way at the first such element and returns nothing.",
  "all interpolators of every method, all vectors of fewer than 2^31 abscissae (C221 for longer ones)",
  "Lengths and positions of a failing element are unbounded.",
  S+"Interp1d.h: Interp1dLinear::Eval, Interp1dLinearExtrapolate::Eval, Interp1dLinearSaturate::Eval, Interp1d::operator()")
p("1D interpolation is linear in the ordinates and exact on affine data",
  "Interpolating a*Y + b*Z gives a*Interp(Y) + b*Interp(Z) at every point of the range; if the ordinates are values of an affine function, Eval returns that function everywhere in the range.",
  "all abscissae, all ordinates, all scalars, all points in range",
  "Algebraic law over all inputs.",
  S+"Interp1d.h: Interp1dLinearBase::Initialize, Interp1dLinearBase::PrivEval")
# ---- Interp2d
p("2D interpolation is the bilinear interpolant of the bracketing cell",
  "After one Initialize with strictly increasing x (nx >= 2), y (ny >= 2) and nx*ny row-major data, Eval(x, y) in range returns, for every grid cell containing (x, y), the bilinear interpolant of the four corners of this cell; in particular the datum at each node, and neighbouring cells agree on shared edges.",
  "all grid sizes, all coordinates, all data, all points in range, all cells containing the point",
  "Row/column mix-ups or shared-edge mismatches can hide on square or symmetric test grids.",
  S+"Interp2d.h: Interp2dLinear::Initialize, Interp2dLinear::Eval")
p("2D interpolation bounded by the corners and exact on bilinear data",
  "The value returned by Eval in range lies between the minimum and maximum of the four corners of the cell; data sampled from a + b x + c y + d x y are reproduced exactly everywhere in the range.",
  "all grids, all data, all points in range",
  "Universal inequality over a continuum of points.",
  S+"Interp2d.h: Interp2dLinear::Eval")
p("2D interpolation never indexes outside its tables and refuses out-of-range points",
  "Eval in range never makes an out-of-bounds access nor throws; for a point outside the range no value is returned.",
  "all grids, all points, both build modes (assertions on, NDEBUG)",
  "Off-by-one in the flat index only shows for particular cells and shapes.",
  S+"Interp2d.h: Interp2dLinear::Eval, Interp2dLinear::Initialize")
# ---- LookupTable1D
p("LookupTable1D behaves as a map from series names to interpolants",
  "After any history of SetX and successful AddY calls, Eval(name, x) for a registered name returns exactly what a fresh interpolator initialised with the abscissae current at the time of AddY and the ordinates given then returns; for an unknown name it throws out_of_range; GetNbSeries is the number of successful AddY calls.",
  "all histories of SetX/AddY/Eval of any length, all names, all data, all interpolation methods",
  "Histories are unbounded; aliasing between series shows only for particular insertion orders.",
  S+"LookupTable1D.h: LookupTable1D::SetX, AddY, Eval, GetNbSeries")
p("A duplicate series name is rejected without effect",
  "AddY (1D) or AddData (2D) with a name already registered returns false and leaves every observable of the table unchanged (all evaluations, the number of series).",
  "all tables reachable by any history, all names, all data",
  "State-dependent; unbounded histories.",
  S+"LookupTable1D.h: LookupTable1D::AddY", S+"LookupTable2D.h: LookupTable2d::AddData")
p("A failed AddY does not corrupt the 1D table",
  "If AddY throws, the table behaves afterwards as if the call had not been made: the name is not registered and later series evaluate correctly.",
  "all histories mixing failing and successful AddY calls",
  "Needs a failing call followed by successful ones; the exception path is never tested.",
  S+"LookupTable1D.h: LookupTable1D::AddY")
p("LookupTable2d behaves as a map from series names to interpolants",
  "After any history of SetX, SetY, SetInterpolationMethod and successful AddData calls, Eval(name, x, y) for a registered name returns what a fresh 2D interpolator built from the coordinates current at AddData and the data given then returns; an unknown name throws out_of_range; HasSerie tells exactly the registered names; GetNbSample is |X|*|Y|.",
  "all histories, names, data, points",
  "Unbounded histories.",
  S+"LookupTable2D.h: LookupTable2d::SetX, SetY, AddData, Eval, HasSerie, GetNbSeries, GetNbSample")
p("A failed AddData does not corrupt the 2D table",
  "If AddData throws (unsupported interpolation method, or data shorter than the grid), the table behaves afterwards as if the call had not been made.",
  "all histories mixing failing and successful AddData calls",
  "Exception paths in histories are not covered by tests.",
  S+"LookupTable2D.h: LookupTable2d::AddData", S+"Interp2d.h: Interp2d::MakeInterp2d")
# ---- RegularGridInterpolator
p("Multilinear grid interpolation reproduces the data at every node",
  "A valid RegularGridInterpolator of any dimension returns at every grid node the datum stored for that node.",
  "all dimensions, all strictly increasing axes, all data, all nodes (including nodes on the upper boundary)",
  "Upper-boundary nodes go through a different branch than inner nodes; dimensions unbounded.",
  S+"RegularGridInterpolator.h: RegularGridInterpolator::Interp", S+"thirdparty/linterp.h: InterpMultilinear::interp, NDInterpolator::find_cell, get_f_val, linterp_nd_unitcube")
p("Multilinear grid interpolation is clamped outside the grid",
  "Without bound checking, Interp at any point equals Interp at the point whose every coordinate is clamped to [first, last] of its axis.",
  "all dimensions, grids, data, all real points",
  "All combinations of inside/outside coordinates in all dimensions.",
  S+"RegularGridInterpolator.h: RegularGridInterpolator::Interp", S+"thirdparty/linterp.h: InterpMultilinear::interp")
p("Multilinear grid interpolation is the tensor-product interpolant, within the data bounds",
  "For a point of the grid's box, Interp is the iterated (tensor product) linear interpolation of the 2^dim vertices of a bracketing cell; hence it lies between the minimum and maximum datum and reproduces data sampled from any function that is affine in each coordinate separately.",
  "all dimensions, grids, data, points",
  "Universal over a continuum of points and all dimensions; bit-order mistakes hide on symmetric data.",
  S+"thirdparty/linterp.h: InterpMultilinear::interp, linterp_nd_unitcube, get_f_val")
p("Bound checking decides exactly membership of the grid's box",
  "With bound_check = true Interp throws if and only if some coordinate is outside [first, last] of its axis, and otherwise returns the same value as without the check.",
  "all dimensions, grids, points",
  "Boundary points of every axis in every dimension.",
  S+"RegularGridInterpolator.h: RegularGridInterpolator::Interp")
p("RegularGridInterpolator life cycle",
  "AddCoord accepts an axis if and only if fewer than dim axes are present and it is strictly increasing, and a rejected axis leaves the object unchanged; IsValid is true exactly when an AddVar has succeeded; AddVar on an incomplete grid never builds an interpolator.",
  "all histories of AddCoord/AddVar calls, all axes, all arrays",
  "Unbounded histories.",
  S+"RegularGridInterpolator.h: RegularGridInterpolator::AddCoord, AddVar, IsValid")
p("Grid interpolation reads the array with the shape of the grid, or refuses it",
  "If AddVar accepts an array, then its shape is the grid's shape axis by axis and Interp at node (i1..id) returns the array element (i1..id).",
  "all grids, all array shapes",
  "Transposed shapes have the right number of elements, so only particular shapes expose it.",
  S+"RegularGridInterpolator.h: RegularGridInterpolator::AddVar, _BuildInterpolator, EvalAtIndice", S+"thirdparty/linterp.h: NDInterpolator::init, set_f_array")
p("A failed AddVar leaves the interpolator unchanged",
  "If AddVar throws (wrong number of elements), a previously valid interpolator keeps answering with the previous variable.",
  "all histories mixing failing and successful AddVar calls",
  "Exception path followed by evaluations; involves a pointer into replaced storage.",
  S+"RegularGridInterpolator.h: RegularGridInterpolator::AddVar, _BuildInterpolator")
p("Simplex interpolation is a convex combination, exact on affine data",
  "The simplex interpolator (InterpSimplex) returns, inside the box, a convex combination of vertices of the bracketing cell, whose weighted position is the query point: data sampled from an affine function are reproduced, node values are exact, and values stay between min and max of the data.",
  "all dimensions, grids, data, points, all orders of the fractional parts including ties",
  "The sort order has dim! cases; ties and all dimensions.",
  S+"thirdparty/linterp.h: InterpSimplex::interp")
# ---- RegularGridNearest
p("Nearest-node search returns a nearest node",
  "Nearest returns on each axis an index whose coordinate minimises the distance to the query coordinate (the upper one on ties), the coordinates at these indices and the array element at these indices.",
  "all dimensions, all sorted axes, all query points including outside the grid and exact midpoints",
  "Minimality quantifies over all nodes; midpoints and boundaries are measure-zero.",
  S+"RegularGridNearest.h: RegularGridNearest::Nearest")
p("Surrounding nodes inside the grid bracket the point",
  "For a point inside the grid's box (each coordinate in [first, last)), GetSurroundingGridNodes returns 2^dim nodes; on each axis the returned indices are those of the bracketing interval and all combinations occur exactly once.",
  "all dimensions, grids, points",
  "All dimensions and all 2^dim vertices.",
  S+"RegularGridNearest.h: RegularGridNearest::GetSurroundingGridNodes")
p("Surrounding nodes outside the grid are the nearest boundary nodes",
  "For a coordinate below (above) its axis, every returned node has on that axis the first (last) index.",
  "all grids, all points outside",
  "Unsigned wrap-around path only reached by out-of-range points.",
  S+"RegularGridNearest.h: RegularGridNearest::GetSurroundingGridNodes")
# ---- Polynomial
p("Horner evaluates the polynomial",
  "Horner(coeffs, x) equals the sum of coeffs[i]*x^i for every non-empty coefficient vector and every x, real or complex; an empty vector is refused with out_of_range.",
  "all degrees, all coefficients, all x",
  "All degrees.",
  S+"Polynomial.h: Horner")
p("Horner_derivative evaluates the derivative",
  "Horner_derivative(coeffs, x) is the derivative at x of t -> Horner(coeffs, t), for every non-empty coefficient vector.",
  "all degrees, all coefficients, all x",
  "Derivative is a limit; all degrees.",
  S+"Polynomial.h: Horner_derivative")
# ---- PowerSeries
p("Power series evaluate the polynomial in the mapped variables",
  "PowerSeries1d/2d/3d Evaluate returns sum b_ijk u(x)^i v(y)^j w(z)^k where u, v, w are the documented maps of the class (affine on a closed segment, 1 - 2 min/x on a half-open one).",
  "all orders, all coefficients, all points, all variants (closed, opened, mixed)",
  "All orders and shapes of coefficient arrays; index transpositions hide on symmetric data.",
  S+"PowerSeries1d.h: PowerSeries1dBase::Evaluate", S+"PowerSeries2d.h: PowerSeries2dBase::Evaluate", S+"PowerSeries3d.h: PowerSeries3dBase::Evaluate")
p("Power series derivatives are the derivatives of Evaluate",
  "Evaluate_derivative_x/_y/_z of PowerSeries1d/2d/3d is the partial derivative of Evaluate with respect to the user's variable, at every point of the domain, for every variant.",
  "all orders, coefficients, points, variants",
  "A derivative is a limit; chain-rule factors differ per variant.",
  S+"PowerSeries1d.h: Evaluate_derivative_x", S+"PowerSeries2d.h: Evaluate_derivative_x, Evaluate_derivative_y", S+"PowerSeries3d.h: Evaluate_derivative_x, Evaluate_derivative_y, Evaluate_derivative_z")
p("Fixed-z evaluation of 3D power series agrees with the direct one",
  "For cij = Compute_cij(z), Evaluate_z_predefined(x, y, cij) = Evaluate(x, y, z), and the _z_predefined derivatives and combined evaluations equal the direct ones.",
  "all orders, coefficients, points, variants",
  "Equality of two algorithms for every input; only wrong for some variants.",
  S+"PowerSeries3d.h: Compute_cij, Evaluate_z_predefined, Evaluate_derivative_x_z_predefined, Evaluate_derivative_y_z_predefined, Evaluate_f_dfdx_dfdy, Evaluate_f_dfdx_dfdy_z_predefined")
# ---- Chebyshev
p("Chebyshev series interpolate the function at the Chebyshev nodes (1D)",
  "After Compute_ai on a fresh 1D Chebyshev series of any order, Evaluate at each sampling node equals the function's value there.",
  "all orders, all functions, all nodes, closed and opened variants",
  "Discrete orthogonality for every order.",
  S+"ChebyshevSeries1d.h: ChebyshevSeries1dBase::Compute_ai, Evaluate")
p("Chebyshev series reproduce polynomials up to their order",
  "If the approximated function is a polynomial of degree <= order in the mapped variable, then after Compute_ai Evaluate equals the function at every point of the domain, not only at nodes.",
  "all orders, all polynomials up to that degree, all points",
  "Continuum of points and all orders.",
  S+"ChebyshevSeries1d.h: ChebyshevSeries1dBase::Compute_ai, Evaluate")
p("Evaluate computes the Chebyshev sum",
  "Evaluate(x) equals sum a_i T_i(u(x)) (Clenshaw recurrence with the first coefficient doubled is the plain sum), for every order, including order 0, for 1D, 2D and 3D series.",
  "all orders, all coefficients, all points",
  "Recurrence correctness for all lengths.",
  S+"ChebyshevSeries1d.h: Evaluate", S+"ChebyshevSeries2d.h: Evaluate", S+"ChebyshevSeries3d.h: Evaluate")
p("Chebyshev series derivatives are the derivatives of Evaluate",
  "Evaluate_derivative_x/_y/_z is the partial derivative of Evaluate with respect to the user's variable for each variant.",
  "all orders, coefficients, points of the domain, variants",
  "Limits and chain rule, all orders.",
  S+"ChebyshevSeries1d.h: Evaluate_derivative_x", S+"ChebyshevSeries2d.h: Evaluate_derivative_x, Evaluate_derivative_y", S+"ChebyshevSeries3d.h: Evaluate_derivative_x, Evaluate_derivative_y, Evaluate_derivative_z")
p("Conversion to a power series preserves the function",
  "The power-series coefficients produced from a Chebyshev series give, through PowerSeries Evaluate, the same value as the Chebyshev series at every point; the transformation coefficients are the monomial coefficients of the Chebyshev polynomials.",
  "all orders the code accepts (<= 18) and, for the formula itself, every order; all coefficients, all points",
  "Identity of polynomials for every order.",
  S+"ChebyshevSeries1d.h: Compute_bi, TransformationCoefficient", S+"ChebyshevSeries2d.h: Compute_bij", S+"ChebyshevSeries3d.h: Compute_bijk")
p("Coordinate maps are mutually inverse and hit [-1, 1]",
  "UnitToSegment and SegmentToUnit of each variant are inverse of each other on the domain, the sampling nodes lie inside the domain, and the derivative coefficient is the derivative of SegmentToUnit.",
  "all valid domains, all points",
  "Continuum of points; all domains.",
  S+"ChebyshevSeries1d.h: AffineTransformationUnitToSegment, AffineTransformationSegmentToUnit, CoefficientDerivative")
p("Computing Chebyshev coefficients again gives the same series",
  "Calling Compute_ai (Compute_aij, Compute_aijk) a second time leaves the approximation unchanged.",
  "all series, all functions, any number of calls",
  "Histories of calls; tests call once.",
  S+"ChebyshevSeries1d.h: Compute_ai", S+"ChebyshevSeries2d.h: Compute_aij", S+"ChebyshevSeries3d.h: Compute_aijk")
p("2D and 3D Chebyshev series interpolate the function at all tensor nodes",
  "After one computation of the coefficients, Evaluate at each tensor-product node equals the function's value, for orders possibly different on each axis.",
  "all orders per axis, all functions, all nodes, all variants",
  "All orders; axis mix-ups hide with equal orders.",
  S+"ChebyshevSeries2d.h: Compute_aij, Evaluate", S+"ChebyshevSeries3d.h: Compute_aijk, Evaluate")
# ---- Integration 1D
p("Trapezoidal rule is exact on affine data and linear, monotone in the data",
  "Trapz(y, dx) and Trapz(x, y) return the integral of the piecewise-linear interpolant of the data: exact for affine data, linear in y, monotone in y when the abscissae increase.",
  "all sizes >= 2, all data, all steps",
  "All sizes.",
  S+"Integration1d.h: Trapz")
p("Uniform and non-uniform trapezoidal rules agree",
  "On a uniform grid of step dx, Trapz(x, y) = Trapz(y, dx); splitting the data at any interior node, the integrals of the two parts add up to the whole.",
  "all sizes, all data, all split positions",
  "All sizes and split positions.",
  S+"Integration1d.h: Trapz")
p("Integrate1d returns the integral of its current settings",
  "At any time Get() returns the trapezoidal integral for the current bounds, number of points and integration method.",
  "all histories of setters and Get calls",
  "Caching makes it history dependent.",
  S+"Integration1d.h: Integrate1d::SetXmin, SetXmax, SetIntegrationMethod, Get, Compute")
p("Integrate1d on a function equals the trapezoidal sum of its samples",
  "For NbPoints >= 2 integrating a function over [a, b] gives the trapezoidal rule on NbPoints equally spaced samples including both ends; hence exact for affine functions. Integrating a vector of NbPoints values gives the same as Trapz on it.",
  "all functions, bounds, numbers of points >= 2",
  "All numbers of points.",
  S+"Integration1d.h: Integrate1d::ComputeTrapz")
# ---- triangle
p("Triangle quadrature integrates polynomials up to its order",
  "For order k in 1..8, Compute over any triangle of a polynomial integrand of degree <= k in the barycentric coordinates equals its integral over the triangle, up to the rounding of the tabulated decimals (a relative 3e-14 on the sum of the coefficients' magnitudes).",
  "all polynomials of degree <= k, all triangles in space, all 8 orders",
  "All polynomials and all triangles; a wrong digit in one weight is invisible on sampled integrands.",
  S+"Integration2dTriangle.h: Integration2dTriangle::Integration2dTriangle, Compute, ComputeOverStandardTriangle", S+"QuadratureTables.h: QuadratureTables")
p("Triangle quadrature accepts exactly the tabulated orders",
  "Construction succeeds exactly for orders 1 to 8 and then every table access is in bounds and the three tables have equal lengths; otherwise the process exits.",
  "all int orders",
  "All ints.",
  S+"Integration2dTriangle.h: Integration2dTriangle::Integration2dTriangle", S+"QuadratureTables.h: alpha, beta, weight")
p("Triangle quadrature is invariant under renaming the vertices",
  "Compute(v1, v2, v3) does not change when the vertices are permuted, up to the rounding of the tabulated decimals, and is linear in the integrand.",
  "all integrands, all triangles, all permutations, all orders",
  "All integrands.",
  S+"Integration2dTriangle.h: Compute")
# ---- angles
p("Angle normalisation gives the representative of the angle in the documented interval",
  "Normalize_0_360 (Normalize_0_2PI) returns the unique value in [0, 360[ ([0, 2pi[) that differs from the input by a whole number of turns; Normalize__180_180 (Normalize__PI_PI) the unique such value in ]-180, 180] (]-pi, pi]); both are idempotent.",
  "all real angles",
  "All reals, including exact multiples of half turns.",
  S+"Angles.h: Normalize_0_360, Normalize__180_180, Normalize_0_2PI, Normalize__PI_PI")
p("modulo360 and modulo2pi return a value in the documented half-open interval",
  "modulo360(a) is in [0, 360[ and modulo2pi(a) in [0, 2pi[, congruent to a.",
  "all real angles, negative ones included",
  "All reals.",
  S+"Angles.h: modulo360, modulo2pi")
# ---- vector generation
p("linspace gives equally spaced points hitting both ends",
  "linspace(start, stop, num) with num >= 2 and start <= stop returns num values, the i-th being start + i*(stop-start)/(num-1); non-decreasing, first = start, last = stop.",
  "all num >= 2, all bounds",
  "All sizes.",
  S+"VectorGeneration.h: linspace")
p("arange gives values start, start+step, ...",
  "arange(start, stop, step) returns start + i*step for i = 0, 1, ... while below stop.",
  "all start, stop, step > 0",
  "All arguments; tests use start = 0.",
  S+"VectorGeneration.h: arange")
p("logspace is geometric and hits both ends",
  "logspace(start, stop, num, base) returns num values from base^start to base^stop with constant ratio.",
  "all num >= 2, all exponents, positive base",
  "All sizes.",
  S+"VectorGeneration.h: logspace")
# ---- functions
p("Step functions: Heaviside, Door, Ramp, Dirac",
  "Heaviside is 0 below, 1 above and 1/2 at the step; Door(xmin, xmax) is its height strictly inside, half at the ends, 0 outside; Ramp is yl up to xmin, the straight line to yr at xmax, yr beyond; all element-wise with the length of the input.",
  "all vectors, all parameters",
  "Boundary points of every vector.",
  S+"Functions.h: Heaviside, Door, Ramp, Dirac")
p("Saturation and sign",
  "Saturate(v, min, max) with min <= max is the nearest point of [min, max] to v (so in the interval and equal to v inside), idempotent; sgn(v) is the sign; SgnSqrt is odd, increasing and its signed square is v.",
  "all values, all bounds",
  "All reals.",
  S+"Maths.h: Saturate, sgn, SgnSqrt")
p("Tolerance comparison",
  "IsClose(a, b) holds iff |a-b| <= atol + rtol*|b|; it is reflexive; the vector version holds iff it holds element-wise; it is symmetric only up to the documented asymmetry.",
  "all values, tolerances >= 0, vectors of fewer than 2^32 elements (C221 for longer ones)",
  "All vectors and lengths.",
  S+"Check.h: IsClose")
p("Element-wise vector algebra",
  "Add, Minus, Mult, Divide, Scale, Negate, AddScalar, Pow act element-wise preserving the length; Minus undoes Add; Sum is the sum of the entries; operands of different lengths are refused.",
  "all vectors of fewer than 2^32 elements (C221 for longer ones)",
  "All lengths.",
  S+"StdVector.h: Add, AddScalar, Sum, Minus, Mult, Divide, Scale, Pow, Negate")
# ---- geometry
p("Euler angles and unit quaternions give proper rotation matrices",
  "The matrix built from any Euler angles, and from any unit quaternion, is orthogonal with determinant 1; the quaternion built from any Euler angles is a unit quaternion.",
  "all angles, all unit quaternions",
  "All reals.",
  S+"Geometry.h")
p("Euler, quaternion and matrix conversions agree",
  "Converting Euler angles to a quaternion and then to a matrix gives the same matrix as the direct conversion; a quaternion and its opposite give the same matrix; composing matrix(quaternion) with Euler extraction agrees with direct Euler extraction from the quaternion.",
  "all angles, all unit quaternions",
  "All reals.",
  S+"Geometry.h")
p("Euler angle round trips",
  "For roll and yaw in ]-pi, pi] and pitch in ]-pi/2, pi/2[, extracting Euler angles from the matrix or the quaternion built from them returns the same angles.",
  "all angles in these ranges",
  "All reals; quadrant errors show in part of the range only.",
  S+"Geometry.h")
# ---- Vector2d
p("NED/local projections are inverse rotations",
  "ProjectLocalOnNED and ProjectNEDOnLocal with the same angle are inverse of each other, preserve the norm, and agree component-wise with ProjectOnNorthAxis/EastAxis/LocalXAxis/LocalYAxis and with the copy and free-function versions; successive projections add their angles.",
  "all vectors, all angles, both units",
  "All reals; in-place update order matters.",
  S+"Vector2d.h: ProjectLocalOnNED, ProjectNEDOnLocal, ProjectOnNorthAxis, ProjectOnEastAxis, ProjectOnLocalXAxis, ProjectOnLocalYAxis")
p("infNorm is the maximum absolute component",
  "infNorm() returns the largest absolute value of the components, for every vector class; in particular it is non-negative and zero only for the null vector.",
  "all vectors",
  "Sign cases.",
  S+"Vector2d.h: infNorm", S+"Vector3d.h: infNorm", S+"VectorN.h: infNorm")
# ---- Matrix
p("IsSymmetric tells symmetric matrices; Cholesky refuses the others",
  "IsSymmetric() returns false on a non-symmetric matrix, and GetCholeskyDecomposition throws on it.",
  "all matrices",
  "All matrices.",
  S+"Matrix.h: IsSymmetric, GetCholeskyDecomposition", S+"Matrix33.h: IsSymmetric")
p("Pseudo-inverse satisfies the Moore-Penrose conditions",
  "GetPseudoInverse(tol) of a matrix whose non-zero singular values exceed tol satisfies the four Moore-Penrose conditions; in general it is the pseudo-inverse of the matrix with the singular values <= tol set to zero.",
  "all matrix shapes, all matrices, all tol >= 0",
  "All shapes and spectra.",
  S+"Matrix.h: GetPseudoInverse, GetSVDDecomposition")
p("Constrained least squares satisfies the constraint and is optimal",
  "LeastSquareSolverConstraint(b, C, d) returns x with C x = d and |A x - b| minimal among all x satisfying the constraint, whenever C has full row rank.",
  "all sizes p < n < m, all A, b, C of full row rank, d",
  "Optimality quantifies over all feasible points.",
  S+"Matrix.h: LeastSquareSolverConstraint, GetFullQRDecomposition")
# ---- Unit
p("Unit conversions are consistent",
  "convert_velocity_unit and convert_frequency convert a unit to itself as the identity, compose (A to B to C equals A to C) and round-trip, for all units (periods in seconds for non-zero values). deg2rad, rad2deg and kt2ms convert every element of a vector; the forms of deg2rad and kt2ms with two vectors write the converted first one to the second and change no other vector, even when both are the same.",
  "all values, all pairs and triples of units",
  "All values; 6^3 unit triples.",
  S+"Unit.h: convert_velocity_unit, convert_frequency")
p("FFT frequency vector",
  "GetFrequencyVector(nfft, fs, unit) has nfft entries (nfft/2+1 with half spectrum), the i-th being i*fs/nfft expressed in the unit; for the period unit the zero frequency has no finite value, and none is returned. fft returns one frequency per bin.",
  "all nfft >= 1, all fs, all frequency units",
  "All sizes and parities.",
  S+"FFT.h: GetFrequencyVector")
p("Convolution weights",
  "NaiveConvolution returns the trapezoidal sum of kernel and (possibly reversed) signal samples; it is bilinear, and refuses a signal shorter than the kernel.",
  "all lengths, kernels, signals, both directions",
  "All lengths.",
  S+"Convolution.h: NaiveConvolution")
p("Ei/expEi consistency",
  "In real arithmetic expEi(x) equals exp(-x) * Ei_approximation(x) for every x >= 24, and for 1e-8 < x < 24, where expEi relies on the exponential integral of boost, the two agree within 7e-16 exp(-x) below 6, a relative 2.51e-11 on [6, 12) and a relative 1.01e-16 on [12, 24). Ei_approximation ends the program for every x <= 1e-8, expEi never does.",
  "all x > 0",
  "All reals; branch boundaries.",
  S+"BoostFunctions.h: expEi, Ei_approximation")
p("Moving a 1D lookup table transfers its whole behaviour",
  "A LookupTable1D obtained by move construction or move assignment from another one behaves afterwards, for evaluations and for further AddY calls, as the source did before the move.",
  "all histories before the move, all histories after it",
  "All pairs of histories; uninitialised members go unnoticed in a test that only evaluates.",
  S+"LookupTable1D.h: LookupTable1D(LookupTable1D&&), operator=(LookupTable1D&&)")
p("Copying a grid interpolator",
  "A RegularGridInterpolator obtained by copy construction or assignment answers every Interp and EvalAtIndice query as the source does, whatever state the source is in.",
  "all histories of the source, all target states, all points",
  "All states of the source, including one without axes or without data.",
  S+"RegularGridInterpolator.h: RegularGridInterpolator(const RegularGridInterpolator&), operator=")
p("Infinite-depth evaluation is the limit",
  "On the 3D power series whose third variable ranges over a half line, Evaluate_zinf(x, y) is the limit of Evaluate(x, y, z) when z tends to infinity, and the coefficients of Compute_cij_zinf used with Evaluate_z_predefined give the same number.",
  "all coefficient arrays, all (x, y) of the domain",
  "A limit cannot be observed by a test.",
  S+"PowerSeries3d.h: Evaluate_zinf, Compute_cij_zinf, Evaluate_z_predefined")
p("1D interpolators accept exactly well-formed data", "Initialize accepts non-empty vectors of equal sizes with strictly increasing abscissae; with assertions enabled it stops the program on vectors of different sizes or unsorted abscissae before changing the object; on empty vectors it throws std::out_of_range; whatever the two vectors, in every build, it never reads outside them.", "all vectors, all builds, all objects", "All pairs of vectors, malformed ones included.", S+"Interp1d.h: Interp1d::Initialize, Interp1dLinearBase::Initialize")
p("Reported coordinate ranges are those of the data", "GetXmin(name)/GetXmax(name) of a 1D table are the first and last abscissae set when the series was registered (std::out_of_range on an unknown name); GetCoord(i), GetCoordMinVal(i), GetCoordMaxVal(i) of a loaded grid interpolator are its i-th axis, and the first and last values of it; indices not below the dimension are refused.", "all histories, all names, all indices", "Histories with several SetX calls; all indices.", S+"LookupTable1D.h: GetXmin, GetXmax", S+"RegularGridInterpolator.h: GetCoord, GetCoordMinVal, GetCoordMaxVal")
p("Normalised angles stay in the documented interval in double arithmetic",
  "Computed in doubles with rounding to nearest, Normalize_0_360 returns a value in [0, 360[ and Normalize__180_180 one in ]-180, 180], equal to the input angle up to rounding and a whole number of turns.",
  "all doubles, all tie rules of rounding to nearest", "All doubles; the failing ones are the tiny negative angles.",
  S+"Angles.h: Normalize_0_360, Normalize__180_180")

p("Quaternions of rotation matrices",
  "RotationMatrixToQuaternion of any rotation matrix is a unit quaternion whose matrix is the given one; the quaternion of the matrix of a unit quaternion is that quaternion or its opposite.",
  "all rotation matrices, all unit quaternions", "All reals; the four branches of the extraction cover different rotations.",
  S+"Geometry.h: RotationMatrixToQuaternion, quaternionToRotationMatrix")
p("Euler angles describe the rotation they were extracted from",
  "eulerAnglesZYXToRotationMatrix(rotationMatrixToEulerAnglesZYX(R)) is R for every rotation matrix R, and the angles are in their principal ranges.",
  "all rotation matrices", "All reals; it fails only at the gimbal lock.",
  S+"Geometry.h: rotationMatrixToEulerAnglesZYX, eulerAnglesZYXToRotationMatrix")
p("Local speeds give the NED velocity",
  "GetNEDVelocityVector(long, lat, angle, ...) is the vector of the two speeds expressed in the output unit, rotated by the heading; SetNEDFromLocal(x, y, angle) sets the vector to the rotation of (x, y) and changes nothing else.",
  "all speeds, angles, units", "All reals and all unit pairs.",
  S+"Vector2d.h: GetNEDVelocityVector, SetNEDFromLocal")
p("Velocity transport",
  "TransportAtPoint(point, w, unit) adds to the velocity the cross product of the rotation speed, in radians per second, with the point; the in-place, output and free versions agree whatever the objects passed, transports to successive points add up and the transport to the opposite point undoes it.",
  "all vectors, points, speeds and units, all aliasings of the references", "All reals; aliasing.",
  S+"Vector2d.h: TransportAtPoint")
p("Sorting and reversing vectors",
  "Sort(true) leaves the components in ascending order, Sort(false) in descending order, as a rearrangement of the original ones; Reverse is an involution.",
  "all vectors", "All lengths and orders.", S+"VectorN.h: Sort, Reverse")
p("Projected angles",
  "GetProjectedAngleAroundX/Y/Z is the polar angle, in ]-pi, pi], of the projection of the vector on the plane orthogonal to the axis, counted from the documented axis; the angle in degrees is the same angle.",
  "all vectors, both units", "All reals; quadrants.", S+"Vector3d.h: GetProjectedAngleAroundX, GetProjectedAngleAroundY, GetProjectedAngleAroundZ")
p("Normalisation and unit test",
  "Normalize makes any non-null vector a unit vector of the same direction, which IsUnit recognises; normalising again changes nothing; IsUnit accepts exactly the norms within its tolerance of one.",
  "all vectors", "All reals.", S+"Vector3d.h: Normalize, IsUnit")

p("Cholesky factor of symmetric matrices",
  "GetCholeskyDecomposition on a symmetric matrix succeeds exactly when the matrix is positive definite and throws std::runtime_error otherwise; on success L is lower triangular with a positive diagonal and L*L^T is the matrix, and it is the only such matrix.",
  "all sizes, all symmetric matrices", "All sizes and matrices; definiteness quantifies over all vectors.", S+"Matrix.h: GetCholeskyDecomposition", S+"Matrix33.h: GetCholeskyDecomposition", S+"Matrix66.h: GetCholeskyDecomposition")
p("QR decompositions",
  "On a matrix with at least as many rows as columns, GetQRDecomposition returns Q with orthonormal columns and square upper triangular R with A = Q*R, GetFullQRDecomposition returns an orthogonal Q and R with A = Q*[R; 0]; a matrix with fewer rows than columns is refused.",
  "all shapes, all matrices, including rank deficient ones", "All shapes.", S+"Matrix.h: GetQRDecomposition, GetFullQRDecomposition")
p("LU decomposition",
  "GetLUDecomposition of a square matrix returns a permutation matrix P, a lower triangular L with ones on the diagonal and an upper triangular U with P*A = L*U; other shapes are refused.",
  "all square matrices, singular ones included", "All sizes.", S+"Matrix.h: GetLUDecomposition")
p("Symmetric matrices from a triangle",
  "MakeSymmetricFromUpper (Lower) returns the symmetric matrix with the same upper (lower) triangle, leaves symmetric matrices unchanged, and refuses matrices that are not square; they agree through the transpose.",
  "all matrices", "All sizes.", S+"Matrix.h: MakeSymmetricFromUpper, MakeSymmetricFromLower")
p("IsPositiveSemiDefinite on symmetric matrices",
  "On a symmetric matrix, IsPositiveSemiDefinite(epsilon) is true exactly when v^T A v > -epsilon |v|^2 for every non-zero v: semi-definite matrices are accepted with every positive epsilon; matrices that are not square are refused.",
  "all symmetric matrices, all epsilon", "The quadratic form quantifies over all vectors.", S+"Matrix.h: IsPositiveSemiDefinite")
p("Linear solvers",
  "LUSolver and QRSolver with an invertible matrix return the only solution of A x = b; LeastSquareSolver minimises |A x - b| and its answer satisfies the normal equations; a right-hand side with another number of rows is refused.",
  "all sizes, matrices and right-hand sides", "Optimality and uniqueness quantify over all vectors.", S+"Matrix.h: LUSolver, QRSolver, LeastSquareSolver")

p("FFT round trip",
  "fft returns the discrete Fourier transform (its first n/2+1 bins with the half spectrum) and ifft(fft(v)) = v for every vector v, n*v when scaling is off; the flags in force are those of the last calls.",
  "all lengths, all vectors, all sequences of flag calls", "All lengths and parities.", S+"FFT.h: fft, ifft, HalfSpectrumON, HalfSpectrumOFF, ScalingON, ScalingOFF")
p("Powers of two",
  "Pow2(p) = 2^p for every p below the width of the type.",
  "all p < 32", "Boundary of the type.", S+"FFT.h: Pow2")

p("Accuracy of Ei_approximation",
  "Ei_approximation(x) returns the exponential integral Ei(x) (Cauchy principal value) to double precision for every x > 1e-8: within 7e-16 below 6, within a relative 1.1e-16 from 6 on, in real arithmetic.",
  "all x > 1e-8", "A continuum of reals; the reference is an integral.", S+"BoostFunctions.h: Ei_approximation")
p("Accuracy of E1_approximation",
  "E1_approximation(x) returns the exponential integral E1(x) with a relative error below 1e-16 for every x > 1e-8, decreases with x, and ends the program for x <= 1e-8.",
  "all x", "A continuum of reals; the reference is an improper integral.", S+"BoostFunctions.h: E1_approximation")
p("Accuracy of expEi",
  "expEi(x) is exp(-x) Ei(x) with a relative error below 1.1e-16 for every x >= 24, without forming Ei(x); below 24 it is exp(-x) times the exponential integral of boost.",
  "all x > 0", "An unbounded range of reals.", S+"BoostFunctions.h: expEi")

p("Struve functions are accurate to about 1e-8 everywhere",
  "Struve_zero_order(x) differs from the Struve function H_0(x) by at most 1.28e-8 and Struve_first_order(x) from H_1(x) by at most 2.6e-8, for every x >= 0 (given an exact Bessel function of the second kind above 3); Struve_zero_order_derivative(x) differs from the derivative of H_0 by at most 2.61e-8; a negative argument ends the program with exit code 0.",
  "every real argument",
  "tests compare with tabulated values at a few points; the error of a fitted polynomial or rational function oscillates between them, and the switch of formula at 3 is one point",
  S+"BoostFunctions.h: Struve_zero_order, Struve_first_order, Struve_zero_order_derivative")
p("Derivatives of the Bessel functions are the derivatives",
  "Each Cyl_..._derivative function (Bessel J, Y, I, K and Hankel H1) returns the derivative, with respect to the argument, of the corresponding function, for every order and every argument where that function is differentiable.",
  "every real order and positive argument; for J and I at whole orders every argument",
  "tests compare a few orders and arguments with finite differences; the order zero and the argument zero are special cases of the formula",
  S+"BoostFunctions.h: Cyl_Bessel_first_kind_derivative, Cyl_Bessel_second_kind_derivative, Cyl_modified_Bessel_first_kind_derivative, Cyl_modified_Bessel_second_kind_derivative, Cyl_Hankel_first_kind_derivative")
p("Parts, amplitude and phase of complex vectors",
  "Real, Imag, Amplitude and Phase return vectors of the same length; element by element the number is Real + i Imag and also Amplitude * exp(i Phase), with a non-negative amplitude and a phase in ]-pi, pi], in the unit asked for.",
  "every vector of complex numbers, of every length, both units",
  "all lengths, and all quadrants and both axes of the complex plane",
  S+"Complex.h: Real, Imag, Amplitude, Phase")
p("Cholesky updates agree with a factorisation from scratch",
  "GetCholeskyUpdate(L, v, sigma) and InPlaceCholeskyUpdate(v, sigma) give the Cholesky factor of A + sigma v v^T, the one GetCholesky computes from that matrix; updating back with -sigma gives the factor of A; a matrix that is not positive definite before or after the update is refused, as GetCholesky refuses it.",
  "every size, symmetric matrix A, column v and real sigma of either sign",
  "all sizes and real matrices; updates and downdates run different algorithms, and failing ones are a boundary of measure zero",
  S+"Matrix.h: MatrixMN::GetCholeskyUpdate, MatrixMN::InPlaceCholeskyUpdate")
p("Matrix inversion",
  "GetInverse returns the two-sided inverse of every invertible square matrix and leaves the matrix unchanged; Inverse stores it in the object, and doing it twice restores the matrix; a singular matrix gives no finite result and a rectangular one is refused (given that Eigen's inverse() is exact on invertible matrices).",
  "every size and every real matrix",
  "a continuum of matrices of every size",
  S+"Matrix.h: MatrixMN::Inverse, MatrixMN::GetInverse", S+"Matrix33.h: Matrix33::Inverse, Matrix33::GetInverse")
p("Eigenvalues",
  "Eigenvalues() of an n x n matrix returns n complex numbers: exactly the numbers z with A v = z v for some non-zero complex v, with multiplicities such that their sum is the trace and their product the determinant, conjugates equally often; a rectangular matrix is refused.",
  "every size and every real square matrix",
  "a continuum of matrices of every size; defective and complex cases",
  S+"Matrix.h: MatrixMN::Eigenvalues")
p("Approximate equality of matrices and vectors",
  "IsEqual(other, epsilon) is true exactly when the norm of the difference is at most epsilon times the smaller of the two norms: it is reflexive, symmetric and unaffected by a common factor, bounds every element of the difference, means exact equality for epsilon = 0, and only zero equals zero. IsIdentity(epsilon) bounds the distance of every element to the identity matrix by epsilon, accepts the identity matrix and is monotone in epsilon.",
  "all matrices and vectors of all sizes, all tolerances",
  "a continuum of matrices; the threshold is relative to both norms",
  S+"Matrix.h: MatrixMN::IsEqual, MatrixMN::IsIdentity", S+"VectorN.h: VectorN::IsEqual", S+"Vector3d.h: Vector3d::IsEqual")
p("Inner, outer and diagonal products of vectors",
  "inner is the symmetric, positive definite scalar product and satisfies the Cauchy-Schwarz inequality; outer(u, v) w = inner(v, w) u, its trace is inner(u, v) and its transpose outer(v, u); GetMatrixSquare is symmetric positive semi-definite; GetDiagonalMatrix(v) multiplies element by element and has v as its diagonal.",
  "all vectors of all lengths",
  "a continuum of vectors of every length",
  S+"Vector3d.h: outer, inner", S+"Vector6d.h: outer, inner", S+"VectorN.h: GetMatrixSquare, GetDiagonalMatrix")
p("Elements, rows, columns and diagonals of matrices",
  "Writing an element through at changes that element only; GetRow, GetColumn, GetDiag and Transpose return the elements of the matrix in order; SetNull and SetIdentity set every element and keep the size; accesses outside the bounds are refused by an assertion.",
  "all matrices of all sizes and all indices",
  "every size and index, including rectangular and empty matrices",
  S+"Matrix.h: MatrixMN::at, MatrixMN::GetRow, MatrixMN::GetColumn, MatrixMN::GetDiag, MatrixMN::SetNull, MatrixMN::SetIdentity, MatrixMN::Transpose")
p("RegularGridNearest life cycle",
  "A RegularGridNearest object takes exactly as many axes as its dimension, then an array, and otherwise ends the program with a failure code; copies and assigned objects answer as the original; GetCoord, GetCoordMinVal and GetCoordMaxVal report the axes added; IsValid tells whether the object can be queried, and GetData returns the data at a point.",
  "every dimension, all axes and arrays, all points",
  "any dimension and any order of calls; a function without a return statement may seem to work in a test",
  S+"RegularGridNearest.h: RegularGridNearest::AddCoord, AddVar, operator=, GetCoord, GetCoordMinVal, GetCoordMaxVal, IsValid, GetData")
p("The spline passes through every point",
  "A Spline built on at least two points given by strictly increasing abscissas, with any degree of at least one, is built without error, can be evaluated at every real number, inside the abscissas and outside, and takes at every abscissa the ordinate given for it; the two constructors build the same object. No points are refused in a build with assertions; a single abscissa, or equal ones, give no finite result; points not given by increasing abscissas are not refused, and the spline may then miss them. Exact arithmetic; Eigen's solver is assumed to solve the square systems with a regular matrix.",
  "every number of points, all abscissas and ordinates, every degree, every point of evaluation, both builds",
  "The matrix of the interpolation has to be regular for every choice of abscissas, number of points and degree: the Schoenberg-Whitney theorem. The only test compares seven values on a thousand equidistant abscissas.",
  S+"Spline.h: Spline, operator(), scaled_value, scaled_values")

p("The spline is smooth, linear in the ordinates and exact on polynomials",
  "A Spline of degree p on strictly increasing abscissas, p being the degree asked for or the number of points less one when that is smaller, is a function with p - 1 continuous derivatives; it is a polynomial of degree at most p on each of (number of points - p) consecutive intervals that cover the abscissas, the first and the last polynomial being continued outside; when the points lie on a polynomial of degree at most p it is this polynomial, everywhere; it depends linearly on the ordinates; and a change of unit and of origin of the abscissas changes nothing else.",
  "all abscissas, ordinates, degrees, points of evaluation, polynomials, linear combinations and changes of variable",
  "Smoothness is a property of the function, not of finitely many values, and exactness on polynomials has to hold between the points.",
  S+"Spline.h: Spline, operator()")

p("Polynomials in double arithmetic",
  "In double arithmetic with rounding to nearest, Horner on a polynomial of degree n returns its value with an error of at most ((1+u)^(2n) - 1) times the sum of the magnitudes of the terms, u = 2^-53; Horner_derivative the derivative with ((1+u)^(2n-1) - 1) times the sum of the magnitudes of its terms. (No overflow or underflow; operations are not fused.)",
  "every degree, all coefficients, every point, every rule for ties",
  "rounding errors depend on every coefficient and on the point",
  S+"Polynomial.h: Horner, Horner_derivative")
p("linspace in double arithmetic",
  "In double arithmetic linspace(start, stop, num) returns num values, the first start and the last stop exactly; they never decrease and none is outside [start, stop]; each is within 5u(|start| + stop - start) of its place. (No overflow or underflow.)",
  "all doubles start <= stop, every num from 2 to 2^32 - 1",
  "the rounding of the last step can pass the end for some combinations only",
  S+"VectorGeneration.h: linspace")
p("Trapezoidal rule in double arithmetic",
  "In double arithmetic both functions Trapz return, for N samples, the exact trapezoidal sum with an error of at most ((1+u)^(N+5) - 1) times the trapezoidal sum of the magnitudes. (No overflow or underflow.)",
  "every number of samples, all samples, abscissas and steps",
  "the accumulated error depends on the number and the order of the samples",
  S+"Integration1d.h: Trapz")
p("Linear interpolation in double arithmetic",
  "In double arithmetic a linear interpolator returns values between the two neighbouring ordinates, in particular the constant on a table of constants and the ordinate at a node, up to a relative error of a few units of rounding.",
  "all tables of doubles with increasing abscissas, all points in their range",
  "tests use well-scaled tables, on which the intercepts are small; the error grows with the ratio of the abscissas to their spacing",
  S+"Interp1d.h: Interp1dLinearBase::Initialize, Eval")
p("The integrand is sampled inside the interval in double arithmetic",
  "In double arithmetic Integrate1d on a function calls it only at points of [xmin, xmax], at the equidistant points up to rounding, and returns the trapezoidal sum of these values up to rounding.",
  "all functions, all doubles xmin <= xmax, every number of points",
  "whether the accumulated abscissa passes xmax depends on the roundings of all steps",
  S+"Integration1d.h: Integrate1d::Get, Integrate1d::ComputeTrapz")

p("Accuracy of linear interpolation",
  "A linear interpolator built on samples f(x_i) returns, at every point between two neighbouring nodes a distance h apart, f(x) up to M h^2 / 8 when the second derivative of f is at most M in magnitude there; this constant cannot be improved. When f only satisfies a Lipschitz condition with constant L the error is at most L h / 2.",
  "every function of the class, every increasing table of nodes, every point in the range, every method",
  "the error depends on the function and on the point inside the cell",
  S+"Interp1d.h: Interp1dLinearBase::Initialize, Eval")
p("Accuracy of trapezoidal integration",
  "Trapz on samples of f returns the integral of f up to the sum of M h_i^3 / 12 over the panels, M a bound of the second derivative; with equal steps, and for Integrate1d with N points on [a, b], up to M (b - a)^3 / (12 (N - 1)^2).",
  "every twice differentiable function, every increasing table, every number of points",
  "the error depends on the function, tests integrate a few of them",
  S+"Integration1d.h: Trapz, Integrate1d::Get")
p("Accuracy of interpolation in several variables",
  "Interp2d and RegularGridInterpolator built on samples of f return, at every point of the grid's box, f up to the sum over the axes of M_k h_k^2 / 8, where h_k is the width of the point's cell along axis k and M_k a bound of the second derivative of f along this axis.",
  "every dimension, every function of the class, all increasing axes, every point in the box",
  "the error depends on the function and on the point, and the number of vertices grows with the dimension",
  S+"Interp2d.h: Interp2dLinear, Eval", S+"RegularGridInterpolator.h: Interp", S+"thirdparty/linterp.h: InterpMultilinear")
p("Accuracy of Chebyshev series",
  "The Chebyshev series of order n of F approximates F on its domain up to M / (2^n (n+1)!), M a bound of the derivative of order n+1 of F in the variable reduced to [-1, 1]; on a segment [a, b] up to M ((b-a)/2)^(n+1) / (2^n (n+1)!) in terms of the derivative of F itself. In two and three variables the errors of the variables add up, multiplied by at most 2n+1 for each outer variable.",
  "every order, every function of the class, every domain, every point of the domain",
  "the error depends on the function and the point, for every order",
  S+"ChebyshevSeries1d.h", S+"ChebyshevSeries2d.h", S+"ChebyshevSeries3d.h")
p("Out of range in double arithmetic",
  "In double arithmetic, whatever the rounding, outside the range of its table the interpolator LINEAR ends the program, and LINEAR_SATURATE returns exactly what it returns at the nearest end of the table; it fails for no point.",
  "every increasing table of doubles, all doubles outside (or anywhere, for the last claim)",
  "tests probe a few points outside the range",
  S+"Interp1d.h: Interp1dLinear::PrivEval, Interp1dLinearSaturate::PrivEval")

p("Coordinates that are not finite: one and two variables",
  "Asked at NaN, Interp1d returns NaN for every method, and Interp2d fails its assertions, or without assertions returns no number. At an infinite coordinate LINEAR ends the program, LINEAR_SATURATE returns the ordinate at that end, LINEAR_EXTRAPOLATE and Interp2d return no number.",
  "every table and grid of finite numbers, every combination of finite, infinite and NaN coordinates, both build modes",
  "comparisons with NaN are all false, so that each search and each test takes a branch nobody wrote for it",
  S+"Interp1d.h: Eval, PrivEval", S+"Interp2d.h: Interp2dLinear::Eval")
p("Coordinates that are not finite: regular grids",
  "At a point with a NaN coordinate RegularGridInterpolator and RegularGridNearest return no number and read no memory they do not own; the bound check rejects NaN and infinite coordinates; without the check an infinite coordinate is clamped to the end of its axis.",
  "every dimension, every loaded grid, every combination of finite, infinite and NaN coordinates",
  "comparisons with NaN are all false: the bound check and the search depend on which way each test is written",
  S+"RegularGridInterpolator.h: Interp", S+"RegularGridNearest.h: Nearest, GetSurroundingGridNodes", S+"thirdparty/linterp.h: find_cell")

p("The caller's vectors after Initialize",
  "Once initialised, an interpolator answers for the data it was initialised with, whatever the caller does later with the vectors they passed.",
  "every increasing table or grid, every later content of the caller's vectors, every point",
  "tests do not change their vectors after Initialize; the pointers are shared, and each call searches the abscissas again",
  S+"Interp1d.h: Initialize, Eval", S+"Interp2d.h: Initialize, Eval")

p("Interpolants vary no faster than their data",
  "When the data of neighbouring nodes differ by at most L_k times their distance along axis k, the values of Interp1d, Interp2d and RegularGridInterpolator at two points differ by at most the sum over the axes of L_k times the difference of the coordinates (for LINEAR_SATURATE and the regular grid also outside the range). Data that change by at most eps change every value by at most eps.",
  "every dimension, all increasing axes, all data, every pair of points",
  "the bound relates two arbitrary points in arbitrary cells",
  S+"Interp1d.h: Eval", S+"Interp2d.h: Eval", S+"RegularGridInterpolator.h: Interp", S+"thirdparty/linterp.h: InterpMultilinear")
p("The spectrum of a real signal",
  "The spectrum computed by FFT is linear in the samples, the full spectrum of real samples is conjugate symmetric and satisfies Parseval's identity, and a sinusoid at one of the frequencies of GetFrequencyVector strictly between 0 and half the sampling frequency gives (n/2) times its complex amplitude in the bin listed at this frequency and 0 in the other bins up to half the sampling frequency.",
  "every length, every real signal, every amplitude, phase and sampling frequency",
  "tests transform one or two signals of one length",
  S+"FFT.h: fft, GetFrequencyVector")
p("Regular grids in double arithmetic",
  "In double arithmetic, whatever the rule for ties, RegularGridInterpolator returns exactly the datum at a node, exactly the constant on constant data and, without bound check, exactly the value at the nearest point of the box for a point outside; elsewhere it returns the exact interpolant up to M ((1+16u)^dim - 1), where M bounds the data and u = 2^-53; the same points are rejected by the bound check.",
  "every dimension, all loaded grids, all points",
  "the rounding errors depend on all the digits of axes, data and point",
  S+"RegularGridInterpolator.h: Interp", S+"thirdparty/linterp.h: InterpMultilinear::interp_vec, linterp_nd_unitcube")

p("The classes for the same job agree with one another",
  "A RegularGridInterpolator of one axis returns what Interp1d returns on the same table (LINEAR_SATURATE at every point, LINEAR in the range), one of two axes what Interp2d returns in the box; Interp2d on a grid line is Interp1d on the data of this line; Trapz of a table is the integral of the interpolant that Interp1d builds from it; inserting into a table a point of its interpolant changes neither the interpolant nor Trapz.",
  "all tables and grids, all points, both kinds of build",
  "the classes are written independently of one another and no test compares them",
  S+"Interp1d.h: Eval", S+"Interp2d.h: Eval", S+"RegularGridInterpolator.h: Interp", S+"Integration1d.h: Trapz")

p("Convexity is kept",
  "If the samples given to Interp1d come from a convex (concave) sequence of slopes, the interpolant is convex (concave) on the range; the interpolant of samples of a convex function lies above the function, and Trapz of these samples is not less than the integral of the function.",
  "all tables with strictly increasing abscissae, all points of the range, all convex functions, both kinds of build",
  "convexity is an inequality between all triples of points",
  S+"Interp1d.h: Eval", S+"Integration1d.h: Trapz")

p("Integrate1d with a function that throws or has a state",
  "The value returned by Get is the trapezoidal rule of the values the user's function returned in its last calls, one at each of the n points for the present bounds; a Get that fails does so because a call at one of these points failed, and the next Get starts again from the first point; if the function sometimes throws but otherwise returns f(x), every value ever returned by Get is the rule of f; a Get on an object already computed calls nothing.",
  "all functions that may throw and depend on the calls made before, all sequences of calls on the object, all bounds and numbers of points",
  "it concerns every history and every point at which the user's function can throw",
  S+"Integration1d.h: Get, ComputeTrapz")

p("A Chebyshev series whose function threw can be computed again",
  "If the user's function throws during Compute_ai, a later Compute_ai that succeeds gives the coefficients of the function.",
  "all functions that may throw, all orders and intervals, all histories of failed calls",
  "it concerns every point at which the user's function can throw",
  S+"ChebyshevSeries1d.h: ChebyshevSeries1dBase::Compute_ai")

p("One object used by several threads",
  "Any number of threads may evaluate one Interp1d at the same time, or call Get, GetXmin and GetXmax on one Integrate1d on which a Get has returned: in every schedule there is no data race, the object is not changed and each thread gets the value of a sequential call. Before the first Get, two threads that call Get can race.",
  "any number of threads, all schedules of their accesses to the fields, all objects and arguments",
  "the schedules cannot be enumerated, and a race need not show in a test",
  S+"Interp1d.h: Eval", S+"Integration1d.h: Get, GetXmin, GetXmax")

p("Accuracy of the unit conversions in double arithmetic",
  "With every operation and constant rounded to double, convert_velocity_unit has a relative error of at most 7u, convert_frequency at most 19u with respect to the true value of pi and none when both units are the same, deg2rad and rad2deg at most 5u (u = 2^-53); converting there and back changes a speed by at most 13u, a frequency by at most 37u and an angle by at most 9u; velocity conversion keeps the order of two speeds, and frequency conversion the order of two frequencies for units that are not periods.",
  "all pairs of units, all real inputs (zero excepted when a unit is a period), all roundings to nearest; no overflow or underflow",
  "the error depends on every input and pair of units",
  S+"Unit.h: convert_velocity_unit, convert_frequency, deg2rad, rad2deg", S+"Constants.h: MU_PI, MU_KNOT, MU_KMH")

p("Refinement converges for every continuous function",
  "For every continuous function and every eps > 0, every fine enough table of its values is interpolated within eps of the function on the whole range by Interp1d, Interp2d and RegularGridInterpolator (any dimension), Trapz of every fine enough sampling is within eps of its integral, and Integrate1d::Get is within eps of its integral from some number of points on, after any history of calls.",
  "all continuous functions on an interval or box, all eps, all non-uniform tables with strictly increasing nodes, all histories of bounds setters and Get, any dimension",
  "it is a limit over all tables and all continuous functions, with no bound on derivatives",
  S+"Interp1d.h: Eval", S+"Interp2d.h: Eval", S+"RegularGridInterpolator.h: Interp", S+"Integration1d.h: Trapz, Get")

p("Integration over a period is exact for trigonometric polynomials",
  "Integrate1d with n points returns exactly the integral over one period, beginning anywhere, of every trigonometric polynomial of order less than n - 1; for the harmonic of order n - 1 over the period from 0 it returns the length of the period instead of zero.",
  "all periods, coefficients, orders m < n - 1 and numbers of points, all histories of bounds setters and Get",
  "it must hold for all coefficients, orders and periods",
  S+"Integration1d.h: Get, ComputeTrapz")

p("Accuracy of the nearest-node lookup",
  "On data sampled from a function that varies along each axis at the rate L of this axis at most, the value RegularGridNearest returns at any point of the box differs from the function by at most the sum over the axes of L h / 2, where h bounds the steps of the axis; for every continuous function and every eps, every fine enough grid on the box gives the function within eps on the whole box.",
  "all dimensions, grids, points of the box, Lipschitz or continuous functions",
  "it must hold for all points and all functions, and is a limit over all grids",
  S+"RegularGridNearest.h: Nearest")

p("Nearest-node lookup in double arithmetic",
  "With every operation rounded to double, RegularGridNearest returns on each axis a node, with its own coordinates and datum, whose distance from the point exceeds that of the nearest node by at most 2 B / 2^53, B a bound of the coordinates of the nodes; at every point not within a rounding error of a midpoint it returns the same node as exact arithmetic; at a node it returns this node.",
  "all dimensions, grids, points, roundings to nearest; no overflow or underflow",
  "the rounding of the midpoint depends on every pair of nodes",
  S+"RegularGridNearest.h: Nearest")

p("Accuracy of the triangle rule for arbitrary integrands",
  "The result of Integration2dTriangle depends on the integrand only through its values in the triangle; it is monotone in the integrand, hence non-negative for a non-negative integrand; if the integrand is within e of a polynomial of the order of the rule on the triangle, the error is at most the area times 7 e / 2 plus the rounding of the tables; for an integrand of Lipschitz constant L and sides of length at most D it is at most the area times 7 L D / 2 plus the rounding of the tables; and over meshes of fine triangles the sum converges to the integral of every continuous integrand, up to the rounding of the tables.",
  "all orders 1 to 8, triangles, integrands (continuous ones where an integral is compared), polynomials, meshes",
  "it quantifies over all integrands and triangles and is a limit over all meshes",
  S+"Integration2dTriangle.h: Compute")

p("Interpolation in two variables in double arithmetic",
  "With every operation rounded to double, Interp2dLinear returns in each cell the bilinear interpolant up to an explicit error that depends on the data, the coordinates and the size of the cell, and a value between the data of the corners of the cell.",
  "all grids, data, points of the range, roundings to nearest; no overflow or underflow",
  "the error depends on every combination of coordinates and data",
  S+"Interp2d.h: Initialize", S+"Interp2d.h: Eval")

p("Chebyshev series in double arithmetic",
  "With every operation rounded to double, Evaluate of ChebyshevSeries1d returns, at each point of the domain, the exact value at this point of a Chebyshev series whose coefficients differ from those held by a relative amount of about 25 (n+1)^2 k / 2^53, n the order and k the condition of the domain (4 max(|a|,|b|)/(b-a) for [a, b], 3 for a half line), so the error is at most this times the sum of the magnitudes of the coefficients; in two and three variables the relative errors of the variables compound.",
  "all orders, coefficients, domains, points of the domain, roundings to nearest; no overflow or underflow",
  "the recurrence could amplify rounding errors for some coefficients and points; tests only sample them",
  S+"ChebyshevSeries1d.h: Evaluate", S+"ChebyshevSeries2d.h: Evaluate", S+"ChebyshevSeries3d.h: Evaluate")

p("Power series in double arithmetic",
  "With every operation rounded to double, Evaluate of the power series of one, two and three variables returns the value of the polynomial with an error of at most about 10 n k / 2^53 per variable times the sum of the magnitudes of the coefficients, n the degree and k the condition of the domain; Evaluate_derivative_x of one variable returns the derivative with the same relative error, with respect to the slope of the map to [-1, 1] times the sum of i |b_i|.",
  "all degrees, coefficients, domains, points of the domain, roundings to nearest; no overflow or underflow",
  "the error depends on every combination of coefficients and points",
  S+"PowerSeries1d.h: Evaluate", S+"PowerSeries2d.h: Evaluate", S+"PowerSeries3d.h: Evaluate", S+"PowerSeries1d.h: Evaluate_derivative_x")

p("Spectral accuracy of the Chebyshev series",
  "If the function is the sum of an absolutely convergent Chebyshev series in the variables mapped to [-1, 1], then after Compute_ai (Compute_aij, Compute_aijk) on a new object Evaluate differs from the function, at every point of the domain, by at most twice the sum of the magnitudes of the coefficients of the series outside the computed orders. So the approximation converges uniformly as the orders grow, and in one variable, if the coefficients decrease like M r^k with r < 1, the error is at most 2 M r^(n+1)/(1-r).",
  "all functions with such a series, orders, usual domains, points of the domain",
  "an infinite class of functions, all orders, and a limit",
  S+"ChebyshevSeries1d.h: Compute_ai, Evaluate", S+"ChebyshevSeries2d.h: Compute_aij, Evaluate", S+"ChebyshevSeries3d.h: Compute_aijk, Evaluate")

p("A Chebyshev series computed and evaluated in double arithmetic",
  "Let a user build a Chebyshev series of one, two or three variables on segments or half lines for a function whose program in double computes a function G within phi, call Compute_ai (or its 2D or 3D form) and Evaluate, every operation of the library being rounded to nearest in double. The calls succeed, and the value returned differs from G by at most the error of the exact interpolant (from the derivatives of G, or from its Chebyshev coefficients) plus an explicit rounding term, which is a polynomial in the orders times the unit roundoff, plus a multiple of phi and of the error of the polynomials supplied by Boost.",
  "all functions G with a bounded rate of change and programs of it, all orders and domains whose condition times the square of the order is below 2^40 (with several variables also at most 2^25 coefficients), all points of the domain, all roundings to nearest, checked and NDEBUG builds",
  "A test evaluates one function at a few points and orders with one C library; the rounding of the nodes (pi/2, cosine, change of variable), of the sums over the nodes and of the Clenshaw recurrences must be bounded for every function, order and point.",
  S+"ChebyshevSeries1d.h: ChebyshevSeries1dBase::Compute_ai", S+"ChebyshevSeries1d.h: ChebyshevSeries1dBase::Evaluate", S+"ChebyshevSeries2d.h: ChebyshevSeries2dBase::Compute_aij", S+"ChebyshevSeries3d.h: ChebyshevSeries3dBase::Compute_aijk")

p("The derivatives of Chebyshev series converge",
  "Let F have a Chebyshev expansion on the domain with coefficients a_k such that the sum of k^2 |a_k| (k being the index in the variable of differentiation) is finite. Then F is differentiable in that variable on the domain, after Compute_ai (Compute_aij, Compute_aijk) the call Evaluate_derivative_x (_y, _z) succeeds at every point of the domain, and the value returned differs from the derivative of F by at most twice the sum of k^2 |a_k| over the coefficients left out times the slope of the map of the domain to [-1, 1]. In particular the derivatives converge uniformly when the orders grow.",
  "all functions with such an expansion in one, two or three variables, all orders, segments and half lines, all points of the domain, checked and NDEBUG builds, exact arithmetic",
  "A test compares the derivative at some points and one order with a known one; convergence is a statement about all orders, and the differentiability of F itself cannot be observed.",
  S+"ChebyshevSeries1d.h: ChebyshevSeries1dBase::Evaluate_derivative_x", S+"ChebyshevSeries2d.h: ChebyshevSeries2dBase::Evaluate_derivative_x", S+"ChebyshevSeries2d.h: ChebyshevSeries2dBase::Evaluate_derivative_y", S+"ChebyshevSeries3d.h: ChebyshevSeries3dBase::Evaluate_derivative_x", S+"ChebyshevSeries3d.h: ChebyshevSeries3dBase::Evaluate_derivative_y", S+"ChebyshevSeries3d.h: ChebyshevSeries3dBase::Evaluate_derivative_z")

p("The derivatives of Chebyshev series are accurate in double arithmetic",
  "With every operation rounded to the nearest double and polynomials and their derivatives within eps (relative to 1 and i^2) of the exact ones, Evaluate_derivative_x (_y, _z) of a Chebyshev series whose order and domain satisfy condition times order^2 at most 2^50 succeeds at every point of the domain and returns the derivative of the series up to a stated small factor times the slope of the map to [-1, 1] times the sum of i^2 |a|. Together with the coefficients computed in double from a program of a function G with a Chebyshev expansion, the value returned differs from the derivative of G by at most twice the sum of k^2 |a_k| over the coefficients left out plus a stated rounding error, times the slope.",
  "all functions, orders, coefficients, segments and half lines with the stated bound, in one, two or three variables (from the function to the derivative, condition times the square of the order is below 2^40 and, with several variables, there are at most 2^25 coefficients), all points of the domain, all roundings to nearest, checked and NDEBUG builds; no overflow, underflow or contraction",
  "A test compares some derivatives with a tolerance chosen by hand; the bound on the rounding error holds for every function and point, and differentiation amplifies the rounding errors by the square of the order.",
  S+"ChebyshevSeries1d.h: ChebyshevSeries1dBase::Evaluate_derivative_x", S+"ChebyshevSeries1d.h: ChebyshevSeries1dBase::Compute_ai", S+"ChebyshevSeries2d.h: ChebyshevSeries2dBase::Evaluate_derivative_x", S+"ChebyshevSeries2d.h: ChebyshevSeries2dBase::Evaluate_derivative_y", S+"ChebyshevSeries3d.h: ChebyshevSeries3dBase::Evaluate_derivative_x", S+"ChebyshevSeries3d.h: ChebyshevSeries3dBase::Evaluate_derivative_y", S+"ChebyshevSeries3d.h: ChebyshevSeries3dBase::Evaluate_derivative_z")

p("The conversions between Euler angles, quaternions and rotation matrices are accurate in double arithmetic",
  "With every operation rounded to the nearest double and cos, sin, asin, atan2 and pow within about an ulp of the exact functions: eulerAnglesZYXToRotationMatrix and quaternionToRotationMatrix return matrices within a few roundings of the exact ones, which are orthogonal of determinant one up to a few roundings; eulerAnglesZYXToQuaternion returns a quaternion within a few roundings of a unit one with the same rotation; rotationMatrixToEulerAnglesZYX and quaternionToEulerAnglesZYX return angles whose rotation is that of the input up to its own error plus a few roundings divided by the cosine of the pitch; so conversions there and back keep the rotation. quaternionToEulerAnglesZYX returns finite angles for the doubles nearest to every unit quaternion. (The last sentence fails at a pitch of 90 degrees, where asin is given a number above one.)",
  "all Euler angles, quaternions and matrices near a rotation, all roundings to nearest and all libraries of the stated accuracy; no overflow, underflow or contraction",
  "A test compares some angles with a tolerance; the bound holds for all rotations, and says how the error grows near gimbal lock.",
  S+"Geometry.h: quaternionToEulerAnglesZYX", S+"Geometry.h: eulerAnglesZYXToQuaternion", S+"Geometry.h: rotationMatrixToEulerAnglesZYX", S+"Geometry.h: eulerAnglesZYXToRotationMatrix", S+"Geometry.h: quaternionToRotationMatrix")

p("Accuracy of E1_approximation in double arithmetic",
  "With every literal and every operation rounded to the nearest double and exp and log within an ulp of the exact functions: E1_approximation(x) returns, for every double x above 1e-8, a number that differs from what it returns in exact arithmetic by a relative 4e-14 at most (60 roundings from 1 on), so that it is the exponential integral E1(x) up to a relative 4.1e-14 below 1 and up to the errors of the tables (1.52e-9 below 4, 9.32e-4 above) from 1 on; and it ends the program for every double up to 1e-8.",
  "all doubles x, all roundings to nearest and all libraries of the stated accuracy; no overflow, underflow or contraction",
  "A test samples some x; the bound holds for all of them and separates rounding errors from those of the tables.",
  S+"BoostFunctions.h: E1_approximation", S+"Check.h: IsClose")

p("Accuracy of Ei_approximation and expEi in double arithmetic",
  "With every literal and every operation rounded to the nearest double, exp and log within an ulp and the Chebyshev polynomials within eps <= 1e-3: Ei_approximation(x) returns, for every double x above 1e-8, the exponential integral Ei(x) up to 13 roundings (relative) from 12 on, up to the relative error 2.52e-11 of its table on [6, 12), and up to a relative 18 eps + 310 roundings plus an absolute 3e-15 below 6, where Ei has a zero; it ends the program for every double up to 1e-8. expEi(x) is exp(-x) Ei(x) up to 11 roundings from 24 on, and below 24 has the relative error of boost's expint plus 5 roundings.",
  "all doubles x, all roundings to nearest, all libraries of the stated accuracy; no overflow, underflow or contraction",
  "A test samples some x; a continued fraction of ten levels with subtractions could lose all digits near some argument and the bound shows it does not anywhere in the range.",
  S+"BoostFunctions.h: Ei_approximation", S+"BoostFunctions.h: expEi", S+"Check.h: IsClose")

p("Accuracy of the Struve functions in double arithmetic",
  "With every literal and every operation rounded to the nearest double, pow within an ulp and boost's Bessel function of the second kind within an absolute delta: for every x from 0 on, Struve_zero_order(x) is the Struve function H0(x) up to 1.281e-8 (plus 1.001 delta from 3 on), Struve_first_order(x) is H1(x) up to 2.57e-9 below 3 and 2.601e-8 + 1.001 delta from 3 on, Struve_zero_order_derivative(x) is the derivative of H0 up to 2.58e-9 below 3 and 2.602e-8 + 1.002 delta from 3 on; rounding contributes at most 28 roundings of x (order zero) and 7 roundings of x^2 (order one) below 3, so that the relative precision is kept near 0; a negative x ends the program.",
  "all x, all roundings to nearest, all libraries of the stated accuracy; no overflow, underflow or contraction",
  "A test samples some x against another library and cannot separate rounding, table and library errors over the whole half-line.",
  S+"BoostFunctions.h: Struve_zero_order", S+"BoostFunctions.h: Struve_first_order", S+"BoostFunctions.h: Struve_zero_order_derivative", S+"Constants.h: MU_2_PI")

p("Integral of a function computed in double arithmetic",
  "With every operation of Integrate1d rounded to the nearest double and a user function F within epsilon of a function f whose second derivative is at most M on [a, b]: for 2 to 2^25 points N the value returned by Get() is the true integral of f from a to b up to M (b-a)^3 / (12 (N-1)^2) + (b-a) (epsilon + L eta + (N+6) 2^-53 Y), where eta = (N+2) 2^-53 (|a| + b - a) bounds the displacement of the abscissae, L is a Lipschitz constant of f and Y a bound of |F| on the interval enlarged by eta.",
  "all functions f with two derivatives, all F within epsilon of it, all a < b and N, all roundings to nearest; no overflow, underflow or contraction",
  "A test compares some integrals at a tolerance and cannot show how discretisation, evaluation error and rounding add up for every function.",
  S+"Integration1d.h: Integrate1d::Get, Integrate1d::ComputeTrapz")

p("Tables of a function interpolated in double arithmetic",
  "With every operation rounded to the nearest double and data within epsilon of a function f with bounded second derivatives: Interp1d (linear) returns f(x) up to M h^2/8 + epsilon + 28 2^-53 X Y / delta everywhere in its range; Interp2d (bilinear) up to Mx hx^2/8 + My hy^2/8 + epsilon + 272 2^-53 D X Y / (dx dy); the regular grid interpolator, in any number of dimensions, up to the sum of the M h^2/8 of the cell + epsilon + D ((1 + 16 2^-53)^dim - 1), with or without bound check. Here h and delta bound the spacings from above and below, X and Y the abscissae, Y or D the data.",
  "all functions, all tables, all points of the range, all roundings to nearest; no overflow, underflow or contraction",
  "A test samples some functions and points; the loss by cancellation of the slope-intercept form depends on the position and spacing of the nodes.",
  S+"Interp1d.h: Interp1dLinearBase::Initialize, Eval", S+"Interp2d.h: Initialize, Eval", S+"RegularGridInterpolator.h: Interp")

p("Integration over a triangle in double arithmetic",
  "With every table entry and every operation rounded to the nearest double, whatever the order in which the three squares of a norm are added: for a scalar integrand F within epsilon of a function f near the triangle, Compute returns the integral of f over the triangle up to area (7/2 e + 3e-14 C + 5/2 (epsilon + L eta)) + 45 2^-53 |v1-v3| |v2-v3| Y, where e is the distance of f to a polynomial of the order of the rule with coefficients of total size C, eta = 45 2^-53 V bounds the displacement of the Gauss points for coordinates up to V, L is a Lipschitz constant of f and Y bounds |F|.",
  "all orders, all triangles (degenerate and far from the origin included), all integrands, all roundings to nearest; no overflow, underflow or contraction",
  "A test integrates some polynomials over some triangles at a tolerance and cannot show how thin or remote triangles lose digits.",
  S+"Integration2dTriangle.h: Compute, ComputeOverStandardTriangle")

p("A 1D lookup table survives memory exhaustion",
  "If an allocation fails in a call of SetX or AddY on a LookupTable1D (std::bad_alloc leaves the call), the table is as before the call: every series still gives the same values, and later calls behave as if the failed call had not been made.",
  "all tables, all histories of calls, every allocation of every call at which memory may run out (any set of failing allocations), all names, data and abscissae",
  "each allocation of each call is a crash point; tests do not exhaust memory, and the damage shows only in later calls.",
  S+"LookupTable1D.h: LookupTable1D::SetX", S+"LookupTable1D.h: LookupTable1D::AddY", S+"LookupTable1D.h: LookupTable1D::Eval", S+"Interp1d.h: Interp1dLinearBase::Initialize", S+"Interp1d.h: Interp1d::MakeInterp1d")

p("A 2D lookup table survives memory exhaustion",
  "If an allocation fails in a call of SetX, SetY or AddData on a LookupTable2d (std::bad_alloc leaves the call), the table is as before the call: every series still gives the same values, HasSerie answers the same, and later calls behave as if the failed call had not been made.",
  "all tables, all histories of calls, every allocation of every call at which memory may run out (any set of failing allocations), all names, data and coordinates",
  "each allocation of each call is a crash point; tests do not exhaust memory, and the damage shows only in later calls.",
  S+"LookupTable2D.h: LookupTable2d::SetX", S+"LookupTable2D.h: LookupTable2d::SetY", S+"LookupTable2D.h: LookupTable2d::AddData", S+"LookupTable2D.h: LookupTable2d::HasSerie", S+"Interp2d.h: Interp2dLinear::Initialize")

p("Loading a lookup table loses no memory",
  "Whatever calls are made on a LookupTable1D or a LookupTable2d, returning or throwing, every interpolator object they create is owned by the table or destroyed.",
  "all tables, all histories of calls whose exceptions are caught, every set of failing allocations",
  "leaks have no effect on results; each way a call can throw would have to be exercised under a leak detector.",
  S+"LookupTable1D.h: LookupTable1D::AddY", S+"LookupTable2D.h: LookupTable2d::AddData")

p("A regular grid survives memory exhaustion",
  "If an allocation fails in a call of AddCoord or AddVar on a RegularGridInterpolator or a RegularGridNearest, or in the assignment of one of them (std::bad_alloc leaves the call), the object is as before the call and can be evaluated; a copy of a loaded RegularGridInterpolator is complete or does not exist.",
  "all dimensions, all loaded objects, all axes and values, every set of failing allocations",
  "each allocation of each call is a crash point; tests do not exhaust memory, and reading freed storage often seems to work.",
  S+"RegularGridInterpolator.h: RegularGridInterpolator::AddCoord", S+"RegularGridInterpolator.h: RegularGridInterpolator::AddVar", S+"RegularGridInterpolator.h: RegularGridInterpolator::_BuildInterpolator", S+"RegularGridNearest.h: RegularGridNearest::AddCoord", S+"RegularGridNearest.h: RegularGridNearest::AddVar", S+"RegularGridInterpolator.h: RegularGridInterpolator::operator=", S+"RegularGridNearest.h: RegularGridNearest::operator=")

p("Plane vectors in double arithmetic",
  "With double arithmetic and a mathematical library accurate to about one unit in the last place, ProjectLocalOnNED and ProjectNEDOnLocal rotate a Vector2d by the angle up to a relative error of 10 roundings in the norm, to which degrees add 5 roundings of the angle; they keep the norm up to 10 roundings, projecting back gives the vector up to 21 roundings whatever the angle; the projections on one axis are the components of the projected vector to the last bit; GetNEDVelocityVector and TransportAtPoint have errors of a few roundings of their terms in every unit.",
  "all vectors, angles, units, rotation speeds, all roundings to nearest, all mathematical libraries of the stated accuracy; no overflow or underflow",
  "the errors depend on all the bits of the arguments; tests compare a few values with a tolerance.",
  S+"Vector2d.h: Vector2d::ProjectLocalOnNED", S+"Vector2d.h: Vector2d::ProjectNEDOnLocal", S+"Vector2d.h: Vector2d::ProjectOnNorthAxis", S+"Vector2d.h: GetNEDVelocityVector", S+"Vector2d.h: Vector2d::TransportAtPoint", S+"Angles.h: _GetTrigo")

p("Vectors of the space in double arithmetic",
  "With double arithmetic, Normalize of a Vector3d that is not null gives each component of the unit vector with a relative error of 7 roundings, the result has norm one up to 7 roundings and is recognised by IsUnit; IsUnit decides whether the norm is within 1.001e-5 of one except within 2e-15 of this limit; the projected angles are the polar angles up to 20 roundings in either unit.",
  "all vectors, all roundings to nearest, all orders of summation of the norm, all mathematical libraries of the stated accuracy; no overflow or underflow",
  "the errors depend on all the bits of the components and on the order in which Eigen adds; tests compare a few values with a tolerance.",
  S+"Vector3d.h: Vector3d::Normalize", S+"Vector3d.h: Vector3d::IsUnit", S+"Vector3d.h: Vector3d::GetProjectedAngleAroundX", S+"Check.h: IsClose")

p("A ramp in double arithmetic stays between its two levels",
  "In double arithmetic (every operation rounded to nearest, no overflow or underflow) Ramp returns y_left up to x_min, y_right beyond x_max, and between them a value between y_left and y_right that is y_right at x_max; it differs from the straight line only by rounding errors.",
  "all roundings to nearest, all vectors, all ranges x_min <= x_max inside the vector, all levels",
  "the rounding errors of slope and intercept depend on the position of the range; tests use ranges near zero where they do not show",
  S+"Functions.h: Ramp")

p("Element-wise operations, sums, sinc, door and impulse are accurate in double arithmetic",
  "In double arithmetic Add, Minus, Mult, Divide and Scale give every element within half a unit in the last place; Sum of n numbers has an error of at most (1+u)^n - 1 times the sum of the magnitudes; Sinc has a relative error of at most 4u when the sin of the library is within one unit in the last place; Door makes no error at all; Dirac gives the height to no sample further than half a step from the impulse and to every sample nearer than half a step less one part in 2^52.",
  "all roundings to nearest, all vectors of doubles",
  "error bounds range over all vectors and all rounding patterns",
  S+"StdVector.h: Add, Minus, Mult, Divide, Scale, Sum", S+"Functions.h: Sinc, Door, Dirac")

p("Convolution and logarithmic spacing are accurate in double arithmetic",
  "In double arithmetic NaiveConvolution with a kernel of N samples has an error of at most (1+u)^(N+3) - 1 times the trapezoidal sum of the magnitudes of the products, in both directions. logspace returns num values whose first and last are the pow of the library at start and stop, each with the relative error of pow and of an error of 5u(|start| + stop - start) on the exponent.",
  "all roundings to nearest, all kernels and signals with enough samples; all doubles start <= stop, all positive bases, all num from 2 to 2^32 - 1",
  "error bounds range over all inputs and all rounding patterns",
  S+"Convolution.h: NaiveConvolution", S+"VectorGeneration.h: logspace")

p("Threads that share a one-dimensional lookup table",
  "Threads make one call each on the same LookupTable1D, with their accesses to its fields interleaved in any way. A call looks at, or changes, the abscissae, the interpolation method or the set of series: Eval, GetXmin, GetXmax, GetNbSeries and AddY of a name already there look at the series; GetX and GetNbSample look at the abscissae; SetX changes the abscissae; AddY of a new name looks at the abscissae and the method and changes the series. If no call changes a part that another call looks at or changes, then no schedule has a data race, every call returns what it returns when made alone, and the table is left as by the same calls made one after the other in any order; in particular SetX may run at the same time as evaluations. If two calls do clash in this way and each returns when made alone, some schedule has a data race, whatever the other threads do.",
  "every table, every family of calls (any number of threads), every schedule, both kinds of build",
  "schedules and numbers of threads are unbounded; a test sees a few schedules and a race need not show",
  S+"LookupTable1D.h: LookupTable1D::Eval", S+"LookupTable1D.h: LookupTable1D::AddY", S+"LookupTable1D.h: LookupTable1D::SetX", S+"LookupTable1D.h: LookupTable1D::GetNbSeries")

p("Threads that share a two-dimensional lookup table",
  "The same for LookupTable2d: Eval, HasSerie, GetNbSeries and AddData of a name already there look at the series; SetInterpolationMethod looks at the series (it tells whether there are any) and changes the method; SetX and SetY change the abscissae and the ordinates; GetX, GetY and GetNbSample look at them; AddData of a new name looks at abscissae, ordinates and method and changes the series. Calls of which none changes a part that another looks at or changes give no data race, the results they give alone, and the table of any sequential order; two calls that clash, each returning when made alone, have a schedule with a data race. So SetX, SetY, SetInterpolationMethod and evaluations may overlap, but SetInterpolationMethod and the addition of a new series may not.",
  "every table, every family of calls (any number of threads), every schedule, both kinds of build",
  "schedules and numbers of threads are unbounded; a test sees a few schedules and a race need not show",
  S+"LookupTable2D.h: LookupTable2d::Eval", S+"LookupTable2D.h: LookupTable2d::AddData", S+"LookupTable2D.h: LookupTable2d::SetInterpolationMethod", S+"LookupTable2D.h: LookupTable2d::SetX")

p("Threads that share a RegularGridInterpolator",
  "Threads make one call each on the same RegularGridInterpolator, with their accesses to its fields interleaved in any way. A call looks at, or changes, the axes or the values: GetCoord, AddCoord and AddVar look at the axes; Interp, EvalAtIndice, IsValid, GetCoordMinVal and GetCoordMaxVal look at the values; AddCoord of an increasing axis changes the axes as long as some are missing; AddVar changes the values when no axis is missing. If no call changes a part that another call looks at or changes, then no schedule has a data race, every call returns what it returns when made alone, and the object is left as by the same calls made one after the other in any order. If two calls do clash in this way and each returns when made alone, some schedule has a data race, whatever the other threads do.",
  "every object, every family of calls (any number of threads), every schedule, every dimension",
  "schedules and numbers of threads are unbounded; a test sees a few schedules and a race need not show",
  S+"RegularGridInterpolator.h: RegularGridInterpolator::Interp", S+"RegularGridInterpolator.h: RegularGridInterpolator::AddVar", S+"RegularGridInterpolator.h: RegularGridInterpolator::AddCoord", S+"RegularGridInterpolator.h: RegularGridInterpolator::GetCoordMinVal")

p("Threads that share a RegularGridNearest",
  "As C156 for RegularGridNearest: GetCoord, GetCoordMinVal, GetCoordMaxVal, AddCoord and AddVar look at the axes; Nearest and GetSurroundingGridNodes look at the axes and the values; AddCoord changes the axes as long as some are missing; AddVar changes the values when no axis is missing; GetDimension and IsValid look at nothing. Calls of which none changes a part that another looks at or changes run in any schedule without data race, return what they return when made alone and leave the object as if made one after the other in any order; two calls that clash and return when made alone race in some schedule.",
  "every object, every family of calls (any number of threads), every schedule, every dimension",
  "schedules and numbers of threads are unbounded; a test sees a few schedules and a race need not show",
  S+"RegularGridNearest.h: RegularGridNearest::Nearest", S+"RegularGridNearest.h: RegularGridNearest::GetSurroundingGridNodes", S+"RegularGridNearest.h: RegularGridNearest::AddVar", S+"RegularGridNearest.h: RegularGridNearest::AddCoord")

p("The quaternion of a rotation matrix in double arithmetic",
  "With every operation rounded to the nearest double: RotationMatrixToQuaternion of a matrix whose elements are within epsilon of those of a rotation (epsilon at most 1/64) returns a quaternion within 4 epsilon + 16 2^-53 of a unit quaternion of this rotation, whatever the rotation (half turns included); its norm is 1, and quaternionToRotationMatrix gives the rotation back, up to 17 epsilon and 83 roundings. A quaternion within eta of a unit quaternion comes back from its matrix within 17 eta and 44 roundings of this quaternion or its opposite. The quaternion of eulerAnglesZYXToRotationMatrix is within 96 roundings of one of the rotation, whatever the pitch.",
  "all matrices near a rotation, all rotations, all roundings to nearest, all orders of the sum of the diagonal; no overflow, underflow or contraction",
  "The algorithm has four branches, with a square root and a division in each, that switch on the rounded diagonal: accuracy near every switch and every half turn is a statement about a continuum of matrices.",
  S+"Geometry.h: RotationMatrixToQuaternion", S+"Geometry.h: quaternionToRotationMatrix")

p("Accuracy of simplex interpolation",
  "InterpSimplex built on samples of f returns, at every point of the box, f up to M/2 times the sum over the axes of (x-a)(b-x), where a and b are the nodes around the coordinate and M bounds the second derivative of f in every direction: at most M/8 times the square of the diagonal of the cell; for a function that only varies by at most L_k per unit along axis k, f up to the sum of 2 L_k (x-a)(b-x)/(b-a). Data that change by at most eps change the value by at most eps, and the value does not depend on the order in which std::sort leaves equal fractional parts, inside or outside the box.",
  "every dimension, all increasing axes, all functions of the class, every point in the box, every conforming std::sort",
  "The error must be bounded for a whole class of functions at every point of every cell in any dimension, and the unspecified order of equal elements depends on the standard library.",
  S+"thirdparty/linterp.h: InterpSimplex")

p("Conversion of a Chebyshev series to a power series in double arithmetic",
  "Up to order 18 in each variable, Compute_bi, Compute_bij and Compute_bijk in double return coefficients within (n+8)/2^53 (one variable), (n+m+15)/2^53 (two) and (n+m+l+22)/2^53 (three) of the exact ones, relative to the sum of the magnitudes of their terms. The power series made of them, evaluated in double anywhere on the domain of the Chebyshev series, differs from the sum of the Chebyshev series by at most about (n+8+10 n kappa)/2^53 times the sum of |a_r| (1+sqrt 2)^r, which is what the limit on the order protects; above order 18 the process exits. Together with Compute_ai this bounds the distance from the value of the power series to the function approximated.",
  "every series with coefficients of the length of its order, orders up to 18 (exit above), every point of the domain, both kinds of domain in each variable, rounding to nearest without overflow or underflow, pow of a power of two and the factorial table correctly rounded",
  "The loss of accuracy depends on the coefficients, on the point and on the order, and the worst case grows exponentially with the order; sampled comparisons do not bound it.",
  S+"ChebyshevSeries1d.h: Compute_bi, TransformationCoefficient", S+"ChebyshevSeries2d.h: Compute_bij", S+"ChebyshevSeries3d.h: Compute_bijk", S+"PowerSeries1d.h: Evaluate")

p("Interpolation of many points through the C interface",
  "linterp_simplex_1, linterp_simplex_2 and linterp_simplex_3, called with axes, data and coordinate arrays of the announced lengths and a result array with room for the points, return; the i-th result is what simplex interpolation of the data gives at the i-th point (the datum at a node, a convex combination of the data of a surrounding cell inside the grid, a value within the bounds of the data anywhere), in order; nothing but these results is written, and the coordinates used are those before the call even when the results overwrite one of the coordinate arrays. No points, or a negative number, change nothing.",
  "every number of axes, grid, data, number of points, coordinates, sorting function of the standard library, and coincidence of the result array with coordinate arrays",
  "The statement is about all grids, points and all ways in which the arguments may share memory; a test fixes one.",
  S+"thirdparty/linterp.h: linterp_simplex_1", S+"thirdparty/linterp.h: linterp_simplex_2", S+"thirdparty/linterp.h: linterp_simplex_3", S+"thirdparty/linterp.h: interp_vec")

p("The check of the number of elements of a regular grid, with machine integers",
  "Once all axes of a RegularGridInterpolator are given, AddVar accepts an array exactly when it has as many elements as the grid has nodes, also for the numbers of nodes that do not fit in the integers used to count them.",
  "every number of axes, axes of any length, array of any size, history",
  "The failing cases need grids of billions of nodes (but not arrays of that size), and the claim is for every size.",
  S+"RegularGridInterpolator.h: AddVar", S+"thirdparty/linterp.h: set_f_array")

p("Simplex interpolation in double arithmetic",
  "With every operation rounded to the nearest double, InterpSimplex returns at every point, inside or outside the box, the exact simplex interpolant up to ((N + 4)(M + N D) + 5 N D) 2^-53 where N is the number of dimensions (at most 2^25), M bounds the data in absolute value and D bounds their differences, whatever the order std::sort gives to equal fractions and even where rounding changes the order of the fractions; constant data are reproduced exactly. Unlike multilinear interpolation, the value at a node need not be the datum of the node exactly, and the value beyond the box need not be the value at the nearest point of the box: with data 1 and 3 2^60 at 0 and 1 the answer at 0 is 0 while at -1 it is 1.",
  "every number of dimensions up to 2^25, all axes, all real data, all points, all roundings to nearest, all sorting functions",
  "rounding can change the permutation found by the sort, hence the simplex and the vertices used; tests at sample points never bound the error over all the data and points",
  S+"thirdparty/linterp.h: InterpSimplex, interp")

p("Interpolation on grids follows the trend of the data",
  "If the data of a table or grid do not decrease when one moves from node to node in given directions (each coordinate allowed to go up only, down only, or to stay fixed), then neither do the interpolated values when one moves from point to point in these directions: for RegularGridInterpolator and InterpSimplex at all points inside or outside the box, and for Interp2d inside the rectangle. In particular data monotone along one axis give values monotone along this axis.",
  "every number of dimensions, all axes, all data, all directions, all pairs of points, all sorting functions",
  "monotonicity is a statement about all pairs of points, across cells and across the boundary of the box; tests compare a few pairs",
  S+"RegularGridInterpolator.h: RegularGridInterpolator, Interp", S+"Interp2d.h: Interp2dLinear, Eval", S+"thirdparty/linterp.h: InterpMultilinear, InterpSimplex")

p("Simplex interpolation varies no faster than the data and is continuous",
  "If along each axis the data of neighbouring nodes differ by at most the rate of this axis times their distance, the values InterpSimplex returns at any two points, in the same simplex or not, inside or outside the box, differ by at most the sum over the axes of the rate times the difference of the coordinates; data that differ by at most epsilon give values that differ by at most epsilon; the value is a continuous function of the point. All this whatever order std::sort gives to equal fractions.",
  "every number of dimensions, all axes, all real data, all pairs of points, all sorting functions",
  "the code uses different formulas in different simplices and cells, and the agreement on all the shared faces, for all orders of equal fractions, cannot be sampled",
  S+"thirdparty/linterp.h: InterpSimplex, interp")

p("Elements of vectors and matrices hold the value last given to them",
  "After every correct sequence of at(i) = a, Set, SetNull, SetOnes, SetIdentity, Transpose and Reverse on a Vector2d, Vector3d, Vector6d, VectorN, Matrix33, Matrix66 or MatrixMN, reading an element returns the value last given to it and the size is the expected one; an index outside the object is refused by an assertion. A new Vector2d, Vector3d or Vector6d is null; the elements of a new object of the other classes have no value before they are written.",
  "all sizes, all sequences of operations of any length, all indices, both kinds of build",
  "The histories and the sizes are unbounded, and reading an element that was never written often seems to work.",
  S+"Vector2d.h: Vector2d, at, Set, SetNull", S+"Vector3d.h: Vector3d, at, Set, SetNull", S+"Vector6d.h: Vector6d, at, Set, SetNull", S+"VectorN.h: VectorN, at, SetNull, SetOnes, Reverse", S+"Matrix.h: MatrixMN, at, SetNull, SetIdentity, Transpose", S+"Matrix33.h: Matrix33", S+"Matrix66.h: Matrix66")

p("Normalised angles in radians in double arithmetic",
  "With double arithmetic, whose pi and 2 pi are the nearest doubles: Normalize_0_2PI returns, for every angle a, a value of [0, 2 pi[ (the true 2 pi) which is a plus a whole number of true turns up to (|a| + 26)/2^54, and returns the angle itself, unchanged, when it is not negative and below another double of this interval; Normalize__PI_PI returns, for every double a, a value of ]-pi, pi] which is a plus a whole number of true turns up to (|a| + 10)/2^52, which is a itself up to 2^-49 when a is in this interval and is not its smallest double; applying it twice gives bit for bit the same result as applying it once.",
  "every double, every rounding to nearest whatever the rule for ties",
  "The failures of such functions are at isolated doubles next to multiples of the turn (the same code in degrees returns 360 for them, C73); no sample of angles shows that there is none.",
  S+"Angles.h: Normalize_0_2PI, Normalize__PI_PI, modulo2pi", S+"Constants.h: M_PI, MU_2PI")

p("IsClose in double arithmetic",
  "With double arithmetic and tolerances that are not negative: IsClose(a, b) is true when |a-b| <= (1 - 3u)(atol + rtol |b|) and is false when |a-b| > (1 + 4u)(atol + rtol |b|), u = 2^-53; a number is close to itself. Vectors of the same length are close when they are close element by element, with the same margins, and a vector is close to itself; an assertion stops the program for vectors of different lengths.",
  "all numbers, all tolerances >= 0, vectors of fewer than 2^32 elements (C221 for longer ones), every rounding to nearest",
  "The decision is taken at a threshold that depends on the operands; samples do not show how far from the threshold it can be wrong.",
  S+"Check.h: IsClose")

p("Amplitude and phase of complex vectors in double arithmetic",
  "With double arithmetic and an atan2 within two units in the last place: Amplitude and Phase return an element for every complex number; the amplitude is the modulus up to a relative error of four roundings, is not negative and is zero only for zero; the phase is the argument in ]-pi, pi] up to 24 roundings, in radians and in degrees; the number is the amplitude times the exponential of i times the phase up to a relative error of 28 roundings.",
  "complex vectors of any length, both units, every rounding to nearest",
  "The error bound is over all complex numbers.",
  S+"Complex.h: Amplitude, Phase")

p("Frequencies of a spectrum in double arithmetic",
  "With double arithmetic, GetFrequencyVector(nfft, fs, unit), which adds fs/nfft again and again, returns nfft elements (nfft/2 + 1 with the half spectrum); the element i means i fs/nfft turns per second up to a relative error of 1.01 (i + 20) roundings, for every unit but the period; with a positive sampling frequency the elements are strictly increasing: no two bins get the same frequency.",
  "every nfft from 1 to 2^32 - 1, every sampling frequency, every unit but the period, every rounding to nearest",
  "Accumulated rounding grows with the number of bins: only an induction over all the bins bounds it.",
  S+"FFT.h: GetFrequencyVector", S+"Unit.h: convert_frequency")

p("Interpolation of finite data in binary64 is finite",
  "Linear interpolation of a table of finite doubles at a point of its range returns a finite double near the straight line of its cell, taking into account that numbers too large overflow to an infinity and numbers too small lose digits.",
  "every rounding to nearest of binary64 (any rule for ties), every build, the three linear methods, every table of finite doubles with increasing abscissas, every point of its range",
  "Overflow and underflow happen for combinations of magnitudes of abscissas, ordinates and spacing that no list of tests covers; whether an intermediate result overflows depends on the order of the operations.",
  S+"Interp1d.h: Interp1dLinearBase::Initialize, Interp1dLinearBase::PrivEval, Interp1dLinear, Interp1dLinearExtrapolate, Interp1dLinearSaturate")

p("Normalisation of vectors in binary64",
  "Normalize of a Vector3d of finite doubles that is not null gives a vector of finite doubles with norm one up to a few roundings, recognised by IsUnit, taking into account overflow and underflow of the squares.",
  "every rounding to nearest of binary64, every order of the additions in the norm, every vector of finite doubles",
  "The squares overflow or underflow for vectors of a size that tests do not use, alone or in one component; only a proof covers the range of sizes for which the result is right.",
  S+"Vector3d.h: Vector3d::Normalize, Vector3d::IsUnit", S+"Check.h: IsClose")

p("Matrices of fixed size",
  "Matrix33 and Matrix66 have the operations of matrices: at reads and writes one element, rows, columns, diagonal and transposes have the elements in order, MakeSymmetricFromUpper and FromLower complete a triangle, IsEqual, IsIdentity, IsSymmetric and IsPositiveSemiDefinite decide what they say, GetInverse is the inverse, the QR, LU and Cholesky factors have their shapes and multiply back to the matrix, LUSolver and QRSolver solve A x = b and LeastSquareSolver minimises the residual.",
  "every 3 by 3 and 6 by 6 real matrix, every index, every right-hand side with any number of columns",
  "The classes are separate texts from MatrixMN and have no tests of their own; identities must hold for all matrices, singular and indefinite ones included, and fixed sizes take other paths in Eigen.",
  S+"Matrix33.h: Matrix33", S+"Matrix66.h: Matrix66")

p("Chebyshev series in two and three variables whose function threw can be computed again",
  "If the function given to a Chebyshev series in two or three variables throws during Compute_aij or Compute_aijk, the exception comes out of that call unchanged, the function has been called at nodes of the series only, and a later call that succeeds gives the coefficients of the function.",
  "all functions that may throw at any of their calls, all orders and domains, all histories of calls that succeeded or failed",
  "it concerns every point at which the function can throw and every history of failures",
  S+"ChebyshevSeries2d.h: ChebyshevSeries2dBase::Compute_aij", S+"ChebyshevSeries3d.h: ChebyshevSeries3dBase::Compute_aijk")

p("linspace gives finite points in order for all finite ends in double arithmetic",
  "For all finite double ends start <= stop and at least two points, linspace returns that many finite numbers, the first start and the last stop exactly, never decreasing, all between the ends, each within a few units in the last place of its exact place, also when differences overflow or steps underflow.",
  "all finite binary64 ends, all numbers of points below 2^32, all roundings to nearest of IEEE 754 with overflow and gradual underflow",
  "it concerns every pair of doubles, including those whose difference exceeds the largest number or whose step is below the normal numbers",
  S+"VectorGeneration.h: linspace")

p("Polynomials evaluate to finite accurate values in double arithmetic with overflow and underflow",
  "For finite double coefficients and abscissa, whenever the value of a polynomial or of its derivative and all its terms are in the range of double, Horner and Horner_derivative return a finite number whose error is bounded by the roundings of the terms and by the smallest positive number for each operation.",
  "all lists of finite binary64 coefficients, all finite abscissas, all roundings to nearest of IEEE 754 with overflow and gradual underflow",
  "it concerns every polynomial, including those whose intermediate values leave the range of double",
  S+"Polynomial.h: Horner", S+"Polynomial.h: Horner_derivative")

p("Trapezoidal sums are finite and accurate in double arithmetic with overflow and underflow",
  "For finite double samples, abscissas and steps, whenever the trapezoidal sum and the areas of its panels are in the range of double, both functions Trapz return a finite number whose error is bounded by the roundings of the panels and by the smallest positive number for each operation.",
  "all lists of finite binary64 samples, all finite abscissas and steps, all roundings to nearest of IEEE 754 with overflow and gradual underflow",
  "it concerns every list of samples, including those whose intermediate sums leave the range of double",
  S+"Integration1d.h: Trapz")

p("Integrals over triangles of functions that throw or have a state",
  "Whatever the function does (it may throw, and its values may depend on its earlier calls) and after any calls of Compute, failed or not: when Compute returns, it has called the function exactly once at each point of the rule, in order, and the value is the area times the sum of the returned values times the weights. When it fails, it is because one of these calls failed, in the same way, with no further call, and the object is unchanged. It returns whenever these calls return. All points belong to the triangle, and there are 1, 3, 4, 6, 7, 12, 13, 16 of them for the orders 1 to 8. If the function returns, when it returns, the value of a fixed function at the point, then Compute, when it returns, returns what it would for that function, whatever failed before.",
  "all functions (with exceptions and a state), all orders, all triangles, all histories of calls of Compute",
  "the claim ranges over all functions with a state and over the call at which an exception is thrown",
  S+"Integration2dTriangle.h: Integration2dTriangle::Compute", S+"Integration2dTriangle.h: Integration2dTriangle::ComputeOverStandardTriangle", S+"Integrand.h: Integrand::Evaluate")

p("Solvers, inverse, pseudo-inverse and decompositions agree",
  "For a matrix with independent columns LeastSquareSolver(b) is GetPseudoInverse() times b, the solution of R x = Q^T b with the factors of GetQRDecomposition, and, when the matrix has more rows than columns and there are fewer constraints than columns, independent of one another, the vector that LeastSquareSolverConstraint returns when these constraints already hold for it; for any matrix GetPseudoInverse() times b has the smallest residual. For an invertible matrix GetInverse and GetPseudoInverse are the same matrix, and LUSolver(b), QRSolver(b), LeastSquareSolver(b) and GetInverse() times b the same columns.",
  "all real matrices and right-hand sides of any size, all tolerances below the non-zero singular values",
  "the claim ranges over all matrices and relates operations computed by different algorithms",
  S+"Matrix.h: MatrixMN::GetPseudoInverse", S+"Matrix.h: MatrixMN::LeastSquareSolver", S+"Matrix.h: MatrixMN::LeastSquareSolverConstraint", S+"Matrix.h: MatrixMN::GetInverse", S+"Matrix.h: MatrixMN::LUSolver", S+"Matrix.h: MatrixMN::QRSolver", S+"Matrix.h: MatrixMN::GetQRDecomposition")

p("Special functions near zero and at infinity",
  "The exponential integrals and the Struve functions behave near zero and at infinity as the technical notes document: at infinity Ei_approximation(x) is equivalent to e^x/x, expEi(x) to 1/x and E1_approximation(x) to e^-x/x, with corrections between 0.995/x and 1.105/x from 24 on and between -1.02/x and -0.68/x from 4 on; between 1e-8 and 1 E1_approximation(x) is -ln x - gamma up to x + 2e-16 and Ei_approximation(x) is ln x + gamma up to 1.72 x + 2e-16, gamma being the constant of Euler and Mascheroni; from 0 to 3 the Struve functions have relative errors of 8.11e-8 and 1.71e-8 at most, Struve_first_order(x) is 2/(3 pi) x^2 up to a relative x^2/15 + 1.71e-8 and Struve_zero_order_derivative(x) is 2/pi up to 0.213 x^2 + 2e-15. Real arithmetic.",
  "all real arguments in the ranges given, limits at zero and at infinity",
  "limits and bounds over unbounded ranges of real arguments, and arguments close to zero where an absolute error says nothing",
  S+"BoostFunctions.h: Ei_approximation", S+"BoostFunctions.h: expEi", S+"BoostFunctions.h: E1_approximation", S+"BoostFunctions.h: Struve_zero_order", S+"BoostFunctions.h: Struve_first_order", S+"BoostFunctions.h: Struve_zero_order_derivative")

p("Splines of degree one and splines on few points",
  "For at least two points with increasing abscissas: a Spline of degree one takes, between neighbouring abscissas, the values of the line through the two points, goes on along the first and the last line outside the abscissas, and is the function of Interp1d in the range of the abscissas. A Spline whose degree is at least the number n of points less one does not depend on this degree and is the polynomial of Lagrange through the points, everywhere. With ordinates from a function whose second, or n-th, derivative is at most M in magnitude on an interval with the abscissas the error at each point of this interval is at most M/2 |x - x_i| |x - x_(i+1)|, or M/n! times the product of the distances to the abscissas. A degree of zero gives no finite spline. Exact arithmetic; Eigen's solver is assumed to solve regular square systems.",
  "all degrees, all lists of at least two increasing abscissas, all ordinates, all arguments in and outside the range, all functions with a bounded derivative",
  "infinitely many tables, degrees and arguments; the identity with another class and with a polynomial has to hold at every argument",
  S+"Spline.h: Spline", S+"Spline.h: operator()", S+"Interp1d.h: Eval")

p("Documented formulas of linear and bilinear interpolation",
  "In each cell of the table Interp1d computes the function a_1 + a_2 x and Interp2d the function a_1 + a_2 x + a_3 y + a_4 xy with the coefficients printed in the technical notes. Exact arithmetic.",
  "all tables and grids with increasing coordinates, all cells, all points of the cell",
  "an identity of functions for all tables and arguments; the misprints show only when the values at the corners (x_1, y_2) and (x_2, y_1) differ and the coordinates are not zero",
  S+"Interp1d.h: Eval", S+"Interp2d.h: Initialize", S+"Interp2d.h: Eval")

p("Angles of every size in binary64, with infinities and NaN",
  "For every finite double a and every rule for ties: modulo360(a) and modulo2pi(a) are exact (a plus a whole number of turns, smaller than a turn, of the sign of a); Normalize_0_360(a) is a finite double of [0, 360], below 360 if a >= 0, Normalize__180_180(a) one of ]-180, 180], Normalize_0_2PI(a) one of [0, 2 pi[ and Normalize__PI_PI(a) one of ]-pi, pi], each the angle a up to a whole number of turns and rounding errors (a relative 2^-53 to 2^-52 of the magnitude of a plus at most two turns); no operation overflows or loses bits by underflow, and Normalize__PI_PI gives its own results back unchanged. Infinities and NaN give NaN.",
  "all binary64 numbers, subnormal ones and the largest included, all tie rules",
  "2^64 arguments; the extreme magnitudes are those a test does not try",
  S+"Angles.h: modulo360", S+"Angles.h: modulo2pi", S+"Angles.h: Normalize_0_360", S+"Angles.h: Normalize__180_180", S+"Angles.h: Normalize_0_2PI", S+"Angles.h: Normalize__PI_PI")

p("Unit conversions in binary64, with overflow, underflow, infinities and NaN",
  "For every rule for ties: a finite double that is zero or has a magnitude between 2^-900 and 2^900 (frequencies and periods: 2^-880 to 2^880, zero excepted where a unit is a period) is converted by convert_velocity_unit, convert_frequency, deg2rad and rad2deg to a finite double with the same meaning up to a relative error of 7, 19 and 5 units of rounding 2^-53, and back to what it was up to 13 and 37 units. The conversions of speeds and of frequencies (not periods) are monotone on all doubles but NaN, whatever their magnitude, and never give NaN for them. NaN gives NaN, an infinity the same infinity; an infinite frequency has period zero and an infinite period frequency zero. Near the ends of the range the accuracy is lost: 2^1023 Hz is an infinite number of rad/s, and the smallest positive number of km/h is zero knots.",
  "all binary64 numbers, all pairs of units, all tie rules",
  "2^64 numbers for each pair of units, and the extreme ones are those a test does not try",
  S+"Unit.h: convert_velocity_unit", S+"Unit.h: convert_frequency", S+"Unit.h: deg2rad", S+"Unit.h: rad2deg")

p("Filtering through the spectrum",
  "For signals of every length: multiplying the spectra given by fft for two signals of the same number n of samples, bin by bin, and transforming back with ifft gives their circular convolution (n times that with ScalingOFF; with the half spectrum, n even); if both are filled with zeros to at least the sum of the lengths less one, it is their convolution, the product of polynomials. Delaying a periodic signal by d samples multiplies the bin k by exp(-2 i pi d k / n). The bin 0 is the sum of the samples and no bin exceeds the sum of their magnitudes. With the half spectrum, the sum of the squared magnitudes of the bins, counted twice except the first and, for even n, the last, is n times the sum of the squares of the samples.",
  "all signals of all lengths, both settings of the two flags",
  "all lengths and signals; a test has a few",
  S+"FFT.h: fft", S+"FFT.h: ifft", S+"FFT.h: HalfSpectrumON", S+"FFT.h: ScalingOFF")

p("Interpolation of functions that jump at the nodes",
  "With Continuous = false InterpMultilinear and InterpSimplex interpolate a function that may jump at the nodes of the grid, given by two values for each node of each axis: the limit from below and the value there. The constructor accepts exactly the tables of that size; below the first node and from the last node on the function is constant, between nodes it is affine, and every point can be evaluated. The values lie between the least and the greatest of the table.",
  "all grids, tables and points",
  "all grids, tables and points; the mode has no test",
  S+"thirdparty/linterp.h: NDInterpolator", S+"thirdparty/linterp.h: InterpMultilinear", S+"thirdparty/linterp.h: InterpSimplex")

p("Tolerance comparison of any two numbers in binary64",
  "IsClose(a, b, rtol, atol) is right for every pair of doubles. For finite numbers of every size it decides |a - b| <= atol + rtol |b| but for a relative margin of four roundings and one smallest positive number, also when the difference overflows, and a number is close to itself; NaN is close to nothing; an infinity is close to itself and to no other number. Vectors of the same length are close when they are element by element.",
  "all pairs of doubles, all tolerances with 0 <= rtol <= 1/2 and 0 <= atol up to a quarter of the range, all roundings to nearest",
  "all pairs of doubles; a test has a few, and none with infinities",
  S+"Check.h: IsClose")

p("Grid interpolation of finite tables in binary64",
  "RegularGridInterpolator<double> on finite axes, data and points gives, without bound check, a finite number: at a node exactly its datum, on equal data exactly this number, outside the box exactly the value of the nearest point of the box, and everywhere the exact interpolant up to rounding. With bound check the call throws exactly for the finite points outside the box.",
  "all numbers of dimensions, all axes and tables of finite doubles, all finite query points, all roundings to nearest, with overflow and underflow",
  "all tables, sizes and points; overflow and underflow at every operation of a recursion of any depth",
  S+"RegularGridInterpolator.h: RegularGridInterpolator::Interp", S+"thirdparty/linterp.h: InterpMultilinear::interp")

p("Interpolation in two variables of finite tables in binary64",
  "Interp2d<double> on finite coordinates and data completes at every point of the range of the table, and gives a finite number that is the bilinear interpolant of the cell up to rounding. Out of the range a build with assertions refuses the point.",
  "all tables of finite doubles with increasing coordinates, all finite points in the range, all roundings to nearest, with overflow and underflow, builds with and without assertions",
  "all tables and points, of all magnitudes; overflow and underflow at every one of some sixty operations",
  S+"Interp2d.h: Interp2dLinear::Initialize", S+"Interp2d.h: Interp2dLinear::Eval")

p("Chebyshev series in binary64 are finite where the sum is",
  "Evaluate of a Chebyshev series in one, two or three variables, holding finite coefficients on a domain with finite bounds, returns at every finite point of the domain a finite number that is the sum of the series there, up to rounding and underflow.",
  "all series of finite coefficients and all orders, all segments and half lines with finite bounds, all finite points of the domain, all roundings to nearest, with overflow and underflow, builds with and without assertions",
  "all coefficients, orders, domains and points, of all magnitudes; overflow and underflow at every operation of the recurrence",
  S+"ChebyshevSeries1d.h: ChebyshevSeries1dBase::Evaluate", S+"ChebyshevSeries2d.h: ChebyshevSeries2dBase::Evaluate", S+"ChebyshevSeries3d.h: ChebyshevSeries3dBase::Evaluate")

p("Power series in binary64 are finite where the sum is",
  "Evaluate of a power series in one, two or three variables, holding finite coefficients on a domain with finite bounds, returns at every finite point of the domain a finite number that is the sum of the series there, up to rounding and underflow.",
  "all series of finite coefficients and all orders, all segments and half lines with finite bounds, all finite points of the domain, all roundings to nearest, with overflow and underflow, builds with and without assertions",
  "all coefficients, orders, domains and points, of all magnitudes; overflow and underflow at every operation of the map to [-1, 1] and of the Horner scheme",
  S+"PowerSeries1d.h: PowerSeries1dBase::Evaluate", S+"PowerSeries2d.h: PowerSeries2dBase::Evaluate", S+"PowerSeries3d.h: PowerSeries3dBase::Evaluate", S+"Polynomial.h: Horner")

p("The derivatives and fixed-z evaluations of power series in double arithmetic are near the true ones",
  "For power series in two and three variables on a segment or a half line that does not contain zero, evaluated in double arithmetic: every partial derivative, the value and derivatives for z tending to infinity, and the value and derivatives with the coefficients precomputed for a fixed z, are near those of the series with an error that is a small multiple of the size of the terms; the functions returning the value and two derivatives at once return the very numbers of the separate functions. The y derivative with precomputed coefficients is claimed on segments only (C31).",
  "all coefficients, all orders, all domains, all points of the domain, all roundings to nearest, builds with and without assertions",
  "all coefficients, orders, domains and points, with a rounding error at every operation",
  S+"PowerSeries2d.h: Evaluate_derivative_x, Evaluate_derivative_y", S+"PowerSeries3d.h: Evaluate_derivative_x, Evaluate_derivative_y, Evaluate_derivative_z, Evaluate_f_dfdx_dfdy, Evaluate_zinf, Evaluate_derivative_x_zinf, Evaluate_derivative_y_zinf, Compute_cij, Evaluate_z_predefined, Evaluate_derivative_x_z_predefined, Evaluate_derivative_y_z_predefined, Evaluate_f_dfdx_dfdy_z_predefined")

p("Steps, windows, impulses, ramps, saturation and sign are right for all doubles, with infinities",
  "With numbers as binary64 has them, overflow, gradual underflow, infinities and NaN included: Heaviside is 0 before the step, 1 after it and one half at it, for all points and steps, finite or infinite, in their order on the extended line; Door is the height inside, 0 outside and the double nearest to half the height at the limits; Saturate is the nearest value of the interval and keeps NaN; sgn is the sign; SgnSqrt is the signed square root to half a unit in the last place and keeps infinities and NaN; Dirac is the height at the points within half a step of the impulse, up to the rounding of half a step, and 0 elsewhere; Ramp is the left value up to the left limit, the right value beyond the right limit, and on the straight line, to rounding, between them. A point that is NaN gives NaN.",
  "all vectors of doubles, infinities and NaN included; all limits, heights and values; all roundings to nearest; builds with and without assertions",
  "all pairs of doubles, with overflow and underflow at every operation, NaN and infinities",
  S+"Functions.h: Heaviside, Door, Dirac, Ramp", S+"Maths.h: sgn, Saturate, SgnSqrt", S+"StdVector.h: Minus, Scale")

p("The number of values of arange, and where they are, in double arithmetic",
  "In double arithmetic arange(start, stop, step) has n values, where n is the whole part of (stop - start) / step unless this quotient is within three roundings of a whole number, and there one of the two neighbouring values; the first value is start, the last is the double nearest to n step, and they are in order and equally spaced up to rounding. With fewer than two values, or when n step is below start, the program stops at an assertion if it checks them; from 2^32 values on the conversion of the number is undefined. (That the spacing is not step, and the last value not below stop, is C50.)",
  "all doubles start < stop and step > 0, all roundings to nearest, builds with and without assertions",
  "every quotient, on each side of every whole number, with a rounding error at each operation",
  S+"VectorGeneration.h: arange, linspace")

p("Element-wise operations and sums of vectors of doubles with infinities and NaN",
  "In binary64 with overflow, gradual underflow, infinities and NaN, Add, Minus, Mult, Divide (by elements other than zero), AddScalar and Scale return a vector of the same length whose every element is the exact result on the extended real line rounded to a nearest double (an infinity of the right sign on overflow), and NaN exactly in the cases that have no result: a NaN operand, infinities that cancel, zero times an infinity, an infinity over an infinity. Negate changes the sign of every double exactly and is its own inverse. Add and Mult do not depend on the order of their arguments and a finite vector less itself is zero. Sum of finite doubles is never NaN and, unless the sum of the magnitudes nearly overflows, is finite and within ((1+u)^n - 1) times the sum of the magnitudes of the exact sum, with no underflow error; a NaN element or infinities of both signs make it NaN; its overflow depends on the order.",
  "all vectors of doubles (finite, infinite or NaN) of fewer than 2^32 elements (C221 for longer ones), all scalars, every rounding to nearest of binary64, asserts on and off",
  "The special values and overflow thresholds combine in every element and the error bound of a sum is over all vectors of all lengths.",
  S+"StdVector.h: Add, AddScalar, Sum, Minus, Mult, Divide, Scale, Negate")

p("Saturation, sign, square root with sign, comparison and angles of integers",
  "Called with signed integers the scalar functions give the exact mathematical result: Saturate the number of [lo, hi] nearest to its argument, sgn the sign, SgnSqrt the sign times the integer part of the square root of the magnitude, IsClose the truth of |a-b| <= atol + rtol |b| (equality with the default tolerances, which convert to zero), Normalize_0_360 and Normalize__180_180 the representative of the angle in [0, 360) and (-180, 180].",
  "all integers of 32 bits, for Saturate also of 64 bits, all tolerances, every rounding to nearest",
  "The failures are at the ends of the types and above 2^53, where no test looks.",
  S+"Maths.h: sgn, Saturate, SgnSqrt", S+"Check.h: IsClose", S+"Angles.h: modulo360, Normalize_0_360, Normalize__180_180")

p("Vectors of integers: linspace, steps, ramps, element-wise operations, sums",
  "Called with signed integers the vector functions agree with the mathematical definitions: linspace gives num points in order from start to stop in equal steps, Heaviside and Door the indicator of their half-open intervals, Ramp the affine ramp between its two levels, Add, Minus, Mult, Divide and Scale the exact element-wise result (Divide truncated towards zero), Sum the sum.",
  "all vectors of integers of fewer than 2^32 elements (C221 for longer ones), all integer parameters, asserts on and off",
  "Truncating divisions and overflow depend on every argument.",
  S+"VectorGeneration.h: linspace", S+"Functions.h: Heaviside, Door, Ramp", S+"StdVector.h: Add, Minus, Mult, Divide, Scale, Sum")

p("Polynomials at integer points and trapezoidal sums of integers",
  "Horner and Horner_derivative called with an integer point (as in Horner(c, 2), where the type of the result is int) return the value of the polynomial and of its derivative; Trapz of integer samples returns the integral of the piecewise affine function through them, truncated towards zero.",
  "all lists of coefficients, all int points, all lists of int abscissae and ordinates with intermediate results in range, every rounding to nearest",
  "The result is truncated at every step, so the error depends on every coefficient.",
  S+"Polynomial.h: Horner, Horner_derivative", S+"Integration1d.h: Trapz")

p("The same data in other units, read in the other direction, or with the axes in another order",
  "Interpolating the same data given in other units of the coordinates (x becomes a x + b with a positive) gives at the converted point the same value or the same refusal; so does the data read in the other direction (x becomes -x, tables reversed), and, in several variables, the data with two axes exchanged. Trapezoidal sums and integrals of functions follow the change of variable, change sign when read backwards or when the bounds are exchanged.",
  "all tables and grids of any dimension, all units, all points, with and without bound check, both kinds of build",
  "A relation between two runs on different data, for all data.",
  S+"Interp1d.h: Interp1dLinear, Interp1dLinearSaturate, Interp1dLinearExtrapolate", S+"Interp2d.h: Interp2dLinear", S+"RegularGridInterpolator.h: RegularGridInterpolator::Interpolate", S+"Integration1d.h: Trapz, Integrate1d")

p("Chebyshev series of sums, products and functions in other units",
  "The series computed for a linear combination of functions is the linear combination of their series, in one, two and three variables; the series of a product of functions of one variable each is the product of their series; the series of a function in other units gives at the converted point the same value; giving the ends of a segment in the other order, or exchanging the variables, does not change the series; even functions give even series and odd functions odd ones.",
  "all functions, orders, segments and half lines, points where the series is defined",
  "A relation between several series computed from different functions, for all functions.",
  S+"ChebyshevSeries1d.h: Compute_ai, Evaluate", S+"ChebyshevSeries2d.h: Compute_aij, Evaluate", S+"ChebyshevSeries3d.h: Compute_aijk, Evaluate")

p("Integrals over triangles that are moved, turned, reflected, enlarged or deformed",
  "The integral computed over a triangle moved, turned, reflected or enlarged c times is c squared times the integral over the first triangle of the integrand carried back; it does not depend on where the origin is; under any affine map, even one that deforms or flattens the triangle, the two integrals are in the ratio of the areas.",
  "all orders from 1 to 8, all integrands with values in a vector space, all triangles of the space, flat ones included, all affine maps",
  "A relation between integrals over different triangles, for all triangles, maps and integrands.",
  S+"Integration2dTriangle.h: Integration2dTriangle::Compute, ComputeOverStandardTriangle")

p("Rules of the pseudo-inverse",
  "The pseudo-inverse computed with any tolerance depends on the matrix alone, not on the singular vectors chosen by the decomposition. That of the transpose is the transpose; that of -A is the opposite; turning the space of the results turns it; the normal equations give the same one with the square of the tolerance; that of c A is that of A divided by c; that of the pseudo-inverse is the matrix.",
  "all matrices of any sizes, all tolerances from zero up, all documented singular value decompositions, both kinds of build",
  "Relations between several decompositions, for all matrices and for every choice of the singular vectors, which tests see only one of.",
  S+"Matrix.h: MatrixMN::GetPseudoInverse, GetSVDDecomposition, Pinv, Transpose")

p("Rules of inverses, solvers, Cholesky factors and eigenvalues",
  "GetInverse of a product is the product of the inverses in the other order, of the transpose the transpose, of c A the inverse divided by c. LUSolver and QRSolver do not change when the equations are combined with an invertible matrix, and LeastSquareSolver with an orthogonal one; the answers of LUSolver and LeastSquareSolver superpose. The Cholesky factor of c A is that of A times the square root of c, and that of a leading block is the leading block of the factor. Eigenvalues of the transpose, of C A instead of A C and of P A P^-1 are the same, with c times the identity added they are moved by c, and those of c A are multiplied by c.",
  "all sizes and all matrices (invertible, positive definite or with independent columns where the function needs it), all right-hand sides, all numbers c, both kinds of build",
  "Relations between the answers to several calls, for all matrices.",
  S+"Matrix.h: MatrixMN::GetInverse, GetCholeskyDecomposition, Eigenvalues, LUSolver, QRSolver, LeastSquareSolver, Transpose")

p("Simplex interpolation and nearest nodes in other units, directions and orders of the axes",
  "The simplex interpolator gives the same value whatever the sort does with equal fractions; the same data in other units on each axis, or with two axes exchanged, or with axes read in the other direction, give the same value at the corresponding point, in the grid and outside. Nearest finds the corresponding node with the same value.",
  "all dimensions, grids, data and points, all units, all sorting functions allowed by the standard",
  "Relations between two interpolators for all grids, data and points; the unspecified order of equal elements after std::sort.",
  S+"thirdparty/linterp.h: InterpSimplex::interp", S+"RegularGridNearest.h: RegularGridNearest::Nearest")

p("The spline is the only one through the points",
  "Spline gives the only function that passes through the points, has one continuous derivative less than its degree and is a polynomial of this degree between neighbouring break points (the ends and the means of consecutive abscissas). So a spline function is given back by its values at the abscissas, the points read in the other direction give the mirror image, and symmetric points give a symmetric function. The same points in other units of the abscissa give the same value or the same refusal at the converted point.",
  "all degrees, all strictly increasing lists of at least two abscissas, all ordinates, all points of evaluation, all functions compared with",
  "Ranges over all functions that could compete and all sets of points.",
  S+"Spline.h: Spline::Spline, Spline::operator()")

p("Products, inverses and sizes of rotations, and which angles describe the same one",
  "Two sets of Euler angles give the same matrix, and quaternions that are equal up to the sign, exactly when they agree up to whole turns, or are the two solutions on either side of the vertical, or have the same vertical pitch and the same difference (sum) of roll and yaw. Every rotation has such angles; the angles returned are in (-pi, pi], [-pi/2, pi/2], (-pi, pi] for every matrix and quaternion. The product of quaternions is the product of the matrices, the conjugate the inverse, and the same the other way up to the sign. The angles read from a matrix do not depend on its size; those read from a quaternion do.",
  "all Euler angles, quaternions, rotation matrices, matrices and factors",
  "Relations between the conversions for all rotations, with the exceptional pitch on a set of measure zero.",
  S+"Geometry.h: quaternionToEulerAnglesZYX, eulerAnglesZYXToQuaternion, rotationMatrixToEulerAnglesZYX, eulerAnglesZYXToRotationMatrix, quaternionToRotationMatrix, RotationMatrixToQuaternion")

p("A signal that arrives sample by sample, filtered by NaiveConvolution",
  "After any history of samples pushed in front of a circular buffer at least as long as the kernel, NaiveConvolution returns the discrete convolution of the kernel with the past of the signal, the newest sample with the first element of the kernel; with samples pushed at the back and reverse off the result is the same if the buffer is as long as the kernel, and late by the difference if it is longer. So the output is linear and does not depend on the origin of time, forgets samples older than the kernel, answers to an impulse with the kernel (half at both ends), settles to the constant times the integral of the kernel, stays bounded, and is the convolution integral up to (N-1) M dt^3/12. A buffer that holds fewer samples than the kernel is refused.",
  "all kernels of at least two elements, all histories of pushes, all lengths of the buffer, all steps",
  "Ranges over all histories of pushes, before and after the buffer wraps around.",
  S+"Convolution.h: NaiveConvolution")

p("Added nodes that carry interpolated values change nothing",
  "A node added between two neighbouring nodes of a table, with the value of the segment there, changes no result of Interp1d with a linear method, at any point, in or out of the range; nor does a column or a row added to the grid of Interp2d, in the box (with assertions anywhere); nor does a coordinate added to any axis of a regular grid of any dimension, for the multilinear interpolation, in or out of the box, with and without check of the bounds. Trapz of the samples with the node equals Trapz of the samples without. The interpolation on simplices does change.",
  "all tables and grids of any size and dimension, all places of the added node, all points",
  "Ranges over all tables, all places where a node can be added and all points of evaluation.",
  S+"Interp1d.h: Interp1d", S+"Interp2d.h: Interp2d", S+"RegularGridInterpolator.h: RegularGridInterpolator::Interpolate", S+"Integration1d.h: Trapz")

p("A table with its columns exchanged is the inverse function",
  "If the ordinates of a table increase strictly, the 1D interpolator of the table with the two columns exchanged is the inverse of the interpolator: from the value at any point of the range it gives the point back, and every value between the first and the last ordinate is taken at exactly one point, the one it finds. With decreasing ordinates the same holds with both columns read backwards. With LINEAR_SATURATE, going and coming back brings any point to the nearest point of the range.",
  "all tables with strictly monotone ordinates, all points, all pairs of linear methods, both kinds of build",
  "A relation between two interpolators, for all tables and all points.",
  S+"Interp1d.h: Interp1dLinear, Interp1dLinearSaturate, Interp1dLinearExtrapolate")

p("Rules of the least squares with constraints",
  "The answer of the least squares with constraints satisfies the constraint and leaves a residual orthogonal to the effect of every move that respects the constraint. If no non-zero vector is sent to zero by both matrices, the answer is the only best one, whatever decompositions are used and whatever the storage held; a vector that solves equations and constraints exactly is given back; answers superpose with the right-hand sides; combining the constraints with one another invertibly, turning the equations orthogonally or multiplying them by a non-zero factor changes nothing; and changing the unknowns by an invertible matrix changes the answer accordingly. Weaker constraints never leave a larger residual.",
  "all matrices with fewer constraints than unknowns and fewer unknowns than equations, constraints of full row rank, all right-hand sides, all decompositions meeting their documentation, both kinds of build",
  "Relations between answers for all matrices of all sizes.",
  S+"Matrix.h: MatrixMN::LeastSquareSolverConstraint")

p("Rules of the power series",
  "The values and the derivatives of a power series of one, two or three variables are linear in its coefficients. Coefficients of value zero behind the others change nothing. The coefficients obtained by multiplying two polynomials give the product of the two functions. Transposed coefficients with the two domains exchanged give the function with its arguments exchanged, and its derivatives with respect to each. With every other coefficient of the opposite sign a function on a segment is read in the other direction, with the derivative of the opposite sign. In other units (a segment moved and stretched, a half line stretched) the same coefficients give the same values, and derivatives divided by the factor. Two series of the same length that agree at as many points as they have coefficients have the same coefficients.",
  "all coefficients of all sizes, all kinds of domain, all points where the series is defined, both kinds of build",
  "Relations between series for all coefficients, domains and points.",
  S+"PowerSeries1d.h: PowerSeries1dBase::Evaluate, PowerSeries1dBase::Evaluate_derivative_x", S+"PowerSeries2d.h: PowerSeries2dBase::Evaluate, PowerSeries2dBase::Evaluate_derivative_x, PowerSeries2dBase::Evaluate_derivative_y", S+"PowerSeries3d.h: PowerSeries3dBase::Evaluate")

p("Rules of the normalised angles",
  "Two angles have the same normalised value exactly when they differ by whole turns. Sums, differences and whole multiples may be computed from normalised angles: normalising the result gives what normalising the result from the original angles gives. Each interval may be reached through the other one. The opposite angle has the opposite value, but half a turn (zero) stays. Conversion between degrees and radians commutes with normalisation. The value in the symmetric interval is the smallest in size of all values of the angle, so the size of the normalised difference of two headings is a distance: zero exactly for the same heading, symmetric, at most half a turn, and never longer than through a third heading.",
  "all real angles, all whole multiples, the four normalisations, exact arithmetic",
  "Relations between the values at all angles.",
  S+"Angles.h: Normalize_0_360, Normalize__180_180, Normalize_0_2PI, Normalize__PI_PI", S+"Constants.h: MU_PI_180, MU_180_PI")

p("Integrals of sampled steps, windows, impulses and ramps",
  "On the points that linspace returns, the trapezoidal rule (with the abscissae or with the step) integrates exactly: a Heaviside step at an inner sample gives the length after it, a Door between inner samples gives height times width, a Ramp between samples gives the area under it, and a Dirac impulse nearer than half a step to an inner sample gives height times step. A step at the first or last sample is a quarter of a step off. An impulse exactly half way between two samples is lost: every value is 0.",
  "all intervals, all numbers of points below 2^32, all positions among the samples, all heights and levels, both kinds of build; exact arithmetic",
  "It holds for every interval, number of points and position; the exact half-way case is one point in a continuum.",
  S+"VectorGeneration.h: linspace", S+"Functions.h: Heaviside, Door, Dirac, Ramp", S+"Integration1d.h: Trapz")

p("The two methods of interpolation on a grid compared",
  "On the same table, the simplex and the multilinear method return the same value at every point all of whose coordinates but one are those of nodes (also when the other one is outside the grid): between two consecutive nodes, that of the straight line through their data. At every other point of the grid they differ by no more than the spread of the data at the vertices of the cell. In two variables the simplex value minus the bilinear value is exactly the second mixed difference of the data of the cell times (min(xi, eta) - xi eta), so it has the sign of that difference and never exceeds a quarter of it.",
  "all grids with strictly increasing axes, all numbers of axes, all data, all points, every order given to equal fractions by the sort; exact arithmetic",
  "It compares two algorithms at every point of every table; samples show only some cells and positions.",
  S+"thirdparty/linterp.h: InterpSimplex, InterpMultilinear, interp")

p("What a spectrum says about a signal",
  "For every number of samples and every setting of the flags: fft tells any two different signals of the same length apart, also where ifft does not give them back (odd lengths with the half spectrum). fft after ifft gives back every spectrum that a real signal can have (n times without scaling). A pulse has bins of magnitude 1, a reversed periodic signal the conjugate bins. Filling up with zeros to r times the length keeps each bin at r times its place; repeating a signal r times puts r times its bins at every r-th place and zeros between. Constant samples fill the first bin alone, alternating ones the bin n/2 alone. Sinusoids whose frequencies differ by a multiple of the sampling frequency, or add up to one with opposite phases, cannot be told apart.",
  "all lengths, all real signals, all spectra with the symmetry of real signals, all flags, amplitudes, phases and frequencies",
  "It ranges over all signals and lengths; tests compare a few transforms.",
  S+"FFT.h: fft, ifft, HalfSpectrumON, ScalingOFF")

p("Rules of integrals of samples",
  "For Trapz(x, y) with abscissae in increasing order and for Trapz(y, dx) with a step that is not negative: samples between m and M give an integral between m and M times the length of the interval; the magnitude of the integral is at most the integral of the magnitudes; the square of the integral of a product is at most the product of the integrals of the squares, and the square of the integral at most the length times the integral of the squares; a convex function of the mean is at most the mean of the function. The integral over two neighbouring ranges that share a sample is the sum of the two integrals. One more sample of a convex function does not increase the integral of the samples.",
  "all numbers of samples from two, all abscissae in order, all steps, all samples, all convex functions, both kinds of build; exact arithmetic",
  "They are inequalities over all samples of all sizes.",
  S+"Integration1d.h: Trapz")

p("Velocities of the points of a rigid body",
  "TransportAtPoint gives the velocity of the points of a moving rigid body: if the origin of the body moves with a velocity v and its heading turns at the speed w, the point of the body with given local coordinates, projected on the NED axes, moves with the velocity returned, the derivative of its position. Transporting in the local frame and in the NED frame agree. The velocities of two points have the same component along the line that joins them and differ by their distance times the rotation speed. If the speed is not zero there is exactly one point without velocity, and every point moves at a right angle to the line to that point with its distance times the rotation speed.",
  "all motions of the origin and of the heading that are differentiable, all points, velocities, rotation speeds, units and angles; exact arithmetic",
  "The derivative of a motion is a limit, and the geometry is over all points and motions.",
  S+"Vector2d.h: TransportAtPoint, ProjectLocalOnNED, ProjectNEDOnLocal")

p("Rules of equally and logarithmically spaced points",
  "linspace: scaling and moving both ends scales and moves all the points; mirrored ends give the mirrored points in the other order; with k times as many intervals the former points are every k-th point; two neighbouring ranges with the same step join into one; the points add up to their number times the middle of the interval. logspace: the logarithms of the points are the points of linspace; a base raised to a power gives the points of the scaled exponents; the inverse base gives the inverse points, the mirrored exponents give the inverse points in the other order, and points at the same distance from the two ends have the product of the ends.",
  "all ends in order, all numbers of points from two, all scales that are not negative, all refinements, all positive bases, both kinds of build; exact arithmetic",
  "They relate the results of several calls for all ends and numbers of points.",
  S+"VectorGeneration.h: linspace, logspace")

p("Rules of polynomials given by their coefficients",
  "Horner: a combination of two vectors of coefficients gives the combination of the values; coefficients put one after the other add the second polynomial times a power of the point; zeros put after the coefficients change nothing; coefficients multiplied by the powers of k give the polynomial at k x; coefficients in the other order give the polynomial at 1/x times a power of x; the sums of products of the coefficients give the product of the values. Horner_derivative is Horner on the coefficients multiplied by their degrees. A polynomial whose coefficients are not all zero has fewer zeros than coefficients, and as many values as coefficients determine the coefficients. Coefficients that are not negative give increasing values from zero on; conjugate points give conjugate values.",
  "all vectors of coefficients that are not empty, all points, real and complex; exact arithmetic",
  "They relate the values at all points and for all numbers of coefficients.",
  S+"Polynomial.h: Horner, Horner_derivative")

p("The order, the names and the choice of the series of a lookup table",
  "In a lookup table of one or two variables a series does not depend on the other ones. If a program of axes and series succeeds, the program that adds only some of the series, under other names (different ones for different series), succeeds too; every series kept has the same value or refusal at every point under its new name, and no other name is known. Series of different names may be added in any order after the axes: if one order succeeds so does every other one, with the same values and the same number of series.",
  "all programs of axes and series that succeed, all choices and renamings of the series, all permutations, all names and points; asserts compiled in or out; exact arithmetic",
  "They compare two tables over all programs, all sets of names and all points.",
  S+"LookupTable1D.h: LookupTable1D::SetX, AddY, Eval", S+"LookupTable2D.h: LookupTable2d::SetX, SetY, AddData, Eval, HasSerie")

p("Vectors of any length",
  "Minus, Door, IsClose of vectors, NaiveConvolution, Initialize of the 1D and 2D interpolators and Eval of a 1D interpolator on a vector do for vectors of every length that memory can hold what they do for short ones.",
  "all vectors of any length, with the 32-bit counters of the code; asserts compiled in or out",
  "The first length that fails has 2^31 or 2^32 elements; a test would have to fill 16 or 32 gigabytes and, for a loop that never ends, to wait for ever.",
  S+"StdVector.h: Minus", S+"Functions.h: Door", S+"Check.h: IsClose", S+"Convolution.h: NaiveConvolution", S+"Interp1d.h: Interp1dLinearBase::Initialize, Interp1d::Eval", S+"Interp2d.h: Interp2dLinear::Initialize")

p("Calls that end the program report a failure",
  "A call that ends the program gives the system the status of a failure (not 0), so that whoever started the program can see that it did not finish its work; and a call ends the program only for the arguments that its class or function refuses.",
  "all functions of the library that call exit; all arguments and all states of the objects; asserts compiled in or out",
  "Which calls end the program depends on every argument and on the history of the object, and a test framework itself ends with the call it tests.",
  S+"Interp1d.h: Interp1dLinear::PrivEval, MakeInterp1d", S+"LookupTable1D.h: AddY, Eval", S+"LookupTable2D.h: AddData, Eval", S+"RegularGridInterpolator.h: AddCoord, AddVar, GetCoord, GetCoordMinVal, GetCoordMaxVal", S+"RegularGridNearest.h: AddCoord, AddVar, GetCoord", S+"Angles.h: STRING2ANGLE", S+"BoostFunctions.h: Ei_approximation, E1_approximation, Struve_zero_order, Struve_first_order", S+"ChebyshevSeries1d.h: Compute_bi", S+"ChebyshevSeries2d.h: Compute_bij", S+"ChebyshevSeries3d.h: Compute_bijk", S+"Integration2dTriangle.h: Integration2dTriangle")

p("Exceptions derive from std::exception",
  "Every exception that a call of the library throws derives from std::exception, so that one handler is enough; 1D and 2D interpolators and tables throw std::out_of_range only, regular grids std::runtime_error and std::invalid_argument, RegularGridNearest nothing, integrals and Cholesky decompositions std::runtime_error.",
  "all arguments, all states of the objects, all sequences of calls on a lookup table; asserts compiled in or out; memory is not exhausted (C145-C148 for that)",
  "Which calls throw and what depends on every argument and on the history of the object; a test sees the exceptions of the calls it makes.",
  S+"Interp1d.h: Initialize, Eval", S+"Interp2d.h: MakeInterp2d, Initialize, Eval", S+"LookupTable1D.h: AddY, Eval", S+"LookupTable2D.h: AddData, Eval", S+"RegularGridInterpolator.h: AddCoord, AddVar, Interp", S+"RegularGridNearest.h: AddCoord, AddVar, Nearest, GetSurroundingGridNodes", S+"Integration1d.h: Get", S+"Matrix.h: GetCholesky")

p("Assertions have no effect on the results",
  "Compiling the library with NDEBUG changes nothing to a call which, compiled with assertions, neither stops at an assertion nor is undefined: it returns the same values, throws the same exception or ends the program with the same status, and leaves the object in the same state.",
  "all arguments, all objects in any state, any sequence of initialisations of an interpolator or of calls on a lookup table; exact arithmetic, arithmetic with any rounding, binary64 with overflow, machine integers",
  "Tests run in one of the two builds; a computation hidden in an assertion is missing only in the other one, and only matters for the inputs where its result is used.",
  S+"Interp1d.h: Initialize, Eval", S+"Interp2d.h: Initialize, Eval", S+"LookupTable1D.h: AddY", S+"LookupTable2D.h: AddData, Eval", S+"VectorGeneration.h: linspace, arange, logspace", S+"StdVector.h: Add, Minus, Mult, Divide", S+"Functions.h: Sinc, Door, Ramp", S+"Check.h: IsClose, AssertIsClose", S+"Integration1d.h: Trapz", S+"Convolution.h: NaiveConvolution", S+"BoostFunctions.h: Ei_approximation, expEi, E1_approximation", S+"ChebyshevSeries1d.h: all members", S+"ChebyshevSeries2d.h: all members", S+"ChebyshevSeries3d.h: all members", S+"PowerSeries1d.h: all members", S+"PowerSeries2d.h: all members", S+"PowerSeries3d.h: all members", S+"Matrix.h: at, decompositions, solvers", S+"Spline.h: Spline, operator()")

p("Errors in samples, coefficients and integrands are amplified by known factors only",
  "If two sets of inputs differ by at most e, the results differ by at most: e times the length of the range for Trapz with abscissae; e times the number of steps times the magnitude of the step for Trapz with a step; e times the step times the trapezoidal sum of the magnitudes of the other operand for NaiveConvolution; e times the sum of the powers of the magnitude of x for Horner (with the derivatives of these powers for Horner_derivative); e times the number of coefficients for the power series on their domains; e times the number of samples for each bin of the FFT; (2n+1) e for a Chebyshev series of order n, the product of these factors in two and three variables; and 5/2 e times the area for Integration2dTriangle.",
  "all inputs of all sizes with matching shapes, all error bounds e, all points of the domain, all orders; exact arithmetic",
  "Tests compare results for one set of inputs; a bound on what every perturbation of every input can do to the result cannot be sampled.",
  S+"Integration1d.h: Trapz", S+"Convolution.h: NaiveConvolution", S+"Polynomial.h: Horner", S+"ChebyshevSeries1d.h: Compute_ai, Evaluate", S+"ChebyshevSeries2d.h: Compute_aij, Evaluate", S+"ChebyshevSeries3d.h: Compute_aijk, Evaluate", S+"Integration2dTriangle.h: Compute")

p("Several variables, a few at a time",
  "Interpolating a regular grid in its last variables at each node of the first ones, and then in the first ones the values so obtained, gives what interpolating in all the variables at once gives, inside and outside the grid. So a section of the grid through nodes is a grid of fewer axes; data that are a sum or a product of data of the first axes and data of the others are interpolated by the sum or the product of the two interpolations; and a variable on which the data do not depend has no effect. The same holds of Interp2d and Interp1d, of Chebyshev series and of power series of two variables and of one, and of three variables, of two and of one.",
  "all grids of all dimensions split anywhere, all data, all points inside and outside (for Interp2d all points of the table), all series and points where the maps of the coordinates are defined; exact arithmetic",
  "Each identity links several objects for every point and every data; a test compares them at a few points of a few tables.",
  S+"RegularGridInterpolator.h: Interp", S+"Interp2d.h: Eval", S+"Interp1d.h: Eval", S+"ChebyshevSeries1d.h: Evaluate", S+"ChebyshevSeries2d.h: Evaluate", S+"PowerSeries1d.h: Evaluate", S+"PowerSeries2d.h: Evaluate", "src/MathUtils/ChebyshevSeries3d.h: Evaluate", "src/MathUtils/PowerSeries3d.h: Evaluate")

p("Errors in linear systems",
  "When in every row the diagonal element of a square matrix exceeds the sum of the others, in magnitude, by at least some positive amount, LUSolver and QRSolver answer, and errors in the right-hand side change each element of the solution by at most the largest error over that amount; the solution itself is at most the largest element of the right-hand side over that amount. Errors in the elements of such a matrix, when those of each row add up to at most some total smaller than that amount, leave a system that LUSolver still answers, with a solution changed by at most the largest element of the right-hand side times the total, over the amount times the difference of the amount and the total. When the quadratic form of the matrix is at least a positive multiple of the sum of squares, the two solvers answer, and the norm of the change of each column of the solution is at most the norm of the change of that column of the right-hand side over that multiple. LeastSquareSolver never amplifies: for every matrix, the fitted values change by no more, in norm, than the right-hand side, and the squares of the changes of the fitted values and of the residuals add up to that of the right-hand side. The fitted values of LeastSquareSolverConstraint, for a given constraint of full rank, do not change by more than the right-hand side either.",
  "all matrices with the stated property (for least squares, all matrices), all pairs of right-hand sides of any number of columns; exact arithmetic, the linear algebra library as documented",
  "The bounds hold for every error in every right-hand side; a test perturbs a few.",
  S+"Matrix.h: LUSolver, QRSolver, LeastSquareSolver, LeastSquareSolverConstraint")

p("Integrals over rectangles, by integrating twice",
  "Integrating with Trapz each row of an array of samples and then the results gives a value that does not depend on which of the two directions is integrated first, with abscissae given in increasing order or with a step, independently in the two directions. The value is linear in the samples; for products of samples of the two directions it is the product of the two integrals; samples between two bounds give a value between those bounds times the area; errors in the samples change it by at most the largest error times the area; and it is exact for samples of a + b x + c y + d x y, whatever the abscissae.",
  "all arrays of samples with at least two rows and two columns, all abscissae and steps; exact arithmetic",
  "The equality of the two orders and the bounds hold for every array; a test compares them on a few.",
  S+"Integration1d.h: Trapz")

with open('/verif/properties.jsonl','w') as f:
    for x in P: f.write(json.dumps(x)+"\n")
print(len(P)); 
for x in P: print(x['id'],x['title'])
