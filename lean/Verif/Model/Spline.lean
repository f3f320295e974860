import Verif.Model.Eigen
import Verif.Model.VectorClasses

/-!
# Spline.h

`Spline` fits an interpolating B-spline with Eigen's unsupported `Splines` module. Eigen is not in the sandbox: `Span`, `BasisFunctions`,
`KnotAveraging`, `Interpolate` and the evaluation below follow the public text of unsupported/Eigen/src/Splines/Spline.h and SplineFitting.h of
Eigen 3.3/3.4, written down from memory; this is part of the trusted base (DESIGN.md). Only the solution of the linear system,
`HouseholderQR::solve`, is a parameter. `Dim` is 1, the only value for which the constructor compiles. `Deg` is a natural number.
-/

namespace MU

/-- `Eigen::Spline<Real, 1>`: its knots and its control points (/repo/src/MathUtils/Spline.h:21). -/
structure ESpline where
  knots : List ℝ
  ctrls : List ℝ

/-- `Eigen::Spline::Span`: the number of the knot interval of `u`. Used by /repo/src/MathUtils/Spline.h:30, 56.
`upper_bound(knots.data() + degree - 1, knots.data() + knots.size() - degree - 1, u) - knots.data() - 1`; for degree 0 the first pointer is outside
the array. -/
noncomputable def ESpline.span (B : Build) (u : ℝ) (p : ℕ) (U : List ℝ) : Res ℕ := do
  let u0 ← eAt B U 0
  if u ≤ u0 then return p
  else if p = 0 ∨ U.length < 2 * p then .ub
  else do
    let k ← upperBound ((U.take (U.length - p - 1)).drop (p - 1)) u
    return p - 1 + k - 1

/-- The body of the inner loop of `BasisFunctions`: `tmp = N(r) / (right(r+1) + left(j-r)); N(r) = saved + right(r+1) * tmp;
saved = left(j-r) * tmp`. Used by /repo/src/MathUtils/Spline.h:30, 56. -/
noncomputable def basisStep (left right : ℕ → ℝ) (j r : ℕ) (s : (ℕ → ℝ) × ℝ) : Res ((ℕ → ℝ) × ℝ) := do
  let tmp ← fdiv (s.1 r) (right (r + 1) + left (j - r))
  return (Function.update s.1 r (s.2 + right (r + 1) * tmp), left (j - r) * tmp)

/-- `Eigen::Spline::BasisFunctions`: the `p + 1` B-splines that do not vanish at `u`. `left(m) = u - U(i + 1 - m)` and `right(m) = U(i + m) - u` for
`1 <= m <= p`; the blocks of `U` they come from are checked once. `N` has `p + 1` elements and the loops stay below `p + 1`.
Used by /repo/src/MathUtils/Spline.h:30, 56. -/
noncomputable def basisFunctions (B : Build) (u : ℝ) (p : ℕ) (U : List ℝ) : Res (ℕ → ℝ) := do
  let i ← ESpline.span B u p U
  if p ≤ i + 1 ∧ i + p < U.length then do
    let left : ℕ → ℝ := fun m => u - U.getD (i + 1 - m) 0
    let right : ℕ → ℝ := fun m => U.getD (i + m) 0 - u
    forRange 1 (p + 1) (fun j N => do
      let s ← forRange 0 j (basisStep left right j) (N, 0)
      return Function.update s.1 j s.2) (fun r => if r = 0 then 1 else 0)
  else eigenFail B

/-- `Eigen::KnotAveraging`: `degree + 1` zeros, the means of `degree` consecutive parameters, `degree + 1` ones. The number of parameters is above
`degree`, as /repo/src/MathUtils/Spline.h:34 provides. -/
noncomputable def knotAveraging (params : List ℝ) (p : ℕ) : Res (List ℝ) := do
  let means ← (List.range (params.length - p - 1)).mapM (fun j =>
    fdiv ((params.drop (j + 1)).take p).sum (p : ℝ))
  return List.replicate (p + 1) 0 ++ means ++ List.replicate (p + 1) 1

/-- `A.row(i).segment(span - degree, degree + 1) = BasisFunctions(knot_parameters[i], degree, knots)`. Used by /repo/src/MathUtils/Spline.h:30. -/
noncomputable def collocationRow (B : Build) (params : List ℝ) (p : ℕ) (U : List ℝ) (i : ℕ) (A : Mat ℝ) : Res (Mat ℝ) := do
  let u ← eAt B params i
  let s ← ESpline.span B u p U
  let N ← basisFunctions B u p U
  if p ≤ s ∧ s < A.cols then
    return { A with entry := fun i' k => if i' = i ∧ s - p ≤ k ∧ k ≤ s then N (k - (s - p)) else A.entry i' k }
  else eigenFail B

/-- The matrix that `SplineFitting::Interpolate` builds. Used by /repo/src/MathUtils/Spline.h:30. -/
noncomputable def collocation (B : Build) (params : List ℝ) (p : ℕ) (U : List ℝ) (n : ℕ) : Res (Mat ℝ) := do
  let A ← forRange 1 (n - 1) (collocationRow B params p U) ⟨n, n, fun _ _ => 0⟩
  let A ← Mat.set B A 0 0 1
  Mat.set B A (n - 1) (n - 1) 1

/-- `SplineFitting::Interpolate(pts, degree, knot_parameters)`. Called at /repo/src/MathUtils/Spline.h:30-36. -/
noncomputable def ESpline.interpolate (solve : Mat ℝ → List ℝ → List ℝ) (B : Build) (pts : List ℝ) (p : ℕ) (params : List ℝ) :
    Res ESpline := do
  let U ← knotAveraging params p
  let A ← collocation B params p U pts.length
  return ⟨U, solve A pts⟩

/-- `Eigen::Spline::operator()`: the sum of the control points `span - degree, ..., span` times the basis functions. The degree is computed from the
sizes. Called at /repo/src/MathUtils/Spline.h:56. -/
noncomputable def ESpline.eval (B : Build) (s : ESpline) (u : ℝ) : Res ℝ := do
  let p := s.knots.length - s.ctrls.length - 1
  let i ← ESpline.span B u p s.knots
  let N ← basisFunctions B u p s.knots
  if p ≤ i ∧ i < s.ctrls.length then
    return ((List.range (p + 1)).map (fun r => N r * s.ctrls.getD (i - p + r) 0)).sum
  else eigenFail B

/-- Eigen's `minCoeff()`: an error on an empty vector. Called at /repo/src/MathUtils/Spline.h:27. -/
noncomputable def minCoeff (B : Build) : List ℝ → Res ℝ
  | [] => eigenFail B
  | a :: l => .ok (l.foldl min a)

/-- The fields of `Spline`. /repo/src/MathUtils/Spline.h:17-21 -/
structure Spline where
  x_min : ℝ
  x_max : ℝ
  spline_ : ESpline

/-- `Spline::scaled_value`. /repo/src/MathUtils/Spline.h:61-63 -/
noncomputable def scaledValue (x_min x_max x : ℝ) : Res ℝ := fdiv (x - x_min) (x_max - x_min)

/-- `Spline::scaled_values`. /repo/src/MathUtils/Spline.h:65-67 -/
noncomputable def scaledValues (x_min x_max : ℝ) (x : List ℝ) : Res (List ℝ) := x.mapM (scaledValue x_min x_max)

/-- The constructor from Eigen vectors. /repo/src/MathUtils/Spline.h:25-38. Simplified: with a single point, or equal abscissas, the scaled values
are not finite and the model stops there. -/
noncomputable def Spline.make (solve : Mat ℝ → List ℝ → List ℝ) (B : Build) (Deg : ℕ) (x_vec y_vec : List ℝ) : Res Spline := do
  let x_min ← minCoeff B x_vec
  let x_max ← maxCoeff B x_vec
  let u ← scaledValues x_min x_max x_vec
  let s ← ESpline.interpolate solve B y_vec (min (x_vec.length - 1) Deg) u
  return ⟨x_min, x_max, s⟩

/-- The constructor from `std::vector`s copies them to Eigen vectors, then the fields of the spline built on those.
/repo/src/MathUtils/Spline.h:40-52 -/
noncomputable def Spline.makeStd (solve : Mat ℝ → List ℝ → List ℝ) (B : Build) (Deg : ℕ) (x_vec y_vec : List ℝ) : Res Spline := do
  let spl ← Spline.make solve B Deg x_vec y_vec
  return { x_min := spl.x_min, x_max := spl.x_max, spline_ := spl.spline_ }

/-- `Spline::operator()`. /repo/src/MathUtils/Spline.h:54-57 -/
noncomputable def Spline.call (B : Build) (s : Spline) (x : ℝ) : Res ℝ := do
  let u ← scaledValue s.x_min s.x_max x
  ESpline.eval B s.spline_ u

end MU
