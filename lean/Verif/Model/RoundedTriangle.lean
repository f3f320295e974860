import Verif.Model.Triangle

/-!
# Integration2dTriangle.h in double arithmetic, for `T = double`

Every literal of the tables and every operation is followed by `rnd`. No overflow or underflow, no contraction of a product and a sum into one
operation. The order in which Eigen adds the three squares of a norm is not part of its contract: `sum3` is the sum it computes.
-/

namespace MU

/-- Eigen's `cross` in double. Called at /repo/src/MathUtils/Integration2dTriangle.h:124. -/
noncomputable def V3.crossR (rnd : ℝ → ℝ) (a b : V3) : V3 :=
  ![rnd (rnd (a 1 * b 2) - rnd (a 2 * b 1)), rnd (rnd (a 2 * b 0) - rnd (a 0 * b 2)), rnd (rnd (a 0 * b 1) - rnd (a 1 * b 0))]

/-- Eigen's `norm` in double. Called at /repo/src/MathUtils/Integration2dTriangle.h:124. -/
noncomputable def V3.normR (rnd : ℝ → ℝ) (sum3 : ℝ → ℝ → ℝ → ℝ) (a : V3) : ℝ :=
  rnd (Real.sqrt (sum3 (rnd (a 0 * a 0)) (rnd (a 1 * a 1)) (rnd (a 2 * a 2))))

/-- The position of a Gauss point in double, component by component. /repo/src/MathUtils/Integration2dTriangle.h:153 -/
noncomputable def gaussPointR (rnd : ℝ → ℝ) (alpha beta : ℝ) (vertex_1 vertex_2 vertex_3 : V3) : V3 := fun j =>
  rnd (rnd (rnd (rnd (rnd (1 - alpha) - beta) * vertex_1 j) + rnd (alpha * vertex_2 j)) + rnd (beta * vertex_3 j))

namespace Integration2dTriangle

/-- `ComputeOverStandardTriangle` in double, /repo/src/MathUtils/Integration2dTriangle.h:139-172. -/
noncomputable def computeOverStandardTriangleR (rnd : ℝ → ℝ) (s : Integration2dTriangle ℝ) (vertex_1 vertex_2 vertex_3 : V3) : Res ℝ := do
  let alpha ← s.m_tables.alpha s.m_order
  let beta ← s.m_tables.beta s.m_order
  let weight ← s.m_tables.weight s.m_order
  let result ← forRange 0 weight.length (fun i result => do
    let a ← vAt alpha i
    let b ← vAt beta i
    let x := gaussPointR rnd (rnd a) (rnd b) vertex_1 vertex_2 vertex_3
    let w ← vAt weight i
    if i = 0 then return some (rnd (rnd w * s.m_integrand x))
    else do
      let r ← readVar result
      return some (rnd (r + rnd (s.m_integrand x * rnd w)))) none
  let result ← readVar result
  return rnd (result * (1 / 2))

/-- `Compute` in double, /repo/src/MathUtils/Integration2dTriangle.h:118-134. -/
noncomputable def computeR (rnd : ℝ → ℝ) (sum3 : ℝ → ℝ → ℝ → ℝ) (s : Integration2dTriangle ℝ) (vertex_1 vertex_2 vertex_3 : V3) : Res ℝ := do
  let e1 : V3 := fun j => rnd (vertex_1 j - vertex_3 j)
  let e2 : V3 := fun j => rnd (vertex_2 j - vertex_3 j)
  let area := rnd (1 / 2 * V3.normR rnd sum3 (V3.crossR rnd e1 e2))
  let integral ← computeOverStandardTriangleR rnd s vertex_1 vertex_2 vertex_3
  return rnd (integral * rnd (2 * area))

end Integration2dTriangle

end MU
