import Verif.Model.RoundedChebyshev
import Verif.Model.RoundedUnit

/-!
# The computation of the coefficients of the Chebyshev series in double arithmetic

Every operation of the expressions is followed by `rnd`. No overflow or underflow, no contraction of a product and a sum into one operation. `cosR` is
the function `cos` of the C library and `TR` is `boost::math::chebyshev_t`; neither is in /repo, and nothing is assumed on them here.
-/

namespace MU

/-- `MU_PI_2`, /repo/src/MathUtils/Constants.h:46. -/
noncomputable def MU_PI_2_R (rnd : ℝ → ℝ) : ℝ := rnd (MU_PI_R rnd * (1 / 2))

/-- `AffineTransformationUnitToSegment_x` (and `_y`, `_z`), in double. The lines are those of `Seg.toSegment`, e.g.
/repo/src/MathUtils/ChebyshevSeries1d.h:199-201 (closed) and 236-238 (opened). -/
noncomputable def Seg.toSegmentR (rnd : ℝ → ℝ) (s : Seg ℝ) (xunit : ℝ) : Res ℝ :=
  match s with
  | .closed min max => .ok (rnd (rnd (rnd (1 / 2 * rnd (max - min)) * xunit) + rnd (1 / 2 * rnd (max + min))))
  | .opened min => do
    let q ← fdiv min (rnd (1 - xunit))
    return rnd (2 * rnd q)

/-- `cos(MU_PI_2 * (2. * r + 1.) / (m_order_x + 1.))` in double, /repo/src/MathUtils/ChebyshevSeries1d.h:52. -/
noncomputable def chebNodeR (rnd cosR : ℝ → ℝ) (order r : Nat) : ℝ :=
  cosR (rnd (rnd (MU_PI_2_R rnd * rnd (rnd (2 * (r : ℝ)) + 1)) / rnd ((order : ℝ) + 1)))

/-- The loop filling `x_tilde` and `x` (or `y`, `z`) in double, /repo/src/MathUtils/ChebyshevSeries1d.h:46-55,
/repo/src/MathUtils/ChebyshevSeries2d.h:47-67, /repo/src/MathUtils/ChebyshevSeries3d.h:49-80. -/
noncomputable def abscissaeR (rnd cosR : ℝ → ℝ) (s : Seg ℝ) (order : Nat) : Res (List (ℝ × ℝ)) :=
  collect (order + 1) (fun r => do
    let tmp := chebNodeR rnd cosR order r
    let x ← s.toSegmentR rnd tmp
    return (tmp, x))

/-- `Compute_ai` in double, /repo/src/MathUtils/ChebyshevSeries1d.h:44-69. -/
noncomputable def CS1.computeAiR (rnd cosR : ℝ → ℝ) (TR : Nat → ℝ → ℝ) (B : Build) (s : CS1 ℝ) : Res (CS1 ℝ) := do
  let x ← abscissaeR rnd cosR s.m_x s.m_order_x
  let ai ← forRange 0 (s.m_order_x + 1) (fun i ai => do
    let ai ← forRange 0 (s.m_order_x + 1) (fun r ai => do
      let xr ← vAt x r
      let a ← eAt B ai i
      eSet B ai i (rnd (a + rnd (s.m_function xr.2 * TR i xr.1)))) ai
    let a ← eAt B ai i
    let ai ← eSet B ai i (rnd (a * rnd (2 / rnd ((s.m_order_x : ℝ) + 1))))
    if i = 0 then do
      let a ← eAt B ai i
      eSet B ai i (rnd (a / 2))
    else return ai) s.m_ai
  return { s with m_ai := ai }

/-- `Compute_aij` in double, /repo/src/MathUtils/ChebyshevSeries2d.h:45-87. -/
noncomputable def CS2.computeAijR (rnd cosR : ℝ → ℝ) (TR : Nat → ℝ → ℝ) (B : Build) (s : CS2 ℝ) : Res (CS2 ℝ) := do
  let x ← abscissaeR rnd cosR s.m_x s.m_order_x
  let y ← abscissaeR rnd cosR s.m_y s.m_order_y
  let aij ← forRange 0 (s.m_order_x + 1) (fun i aij =>
    forRange 0 (s.m_order_y + 1) (fun j aij => do
      let aij ← forRange 0 (s.m_order_x + 1) (fun r aij => do
        let xr ← vAt x r
        let Ti := TR i xr.1
        forRange 0 (s.m_order_y + 1) (fun t aij => do
          let yt ← vAt y t
          let a ← aij.at' B i j
          aij.set B i j (rnd (a + rnd (rnd (s.m_function xr.2 yt.2 * Ti) * TR j yt.1)))) aij) aij
      let a ← aij.at' B i j
      let aij ← aij.set B i j (rnd (a * rnd (4 / rnd (rnd ((s.m_order_x : ℝ) + 1) * rnd ((s.m_order_y : ℝ) + 1)))))
      if i = 0 ∧ j = 0 then do
        let a ← aij.at' B i j
        aij.set B i j (rnd (a / 4))
      else if (i = 0 ∧ j ≠ 0) ∨ (i ≠ 0 ∧ j = 0) then do
        let a ← aij.at' B i j
        aij.set B i j (rnd (a / 2))
      else return aij) aij) s.m_aij
  return { s with m_aij := aij }

/-- `Compute_aijk` in double, /repo/src/MathUtils/ChebyshevSeries3d.h:47-113. -/
noncomputable def CS3.computeAijkR (rnd cosR : ℝ → ℝ) (TR : Nat → ℝ → ℝ) (B : Build) (s : CS3 ℝ) : Res (CS3 ℝ) := do
  let x ← abscissaeR rnd cosR s.m_x s.m_order_x
  let y ← abscissaeR rnd cosR s.m_y s.m_order_y
  let z ← abscissaeR rnd cosR s.m_z s.m_order_z
  let aijk ← forRange 0 (s.m_order_x + 1) (fun i aijk =>
    forRange 0 (s.m_order_y + 1) (fun j aijk =>
      forRange 0 (s.m_order_z + 1) (fun k aijk => do
        let aijk ← forRange 0 (s.m_order_x + 1) (fun r aijk => do
          let xr ← vAt x r
          let Ti := TR i xr.1
          forRange 0 (s.m_order_y + 1) (fun q aijk => do
            let yq ← vAt y q
            let Tj := TR j yq.1
            forRange 0 (s.m_order_z + 1) (fun t aijk => do
              let zt ← vAt z t
              let a ← cubeGet B aijk i j k
              cubeSet B aijk i j k (rnd (a + rnd (rnd (rnd (s.m_function xr.2 yq.2 zt.2 * Ti) * Tj) * TR k zt.1)))) aijk) aijk) aijk
        let a ← cubeGet B aijk i j k
        let aijk ← cubeSet B aijk i j k
          (rnd (a * rnd (8 / rnd (rnd (rnd ((s.m_order_x : ℝ) + 1) * rnd ((s.m_order_y : ℝ) + 1)) * rnd ((s.m_order_z : ℝ) + 1)))))
        if i = 0 ∧ j = 0 ∧ k = 0 then do
          let a ← cubeGet B aijk i j k
          cubeSet B aijk i j k (rnd (a / 8))
        else if (i = 0 ∧ j ≠ 0 ∧ k = 0) ∨ (i ≠ 0 ∧ j = 0 ∧ k = 0) ∨ (i = 0 ∧ j = 0 ∧ k ≠ 0) then do
          let a ← cubeGet B aijk i j k
          cubeSet B aijk i j k (rnd (a / 4))
        else if (i = 0 ∧ j ≠ 0 ∧ k ≠ 0) ∨ (i ≠ 0 ∧ j = 0 ∧ k ≠ 0) ∨ (i ≠ 0 ∧ j ≠ 0 ∧ k = 0) then do
          let a ← cubeGet B aijk i j k
          cubeSet B aijk i j k (rnd (a / 2))
        else return aijk) aijk) aijk) s.m_aijk
  return { s with m_aijk := aijk }

end MU
