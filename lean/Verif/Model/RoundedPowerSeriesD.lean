import Verif.Model.RoundedPowerSeries

/-!
# The derivatives and the evaluations at a fixed `z` of the power series in double arithmetic

Every operation of the expressions is followed by `rnd`. No overflow or underflow, no contraction of a product and a sum into one operation. The functions are those of
`Model/PowerSeries.lean` with `Horner`, `Horner_derivative`, the map to `[-1, 1]` and its derivative in double.
-/

namespace MU

/-! ## PowerSeries2d.h -/

/-- `Evaluate_derivative_x` and `Evaluate_derivative_x_unit` in double, /repo/src/MathUtils/PowerSeries2d.h:58-83. -/
noncomputable def PS2.evaluateDerivativeXR (rnd : ℝ → ℝ) (B : Build) (s : PS2 ℝ) (x y : ℝ) : Res ℝ := do
  let xunit ← s.m_x.toUnitR rnd x
  let yunit ← s.m_y.toUnitR rnd y
  let qi ← collect (upTo s.m_order_x) (fun i => do
    let pj ← s.m_bij.row B i
    hornerR rnd pj yunit)
  let c ← s.m_x.coefficientDerivativeR rnd x
  let h ← hornerDerivativeR rnd qi xunit
  return rnd (c * h)

/-- `Evaluate_derivative_y` and `Evaluate_derivative_y_unit` in double, /repo/src/MathUtils/PowerSeries2d.h:86-111. -/
noncomputable def PS2.evaluateDerivativeYR (rnd : ℝ → ℝ) (B : Build) (s : PS2 ℝ) (x y : ℝ) : Res ℝ := do
  let xunit ← s.m_x.toUnitR rnd x
  let yunit ← s.m_y.toUnitR rnd y
  let qi ← collect (upTo s.m_order_x) (fun i => do
    let pj ← s.m_bij.row B i
    hornerDerivativeR rnd pj yunit)
  let c ← s.m_y.coefficientDerivativeR rnd y
  let h ← hornerR rnd qi xunit
  return rnd (c * h)

/-! ## PowerSeries3d.h -/

namespace PS3

/-- `Evaluate_unit` in double, /repo/src/MathUtils/PowerSeries3d.h:74-93. -/
noncomputable def evaluateUnitR (rnd : ℝ → ℝ) (B : Build) (s : PS3 ℝ) (xunit yunit zunit : ℝ) : Res ℝ := do
  let rk ← collect (upTo s.m_order_z) (fun k => do
    let qi ← collect (upTo s.m_order_x) (fun i => do
      let b ← vAt s.m_bijk k
      let pj ← b.row B i
      hornerR rnd pj yunit)
    hornerR rnd qi xunit)
  hornerR rnd rk zunit

/-- `Evaluate_derivative_x_unit` in double, /repo/src/MathUtils/PowerSeries3d.h:96-115. -/
noncomputable def evaluateDerivativeXUnitR (rnd : ℝ → ℝ) (B : Build) (s : PS3 ℝ) (x xunit yunit zunit : ℝ) : Res ℝ := do
  let rk ← collect (upTo s.m_order_z) (fun k => do
    let qi ← collect (upTo s.m_order_x) (fun i => do
      let b ← vAt s.m_bijk k
      let pj ← b.row B i
      hornerR rnd pj yunit)
    hornerDerivativeR rnd qi xunit)
  let c ← s.m_x.coefficientDerivativeR rnd x
  let h ← hornerR rnd rk zunit
  return rnd (c * h)

/-- `Evaluate_derivative_y_unit` in double, /repo/src/MathUtils/PowerSeries3d.h:118-137. -/
noncomputable def evaluateDerivativeYUnitR (rnd : ℝ → ℝ) (B : Build) (s : PS3 ℝ) (y xunit yunit zunit : ℝ) : Res ℝ := do
  let rk ← collect (upTo s.m_order_z) (fun k => do
    let qi ← collect (upTo s.m_order_x) (fun i => do
      let b ← vAt s.m_bijk k
      let pj ← b.row B i
      hornerDerivativeR rnd pj yunit)
    hornerR rnd qi xunit)
  let c ← s.m_y.coefficientDerivativeR rnd y
  let h ← hornerR rnd rk zunit
  return rnd (c * h)

/-- `Evaluate_derivative_z_unit` in double, /repo/src/MathUtils/PowerSeries3d.h:140-159. -/
noncomputable def evaluateDerivativeZUnitR (rnd : ℝ → ℝ) (B : Build) (s : PS3 ℝ) (z xunit yunit zunit : ℝ) : Res ℝ := do
  let rk ← collect (upTo s.m_order_z) (fun k => do
    let qi ← collect (upTo s.m_order_x) (fun i => do
      let b ← vAt s.m_bijk k
      let pj ← b.row B i
      hornerR rnd pj yunit)
    hornerR rnd qi xunit)
  let c ← s.m_z.coefficientDerivativeR rnd z
  let h ← hornerDerivativeR rnd rk zunit
  return rnd (c * h)

/-- `Evaluate_f_dfdx_dfdy_unit` in double, /repo/src/MathUtils/PowerSeries3d.h:162-193. The vectors built together are the components of one vector, as in
`PS3.evaluateFDfdxDfdyUnit`. -/
noncomputable def evaluateFDfdxDfdyUnitR (rnd : ℝ → ℝ) (B : Build) (s : PS3 ℝ) (x y xunit yunit zunit : ℝ) : Res (ℝ × ℝ × ℝ) := do
  let rk ← collect (upTo s.m_order_z) (fun k => do
    let qi ← collect (upTo s.m_order_x) (fun i => do
      let b ← vAt s.m_bijk k
      let pj ← b.row B i
      let q ← hornerR rnd pj yunit
      let qd ← hornerDerivativeR rnd pj yunit
      return (q, qd))
    let r ← hornerR rnd (qi.map (·.1)) xunit
    let rd ← hornerDerivativeR rnd (qi.map (·.1)) xunit
    let rd2 ← hornerR rnd (qi.map (·.2)) xunit
    return (r, rd, rd2))
  let f ← hornerR rnd (rk.map (·.1)) zunit
  let cx ← s.m_x.coefficientDerivativeR rnd x
  let hx ← hornerR rnd (rk.map (·.2.1)) zunit
  let cy ← s.m_y.coefficientDerivativeR rnd y
  let hy ← hornerR rnd (rk.map (·.2.2)) zunit
  return (f, rnd (cx * hx), rnd (cy * hy))

/-- `Compute_cij_unit` in double, /repo/src/MathUtils/PowerSeries3d.h:196-214. -/
noncomputable def computeCijUnitR (rnd : ℝ → ℝ) (B : Build) (s : PS3 ℝ) (zunit : ℝ) : Res (Mat ℝ) :=
  forRange 0 (upTo s.m_order_x) (fun i cij =>
    forRange 0 (upTo s.m_order_y) (fun j cij => do
      let rk ← collect (upTo s.m_order_z) (fun k => do
        let b ← vAt s.m_bijk k
        b.at' B i j)
      let h ← hornerR rnd rk zunit
      cij.set B i j h) cij) (Mat.zero (upTo s.m_order_x) (upTo s.m_order_y))

/-- `Evaluate_derivative_x` in double, /repo/src/MathUtils/PowerSeries3d.h:321-330. -/
noncomputable def evaluateDerivativeXR (rnd : ℝ → ℝ) (B : Build) (s : PS3 ℝ) (x y z : ℝ) : Res ℝ := do
  let xunit ← s.m_x.toUnitR rnd x
  let yunit ← s.m_y.toUnitR rnd y
  let zunit ← s.m_z.toUnitR rnd z
  evaluateDerivativeXUnitR rnd B s x xunit yunit zunit

/-- `Evaluate_derivative_y` in double, /repo/src/MathUtils/PowerSeries3d.h:345-354. -/
noncomputable def evaluateDerivativeYR (rnd : ℝ → ℝ) (B : Build) (s : PS3 ℝ) (x y z : ℝ) : Res ℝ := do
  let xunit ← s.m_x.toUnitR rnd x
  let yunit ← s.m_y.toUnitR rnd y
  let zunit ← s.m_z.toUnitR rnd z
  evaluateDerivativeYUnitR rnd B s y xunit yunit zunit

/-- `Evaluate_derivative_z` in double, /repo/src/MathUtils/PowerSeries3d.h:369-378. -/
noncomputable def evaluateDerivativeZR (rnd : ℝ → ℝ) (B : Build) (s : PS3 ℝ) (x y z : ℝ) : Res ℝ := do
  let xunit ← s.m_x.toUnitR rnd x
  let yunit ← s.m_y.toUnitR rnd y
  let zunit ← s.m_z.toUnitR rnd z
  evaluateDerivativeZUnitR rnd B s z xunit yunit zunit

/-- `Evaluate_f_dfdx_dfdy` in double, /repo/src/MathUtils/PowerSeries3d.h:381-390. -/
noncomputable def evaluateFDfdxDfdyR (rnd : ℝ → ℝ) (B : Build) (s : PS3 ℝ) (x y z : ℝ) : Res (ℝ × ℝ × ℝ) := do
  let xunit ← s.m_x.toUnitR rnd x
  let yunit ← s.m_y.toUnitR rnd y
  let zunit ← s.m_z.toUnitR rnd z
  evaluateFDfdxDfdyUnitR rnd B s x y xunit yunit zunit

/-- `Evaluate_zinf` in double, /repo/src/MathUtils/PowerSeries3d.h:309-318. -/
noncomputable def evaluateZinfR (rnd : ℝ → ℝ) (B : Build) (s : PS3 ℝ) (x y : ℝ) : Res ℝ := do
  let xunit ← s.m_x.toUnitR rnd x
  let yunit ← s.m_y.toUnitR rnd y
  evaluateUnitR rnd B s xunit yunit 1

/-- `Evaluate_derivative_x_zinf` in double, /repo/src/MathUtils/PowerSeries3d.h:333-342. -/
noncomputable def evaluateDerivativeXZinfR (rnd : ℝ → ℝ) (B : Build) (s : PS3 ℝ) (x y : ℝ) : Res ℝ := do
  let xunit ← s.m_x.toUnitR rnd x
  let yunit ← s.m_y.toUnitR rnd y
  evaluateDerivativeXUnitR rnd B s x xunit yunit 1

/-- `Evaluate_derivative_y_zinf` in double, /repo/src/MathUtils/PowerSeries3d.h:357-366. -/
noncomputable def evaluateDerivativeYZinfR (rnd : ℝ → ℝ) (B : Build) (s : PS3 ℝ) (x y : ℝ) : Res ℝ := do
  let xunit ← s.m_x.toUnitR rnd x
  let yunit ← s.m_y.toUnitR rnd y
  evaluateDerivativeYUnitR rnd B s y xunit yunit 1

/-- `Compute_cij` in double, /repo/src/MathUtils/PowerSeries3d.h:393-399. -/
noncomputable def computeCijR (rnd : ℝ → ℝ) (B : Build) (s : PS3 ℝ) (z : ℝ) : Res (Mat ℝ) := do
  let zunit ← s.m_z.toUnitR rnd z
  computeCijUnitR rnd B s zunit

/-- `Evaluate_z_predefined` and `Evaluate_unit_zunit_predefined` in double, /repo/src/MathUtils/PowerSeries3d.h:217-231, 411-419. -/
noncomputable def evaluateZPredefinedR (rnd : ℝ → ℝ) (B : Build) (s : PS3 ℝ) (x y : ℝ) (cij : Mat ℝ) : Res ℝ := do
  let xunit ← s.m_x.toUnitR rnd x
  let yunit ← s.m_y.toUnitR rnd y
  let qi ← collect (upTo s.m_order_x) (fun i => do
    let pj ← cij.row B i
    hornerR rnd pj yunit)
  hornerR rnd qi xunit

/-- `Evaluate_derivative_x_z_predefined` and `Evaluate_derivative_x_unit_zunit_predefined` in double, /repo/src/MathUtils/PowerSeries3d.h:234-249, 422-430. -/
noncomputable def evaluateDerivativeXZPredefinedR (rnd : ℝ → ℝ) (B : Build) (s : PS3 ℝ) (x y : ℝ) (cij : Mat ℝ) : Res ℝ := do
  let xunit ← s.m_x.toUnitR rnd x
  let yunit ← s.m_y.toUnitR rnd y
  let qi ← collect (upTo s.m_order_x) (fun i => do
    let pj ← cij.row B i
    hornerR rnd pj yunit)
  let c ← s.m_x.coefficientDerivativeR rnd x
  let h ← hornerDerivativeR rnd qi xunit
  return rnd (c * h)

/-- `Evaluate_derivative_y_z_predefined` and `Evaluate_derivative_y_unit_zunit_predefined` in double, /repo/src/MathUtils/PowerSeries3d.h:252-267, 433-441. Line 439 passes `x`
where the callee expects `y`. -/
noncomputable def evaluateDerivativeYZPredefinedR (rnd : ℝ → ℝ) (B : Build) (s : PS3 ℝ) (x y : ℝ) (cij : Mat ℝ) : Res ℝ := do
  let xunit ← s.m_x.toUnitR rnd x
  let yunit ← s.m_y.toUnitR rnd y
  let qi ← collect (upTo s.m_order_x) (fun i => do
    let pj ← cij.row B i
    hornerDerivativeR rnd pj yunit)
  let c ← s.m_y.coefficientDerivativeR rnd x
  let h ← hornerR rnd qi xunit
  return rnd (c * h)

/-- `Evaluate_f_dfdx_dfdy_z_predefined` and `Evaluate_f_dfdx_dfdy_unit_zunit_predefined` in double, /repo/src/MathUtils/PowerSeries3d.h:270-292, 444-452. -/
noncomputable def evaluateFDfdxDfdyZPredefinedR (rnd : ℝ → ℝ) (B : Build) (s : PS3 ℝ) (x y : ℝ) (cij : Mat ℝ) : Res (ℝ × ℝ × ℝ) := do
  let xunit ← s.m_x.toUnitR rnd x
  let yunit ← s.m_y.toUnitR rnd y
  let qi ← collect (upTo s.m_order_x) (fun i => do
    let pj ← cij.row B i
    let q ← hornerR rnd pj yunit
    let qd ← hornerDerivativeR rnd pj yunit
    return (q, qd))
  let f ← hornerR rnd (qi.map (·.1)) xunit
  let cx ← s.m_x.coefficientDerivativeR rnd x
  let hx ← hornerDerivativeR rnd (qi.map (·.1)) xunit
  let cy ← s.m_y.coefficientDerivativeR rnd y
  let hy ← hornerR rnd (qi.map (·.2)) xunit
  return (f, rnd (cx * hx), rnd (cy * hy))

end PS3

end MU
