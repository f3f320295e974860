import Verif.Model.RoundedChebyshev
import Verif.Model.RoundedPowerSeries

/-!
# The derivatives of the Chebyshev series in double arithmetic

Every operation of the expressions is followed by `rnd`. No overflow or underflow, no contraction of a product and a sum into one operation.
`Chebyshev_polynomial` and `Chebyshev_polynomial_derivative` call Boost, whose code is not in /repo: they are the parameters `TR` and `TpR`.
`CoefficientDerivative_x` (and `_y`, `_z`) is `Seg.coefficientDerivativeR`: its text is the same in the power series and in the Chebyshev series.
-/

namespace MU

/-- `ChebyshevSeries1dBase::Evaluate_derivative_x` in double, /repo/src/MathUtils/ChebyshevSeries1d.h:91-108. -/
noncomputable def CS1.evaluateDerivativeXR (rnd : ℝ → ℝ) (TpR : Nat → ℝ → ℝ) (B : Build) (s : CS1 ℝ) (x : ℝ) : Res ℝ := do
  let xunit ← s.m_x.toUnitR rnd x
  let result ← forRange 0 (s.m_order_x + 1) (fun i result => do
    let Ti := TpR i xunit
    let a ← eAt B s.m_ai i
    return rnd (result + rnd (Ti * a))) 0
  let c ← s.m_x.coefficientDerivativeR rnd x
  return rnd (result * c)

/-- `ChebyshevSeries2dBase::Evaluate_derivative_x` in double, /repo/src/MathUtils/ChebyshevSeries2d.h:113-134. -/
noncomputable def CS2.evaluateDerivativeXR (rnd : ℝ → ℝ) (TpR : Nat → ℝ → ℝ) (B : Build) (s : CS2 ℝ) (x y : ℝ) : Res ℝ := do
  let xunit ← s.m_x.toUnitR rnd x
  let yunit ← s.m_y.toUnitR rnd y
  let result ← forRange 0 (s.m_order_x + 1) (fun i result => do
    let Ti := TpR i xunit
    let bj ← s.m_aij.row B i
    let bj ← doubleHeadR rnd bj
    return rnd (result + rnd (Ti * clenshawR rnd bj yunit))) 0
  let c ← s.m_x.coefficientDerivativeR rnd x
  return rnd (result * c)

/-- `ChebyshevSeries2dBase::Evaluate_derivative_y` in double, /repo/src/MathUtils/ChebyshevSeries2d.h:137-158. -/
noncomputable def CS2.evaluateDerivativeYR (rnd : ℝ → ℝ) (TpR : Nat → ℝ → ℝ) (B : Build) (s : CS2 ℝ) (x y : ℝ) : Res ℝ := do
  let xunit ← s.m_x.toUnitR rnd x
  let yunit ← s.m_y.toUnitR rnd y
  let result ← forRange 0 (s.m_order_y + 1) (fun j result => do
    let Tj := TpR j yunit
    let ai ← s.m_aij.col B j
    let ai ← doubleHeadR rnd ai
    return rnd (result + rnd (Tj * clenshawR rnd ai xunit))) 0
  let c ← s.m_y.coefficientDerivativeR rnd y
  return rnd (result * c)

/-- The three nested loops of the derivatives in double, /repo/src/MathUtils/ChebyshevSeries3d.h:157-166,180-189,203-212: they differ in which
factor is a derivative. The products are taken from left to right. -/
noncomputable def CS3.sumLoopR (rnd : ℝ → ℝ) (B : Build) (s : CS3 ℝ) (tx ty tz : Nat → ℝ) : Res ℝ :=
  forRange 0 (s.m_order_x + 1) (fun i result =>
    forRange 0 (s.m_order_y + 1) (fun j result =>
      forRange 0 (s.m_order_z + 1) (fun k result => do
        let a ← cubeGet B s.m_aijk i j k
        return rnd (result + rnd (rnd (rnd (a * tx i) * ty j) * tz k))) result) result) 0

/-- `ChebyshevSeries3dBase::Evaluate_derivative_x` in double, /repo/src/MathUtils/ChebyshevSeries3d.h:149-171. -/
noncomputable def CS3.evaluateDerivativeXR (rnd : ℝ → ℝ) (TR TpR : Nat → ℝ → ℝ) (B : Build) (s : CS3 ℝ) (x y z : ℝ) : Res ℝ := do
  let xunit ← s.m_x.toUnitR rnd x
  let yunit ← s.m_y.toUnitR rnd y
  let zunit ← s.m_z.toUnitR rnd z
  let result ← CS3.sumLoopR rnd B s (fun i => TpR i xunit) (fun j => TR j yunit) (fun k => TR k zunit)
  let c ← s.m_x.coefficientDerivativeR rnd x
  return rnd (result * c)

/-- `ChebyshevSeries3dBase::Evaluate_derivative_y` in double, /repo/src/MathUtils/ChebyshevSeries3d.h:174-194. -/
noncomputable def CS3.evaluateDerivativeYR (rnd : ℝ → ℝ) (TR TpR : Nat → ℝ → ℝ) (B : Build) (s : CS3 ℝ) (x y z : ℝ) : Res ℝ := do
  let xunit ← s.m_x.toUnitR rnd x
  let yunit ← s.m_y.toUnitR rnd y
  let zunit ← s.m_z.toUnitR rnd z
  let result ← CS3.sumLoopR rnd B s (fun i => TR i xunit) (fun j => TpR j yunit) (fun k => TR k zunit)
  let c ← s.m_y.coefficientDerivativeR rnd y
  return rnd (result * c)

/-- `ChebyshevSeries3dBase::Evaluate_derivative_z` in double, /repo/src/MathUtils/ChebyshevSeries3d.h:197-217. -/
noncomputable def CS3.evaluateDerivativeZR (rnd : ℝ → ℝ) (TR TpR : Nat → ℝ → ℝ) (B : Build) (s : CS3 ℝ) (x y z : ℝ) : Res ℝ := do
  let xunit ← s.m_x.toUnitR rnd x
  let yunit ← s.m_y.toUnitR rnd y
  let zunit ← s.m_z.toUnitR rnd z
  let result ← CS3.sumLoopR rnd B s (fun i => TR i xunit) (fun j => TR j yunit) (fun k => TpR k zunit)
  let c ← s.m_z.coefficientDerivativeR rnd z
  return rnd (result * c)

end MU
