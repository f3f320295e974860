import Verif.Model.PowerSeries
import Verif.Model.Rounded
import Verif.Model.RoundedChebyshev

/-!
# `Evaluate` of the power series in double arithmetic

Every operation of the expressions is followed by `rnd`. No overflow or underflow, no contraction of a product and a sum into one operation.
-/

namespace MU

/-- `CoefficientDerivative_x`, in double: `2. / (max - min)` and `2. * min / (x * x)`. /repo/src/MathUtils/PowerSeries1d.h:118-120, 148-150. -/
noncomputable def Seg.coefficientDerivativeR (rnd : ℝ → ℝ) (s : Seg ℝ) (xdomain : ℝ) : Res ℝ :=
  match s with
  | .closed min max => do
    let c ← fdiv 2 (rnd (max - min))
    return rnd c
  | .opened min => do
    let c ← fdiv (rnd (2 * min)) (rnd (xdomain * xdomain))
    return rnd c

/-- `PowerSeries1dBase::Evaluate` and `Evaluate_unit` in double, /repo/src/MathUtils/PowerSeries1d.h:28-50. -/
noncomputable def PS1.evaluateR (rnd : ℝ → ℝ) (B : Build) (s : PS1 ℝ) (x : ℝ) : Res ℝ := do
  let xunit ← s.m_x.toUnitR rnd x
  let qi ← collect (upTo s.m_order_x) (fun i => eAt B s.m_bi i)
  hornerR rnd qi xunit

/-- `PowerSeries1dBase::Evaluate_derivative_x` and `Evaluate_derivative_x_unit` in double, /repo/src/MathUtils/PowerSeries1d.h:53-75. -/
noncomputable def PS1.evaluateDerivativeXR (rnd : ℝ → ℝ) (B : Build) (s : PS1 ℝ) (x : ℝ) : Res ℝ := do
  let xunit ← s.m_x.toUnitR rnd x
  let qi ← collect (upTo s.m_order_x) (fun i => eAt B s.m_bi i)
  let c ← s.m_x.coefficientDerivativeR rnd x
  let h ← hornerDerivativeR rnd qi xunit
  return rnd (c * h)

/-- `PowerSeries2dBase::Evaluate` and `Evaluate_unit` in double, /repo/src/MathUtils/PowerSeries2d.h:30-55. -/
noncomputable def PS2.evaluateR (rnd : ℝ → ℝ) (B : Build) (s : PS2 ℝ) (x y : ℝ) : Res ℝ := do
  let xunit ← s.m_x.toUnitR rnd x
  let yunit ← s.m_y.toUnitR rnd y
  let qi ← collect (upTo s.m_order_x) (fun i => do
    let pj ← s.m_bij.row B i
    hornerR rnd pj yunit)
  hornerR rnd qi xunit

/-- `PowerSeries3dBase::Evaluate` and `Evaluate_unit` in double, /repo/src/MathUtils/PowerSeries3d.h:74-93, 297-306. -/
noncomputable def PS3.evaluateR (rnd : ℝ → ℝ) (B : Build) (s : PS3 ℝ) (x y z : ℝ) : Res ℝ := do
  let xunit ← s.m_x.toUnitR rnd x
  let yunit ← s.m_y.toUnitR rnd y
  let zunit ← s.m_z.toUnitR rnd z
  let rk ← collect (upTo s.m_order_z) (fun k => do
    let qi ← collect (upTo s.m_order_x) (fun i => do
      let b ← vAt s.m_bijk k
      let pj ← b.row B i
      hornerR rnd pj yunit)
    hornerR rnd qi xunit)
  hornerR rnd rk zunit

end MU
