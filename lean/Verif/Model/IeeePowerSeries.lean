import Verif.Model.IeeeChebyshev
import Verif.Model.PowerSeries

/-!
# `Evaluate` of the power series in binary64, with overflow and underflow

The functions of `Model/RoundedPowerSeries.lean` when an operation may overflow to an infinity. `fl` is the rounding, `none` for an overflow (`Spec.Ieee`). The coefficients held, the
bounds of the domain and the point are finite numbers; the coordinate in `[-1, 1]` and the partial sums need not be. No contraction of a product and a sum into one operation; one
zero.
-/

namespace MU

open Dbl

/-- The `while` loop of `Horner`, /repo/src/MathUtils/Polynomial.h:20-24, with `T = double`, for coefficients and a point that need not be finite. -/
noncomputable def hornerLoopD (fl : ℝ → Option ℝ) (coefficients : List (Dbl ℝ)) (x0 : Dbl ℝ) : Nat → Dbl ℝ → Res (Dbl ℝ)
  | 0, result => .ok result
  | i + 1, result => do
    let c ← vAt coefficients i
    hornerLoopD fl coefficients x0 i (fadd fl (fmul fl result x0) c)

/-- `Horner`, /repo/src/MathUtils/Polynomial.h:10-27, with `T = double`, for coefficients and a point that need not be finite. -/
noncomputable def hornerD (fl : ℝ → Option ℝ) (coefficients : List (Dbl ℝ)) (x0 : Dbl ℝ) : Res (Dbl ℝ) := do
  let size := coefficients.length
  let c ← vAtInt coefficients ((size : Int) - 1)
  hornerLoopD fl coefficients x0 (size - 1) c

/-- `PowerSeries1dBase::Evaluate` in binary64, /repo/src/MathUtils/PowerSeries1d.h:28-50. -/
noncomputable def PS1.evaluateI (fl : ℝ → Option ℝ) (B : Build) (s : PS1 ℝ) (x : ℝ) : Res (Dbl ℝ) := do
  let xunit ← s.m_x.toUnitI fl x
  let qi ← collect (upTo s.m_order_x) (fun i => do
    let b ← eAt B s.m_bi i
    return num b)
  hornerD fl qi xunit

/-- `PowerSeries2dBase::Evaluate` in binary64, /repo/src/MathUtils/PowerSeries2d.h:30-55. -/
noncomputable def PS2.evaluateI (fl : ℝ → Option ℝ) (B : Build) (s : PS2 ℝ) (x y : ℝ) : Res (Dbl ℝ) := do
  let xunit ← s.m_x.toUnitI fl x
  let yunit ← s.m_y.toUnitI fl y
  let qi ← collect (upTo s.m_order_x) (fun i => do
    let pj ← s.m_bij.row B i
    hornerD fl (pj.map num) yunit)
  hornerD fl qi xunit

/-- `PowerSeries3dBase::Evaluate` in binary64, /repo/src/MathUtils/PowerSeries3d.h:74-93, 297-306. -/
noncomputable def PS3.evaluateI (fl : ℝ → Option ℝ) (B : Build) (s : PS3 ℝ) (x y z : ℝ) : Res (Dbl ℝ) := do
  let xunit ← s.m_x.toUnitI fl x
  let yunit ← s.m_y.toUnitI fl y
  let zunit ← s.m_z.toUnitI fl z
  let rk ← collect (upTo s.m_order_z) (fun k => do
    let qi ← collect (upTo s.m_order_x) (fun i => do
      let m ← vAt s.m_bijk k
      let pj ← m.row B i
      hornerD fl (pj.map num) yunit)
    hornerD fl qi xunit)
  hornerD fl rk zunit

end MU
