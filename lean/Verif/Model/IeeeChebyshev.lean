import Verif.Model.Ieee
import Verif.Model.Chebyshev

/-!
# `Evaluate` of the Chebyshev series in binary64, with overflow and underflow

The functions of `Model/RoundedChebyshev.lean` when an operation may overflow to an infinity. `fl` is the rounding, `none` for an overflow (`Spec.Ieee`). The coefficients held, the
bounds of the domain and the point are finite numbers; the coordinate in `[-1, 1]` and the sums of the rows need not be. No contraction of a product and a sum into one operation;
one zero.
-/

namespace MU

open Dbl

/-- `AffineTransformationSegmentToUnit_x` (and `_y`, `_z`), in binary64. The lines are those of `Seg.toUnit`, e.g.
/repo/src/MathUtils/ChebyshevSeries1d.h:204-206 (closed) and 241-243 (opened). -/
noncomputable def Seg.toUnitI (fl : ℝ → Option ℝ) (s : Seg ℝ) (xdomain : ℝ) : Res (Dbl ℝ) :=
  match s with
  | .closed min max => do
    let c ← fquot fl (num 2) (fsub fl (num max) (num min))
    return fmul fl c (fsub fl (num xdomain) (fmul fl (num (1 / 2)) (fadd fl (num max) (num min))))
  | .opened min => do
    let q ← fquot fl (num min) (num xdomain)
    return fsub fl (num 1) (fmul fl (num 2) q)

/-- The loop of `boost::math::chebyshev_clenshaw_recurrence`, from the last coefficient, `b1 = c[length - 1]`, `b2 = 0`, down to the first of the
list: `tmp = 2 * x * b1 - b2 + c[j]`. Called through /repo/src/MathUtils/ChebyshevSeries1d.h:84. -/
noncomputable def clenshawLoopI (fl : ℝ → Option ℝ) (x : Dbl ℝ) : List (Dbl ℝ) → Dbl ℝ × Dbl ℝ
  | [] => (num 0, num 0)
  | [c] => (c, num 0)
  | c :: d :: rest =>
    let b := clenshawLoopI fl x (d :: rest)
    (fadd fl (fsub fl (fmul fl (fmul fl (num 2) x) b.1) b.2) c, b.1)

/-- `boost::math::chebyshev_clenshaw_recurrence` in binary64: `c[0] / 2` for one coefficient, otherwise `x * b1 - b2 + half * c[0]` after the loop.
Called at /repo/src/MathUtils/ChebyshevSeries1d.h:84, /repo/src/MathUtils/ChebyshevSeries2d.h:103, 106, /repo/src/MathUtils/ChebyshevSeries3d.h:136, 139, 142. -/
noncomputable def clenshawI (fl : ℝ → Option ℝ) (c : List (Dbl ℝ)) (x : Dbl ℝ) : Res (Dbl ℝ) :=
  match c with
  | [] => .ok (num 0)
  | [c0] => fquot fl c0 (num 2)
  | c0 :: d :: rest =>
    let b := clenshawLoopI fl x (d :: rest)
    .ok (fadd fl (fsub fl (fmul fl x b.1) b.2) (fmul fl (num (1 / 2)) c0))

/-- `v.at(0) *= 2.` in binary64. /repo/src/MathUtils/ChebyshevSeries1d.h:83, /repo/src/MathUtils/ChebyshevSeries2d.h:102, 105,
/repo/src/MathUtils/ChebyshevSeries3d.h:135, 138, 141. -/
noncomputable def doubleHeadI (fl : ℝ → Option ℝ) : List (Dbl ℝ) → Res (List (Dbl ℝ))
  | [] => .throws .outOfRange
  | a :: l => .ok (fmul fl a (num 2) :: l)

/-- `ChebyshevSeries1dBase::Evaluate` in binary64, /repo/src/MathUtils/ChebyshevSeries1d.h:72-88. -/
noncomputable def CS1.evaluateI (fl : ℝ → Option ℝ) (B : Build) (s : CS1 ℝ) (x : ℝ) : Res (Dbl ℝ) := do
  let xunit ← s.m_x.toUnitI fl x
  let ai ← collect (s.m_order_x + 1) (fun i => do
    let a ← eAt B s.m_ai i
    return num a)
  let ai ← doubleHeadI fl ai
  clenshawI fl ai xunit

/-- `ChebyshevSeries2dBase::Evaluate` in binary64, /repo/src/MathUtils/ChebyshevSeries2d.h:90-110. -/
noncomputable def CS2.evaluateI (fl : ℝ → Option ℝ) (B : Build) (s : CS2 ℝ) (x y : ℝ) : Res (Dbl ℝ) := do
  let xunit ← s.m_x.toUnitI fl x
  let yunit ← s.m_y.toUnitI fl y
  let ai ← collect (s.m_order_x + 1) (fun i => do
    let bj ← s.m_aij.row B i
    let bj ← doubleHeadI fl (bj.map num)
    clenshawI fl bj yunit)
  let ai ← doubleHeadI fl ai
  clenshawI fl ai xunit

/-- `ChebyshevSeries3dBase::Evaluate` in binary64, /repo/src/MathUtils/ChebyshevSeries3d.h:116-146. -/
noncomputable def CS3.evaluateI (fl : ℝ → Option ℝ) (B : Build) (s : CS3 ℝ) (x y z : ℝ) : Res (Dbl ℝ) := do
  let xunit ← s.m_x.toUnitI fl x
  let yunit ← s.m_y.toUnitI fl y
  let zunit ← s.m_z.toUnitI fl z
  let ai ← collect (s.m_order_x + 1) (fun i => do
    let bj ← collect (s.m_order_y + 1) (fun j => do
      let ck ← collect (s.m_order_z + 1) (fun k => do
        let a ← cubeGet B s.m_aijk i j k
        return num a)
      let ck ← doubleHeadI fl ck
      clenshawI fl ck zunit)
    let bj ← doubleHeadI fl bj
    clenshawI fl bj yunit)
  let ai ← doubleHeadI fl ai
  clenshawI fl ai xunit

end MU
