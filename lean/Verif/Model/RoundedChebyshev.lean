import Verif.Model.Chebyshev

/-!
# `Evaluate` of the Chebyshev series in double arithmetic

Every operation of the expressions is followed by `rnd`. No overflow or underflow, no contraction of a product and a sum into one operation.
-/

namespace MU

/-- `AffineTransformationSegmentToUnit_x` (and `_y`, `_z`), in double. The lines are those of `Seg.toUnit`, e.g.
/repo/src/MathUtils/ChebyshevSeries1d.h:204-206 (closed) and 241-243 (opened). -/
noncomputable def Seg.toUnitR (rnd : ℝ → ℝ) (s : Seg ℝ) (xdomain : ℝ) : Res ℝ :=
  match s with
  | .closed min max => do
    let c ← fdiv 2 (rnd (max - min))
    return rnd (rnd c * rnd (xdomain - rnd (1 / 2 * rnd (max + min))))
  | .opened min => do
    let q ← fdiv min xdomain
    return rnd (1 - rnd (2 * rnd q))

/-- The loop of `boost::math::chebyshev_clenshaw_recurrence`, from the last coefficient, `b1 = c[length - 1]`, `b2 = 0`, down to the first of the
list: `tmp = 2 * x * b1 - b2 + c[j]`. Called through /repo/src/MathUtils/ChebyshevSeries1d.h:84. -/
noncomputable def clenshawLoopR (rnd : ℝ → ℝ) (x : ℝ) : List ℝ → ℝ × ℝ
  | [] => (0, 0)
  | [c] => (c, 0)
  | c :: d :: rest =>
    let b := clenshawLoopR rnd x (d :: rest)
    (rnd (rnd (rnd (rnd (2 * x) * b.1) - b.2) + c), b.1)

/-- `boost::math::chebyshev_clenshaw_recurrence` in double: `c[0] / 2` for one coefficient, otherwise `x * b1 - b2 + half * c[0]` after the loop.
Called at /repo/src/MathUtils/ChebyshevSeries1d.h:84, /repo/src/MathUtils/ChebyshevSeries2d.h:103, 106, /repo/src/MathUtils/ChebyshevSeries3d.h:136, 139, 142. -/
noncomputable def clenshawR (rnd : ℝ → ℝ) (c : List ℝ) (x : ℝ) : ℝ :=
  match c with
  | [] => 0
  | [c0] => rnd (c0 / 2)
  | c0 :: d :: rest =>
    let b := clenshawLoopR rnd x (d :: rest)
    rnd (rnd (rnd (x * b.1) - b.2) + rnd (1 / 2 * c0))

/-- `v.at(0) *= 2.` in double. /repo/src/MathUtils/ChebyshevSeries1d.h:83, /repo/src/MathUtils/ChebyshevSeries2d.h:102, 105,
/repo/src/MathUtils/ChebyshevSeries3d.h:135, 138, 141. -/
noncomputable def doubleHeadR (rnd : ℝ → ℝ) : List ℝ → Res (List ℝ)
  | [] => .throws .outOfRange
  | a :: l => .ok (rnd (a * 2) :: l)

/-- `ChebyshevSeries1dBase::Evaluate` in double, /repo/src/MathUtils/ChebyshevSeries1d.h:72-88. -/
noncomputable def CS1.evaluateR (rnd : ℝ → ℝ) (B : Build) (s : CS1 ℝ) (x : ℝ) : Res ℝ := do
  let xunit ← s.m_x.toUnitR rnd x
  let ai ← collect (s.m_order_x + 1) (fun i => eAt B s.m_ai i)
  let ai ← doubleHeadR rnd ai
  return clenshawR rnd ai xunit

/-- `ChebyshevSeries2dBase::Evaluate` in double, /repo/src/MathUtils/ChebyshevSeries2d.h:90-110. -/
noncomputable def CS2.evaluateR (rnd : ℝ → ℝ) (B : Build) (s : CS2 ℝ) (x y : ℝ) : Res ℝ := do
  let xunit ← s.m_x.toUnitR rnd x
  let yunit ← s.m_y.toUnitR rnd y
  let ai ← collect (s.m_order_x + 1) (fun i => do
    let bj ← s.m_aij.row B i
    let bj ← doubleHeadR rnd bj
    return clenshawR rnd bj yunit)
  let ai ← doubleHeadR rnd ai
  return clenshawR rnd ai xunit

/-- `ChebyshevSeries3dBase::Evaluate` in double, /repo/src/MathUtils/ChebyshevSeries3d.h:116-146. -/
noncomputable def CS3.evaluateR (rnd : ℝ → ℝ) (B : Build) (s : CS3 ℝ) (x y z : ℝ) : Res ℝ := do
  let xunit ← s.m_x.toUnitR rnd x
  let yunit ← s.m_y.toUnitR rnd y
  let zunit ← s.m_z.toUnitR rnd z
  let ai ← collect (s.m_order_x + 1) (fun i => do
    let bj ← collect (s.m_order_y + 1) (fun j => do
      let ck ← collect (s.m_order_z + 1) (fun k => cubeGet B s.m_aijk i j k)
      let ck ← doubleHeadR rnd ck
      return clenshawR rnd ck zunit)
    let bj ← doubleHeadR rnd bj
    return clenshawR rnd bj yunit)
  let ai ← doubleHeadR rnd ai
  return clenshawR rnd ai xunit

end MU
