import Verif.Core

/-!
# Coordinate maps of the Chebyshev and power series

Each class of ChebyshevSeries1d.h, ChebyshevSeries2d.h, ChebyshevSeries3d.h, PowerSeries1d.h, PowerSeries2d.h, PowerSeries3d.h overrides, for
each of its variables, the maps between the domain of the approximation and `[-1, 1]`. There are two versions, for a closed segment
`[min, max]` and for a half line `[min, +infinity]`, with the same text in every class up to the letter of the variable; they are modelled once.
The constructors in the models of the series say which version each class uses for each variable.
-/

namespace MU

variable {K : Type} [Field K] [DecidableEq K]

/-- The fields a class keeps for one variable: `m_x_min` and `m_x_max`, or `m_x_min` only. /repo/src/MathUtils/ChebyshevSeries1d.h:176, 200, 237. -/
inductive Seg (K : Type) where
  | closed (min max : K)
  | opened (min : K)
  deriving DecidableEq

namespace Seg

/-- `AffineTransformationSegmentToUnit_x` (and `_y`, `_z`). Closed: /repo/src/MathUtils/ChebyshevSeries1d.h:204-206, /repo/src/MathUtils/ChebyshevSeries2d.h:283-290,387-389,
/repo/src/MathUtils/ChebyshevSeries3d.h:378-390,452-454,521-528, /repo/src/MathUtils/PowerSeries1d.h:113-115, /repo/src/MathUtils/PowerSeries2d.h:161-168,241-243, /repo/src/MathUtils/PowerSeries3d.h:535-547,600-602,664-671.
Opened: /repo/src/MathUtils/ChebyshevSeries1d.h:241-243, /repo/src/MathUtils/ChebyshevSeries2d.h:339-346,392-394, /repo/src/MathUtils/ChebyshevSeries3d.h:457-464,531-533, /repo/src/MathUtils/PowerSeries1d.h:143-145,
/repo/src/MathUtils/PowerSeries2d.h:205-212,246-248, /repo/src/MathUtils/PowerSeries3d.h:605-612,674-676. -/
def toUnit (s : Seg K) (xdomain : K) : Res K :=
  match s with
  | .closed min max => do
    let c ← fdiv 2 (max - min)
    return c * (xdomain - 1 / 2 * (max + min))
  | .opened min => do
    let q ← fdiv min xdomain
    return 1 - 2 * q

/-- `CoefficientDerivative_x` (and `_y`, `_z`). Closed: /repo/src/MathUtils/ChebyshevSeries1d.h:209-211, /repo/src/MathUtils/ChebyshevSeries2d.h:293-300,397-399,
/repo/src/MathUtils/ChebyshevSeries3d.h:393-405,467-469,536-543, /repo/src/MathUtils/PowerSeries1d.h:118-120, /repo/src/MathUtils/PowerSeries2d.h:171-178,251-253, /repo/src/MathUtils/PowerSeries3d.h:550-562,615-617,679-686.
Opened: /repo/src/MathUtils/ChebyshevSeries1d.h:246-248, /repo/src/MathUtils/ChebyshevSeries2d.h:349-356,402-404, /repo/src/MathUtils/ChebyshevSeries3d.h:472-479,546-548, /repo/src/MathUtils/PowerSeries1d.h:148-150,
/repo/src/MathUtils/PowerSeries2d.h:215-222,256-258, /repo/src/MathUtils/PowerSeries3d.h:620-627,689-691. -/
def coefficientDerivative (s : Seg K) (xdomain : K) : Res K :=
  match s with
  | .closed min max => fdiv 2 (max - min)
  | .opened min => fdiv (2 * min) (xdomain * xdomain)

/-- `AffineTransformationUnitToSegment_x` (and `_y`, `_z`). Closed: /repo/src/MathUtils/ChebyshevSeries1d.h:199-201, /repo/src/MathUtils/ChebyshevSeries2d.h:273-280,377-379,
/repo/src/MathUtils/ChebyshevSeries3d.h:362-375,437-439,506-513. Opened: /repo/src/MathUtils/ChebyshevSeries1d.h:236-238, /repo/src/MathUtils/ChebyshevSeries2d.h:329-336,382-384,
/repo/src/MathUtils/ChebyshevSeries3d.h:442-449,516-518. -/
def toSegment (s : Seg K) (xunit : K) : Res K :=
  match s with
  | .closed min max => .ok (1 / 2 * (max - min) * xunit + 1 / 2 * (max + min))
  | .opened min => do
    let q ← fdiv min (1 - xunit)
    return 2 * q

end Seg

end MU
