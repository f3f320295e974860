import Verif.Model.VectorClasses
import Verif.Model.RoundedUnit
import Verif.Model.RoundedGeometry
import Verif.Model.RoundedTriangle

/-!
# Vector2d.h and Vector3d.h in double arithmetic

The functions of Model/VectorClasses with `Scalar = double`: every operation is followed by `rnd`. No overflow or underflow, no contraction of a product and a
sum into one operation. The order in which Eigen adds the three squares of a norm is not part of its contract: `sum3` is the sum it computes.
-/

namespace MU

/-- `_GetTrigo` in double. /repo/src/MathUtils/Angles.h:18-26 -/
noncomputable def getTrigoR (rnd : ℝ → ℝ) (M : CMath) (pangle : ℝ) (unit : AngleUnit) : ℝ × ℝ :=
  let angle := if unit = .DEG then rnd (pangle * MU_PI_180_R rnd) else pangle
  (M.cos angle, M.sin angle)

/-- `Vector2d::ProjectLocalOnNED(angle, unit)` in double, /repo/src/MathUtils/Vector2d.h:169-176. -/
noncomputable def projectLocalOnNEDR (rnd : ℝ → ℝ) (M : CMath) (this : Nat) (angle : ℝ) (unit : AngleUnit) (m : Mem) : Mem :=
  let c := (getTrigoR rnd M angle unit).1
  let s := (getTrigoR rnd M angle unit).2
  let x := rnd (rnd (c * (m this).x) - rnd (s * (m this).y))
  let m := m.set1 this (rnd (rnd (s * (m this).x) + rnd (c * (m this).y)))
  m.set0 this x

/-- `Vector2d::ProjectNEDOnLocal(angle, unit)` in double, /repo/src/MathUtils/Vector2d.h:184-191. -/
noncomputable def projectNEDOnLocalR (rnd : ℝ → ℝ) (M : CMath) (this : Nat) (angle : ℝ) (unit : AngleUnit) (m : Mem) : Mem :=
  let c := (getTrigoR rnd M angle unit).1
  let s := (getTrigoR rnd M angle unit).2
  let x := rnd (rnd (c * (m this).x) + rnd (s * (m this).y))
  let m := m.set1 this (rnd (rnd (-s * (m this).x) + rnd (c * (m this).y)))
  m.set0 this x

/-- `ProjectOnNorthAxis` in double, /repo/src/MathUtils/Vector2d.h:193-198, 262-265. -/
noncomputable def projectOnNorthAxisR (rnd : ℝ → ℝ) (M : CMath) (v : V2) (angle : ℝ) (unit : AngleUnit) : ℝ :=
  let c := (getTrigoR rnd M angle unit).1
  let s := (getTrigoR rnd M angle unit).2
  rnd (rnd (c * v.x) - rnd (s * v.y))

/-- `ProjectOnEastAxis` in double, /repo/src/MathUtils/Vector2d.h:200-205, 274-277. -/
noncomputable def projectOnEastAxisR (rnd : ℝ → ℝ) (M : CMath) (v : V2) (angle : ℝ) (unit : AngleUnit) : ℝ :=
  let c := (getTrigoR rnd M angle unit).1
  let s := (getTrigoR rnd M angle unit).2
  rnd (rnd (s * v.x) + rnd (c * v.y))

/-- `ProjectOnLocalXAxis` in double, /repo/src/MathUtils/Vector2d.h:207-212, 279-282. -/
noncomputable def projectOnLocalXAxisR (rnd : ℝ → ℝ) (M : CMath) (v : V2) (angle : ℝ) (unit : AngleUnit) : ℝ :=
  let c := (getTrigoR rnd M angle unit).1
  let s := (getTrigoR rnd M angle unit).2
  rnd (rnd (c * v.x) + rnd (s * v.y))

/-- `ProjectOnLocalYAxis` in double, /repo/src/MathUtils/Vector2d.h:214-219, 284-287. -/
noncomputable def projectOnLocalYAxisR (rnd : ℝ → ℝ) (M : CMath) (v : V2) (angle : ℝ) (unit : AngleUnit) : ℝ :=
  let c := (getTrigoR rnd M angle unit).1
  let s := (getTrigoR rnd M angle unit).2
  rnd (rnd (-s * v.x) + rnd (c * v.y))

/-- The conversion of one speed in `GetNEDVelocityVector` in double, /repo/src/MathUtils/Vector2d.h:294-300. -/
noncomputable def speedInR (rnd : ℝ → ℝ) (speed : ℝ) (inputSpeedUnit outputSpeedUnit : SpeedUnit) : Res ℝ :=
  if inputSpeedUnit ≠ outputSpeedUnit then convertVelocityR rnd speed inputSpeedUnit outputSpeedUnit else .ok speed

/-- `GetNEDVelocityVector` in double, /repo/src/MathUtils/Vector2d.h:289-305. -/
noncomputable def getNEDVelocityVectorR (rnd : ℝ → ℝ) (M : CMath) (plongitudinalSpeed plateralSpeed angle : ℝ) (angleUnit : AngleUnit)
    (inputSpeedUnit outputSpeedUnit : SpeedUnit) : Res V2 := do
  let longitudinalSpeed ← speedInR rnd plongitudinalSpeed inputSpeedUnit outputSpeedUnit
  let lateralSpeed ← speedInR rnd plateralSpeed inputSpeedUnit outputSpeedUnit
  return onCopy (fun p => projectLocalOnNEDR rnd M p angle angleUnit) ⟨longitudinalSpeed, lateralSpeed⟩

/-- The conversion of the rotation speed in `TransportAtPoint` in double, /repo/src/MathUtils/Vector2d.h:236-239. -/
noncomputable def speedInRadsR (rnd : ℝ → ℝ) (pw : ℝ) (funit : FrequencyUnit) : Res ℝ :=
  if funit ≠ .RADS then convertFrequencyR rnd pw funit .RADS else .ok pw

/-- `Vector2d::TransportAtPoint(point, w, funit)` in double. /repo/src/MathUtils/Vector2d.h:233-243 -/
noncomputable def transportAtPointR (rnd : ℝ → ℝ) (this point : Nat) (pw : ℝ) (funit : FrequencyUnit) (m : Mem) : Res Mem := do
  let w ← speedInRadsR rnd pw funit
  let m := m.set0 this (rnd ((m this).x - rnd ((m point).y * w)))
  let m := m.set1 this (rnd ((m this).y + rnd ((m point).x * w)))
  return m

/-- `GetProjectedAngleAroundX/Y/Z` in double, by the coordinates they use. /repo/src/MathUtils/Vector3d.h:64-83 -/
noncomputable def projectedAngleR (rnd : ℝ → ℝ) (M : CMath) (a b : ℝ) (unit : AngleUnit) : ℝ :=
  let angle := M.atan2 a b
  if unit = .DEG then rnd (angle * MU_180_PI_R rnd) else angle

/-- `GetProjectedAngleAroundX` in double, /repo/src/MathUtils/Vector3d.h:64-69. -/
noncomputable def projectedAngleAroundXR (rnd : ℝ → ℝ) (M : CMath) (v : V3) (unit : AngleUnit) : ℝ := projectedAngleR rnd M (v 2) (v 1) unit
/-- `GetProjectedAngleAroundY` in double, /repo/src/MathUtils/Vector3d.h:71-76. -/
noncomputable def projectedAngleAroundYR (rnd : ℝ → ℝ) (M : CMath) (v : V3) (unit : AngleUnit) : ℝ := projectedAngleR rnd M (v 0) (v 2) unit
/-- `GetProjectedAngleAroundZ` in double, /repo/src/MathUtils/Vector3d.h:78-83. -/
noncomputable def projectedAngleAroundZR (rnd : ℝ → ℝ) (M : CMath) (v : V3) (unit : AngleUnit) : ℝ := projectedAngleR rnd M (v 1) (v 0) unit

/-- `IsClose` in double, /repo/src/MathUtils/Check.h:13-16. -/
noncomputable def isCloseR (rnd : ℝ → ℝ) (a b rtol atol : ℝ) : Bool := by
  classical
  exact decide (|rnd (a - b)| ≤ rnd (atol + rnd (rtol * |b|)))

/-- `Vector3d::IsUnit` in double: `IsClose` with its default tolerances, /repo/src/MathUtils/Check.h:13. /repo/src/MathUtils/Vector3d.h:141-144 -/
noncomputable def isUnit3R (rnd : ℝ → ℝ) (sum3 : ℝ → ℝ → ℝ → ℝ) (v : V3) : Bool :=
  isCloseR rnd (V3.normR rnd sum3 v) 1 (rnd (1 / 10 ^ 5)) (rnd (1 / 10 ^ 8))

/-- `Vector3d::Normalize` in double, /repo/src/MathUtils/Vector3d.h:136-139: Eigen's `normalize()` divides by the square root of the sum of the squares, if that is
positive. -/
noncomputable def normalize3R (rnd : ℝ → ℝ) (sum3 : ℝ → ℝ → ℝ → ℝ) (v : V3) : V3 := by
  classical
  exact
    let z := sum3 (rnd (v 0 * v 0)) (rnd (v 1 * v 1)) (rnd (v 2 * v 2))
    if 0 < z then fun i => rnd (v i / rnd (Real.sqrt z)) else v

end MU
