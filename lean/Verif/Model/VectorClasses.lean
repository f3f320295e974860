import Verif.Model.Geometry
import Verif.Model.Unit
import Verif.Model.Eigen
import Verif.Model.Vectors
import Mathlib.Data.List.Sort

/-!
# Vector2d.h, Vector3d.h, Vector6d.h, VectorN.h

The methods of `Vector2d` that update objects in place are modelled on a memory of vectors indexed by addresses, so that two references may name the
same object. Exact real arithmetic.
-/

namespace MU

/-- A `Vector2d<double>`. /repo/src/MathUtils/Vector2d.h:27-28. -/
@[ext] structure V2 where
  x : ℝ
  y : ℝ

/-- The `Vector2d` objects of the program, by address. The objects of the class of /repo/src/MathUtils/Vector2d.h:27-28. -/
def Mem := Nat → V2

/-- The object at address `p` is replaced by `v`. Assignments to `*this`, e.g. /repo/src/MathUtils/Vector2d.h:140-150. -/
def Mem.put (m : Mem) (p : Nat) (v : V2) : Mem := fun q => if q = p then v else m q

/-- `at(0) = a`, /repo/src/MathUtils/Vector2d.h:40. -/
def Mem.set0 (m : Mem) (p : Nat) (a : ℝ) : Mem := m.put p ⟨a, (m p).y⟩

/-- `at(1) = a`, /repo/src/MathUtils/Vector2d.h:40. -/
def Mem.set1 (m : Mem) (p : Nat) (a : ℝ) : Mem := m.put p ⟨(m p).x, a⟩

/-- `_GetTrigo`: the cosine and the sine. /repo/src/MathUtils/Angles.h:18-26 -/
noncomputable def getTrigo (pangle : ℝ) (unit : AngleUnit) : ℝ × ℝ :=
  let angle := if unit = .DEG then pangle * MU_PI_180 else pangle
  (Real.cos angle, Real.sin angle)

/-- `Vector2d::ProjectLocalOnNED(angle, unit)` on the object at `this`, /repo/src/MathUtils/Vector2d.h:169-176. -/
noncomputable def projectLocalOnNED (this : Nat) (angle : ℝ) (unit : AngleUnit) (m : Mem) : Mem :=
  let c := (getTrigo angle unit).1
  let s := (getTrigo angle unit).2
  let x := c * (m this).x - s * (m this).y
  let m := m.set1 this (s * (m this).x + c * (m this).y)
  m.set0 this x

/-- `Vector2d::ProjectLocalOnNED(out, angle, unit)`, /repo/src/MathUtils/Vector2d.h:163-167. -/
noncomputable def projectLocalOnNEDCopy (this out : Nat) (angle : ℝ) (unit : AngleUnit) (m : Mem) : Mem :=
  let m := m.put out (m this)
  projectLocalOnNED out angle unit m

/-- `Vector2d::ProjectNEDOnLocal(angle, unit)`, /repo/src/MathUtils/Vector2d.h:184-191. -/
noncomputable def projectNEDOnLocal (this : Nat) (angle : ℝ) (unit : AngleUnit) (m : Mem) : Mem :=
  let c := (getTrigo angle unit).1
  let s := (getTrigo angle unit).2
  let x := c * (m this).x + s * (m this).y
  let m := m.set1 this (-s * (m this).x + c * (m this).y)
  m.set0 this x

/-- `Vector2d::ProjectNEDOnLocal(out, angle, unit)`, /repo/src/MathUtils/Vector2d.h:178-182. -/
noncomputable def projectNEDOnLocalCopy (this out : Nat) (angle : ℝ) (unit : AngleUnit) (m : Mem) : Mem :=
  let m := m.put out (m this)
  projectNEDOnLocal out angle unit m

/-- `ProjectOnNorthAxis`, /repo/src/MathUtils/Vector2d.h:193-198, 262-265. -/
noncomputable def projectOnNorthAxis (v : V2) (angle : ℝ) (unit : AngleUnit) : ℝ :=
  let c := (getTrigo angle unit).1
  let s := (getTrigo angle unit).2
  c * v.x - s * v.y

/-- `ProjectOnEastAxis`, /repo/src/MathUtils/Vector2d.h:200-205, 274-277. -/
noncomputable def projectOnEastAxis (v : V2) (angle : ℝ) (unit : AngleUnit) : ℝ :=
  let c := (getTrigo angle unit).1
  let s := (getTrigo angle unit).2
  s * v.x + c * v.y

/-- `ProjectOnLocalXAxis`, /repo/src/MathUtils/Vector2d.h:207-212, 279-282. -/
noncomputable def projectOnLocalXAxis (v : V2) (angle : ℝ) (unit : AngleUnit) : ℝ :=
  let c := (getTrigo angle unit).1
  let s := (getTrigo angle unit).2
  c * v.x + s * v.y

/-- `ProjectOnLocalYAxis`, /repo/src/MathUtils/Vector2d.h:214-219, 284-287. -/
noncomputable def projectOnLocalYAxis (v : V2) (angle : ℝ) (unit : AngleUnit) : ℝ :=
  let c := (getTrigo angle unit).1
  let s := (getTrigo angle unit).2
  let r := -s * v.x + c * v.y
  r

/-- A free function that copies its argument to a fresh local object, updates it and returns it. The address of the local object is 0 in a memory of
its own. /repo/src/MathUtils/Vector2d.h:255-272. -/
def onCopy (f : Nat → Mem → Mem) (v : V2) : V2 := f 0 (fun _ => v) 0

/-- The free function `ProjectLocalOnNED`, /repo/src/MathUtils/Vector2d.h:255-260. -/
noncomputable def projectLocalOnNEDFree (v : V2) (angle : ℝ) (unit : AngleUnit) : V2 := onCopy (fun p => projectLocalOnNED p angle unit) v

/-- The free function `ProjectNEDOnLocal`, /repo/src/MathUtils/Vector2d.h:267-272. -/
noncomputable def projectNEDOnLocalFree (v : V2) (angle : ℝ) (unit : AngleUnit) : V2 := onCopy (fun p => projectNEDOnLocal p angle unit) v

/-- `Vector2d::SetNEDFromLocal`, /repo/src/MathUtils/Vector2d.h:140-150. -/
noncomputable def setNEDFromLocal (this : Nat) (x y angle : ℝ) (unit : AngleUnit) (m : Mem) : Mem :=
  let m := (m.set0 this x).set1 this y
  projectLocalOnNED this angle unit m

/-- The conversion of one speed in `GetNEDVelocityVector`, when the units differ, /repo/src/MathUtils/Vector2d.h:294-300. -/
noncomputable def speedIn (speed : ℝ) (inputSpeedUnit outputSpeedUnit : SpeedUnit) : Res ℝ :=
  if inputSpeedUnit ≠ outputSpeedUnit then convertVelocity speed inputSpeedUnit outputSpeedUnit else .ok speed

/-- `GetNEDVelocityVector`, /repo/src/MathUtils/Vector2d.h:289-305. -/
noncomputable def getNEDVelocityVector (plongitudinalSpeed plateralSpeed angle : ℝ) (angleUnit : AngleUnit) (inputSpeedUnit outputSpeedUnit : SpeedUnit) :
    Res V2 := do
  let longitudinalSpeed ← speedIn plongitudinalSpeed inputSpeedUnit outputSpeedUnit
  let lateralSpeed ← speedIn plateralSpeed inputSpeedUnit outputSpeedUnit
  return projectLocalOnNEDFree ⟨longitudinalSpeed, lateralSpeed⟩ angle angleUnit

/-- The conversion of the rotation speed in `TransportAtPoint`, /repo/src/MathUtils/Vector2d.h:236-239. -/
noncomputable def speedInRads (pw : ℝ) (funit : FrequencyUnit) : Res ℝ := if funit ≠ .RADS then convertFrequency pw funit .RADS else .ok pw

/-- `Vector2d::TransportAtPoint(point, w, funit)`: `point` is a reference. /repo/src/MathUtils/Vector2d.h:233-243 -/
noncomputable def transportAtPoint (this point : Nat) (pw : ℝ) (funit : FrequencyUnit) (m : Mem) : Res Mem := do
  let w ← speedInRads pw funit
  let m := m.set0 this ((m this).x - (m point).y * w)
  let m := m.set1 this ((m this).y + (m point).x * w)
  return m

/-- `Vector2d::TransportAtPoint(out, point, w, funit)`, /repo/src/MathUtils/Vector2d.h:226-231. -/
noncomputable def transportAtPointCopy (this out point : Nat) (pw : ℝ) (funit : FrequencyUnit) (m : Mem) : Res Mem :=
  let m := m.put out (m this)
  transportAtPoint out point pw funit m

/-- The free function `TransportAtPoint`: both vectors are passed by value. /repo/src/MathUtils/Vector2d.h:307-313 -/
noncomputable def transportAtPointFree (v p : V2) (w : ℝ) (funit : FrequencyUnit) : Res V2 := do
  let m ← transportAtPoint 0 1 w funit (Mem.put (fun _ => p) 0 v)
  return m 0

variable {K : Type}

/-- Eigen's `maxCoeff()`: an error on an empty vector. Called at /repo/src/MathUtils/Vector2d.h:223. -/
def maxCoeff [LinearOrder K] (B : Build) : List K → Res K
  | [] => eigenFail B
  | a :: l => .ok (l.foldl max a)

/-- `Vector2d::infNorm`, /repo/src/MathUtils/Vector2d.h:221-224. -/
noncomputable def V2.infNorm (B : Build) (v : V2) : Res ℝ := maxCoeff B [v.x, v.y]

/-- Eigen's `lpNorm<Infinity>()`, `cwiseAbs().maxCoeff()`: `infNorm` of `Vector3d`, /repo/src/MathUtils/Vector3d.h:131-134, of `Vector6d`,
/repo/src/MathUtils/Vector6d.h:109-112, and of `VectorN`, /repo/src/MathUtils/VectorN.h:149-152. -/
def infNormList [LinearOrder K] [AddGroup K] (B : Build) (v : List K) : Res K := maxCoeff B (v.map abs)

/-- `VectorN::Reverse`, /repo/src/MathUtils/VectorN.h:139-142: `std::reverse`. -/
def vReverse (v : List K) : List K := v.reverse

/-- `VectorN::Sort`, /repo/src/MathUtils/VectorN.h:121-127. The result of `std::sort` is determined by its contract; an insertion sort stands for it. -/
def vSort [LinearOrder K] (ascending : Bool) (v : List K) : List K :=
  let v := v.insertionSort (· ≤ ·)
  if !ascending then vReverse v else v

/-- The three angles `GetProjectedAngleAroundX/Y/Z`, by the coordinates they use: `if (unit == DEG) angle *= RAD2DEG`.
/repo/src/MathUtils/Vector3d.h:64-83 -/
noncomputable def projectedAngle (a b : ℝ) (unit : AngleUnit) : ℝ :=
  let angle := atan2 a b
  if unit = .DEG then angle * MU_180_PI else angle

/-- `Vector3d::GetProjectedAngleAroundX`, /repo/src/MathUtils/Vector3d.h:64-69. -/
noncomputable def projectedAngleAroundX (v : Fin 3 → ℝ) (unit : AngleUnit) : ℝ := projectedAngle (v 2) (v 1) unit
/-- `Vector3d::GetProjectedAngleAroundY`, /repo/src/MathUtils/Vector3d.h:71-76. -/
noncomputable def projectedAngleAroundY (v : Fin 3 → ℝ) (unit : AngleUnit) : ℝ := projectedAngle (v 0) (v 2) unit
/-- `Vector3d::GetProjectedAngleAroundZ`, /repo/src/MathUtils/Vector3d.h:78-83. -/
noncomputable def projectedAngleAroundZ (v : Fin 3 → ℝ) (unit : AngleUnit) : ℝ := projectedAngle (v 1) (v 0) unit

/-- `Vector3d::IsUnit`: `IsClose` with the default tolerances of /repo/src/MathUtils/Check.h:13. /repo/src/MathUtils/Vector3d.h:141-144 -/
noncomputable def isUnit3 (v : Fin 3 → ℝ) : Bool := isClose (Real.sqrt (v 0 ^ 2 + v 1 ^ 2 + v 2 ^ 2)) 1 (1 / 10 ^ 5) (1 / 10 ^ 8)

/-- `Vector3d::Normalize`, /repo/src/MathUtils/Vector3d.h:136-139: Eigen's `normalize()`, which leaves a null vector alone. -/
noncomputable def normalize3 (v : Fin 3 → ℝ) : Fin 3 → ℝ := by
  classical
  exact
    let z := v 0 ^ 2 + v 1 ^ 2 + v 2 ^ 2
    if 0 < z then fun i => v i / Real.sqrt z else v

end MU
