import Verif.Core
import Mathlib.Analysis.SpecialFunctions.Complex.Arg
import Mathlib.Analysis.SpecialFunctions.Trigonometric.Inverse
import Mathlib.LinearAlgebra.Matrix.Notation
import Mathlib.Analysis.SpecialFunctions.Sqrt

/-!
# Geometry.h

Exact real arithmetic. `atan2` is the argument of a complex number: `atan2(0, 0) = 0`, and there are no signed zeros. `asin` outside `[-1, 1]` is
`nonfinite`. `RotationMatrixToQuaternion` is a constructor of Eigen; the algorithm of Eigen is modelled (`internal::quaternionbase_assign_impl` in
Eigen/src/Geometry/Quaternion.h, not part of /repo).
-/

namespace MU

/-- C's `atan2`. Called at /repo/src/MathUtils/Geometry.h:15, 19, 42, 43, 45. -/
noncomputable def atan2 (y x : ℝ) : ℝ := Complex.arg ⟨x, y⟩

/-- C's `asin`. Called at /repo/src/MathUtils/Geometry.h:18. -/
noncomputable def casin (x : ℝ) : Res ℝ := by
  classical
  exact if -1 ≤ x ∧ x ≤ 1 then .ok (Real.arcsin x) else .nonfinite

/-- `Eigen::Quaterniond`. Type of /repo/src/MathUtils/Geometry.h:12, 25-28, 72, 91. -/
@[ext] structure Quat where
  w : ℝ
  x : ℝ
  y : ℝ
  z : ℝ

/-- `Eigen::Vector3d` of roll, pitch, yaw. Type of /repo/src/MathUtils/Geometry.h:12, 25-27, 38. -/
@[ext] structure Euler where
  r : ℝ
  p : ℝ
  y : ℝ

/-- `Eigen::Matrix3d`. Type of /repo/src/MathUtils/Geometry.h:38, 51, 72, 91. -/
abbrev M3 := Matrix (Fin 3) (Fin 3) ℝ

/-- `quaternionToEulerAnglesZYX`, /repo/src/MathUtils/Geometry.h:12-23. -/
noncomputable def quaternionToEuler (q : Quat) : Res Euler := do
  let r := atan2 (2 * q.w * q.x + 2 * q.y * q.z) (q.w * q.w - q.x * q.x - q.y * q.y + q.z * q.z)
  let a ← casin (2 * q.x * q.z - 2 * q.w * q.y)
  let y := atan2 (2 * q.w * q.z + 2 * q.x * q.y) (q.w * q.w + q.x * q.x - q.y * q.y - q.z * q.z)
  return ⟨r, -a, y⟩

/-- `eulerAnglesZYXToQuaternion`, /repo/src/MathUtils/Geometry.h:25-37. -/
noncomputable def eulerToQuaternion (e : Euler) : Quat :=
  let r := e.r / 2
  let p := e.p / 2
  let y := e.y / 2
  ⟨Real.cos r * Real.cos p * Real.cos y + Real.sin r * Real.sin p * Real.sin y,
   Real.sin r * Real.cos p * Real.cos y - Real.cos r * Real.sin p * Real.sin y,
   Real.cos r * Real.sin p * Real.cos y + Real.sin r * Real.cos p * Real.sin y,
   Real.cos r * Real.cos p * Real.sin y - Real.sin r * Real.sin p * Real.cos y⟩

/-- `rotationMatrixToEulerAnglesZYX`, /repo/src/MathUtils/Geometry.h:39-47. -/
noncomputable def matrixToEuler (R : M3) : Euler :=
  ⟨atan2 (R 2 1) (R 2 2), -atan2 (R 2 0) (Real.sqrt (R 2 1 ^ 2 + R 2 2 ^ 2)), atan2 (R 1 0) (R 0 0)⟩

/-- `eulerAnglesZYXToRotationMatrix`, /repo/src/MathUtils/Geometry.h:49-70. -/
noncomputable def eulerToMatrix (e : Euler) : M3 :=
  let r := e.r
  let p := e.p
  let y := e.y
  !![Real.cos y * Real.cos p,
     Real.cos y * Real.sin p * Real.sin r - Real.sin y * Real.cos r,
     Real.cos y * Real.sin p * Real.cos r + Real.sin y * Real.sin r;
     Real.sin y * Real.cos p,
     Real.sin y * Real.sin p * Real.sin r + Real.cos y * Real.cos r,
     Real.sin y * Real.sin p * Real.cos r - Real.cos y * Real.sin r;
     -Real.sin p,
     Real.cos p * Real.sin r,
     Real.cos p * Real.cos r]

/-- `quaternionToRotationMatrix`, /repo/src/MathUtils/Geometry.h:72-89. -/
def quaternionToMatrix (q : Quat) : M3 :=
  !![q.w * q.w + q.x * q.x - q.y * q.y - q.z * q.z,
     2 * q.x * q.y - 2 * q.w * q.z,
     2 * q.w * q.y + 2 * q.x * q.z;
     2 * q.w * q.z + 2 * q.x * q.y,
     q.w * q.w - q.x * q.x + q.y * q.y - q.z * q.z,
     2 * q.y * q.z - 2 * q.w * q.x;
     2 * q.x * q.z - 2 * q.w * q.y,
     2 * q.w * q.x + 2 * q.y * q.z,
     q.w * q.w - q.x * q.x - q.y * q.y + q.z * q.z]

/-- The second half of Eigen's algorithm: `i` is the index of the largest diagonal element, `j` and `k` the next ones.
Called through /repo/src/MathUtils/Geometry.h:93. -/
noncomputable def eigenQuatLargest (m : M3) (i : Fin 3) : Quat :=
  let j := i + 1
  let k := j + 1
  let t := Real.sqrt (m i i - m j j - m k k + 1)
  let ci := 1 / 2 * t
  let s := 1 / 2 / t
  let w := (m k j - m j k) * s
  let cj := (m j i + m i j) * s
  let ck := (m k i + m i k) * s
  let c : Fin 3 → ℝ := fun a => if a = i then ci else if a = j then cj else ck
  ⟨w, c 0, c 1, c 2⟩

/-- `RotationMatrixToQuaternion`, /repo/src/MathUtils/Geometry.h:91-94: Eigen's conversion of a matrix. -/
noncomputable def matrixToQuaternion (m : M3) : Quat := by
  classical
  exact
    let t := m 0 0 + m 1 1 + m 2 2
    if 0 < t then
      let t := Real.sqrt (t + 1)
      let w := 1 / 2 * t
      let s := 1 / 2 / t
      ⟨w, (m 2 1 - m 1 2) * s, (m 0 2 - m 2 0) * s, (m 1 0 - m 0 1) * s⟩
    else
      let i : Fin 3 := if m 0 0 < m 1 1 then 1 else 0
      let i : Fin 3 := if m i i < m 2 2 then 2 else i
      eigenQuatLargest m i

end MU
