import Verif.Model.Geometry

/-!
# Geometry.h in double arithmetic

Every operation of the expressions is followed by `rnd`. No overflow or underflow, no contraction of a product and a sum into one operation. The
functions of the C library are parameters: nothing is assumed on them here, except that `asin` is not a number outside `[-1, 1]`.
-/

namespace MU

/-- The functions of the C library called in /repo/src/MathUtils/Geometry.h: `pow2 x` is `pow(x, 2.0)`. `sqrt` is not among them, because IEEE 754
requires it to be rounded correctly. -/
structure CMath where
  cos : ℝ → ℝ
  sin : ℝ → ℝ
  asin : ℝ → ℝ
  atan2 : ℝ → ℝ → ℝ
  pow2 : ℝ → ℝ

/-- `asin`, not a number outside `[-1, 1]`. Called at /repo/src/MathUtils/Geometry.h:18. -/
noncomputable def casinR (M : CMath) (x : ℝ) : Res ℝ := by
  classical
  exact if -1 ≤ x ∧ x ≤ 1 then .ok (M.asin x) else .nonfinite

/-- `quaternionToEulerAnglesZYX` in double, /repo/src/MathUtils/Geometry.h:12-23. -/
noncomputable def quaternionToEulerR (rnd : ℝ → ℝ) (M : CMath) (q : Quat) : Res Euler := do
  let r := M.atan2 (rnd (rnd (rnd (2 * q.w) * q.x) + rnd (rnd (2 * q.y) * q.z)))
    (rnd (rnd (rnd (rnd (q.w * q.w) - rnd (q.x * q.x)) - rnd (q.y * q.y)) + rnd (q.z * q.z)))
  let a ← casinR M (rnd (rnd (rnd (2 * q.x) * q.z) - rnd (rnd (2 * q.w) * q.y)))
  let y := M.atan2 (rnd (rnd (rnd (2 * q.w) * q.z) + rnd (rnd (2 * q.x) * q.y)))
    (rnd (rnd (rnd (rnd (q.w * q.w) + rnd (q.x * q.x)) - rnd (q.y * q.y)) - rnd (q.z * q.z)))
  return ⟨r, -a, y⟩

/-- `eulerAnglesZYXToQuaternion` in double, /repo/src/MathUtils/Geometry.h:25-37. -/
noncomputable def eulerToQuaternionR (rnd : ℝ → ℝ) (M : CMath) (e : Euler) : Quat :=
  let r := rnd (e.r / 2)
  let p := rnd (e.p / 2)
  let y := rnd (e.y / 2)
  ⟨rnd (rnd (rnd (M.cos r * M.cos p) * M.cos y) + rnd (rnd (M.sin r * M.sin p) * M.sin y)),
   rnd (rnd (rnd (M.sin r * M.cos p) * M.cos y) - rnd (rnd (M.cos r * M.sin p) * M.sin y)),
   rnd (rnd (rnd (M.cos r * M.sin p) * M.cos y) + rnd (rnd (M.sin r * M.cos p) * M.sin y)),
   rnd (rnd (rnd (M.cos r * M.cos p) * M.sin y) - rnd (rnd (M.sin r * M.sin p) * M.cos y))⟩

/-- `rotationMatrixToEulerAnglesZYX` in double, /repo/src/MathUtils/Geometry.h:39-47. -/
noncomputable def matrixToEulerR (rnd : ℝ → ℝ) (M : CMath) (R : M3) : Euler :=
  ⟨M.atan2 (R 2 1) (R 2 2), -M.atan2 (R 2 0) (rnd (Real.sqrt (rnd (M.pow2 (R 2 1) + M.pow2 (R 2 2))))), M.atan2 (R 1 0) (R 0 0)⟩

/-- `eulerAnglesZYXToRotationMatrix` in double, /repo/src/MathUtils/Geometry.h:49-70. -/
noncomputable def eulerToMatrixR (rnd : ℝ → ℝ) (M : CMath) (e : Euler) : M3 :=
  let r := e.r
  let p := e.p
  let y := e.y
  !![rnd (M.cos y * M.cos p),
     rnd (rnd (rnd (M.cos y * M.sin p) * M.sin r) - rnd (M.sin y * M.cos r)),
     rnd (rnd (rnd (M.cos y * M.sin p) * M.cos r) + rnd (M.sin y * M.sin r));
     rnd (M.sin y * M.cos p),
     rnd (rnd (rnd (M.sin y * M.sin p) * M.sin r) + rnd (M.cos y * M.cos r)),
     rnd (rnd (rnd (M.sin y * M.sin p) * M.cos r) - rnd (M.cos y * M.sin r));
     -M.sin p,
     rnd (M.cos p * M.sin r),
     rnd (M.cos p * M.cos r)]

/-- `quaternionToRotationMatrix` in double, /repo/src/MathUtils/Geometry.h:72-89. -/
noncomputable def quaternionToMatrixR (rnd : ℝ → ℝ) (q : Quat) : M3 :=
  !![rnd (rnd (rnd (rnd (q.w * q.w) + rnd (q.x * q.x)) - rnd (q.y * q.y)) - rnd (q.z * q.z)),
     rnd (rnd (rnd (2 * q.x) * q.y) - rnd (rnd (2 * q.w) * q.z)),
     rnd (rnd (rnd (2 * q.w) * q.y) + rnd (rnd (2 * q.x) * q.z));
     rnd (rnd (rnd (2 * q.w) * q.z) + rnd (rnd (2 * q.x) * q.y)),
     rnd (rnd (rnd (rnd (q.w * q.w) - rnd (q.x * q.x)) + rnd (q.y * q.y)) - rnd (q.z * q.z)),
     rnd (rnd (rnd (2 * q.y) * q.z) - rnd (rnd (2 * q.w) * q.x));
     rnd (rnd (rnd (2 * q.x) * q.z) - rnd (rnd (2 * q.w) * q.y)),
     rnd (rnd (rnd (2 * q.w) * q.x) + rnd (rnd (2 * q.y) * q.z)),
     rnd (rnd (rnd (rnd (q.w * q.w) - rnd (q.x * q.x)) - rnd (q.y * q.y)) + rnd (q.z * q.z))]

/-- The second half of Eigen's algorithm in double: `i` is the index of the largest diagonal element. Called through
/repo/src/MathUtils/Geometry.h:93. For a matrix far from any rotation the square root can be of a negative number, which is taken as 0 here. -/
noncomputable def eigenQuatLargestR (rnd : ℝ → ℝ) (m : M3) (i : Fin 3) : Quat :=
  let j := i + 1
  let k := j + 1
  let t := rnd (Real.sqrt (rnd (rnd (rnd (m i i - m j j) - m k k) + 1)))
  let ci := rnd (1 / 2 * t)
  let s := rnd (1 / 2 / t)
  let w := rnd (rnd (m k j - m j k) * s)
  let cj := rnd (rnd (m j i + m i j) * s)
  let ck := rnd (rnd (m k i + m i k) * s)
  let c : Fin 3 → ℝ := fun a => if a = i then ci else if a = j then cj else ck
  ⟨w, c 0, c 1, c 2⟩

/-- `RotationMatrixToQuaternion` in double, /repo/src/MathUtils/Geometry.h:91-94: Eigen's conversion of a matrix. `sum3` adds the diagonal elements, in an
order that is Eigen's. -/
noncomputable def matrixToQuaternionR (rnd : ℝ → ℝ) (sum3 : ℝ → ℝ → ℝ → ℝ) (m : M3) : Quat := by
  classical
  exact
    let t := sum3 (m 0 0) (m 1 1) (m 2 2)
    if 0 < t then
      let t := rnd (Real.sqrt (rnd (t + 1)))
      let w := rnd (1 / 2 * t)
      let s := rnd (1 / 2 / t)
      ⟨w, rnd (rnd (m 2 1 - m 1 2) * s), rnd (rnd (m 0 2 - m 2 0) * s), rnd (rnd (m 1 0 - m 0 1) * s)⟩
    else
      let i : Fin 3 := if m 0 0 < m 1 1 then 1 else 0
      let i : Fin 3 := if m i i < m 2 2 then 2 else i
      eigenQuatLargestR rnd m i

end MU
