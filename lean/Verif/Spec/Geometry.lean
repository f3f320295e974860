import Verif.Model.Geometry
import Mathlib.LinearAlgebra.Matrix.NonsingularInverse
import Mathlib.Algebra.Quaternion

/-!
# What a rotation is
-/

namespace MU.Spec

/-- A proper rotation: orthogonal with determinant 1. -/
structure IsRotation (R : M3) : Prop where
  orth : R * R.transpose = 1
  det : R.det = 1

/-- The elementary rotation of angle `t` about the first axis. -/
noncomputable def rotX (t : ℝ) : M3 := !![1, 0, 0; 0, Real.cos t, -Real.sin t; 0, Real.sin t, Real.cos t]

/-- The elementary rotation of angle `t` about the second axis. -/
noncomputable def rotY (t : ℝ) : M3 := !![Real.cos t, 0, Real.sin t; 0, 1, 0; -Real.sin t, 0, Real.cos t]

/-- The elementary rotation of angle `t` about the third axis. -/
noncomputable def rotZ (t : ℝ) : M3 := !![Real.cos t, -Real.sin t, 0; Real.sin t, Real.cos t, 0; 0, 0, 1]

/-- The rotation of a sequence of roll, pitch and yaw: yaw about the third axis, then pitch, then roll (ZYX). -/
noncomputable def zyx (e : Euler) : M3 := rotZ e.y * rotY e.p * rotX e.r

/-- A quaternion of norm one. -/
def IsUnit (q : Quat) : Prop := q.w ^ 2 + q.x ^ 2 + q.y ^ 2 + q.z ^ 2 = 1

/-- The quaternion as an element of Mathlib's Hamilton quaternions. -/
def ham (q : Quat) : Quaternion ℝ := ⟨q.w, q.x, q.y, q.z⟩

/-- A vector as a pure quaternion. -/
def pure3 (v : Fin 3 → ℝ) : Quaternion ℝ := ⟨0, v 0, v 1, v 2⟩

/-- The opposite quaternion. -/
def negQ (q : Quat) : Quat := ⟨-q.w, -q.x, -q.y, -q.z⟩

/-- The ranges where Euler angles are unique. -/
def Principal (e : Euler) : Prop :=
  (-Real.pi < e.r ∧ e.r ≤ Real.pi) ∧ (-(Real.pi / 2) < e.p ∧ e.p < Real.pi / 2) ∧ (-Real.pi < e.y ∧ e.y ≤ Real.pi)

end MU.Spec
