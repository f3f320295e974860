import Verif.Lemmas.Geometry
import Mathlib.Analysis.Real.Pi.Bounds

/-!
# C56, C57, C58, C74, C75: rotations
-/

set_option linter.unusedSectionVars false

namespace MU

open Spec

/-! ## C56 -/

/-- C56: the matrix of Euler angles is the product of the three elementary rotations. -/
theorem C56_zyx (e : Euler) : eulerToMatrix e = zyx e := by
  unfold eulerToMatrix zyx rotX rotY rotZ
  ext i j
  fin_cases i <;> fin_cases j <;> simp [Matrix.mul_apply, Fin.sum_univ_three] <;> ring

/-- C56: the matrix of Euler angles is a proper rotation. -/
theorem C56_euler (e : Euler) : IsRotation (eulerToMatrix e) := by
  have hr := Real.sin_sq_add_cos_sq e.r
  have hp := Real.sin_sq_add_cos_sq e.p
  have hy := Real.sin_sq_add_cos_sq e.y
  have hX : ∀ t, IsRotation (rotX t) := fun t => by
    have := Real.sin_sq_add_cos_sq t
    constructor
    · ext i j
      fin_cases i <;> fin_cases j <;> simp [rotX, Matrix.mul_apply, Fin.sum_univ_three] <;> nlinarith
    · simp [rotX, Matrix.det_fin_three]
      nlinarith
  have hY : ∀ t, IsRotation (rotY t) := fun t => by
    have := Real.sin_sq_add_cos_sq t
    constructor
    · ext i j
      fin_cases i <;> fin_cases j <;> simp [rotY, Matrix.mul_apply, Fin.sum_univ_three] <;> nlinarith
    · simp [rotY, Matrix.det_fin_three]
      nlinarith
  have hZ : ∀ t, IsRotation (rotZ t) := fun t => by
    have := Real.sin_sq_add_cos_sq t
    constructor
    · ext i j
      fin_cases i <;> fin_cases j <;> simp [rotZ, Matrix.mul_apply, Fin.sum_univ_three] <;> nlinarith
    · simp [rotZ, Matrix.det_fin_three]
      nlinarith
  have hm : ∀ A B : M3, IsRotation A → IsRotation B → IsRotation (A * B) := fun A B ha hb => by
    constructor
    · rw [Matrix.transpose_mul, Matrix.mul_assoc, ← Matrix.mul_assoc B, hb.orth, Matrix.one_mul, ha.orth]
    · rw [Matrix.det_mul, ha.det, hb.det, one_mul]
  rw [C56_zyx]
  exact hm _ _ (hm _ _ (hZ _) (hY _)) (hX _)

/-- C56: the matrix of a unit quaternion is a proper rotation. -/
theorem C56_quaternion (q : Quat) (h : Spec.IsUnit q) : IsRotation (quaternionToMatrix q) := by
  unfold Spec.IsUnit at h
  constructor
  · ext i j
    fin_cases i <;> fin_cases j <;> simp [quaternionToMatrix, Matrix.mul_apply, Fin.sum_univ_three] <;>
      first
      | ring1
      | linear_combination (q.w ^ 2 + q.x ^ 2 + q.y ^ 2 + q.z ^ 2 + 1) * h
  · simp [quaternionToMatrix, Matrix.det_fin_three]
    linear_combination ((q.w ^ 2 + q.x ^ 2 + q.y ^ 2 + q.z ^ 2) ^ 2 + (q.w ^ 2 + q.x ^ 2 + q.y ^ 2 + q.z ^ 2) + 1) * h

/-- C56: the quaternion of Euler angles is a unit quaternion. -/
theorem C56_unit (e : Euler) : Spec.IsUnit (eulerToQuaternion e) := by
  unfold Spec.IsUnit eulerToQuaternion
  have hr := Real.sin_sq_add_cos_sq (e.r / 2)
  have hp := Real.sin_sq_add_cos_sq (e.p / 2)
  have hy := Real.sin_sq_add_cos_sq (e.y / 2)
  simp only
  calc _ = (Real.sin (e.r / 2) ^ 2 + Real.cos (e.r / 2) ^ 2) * (Real.sin (e.p / 2) ^ 2 + Real.cos (e.p / 2) ^ 2)
        * (Real.sin (e.y / 2) ^ 2 + Real.cos (e.y / 2) ^ 2) := by ring
    _ = 1 := by rw [hr, hp, hy]; norm_num

/-- C56: the matrix of a quaternion acts on vectors as the quaternion does, `v ↦ q v q*`. -/
theorem C56_acts (q : Quat) (v : Fin 3 → ℝ) :
    pure3 ((quaternionToMatrix q).mulVec v) = ham q * pure3 v * star (ham q) := by
  have h1 : (ham q).re = q.w := rfl
  have h2 : (ham q).imI = q.x := rfl
  have h3 : (ham q).imJ = q.y := rfl
  have h4 : (ham q).imK = q.z := rfl
  have p1 : ∀ v, (pure3 v).re = 0 := fun _ => rfl
  have p2 : ∀ v, (pure3 v).imI = v 0 := fun _ => rfl
  have p3 : ∀ v, (pure3 v).imJ = v 1 := fun _ => rfl
  have p4 : ∀ v, (pure3 v).imK = v 2 := fun _ => rfl
  ext <;>
    simp [h1, h2, h3, h4, p1, p2, p3, p4, quaternionToMatrix, Matrix.mulVec, dotProduct, Fin.sum_univ_three] <;> ring

/-- C56 is about something: a unit quaternion which is neither real nor a multiple of an axis. -/
example : ∃ q : Quat, Spec.IsUnit q ∧ (quaternionToMatrix q) 0 1 ≠ 0 ∧ (quaternionToMatrix q) 2 2 ≠ 1 := by
  refine ⟨⟨1 / 2, 1 / 2, 1 / 2, -1 / 2⟩, ?_, ?_, ?_⟩
  · norm_num [Spec.IsUnit]
  · show (2 : ℝ) * (1 / 2) * (1 / 2) - 2 * (1 / 2) * (-1 / 2) ≠ 0
    norm_num
  · show (1 / 2 : ℝ) * (1 / 2) - (1 / 2) * (1 / 2) - (1 / 2) * (1 / 2) + (-1 / 2) * (-1 / 2) ≠ 1
    norm_num

/-! ## C57 -/

/-- C57: Euler angles to quaternion to matrix is the direct conversion. -/
theorem C57_euler_quaternion_matrix (e : Euler) : quaternionToMatrix (eulerToQuaternion e) = eulerToMatrix e := by
  have d : ∀ t : ℝ, Real.cos t = Real.cos (t / 2) ^ 2 - Real.sin (t / 2) ^ 2 ∧ Real.sin t = 2 * Real.sin (t / 2) * Real.cos (t / 2) := fun t => by
    have h1 := Real.cos_two_mul' (t / 2)
    have h2 := Real.sin_two_mul (t / 2)
    rw [show 2 * (t / 2) = t by ring] at h1 h2
    exact ⟨h1, h2⟩
  unfold eulerToMatrix
  simp only [(d e.r).1, (d e.p).1, (d e.y).1, (d e.r).2, (d e.p).2, (d e.y).2]
  have hr := Real.sin_sq_add_cos_sq (e.r / 2)
  have hp := Real.sin_sq_add_cos_sq (e.p / 2)
  have hy := Real.sin_sq_add_cos_sq (e.y / 2)
  unfold quaternionToMatrix eulerToQuaternion
  simp only
  generalize Real.sin (e.r / 2) = sr at *
  generalize Real.cos (e.r / 2) = cr at *
  generalize Real.sin (e.p / 2) = sp at *
  generalize Real.cos (e.p / 2) = cp at *
  generalize Real.sin (e.y / 2) = sy at *
  generalize Real.cos (e.y / 2) = cy at *
  ext i j
  fin_cases i <;> fin_cases j <;> simp
  · linear_combination (cy ^ 2 - sy ^ 2) * (cp ^ 2 - sp ^ 2) * hr
  · linear_combination (-(2 * sy * cy) * (cr ^ 2 - sr ^ 2)) * hp
  · linear_combination (2 * sy * cy * (2 * sr * cr)) * hp
  · linear_combination (2 * sy * cy) * (cp ^ 2 - sp ^ 2) * hr
  · linear_combination ((cy ^ 2 - sy ^ 2) * (cr ^ 2 - sr ^ 2)) * hp
  · linear_combination (-(cy ^ 2 - sy ^ 2) * (2 * sr * cr)) * hp
  · linear_combination (-(2 * sp * cp)) * ((sr ^ 2 + cr ^ 2) * hy + hr)
  · linear_combination (cp ^ 2 - sp ^ 2) * (2 * sr * cr) * hy
  · linear_combination (cp ^ 2 - sp ^ 2) * (cr ^ 2 - sr ^ 2) * hy

/-- C57: a quaternion and its opposite give the same matrix. -/
theorem C57_opposite (q : Quat) : quaternionToMatrix (negQ q) = quaternionToMatrix q := by
  unfold quaternionToMatrix negQ
  simp only
  ext i j
  fin_cases i <;> fin_cases j <;> simp

/-- C57: the matrix determines the unit quaternion up to its sign. -/
theorem C57_only_opposite (p q : Quat) (hp : Spec.IsUnit p) (hq : Spec.IsUnit q) (h : quaternionToMatrix p = quaternionToMatrix q) :
    p = q ∨ p = negQ q := by
  unfold Spec.IsUnit at hp hq
  have e : ∀ i j, quaternionToMatrix p i j = quaternionToMatrix q i j := fun i j => by rw [h]
  have e00 := e 0 0
  have e01 := e 0 1
  have e02 := e 0 2
  have e10 := e 1 0
  have e11 := e 1 1
  have e12 := e 1 2
  have e20 := e 2 0
  have e21 := e 2 1
  have e22 := e 2 2
  simp [quaternionToMatrix] at e00 e01 e02 e10 e11 e12 e20 e21 e22
  have ww : p.w * p.w = q.w * q.w := by linarith
  have xx : p.x * p.x = q.x * q.x := by linarith
  have yy : p.y * p.y = q.y * q.y := by linarith
  have zz : p.z * p.z = q.z * q.z := by linarith
  have wx : p.w * p.x = q.w * q.x := by linarith
  have wy : p.w * p.y = q.w * q.y := by linarith
  have wz : p.w * p.z = q.w * q.z := by linarith
  have xy : p.x * p.y = q.x * q.y := by linarith
  have xz : p.x * p.z = q.x * q.z := by linarith
  have yz : p.y * p.z = q.y * q.z := by linarith
  -- the inner product of the two quaternions is 1 or -1
  have hd : (p.w * q.w + p.x * q.x + p.y * q.y + p.z * q.z) ^ 2 = 1 := by
    calc _ = (p.w * p.w) * (q.w * q.w) + (p.x * p.x) * (q.x * q.x) + (p.y * p.y) * (q.y * q.y) + (p.z * p.z) * (q.z * q.z)
          + 2 * ((p.w * p.x) * (q.w * q.x) + (p.w * p.y) * (q.w * q.y) + (p.w * p.z) * (q.w * q.z) + (p.x * p.y) * (q.x * q.y)
          + (p.x * p.z) * (q.x * q.z) + (p.y * p.z) * (q.y * q.z)) := by ring
      _ = (q.w ^ 2 + q.x ^ 2 + q.y ^ 2 + q.z ^ 2) ^ 2 := by rw [ww, xx, yy, zz, wx, wy, wz, xy, xz, yz]; ring
      _ = 1 := by rw [hq]; norm_num
  rcases mul_self_eq_one_iff.1 ((sq _).symm.trans hd) with h1 | h1
  · left
    have : (p.w - q.w) ^ 2 + (p.x - q.x) ^ 2 + (p.y - q.y) ^ 2 + (p.z - q.z) ^ 2 = 0 := by linear_combination hp + hq - 2 * h1
    have a := sq_nonneg (p.w - q.w)
    have b := sq_nonneg (p.x - q.x)
    have c := sq_nonneg (p.y - q.y)
    have d := sq_nonneg (p.z - q.z)
    have z : ∀ t : ℝ, t ^ 2 = 0 → t = 0 := fun t => by simp
    ext
    · linarith [z _ (by linarith : (p.w - q.w) ^ 2 = 0)]
    · linarith [z _ (by linarith : (p.x - q.x) ^ 2 = 0)]
    · linarith [z _ (by linarith : (p.y - q.y) ^ 2 = 0)]
    · linarith [z _ (by linarith : (p.z - q.z) ^ 2 = 0)]
  · right
    have : (p.w + q.w) ^ 2 + (p.x + q.x) ^ 2 + (p.y + q.y) ^ 2 + (p.z + q.z) ^ 2 = 0 := by linear_combination hp + hq + 2 * h1
    have a := sq_nonneg (p.w + q.w)
    have b := sq_nonneg (p.x + q.x)
    have c := sq_nonneg (p.y + q.y)
    have d := sq_nonneg (p.z + q.z)
    have z : ∀ t : ℝ, t ^ 2 = 0 → t = 0 := fun t => by simp
    ext
    · show _ = -q.w; linarith [z _ (by linarith : (p.w + q.w) ^ 2 = 0)]
    · show _ = -q.x; linarith [z _ (by linarith : (p.x + q.x) ^ 2 = 0)]
    · show _ = -q.y; linarith [z _ (by linarith : (p.y + q.y) ^ 2 = 0)]
    · show _ = -q.z; linarith [z _ (by linarith : (p.z + q.z) ^ 2 = 0)]

/-- C57: extracting Euler angles from a unit quaternion never fails and is the extraction from its matrix. -/
theorem C57_extraction (q : Quat) (h : Spec.IsUnit q) : quaternionToEuler q = .ok (matrixToEuler (quaternionToMatrix q)) := by
  unfold Spec.IsUnit at h
  have hb : (2 * q.x * q.z - 2 * q.w * q.y) ^ 2 + ((2 * q.w * q.x + 2 * q.y * q.z) ^ 2 + (q.w * q.w - q.x * q.x - q.y * q.y + q.z * q.z) ^ 2) = 1 := by
    linear_combination (q.w ^ 2 + q.x ^ 2 + q.y ^ 2 + q.z ^ 2 + 1) * h
  set s := 2 * q.x * q.z - 2 * q.w * q.y with hs
  set u := (2 * q.w * q.x + 2 * q.y * q.z) ^ 2 + (q.w * q.w - q.x * q.x - q.y * q.y + q.z * q.z) ^ 2 with hu
  have hu0 : 0 ≤ u := by rw [hu]; positivity
  have hr : -1 ≤ s ∧ s ≤ 1 := abs_le.1 ((sq_le_one_iff_abs_le_one s).1 (by linarith))
  have key : Real.arcsin s = atan2 s (Real.sqrt u) := by
    have hc : Real.sqrt u = Real.cos (Real.arcsin s) := by rw [Real.cos_arcsin]; congr 1; linarith
    have hs' : s = Real.sin (Real.arcsin s) := (Real.sin_arcsin hr.1 hr.2).symm
    have := atan2_polar (k := 1) (t := Real.arcsin s) one_pos
      ⟨by linarith [Real.neg_pi_div_two_le_arcsin s, Real.pi_pos], by linarith [Real.arcsin_le_pi_div_two s, Real.pi_pos]⟩
    rw [one_mul, one_mul, ← hs', ← hc] at this
    exact this.symm
  unfold quaternionToEuler casin
  simp only [← hs]
  rw [if_pos hr]
  show Res.ok _ = _
  rw [key]
  congr 1

/-- C57 is about something: a unit quaternion whose angles are not zero. -/
example : ∃ q : Quat, Spec.IsUnit q ∧ ∃ e, quaternionToEuler q = .ok e ∧ e.p = -Real.arcsin (24 / 25) :=
  ⟨⟨3 / 5, 0, -4 / 5, 0⟩, by norm_num [Spec.IsUnit], _, by
    unfold quaternionToEuler casin
    simp only
    rw [if_pos (by norm_num)]
    rfl, by norm_num⟩

/-! ## C58 -/

/-- C58: the Euler angles of the matrix of principal Euler angles are these angles. -/
theorem C58_matrix (e : Euler) (h : Principal e) : matrixToEuler (eulerToMatrix e) = e := by
  obtain ⟨h1, h2, h3⟩ := h
  have hc : 0 < Real.cos e.p := Real.cos_pos_of_mem_Ioo ⟨h2.1, h2.2⟩
  have hq : Real.sqrt ((Real.cos e.p * Real.sin e.r) ^ 2 + (Real.cos e.p * Real.cos e.r) ^ 2) = Real.cos e.p := by
    rw [show (Real.cos e.p * Real.sin e.r) ^ 2 + (Real.cos e.p * Real.cos e.r) ^ 2 = Real.cos e.p ^ 2 * (Real.sin e.r ^ 2 + Real.cos e.r ^ 2) by ring,
      Real.sin_sq_add_cos_sq, mul_one, Real.sqrt_sq hc.le]
  unfold matrixToEuler eulerToMatrix
  ext
  · exact atan2_polar hc h1
  · show -atan2 (-Real.sin e.p) (Real.sqrt ((Real.cos e.p * Real.sin e.r) ^ 2 + (Real.cos e.p * Real.cos e.r) ^ 2)) = e.p
    rw [hq]
    have := atan2_polar (k := 1) (t := -e.p) one_pos ⟨by linarith [Real.pi_pos], by linarith [Real.pi_pos]⟩
    rw [Real.sin_neg, Real.cos_neg, one_mul, one_mul] at this
    rw [this, neg_neg]
  · show atan2 (Real.sin e.y * Real.cos e.p) (Real.cos e.y * Real.cos e.p) = e.y
    rw [mul_comm, mul_comm (Real.cos e.y)]
    exact atan2_polar hc h3

/-- C58: the Euler angles of the quaternion of principal Euler angles are these angles. -/
theorem C58_quaternion (e : Euler) (h : Principal e) : quaternionToEuler (eulerToQuaternion e) = .ok e := by
  rw [C57_extraction _ (C56_unit e), C57_euler_quaternion_matrix, C58_matrix e h]

/-- C58 is about something: angles in the ranges, one on the closed boundary. -/
example : Principal ⟨Real.pi, 1, -3⟩ :=
  ⟨⟨by linarith [Real.pi_pos], le_refl _⟩, ⟨by linarith [Real.pi_gt_three], by linarith [Real.pi_gt_three]⟩,
    ⟨by linarith [Real.pi_gt_three], by linarith [Real.pi_gt_three]⟩⟩

/-! ## C74 -/

/-- The products of components, from their quotients by the component of square `T / 4`. -/
theorem quotient_products {T : ℝ} (hT : 0 < T) :
    (1 / 2 * Real.sqrt T) * (1 / 2 * Real.sqrt T) = T / 4 ∧
    (∀ k, (1 / 2 * Real.sqrt T) * (k * (1 / 2 / Real.sqrt T)) = k / 4) ∧
    (∀ k l m, k * l = T * m → (k * (1 / 2 / Real.sqrt T)) * (l * (1 / 2 / Real.sqrt T)) = m / 4) := by
  have h0 : 0 < Real.sqrt T := Real.sqrt_pos.2 hT
  have h1 : Real.sqrt T * Real.sqrt T = T := Real.mul_self_sqrt hT.le
  refine ⟨by linear_combination (1 / 4) * h1, fun k => ?_, fun k l m h => ?_⟩
  · field_simp
    ring
  · have e : (k * (1 / 2 / Real.sqrt T)) * (l * (1 / 2 / Real.sqrt T)) = k * l / (4 * (Real.sqrt T * Real.sqrt T)) := by
      field_simp
      ring
    rw [e, h1, h]
    field_simp

/-- The matrix of a quaternion whose products of components are those of a matrix `R` is `R`. -/
theorem matrix_of_products (R : M3) (q : Quat)
    (ww : q.w * q.w = (1 + R 0 0 + R 1 1 + R 2 2) / 4) (xx : q.x * q.x = (1 + R 0 0 - R 1 1 - R 2 2) / 4)
    (yy : q.y * q.y = (1 - R 0 0 + R 1 1 - R 2 2) / 4) (zz : q.z * q.z = (1 - R 0 0 - R 1 1 + R 2 2) / 4)
    (wx : q.w * q.x = (R 2 1 - R 1 2) / 4) (wy : q.w * q.y = (R 0 2 - R 2 0) / 4) (wz : q.w * q.z = (R 1 0 - R 0 1) / 4)
    (xy : q.x * q.y = (R 0 1 + R 1 0) / 4) (xz : q.x * q.z = (R 0 2 + R 2 0) / 4) (yz : q.y * q.z = (R 1 2 + R 2 1) / 4) :
    Spec.IsUnit q ∧ quaternionToMatrix q = R := by
  refine ⟨by unfold Spec.IsUnit; linear_combination ww + xx + yy + zz, ?_⟩
  ext i j
  fin_cases i <;> fin_cases j <;> simp [quaternionToMatrix]
  · linear_combination ww + xx - yy - zz
  · linear_combination 2 * xy - 2 * wz
  · linear_combination 2 * wy + 2 * xz
  · linear_combination 2 * wz + 2 * xy
  · linear_combination ww - xx + yy - zz
  · linear_combination 2 * yz - 2 * wx
  · linear_combination 2 * xz - 2 * wy
  · linear_combination 2 * wx + 2 * yz
  · linear_combination ww - xx - yy + zz

theorem quat_trace {R : M3} (h : IsRotation R) (hT : 0 < R 0 0 + R 1 1 + R 2 2 + 1) {q : Quat}
    (hq : q = ⟨1 / 2 * Real.sqrt (R 0 0 + R 1 1 + R 2 2 + 1), (R 2 1 - R 1 2) * (1 / 2 / Real.sqrt (R 0 0 + R 1 1 + R 2 2 + 1)),
      (R 0 2 - R 2 0) * (1 / 2 / Real.sqrt (R 0 0 + R 1 1 + R 2 2 + 1)), (R 1 0 - R 0 1) * (1 / 2 / Real.sqrt (R 0 0 + R 1 1 + R 2 2 + 1))⟩) :
    Spec.IsUnit q ∧ quaternionToMatrix q = R := by
  subst hq
  obtain ⟨q1, q2, q3⟩ := quotient_products hT
  obtain ⟨e1, e2, e3, e4, e5, e6⟩ := rank_one_w h
  refine matrix_of_products R _ ?_ ?_ ?_ ?_ ?_ ?_ ?_ ?_ ?_ ?_ <;> simp only
  · rw [q1]; ring
  · rw [q3 _ _ (1 + R 0 0 - R 1 1 - R 2 2) (by linear_combination e1)]
  · rw [q3 _ _ (1 - R 0 0 + R 1 1 - R 2 2) (by linear_combination e4)]
  · rw [q3 _ _ (1 - R 0 0 - R 1 1 + R 2 2) (by linear_combination e6)]
  · rw [q2]
  · rw [q2]
  · rw [q2]
  · rw [q3 _ _ (R 0 1 + R 1 0) (by linear_combination e2)]
  · rw [q3 _ _ (R 0 2 + R 2 0) (by linear_combination e3)]
  · rw [q3 _ _ (R 1 2 + R 2 1) (by linear_combination e5)]

theorem quat_largest0 {R : M3} (h : IsRotation R) (hT : 0 < R 0 0 - R 1 1 - R 2 2 + 1) :
    Spec.IsUnit (eigenQuatLargest R 0) ∧ quaternionToMatrix (eigenQuatLargest R 0) = R := by
  obtain ⟨q1, q2, q3⟩ := quotient_products hT
  obtain ⟨e1, e2, e3, e4, e5, e6⟩ := rank_one_x h
  have e : eigenQuatLargest R 0 = ⟨(R 2 1 - R 1 2) * (1 / 2 / Real.sqrt (R 0 0 - R 1 1 - R 2 2 + 1)), 1 / 2 * Real.sqrt (R 0 0 - R 1 1 - R 2 2 + 1),
      (R 1 0 + R 0 1) * (1 / 2 / Real.sqrt (R 0 0 - R 1 1 - R 2 2 + 1)), (R 2 0 + R 0 2) * (1 / 2 / Real.sqrt (R 0 0 - R 1 1 - R 2 2 + 1))⟩ := rfl
  rw [e]
  refine matrix_of_products R _ ?_ ?_ ?_ ?_ ?_ ?_ ?_ ?_ ?_ ?_ <;> simp only
  · rw [q3 _ _ (1 + R 0 0 + R 1 1 + R 2 2) (by linear_combination e6)]
  · rw [q1]; ring
  · rw [q3 _ _ (1 - R 0 0 + R 1 1 - R 2 2) (by linear_combination e1)]
  · rw [q3 _ _ (1 - R 0 0 - R 1 1 + R 2 2) (by linear_combination e4)]
  · rw [mul_comm, q2]
  · rw [q3 _ _ (R 0 2 - R 2 0) (by linear_combination e3)]
  · rw [q3 _ _ (R 1 0 - R 0 1) (by linear_combination e5)]
  · rw [q2]; ring
  · rw [q2]; ring
  · rw [q3 _ _ (R 1 2 + R 2 1) (by linear_combination e2)]

theorem quat_largest1 {R : M3} (h : IsRotation R) (hT : 0 < R 1 1 - R 2 2 - R 0 0 + 1) :
    Spec.IsUnit (eigenQuatLargest R 1) ∧ quaternionToMatrix (eigenQuatLargest R 1) = R := by
  obtain ⟨q1, q2, q3⟩ := quotient_products hT
  obtain ⟨e1, e2, e3, e4, e5, e6⟩ := rank_one_y h
  have e : eigenQuatLargest R 1 = ⟨(R 0 2 - R 2 0) * (1 / 2 / Real.sqrt (R 1 1 - R 2 2 - R 0 0 + 1)),
      (R 0 1 + R 1 0) * (1 / 2 / Real.sqrt (R 1 1 - R 2 2 - R 0 0 + 1)), 1 / 2 * Real.sqrt (R 1 1 - R 2 2 - R 0 0 + 1),
      (R 2 1 + R 1 2) * (1 / 2 / Real.sqrt (R 1 1 - R 2 2 - R 0 0 + 1))⟩ := rfl
  rw [e]
  refine matrix_of_products R _ ?_ ?_ ?_ ?_ ?_ ?_ ?_ ?_ ?_ ?_ <;> simp only
  · rw [q3 _ _ (1 + R 0 0 + R 1 1 + R 2 2) (by linear_combination e6)]
  · rw [q3 _ _ (1 + R 0 0 - R 1 1 - R 2 2) (by linear_combination e1)]
  · rw [q1]; ring
  · rw [q3 _ _ (1 - R 0 0 - R 1 1 + R 2 2) (by linear_combination e4)]
  · rw [q3 _ _ (R 2 1 - R 1 2) (by linear_combination e3)]
  · rw [mul_comm, q2]
  · rw [q3 _ _ (R 1 0 - R 0 1) (by linear_combination e5)]
  · rw [mul_comm, q2]
  · rw [q3 _ _ (R 0 2 + R 2 0) (by linear_combination e2)]
  · rw [q2]; ring

theorem quat_largest2 {R : M3} (h : IsRotation R) (hT : 0 < R 2 2 - R 0 0 - R 1 1 + 1) :
    Spec.IsUnit (eigenQuatLargest R 2) ∧ quaternionToMatrix (eigenQuatLargest R 2) = R := by
  obtain ⟨q1, q2, q3⟩ := quotient_products hT
  obtain ⟨e1, e2, e3, e4, e5, e6⟩ := rank_one_z h
  have e : eigenQuatLargest R 2 = ⟨(R 1 0 - R 0 1) * (1 / 2 / Real.sqrt (R 2 2 - R 0 0 - R 1 1 + 1)),
      (R 0 2 + R 2 0) * (1 / 2 / Real.sqrt (R 2 2 - R 0 0 - R 1 1 + 1)),
      (R 1 2 + R 2 1) * (1 / 2 / Real.sqrt (R 2 2 - R 0 0 - R 1 1 + 1)), 1 / 2 * Real.sqrt (R 2 2 - R 0 0 - R 1 1 + 1)⟩ := rfl
  rw [e]
  refine matrix_of_products R _ ?_ ?_ ?_ ?_ ?_ ?_ ?_ ?_ ?_ ?_ <;> simp only
  · rw [q3 _ _ (1 + R 0 0 + R 1 1 + R 2 2) (by linear_combination e6)]
  · rw [q3 _ _ (1 + R 0 0 - R 1 1 - R 2 2) (by linear_combination e1)]
  · rw [q3 _ _ (1 - R 0 0 + R 1 1 - R 2 2) (by linear_combination e4)]
  · rw [q1]; ring
  · rw [q3 _ _ (R 2 1 - R 1 2) (by linear_combination e3)]
  · rw [q3 _ _ (R 0 2 - R 2 0) (by linear_combination e5)]
  · rw [mul_comm, q2]
  · rw [q3 _ _ (R 0 1 + R 1 0) (by linear_combination e2)]
  · rw [mul_comm, q2]
  · rw [mul_comm, q2]

/-- C74: the quaternion of a rotation matrix is a unit quaternion with this matrix. -/
theorem C74_matrix_quaternion (R : M3) (h : IsRotation R) :
    Spec.IsUnit (matrixToQuaternion R) ∧ quaternionToMatrix (matrixToQuaternion R) = R := by
  unfold matrixToQuaternion
  simp only
  by_cases ht : 0 < R 0 0 + R 1 1 + R 2 2
  · rw [if_pos ht]
    exact quat_trace h (by linarith) rfl
  · rw [if_neg ht]
    by_cases c1 : R 0 0 < R 1 1
    · simp only [if_pos c1]
      by_cases c2 : R 1 1 < R 2 2
      · simp only [if_pos c2]
        exact quat_largest2 h (by linarith)
      · simp only [if_neg c2]
        exact quat_largest1 h (by linarith)
    · simp only [if_neg c1]
      by_cases c2 : R 0 0 < R 2 2
      · simp only [if_pos c2]
        exact quat_largest2 h (by linarith)
      · simp only [if_neg c2]
        exact quat_largest0 h (by linarith)

/-- C74: a unit quaternion comes back from its matrix up to its sign. -/
theorem C74_quaternion_matrix (q : Quat) (h : Spec.IsUnit q) :
    matrixToQuaternion (quaternionToMatrix q) = q ∨ matrixToQuaternion (quaternionToMatrix q) = negQ q := by
  obtain ⟨h1, h2⟩ := C74_matrix_quaternion _ (C56_quaternion q h)
  exact C57_only_opposite _ _ h1 h h2

/-- C74 is about something: a rotation of half a turn, where the trace is negative. -/
example : ∃ R : M3, IsRotation R ∧ R 0 0 + R 1 1 + R 2 2 = -1 := by
  refine ⟨quaternionToMatrix ⟨0, 3 / 5, 4 / 5, 0⟩, C56_quaternion _ (by norm_num [Spec.IsUnit]), ?_⟩
  show (0 : ℝ) * 0 + 3 / 5 * (3 / 5) - 4 / 5 * (4 / 5) - 0 * 0 + (0 * 0 - 3 / 5 * (3 / 5) + 4 / 5 * (4 / 5) - 0 * 0)
    + (0 * 0 - 3 / 5 * (3 / 5) - 4 / 5 * (4 / 5) + 0 * 0) = -1
  norm_num

/-! ## C75 -/

/-- C75, what holds: away from the gimbal lock, the Euler angles of a rotation matrix give the matrix back and are in their ranges.
Missing: the matrices whose last row is `(±1, 0, 0)`. -/
theorem C75_matrix_euler_partial (R : M3) (h : IsRotation R) (hg : R 2 1 ≠ 0 ∨ R 2 2 ≠ 0) :
    eulerToMatrix (matrixToEuler R) = R ∧ Principal (matrixToEuler R) := by
  have b0 := h.row 2 2
  have b1 := h.row 0 2
  have b2 := h.row 1 2
  have c0 := h.col 0 0
  simp at b0 b1 b2 c0
  have hc2 : 0 < R 2 1 ^ 2 + R 2 2 ^ 2 := by
    rcases hg with hg | hg
    · have := sq_pos_of_ne_zero hg
      nlinarith [sq_nonneg (R 2 2)]
    · have := sq_pos_of_ne_zero hg
      nlinarith [sq_nonneg (R 2 1)]
  have hc : 0 < Real.sqrt (R 2 1 ^ 2 + R 2 2 ^ 2) := Real.sqrt_pos.2 hc2
  have hcc : Real.sqrt (R 2 1 ^ 2 + R 2 2 ^ 2) ^ 2 = R 2 1 ^ 2 + R 2 2 ^ 2 := Real.sq_sqrt hc2.le
  have r1 := atan2_sin (x := R 2 2) (y := R 2 1)
  have r2 := atan2_cos (x := R 2 2) (y := R 2 1)
  rw [add_comm] at r1 r2
  have p1 := atan2_sin (x := Real.sqrt (R 2 1 ^ 2 + R 2 2 ^ 2)) (y := R 2 0)
  have p2 := atan2_cos (x := Real.sqrt (R 2 1 ^ 2 + R 2 2 ^ 2)) (y := R 2 0)
  rw [hcc, show R 2 1 ^ 2 + R 2 2 ^ 2 + R 2 0 ^ 2 = 1 by linear_combination b0, Real.sqrt_one, mul_one] at p1 p2
  have y1 := atan2_sin (x := R 0 0) (y := R 1 0)
  have y2 := atan2_cos (x := R 0 0) (y := R 1 0)
  rw [show R 0 0 ^ 2 + R 1 0 ^ 2 = R 2 1 ^ 2 + R 2 2 ^ 2 by linear_combination c0 - b0] at y1 y2
  have a1 := h.cof01
  have a2 := h.cof02
  have a3 := h.cof11
  have a4 := h.cof12
  have a5 := h.cof10
  have a6 := h.cof00
  refine ⟨?_, ⟨⟨Complex.neg_pi_lt_arg _, Complex.arg_le_pi _⟩, ?_, ⟨Complex.neg_pi_lt_arg _, Complex.arg_le_pi _⟩⟩⟩
  · unfold eulerToMatrix matrixToEuler
    simp only [Real.sin_neg, Real.cos_neg]
    rw [p1, p2]
    generalize hs : Real.sqrt (R 2 1 ^ 2 + R 2 2 ^ 2) = c at *
    generalize Real.sin (atan2 (R 2 1) (R 2 2)) = sr at *
    generalize Real.cos (atan2 (R 2 1) (R 2 2)) = cr at *
    generalize Real.sin (atan2 (R 1 0) (R 0 0)) = sy at *
    generalize Real.cos (atan2 (R 1 0) (R 0 0)) = cy at *
    have hne : c ^ 2 ≠ 0 := by positivity
    have can : ∀ u v : ℝ, u * c ^ 2 = v * c ^ 2 → u = v := fun u v e => mul_right_cancel₀ hne e
    ext i j
    fin_cases i <;> fin_cases j <;> simp
    · exact y2
    · apply can
      calc _ = -(cy * c) * R 2 0 * (sr * c) - (sy * c) * (cr * c) := by ring
        _ = R 0 1 * c ^ 2 := by rw [y2, r1, y1, r2, hcc]; grind
    · apply can
      calc _ = -(cy * c) * R 2 0 * (cr * c) + (sy * c) * (sr * c) := by ring
        _ = R 0 2 * c ^ 2 := by rw [y2, r1, y1, r2, hcc]; grind
    · exact y1
    · apply can
      calc _ = -(sy * c) * R 2 0 * (sr * c) + (cy * c) * (cr * c) := by ring
        _ = R 1 1 * c ^ 2 := by rw [y2, r1, y1, r2, hcc]; grind
    · apply can
      calc _ = -(sy * c) * R 2 0 * (cr * c) - (cy * c) * (sr * c) := by ring
        _ = R 1 2 * c ^ 2 := by rw [y2, r1, y1, r2, hcc]; grind
    · linarith
    · linarith
  · have hp : -(Real.pi / 2) < atan2 (R 2 0) (Real.sqrt (R 2 1 ^ 2 + R 2 2 ^ 2)) ∧ atan2 (R 2 0) (Real.sqrt (R 2 1 ^ 2 + R 2 2 ^ 2)) < Real.pi / 2 := by
      have := Complex.abs_arg_lt_pi_div_two_iff.2 (Or.inl (show 0 < (⟨Real.sqrt (R 2 1 ^ 2 + R 2 2 ^ 2), R 2 0⟩ : ℂ).re from hc))
      exact abs_lt.1 this
    unfold matrixToEuler
    constructor <;> simp only <;> linarith

/-- C75 fails at the gimbal lock: a rotation matrix which its Euler angles do not give back. -/
theorem C75_refuted : ∃ R : M3, IsRotation R ∧ eulerToMatrix (matrixToEuler R) ≠ R := by
  refine ⟨!![0, 3 / 5, 4 / 5; 0, 4 / 5, -(3 / 5); -1, 0, 0], ⟨?_, ?_⟩, fun h => ?_⟩
  · ext i j
    fin_cases i <;> fin_cases j <;> simp [Matrix.mul_apply, Fin.sum_univ_three] <;> norm_num
  · simp [Matrix.det_fin_three]; norm_num
  · have e := congrFun (congrFun h 1) 2
    have z : atan2 0 0 = 0 := Complex.arg_zero
    have e2 : (eulerToMatrix (matrixToEuler !![0, 3 / 5, 4 / 5; 0, 4 / 5, -(3 / 5); -1, 0, 0])) 1 2
        = Real.sin (atan2 0 0) * Real.sin (-atan2 (-1) (Real.sqrt (0 ^ 2 + 0 ^ 2))) * Real.cos (atan2 0 0) - Real.cos (atan2 0 0) * Real.sin (atan2 0 0) := rfl
    rw [e2, z] at e
    simp at e

/-- C75, at the gimbal lock (the last row of `R` is `(±1, 0, 0)`): the roll and the yaw returned are 0 and the pitch is `∓π/2`, whatever the rotation. -/
theorem C75_gimbal_partial (R : M3) (h : IsRotation R) (h1 : R 2 1 = 0) (h2 : R 2 2 = 0) :
    (R 2 0 = 1 ∨ R 2 0 = -1) ∧ matrixToEuler R = ⟨0, -(R 2 0 * (Real.pi / 2)), 0⟩ := by
  have b0 := h.row 2 2
  have c0 := h.col 0 0
  simp [h1, h2] at b0 c0
  have hs : R 2 0 = 1 ∨ R 2 0 = -1 := by
    have : (R 2 0 - 1) * (R 2 0 + 1) = 0 := by nlinarith
    rcases mul_eq_zero.1 this with e | e
    · left; linarith
    · right; linarith
  refine ⟨hs, ?_⟩
  have e0 : R 0 0 = 0 := by nlinarith [sq_nonneg (R 0 0), sq_nonneg (R 1 0)]
  have e1 : R 1 0 = 0 := by nlinarith [sq_nonneg (R 0 0), sq_nonneg (R 1 0)]
  have z : atan2 0 0 = 0 := Complex.arg_zero
  unfold matrixToEuler
  rw [h1, h2, e0, e1, z]
  have hp : atan2 (R 2 0) (Real.sqrt (0 ^ 2 + 0 ^ 2)) = R 2 0 * (Real.pi / 2) := by
    have : Real.sqrt ((0 : ℝ) ^ 2 + 0 ^ 2) = 0 := by simp
    rw [this]
    rcases hs with e | e <;> rw [e]
    · rw [one_mul]
      exact (congrArg Complex.arg (by apply Complex.ext <;> simp)).trans Complex.arg_I
    · rw [neg_one_mul]
      exact (congrArg Complex.arg (by apply Complex.ext <;> simp)).trans Complex.arg_neg_I
  rw [hp]

/-- C75, exactly for which rotations the angles describe the rotation: away from the gimbal lock, and at it only for those that leave the second axis in
place. -/
theorem C75_right_iff_partial (R : M3) (h : IsRotation R) :
    eulerToMatrix (matrixToEuler R) = R ↔ R 2 1 ≠ 0 ∨ R 2 2 ≠ 0 ∨ R 1 1 = 1 := by
  by_cases hg : R 2 1 ≠ 0 ∨ R 2 2 ≠ 0
  · refine ⟨fun _ => by tauto, fun _ => (C75_matrix_euler_partial R h hg).1⟩
  · push Not at hg
    obtain ⟨hs, e⟩ := C75_gimbal_partial R h hg.1 hg.2
    have b0 := h.row 2 2
    have b1 := h.row 1 1
    have b2 := h.row 0 0
    have c0 := h.col 0 0
    have c1 := h.col 1 1
    have c2 := h.col 2 2
    have b3 := h.row 0 1
    have b4 := h.row 0 2
    have dd := h.det
    rw [Matrix.det_fin_three] at dd
    simp [hg.1, hg.2] at b0 b1 b2 b3 b4 c0 c1 c2 dd
    have e0 : R 0 0 = 0 := by nlinarith [sq_nonneg (R 0 0), sq_nonneg (R 1 0)]
    have e1 : R 1 0 = 0 := by nlinarith [sq_nonneg (R 0 0), sq_nonneg (R 1 0)]
    rw [e]
    constructor
    · intro hh
      have := congrFun (congrFun hh 1) 1
      right; right
      rw [← this]
      simp [eulerToMatrix]
    · rintro (h' | h' | h11)
      · exact absurd hg.1 h'
      · exact absurd hg.2 h'
      · have e2 : R 0 1 = 0 := by nlinarith [sq_nonneg (R 0 1), sq_nonneg (R 1 2)]
        have e3 : R 1 2 = 0 := by nlinarith [sq_nonneg (R 0 1), sq_nonneg (R 1 2)]
        have e4 : R 0 2 = - R 2 0 := by
          rw [e2, e3, h11] at dd
          rcases hs with e | e <;> rw [e] at dd ⊢ <;> linarith
        ext i j
        fin_cases i <;> fin_cases j <;> rcases hs with e | e <;>
          simp [eulerToMatrix, hg.1, hg.2, e0, e1, e2, e3, e4, h11, e, Real.cos_neg, Real.sin_neg]

/-- Both cases occur at the gimbal lock. -/
example : IsRotation !![0, 0, 1; 0, 1, 0; -1, 0, 0] ∧ IsRotation !![0, 3 / 5, 4 / 5; 0, 4 / 5, -(3 / 5); -1, 0, 0] := by
  refine ⟨⟨?_, ?_⟩, ⟨?_, ?_⟩⟩
  · ext i j
    fin_cases i <;> fin_cases j <;> simp [Matrix.mul_apply, Fin.sum_univ_three]
  · simp [Matrix.det_fin_three]
  · ext i j
    fin_cases i <;> fin_cases j <;> simp [Matrix.mul_apply, Fin.sum_univ_three] <;> norm_num
  · simp [Matrix.det_fin_three]; norm_num

/-- C75 is about something: the matrix of Euler angles outside the principal ranges. -/
example : ∃ R : M3, IsRotation R ∧ (R 2 1 ≠ 0 ∨ R 2 2 ≠ 0) ∧ R = eulerToMatrix ⟨0, 3, 0⟩ := by
  refine ⟨_, C56_euler ⟨0, 3, 0⟩, Or.inr ?_, rfl⟩
  show Real.cos 3 * Real.cos 0 ≠ 0
  rw [Real.cos_zero, mul_one]
  have h1 := Real.pi_gt_three
  have h2 := Real.pi_lt_four
  exact (Real.cos_neg_of_pi_div_two_lt_of_lt (by linarith) (by linarith)).ne

end MU
