import Verif.Props.Geometry
import Verif.Spec.Angles
import Mathlib.Analysis.SpecialFunctions.Trigonometric.Angle

/-!
# C206: products, inverses and sizes of rotations, and which angles describe the same one

Exact real arithmetic, as C56-C58.
-/

set_option linter.unusedSectionVars false

namespace MU
namespace Spec

/-- Equal up to whole turns. -/
def SameTurn (a b : ℝ) : Prop := SameAngle (2 * Real.pi) a b

/-- Two sets of angles that describe the same rotation: the same angles up to whole turns; the other solution, with the pitch on the other side of the
vertical; at a vertical pitch, when only the difference or the sum of roll and yaw counts. -/
inductive SameRotation (e f : Euler) : Prop
  | same (hr : SameTurn e.r f.r) (hp : SameTurn e.p f.p) (hy : SameTurn e.y f.y)
  | other (hr : SameTurn (e.r + Real.pi) f.r) (hp : SameTurn (Real.pi - e.p) f.p) (hy : SameTurn (e.y + Real.pi) f.y)
  | up (he : SameTurn e.p (Real.pi / 2)) (hf : SameTurn f.p (Real.pi / 2)) (h : SameTurn (e.r - e.y) (f.r - f.y))
  | down (he : SameTurn e.p (-(Real.pi / 2))) (hf : SameTurn f.p (-(Real.pi / 2))) (h : SameTurn (e.r + e.y) (f.r + f.y))

end Spec

open Spec

theorem sameTurn_iff (a b : ℝ) : SameTurn a b ↔ Real.cos b = Real.cos a ∧ Real.sin b = Real.sin a := by
  constructor
  · rintro ⟨n, rfl⟩
    exact ⟨Real.cos_add_int_mul_two_pi a n, Real.sin_add_int_mul_two_pi a n⟩
  · rintro ⟨h1, h2⟩
    obtain ⟨k, hk⟩ := Real.Angle.angle_eq_iff_two_pi_dvd_sub.1 (Real.Angle.cos_sin_inj h1 h2)
    exact ⟨k, by linarith⟩

/-- C206: two sets of angles give the same matrix exactly when they are related so. -/
theorem C206_same_rotation (e f : Euler) : eulerToMatrix e = eulerToMatrix f ↔ SameRotation e f := by
  constructor
  · intro h
    have g : ∀ i j, eulerToMatrix e i j = eulerToMatrix f i j := fun i j => by rw [h]
    have g00 := g 0 0
    have g01 := g 0 1
    have g10 := g 1 0
    have g11 := g 1 1
    have g20 := g 2 0
    have g21 := g 2 1
    have g22 := g 2 2
    simp only [eulerToMatrix, Matrix.of_apply, Matrix.cons_val', Matrix.cons_val_zero, Matrix.cons_val_one, Matrix.cons_val, neg_inj] at g00 g01 g10 g11 g20 g21 g22
    have pe := Real.sin_sq_add_cos_sq e.p
    have pf := Real.sin_sq_add_cos_sq f.p
    have hc : (Real.cos f.p - Real.cos e.p) * (Real.cos f.p + Real.cos e.p) = 0 := by rw [g20] at pe; linarith
    by_cases h0 : Real.cos e.p = 0
    · have h0' : Real.cos f.p = 0 := by
        rcases mul_eq_zero.1 hc with h | h <;> linarith
      rw [h0] at pe
      have hs : (Real.sin e.p - 1) * (Real.sin e.p + 1) = 0 := by linarith
      rcases mul_eq_zero.1 hs with h1 | h1
      · have h1 : Real.sin e.p = 1 := by linarith
        rw [← g20, h1] at g01 g11
        refine .up ((sameTurn_iff _ _).2 ?_) ((sameTurn_iff _ _).2 ?_) ((sameTurn_iff _ _).2 ?_)
        · rw [Real.cos_pi_div_two, Real.sin_pi_div_two, h0, h1]; exact ⟨rfl, rfl⟩
        · rw [Real.cos_pi_div_two, Real.sin_pi_div_two, h0', ← g20, h1]; exact ⟨rfl, rfl⟩
        · rw [Real.cos_sub, Real.cos_sub, Real.sin_sub, Real.sin_sub]
          constructor <;> linarith
      · have h1 : Real.sin e.p = -1 := by linarith
        rw [← g20, h1] at g01 g11
        refine .down ((sameTurn_iff _ _).2 ?_) ((sameTurn_iff _ _).2 ?_) ((sameTurn_iff _ _).2 ?_)
        · rw [Real.cos_neg, Real.sin_neg, Real.cos_pi_div_two, Real.sin_pi_div_two, h0, h1]; exact ⟨rfl, rfl⟩
        · rw [Real.cos_neg, Real.sin_neg, Real.cos_pi_div_two, Real.sin_pi_div_two, h0', ← g20, h1]; exact ⟨rfl, rfl⟩
        · rw [Real.cos_add, Real.cos_add, Real.sin_add, Real.sin_add]
          constructor <;> linarith
    · rcases mul_eq_zero.1 hc with h1 | h1
      · have h1 : Real.cos f.p = Real.cos e.p := by linarith
        rw [h1] at g00 g10 g21 g22
        refine .same ((sameTurn_iff _ _).2 ⟨?_, ?_⟩) ((sameTurn_iff _ _).2 ⟨h1, g20.symm⟩) ((sameTurn_iff _ _).2 ⟨?_, ?_⟩)
        · exact (mul_left_cancel₀ h0 g22).symm
        · exact (mul_left_cancel₀ h0 g21).symm
        · exact (mul_right_cancel₀ h0 g00).symm
        · exact (mul_right_cancel₀ h0 g10).symm
      · have h1 : Real.cos f.p = -Real.cos e.p := by linarith
        rw [h1] at g00 g10 g21 g22
        refine .other ((sameTurn_iff _ _).2 ⟨?_, ?_⟩) ((sameTurn_iff _ _).2 ⟨?_, ?_⟩) ((sameTurn_iff _ _).2 ⟨?_, ?_⟩)
        · rw [Real.cos_add_pi]; exact mul_left_cancel₀ h0 (by linarith)
        · rw [Real.sin_add_pi]; exact mul_left_cancel₀ h0 (by linarith)
        · rw [Real.cos_pi_sub, h1]
        · rw [Real.sin_pi_sub, g20]
        · rw [Real.cos_add_pi]; exact mul_left_cancel₀ h0 (by linarith)
        · rw [Real.sin_add_pi]; exact mul_left_cancel₀ h0 (by linarith)
  · have key : ∀ i j, SameRotation e f → eulerToMatrix e i j = eulerToMatrix f i j := by
      intro i j h
      cases h with
      | same hr hp hy =>
        obtain ⟨r1, r2⟩ := (sameTurn_iff _ _).1 hr
        obtain ⟨p1, p2⟩ := (sameTurn_iff _ _).1 hp
        obtain ⟨y1, y2⟩ := (sameTurn_iff _ _).1 hy
        simp only [eulerToMatrix, r1, r2, p1, p2, y1, y2]
      | other hr hp hy =>
        obtain ⟨r1, r2⟩ := (sameTurn_iff _ _).1 hr
        obtain ⟨p1, p2⟩ := (sameTurn_iff _ _).1 hp
        obtain ⟨y1, y2⟩ := (sameTurn_iff _ _).1 hy
        rw [Real.cos_add_pi] at r1 y1
        rw [Real.sin_add_pi] at r2 y2
        rw [Real.cos_pi_sub] at p1
        rw [Real.sin_pi_sub] at p2
        simp only [eulerToMatrix, r1, r2, p1, p2, y1, y2]
        fin_cases i <;> fin_cases j <;> simp
      | up he hf h =>
        obtain ⟨e1, e2⟩ := (sameTurn_iff _ _).1 he
        obtain ⟨f1, f2⟩ := (sameTurn_iff _ _).1 hf
        obtain ⟨h1, h2⟩ := (sameTurn_iff _ _).1 h
        rw [Real.cos_pi_div_two] at e1 f1
        rw [Real.sin_pi_div_two] at e2 f2
        rw [Real.cos_sub, Real.cos_sub] at h1
        rw [Real.sin_sub, Real.sin_sub] at h2
        simp only [eulerToMatrix, ← e1, ← e2, ← f1, ← f2]
        fin_cases i <;> fin_cases j <;> simp <;> linarith
      | down he hf h =>
        obtain ⟨e1, e2⟩ := (sameTurn_iff _ _).1 he
        obtain ⟨f1, f2⟩ := (sameTurn_iff _ _).1 hf
        obtain ⟨h1, h2⟩ := (sameTurn_iff _ _).1 h
        rw [Real.cos_neg, Real.cos_pi_div_two] at e1 f1
        rw [Real.sin_neg, Real.sin_pi_div_two] at e2 f2
        rw [Real.cos_add, Real.cos_add] at h1
        rw [Real.sin_add, Real.sin_add] at h2
        simp only [eulerToMatrix, ← e1, ← e2, ← f1, ← f2]
        fin_cases i <;> fin_cases j <;> simp <;> linarith
    intro h
    ext i j
    exact key i j h

/-- C206: the quaternions of two sets of angles are equal or opposite exactly then. -/
theorem C206_same_quaternion (e f : Euler) :
    (eulerToQuaternion e = eulerToQuaternion f ∨ eulerToQuaternion e = negQ (eulerToQuaternion f)) ↔ SameRotation e f := by
  rw [← C206_same_rotation, ← C57_euler_quaternion_matrix, ← C57_euler_quaternion_matrix]
  constructor
  · rintro (h | h)
    · rw [h]
    · rw [h, C57_opposite]
  · exact C57_only_opposite _ _ (C56_unit e) (C56_unit f)

/-- C206: one whole turn more in one of the angles changes the sign of the quaternion. -/
theorem C206_turn (r p y : ℝ) :
    eulerToQuaternion ⟨r + 2 * Real.pi, p, y⟩ = negQ (eulerToQuaternion ⟨r, p, y⟩) ∧
    eulerToQuaternion ⟨r, p + 2 * Real.pi, y⟩ = negQ (eulerToQuaternion ⟨r, p, y⟩) ∧
    eulerToQuaternion ⟨r, p, y + 2 * Real.pi⟩ = negQ (eulerToQuaternion ⟨r, p, y⟩) := by
  have h : ∀ a : ℝ, (a + 2 * Real.pi) / 2 = a / 2 + Real.pi := fun a => by ring
  refine ⟨?_, ?_, ?_⟩ <;>
    · simp only [eulerToQuaternion, negQ, h, Real.cos_add_pi, Real.sin_add_pi]
      ext <;> simp only <;> ring

/-- C206: the product of quaternions is the product of the matrices. -/
theorem C206_product (p q r : Quat) (h : ham r = ham p * ham q) :
    quaternionToMatrix r = quaternionToMatrix p * quaternionToMatrix q := by
  have h1 : r.w = p.w * q.w - p.x * q.x - p.y * q.y - p.z * q.z := by
    have := congrArg QuaternionAlgebra.re h; rw [Quaternion.re_mul] at this; exact this
  have h2 : r.x = p.w * q.x + p.x * q.w + p.y * q.z - p.z * q.y := by
    have := congrArg QuaternionAlgebra.imI h; rw [Quaternion.imI_mul] at this; exact this
  have h3 : r.y = p.w * q.y - p.x * q.z + p.y * q.w + p.z * q.x := by
    have := congrArg QuaternionAlgebra.imJ h; rw [Quaternion.imJ_mul] at this; exact this
  have h4 : r.z = p.w * q.z + p.x * q.y - p.y * q.x + p.z * q.w := by
    have := congrArg QuaternionAlgebra.imK h; rw [Quaternion.imK_mul] at this; exact this
  ext i j
  fin_cases i <;> fin_cases j <;>
    simp [quaternionToMatrix, Matrix.mul_apply, Fin.sum_univ_three, h1, h2, h3, h4] <;> ring

/-- C206: the conjugate quaternion is the transposed matrix, the inverse rotation. -/
theorem C206_conjugate (q r : Quat) (h : ham r = star (ham q)) :
    quaternionToMatrix r = (quaternionToMatrix q).transpose ∧ (Spec.IsUnit q → quaternionToMatrix r = (quaternionToMatrix q)⁻¹) := by
  have h1 : r.w = q.w := by have := congrArg QuaternionAlgebra.re h; rw [Quaternion.re_star] at this; exact this
  have h2 : r.x = -q.x := by have := congrArg QuaternionAlgebra.imI h; rw [Quaternion.imI_star] at this; exact this
  have h3 : r.y = -q.y := by have := congrArg QuaternionAlgebra.imJ h; rw [Quaternion.imJ_star] at this; exact this
  have h4 : r.z = -q.z := by have := congrArg QuaternionAlgebra.imK h; rw [Quaternion.imK_star] at this; exact this
  have key : quaternionToMatrix r = (quaternionToMatrix q).transpose := by
    ext i j
    fin_cases i <;> fin_cases j <;> simp [quaternionToMatrix, h1, h2, h3, h4] <;> ring
  refine ⟨key, fun hu => ?_⟩
  rw [key]
  exact (Matrix.inv_eq_right_inv (C56_quaternion q hu).orth).symm

/-- C206: the quaternion of a product of rotation matrices is, up to the sign, the product of the quaternions. -/
theorem C206_product_matrix (R S : M3) (hR : IsRotation R) (hS : IsRotation S) :
    ham (matrixToQuaternion (R * S)) = ham (matrixToQuaternion R) * ham (matrixToQuaternion S) ∨
    ham (matrixToQuaternion (R * S)) = -(ham (matrixToQuaternion R) * ham (matrixToQuaternion S)) := by
  have hRS : IsRotation (R * S) := by
    refine ⟨?_, by rw [Matrix.det_mul, hR.det, hS.det, one_mul]⟩
    rw [Matrix.transpose_mul, Matrix.mul_assoc, ← Matrix.mul_assoc S, hS.orth, Matrix.one_mul, hR.orth]
  obtain ⟨a1, a2⟩ := C74_matrix_quaternion R hR
  obtain ⟨b1, b2⟩ := C74_matrix_quaternion S hS
  obtain ⟨c1, c2⟩ := C74_matrix_quaternion _ hRS
  obtain ⟨t, ht⟩ : ∃ t : Quat, ham t = ham (matrixToQuaternion R) * ham (matrixToQuaternion S) :=
    ⟨⟨_, _, _, _⟩, rfl⟩
  have hp := C206_product _ _ t ht
  rw [a2, b2] at hp
  have htu : Spec.IsUnit t := by
    have e : ∀ q : Quat, Spec.IsUnit q ↔ Quaternion.normSq (ham q) = 1 := fun q => by
      rw [Quaternion.normSq_def']; rfl
    rw [e, ht, map_mul, (e _).1 a1, (e _).1 b1, one_mul]
  rcases C57_only_opposite _ t c1 htu (by rw [c2, hp]) with h | h
  · left; rw [h, ht]
  · right; rw [h, ← ht]; rfl

/-- C206: the angles read from a matrix do not depend on its size, so that those of a quaternion of any length, read from its matrix, are right. -/
theorem C206_size (R : M3) {c : ℝ} (hc : 0 < c) : matrixToEuler (c • R) = matrixToEuler R := by
  have ha : ∀ y x : ℝ, atan2 (c * y) (c * x) = atan2 y x := fun y x => by
    unfold atan2
    rw [← Complex.arg_real_mul ⟨x, y⟩ hc]
    congr 1
    apply Complex.ext <;> simp
  unfold matrixToEuler
  simp only [Matrix.smul_apply, smul_eq_mul]
  rw [ha, ha, show (c * R 2 1) ^ 2 + (c * R 2 2) ^ 2 = c ^ 2 * (R 2 1 ^ 2 + R 2 2 ^ 2) by ring, Real.sqrt_mul (by positivity),
    Real.sqrt_sq hc.le, ha]

theorem quaternion_size (q : Quat) (c : ℝ) : quaternionToMatrix ⟨c * q.w, c * q.x, c * q.y, c * q.z⟩ = c ^ 2 • quaternionToMatrix q := by
  ext i j
  fin_cases i <;> fin_cases j <;> simp [quaternionToMatrix] <;> ring

theorem C206_size_quaternion (q : Quat) {c : ℝ} (hc : c ≠ 0) :
    quaternionToMatrix ⟨c * q.w, c * q.x, c * q.y, c * q.z⟩ = c ^ 2 • quaternionToMatrix q ∧
    matrixToEuler (quaternionToMatrix ⟨c * q.w, c * q.x, c * q.y, c * q.z⟩) = matrixToEuler (quaternionToMatrix q) := by
  refine ⟨quaternion_size q c, ?_⟩
  rw [quaternion_size, C206_size _ (by positivity)]

/-- C206: the angles read directly from a quaternion need one of length one: as soon as the pitch is not zero, a multiple gives another pitch or none. -/
theorem C206_length_needed (q : Quat) (hq : Spec.IsUnit q) (hp : 2 * q.x * q.z - 2 * q.w * q.y ≠ 0) {c : ℝ} (hc : c ^ 2 ≠ 1) :
    quaternionToEuler ⟨c * q.w, c * q.x, c * q.y, c * q.z⟩ ≠ quaternionToEuler q := by
  set s := 2 * q.x * q.z - 2 * q.w * q.y with hs
  have hb : s ^ 2 ≤ 1 := by
    unfold Spec.IsUnit at hq
    nlinarith [sq_nonneg (2 * q.w * q.x + 2 * q.y * q.z), sq_nonneg (q.w * q.w - q.x * q.x - q.y * q.y + q.z * q.z),
      (by rw [hs]; linear_combination (q.w ^ 2 + q.x ^ 2 + q.y ^ 2 + q.z ^ 2 + 1) * hq :
        s ^ 2 + ((2 * q.w * q.x + 2 * q.y * q.z) ^ 2 + (q.w * q.w - q.x * q.x - q.y * q.y + q.z * q.z) ^ 2) = 1)]
  have hb' : -1 ≤ s ∧ s ≤ 1 := abs_le.1 ((sq_le_one_iff_abs_le_one s).1 hb)
  obtain ⟨r, y, e1⟩ : ∃ r y, quaternionToEuler q = .ok ⟨r, -Real.arcsin s, y⟩ := by
    unfold quaternionToEuler casin
    rw [← hs, if_pos hb']
    exact ⟨_, _, rfl⟩
  rw [e1]
  unfold quaternionToEuler casin
  simp only
  rw [show 2 * (c * q.x) * (c * q.z) - 2 * (c * q.w) * (c * q.y) = c ^ 2 * s by rw [hs]; ring]
  by_cases h : -1 ≤ c ^ 2 * s ∧ c ^ 2 * s ≤ 1
  · rw [if_pos h]
    intro heq
    have heq : -Real.arcsin (c ^ 2 * s) = -Real.arcsin s := by
      have := Res.ok.inj heq
      exact congrArg Euler.p this
    have h2 := (Real.arcsin_inj h.1 h.2 hb'.1 hb'.2).1 (neg_inj.1 heq)
    apply hc
    exact mul_right_cancel₀ hp (by rw [h2, one_mul])
  · rw [if_neg h]
    intro heq
    cases heq

/-- C206: the ranges of the angles returned, for any matrix and any quaternion. -/
theorem C206_range (R : M3) (q : Quat) : (∀ e, (e = matrixToEuler R ∨ quaternionToEuler q = .ok e) →
    (-Real.pi < e.r ∧ e.r ≤ Real.pi) ∧ (-(Real.pi / 2) ≤ e.p ∧ e.p ≤ Real.pi / 2) ∧ (-Real.pi < e.y ∧ e.y ≤ Real.pi)) := by
  rintro e (rfl | h)
  · refine ⟨⟨Complex.neg_pi_lt_arg _, Complex.arg_le_pi _⟩, ?_, ⟨Complex.neg_pi_lt_arg _, Complex.arg_le_pi _⟩⟩
    have : |atan2 (R 2 0) (Real.sqrt (R 2 1 ^ 2 + R 2 2 ^ 2))| ≤ Real.pi / 2 := Complex.abs_arg_le_pi_div_two_iff.2 (Real.sqrt_nonneg _)
    have := abs_le.1 this
    show -(Real.pi / 2) ≤ -atan2 _ _ ∧ -atan2 _ _ ≤ Real.pi / 2
    constructor <;> linarith [this.1, this.2]
  · unfold quaternionToEuler casin at h
    split_ifs at h with hb
    · have h := Res.ok.inj h
      rw [← h]
      refine ⟨⟨Complex.neg_pi_lt_arg _, Complex.arg_le_pi _⟩, ?_, ⟨Complex.neg_pi_lt_arg _, Complex.arg_le_pi _⟩⟩
      have h1 := Real.neg_pi_div_two_le_arcsin (2 * q.x * q.z - 2 * q.w * q.y)
      have h2 := Real.arcsin_le_pi_div_two (2 * q.x * q.z - 2 * q.w * q.y)
      constructor <;> linarith
    · cases h

/-- C206: every rotation is described by angles in these ranges, also where the code does not find them. -/
theorem C206_every_rotation (R : M3) (h : IsRotation R) : ∃ e, eulerToMatrix e = R ∧
    (-Real.pi < e.r ∧ e.r ≤ Real.pi) ∧ (-(Real.pi / 2) ≤ e.p ∧ e.p ≤ Real.pi / 2) ∧ (-Real.pi < e.y ∧ e.y ≤ Real.pi) := by
  by_cases hg : R 2 1 ≠ 0 ∨ R 2 2 ≠ 0
  · exact ⟨_, (C75_matrix_euler_partial R h hg).1, C206_range R ⟨1, 0, 0, 0⟩ _ (.inl rfl)⟩
  · push Not at hg
    obtain ⟨g1, g2⟩ := hg
    have c0 := h.col 0 0
    have c1 := h.col 1 1
    have r2 := h.row 2 2
    simp only [if_true, g1, g2, mul_zero, add_zero] at c0 c1 r2
    have n0 : R 0 0 = 0 := by nlinarith [sq_nonneg (R 0 0), sq_nonneg (R 1 0)]
    have n1 : R 1 0 = 0 := by nlinarith [sq_nonneg (R 0 0), sq_nonneg (R 1 0)]
    have e02 := h.cof02
    have e12 := h.cof12
    rw [n1, g1] at e02
    rw [n0, g1] at e12
    set y := atan2 (-R 0 1) (R 1 1) with hy
    have s1 : Real.sqrt (R 1 1 ^ 2 + (-R 0 1) ^ 2) = 1 := by
      rw [show R 1 1 ^ 2 + (-R 0 1) ^ 2 = 1 by linarith, Real.sqrt_one]
    have sy : Real.sin y = -R 0 1 := by have := atan2_sin (x := R 1 1) (y := -R 0 1); rwa [s1, mul_one] at this
    have cy : Real.cos y = R 1 1 := by have := atan2_cos (x := R 1 1) (y := -R 0 1); rwa [s1, mul_one] at this
    obtain ⟨p, cp, sp, hp⟩ : ∃ p, Real.cos p = 0 ∧ Real.sin p = -R 2 0 ∧ -(Real.pi / 2) ≤ p ∧ p ≤ Real.pi / 2 := by
      have hpi := Real.pi_pos
      rcases mul_self_eq_one_iff.1 r2 with h | h
      · exact ⟨-(Real.pi / 2), by rw [Real.cos_neg, Real.cos_pi_div_two], by rw [Real.sin_neg, Real.sin_pi_div_two, h], le_rfl, by linarith⟩
      · exact ⟨Real.pi / 2, Real.cos_pi_div_two, by rw [Real.sin_pi_div_two, h, neg_neg], by linarith, le_rfl⟩
    refine ⟨⟨0, p, y⟩, ?_, ⟨by linarith [Real.pi_pos], Real.pi_pos.le⟩, hp, Complex.neg_pi_lt_arg _, Complex.arg_le_pi _⟩
    ext i j
    fin_cases i <;> fin_cases j <;> simp [eulerToMatrix, cp, sp, sy, cy, g1, g2, n0, n1, e02, e12]

/-- C206 is about something: two sets of angles of the same rotation that are not equal up to turns, and two of different rotations. -/
example : eulerToMatrix ⟨1, 1, 1⟩ = eulerToMatrix ⟨1 + Real.pi, Real.pi - 1, 1 - Real.pi⟩ ∧
    eulerToMatrix ⟨2, Real.pi / 2, 1⟩ = eulerToMatrix ⟨1, Real.pi / 2, 0⟩ := by
  constructor
  · refine (C206_same_rotation _ _).2 (.other ⟨0, by norm_num⟩ ⟨0, by norm_num⟩ ⟨-1, ?_⟩)
    push_cast
    ring
  · exact (C206_same_rotation _ _).2 (.up ⟨0, by norm_num⟩ ⟨0, by norm_num⟩ ⟨0, by norm_num⟩)

/-- C206 is about something: a quaternion of length one with a pitch. -/
example : Spec.IsUnit ⟨4 / 5, 0, 3 / 5, 0⟩ ∧ (2 * 0 * 0 - 2 * (4 / 5) * (3 / 5) : ℝ) ≠ 0 := by
  unfold Spec.IsUnit; norm_num

end MU
