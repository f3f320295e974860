import Verif.Spec.Geometry
import Mathlib.Tactic.Linarith
import Mathlib.Tactic.LinearCombination
import Mathlib.Tactic.FinCases
import Mathlib.LinearAlgebra.Matrix.NonsingularInverse
import Mathlib.Analysis.SpecialFunctions.Trigonometric.Bounds

/-!
# Rotations
-/

namespace MU

theorem atan2_polar {k t : ℝ} (hk : 0 < k) (h : -Real.pi < t ∧ t ≤ Real.pi) : atan2 (k * Real.sin t) (k * Real.cos t) = t := by
  unfold atan2
  have := Complex.arg_mul_cos_add_sin_mul_I hk (θ := t) ⟨h.1, h.2⟩
  refine Eq.trans (congrArg Complex.arg ?_) this
  rw [← Complex.ofReal_cos, ← Complex.ofReal_sin]
  apply Complex.ext
  · simp only [Complex.mul_re, Complex.add_re, Complex.ofReal_re, Complex.ofReal_im, Complex.I_re, Complex.I_im, Complex.add_im, Complex.mul_im]
    ring
  · simp only [Complex.mul_im, Complex.add_im, Complex.ofReal_re, Complex.ofReal_im, Complex.I_re, Complex.I_im, Complex.add_re, Complex.mul_re]
    ring

theorem atan2_sin {x y : ℝ} : Real.sin (atan2 y x) * Real.sqrt (x ^ 2 + y ^ 2) = y := by
  unfold atan2
  have h := Complex.norm_mul_sin_arg (⟨x, y⟩ : ℂ)
  rw [Complex.norm_def, Complex.normSq_apply] at h
  simp only at h
  rw [mul_comm, show x ^ 2 + y ^ 2 = x * x + y * y by ring]
  exact h

theorem atan2_cos {x y : ℝ} : Real.cos (atan2 y x) * Real.sqrt (x ^ 2 + y ^ 2) = x := by
  unfold atan2
  have h := Complex.norm_mul_cos_arg (⟨x, y⟩ : ℂ)
  rw [Complex.norm_def, Complex.normSq_apply] at h
  simp only at h
  rw [mul_comm, show x ^ 2 + y ^ 2 = x * x + y * y by ring]
  exact h

open Spec

namespace Spec.IsRotation
variable {R : M3} (h : IsRotation R)
include h

theorem orth' : R.transpose * R = 1 := mul_eq_one_comm.1 h.orth

theorem row (i j : Fin 3) : R i 0 * R j 0 + R i 1 * R j 1 + R i 2 * R j 2 = if i = j then 1 else 0 := by
  have := congrFun (congrFun h.orth i) j
  rw [Matrix.mul_apply, Fin.sum_univ_three, Matrix.one_apply] at this
  simpa [Matrix.transpose_apply] using this

theorem col (i j : Fin 3) : R 0 i * R 0 j + R 1 i * R 1 j + R 2 i * R 2 j = if i = j then 1 else 0 := by
  have := congrFun (congrFun h.orth' i) j
  rw [Matrix.mul_apply, Fin.sum_univ_three, Matrix.one_apply] at this
  simpa [Matrix.transpose_apply] using this

/-- The adjugate of a rotation is its transpose. -/
theorem adj : R.adjugate = R.transpose := by
  have h1 : R * R.adjugate = 1 := by rw [Matrix.mul_adjugate, h.det, one_smul]
  calc R.adjugate = (R.transpose * R) * R.adjugate := by rw [h.orth', one_mul]
    _ = R.transpose * (R * R.adjugate) := by rw [Matrix.mul_assoc]
    _ = R.transpose := by rw [h1, mul_one]

theorem cof00 : R 0 0 = R 1 1 * R 2 2 - R 1 2 * R 2 1 := by
  have := congrFun (congrFun h.adj 0) 0
  rw [Matrix.adjugate_fin_three] at this
  simpa [Matrix.transpose_apply] using this.symm

theorem cof01 : R 0 1 = R 1 2 * R 2 0 - R 1 0 * R 2 2 := by
  have := congrFun (congrFun h.adj 1) 0
  rw [Matrix.adjugate_fin_three] at this
  simp [Matrix.transpose_apply] at this
  linarith

theorem cof02 : R 0 2 = R 1 0 * R 2 1 - R 1 1 * R 2 0 := by
  have := congrFun (congrFun h.adj 2) 0
  rw [Matrix.adjugate_fin_three] at this
  simp [Matrix.transpose_apply] at this
  linarith

theorem cof10 : R 1 0 = R 0 2 * R 2 1 - R 0 1 * R 2 2 := by
  have := congrFun (congrFun h.adj 0) 1
  rw [Matrix.adjugate_fin_three] at this
  simp [Matrix.transpose_apply] at this
  linarith

theorem cof11 : R 1 1 = R 0 0 * R 2 2 - R 0 2 * R 2 0 := by
  have := congrFun (congrFun h.adj 1) 1
  rw [Matrix.adjugate_fin_three] at this
  simp [Matrix.transpose_apply] at this
  linarith

theorem cof12 : R 1 2 = R 0 1 * R 2 0 - R 0 0 * R 2 1 := by
  have := congrFun (congrFun h.adj 2) 1
  rw [Matrix.adjugate_fin_three] at this
  simp [Matrix.transpose_apply] at this
  linarith

theorem cof20 : R 2 0 = R 0 1 * R 1 2 - R 0 2 * R 1 1 := by
  have := congrFun (congrFun h.adj 0) 2
  rw [Matrix.adjugate_fin_three] at this
  simp [Matrix.transpose_apply] at this
  linarith

theorem cof21 : R 2 1 = R 0 2 * R 1 0 - R 0 0 * R 1 2 := by
  have := congrFun (congrFun h.adj 1) 2
  rw [Matrix.adjugate_fin_three] at this
  simp [Matrix.transpose_apply] at this
  linarith

theorem cof22 : R 2 2 = R 0 0 * R 1 1 - R 0 1 * R 1 0 := by
  have := congrFun (congrFun h.adj 2) 2
  rw [Matrix.adjugate_fin_three] at this
  simp [Matrix.transpose_apply] at this
  linarith

end Spec.IsRotation

/-- The relations between the products of two components of a quaternion, in terms of its matrix, divided by the component `x`. -/
theorem rank_one_x {R : M3} (h : IsRotation R) :
    (R 0 1 + R 1 0) * (R 0 1 + R 1 0) = (1 + R 0 0 - R 1 1 - R 2 2) * (1 - R 0 0 + R 1 1 - R 2 2) ∧
    (R 0 1 + R 1 0) * (R 0 2 + R 2 0) = (1 + R 0 0 - R 1 1 - R 2 2) * (R 1 2 + R 2 1) ∧
    (R 0 1 + R 1 0) * (R 2 1 - R 1 2) = (1 + R 0 0 - R 1 1 - R 2 2) * (R 0 2 - R 2 0) ∧
    (R 0 2 + R 2 0) * (R 0 2 + R 2 0) = (1 + R 0 0 - R 1 1 - R 2 2) * (1 - R 0 0 - R 1 1 + R 2 2) ∧
    (R 0 2 + R 2 0) * (R 2 1 - R 1 2) = (1 + R 0 0 - R 1 1 - R 2 2) * (R 1 0 - R 0 1) ∧
    (R 2 1 - R 1 2) * (R 2 1 - R 1 2) = (1 + R 0 0 - R 1 1 - R 2 2) * (1 + R 0 0 + R 1 1 + R 2 2) := by
  have a0 := h.cof00
  have a1 := h.cof01
  have a2 := h.cof02
  have a3 := h.cof10
  have a4 := h.cof11
  have a5 := h.cof12
  have a6 := h.cof20
  have a7 := h.cof21
  have a8 := h.cof22
  have row00 := h.row 0 0
  have row01 := h.row 0 1
  have row02 := h.row 0 2
  have row11 := h.row 1 1
  have row12 := h.row 1 2
  have row22 := h.row 2 2
  have col00 := h.col 0 0
  have col01 := h.col 0 1
  have col02 := h.col 0 2
  have col11 := h.col 1 1
  have col12 := h.col 1 2
  have col22 := h.col 2 2
  simp at row00 row01 row02 row11 row12 row22 col00 col01 col02 col11 col12 col22
  generalize R 0 0 = r00 at *
  generalize R 0 1 = r01 at *
  generalize R 0 2 = r02 at *
  generalize R 1 0 = r10 at *
  generalize R 1 1 = r11 at *
  generalize R 1 2 = r12 at *
  generalize R 2 0 = r20 at *
  generalize R 2 1 = r21 at *
  generalize R 2 2 = r22 at *
  clear h
  refine ⟨?_, ?_, ?_, ?_, ?_, ?_⟩ <;> grind

/-- The relations between the products of two components of a quaternion, in terms of its matrix, divided by the component `y`. -/
theorem rank_one_y {R : M3} (h : IsRotation R) :
    (R 0 1 + R 1 0) * (R 0 1 + R 1 0) = (1 - R 0 0 + R 1 1 - R 2 2) * (1 + R 0 0 - R 1 1 - R 2 2) ∧
    (R 0 1 + R 1 0) * (R 1 2 + R 2 1) = (1 - R 0 0 + R 1 1 - R 2 2) * (R 0 2 + R 2 0) ∧
    (R 0 1 + R 1 0) * (R 0 2 - R 2 0) = (1 - R 0 0 + R 1 1 - R 2 2) * (R 2 1 - R 1 2) ∧
    (R 1 2 + R 2 1) * (R 1 2 + R 2 1) = (1 - R 0 0 + R 1 1 - R 2 2) * (1 - R 0 0 - R 1 1 + R 2 2) ∧
    (R 1 2 + R 2 1) * (R 0 2 - R 2 0) = (1 - R 0 0 + R 1 1 - R 2 2) * (R 1 0 - R 0 1) ∧
    (R 0 2 - R 2 0) * (R 0 2 - R 2 0) = (1 - R 0 0 + R 1 1 - R 2 2) * (1 + R 0 0 + R 1 1 + R 2 2) := by
  have a0 := h.cof00
  have a1 := h.cof01
  have a2 := h.cof02
  have a3 := h.cof10
  have a4 := h.cof11
  have a5 := h.cof12
  have a6 := h.cof20
  have a7 := h.cof21
  have a8 := h.cof22
  have row00 := h.row 0 0
  have row01 := h.row 0 1
  have row02 := h.row 0 2
  have row11 := h.row 1 1
  have row12 := h.row 1 2
  have row22 := h.row 2 2
  have col00 := h.col 0 0
  have col01 := h.col 0 1
  have col02 := h.col 0 2
  have col11 := h.col 1 1
  have col12 := h.col 1 2
  have col22 := h.col 2 2
  simp at row00 row01 row02 row11 row12 row22 col00 col01 col02 col11 col12 col22
  generalize R 0 0 = r00 at *
  generalize R 0 1 = r01 at *
  generalize R 0 2 = r02 at *
  generalize R 1 0 = r10 at *
  generalize R 1 1 = r11 at *
  generalize R 1 2 = r12 at *
  generalize R 2 0 = r20 at *
  generalize R 2 1 = r21 at *
  generalize R 2 2 = r22 at *
  clear h
  refine ⟨?_, ?_, ?_, ?_, ?_, ?_⟩ <;> grind

/-- The relations between the products of two components of a quaternion, in terms of its matrix, divided by the component `z`. -/
theorem rank_one_z {R : M3} (h : IsRotation R) :
    (R 0 2 + R 2 0) * (R 0 2 + R 2 0) = (1 - R 0 0 - R 1 1 + R 2 2) * (1 + R 0 0 - R 1 1 - R 2 2) ∧
    (R 0 2 + R 2 0) * (R 1 2 + R 2 1) = (1 - R 0 0 - R 1 1 + R 2 2) * (R 0 1 + R 1 0) ∧
    (R 0 2 + R 2 0) * (R 1 0 - R 0 1) = (1 - R 0 0 - R 1 1 + R 2 2) * (R 2 1 - R 1 2) ∧
    (R 1 2 + R 2 1) * (R 1 2 + R 2 1) = (1 - R 0 0 - R 1 1 + R 2 2) * (1 - R 0 0 + R 1 1 - R 2 2) ∧
    (R 1 2 + R 2 1) * (R 1 0 - R 0 1) = (1 - R 0 0 - R 1 1 + R 2 2) * (R 0 2 - R 2 0) ∧
    (R 1 0 - R 0 1) * (R 1 0 - R 0 1) = (1 - R 0 0 - R 1 1 + R 2 2) * (1 + R 0 0 + R 1 1 + R 2 2) := by
  have a0 := h.cof00
  have a1 := h.cof01
  have a2 := h.cof02
  have a3 := h.cof10
  have a4 := h.cof11
  have a5 := h.cof12
  have a6 := h.cof20
  have a7 := h.cof21
  have a8 := h.cof22
  have row00 := h.row 0 0
  have row01 := h.row 0 1
  have row02 := h.row 0 2
  have row11 := h.row 1 1
  have row12 := h.row 1 2
  have row22 := h.row 2 2
  have col00 := h.col 0 0
  have col01 := h.col 0 1
  have col02 := h.col 0 2
  have col11 := h.col 1 1
  have col12 := h.col 1 2
  have col22 := h.col 2 2
  simp at row00 row01 row02 row11 row12 row22 col00 col01 col02 col11 col12 col22
  generalize R 0 0 = r00 at *
  generalize R 0 1 = r01 at *
  generalize R 0 2 = r02 at *
  generalize R 1 0 = r10 at *
  generalize R 1 1 = r11 at *
  generalize R 1 2 = r12 at *
  generalize R 2 0 = r20 at *
  generalize R 2 1 = r21 at *
  generalize R 2 2 = r22 at *
  clear h
  refine ⟨?_, ?_, ?_, ?_, ?_, ?_⟩ <;> grind

/-- The relations between the products of two components of a quaternion, in terms of its matrix, divided by the component `w`. -/
theorem rank_one_w {R : M3} (h : IsRotation R) :
    (R 2 1 - R 1 2) * (R 2 1 - R 1 2) = (1 + R 0 0 + R 1 1 + R 2 2) * (1 + R 0 0 - R 1 1 - R 2 2) ∧
    (R 2 1 - R 1 2) * (R 0 2 - R 2 0) = (1 + R 0 0 + R 1 1 + R 2 2) * (R 0 1 + R 1 0) ∧
    (R 2 1 - R 1 2) * (R 1 0 - R 0 1) = (1 + R 0 0 + R 1 1 + R 2 2) * (R 0 2 + R 2 0) ∧
    (R 0 2 - R 2 0) * (R 0 2 - R 2 0) = (1 + R 0 0 + R 1 1 + R 2 2) * (1 - R 0 0 + R 1 1 - R 2 2) ∧
    (R 0 2 - R 2 0) * (R 1 0 - R 0 1) = (1 + R 0 0 + R 1 1 + R 2 2) * (R 1 2 + R 2 1) ∧
    (R 1 0 - R 0 1) * (R 1 0 - R 0 1) = (1 + R 0 0 + R 1 1 + R 2 2) * (1 - R 0 0 - R 1 1 + R 2 2) := by
  have a0 := h.cof00
  have a1 := h.cof01
  have a2 := h.cof02
  have a3 := h.cof10
  have a4 := h.cof11
  have a5 := h.cof12
  have a6 := h.cof20
  have a7 := h.cof21
  have a8 := h.cof22
  have row00 := h.row 0 0
  have row01 := h.row 0 1
  have row02 := h.row 0 2
  have row11 := h.row 1 1
  have row12 := h.row 1 2
  have row22 := h.row 2 2
  have col00 := h.col 0 0
  have col01 := h.col 0 1
  have col02 := h.col 0 2
  have col11 := h.col 1 1
  have col12 := h.col 1 2
  have col22 := h.col 2 2
  simp at row00 row01 row02 row11 row12 row22 col00 col01 col02 col11 col12 col22
  generalize R 0 0 = r00 at *
  generalize R 0 1 = r01 at *
  generalize R 0 2 = r02 at *
  generalize R 1 0 = r10 at *
  generalize R 1 1 = r11 at *
  generalize R 1 2 = r12 at *
  generalize R 2 0 = r20 at *
  generalize R 2 1 = r21 at *
  generalize R 2 2 = r22 at *
  clear h
  refine ⟨?_, ?_, ?_, ?_, ?_, ?_⟩ <;> grind

end MU
