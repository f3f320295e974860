import Verif.Spec.Matrix
import Mathlib.LinearAlgebra.Matrix.NonsingularInverse
import Mathlib.Tactic.Linarith
import Mathlib.Tactic.LinearCombination
import Mathlib.Tactic.Ring

/-!
# Operations on matrices
-/

set_option linter.unusedSectionVars false

namespace MU

open Finset Spec

theorem mulM_ok {B : Build} {A C : Mat ℝ} (h : A.cols = C.rows) :
    A.mulM B C = .ok ⟨A.rows, C.cols, fun i j => ∑ l ∈ range A.cols, A.entry i l * C.entry l j⟩ := if_pos h

theorem subM_ok {B : Build} {A C : Mat ℝ} (h : A.rows = C.rows ∧ A.cols = C.cols) :
    A.subM B C = .ok ⟨A.rows, A.cols, fun i j => A.entry i j - C.entry i j⟩ := if_pos h

theorem addM_ok {B : Build} {A C : Mat ℝ} (h : A.rows = C.rows ∧ A.cols = C.cols) :
    A.addM B C = .ok ⟨A.rows, A.cols, fun i j => A.entry i j + C.entry i j⟩ := if_pos h

theorem blockM_ok {B : Build} {A : Mat ℝ} {i j r c : Nat} (h : i + r ≤ A.rows ∧ j + c ≤ A.cols) :
    A.blockM B i j r c = .ok ⟨r, c, fun i' j' => A.entry (i + i') (j + j')⟩ := if_pos h

theorem setBlock_ok {B : Build} {A C : Mat ℝ} {i j r c : Nat} (h : i + r ≤ A.rows ∧ j + c ≤ A.cols ∧ C.rows = r ∧ C.cols = c) :
    A.setBlock B i j r c C = .ok ⟨A.rows, A.cols, fun i' j' =>
      if i ≤ i' ∧ i' < i + r ∧ j ≤ j' ∧ j' < j + c then C.entry (i' - i) (j' - j) else A.entry i' j'⟩ := if_pos h

theorem on_mul (f g : Nat → Nat → ℝ) (m n p r c : Nat) :
    on ⟨r, c, fun i j => ∑ l ∈ range n, f i l * g l j⟩ m p = (on ⟨m, n, f⟩ m n) * (on ⟨n, p, g⟩ n p) := by
  ext i j
  rw [Matrix.mul_apply]
  exact (Fin.sum_univ_eq_sum_range (fun l => f i l * g l j) n).symm

/-- The inversion of the singular values. -/
theorem invertSingular_ok (B : Build) (tol : ℝ) (S : Mat ℝ) (hc : S.cols = 1) :
    invertSingular B tol S = .ok ⟨S.rows, S.cols, fun i j =>
      if i < S.rows ∧ j = 0 then (if tol < S.entry i 0 then 1 / S.entry i 0 else 0) else S.entry i j⟩ := by
  unfold invertSingular
  have h0 : S = (⟨S.rows, S.cols, fun i j =>
      if i < 0 ∧ j = 0 then (if tol < S.entry i 0 then 1 / S.entry i 0 else 0) else S.entry i j⟩ : Mat ℝ) := by simp
  have main := forRange_ok (lo := 0) (hi := S.rows) (Nat.zero_le _) (f := fun i T => do
    let s ← T.at' B i 0
    if tol < s then T.set B i 0 (1 / s) else T.set B i 0 0) (fun k => (⟨S.rows, S.cols, fun i j =>
      if i < k ∧ j = 0 then (if tol < S.entry i 0 then 1 / S.entry i 0 else 0) else S.entry i j⟩ : Mat ℝ)) ?_
  · rw [← h0] at main
    exact main
  · intro i _ hi
    have e : (⟨S.rows, S.cols, fun i' j => if i' < i ∧ j = 0 then (if tol < S.entry i' 0 then 1 / S.entry i' 0 else 0) else S.entry i' j⟩ : Mat ℝ).at' B i 0
        = .ok (S.entry i 0) := by
      unfold Mat.at'
      rw [if_pos ⟨hi, by show 0 < S.cols; omega⟩]
      simp
    rw [e, Res.ok_bind]
    have upd : ∀ a : ℝ, a = (if tol < S.entry i 0 then 1 / S.entry i 0 else 0) →
        (⟨S.rows, S.cols, fun i' j => if i' < i ∧ j = 0 then (if tol < S.entry i' 0 then 1 / S.entry i' 0 else 0) else S.entry i' j⟩ : Mat ℝ).set B i 0 a
        = .ok ⟨S.rows, S.cols, fun i' j => if i' < i + 1 ∧ j = 0 then (if tol < S.entry i' 0 then 1 / S.entry i' 0 else 0) else S.entry i' j⟩ := by
      intro a ha
      unfold Mat.set
      rw [if_pos ⟨hi, by show 0 < S.cols; omega⟩]
      congr 2
      funext i' j
      show (if i' = i ∧ j = 0 then a else if i' < i ∧ j = 0 then (if tol < S.entry i' 0 then 1 / S.entry i' 0 else 0) else S.entry i' j)
        = if i' < i + 1 ∧ j = 0 then (if tol < S.entry i' 0 then 1 / S.entry i' 0 else 0) else S.entry i' j
      by_cases h1 : i' = i <;> by_cases h2 : j = 0
      · subst h1; subst h2
        rw [if_pos ⟨rfl, rfl⟩, if_pos ⟨Nat.lt_succ_self _, rfl⟩, ha]
      · simp [h2]
      · subst h2
        rw [if_neg (fun h => h1 h.1)]
        by_cases h3 : i' < i
        · simp only [h3, Nat.lt_succ_of_lt h3, and_self, if_true]
        · rw [if_neg (fun h => h3 h.1), if_neg (fun h => by omega)]
      · simp [h2]
    split
    · rename_i hs
      exact upd _ (by rw [if_pos hs])
    · rename_i hs
      exact upd _ (by rw [if_neg hs])

/-- A pseudo-inverse from a decomposition with orthonormal columns. -/
theorem moorePenrose_of_svd {m n k : Nat} (U : Matrix (Fin m) (Fin k) ℝ) (V : Matrix (Fin n) (Fin k) ℝ) (s t : Fin k → ℝ)
    (hU : U.transpose * U = 1) (hV : V.transpose * V = 1) (h1 : ∀ i, s i * t i * s i = s i) (h2 : ∀ i, t i * s i * t i = t i) :
    MoorePenrose (U * Matrix.diagonal s * V.transpose) (V * Matrix.diagonal t * U.transpose) := by
  have ax : U * Matrix.diagonal s * V.transpose * (V * Matrix.diagonal t * U.transpose) = U * Matrix.diagonal (fun i => s i * t i) * U.transpose := by
    calc _ = U * Matrix.diagonal s * (V.transpose * V) * Matrix.diagonal t * U.transpose := by simp only [Matrix.mul_assoc]
      _ = _ := by rw [hV, Matrix.mul_one, Matrix.mul_assoc U, Matrix.diagonal_mul_diagonal]
  have xa : V * Matrix.diagonal t * U.transpose * (U * Matrix.diagonal s * V.transpose) = V * Matrix.diagonal (fun i => t i * s i) * V.transpose := by
    calc _ = V * Matrix.diagonal t * (U.transpose * U) * Matrix.diagonal s * V.transpose := by simp only [Matrix.mul_assoc]
      _ = _ := by rw [hU, Matrix.mul_one, Matrix.mul_assoc V, Matrix.diagonal_mul_diagonal]
  constructor
  · rw [ax]
    calc _ = U * Matrix.diagonal (fun i => s i * t i) * (U.transpose * U) * Matrix.diagonal s * V.transpose := by simp only [Matrix.mul_assoc]
      _ = _ := by
        rw [hU, Matrix.mul_one, Matrix.mul_assoc U, Matrix.diagonal_mul_diagonal]
        congr 3
        funext i
        exact h1 i
  · rw [xa]
    calc _ = V * Matrix.diagonal (fun i => t i * s i) * (V.transpose * V) * Matrix.diagonal t * U.transpose := by simp only [Matrix.mul_assoc]
      _ = _ := by
        rw [hV, Matrix.mul_one, Matrix.mul_assoc V, Matrix.diagonal_mul_diagonal]
        congr 3
        funext i
        exact h2 i
  · rw [ax]
    simp only [Matrix.transpose_mul, Matrix.transpose_transpose, Matrix.diagonal_transpose, Matrix.mul_assoc]
  · rw [xa]
    simp only [Matrix.transpose_mul, Matrix.transpose_transpose, Matrix.diagonal_transpose, Matrix.mul_assoc]

/-- The pseudo-inverse is unique. -/
theorem moorePenrose_unique {m n : Nat} {A : Matrix (Fin m) (Fin n) ℝ} {X Y : Matrix (Fin n) (Fin m) ℝ} (hX : MoorePenrose A X) (hY : MoorePenrose A Y) :
    X = Y := by
  have e1 : A * X = A * Y := by
    calc A * X = (A * Y * A) * X := by rw [hY.axa]
      _ = (A * Y) * (A * X) := by simp only [Matrix.mul_assoc]
      _ = (A * Y).transpose * (A * X).transpose := by rw [hY.ax, hX.ax]
      _ = (A * X * (A * Y)).transpose := by rw [← Matrix.transpose_mul]
      _ = (A * X * A * Y).transpose := by simp only [Matrix.mul_assoc]
      _ = A * Y := by rw [hX.axa, hY.ax]
  have e2 : X * A = Y * A := by
    calc X * A = X * (A * Y * A) := by rw [hY.axa]
      _ = (X * A) * (Y * A) := by simp only [Matrix.mul_assoc]
      _ = (X * A).transpose * (Y * A).transpose := by rw [hX.xa, hY.xa]
      _ = (Y * A * (X * A)).transpose := by rw [← Matrix.transpose_mul]
      _ = (Y * (A * X * A)).transpose := by simp only [Matrix.mul_assoc]
      _ = Y * A := by rw [hX.axa, hY.xa]
  calc X = X * A * X := hX.xax.symm
    _ = Y * A * X := by rw [e2]
    _ = Y * (A * X) := by rw [Matrix.mul_assoc]
    _ = Y * A * Y := by rw [e1, Matrix.mul_assoc]
    _ = Y := hY.xax

/-- An injective square matrix is invertible: `Rᵀ y = d` has one solution. -/
theorem square_system {p : Nat} (R : Nat → Nat → ℝ) (hinj : ∀ w : Nat → ℝ, (∀ i, i < p → ∑ j ∈ range p, R i j * w j = 0) → ∀ j, j < p → w j = 0) (d : Nat → ℝ) :
    (∃ y : Nat → ℝ, ∀ i, i < p → ∑ j ∈ range p, R j i * y j = d i) ∧
    ∀ y y' : Nat → ℝ, (∀ i, i < p → ∑ j ∈ range p, R j i * y j = d i) → (∀ i, i < p → ∑ j ∈ range p, R j i * y' j = d i) → ∀ j, j < p → y j = y' j := by
  let M : Matrix (Fin p) (Fin p) ℝ := fun i j => R i j
  have hM : Function.Injective M.mulVec := by
    intro u v huv
    have h0 : M.mulVec (u - v) = 0 := by rw [Matrix.mulVec_sub, huv, sub_self]
    have := hinj (fun j => if h : j < p then (u - v) ⟨j, h⟩ else 0) (fun i hi => by
      have h1 := congrFun h0 ⟨i, hi⟩
      simp only [Matrix.mulVec, dotProduct] at h1
      rw [← Fin.sum_univ_eq_sum_range (fun j => R i j * (if h : j < p then (u - v) ⟨j, h⟩ else 0)) p]
      rw [show (0 : Fin p → ℝ) ⟨i, hi⟩ = 0 from rfl] at h1
      rw [← h1]
      refine sum_congr rfl fun j _ => ?_
      rw [dif_pos j.2])
    funext j
    have h2 := this j j.2
    rw [dif_pos j.2] at h2
    exact sub_eq_zero.1 h2
  have hu : IsUnit M := Matrix.mulVec_injective_iff_isUnit.1 hM
  have hdet : IsUnit M.transpose.det := by
    rw [Matrix.det_transpose]
    exact (Matrix.isUnit_iff_isUnit_det M).1 hu
  constructor
  · let v : Fin p → ℝ := M.transpose⁻¹.mulVec (fun i => d i)
    have hv : M.transpose.mulVec v = fun i : Fin p => d i := by
      show M.transpose.mulVec (M.transpose⁻¹.mulVec _) = _
      rw [Matrix.mulVec_mulVec, Matrix.mul_nonsing_inv _ hdet, Matrix.one_mulVec]
    refine ⟨fun j => if h : j < p then v ⟨j, h⟩ else 0, fun i hi => ?_⟩
    have h1 := congrFun hv ⟨i, hi⟩
    simp only [Matrix.mulVec, dotProduct] at h1
    rw [← h1, ← Fin.sum_univ_eq_sum_range (fun j => R j i * (if h : j < p then v ⟨j, h⟩ else 0)) p]
    refine sum_congr rfl fun j _ => ?_
    rw [dif_pos j.2]
    rfl
  · intro y y' h h' j hj
    have : M.transpose.mulVec (fun j : Fin p => y j) = M.transpose.mulVec (fun j : Fin p => y' j) := by
      funext i
      simp only [Matrix.mulVec, dotProduct]
      have e := (h i i.2).trans (h' i i.2).symm
      rw [← Fin.sum_univ_eq_sum_range (fun j => R j i * y j) p, ← Fin.sum_univ_eq_sum_range (fun j => R j i * y' j) p] at e
      exact e
    have inj : Function.Injective M.transpose.mulVec := Matrix.mulVec_injective_iff_isUnit.2 ((Matrix.isUnit_iff_isUnit_det _).2 hdet)
    exact congrFun (inj this) ⟨j, hj⟩

end MU
