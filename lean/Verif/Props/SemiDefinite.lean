import Verif.Lemmas.Factorisations
import Mathlib.LinearAlgebra.Matrix.Charpoly.Coeff

/-!
# C85: `IsPositiveSemiDefinite`
-/

set_option linter.unusedSectionVars false

namespace MU

open Finset Matrix Spec

/-- The eigenvectors of a symmetric matrix. -/
theorem spectral_form {n : Nat} {S : Matrix (Fin n) (Fin n) ℝ} (hH : S.IsHermitian) :
    ∃ V : Matrix (Fin n) (Fin n) ℝ, Vᵀ * V = 1 ∧ S * V = V * diagonal hH.eigenvalues := by
  refine ⟨Matrix.of fun i j => hH.eigenvectorBasis j i, basis_orthogonal _, ?_⟩
  ext i j
  rw [Matrix.mul_diagonal]
  have := congrFun (hH.mulVec_eigenvectorBasis j) i
  simp only [Matrix.mulVec, dotProduct] at this
  rw [Matrix.mul_apply]
  simp only [Matrix.of_apply]
  rw [this]
  simp [mul_comm]

/-- The bound on the eigenvalues is a bound on the quadratic form. -/
theorem eigenvalues_bound {n : Nat} {S : Matrix (Fin n) (Fin n) ℝ} (hH : S.IsHermitian) (e : ℝ) :
    (∀ i, -e < hH.eigenvalues i) ↔ ∀ x : Fin n → ℝ, x ≠ 0 → -e * (x ⬝ᵥ x) < x ⬝ᵥ S *ᵥ x := by
  obtain ⟨V, hV, hS⟩ := spectral_form hH
  have hV' : V * Vᵀ = 1 := mul_eq_one_comm.1 hV
  constructor
  · intro h x hx
    let c := Vᵀ *ᵥ x
    have hxc : x = V *ᵥ c := by
      show x = V *ᵥ (Vᵀ *ᵥ x)
      rw [Matrix.mulVec_mulVec, hV', Matrix.one_mulVec]
    have h1 : x ⬝ᵥ x = c ⬝ᵥ c := by
      show x ⬝ᵥ x = (Vᵀ *ᵥ x) ⬝ᵥ (Vᵀ *ᵥ x)
      rw [Matrix.dotProduct_mulVec, ← Matrix.mulVec_transpose, Matrix.transpose_transpose, Matrix.mulVec_mulVec, hV', Matrix.one_mulVec]
    have h2 : x ⬝ᵥ S *ᵥ x = ∑ i, hH.eigenvalues i * (c i * c i) := by
      have : S *ᵥ x = V *ᵥ (diagonal hH.eigenvalues *ᵥ c) := by
        have hSx : S = V * diagonal hH.eigenvalues * Vᵀ := by rw [← hS, Matrix.mul_assoc, hV', Matrix.mul_one]
        conv_lhs => rw [hSx]
        rw [← Matrix.mulVec_mulVec, ← Matrix.mulVec_mulVec]
      rw [this, Matrix.dotProduct_mulVec, ← Matrix.mulVec_transpose]
      show ∑ i, c i * (diagonal hH.eigenvalues *ᵥ c) i = _
      refine sum_congr rfl fun i _ => ?_
      rw [Matrix.mulVec_diagonal]
      ring
    have hc : ∃ i, c i ≠ 0 := by
      by_contra hn
      push Not at hn
      apply hx
      rw [hxc, show c = 0 from funext hn, Matrix.mulVec_zero]
    rw [h1, h2]
    show -e * ∑ i, c i * c i < _
    rw [mul_sum]
    obtain ⟨k, hk⟩ := hc
    refine sum_lt_sum (fun i _ => mul_le_mul_of_nonneg_right (h i).le (mul_self_nonneg _)) ⟨k, mem_univ k, ?_⟩
    exact mul_lt_mul_of_pos_right (h k) (mul_self_pos.2 hk)
  · intro h i
    let x := V *ᵥ Pi.single i 1
    have hx1 : x ⬝ᵥ x = 1 := by
      show (V *ᵥ Pi.single i 1) ⬝ᵥ (V *ᵥ Pi.single i 1) = 1
      rw [Matrix.dotProduct_mulVec, ← Matrix.mulVec_transpose, Matrix.mulVec_mulVec, hV, Matrix.one_mulVec]
      simp
    have hx2 : x ⬝ᵥ S *ᵥ x = hH.eigenvalues i := by
      show (V *ᵥ Pi.single i 1) ⬝ᵥ (S *ᵥ (V *ᵥ Pi.single i 1)) = _
      rw [Matrix.mulVec_mulVec, hS, ← Matrix.mulVec_mulVec, Matrix.dotProduct_mulVec, ← Matrix.mulVec_transpose, Matrix.mulVec_mulVec, hV, Matrix.one_mulVec]
      simp
    have := h x (fun h0 => by
      rw [h0] at hx1
      simp at hx1)
    rw [hx1, hx2] at this
    linarith

/-- The roots of the characteristic polynomial of a symmetric matrix are its eigenvalues. -/
theorem roots_symmetric {n : Nat} {S : Matrix (Fin n) (Fin n) ℝ} (hH : S.IsHermitian) (z : ℂ) :
    z ∈ (S.map (fun x => (x : ℂ))).charpoly.roots ↔ ∃ i, z = hH.eigenvalues i := by
  have e : (S.map (fun x => (x : ℂ))).charpoly = S.charpoly.map Complex.ofRealHom := Matrix.charpoly_map S Complex.ofRealHom
  rw [Polynomial.mem_roots (Matrix.charpoly_monic _).ne_zero, Polynomial.IsRoot, e, hH.charpoly_eq, Polynomial.map_prod, Polynomial.eval_prod, prod_eq_zero_iff]
  simp [sub_eq_zero]

/-- The quadratic form of a vector. -/
theorem quadratic_range (A : Mat ℝ) (v : Nat → ℝ) :
    (fun i : Fin A.rows => v i) ⬝ᵥ (on A A.rows A.rows) *ᵥ (fun i : Fin A.rows => v i) = ∑ i ∈ range A.rows, ∑ j ∈ range A.rows, v i * A.entry i j * v j := by
  rw [← Fin.sum_univ_eq_sum_range (fun i => ∑ j ∈ range A.rows, v i * A.entry i j * v j) A.rows]
  simp only [dotProduct, mulVec]
  refine sum_congr rfl fun i _ => ?_
  rw [← Fin.sum_univ_eq_sum_range (fun j => v i * A.entry i j * v j) A.rows, mul_sum]
  refine sum_congr rfl fun j _ => ?_
  show v i * (A.entry i j * v j) = _
  ring

/-- C85. On a symmetric matrix, `IsPositiveSemiDefinite(epsilon)` is true exactly when `vᵀ A v > -epsilon |v|²` for every non-zero `v`. -/
theorem C85_symmetric (epsilon : ℝ) (A : Mat ℝ) (h : Symmetric A) :
    isPositiveSemiDefinite epsilon A = true ↔
      ∀ v : Nat → ℝ, (∃ i < A.rows, v i ≠ 0) → -epsilon * ∑ i ∈ range A.rows, v i ^ 2 < ∑ i ∈ range A.rows, ∑ j ∈ range A.rows, v i * A.entry i j * v j := by
  have hH : (on A A.rows A.rows).IsHermitian := by
    rw [Matrix.IsHermitian, Matrix.conjTranspose_eq_transpose_of_trivial]
    ext i j
    exact h.2 j i j.2 i.2
  have h1 : isPositiveSemiDefinite epsilon A = true ↔ ∀ i, -epsilon < hH.eigenvalues i := by
    unfold isPositiveSemiDefinite eigenvaluesM
    have hm : (Matrix.of fun i j : Fin A.rows => (A.entry i j : ℂ)) = (on A A.rows A.rows).map (fun x => (x : ℂ)) := rfl
    rw [hm, Bool.and_eq_true, decide_eq_true_iff, decide_eq_true_iff]
    constructor
    · rintro ⟨_, hz⟩ i
      have := hz (hH.eigenvalues i) ((roots_symmetric hH _).2 ⟨i, rfl⟩)
      simpa using this
    · intro hi
      refine ⟨h.1, fun z hz => ?_⟩
      obtain ⟨i, rfl⟩ := (roots_symmetric hH z).1 hz
      simpa using hi i
  rw [h1, eigenvalues_bound hH]
  have sq : ∀ v : Nat → ℝ, (fun i : Fin A.rows => v i) ⬝ᵥ (fun i : Fin A.rows => v i) = ∑ i ∈ range A.rows, v i ^ 2 := by
    intro v
    rw [← Fin.sum_univ_eq_sum_range (fun i => v i ^ 2) A.rows]
    exact sum_congr rfl fun i _ => (_root_.sq (v i)).symm
  constructor
  · rintro hx v ⟨i, hi, hv⟩
    have := hx (fun i : Fin A.rows => v i) (fun h0 => hv (congrFun h0 ⟨i, hi⟩))
    rw [quadratic_range, sq] at this
    exact this
  · intro hv x hx
    obtain ⟨i, hi⟩ := Function.ne_iff.1 hx
    have := hv (fun i => if h : i < A.rows then x ⟨i, h⟩ else 0) ⟨i, i.2, by rw [dif_pos i.2]; exact hi⟩
    rw [← quadratic_range, ← sq] at this
    have e : (fun i : Fin A.rows => if h : (i : Nat) < A.rows then x ⟨i, h⟩ else 0) = x := by
      funext i
      rw [dif_pos i.2]
    rw [e] at this
    exact this

/-- C85. A symmetric matrix with a non-negative quadratic form is accepted with every positive tolerance, and a matrix that takes a negative value
`≤ -epsilon |v|²` is refused; a matrix that is not square is refused. -/
theorem C85_semidefinite (epsilon : ℝ) (he : 0 < epsilon) (A : Mat ℝ) :
    (Symmetric A → (∀ v : Nat → ℝ, 0 ≤ ∑ i ∈ range A.rows, ∑ j ∈ range A.rows, v i * A.entry i j * v j) → isPositiveSemiDefinite epsilon A = true) ∧
    (Symmetric A → ∀ v : Nat → ℝ, (∃ i < A.rows, v i ≠ 0) →
      ∑ i ∈ range A.rows, ∑ j ∈ range A.rows, v i * A.entry i j * v j ≤ -epsilon * ∑ i ∈ range A.rows, v i ^ 2 → isPositiveSemiDefinite epsilon A = false) ∧
    (A.rows ≠ A.cols → isPositiveSemiDefinite epsilon A = false) := by
  refine ⟨fun h hq => (C85_symmetric epsilon A h).2 fun v hv => ?_, fun h v hv hle => ?_, fun h => ?_⟩
  · obtain ⟨i, hi, hvi⟩ := hv
    have : 0 < ∑ i ∈ range A.rows, v i ^ 2 :=
      sum_pos' (fun i _ => sq_nonneg _) ⟨i, mem_range.2 hi, by positivity⟩
    have := hq v
    nlinarith
  · by_contra hn
    rw [Bool.not_eq_false] at hn
    exact absurd ((C85_symmetric epsilon A h).1 hn v hv) (not_lt.2 hle)
  · unfold isPositiveSemiDefinite
    simp [h]

/-- C85. Exact semi-definiteness is what all the positive tolerances together decide. -/
theorem C85_all_tolerances (A : Mat ℝ) (h : Symmetric A) :
    (∀ epsilon : ℝ, 0 < epsilon → isPositiveSemiDefinite epsilon A = true) ↔
      ∀ v : Nat → ℝ, 0 ≤ ∑ i ∈ range A.rows, ∑ j ∈ range A.rows, v i * A.entry i j * v j := by
  refine ⟨fun hall v => ?_, fun hq e he => (C85_semidefinite e he A).1 h hq⟩
  by_contra hn
  rw [not_le] at hn
  have hne : ∃ i < A.rows, v i ≠ 0 := by
    by_contra hz
    push Not at hz
    have : ∑ i ∈ range A.rows, ∑ j ∈ range A.rows, v i * A.entry i j * v j = 0 :=
      sum_eq_zero fun i hi => sum_eq_zero fun j _ => by rw [hz i (mem_range.1 hi), zero_mul, zero_mul]
    linarith
  obtain ⟨i, hi, hvi⟩ := hne
  have hpos : 0 < ∑ i ∈ range A.rows, v i ^ 2 := sum_pos' (fun i _ => sq_nonneg _) ⟨i, mem_range.2 hi, by positivity⟩
  generalize hN : ∑ i ∈ range A.rows, v i ^ 2 = N at hpos
  generalize hq : ∑ i ∈ range A.rows, ∑ j ∈ range A.rows, v i * A.entry i j * v j = q at hn
  have := (C85_symmetric (-q / N) A h).1 (hall _ (div_pos (by linarith) hpos)) v ⟨i, hi, hvi⟩
  rw [hN, hq] at this
  have e : -(-q / N) * N = q := by field_simp
  linarith

/-- C85: a singular matrix, `[[1, 1], [1, 1]]`, is accepted with every positive tolerance. -/
example (e : ℝ) (he : 0 < e) : isPositiveSemiDefinite e ⟨2, 2, fun _ _ => 1⟩ = true := by
  refine (C85_semidefinite e he _).1 ⟨rfl, fun _ _ _ _ => rfl⟩ fun v => ?_
  have : ∑ i ∈ range 2, ∑ j ∈ range 2, v i * (1 : ℝ) * v j = (v 0 + v 1) ^ 2 := by
    simp only [sum_range_succ, sum_range_zero]
    ring
  show 0 ≤ ∑ i ∈ range 2, ∑ j ∈ range 2, v i * (1 : ℝ) * v j
  rw [this]
  exact sq_nonneg _

/-- C85: with the tolerance zero the same matrix is refused. -/
example : isPositiveSemiDefinite 0 ⟨2, 2, fun _ _ => 1⟩ = false := by
  by_contra hn
  rw [Bool.not_eq_false] at hn
  have := (C85_symmetric 0 ⟨2, 2, fun _ _ => 1⟩ ⟨rfl, fun _ _ _ _ => rfl⟩).1 hn (fun i => if i = 0 then 1 else -1) ⟨0, by decide, by norm_num⟩
  have e : ∑ i ∈ range 2, ∑ j ∈ range 2, (if i = 0 then (1 : ℝ) else -1) * (1 : ℝ) * (if j = 0 then 1 else -1) = 0 := by
    simp [sum_range_succ]
  have this : -(0 : ℝ) * _ < ∑ i ∈ range 2, ∑ j ∈ range 2, (if i = 0 then (1 : ℝ) else -1) * (1 : ℝ) * (if j = 0 then 1 else -1) := this
  rw [e] at this
  simp at this

/-- C85. Without symmetry the eigenvalues do not tell: `[[1, 10], [0, 1]]` is accepted although `(1, -1)` gives `-8`. -/
theorem C85_not_symmetric (epsilon : ℝ) (he : 0 ≤ epsilon) :
    isPositiveSemiDefinite epsilon ⟨2, 2, fun i j => if i = j then 1 else if i < j then 10 else 0⟩ = true ∧
    ∃ v : Nat → ℝ, ∑ i ∈ range 2, ∑ j ∈ range 2, v i * (if i = j then 1 else if i < j then 10 else 0) * v j = -8 := by
  constructor
  · unfold isPositiveSemiDefinite eigenvaluesM
    rw [Bool.and_eq_true, decide_eq_true_iff, decide_eq_true_iff]
    refine ⟨rfl, fun z hz => ?_⟩
    have hz' := (Polynomial.mem_roots (Matrix.charpoly_monic _).ne_zero).1 hz
    have hroot : Matrix.det (Matrix.of fun i j : Fin 2 => if i = j then z - 1 else if i < j then (-10 : ℂ) else 0) = 0 := by
      rw [Polynomial.IsRoot, Matrix.eval_charpoly] at hz'
      refine Eq.trans (congrArg Matrix.det ?_) hz'
      ext i j
      fin_cases i <;> fin_cases j <;> simp [Matrix.scalar_apply, Matrix.diagonal_apply]
    rw [Matrix.det_fin_two] at hroot
    simp at hroot
    rw [sub_eq_zero.1 hroot]
    simp
    linarith
  · refine ⟨fun i => if i = 0 then 1 else -1, ?_⟩
    simp [sum_range_succ]
    norm_num

end MU
