import Verif.Model.FixedMatrix
import Verif.Props.Matrix
import Verif.Props.MatrixOps
import Verif.Props.Decompositions
import Verif.Props.SemiDefinite
import Verif.Props.Documented
import Mathlib.LinearAlgebra.Matrix.Symmetric
import Mathlib.LinearAlgebra.Matrix.Determinant.Basic
import Mathlib.Tactic.FinCases

/-!
# C173: the matrices of fixed size

`SqMat n` is a `Matrix33` for `n = 3` and a `Matrix66` for `n = 6`: a matrix of Mathlib. The statements are about it directly: `A.transpose`, `A * X = 1`,
`A.det`, `A.IsSymm`. What is proved for every `n` holds for both classes.
-/

set_option linter.unusedSectionVars false

namespace MU

open Finset Spec

variable {n : Nat}

theorem mn_entry (A : SqMat n) (i j : Fin n) : A.mn.entry i j = A i j := dif_pos (⟨i.2, j.2⟩ : (i : Nat) < n ∧ (j : Nat) < n)

theorem on_mn (A : SqMat n) : on A.mn n n = A := by
  ext i j
  exact mn_entry A i j

theorem mn_symm {A : SqMat n} (h : A.IsSymm) : Symmetric A.mn := by
  refine ⟨rfl, fun i j hi hj => ?_⟩
  have e1 := mn_entry A ⟨i, hi⟩ ⟨j, hj⟩
  have e2 := mn_entry A ⟨j, hj⟩ ⟨i, hi⟩
  exact e1.trans ((h.apply _ _).symm.trans e2.symm)

/-- The quadratic form, over the indices of the class. -/
theorem mn_quad (A : SqMat n) (v : Nat → ℝ) :
    ∑ i ∈ range n, ∑ j ∈ range n, v i * A.mn.entry i j * v j = ∑ i : Fin n, ∑ j : Fin n, v i * A i j * v j := by
  rw [← Fin.sum_univ_eq_sum_range (fun i => ∑ j ∈ range n, v i * A.mn.entry i j * v j)]
  refine sum_congr rfl fun i _ => ?_
  rw [← Fin.sum_univ_eq_sum_range (fun j => v i * A.mn.entry i j * v j)]
  exact sum_congr rfl fun j _ => by rw [mn_entry]

/-- A vector of the class as a sequence. -/
def seqOf (v : Fin n → ℝ) (i : Nat) : ℝ := if h : i < n then v ⟨i, h⟩ else 0

theorem seqOf_fin (v : Fin n → ℝ) (i : Fin n) : seqOf v i = v i := dif_pos i.2

/-! ## Elements -/

/-- C173. `at` reads and writes one element, `GetRow`, `GetColumn` and `GetDiag` have the elements of the matrix in order, and the sizes are fixed. -/
theorem C173_elements (B : Build) (A : SqMat n) (i j : Fin n) (a : ℝ) :
    fixNbRows A = n ∧ fixNbCols A = n ∧ fixIsSquare A = true ∧ fixAt B A i j = .ok (A i j) ∧
    (∃ A', fixPut B A i j a = .ok A' ∧ A' i j = a ∧ ∀ i' j' : Fin n, (i', j') ≠ (i, j) → A' i' j' = A i' j') ∧
    (∃ c, fixColumn B A j = .ok c ∧ ∀ k, c k = A k j) ∧ (∃ r, fixRow B A i = .ok r ∧ ∀ k, r k = A i k) ∧ ∀ k, fixDiag A k = A k k := by
  refine ⟨rfl, rfl, rfl, dif_pos ⟨i.2, j.2⟩, ⟨_, if_pos ⟨i.2, j.2⟩, ?_, fun i' j' h => ?_⟩, ⟨_, dif_pos j.2, fun k => rfl⟩, ⟨_, dif_pos i.2, fun k => rfl⟩, fun _ => rfl⟩
  · exact if_pos ⟨rfl, rfl⟩
  · refine if_neg fun e => h ?_
    rw [Fin.ext e.1, Fin.ext e.2]

/-- C173. An index that is too large is an assertion of Eigen's, and undefined with `NDEBUG`. -/
theorem C173_range (B : Build) (A : SqMat n) (i j : Nat) (a : ℝ) :
    (n ≤ i ∨ n ≤ j → fixAt B A i j = eigenFail B ∧ fixPut B A i j a = eigenFail B) ∧
    (n ≤ j → fixColumn B A j = eigenFail B) ∧ (n ≤ i → fixRow B A i = eigenFail B) :=
  ⟨fun h => ⟨dif_neg (by omega), if_neg (by omega)⟩, fun h => dif_neg (by omega), fun h => dif_neg (by omega)⟩

/-- C173. `SetNull`, `SetIdentity` and the two `Transpose`. -/
theorem C173_values (A : SqMat n) :
    fixSetNull A = 0 ∧ fixSetIdentity A = 1 ∧ fixTransposeInPlace A = A.transpose ∧ fixTranspose A = A.transpose := by
  refine ⟨rfl, ?_, rfl, rfl⟩
  ext i j
  exact (Matrix.one_apply (i := i) (j := j)).symm

/-- C173. `MakeSymmetricFromUpper` returns the symmetric matrix with the given upper triangle, `MakeSymmetricFromLower` the one with the given lower triangle; a
symmetric matrix is returned as it is. -/
theorem C173_symmetric (A : SqMat n) :
    ((fixSymmetricFromUpper A).IsSymm ∧ ∀ i j, i ≤ j → fixSymmetricFromUpper A i j = A i j) ∧
    ((fixSymmetricFromLower A).IsSymm ∧ ∀ i j, j ≤ i → fixSymmetricFromLower A i j = A i j) ∧
    (A.IsSymm → fixSymmetricFromUpper A = A ∧ fixSymmetricFromLower A = A) := by
  refine ⟨⟨?_, fun i j h => if_pos h⟩, ⟨?_, fun i j h => if_pos h⟩, fun h => ⟨?_, ?_⟩⟩
  · ext i j
    show (if j ≤ i then A j i else A i j) = if i ≤ j then A i j else A j i
    rcases lt_trichotomy i j with h | rfl | h
    · rw [if_neg (not_le.2 h), if_pos h.le]
    · rfl
    · rw [if_pos h.le, if_neg (not_le.2 h)]
  · ext i j
    show (if i ≤ j then A j i else A i j) = if j ≤ i then A i j else A j i
    rcases lt_trichotomy i j with h | rfl | h
    · rw [if_pos h.le, if_neg (not_le.2 h)]
    · rfl
    · rw [if_neg (not_le.2 h), if_pos h.le]
  · ext i j
    show (if i ≤ j then A i j else A j i) = A i j
    split
    · rfl
    · exact h.apply i j
  · ext i j
    show (if j ≤ i then A i j else A j i) = A i j
    split
    · rfl
    · exact h.apply i j

/-! ## Comparisons -/

/-- C173. `IsEqual` compares the norm of the difference with `epsilon` times the smaller norm. -/
theorem C173_equal (A C : SqMat n) (epsilon : ℝ) (he : 0 ≤ epsilon) :
    fixIsEqual A C epsilon = true ↔
      Real.sqrt (∑ i, ∑ j, (A i j - C i j) ^ 2) ≤ epsilon * min (Real.sqrt (∑ i, ∑ j, A i j ^ 2)) (Real.sqrt (∑ i, ∑ j, C i j ^ 2)) := by
  have nn : ∀ f : SqMat n, 0 ≤ ∑ i, ∑ j, f i j ^ 2 := fun f => sum_nonneg fun i _ => sum_nonneg fun j _ => sq_nonneg _
  have hmin : min (Real.sqrt (∑ i, ∑ j, A i j ^ 2)) (Real.sqrt (∑ i, ∑ j, C i j ^ 2)) = Real.sqrt (min (∑ i, ∑ j, A i j ^ 2) (∑ i, ∑ j, C i j ^ 2)) :=
    (Real.sqrt_monotone.map_min).symm
  unfold fixIsEqual
  rw [decide_eq_true_iff, hmin, Real.sqrt_le_left (mul_nonneg he (Real.sqrt_nonneg _)), mul_pow, Real.sq_sqrt (le_min (nn A) (nn C)), sq epsilon]

/-- C173. With `epsilon = 0` only the same matrix is equal; a matrix is equal to itself. -/
theorem C173_equal_exact (A C : SqMat n) (epsilon : ℝ) (he : 0 ≤ epsilon) : (fixIsEqual A C 0 = true ↔ A = C) ∧ fixIsEqual A A epsilon = true := by
  constructor
  · rw [C173_equal A C 0 le_rfl, zero_mul, Real.sqrt_le_left le_rfl, zero_pow two_ne_zero]
    constructor
    · intro h
      have hz : ∑ i, ∑ j, (A i j - C i j) ^ 2 = 0 := le_antisymm h (sum_nonneg fun i _ => sum_nonneg fun j _ => sq_nonneg _)
      rw [sum_eq_zero_iff_of_nonneg fun i _ => sum_nonneg fun j _ => sq_nonneg _] at hz
      ext i j
      have := (sum_eq_zero_iff_of_nonneg fun j _ => sq_nonneg _).1 (hz i (mem_univ i)) j (mem_univ j)
      exact sub_eq_zero.1 (pow_eq_zero_iff two_ne_zero |>.1 this)
    · rintro rfl
      simp
  · rw [C173_equal A A epsilon he]
    simp only [sub_self]
    simp only [ne_eq, OfNat.ofNat_ne_zero, not_false_eq_true, zero_pow, sum_const_zero, Real.sqrt_zero, min_self]
    exact mul_nonneg he (Real.sqrt_nonneg _)

/-- C173. `IsIdentity` accepts the identity matrix, and what it accepts is within `1e-12` of it everywhere. -/
theorem C173_identity (A : SqMat n) :
    (A = 1 → fixIsIdentity A = true) ∧ (fixIsIdentity A = true → ∀ i j, |A i j - (1 : SqMat n) i j| ≤ 1 / 10 ^ 12) ∧
    ((∀ i j, |A i j - (1 : SqMat n) i j| ≤ 1 / (10 ^ 12 + 1)) → fixIsIdentity A = true) := by
  unfold fixIsIdentity
  rw [decide_eq_true_iff]
  have suff : (∀ i j, |A i j - (1 : SqMat n) i j| ≤ 1 / (10 ^ 12 + 1)) →
      ∀ j i : Fin n, if i = j then |A i j - 1| ≤ min |A i j| |(1 : ℝ)| * (1 / 10 ^ 12) else |A i j| ≤ |(1 : ℝ)| * (1 / 10 ^ 12) := by
    intro h j i
    have hij := h i j
    split
    · rename_i e
      subst e
      rw [Matrix.one_apply_eq] at hij
      have hl := (abs_le.1 hij).1
      have h1 : 1 - 1 / (10 ^ 12 + 1) ≤ min |A i i| |(1 : ℝ)| := by
        refine le_min (le_trans ?_ (le_abs_self _)) (by rw [abs_one]; norm_num)
        linarith
      refine hij.trans (le_trans ?_ (mul_le_mul_of_nonneg_right h1 (by norm_num)))
      norm_num
    · rename_i e
      rw [Matrix.one_apply_ne e, sub_zero] at hij
      rw [abs_one]
      refine hij.trans ?_
      norm_num
  refine ⟨?_, fun h i j => ?_, suff⟩
  · rintro rfl
    exact suff fun i j => by rw [sub_self, abs_zero]; norm_num
  · have hij := h j i
    split at hij
    · rename_i e
      subst e
      rw [Matrix.one_apply_eq]
      refine hij.trans ?_
      have : min |A i i| |(1 : ℝ)| ≤ 1 := (min_le_right _ _).trans_eq abs_one
      exact (mul_le_mul_of_nonneg_right this (by norm_num)).trans_eq (one_mul _)
    · rename_i e
      rw [Matrix.one_apply_ne e, sub_zero]
      rwa [abs_one, one_mul] at hij

theorem fix_psd (epsilon : ℝ) (A : SqMat n) : fixIsPositiveSemiDefinite epsilon A = isPositiveSemiDefinite epsilon A.mn := by
  unfold fixIsPositiveSemiDefinite isPositiveSemiDefinite eigenvaluesM
  have : (Matrix.of fun i j : Fin A.mn.rows => ((A.mn.entry i j : ℝ) : ℂ)) = A.map (fun x => (x : ℂ)) := by
    ext i j
    exact congrArg Complex.ofReal (mn_entry A i j)
  rw [this]
  rfl

/-- C173. On a symmetric matrix, `IsPositiveSemiDefinite(epsilon)` is true exactly when `vᵀ A v > -epsilon |v|²` for every non-zero `v`. -/
theorem C173_semidefinite (epsilon : ℝ) (A : SqMat n) (h : A.IsSymm) :
    fixIsPositiveSemiDefinite epsilon A = true ↔ ∀ v : Fin n → ℝ, v ≠ 0 → -epsilon * ∑ i, v i ^ 2 < ∑ i, ∑ j, v i * A i j * v j := by
  rw [fix_psd, C85_symmetric epsilon A.mn (mn_symm h)]
  show (∀ v : Nat → ℝ, (∃ i < n, v i ≠ 0) → -epsilon * ∑ i ∈ range n, v i ^ 2 < ∑ i ∈ range n, ∑ j ∈ range n, v i * A.mn.entry i j * v j) ↔ _
  constructor
  · intro hall v hv
    obtain ⟨i, hi⟩ := Function.ne_iff.1 hv
    have := hall (seqOf v) ⟨i, i.2, by rw [seqOf_fin]; exact hi⟩
    rw [mn_quad, ← Fin.sum_univ_eq_sum_range (fun i => seqOf v i ^ 2)] at this
    simpa only [seqOf_fin] using this
  · rintro hall v ⟨i, hi, hv⟩
    have := hall (fun k => v k) (Function.ne_iff.2 ⟨⟨i, hi⟩, hv⟩)
    rw [mn_quad, ← Fin.sum_univ_eq_sum_range (fun i => v i ^ 2)]
    exact this

/-! ## Inverses -/

theorem det_cofactor3 (A : SqMat 3) : cofactor3 A 0 0 * A 0 0 + cofactor3 A 1 0 * A 1 0 + cofactor3 A 2 0 * A 2 0 = A.det := by
  rw [Matrix.det_fin_three]
  simp only [cofactor3, Fin.isValue, zero_add, show (1 : Fin 3) + 1 = 2 from rfl, show (1 : Fin 3) + 2 = 0 from rfl, show (2 : Fin 3) + 1 = 0 from rfl,
    show (2 : Fin 3) + 2 = 1 from rfl]
  ring

theorem cofactor3_mul (A : SqMat 3) : (Matrix.of fun i j => cofactor3 A j i : SqMat 3) * A = A.det • (1 : SqMat 3) := by
  rw [Matrix.det_fin_three]
  ext i j
  rw [Matrix.mul_apply, Fin.sum_univ_three]
  fin_cases i <;> fin_cases j <;>
    simp [cofactor3, show (1 : Fin 3) + 1 = 2 from rfl, show (1 : Fin 3) + 2 = 0 from rfl,
      show (2 : Fin 3) + 1 = 0 from rfl, show (2 : Fin 3) + 2 = 1 from rfl] <;> ring

/-- C173. `Matrix33::Inverse` and `GetInverse` of an invertible matrix, computed from the cofactors, are its inverse on both sides; of a singular matrix the
elements are not finite. -/
theorem C173_inverse33 (A : SqMat 3) :
    (A.det ≠ 0 → ∃ X, inverse33 A = .ok X ∧ getInverse33 A = .ok X ∧ X * A = 1 ∧ A * X = 1) ∧
    (A.det = 0 → inverse33 A = .nonfinite ∧ getInverse33 A = .nonfinite) := by
  constructor
  · intro h
    have e : inverse33 A = .ok (Matrix.of fun i j => cofactor3 A j i * (1 / A.det)) := by
      unfold inverse33
      simp only [det_cofactor3]
      rw [if_neg h]
    have hX : (Matrix.of fun i j => cofactor3 A j i * (1 / A.det) : SqMat 3) * A = 1 := by
      have : (Matrix.of fun i j => cofactor3 A j i * (1 / A.det) : SqMat 3) = (1 / A.det) • (Matrix.of fun i j => cofactor3 A j i : SqMat 3) := by
        ext i j
        exact mul_comm _ _
      rw [this, Matrix.smul_mul, cofactor3_mul, smul_smul, one_div_mul_cancel h, one_smul]
    refine ⟨_, e, ?_, hX, mul_eq_one_comm.1 hX⟩
    unfold getInverse33
    rw [e]
  · intro h
    have e : inverse33 A = .nonfinite := by
      unfold inverse33
      simp only [det_cofactor3]
      rw [if_pos h]
    refine ⟨e, ?_⟩
    unfold getInverse33
    rw [e]

/-- C173. The same of `Matrix66`, with Eigen's inverse. -/
theorem C173_inverse66 (inverse : Mat ℝ → Mat ℝ) (hI : IsInverse inverse) (A : SqMat 6) :
    (A.det ≠ 0 → ∃ X, inverse66 inverse A = .ok X ∧ getInverse66 inverse A = .ok X ∧ X * A = 1 ∧ A * X = 1) ∧
    (A.det = 0 → inverse66 inverse A = .nonfinite ∧ getInverse66 inverse A = .nonfinite) := by
  constructor
  · intro h
    have hX : packed (inverse A.mn) 6 * A = 1 := by
      have := (hI 6 A.mn ⟨rfl, rfl⟩ (by rwa [on_mn])).2
      rwa [on_mn] at this
    have e : inverse66 inverse A = .ok (packed (inverse A.mn) 6) := if_neg h
    refine ⟨_, e, ?_, hX, mul_eq_one_comm.1 hX⟩
    unfold getInverse66
    rw [e]
  · intro h
    have e : inverse66 inverse A = .nonfinite := if_pos h
    refine ⟨e, ?_⟩
    unfold getInverse66
    rw [e]

/-! ## Decompositions -/

/-- C173. `GetQRDecomposition`: `Q` is orthogonal, `R` is upper triangular, and `A = Q R`. -/
theorem C173_qr (E : EigenLA) (hE : Documented E) (B : Build) (A : SqMat n) :
    ∃ Q R, fixQR E B A = .ok (Q, R) ∧ Q.transpose * Q = 1 ∧ (∀ i j, j < i → R i j = 0) ∧ A = Q * R := by
  have ans := hE.qr n n A.mn ⟨rfl, rfl⟩ le_rfl
  have hone : (Matrix.of fun i j => if i = j then 1 else 0 : SqMat n) = 1 := by
    ext i j
    exact (Matrix.one_apply (i := i) (j := j)).symm
  unfold fixQR
  rw [cassert_true B _ le_rfl, Res.ok_bind]
  simp only [hone, Matrix.mul_one]
  refine ⟨_, _, rfl, ans.orth, fun i j h => if_neg (not_le.2 h), ?_⟩
  have := ans.prod
  rw [on_mn] at this
  refine this.trans ?_
  congr 1

/-- C173. `GetLUDecomposition`: `P` is a permutation matrix, `L` is lower triangular with ones on its diagonal, `U` is upper triangular, and `P A = L U`. -/
theorem C173_lu (E : EigenLA) (hE : Documented E) (B : Build) (A : SqMat n) :
    ∃ P L U, fixLU E B A = .ok (P, L, U) ∧ (∃ σ : Equiv.Perm (Fin n), P = σ.permMatrix ℝ) ∧ (∀ i j, i < j → L i j = 0) ∧ (∀ i, L i i = 1) ∧
      (∀ i j, j < i → U i j = 0) ∧ P * A = L * U := by
  have ans := hE.lu n A.mn ⟨rfl, rfl⟩
  unfold fixLU
  rw [cassert_true B _ (show fixIsSquare A = true from rfl), Res.ok_bind]
  refine ⟨_, _, _, rfl, ans.perm, fun i j h => ?_, fun i => ?_, fun i j h => if_neg (not_le.2 h), ?_⟩
  · show (if j < i then _ else (0 : ℝ)) + (if i = j then (1 : ℝ) else 0) = 0
    rw [if_neg h.le.not_gt, if_neg h.ne, add_zero]
  · show (if i < i then _ else (0 : ℝ)) + (if i = i then (1 : ℝ) else 0) = 1
    rw [if_neg (lt_irrefl i), if_pos rfl, zero_add]
  · have := ans.prod
    rw [on_mn] at this
    refine this.trans ?_
    congr 1
    ext i j
    show (if j < i then (E.lu A.mn).2.entry i j else if i = j then 1 else 0) = (if j < i then (E.lu A.mn).2.entry i j else (0 : ℝ)) + (if i = j then (1 : ℝ) else 0)
    rcases lt_trichotomy i j with h | rfl | h
    · rw [if_neg h.le.not_gt, if_neg h.le.not_gt, if_neg h.ne, add_zero]
    · simp
    · rw [if_pos h, if_pos h, if_neg h.ne', add_zero]

theorem fix_cholesky (B : Build) (A : SqMat n) :
    (∀ L', getCholesky B A.mn = .ok L' → fixCholesky A = .ok (on L' n n)) ∧ ((¬ ∃ L', getCholesky B A.mn = .ok L') → fixCholesky A = .throws .runtimeError) := by
  have e1 : getCholesky B A.mn = (match eigenLlt A.mn with
      | none => .throws .runtimeError
      | some a => .ok (lowerOf n a)) := by
    unfold getCholesky
    rw [show isSquare A.mn = true from decide_eq_true rfl, show isSymmetric B A.mn = .ok true from if_pos rfl]
    rfl
  have e2 : fixCholesky A = (match eigenLlt A.mn with
      | none => .throws .runtimeError
      | some a => .ok (Matrix.of fun i j => if j ≤ i then a i j else 0)) := rfl
  rw [e1, e2]
  rcases eigenLlt A.mn with _ | a
  · exact ⟨fun L' h => (by cases h), fun _ => rfl⟩
  · refine ⟨fun L' h => ?_, fun h => absurd ⟨_, rfl⟩ h⟩
    cases h
    rfl

/-- C173. `GetCholeskyDecomposition` of a symmetric matrix succeeds exactly when it is positive definite, and throws otherwise; the factor is lower triangular with
a positive diagonal, and `L Lᵀ = A`. -/
theorem C173_cholesky (A : SqMat n) (h : A.IsSymm) :
    ((∃ L, fixCholesky A = .ok L) ↔ ∀ v : Fin n → ℝ, v ≠ 0 → 0 < ∑ i, ∑ j, v i * A i j * v j) ∧
    ((¬ ∃ L, fixCholesky A = .ok L) → fixCholesky A = .throws .runtimeError) ∧
    ∀ L, fixCholesky A = .ok L → (∀ i j, i < j → L i j = 0) ∧ (∀ i, 0 < L i i) ∧ L * L.transpose = A := by
  obtain ⟨h1, h2⟩ := fix_cholesky ⟨true⟩ A
  have hp : PosDef A.mn ↔ ∀ v : Fin n → ℝ, v ≠ 0 → 0 < ∑ i, ∑ j, v i * A i j * v j := by
    show (∀ v : Nat → ℝ, (∃ i < n, v i ≠ 0) → 0 < ∑ i ∈ range n, ∑ j ∈ range n, v i * A.mn.entry i j * v j) ↔ _
    constructor
    · intro hall v hv
      obtain ⟨i, hi⟩ := Function.ne_iff.1 hv
      have := hall (seqOf v) ⟨i, i.2, by rw [seqOf_fin]; exact hi⟩
      rw [mn_quad] at this
      simpa only [seqOf_fin] using this
    · rintro hall v ⟨i, hi, hv⟩
      rw [mn_quad]
      exact hall (fun k => v k) (Function.ne_iff.2 ⟨⟨i, hi⟩, hv⟩)
  have iff := (C81_positive_definite ⟨true⟩ A.mn (mn_symm h)).1
  have back : (∃ L, fixCholesky A = .ok L) → ∃ L', getCholesky ⟨true⟩ A.mn = .ok L' := by
    rintro ⟨L, hL⟩
    by_contra hn
    rw [h2 hn] at hL
    cases hL
  refine ⟨⟨fun hex => hp.1 (iff.1 (back hex)), fun hv => ?_⟩, fun hn => h2 fun ⟨L', h'⟩ => hn ⟨_, h1 L' h'⟩, fun L hL => ?_⟩
  · obtain ⟨L', h'⟩ := iff.2 (hp.2 hv)
    exact ⟨_, h1 L' h'⟩
  · obtain ⟨L', h'⟩ := back ⟨L, hL⟩
    rw [h1 L' h'] at hL
    cases hL
    have fac := C81_factor ⟨true⟩ A.mn L' (mn_symm h) h'
    refine ⟨fun i j hij => fac.lower i j i.2 j.2 hij, fun i => fac.diag i i.2, ?_⟩
    ext i j
    rw [Matrix.mul_apply]
    refine (Fin.sum_univ_eq_sum_range (fun l => L'.entry i l * L'.entry j l) n).trans ?_
    exact (fac.prod i j i.2 j.2).trans (mn_entry A i j)

/-! ## Systems -/

theorem solves_iff {c : Nat} (A : SqMat n) (b : Matrix (Fin n) (Fin c) ℝ) (x : Mat ℝ) :
    Solves A.mn x (rhsMn b) ↔ A * on x n c = b := by
  have key : ∀ (i : Fin n) (k : Fin c), ∑ j ∈ range n, A.mn.entry i j * x.entry j k = (A * on x n c) i k := fun i k => by
    rw [Matrix.mul_apply, ← Fin.sum_univ_eq_sum_range (fun j => A.mn.entry i j * x.entry j k)]
    exact sum_congr rfl fun j _ => by rw [mn_entry]; rfl
  have hb : ∀ (i : Fin n) (k : Fin c), (rhsMn b).entry i k = b i k := fun i k => dif_pos (⟨i.2, k.2⟩ : (i : Nat) < n ∧ (k : Nat) < c)
  constructor
  · intro h
    ext i k
    exact (key i k).symm.trans ((h i k i.2 k.2).trans (hb i k))
  · intro h i k hi hk
    exact (key ⟨i, hi⟩ ⟨k, hk⟩).trans ((congrFun (congrFun h _) _).trans (hb ⟨i, hi⟩ ⟨k, hk⟩).symm)

/-- C173. `LUSolver` and `QRSolver` return a solution of `A x = b` when there is one; with an invertible matrix there is one, and it is the only one. -/
theorem C173_solvers (E : EigenLA) (hE : Documented E) {c : Nat} (A : SqMat n) (b : Matrix (Fin n) (Fin c) ℝ) :
    ((∃ x, A * x = b) → A * fixLUSolver E A b = b ∧ A * fixQRSolver E A b = b) ∧
    (A.det ≠ 0 → A * fixLUSolver E A b = b ∧ A * fixQRSolver E A b = b ∧ ∀ x, A * x = b → x = fixLUSolver E A b ∧ x = fixQRSolver E A b) := by
  have main : (∃ x, A * x = b) → A * fixLUSolver E A b = b ∧ A * fixQRSolver E A b = b := by
    rintro ⟨x, hx⟩
    have hex : ∃ x', Solves A.mn x' (rhsMn b) := by
      refine ⟨rhsMn x, (solves_iff A b _).2 ?_⟩
      have : on (rhsMn x) n c = x := by
        ext i j
        exact dif_pos (⟨i.2, j.2⟩ : (i : Nat) < n ∧ (j : Nat) < c)
      rw [this, hx]
    exact ⟨(solves_iff A b _).1 ((hE.luSolve A.mn (rhsMn b) rfl).solves hex), (solves_iff A b _).1 ((hE.qrSolve A.mn (rhsMn b) rfl).solves hex)⟩
  refine ⟨main, fun hdet => ?_⟩
  have hu : IsUnit A.det := isUnit_iff_ne_zero.2 hdet
  obtain ⟨h1, h2⟩ := main ⟨A⁻¹ * b, by rw [← Matrix.mul_assoc, Matrix.mul_nonsing_inv _ hu, Matrix.one_mul]⟩
  have inj : ∀ x y : Matrix (Fin n) (Fin c) ℝ, A * x = b → A * y = b → x = y := fun x y hx hy => by
    have := congrArg (fun z : Matrix (Fin n) (Fin c) ℝ => A⁻¹ * z) (hx.trans hy.symm)
    simpa only [← Matrix.mul_assoc, Matrix.nonsing_inv_mul _ hu, Matrix.one_mul] using this
  exact ⟨h1, h2, fun x hx => ⟨inj _ _ hx h1, inj _ _ hx h2⟩⟩

/-- C173, with `NDEBUG`: `LeastSquareSolver` returns, for every column, a vector whose residual is not larger than any other's. Missing: the default build, where
it stops the program (`C173_refuted`). -/
theorem C173_least_squares_partial (E : EigenLA) (hE : Documented E) {c : Nat} (A : SqMat n) (b : Matrix (Fin n) (Fin c) ℝ) :
    ∃ x, fixLeastSquareSolver E ⟨false⟩ A b = .ok x ∧ ∀ x' : Matrix (Fin n) (Fin c) ℝ, ∀ k, ∑ i, ((A * x) i k - b i k) ^ 2 ≤ ∑ i, ((A * x') i k - b i k) ^ 2 := by
  unfold fixLeastSquareSolver
  simp only []
  rw [cassert_ndebug, Res.ok_bind]
  refine ⟨_, rfl, fun x' k => ?_⟩
  have ans := (hE.svdSolve A.mn (rhsMn b) rfl).best (rhsMn x') k k.2
  have key : ∀ (x : Mat ℝ), sqResidual A.mn x (rhsMn b) k = ∑ i, ((A * on x n c) i k - b i k) ^ 2 := fun x => by
    unfold sqResidual
    refine (Fin.sum_univ_eq_sum_range (fun i => (∑ j ∈ range n, A.mn.entry i j * x.entry j k - (rhsMn b).entry i k) ^ 2) n).symm.trans ?_
    refine sum_congr rfl fun i _ => ?_
    congr 2
    · rw [Matrix.mul_apply, ← Fin.sum_univ_eq_sum_range (fun j => A.mn.entry i j * x.entry j k)]
      exact sum_congr rfl fun j _ => by rw [mn_entry]; rfl
    · exact dif_pos (⟨i.2, k.2⟩ : (i : Nat) < n ∧ (k : Nat) < c)
  rw [key, key] at ans
  have hx' : on (rhsMn x') n c = x' := by
    ext i j
    exact dif_pos (⟨i.2, j.2⟩ : (i : Nat) < n ∧ (j : Nat) < c)
  rwa [hx'] at ans

/-- C173 is false of `LeastSquareSolver` in the default build: whatever the matrix and the right-hand side, the program stops on an assertion of Eigen's. -/
theorem C173_refuted (E : EigenLA) {c : Nat} (A : SqMat n) (b : Matrix (Fin n) (Fin c) ℝ) : fixLeastSquareSolver E ⟨true⟩ A b = .aborts := by
  unfold fixLeastSquareSolver
  simp only []
  rw [cassert_false _ (by simp)]
  rfl

/-- C173 is false of `IsSymmetric` and of the check in `GetCholeskyDecomposition`: the matrix of ones on the diagonal and one more element in the upper corner is
not symmetric, is reported symmetric, and has a factor, which is that of the identity matrix. -/
theorem C173_refuted_symmetry (n : Nat) (hn : 2 ≤ n) :
    ∃ A : SqMat n, ¬ A.IsSymm ∧ fixIsSymmetric A = true ∧ ∃ L, fixCholesky A = .ok L ∧ L * L.transpose ≠ A := by
  obtain ⟨p, hp⟩ : ∃ p : Fin n, p = ⟨0, by omega⟩ := ⟨_, rfl⟩
  obtain ⟨q, hq⟩ : ∃ q : Fin n, q = ⟨1, by omega⟩ := ⟨_, rfl⟩
  have hpq : p ≠ q := by rw [hp, hq]; simp
  have hlt : p < q := by rw [hp, hq]; simp
  obtain ⟨A, hA⟩ : ∃ A : SqMat n, A = Matrix.of fun i j => if i = j then 1 else if i = p ∧ j = q then 1 else 0 := ⟨_, rfl⟩
  have ns : ¬ A.IsSymm := by
    intro h
    have := h.apply q p
    rw [hA] at this
    simp [hpq, hpq.symm] at this
  have hfac : ∃ L, fixCholesky A = .ok L := by
    by_contra hn'
    have hnone : eigenLlt A.mn = none := by
      by_contra hs
      obtain ⟨a, ha⟩ := Option.ne_none_iff_exists'.1 hs
      exact hn' ⟨_, by unfold fixCholesky fixIsSquare fixIsSymmetric; simp only [Bool.not_true, Bool.false_eq_true, if_false]; rw [ha]⟩
    have hiff := llt_iff n A.mn.entry
    have : ∃ c, lltN n A.mn.entry n = some c := hiff.2 (by
      rintro v ⟨i, hi, hv⟩
      have hs : ∀ i j, i < n → j < n → symLow A.mn.entry i j = if i = j then 1 else 0 := by
        intro i j hi hj
        unfold symLow
        have lower : ∀ i j, i < n → j < n → j ≤ i → A.mn.entry i j = if i = j then 1 else 0 := by
          intro i j hi hj hle
          rw [show A.mn.entry i j = A ⟨i, hi⟩ ⟨j, hj⟩ from dif_pos ⟨hi, hj⟩, hA]
          show (if (⟨i, hi⟩ : Fin n) = ⟨j, hj⟩ then (1 : ℝ) else if (⟨i, hi⟩ : Fin n) = p ∧ (⟨j, hj⟩ : Fin n) = q then 1 else 0) = _
          by_cases e : i = j
          · subst e
            simp
          · rw [if_neg (fun h => e (Fin.mk.inj_iff.1 h)), if_neg e, if_neg]
            rintro ⟨e1, e2⟩
            rw [hp, Fin.mk.injEq] at e1
            rw [hq, Fin.mk.injEq] at e2
            omega
        split
        · rename_i hle
          exact lower i j hi hj hle
        · rename_i hle
          rw [lower j i hj hi (by omega)]
          simp only [eq_comm]
      have e : ∑ i ∈ range n, ∑ j ∈ range n, v i * symLow A.mn.entry i j * v j = ∑ i ∈ range n, v i ^ 2 := by
        refine sum_congr rfl fun i hi => ?_
        rw [sum_eq_single i]
        · rw [hs i i (mem_range.1 hi) (mem_range.1 hi), if_pos rfl]; ring
        · intro j hj hne
          rw [hs i j (mem_range.1 hi) (mem_range.1 hj), if_neg (fun h => hne h.symm)]; ring
        · intro h; exact absurd hi h
      rw [e]
      exact sum_pos' (fun _ _ => sq_nonneg _) ⟨i, mem_range.2 hi, by positivity⟩)
    obtain ⟨c, hc⟩ := this
    rw [show eigenLlt A.mn = lltN n A.mn.entry n from rfl, hc] at hnone
    cases hnone
  obtain ⟨L, hL⟩ := hfac
  refine ⟨A, ns, rfl, L, hL, fun h => ns ?_⟩
  rw [← h]
  exact Matrix.isSymm_mul_transpose_self L

/-! ## The hypotheses are met -/

/-- C173: an invertible `Matrix33` that is not diagonal. -/
example : ∃ X, getInverse33 !![2, 1, 0; 0, 1, 3; 1, 0, 1] = .ok X ∧ X * !![2, 1, 0; 0, 1, 3; 1, 0, 1] = 1 := by
  obtain ⟨X, _, h, hX, _⟩ := (C173_inverse33 !![2, 1, 0; 0, 1, 3; 1, 0, 1]).1 (by rw [Matrix.det_fin_three]; simp; norm_num)
  exact ⟨X, h, hX⟩

/-- C173: a singular `Matrix33`. -/
example : getInverse33 !![1, 2, 3; 2, 4, 6; 0, 1, 1] = .nonfinite :=
  ((C173_inverse33 _).2 (by rw [Matrix.det_fin_three]; simp; norm_num)).2

/-- C173: a `Matrix66` other than the identity matrix, which Eigen can invert. -/
example : ∃ inverse, IsInverse inverse ∧ ∃ X, getInverse66 inverse (Matrix.diagonal fun i => (i : ℝ) + 1) = .ok X := by
  obtain ⟨inverse, hI⟩ := isInverse_exists
  obtain ⟨X, _, h, _⟩ := (C173_inverse66 inverse hI (Matrix.diagonal fun i => ((i : Fin 6) : ℝ) + 1)).1 (by
    rw [Matrix.det_diagonal]
    exact prod_ne_zero_iff.2 fun i _ => by positivity)
  exact ⟨inverse, hI, X, h⟩

/-- C173: decompositions and solutions of a `Matrix33` that is not triangular. -/
example : ∃ E, Documented E ∧ (∃ Q R, fixQR E ⟨true⟩ (!![2, 1, 0; 0, 1, 3; 1, 0, 1] : SqMat 3) = .ok (Q, R)) ∧
    (!![2, 1, 0; 0, 1, 3; 1, 0, 1] : SqMat 3) * fixLUSolver E (!![2, 1, 0; 0, 1, 3; 1, 0, 1] : SqMat 3) !![1; 2; 3] = (!![1; 2; 3] : Matrix (Fin 3) (Fin 1) ℝ) := by
  obtain ⟨E, hE⟩ := documented_exists
  obtain ⟨Q, R, h, _⟩ := C173_qr E hE ⟨true⟩ (!![2, 1, 0; 0, 1, 3; 1, 0, 1] : SqMat 3)
  exact ⟨E, hE, ⟨Q, R, h⟩, ((C173_solvers E hE (!![2, 1, 0; 0, 1, 3; 1, 0, 1] : SqMat 3) (!![1; 2; 3] : Matrix (Fin 3) (Fin 1) ℝ)).2 (by rw [Matrix.det_fin_three]; simp; norm_num)).1⟩

/-- C173: a `Matrix33` with a Cholesky factor. -/
example : ∃ L, fixCholesky (!![2, 1, 0; 1, 2, 0; 0, 0, 1] : SqMat 3) = .ok L := by
  refine (C173_cholesky _ ?_).1.2 fun v hv => ?_
  · ext i j
    fin_cases i <;> fin_cases j <;> rfl
  · have : 0 < v 0 ^ 2 + v 1 ^ 2 + (v 0 + v 1) ^ 2 + v 2 ^ 2 := by
      obtain ⟨i, hi⟩ := Function.ne_iff.1 hv
      have hi' : 0 < v i ^ 2 := by
        have : v i ≠ 0 := hi
        positivity
      fin_cases i <;> simp at hi' <;> nlinarith [sq_nonneg (v 0), sq_nonneg (v 1), sq_nonneg (v 2), sq_nonneg (v 0 + v 1)]
    simp only [Fin.sum_univ_three]
    simp
    nlinarith

end MU
