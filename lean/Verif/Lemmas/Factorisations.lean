import Verif.Lemmas.Matrix
import Mathlib.Analysis.InnerProductSpace.GramSchmidtOrtho
import Mathlib.Analysis.Matrix.Spectrum
import Mathlib.Data.Fin.Tuple.Sort

/-!
# The factorisations exist

For every matrix there are factors as Eigen documents them: the hypotheses made on Eigen (`Spec.Documented`) can be met.
-/

set_option linter.unusedSectionVars false

namespace MU

open Finset Matrix

/-- The matrix whose columns are the vectors of an orthonormal basis is orthogonal. -/
theorem basis_orthogonal {m : Nat} (b : OrthonormalBasis (Fin m) ℝ (EuclideanSpace ℝ (Fin m))) :
    (Matrix.of fun i j : Fin m => b j i)ᵀ * (Matrix.of fun i j : Fin m => b j i) = 1 := by
  ext i j
  have := b.inner_eq_ite i j
  rw [PiLp.inner_apply] at this
  rw [Matrix.mul_apply, Matrix.one_apply, ← this]
  refine sum_congr rfl fun k _ => ?_
  simp [mul_comm]

/-- Every matrix with at least as many rows as columns is an orthogonal matrix times an upper triangular one. -/
theorem exists_qr {m n : Nat} (h : n ≤ m) (A : Matrix (Fin m) (Fin n) ℝ) :
    ∃ (Q : Matrix (Fin m) (Fin m) ℝ) (R : Matrix (Fin m) (Fin n) ℝ), Qᵀ * Q = 1 ∧ (∀ (i : Fin m) (j : Fin n), (j : Nat) < i → R i j = 0) ∧ A = Q * R := by
  let f : Fin m → EuclideanSpace ℝ (Fin m) := fun j => WithLp.toLp 2 (fun i => if hj : (j : Nat) < n then A i ⟨j, hj⟩ else 0)
  have hcard : Module.finrank ℝ (EuclideanSpace ℝ (Fin m)) = Fintype.card (Fin m) := by simp
  let b := InnerProductSpace.gramSchmidtOrthonormalBasis hcard f
  have hQ := basis_orthogonal b
  generalize hQd : (Matrix.of fun i j : Fin m => b j i) = Q at hQ
  have hQ' : Q * Qᵀ = 1 := mul_eq_one_comm.1 hQ
  refine ⟨Q, Qᵀ * A, hQ, fun i j hij => ?_, by rw [← Matrix.mul_assoc, hQ', Matrix.one_mul]⟩
  have ht := InnerProductSpace.gramSchmidtOrthonormalBasis_inv_triangular hcard f (i := Fin.castLE h j) (j := i) (by show (j : Nat) < i; exact hij)
  rw [PiLp.inner_apply] at ht
  rw [Matrix.mul_apply, ← ht]
  refine sum_congr rfl fun k _ => ?_
  rw [← hQd]
  simp [f, b, mul_comm]

/-- Orthogonal columns are orthonormal ones with coefficients. -/
theorem exists_normalised {m n : Nat} (h : n ≤ m) (W : Matrix (Fin m) (Fin n) ℝ) (μ : Fin n → ℝ) (hW : Wᵀ * W = diagonal μ) :
    ∃ U : Matrix (Fin m) (Fin n) ℝ, Uᵀ * U = 1 ∧ W = U * diagonal (fun i => Real.sqrt (μ i)) := by
  have hdot : ∀ k l, ∑ i, W i k * W i l = if k = l then μ k else 0 := by
    intro k l
    have := congrFun (congrFun hW k) l
    rw [Matrix.mul_apply, Matrix.diagonal_apply] at this
    exact this
  have hμ : ∀ k, 0 ≤ μ k := by
    intro k
    have := hdot k k
    rw [if_pos rfl] at this
    rw [← this]
    exact sum_nonneg fun i _ => mul_self_nonneg _
  let g : Fin m → EuclideanSpace ℝ (Fin m) := fun j => WithLp.toLp 2 (fun i => if hj : (j : Nat) < n then W i ⟨j, hj⟩ / Real.sqrt (μ ⟨j, hj⟩) else 0)
  let s : Set (Fin m) := {j | ∃ hj : (j : Nat) < n, μ ⟨j, hj⟩ ≠ 0}
  have horth : Orthonormal ℝ (s.domRestrict g) := by
    rw [orthonormal_iff_ite]
    rintro ⟨j, hj, hμj⟩ ⟨l, hl, hμl⟩
    have e : inner ℝ (g j) (g l) = (∑ i, W i ⟨j, hj⟩ * W i ⟨l, hl⟩) / (Real.sqrt (μ ⟨j, hj⟩) * Real.sqrt (μ ⟨l, hl⟩)) := by
      rw [PiLp.inner_apply, sum_div]
      refine sum_congr rfl fun i _ => ?_
      simp only [g, hj, hl, dif_pos]
      show W i ⟨l, hl⟩ / _ * (W i ⟨j, hj⟩ / _) = _
      rw [div_mul_div_comm, mul_comm (W i ⟨l, hl⟩), mul_comm (Real.sqrt (μ ⟨l, hl⟩))]
    show inner ℝ (g j) (g l) = _
    rw [e, hdot]
    by_cases hjl : j = l
    · subst hjl
      rw [if_pos rfl, if_pos rfl, Real.mul_self_sqrt (hμ _), div_self hμj]
    · rw [if_neg (fun h => hjl (Fin.ext (by simpa using h))), if_neg (fun h => hjl (by simpa using h)), zero_div]
  obtain ⟨b, hb⟩ := horth.exists_orthonormalBasis_extension_of_card_eq (by simp)
  have hB := basis_orthogonal b
  refine ⟨Matrix.of fun i (j : Fin n) => b (Fin.castLE h j) i, ?_, ?_⟩
  · ext i j
    have := congrFun (congrFun hB (Fin.castLE h i)) (Fin.castLE h j)
    rw [Matrix.mul_apply, Matrix.one_apply] at this
    rw [Matrix.mul_apply, Matrix.one_apply]
    simp only [Matrix.transpose_apply, Matrix.of_apply] at this ⊢
    rw [this]
    simp [Fin.castLE_inj]
  · ext i k
    rw [Matrix.mul_diagonal]
    show W i k = b (Fin.castLE h k) i * Real.sqrt (μ k)
    by_cases hk : μ k = 0
    · have h0 := hdot k k
      rw [if_pos rfl, hk] at h0
      have := (sum_eq_zero_iff_of_nonneg (fun i _ => mul_self_nonneg (W i k))).1 h0 i (mem_univ i)
      rw [hk, Real.sqrt_zero, mul_zero]
      exact mul_self_eq_zero.1 this
    · rw [hb (Fin.castLE h k) ⟨k.2, hk⟩]
      have : Real.sqrt (μ k) ≠ 0 := fun h0 => hk ((Real.sqrt_eq_zero (hμ k)).1 h0)
      simp only [g, Fin.val_castLE, Fin.is_lt, dif_pos]
      show W i k = W i k / Real.sqrt (μ k) * Real.sqrt (μ k)
      rw [div_mul_cancel₀ _ this]

/-- The eigenvectors of a symmetric matrix, in decreasing order of the eigenvalues. -/
theorem exists_sorted_spectral {n : Nat} (S : Matrix (Fin n) (Fin n) ℝ) (hS : Sᵀ = S) :
    ∃ (V : Matrix (Fin n) (Fin n) ℝ) (μ : Fin n → ℝ), Vᵀ * V = 1 ∧ Vᵀ * (S * V) = diagonal μ ∧ ∀ i j, i ≤ j → μ j ≤ μ i := by
  have hH : S.IsHermitian := by
    rw [Matrix.IsHermitian, Matrix.conjTranspose_eq_transpose_of_trivial]
    exact hS
  let σ := Tuple.sort (fun i => -hH.eigenvalues i)
  have hb := basis_orthogonal (hH.eigenvectorBasis.reindex σ.symm)
  refine ⟨Matrix.of fun i j => (hH.eigenvectorBasis.reindex σ.symm) j i, fun i => hH.eigenvalues (σ i), hb, ?_, fun i j hij => ?_⟩
  · have e : S * (Matrix.of fun i j => (hH.eigenvectorBasis.reindex σ.symm) j i)
        = (Matrix.of fun i j => (hH.eigenvectorBasis.reindex σ.symm) j i) * diagonal (fun i => hH.eigenvalues (σ i)) := by
      ext i j
      rw [Matrix.mul_diagonal]
      have := congrFun (hH.mulVec_eigenvectorBasis (σ j)) i
      simp only [Matrix.mulVec, dotProduct] at this
      rw [Matrix.mul_apply]
      simp only [Matrix.of_apply, OrthonormalBasis.reindex_apply, Equiv.symm_symm]
      rw [this]
      simp [mul_comm]
    rw [e, ← Matrix.mul_assoc, hb, Matrix.one_mul]
  · have := Tuple.monotone_sort (fun i => -hH.eigenvalues i) hij
    simp only [Function.comp] at this
    show hH.eigenvalues (σ j) ≤ hH.eigenvalues (σ i)
    linarith

/-- The singular value decomposition of a matrix with at least as many rows as columns. -/
theorem exists_svd_tall {m n : Nat} (h : n ≤ m) (A : Matrix (Fin m) (Fin n) ℝ) :
    ∃ (U : Matrix (Fin m) (Fin n) ℝ) (s : Fin n → ℝ) (V : Matrix (Fin n) (Fin n) ℝ), Uᵀ * U = 1 ∧ Vᵀ * V = 1 ∧ (∀ i, 0 ≤ s i) ∧
      (∀ i j, i ≤ j → s j ≤ s i) ∧ A = U * diagonal s * Vᵀ := by
  obtain ⟨V, μ, hV, hd, hs⟩ := exists_sorted_spectral (Aᵀ * A) (by rw [Matrix.transpose_mul, Matrix.transpose_transpose])
  obtain ⟨U, hU, hAV⟩ := exists_normalised h (A * V) μ (by rw [Matrix.transpose_mul, Matrix.mul_assoc, ← Matrix.mul_assoc Aᵀ, hd])
  refine ⟨U, fun i => Real.sqrt (μ i), V, hU, hV, fun i => Real.sqrt_nonneg _, fun i j hij => Real.sqrt_le_sqrt (hs i j hij), ?_⟩
  rw [← hAV, Matrix.mul_assoc, mul_eq_one_comm.1 hV, Matrix.mul_one]

/-- The singular value decomposition. -/
theorem exists_svd {m n : Nat} (A : Matrix (Fin m) (Fin n) ℝ) :
    ∃ (U : Matrix (Fin m) (Fin (min m n)) ℝ) (s : Fin (min m n) → ℝ) (V : Matrix (Fin n) (Fin (min m n)) ℝ), Uᵀ * U = 1 ∧ Vᵀ * V = 1 ∧ (∀ i, 0 ≤ s i) ∧
      (∀ i j, i ≤ j → s j ≤ s i) ∧ A = U * diagonal s * Vᵀ := by
  rcases le_total n m with h | h
  · rw [min_eq_right h]
    exact exists_svd_tall h A
  · rw [min_eq_left h]
    obtain ⟨U, s, V, hU, hV, h0, hs, hA⟩ := exists_svd_tall h Aᵀ
    refine ⟨V, s, U, hV, hU, h0, hs, ?_⟩
    rw [← Matrix.transpose_transpose A, hA]
    simp only [Matrix.transpose_mul, Matrix.transpose_transpose, Matrix.diagonal_transpose, Matrix.mul_assoc]

/-- Every square matrix has, after a permutation of its rows, a lower triangular factor with ones on its diagonal and an upper triangular one. -/
theorem exists_lu (n : Nat) (A : Matrix (Fin n) (Fin n) ℝ) :
    ∃ (σ : Equiv.Perm (Fin n)) (L U : Matrix (Fin n) (Fin n) ℝ), (∀ i j, i < j → L i j = 0) ∧ (∀ i, L i i = 1) ∧ (∀ i j, j < i → U i j = 0) ∧
      ∀ i j, A (σ i) j = ∑ l, L i l * U l j := by
  induction n with
  | zero => exact ⟨1, 0, 0, fun i => i.elim0, fun i => i.elim0, fun i => i.elim0, fun i => i.elim0⟩
  | succ n ih =>
    -- the row of the pivot, and the column below it
    obtain ⟨r, c, hc⟩ : ∃ (r : Fin (n + 1)) (c : Fin (n + 1) → ℝ), ∀ i, A i 0 = c i * A r 0 := by
      by_cases h : ∃ r, A r 0 ≠ 0
      · obtain ⟨r, hr⟩ := h
        exact ⟨r, fun i => A i 0 / A r 0, fun i => (div_mul_cancel₀ _ hr).symm⟩
      · exact ⟨0, 0, fun i => by
          have := not_exists.1 h i
          rw [not_not] at this
          rw [this]
          simp⟩
    let τ : Equiv.Perm (Fin (n + 1)) := Equiv.swap 0 r
    have hτ : τ 0 = r := Equiv.swap_apply_left 0 r
    obtain ⟨σ, L, U, hL, hL1, hU, hLU⟩ := ih (fun i j => A (τ i.succ) j.succ - c (τ i.succ) * A r j.succ)
    let σ' : Equiv.Perm (Fin (n + 1)) := Equiv.Perm.decomposeFin.symm (0, σ)
    have h0 : σ' 0 = 0 := by simp [σ']
    have hs : ∀ i : Fin n, σ' i.succ = (σ i).succ := by
      intro i
      simp [σ']
    refine ⟨σ'.trans τ, fun i j => Fin.cases (Fin.cases 1 (fun _ => 0) j) (fun i => Fin.cases (c (τ (σ i).succ)) (fun j => L i j) j) i,
      fun i j => Fin.cases (A r j) (fun i => Fin.cases 0 (fun j => U i j) j) i, ?_, ?_, ?_, ?_⟩
    · intro i j hij
      induction i using Fin.cases with
      | zero =>
        induction j using Fin.cases with
        | zero => exact absurd hij (lt_irrefl _)
        | succ j => rfl
      | succ i =>
        induction j using Fin.cases with
        | zero => exact absurd hij (Fin.not_lt_zero _)
        | succ j => exact hL i j (Fin.succ_lt_succ_iff.1 hij)
    · intro i
      induction i using Fin.cases with
      | zero => rfl
      | succ i => exact hL1 i
    · intro i j hij
      induction i using Fin.cases with
      | zero => exact absurd hij (Fin.not_lt_zero _)
      | succ i =>
        induction j using Fin.cases with
        | zero => rfl
        | succ j => exact hU i j (Fin.succ_lt_succ_iff.1 hij)
    · intro i j
      rw [Fin.sum_univ_succ]
      induction i using Fin.cases with
      | zero =>
        show A (τ (σ' 0)) j = 1 * A r j + ∑ l : Fin n, 0 * _
        rw [h0, hτ]
        simp
      | succ i =>
        show A (τ (σ' i.succ)) j = c (τ (σ i).succ) * A r j + ∑ l : Fin n, L i l * (Fin.cases 0 (fun j => U l j) j : ℝ)
        rw [hs]
        induction j using Fin.cases with
        | zero =>
          show A (τ (σ i).succ) 0 = c (τ (σ i).succ) * A r 0 + ∑ l : Fin n, L i l * 0
          rw [hc (τ (σ i).succ)]
          simp
        | succ j =>
          show A (τ (σ i).succ) j.succ = c (τ (σ i).succ) * A r j.succ + ∑ l : Fin n, L i l * U l j
          rw [← hLU i j]
          ring

end MU
