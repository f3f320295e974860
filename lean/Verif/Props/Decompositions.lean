import Verif.Lemmas.Constraint
import Verif.Props.Documented
import Mathlib.Tactic.NormNum
import Mathlib.Tactic.Positivity
import Mathlib.Tactic.FieldSimp

/-!
# C62, C63, C82, C83, C86: decompositions and solvers
-/

set_option linter.unusedSectionVars false

namespace MU

open Finset Spec

/-! ## QR -/

theorem on_identity {m n : Nat} (M : Mat ℝ) (h : n ≤ m) (hM : ∀ i j, i < m → j < n → M.entry i j = 0 ∨ i ≤ j) (Q : Matrix (Fin m) (Fin m) ℝ) :
    Q * on M m n = (Matrix.of fun (i : Fin m) (j : Fin n) => Q i (Fin.castLE h j)) * on M n n := by
  ext i j
  simp only [Matrix.mul_apply, Matrix.of_apply, on]
  have := Fin.sum_univ_eq_sum_range (fun l => if hl : l < m then Q i ⟨l, hl⟩ * M.entry l j else 0) m
  rw [show ∑ l : Fin m, Q i l * M.entry l j = ∑ l : Fin m, (if hl : (l : Nat) < m then Q i ⟨l, hl⟩ * M.entry l j else 0) from
    sum_congr rfl fun l _ => by rw [dif_pos l.2], this]
  have := Fin.sum_univ_eq_sum_range (fun l => if hl : l < m then Q i ⟨l, hl⟩ * M.entry l j else 0) n
  rw [show ∑ l : Fin n, Q i (Fin.castLE h l) * M.entry l j = ∑ l : Fin n, (if hl : (l : Nat) < m then Q i ⟨l, hl⟩ * M.entry l j else 0) from
    sum_congr rfl fun l _ => by rw [dif_pos (lt_of_lt_of_le l.2 h)]; rfl, this]
  symm
  apply sum_subset (range_mono h)
  intro l hl hl'
  have h1 : l < m := mem_range.1 hl
  have h2 : ¬ l < n := fun h => hl' (mem_range.2 h)
  rw [dif_pos h1]
  rcases hM l j h1 j.2 with h0 | h0
  · rw [h0, mul_zero]
  · have := j.2
    omega

theorem cols_orthonormal {m n : Nat} (h : n ≤ m) (Q : Matrix (Fin m) (Fin m) ℝ) (hQ : Q.transpose * Q = 1) :
    (Matrix.of fun (i : Fin m) (j : Fin n) => Q i (Fin.castLE h j)).transpose * (Matrix.of fun (i : Fin m) (j : Fin n) => Q i (Fin.castLE h j)) = 1 := by
  ext i j
  have := congrFun (congrFun hQ (Fin.castLE h i)) (Fin.castLE h j)
  simp only [Matrix.mul_apply, Matrix.transpose_apply, Matrix.of_apply] at this ⊢
  rw [this, Matrix.one_apply, Matrix.one_apply]
  simp [Fin.castLE_inj]

/-- C82. On a matrix with at least as many rows as columns, `GetQRDecomposition` returns a `Q` with orthonormal columns and the same shape, and a square upper
triangular `R`, with `A = Q R`. -/
theorem C82_thin (E : EigenLA) (hE : Documented E) (B : Build) (m n : Nat) (A : Mat ℝ) (hA : HasSize A m n) (h : n ≤ m) :
    ∃ Q R, getQR E B A = .ok (Q, R) ∧ HasSize Q m n ∧ HasSize R n n ∧ (on Q m n).transpose * on Q m n = 1 ∧
      (∀ i j, j < i → R.entry i j = 0) ∧ on A m n = on Q m n * on R n n := by
  obtain ⟨hr, hc⟩ := hA
  have ans := hE.qr m n A ⟨hr, hc⟩ h
  unfold getQR
  rw [cassert_true B _ (by omega), Res.ok_bind, mulM_ok (by rw [ans.sizeQ.2]; exact hr.symm), Res.ok_bind,
    blockM_ok ⟨by rw [hc]; show 0 + n ≤ (E.qr A).2.rows; rw [ans.sizeM.1]; omega, by rw [hc]; show 0 + n ≤ (E.qr A).2.cols; rw [ans.sizeM.2]; omega⟩, Res.ok_bind]
  refine ⟨_, _, rfl, ⟨ans.sizeQ.1, hc⟩, ⟨hc, hc⟩, ?_⟩
  have hQ : on ⟨(E.qr A).1.rows, (Mat.identityM A.rows A.cols).cols,
      fun i j => ∑ l ∈ range (E.qr A).1.cols, (E.qr A).1.entry i l * (Mat.identityM A.rows A.cols).entry l j⟩ m n
      = Matrix.of fun (i : Fin m) (j : Fin n) => on (E.qr A).1 m m i (Fin.castLE h j) := by
    ext i j
    show ∑ l ∈ range (E.qr A).1.cols, (E.qr A).1.entry i l * (if l = j then 1 else 0) = (E.qr A).1.entry i j
    rw [sum_eq_single (j : Nat)]
    · rw [if_pos rfl, mul_one]
    · intro l _ hl
      rw [if_neg hl, mul_zero]
    · intro hj
      rw [mem_range, ans.sizeQ.2] at hj
      have := j.2
      omega
  have hR : on ⟨A.cols, A.cols, fun i' j' => (E.qr A).2.upperM.entry (0 + i') (0 + j')⟩ n n = on (E.qr A).2.upperM n n := by
    ext i j
    show (E.qr A).2.upperM.entry (0 + i) (0 + j) = (E.qr A).2.upperM.entry i j
    rw [zero_add, zero_add]
  refine ⟨?_, fun i j hij => ?_, ?_⟩
  · rw [hQ]
    exact cols_orthonormal h _ ans.orth
  · show (if 0 + i ≤ 0 + j then _ else (0 : ℝ)) = 0
    rw [if_neg (by omega)]
  · rw [hQ, hR, ans.prod]
    refine on_identity _ h (fun i j _ _ => ?_) _
    by_cases hij : i ≤ j
    · exact Or.inr hij
    · exact Or.inl (if_neg hij)

/-- C82. `GetFullQRDecomposition` returns an orthogonal `Q` and a square upper triangular `R`, with `A = Q [R; 0]`. -/
theorem C82_full (E : EigenLA) (hE : Documented E) (B : Build) (m n : Nat) (A : Mat ℝ) (hA : HasSize A m n) (h : n ≤ m) :
    ∃ Q R, getFullQR E B A = .ok (Q, R) ∧ HasSize Q m m ∧ HasSize R n n ∧ (on Q m m).transpose * on Q m m = 1 ∧ on Q m m * (on Q m m).transpose = 1 ∧
      (∀ i j, j < i → R.entry i j = 0) ∧ on A m n = on Q m m * Matrix.of (fun (i : Fin m) (j : Fin n) => if (i : Nat) < n then R.entry i j else 0) := by
  obtain ⟨hr, hc⟩ := hA
  have ans := hE.qr m n A ⟨hr, hc⟩ h
  unfold getFullQR
  rw [cassert_true B _ (by omega), Res.ok_bind,
    blockM_ok ⟨by rw [hc]; show 0 + n ≤ (E.qr A).2.rows; rw [ans.sizeM.1]; omega, by rw [hc]; show 0 + n ≤ (E.qr A).2.cols; rw [ans.sizeM.2]; omega⟩, Res.ok_bind]
  refine ⟨_, _, rfl, ans.sizeQ, ⟨hc, hc⟩, ans.orth, mul_eq_one_comm.1 ans.orth, fun i j hij => ?_, ?_⟩
  · show (if 0 + i ≤ 0 + j then _ else (0 : ℝ)) = 0
    rw [if_neg (by omega)]
  · rw [ans.prod]
    congr 1
    ext i j
    show (if (i : Nat) ≤ j then (E.qr A).2.entry i j else 0) = if (i : Nat) < n then (if 0 + (i : Nat) ≤ 0 + j then (E.qr A).2.entry (0 + i) (0 + j) else 0) else 0
    simp only [zero_add]
    by_cases hi : (i : Nat) < n
    · rw [if_pos hi]
    · rw [if_neg hi, if_neg]
      have := j.2
      omega

/-- C82. With fewer rows than columns both functions stop on an assertion; with `NDEBUG` they read outside a matrix. -/
theorem C82_refused (E : EigenLA) (m n : Nat) (A : Mat ℝ) (hA : HasSize A m n) (h : m < n) :
    getQR E ⟨true⟩ A = .aborts ∧ getFullQR E ⟨true⟩ A = .aborts ∧ (HasSize (E.qr A).2 m n → getFullQR E ⟨false⟩ A = .ub) := by
  obtain ⟨hr, hc⟩ := hA
  refine ⟨?_, ?_, fun hM => ?_⟩
  · unfold getQR
    rw [cassert_false _ (by omega)]
    rfl
  · unfold getFullQR
    rw [cassert_false _ (by omega)]
    rfl
  · unfold getFullQR
    rw [cassert_ndebug, Res.ok_bind]
    unfold Mat.blockM
    rw [if_neg]
    · rfl
    · rintro ⟨h1, _⟩
      have h1 : 0 + A.cols ≤ (E.qr A).2.rows := h1
      rw [hM.1] at h1
      omega

/-- C82: the hypotheses are met: there are answers as documented, and for instance a matrix with three rows and two columns. -/
example : ∃ E, Documented E ∧ ∃ Q R, getQR E ⟨true⟩ ⟨3, 2, fun i j => (i : ℝ) + 2 * j⟩ = .ok (Q, R) := by
  obtain ⟨E, hE⟩ := documented_exists
  obtain ⟨Q, R, h, _⟩ := C82_thin E hE ⟨true⟩ 3 2 ⟨3, 2, fun i j => (i : ℝ) + 2 * j⟩ ⟨rfl, rfl⟩ (by decide)
  exact ⟨E, hE, Q, R, h⟩

/-! ## LU -/

/-- C83. `GetLUDecomposition` of a square matrix: `P` is a permutation matrix, `L` is lower triangular with ones on its diagonal, `U` is upper triangular, and
`P A = L U`. -/
theorem C83_lu (E : EigenLA) (hE : Documented E) (B : Build) (n : Nat) (A : Mat ℝ) (hA : HasSize A n n) :
    ∃ P L U, getLU E B A = .ok (P, L, U) ∧ HasSize P n n ∧ HasSize L n n ∧ HasSize U n n ∧ (∃ σ : Equiv.Perm (Fin n), on P n n = σ.permMatrix ℝ) ∧
      (∀ i j, i < j → L.entry i j = 0) ∧ (∀ i, L.entry i i = 1) ∧ (∀ i j, j < i → U.entry i j = 0) ∧ on P n n * on A n n = on L n n * on U n n := by
  obtain ⟨hr, hc⟩ := hA
  have ans := hE.lu n A ⟨hr, hc⟩
  unfold getLU
  rw [cassert_true B _ (by simp [isSquare, hr, hc]), Res.ok_bind, if_pos (by omega), addM_ok (show (E.lu A).2.strictlyLowerM.rows = (Mat.identityM A.rows A.cols).rows ∧
    (E.lu A).2.strictlyLowerM.cols = (Mat.identityM A.rows A.cols).cols from ⟨ans.sizeM.1.trans hr.symm, ans.sizeM.2.trans hc.symm⟩), Res.ok_bind]
  refine ⟨_, _, _, rfl, ans.sizeP, ⟨ans.sizeM.1, ans.sizeM.2⟩, ⟨ans.sizeM.1, ans.sizeM.2⟩, ans.perm, fun i j hij => ?_, fun i => ?_, fun i j hij => if_neg (by omega), ?_⟩
  · show (if j < i then (E.lu A).2.entry i j else 0) + (if i = j then (1 : ℝ) else 0) = 0
    rw [if_neg (by omega), if_neg (by omega), add_zero]
  · show (if i < i then (E.lu A).2.entry i i else 0) + (if i = i then (1 : ℝ) else 0) = 1
    rw [if_neg (lt_irrefl i), if_pos rfl, zero_add]
  · rw [ans.prod]
    congr 1
    ext i j
    show (if j < i then (E.lu A).2.entry i j else if i = j then 1 else 0) =
      (if (j : Nat) < i then (E.lu A).2.entry i j else 0) + (if (i : Nat) = j then (1 : ℝ) else 0)
    by_cases h1 : j < i
    · rw [if_pos h1, if_pos (show (j : Nat) < i from h1), if_neg (by have : (j : Nat) < i := h1; omega), add_zero]
    · rw [if_neg h1, if_neg (show ¬ (j : Nat) < i from h1), zero_add]
      simp only [Fin.ext_iff]

/-- C83. A matrix that is not square is refused by an assertion. -/
theorem C83_refused (E : EigenLA) (A : Mat ℝ) (h : A.rows ≠ A.cols) : getLU E ⟨true⟩ A = .aborts ∧ getLU E ⟨false⟩ A = .ub := by
  constructor
  · unfold getLU
    rw [cassert_false _ (by simp [isSquare, h])]
    rfl
  · unfold getLU
    rw [cassert_ndebug, Res.ok_bind, if_neg h]
    rfl

/-- C83: the hypotheses are met, by a matrix that needs a permutation. -/
example : ∃ E, Documented E ∧ ∃ P L U, getLU E ⟨true⟩ ⟨2, 2, fun i j => if i = j then 0 else 1⟩ = .ok (P, L, U) := by
  obtain ⟨E, hE⟩ := documented_exists
  obtain ⟨P, L, U, h, _⟩ := C83_lu E hE ⟨true⟩ 2 ⟨2, 2, fun i j => if i = j then 0 else 1⟩ ⟨rfl, rfl⟩
  exact ⟨E, hE, P, L, U, h⟩

/-! ## The pseudo-inverse -/

/-- C62. `GetPseudoInverse(tol)` returns the pseudo-inverse of the matrix in which the singular values not greater than `tol` are replaced by zero. -/
theorem C62_truncated (E : EigenLA) (hE : Documented E) (B : Build) (tol : ℝ) (ht : 0 ≤ tol) (m n : Nat) (A : Mat ℝ) (hA : HasSize A m n) :
    ∃ X, getPseudoInverse E B tol A = .ok X ∧ HasSize X n m ∧
      MoorePenrose (on (E.svd A).1 m (min m n) *
        Matrix.diagonal (fun i : Fin (min m n) => if tol < (E.svd A).2.1.entry i 0 then (E.svd A).2.1.entry i 0 else 0) *
        (on (E.svd A).2.2 n (min m n)).transpose) (on X n m) := by
  have ans := hE.svd m n A hA
  unfold getPseudoInverse getSVD
  rw [invertSingular_ok B tol _ ans.sizeS.2, Res.ok_bind, mulM_ok (by rw [ans.sizeV.2]; exact ans.sizeS.1.symm), Res.ok_bind,
    mulM_ok (by show (E.svd A).2.1.rows = (E.svd A).1.cols; rw [ans.sizeS.1, ans.sizeU.2])]
  refine ⟨_, rfl, ⟨ans.sizeV.1, ans.sizeU.1⟩, ?_⟩
  simp only [Mat.diagonalM, transposeM, ans.sizeV.2, ans.sizeS.1]
  generalize (E.svd A).2.1 = S at *
  generalize (E.svd A).2.2 = V at *
  generalize (E.svd A).1 = U at *
  rw [on_mul (fun i j => ∑ l ∈ range (min m n), V.entry i l * (if l = j then (if l < min m n ∧ True then (if tol < S.entry l 0 then 1 / S.entry l 0 else 0) else S.entry l 0) else 0))
    (fun i j => U.entry j i) n (min m n) m, on_mul (fun i j => V.entry i j)]
  have hD : on ⟨min m n, min m n, fun l j => if l = j then (if l < min m n ∧ True then (if tol < S.entry l 0 then 1 / S.entry l 0 else 0) else S.entry l 0) else 0⟩
      (min m n) (min m n) = Matrix.diagonal (fun i : Fin (min m n) => if tol < S.entry i 0 then 1 / S.entry i 0 else 0) := by
    ext i j
    show (if (i : Nat) = j then (if (i : Nat) < min m n ∧ True then (if tol < S.entry i 0 then 1 / S.entry i 0 else 0) else S.entry i 0) else 0) = _
    by_cases hij : i = j
    · subst hij
      rw [Matrix.diagonal_apply_eq, if_pos rfl, if_pos ⟨i.2, trivial⟩]
    · rw [Matrix.diagonal_apply_ne _ hij, if_neg (fun h => hij (Fin.ext h))]
  rw [hD]
  refine moorePenrose_of_svd (on U m (min m n)) (on V n (min m n)) _ _ ans.orthU ans.orthV (fun i => ?_) (fun i => ?_)
  · by_cases hs : tol < S.entry i 0
    · rw [if_pos hs, if_pos hs]
      have : S.entry i 0 ≠ 0 := by linarith
      field_simp
    · rw [if_neg hs, if_neg hs]
      ring
  · by_cases hs : tol < S.entry i 0
    · rw [if_pos hs, if_pos hs]
      have : S.entry i 0 ≠ 0 := by linarith
      field_simp
    · rw [if_neg hs, if_neg hs]
      ring

/-- C62. When every singular value is zero or greater than `tol`, the result is the pseudo-inverse of the matrix. -/
theorem C62_moore_penrose (E : EigenLA) (hE : Documented E) (B : Build) (tol : ℝ) (ht : 0 ≤ tol) (m n : Nat) (A : Mat ℝ) (hA : HasSize A m n)
    (hs : ∀ i, i < min m n → (E.svd A).2.1.entry i 0 = 0 ∨ tol < (E.svd A).2.1.entry i 0) :
    ∃ X, getPseudoInverse E B tol A = .ok X ∧ HasSize X n m ∧ MoorePenrose (on A m n) (on X n m) := by
  obtain ⟨X, h1, h2, h3⟩ := C62_truncated E hE B tol ht m n A hA
  refine ⟨X, h1, h2, ?_⟩
  rw [(hE.svd m n A hA).prod]
  have : (fun i : Fin (min m n) => if tol < (E.svd A).2.1.entry i 0 then (E.svd A).2.1.entry i 0 else 0) = fun i : Fin (min m n) => (E.svd A).2.1.entry i 0 := by
    funext i
    rcases hs i i.2 with h | h
    · rw [h, if_neg (not_lt.2 ht)]
    · rw [if_pos h]
  rw [this] at h3
  exact h3

/-- C62. With the tolerance zero the result is the pseudo-inverse, for every matrix. -/
theorem C62_zero_tolerance (E : EigenLA) (hE : Documented E) (B : Build) (m n : Nat) (A : Mat ℝ) (hA : HasSize A m n) :
    ∃ X, getPseudoInverse E B 0 A = .ok X ∧ HasSize X n m ∧ MoorePenrose (on A m n) (on X n m) :=
  C62_moore_penrose E hE B 0 le_rfl m n A hA fun i hi => by
    rcases ((hE.svd m n A hA).nonneg i hi).lt_or_eq with h | h
    · exact Or.inr h
    · exact Or.inl h.symm

/-- C62: the hypotheses are met, for instance by a singular matrix with two rows and three columns. -/
example : ∃ E, Documented E ∧ ∃ X, getPseudoInverse E ⟨true⟩ 0 ⟨2, 3, fun _ _ => 1⟩ = .ok X := by
  obtain ⟨E, hE⟩ := documented_exists
  obtain ⟨X, h, _⟩ := C62_zero_tolerance E hE ⟨true⟩ 2 3 ⟨2, 3, fun _ _ => 1⟩ ⟨rfl, rfl⟩
  exact ⟨E, hE, X, h⟩

/-- C62. The conditions determine the result. -/
theorem C62_unique (m n : Nat) (A : Matrix (Fin m) (Fin n) ℝ) (X Y : Matrix (Fin n) (Fin m) ℝ) (hX : MoorePenrose A X) (hY : MoorePenrose A Y) : X = Y :=
  moorePenrose_unique hX hY

/-! ## Least squares with constraints -/

/-- C63. `LeastSquareSolverConstraint(b, C, d)` returns an `x` that satisfies `C x = d`, and no other one that does is closer to solving `A x = b`, whenever the
rows of `C` are independent. -/
theorem C63_optimal (E : EigenLA) (hE : Documented E) (B : Build) (garbage : Nat → Nat → ℝ) (m n p : Nat) (hpn : p < n) (hnm : n < m) (A b C d : Mat ℝ)
    (hA : HasSize A m n) (hb : HasSize b m 1) (hC : HasSize C p n) (hd : HasSize d p 1) (hrank : FullRowRank C) :
    ∃ x, leastSquareSolverConstraint E B garbage A b C d = .ok x ∧ HasSize x n 1 ∧ Solves C x d ∧
      ∀ x', Solves C x' d → sqResidual A x b 0 ≤ sqResidual A x' b 0 := by
  obtain ⟨hAr, hAc⟩ := hA
  obtain ⟨hbr, hbc⟩ := hb
  obtain ⟨hCr, hCc⟩ := hC
  obtain ⟨hdr, hdc⟩ := hd
  have qr := hE.qr n p (transposeM C) ⟨hCc, hCr⟩ hpn.le
  obtain ⟨Q, R, hQR, hQs, hRs, hQo, hQo', hRu, hprod⟩ := C82_full E hE B n p (transposeM C) ⟨hCc, hCr⟩ hpn.le
  unfold leastSquareSolverConstraint
  simp only [hAr, hAc, hdr]
  rw [cassert_true B _ hpn, Res.ok_bind, cassert_true B _ hnm, Res.ok_bind, cassert_true B _ hbr, Res.ok_bind, cassert_true B _ hCc, Res.ok_bind,
    cassert_true B _ hCr, Res.ok_bind, cassert_true B _ hbc, Res.ok_bind, cassert_true B _ hdc, Res.ok_bind, hQR, Res.ok_bind]
  have ySol := hE.luSolve (transposeM R) d (by rw [hdr]; exact hRs.2.symm)
  unfold luSolver
  rw [if_pos (by rw [hdr]; exact hRs.2.symm), Res.ok_bind]
  generalize E.luSolve (transposeM R) d = y at ySol
  have hys : HasSize y p 1 := ⟨ySol.size.1.trans hRs.1, ySol.size.2.trans hdc⟩
  rw [mulM_ok (by rw [hAc, hQs.1]), Res.ok_bind, blockM_ok ⟨by show 0 + m ≤ A.rows; omega, by show 0 + p ≤ Q.cols; rw [hQs.2]; omega⟩, Res.ok_bind,
    blockM_ok ⟨by show 0 + m ≤ A.rows; omega, by show p + (n - p) ≤ Q.cols; rw [hQs.2]; omega⟩, Res.ok_bind, mulM_ok (by exact hys.1.symm), Res.ok_bind,
    subM_ok ⟨by exact hbr, by rw [hbc]; exact hys.2.symm⟩, Res.ok_bind]
  simp only [hAc, zero_add]
  unfold leastSquareSolver
  rw [if_pos (by exact hbr), Res.ok_bind]
  have zSol := hE.svdSolve ⟨m, n - p, fun i' j' => ∑ l ∈ range n, A.entry i' l * Q.entry l (p + j')⟩
    ⟨b.rows, b.cols, fun i j => b.entry i j - ∑ l ∈ range p, (∑ l_1 ∈ range n, A.entry i l_1 * Q.entry l_1 l) * y.entry l j⟩ hbr
  generalize E.svdSolve _ _ = z at zSol ⊢
  have hzs : HasSize z (n - p) 1 := ⟨zSol.size.1, zSol.size.2.trans hbc⟩
  rw [setBlock_ok ⟨by show 0 + p ≤ n; omega, by show 0 + 1 ≤ 1; omega, hys.1, hys.2⟩, Res.ok_bind,
    setBlock_ok ⟨by show p + (n - p) ≤ n; omega, by show 0 + 1 ≤ 1; omega, hzs.1, hzs.2⟩, Res.ok_bind, mulM_ok (by exact hQs.2)]
  refine ⟨_, rfl, ⟨hQs.1, rfl⟩, ?_⟩
  -- the coordinates of `x`
  obtain ⟨v, hv⟩ : ∃ v : Nat → ℝ, v = fun l => if l < p then y.entry l 0 else z.entry (l - p) 0 := ⟨_, rfl⟩
  obtain ⟨x, hx⟩ : ∃ x : Mat ℝ, x = ⟨n, 1, fun i _ => ∑ l ∈ range n, Q.entry i l * v l⟩ := ⟨_, rfl⟩
  have hsame : ∀ M : Mat ℝ, (∀ i, i < n → M.entry i 0 = x.entry i 0) →
      (Solves C x d → Solves C M d) ∧ sqResidual A M b 0 = sqResidual A x b 0 := by
    intro M hM
    constructor
    · intro h i c hi hc
      have hc0 : c = 0 := by omega
      subst hc0
      rw [← h i 0 hi hc]
      refine sum_congr rfl fun j hj => ?_
      rw [hM j (by rw [← hCc]; exact mem_range.1 hj)]
    · unfold sqResidual
      refine sum_congr rfl fun i _ => ?_
      rw [sum_congr rfl fun j hj => by rw [hM j (by rw [← hAc]; exact mem_range.1 hj)]]
  have goal : Solves C x d ∧ ∀ x', Solves C x' d → sqResidual A x b 0 ≤ sqResidual A x' b 0 := by
    have hCe : ∀ j i, j < p → i < n → C.entry j i = ∑ l ∈ range p, Q.entry i l * R.entry l j := by
      intro j i hj hi
      have := congrFun (congrFun hprod ⟨i, hi⟩) ⟨j, hj⟩
      simp only [Matrix.mul_apply, on, transposeM, Matrix.of_apply] at this
      rw [this, Fin.sum_univ_eq_sum_range (fun l => Q.entry i l * if l < p then R.entry l j else 0) n]
      symm
      rw [show ∑ l ∈ range p, Q.entry i l * R.entry l j = ∑ l ∈ range p, Q.entry i l * (if l < p then R.entry l j else 0) from
        sum_congr rfl fun l hl => by rw [if_pos (mem_range.1 hl)]]
      apply sum_subset (range_mono hpn.le)
      intro l _ hl
      rw [if_neg (fun h => hl (mem_range.2 h)), mul_zero]
    have o1 := fun l l' (hl : l < n) (hl' : l' < n) => orth_cols hQo hl hl'
    have o2 := fun l l' (hl : l < n) (hl' : l' < n) => orth_rows hQo hl hl'
    have hinj := constraint_injective (n := n) (p := p) (Q := Q.entry) (R := R.entry) (C := C.entry) hCe (by
      intro w hw
      have := hrank w
      rw [hCc, hCr] at this
      exact this hw)
    obtain ⟨⟨y0, hy0⟩, huniq⟩ := square_system (p := p) R.entry hinj (fun i => d.entry i 0)
    have hysol : ∀ i, i < p → ∑ j ∈ range p, R.entry j i * y.entry j 0 = d.entry i 0 := by
      have := ySol.solves ⟨⟨p, 1, fun j _ => y0 j⟩, fun i c hi hc => by
        have hi : i < R.cols := hi
        rw [hRs.2] at hi
        have hc0 : c = 0 := by omega
        subst hc0
        show ∑ j ∈ range R.rows, R.entry j i * y0 j = d.entry i 0
        rw [hRs.1]
        exact hy0 i hi⟩
      intro i hi
      have := this i 0 (by show i < R.cols; rw [hRs.2]; exact hi) (by omega)
      rw [← this]
      show _ = ∑ j ∈ range R.rows, R.entry j i * y.entry j 0
      rw [hRs.1]
    have hxe : ∀ j, j < n → x.entry j 0 = ∑ l ∈ range n, Q.entry j l * v l := by
      intro j _
      rw [hx]
    refine ⟨fun i c hi hc => ?_, fun x' hx' => ?_⟩
    · have hc0 : c = 0 := by omega
      subst hc0
      rw [hCc, ← hysol i (by omega)]
      rw [sum_congr rfl fun j hj => by rw [hxe j (mem_range.1 hj)]]
      rw [constraint_coords hpn.le o1 hCe v (show i < p by omega)]
      refine sum_congr rfl fun l hl => ?_
      rw [hv]
      show _ * (if l < p then _ else _) = _
      rw [if_pos (mem_range.1 hl)]
    · -- the coordinates of `x'`
      obtain ⟨v', hv'⟩ : ∃ v' : Nat → ℝ, v' = fun l => ∑ k ∈ range n, Q.entry k l * x'.entry k 0 := ⟨_, rfl⟩
      have hxe' : ∀ j, j < n → x'.entry j 0 = ∑ l ∈ range n, Q.entry j l * v' l := by
        intro j hj
        rw [hv']
        exact (coords_back o2 (fun k => x'.entry k 0) hj).symm
      have hfirst : ∀ l, l < p → v' l = v l := by
        intro l hl
        have hvl : v l = y.entry l 0 := by rw [hv]; exact if_pos hl
        rw [hvl]
        refine huniq v' (fun l => y.entry l 0) (fun i hi => ?_) hysol l hl
        have := hx' i 0 (by omega) (by omega)
        rw [hCc, sum_congr rfl fun j hj => by rw [hxe' j (mem_range.1 hj)], constraint_coords hpn.le o1 hCe v' hi] at this
        exact this
      have hres : ∀ (u : Mat ℝ) (w : Nat → ℝ), (∀ j, j < n → u.entry j 0 = ∑ l ∈ range n, Q.entry j l * w l) → (∀ l, l < p → w l = v l) →
          sqResidual A u b 0 = sqResidual ⟨m, n - p, fun i' j' => ∑ l ∈ range n, A.entry i' l * Q.entry l (p + j')⟩ ⟨n - p, 1, fun l _ => w (p + l)⟩
            ⟨b.rows, b.cols, fun i j => b.entry i j - ∑ l ∈ range p, (∑ l_1 ∈ range n, A.entry i l_1 * Q.entry l_1 l) * y.entry l j⟩ 0 := by
        intro u w hu hw
        unfold sqResidual
        show ∑ i ∈ range A.rows, _ = ∑ i ∈ range m, (∑ j ∈ range (n - p), (∑ l ∈ range n, A.entry i l * Q.entry l (p + j)) * w (p + j) -
          (b.entry i 0 - ∑ l ∈ range p, (∑ l_1 ∈ range n, A.entry i l_1 * Q.entry l_1 l) * y.entry l 0)) ^ 2
        rw [hAr, hAc]
        refine sum_congr rfl fun i _ => ?_
        rw [product_coords A.entry (fun j => u.entry j 0) w hu hpn.le i]
        rw [show ∑ l ∈ range p, (∑ j ∈ range n, A.entry i j * Q.entry j l) * w l = ∑ l ∈ range p, (∑ j ∈ range n, A.entry i j * Q.entry j l) * y.entry l 0 from
          sum_congr rfl fun l hl => by rw [hw l (mem_range.1 hl), hv]; show _ * (if l < p then _ else _) = _; rw [if_pos (mem_range.1 hl)]]
        ring
      have hz : sqResidual ⟨m, n - p, fun i' j' => ∑ l ∈ range n, A.entry i' l * Q.entry l (p + j')⟩ ⟨n - p, 1, fun l _ => v (p + l)⟩
            ⟨b.rows, b.cols, fun i j => b.entry i j - ∑ l ∈ range p, (∑ l_1 ∈ range n, A.entry i l_1 * Q.entry l_1 l) * y.entry l j⟩ 0
          = sqResidual ⟨m, n - p, fun i' j' => ∑ l ∈ range n, A.entry i' l * Q.entry l (p + j')⟩ z
            ⟨b.rows, b.cols, fun i j => b.entry i j - ∑ l ∈ range p, (∑ l_1 ∈ range n, A.entry i l_1 * Q.entry l_1 l) * y.entry l j⟩ 0 := by
        unfold sqResidual
        refine sum_congr rfl fun i _ => ?_
        congr 2
        refine sum_congr rfl fun l _ => ?_
        show _ * v (p + l) = _
        rw [hv]
        show _ * (if p + l < p then _ else z.entry (p + l - p) 0) = _
        rw [if_neg (by omega), Nat.add_sub_cancel_left]
      rw [hres x v hxe (fun _ _ => rfl), hres x' v' hxe' hfirst, hz]
      exact zSol.best _ 0 (by show 0 < b.cols; omega)
  have fin := fun M (hM : ∀ i, i < n → M.entry i 0 = x.entry i 0) =>
    (⟨(hsame M hM).1 goal.1, fun x' hx' => le_of_eq_of_le (hsame M hM).2 (goal.2 x' hx')⟩ :
      Solves C M d ∧ ∀ x', Solves C x' d → sqResidual A M b 0 ≤ sqResidual A x' b 0)
  refine fin _ fun i hi => ?_
  rw [hx]
  show ∑ l ∈ range Q.cols, _ = ∑ l ∈ range n, Q.entry i l * v l
  rw [hQs.2]
  refine sum_congr rfl fun l hl => ?_
  have hl := mem_range.1 hl
  rw [hv]
  by_cases hlp : l < p
  · simp [hlp]
  · have h1 : l < p + (n - p) := by omega
    simp [hlp, not_lt.1 hlp, h1]

/-- C63. Each of the requirements on the sizes is checked. -/
theorem C63_refused (E : EigenLA) (garbage : Nat → Nat → ℝ) (A b C d : Mat ℝ)
    (h : ¬ (d.rows < A.cols ∧ A.cols < A.rows ∧ b.rows = A.rows ∧ C.cols = A.cols ∧ C.rows = d.rows ∧ b.cols = 1 ∧ d.cols = 1)) :
    leastSquareSolverConstraint E ⟨true⟩ garbage A b C d = .aborts := by
  unfold leastSquareSolverConstraint
  simp only
  by_cases h1 : d.rows < A.cols
  · by_cases h2 : A.cols < A.rows
    · by_cases h3 : b.rows = A.rows
      · by_cases h4 : C.cols = A.cols
        · by_cases h5 : C.rows = d.rows
          · by_cases h6 : b.cols = 1
            · by_cases h7 : d.cols = 1
              · exact absurd ⟨h1, h2, h3, h4, h5, h6, h7⟩ h
              · rw [cassert_true _ _ h1, cassert_true _ _ h2, cassert_true _ _ h3, cassert_true _ _ h4, cassert_true _ _ h5, cassert_true _ _ h6, cassert_false _ h7]
                rfl
            · rw [cassert_true _ _ h1, cassert_true _ _ h2, cassert_true _ _ h3, cassert_true _ _ h4, cassert_true _ _ h5, cassert_false _ h6]
              rfl
          · rw [cassert_true _ _ h1, cassert_true _ _ h2, cassert_true _ _ h3, cassert_true _ _ h4, cassert_false _ h5]
            rfl
        · rw [cassert_true _ _ h1, cassert_true _ _ h2, cassert_true _ _ h3, cassert_false _ h4]
          rfl
      · rw [cassert_true _ _ h1, cassert_true _ _ h2, cassert_false _ h3]
        rfl
    · rw [cassert_true _ _ h1, cassert_false _ h2]
      rfl
  · rw [cassert_false _ h1]
    rfl

/-- C63: the hypotheses are met together. -/
example : ∃ E, Documented E ∧ ∃ x, leastSquareSolverConstraint E ⟨true⟩ (fun _ _ => 0) ⟨3, 2, fun i j => (i : ℝ) - j⟩ ⟨3, 1, fun i _ => i⟩
    ⟨1, 2, fun _ j => if j = 0 then 1 else 2⟩ ⟨1, 1, fun _ _ => 5⟩ = .ok x := by
  obtain ⟨E, hE⟩ := documented_exists
  obtain ⟨x, h, _⟩ := C63_optimal E hE ⟨true⟩ (fun _ _ => 0) 3 2 1 (by decide) (by decide) ⟨3, 2, fun i j => (i : ℝ) - j⟩ ⟨3, 1, fun i _ => i⟩
    ⟨1, 2, fun _ j => if j = 0 then 1 else 2⟩ ⟨1, 1, fun _ _ => 5⟩ ⟨rfl, rfl⟩ ⟨rfl, rfl⟩ ⟨rfl, rfl⟩ ⟨rfl, rfl⟩ (by
      intro w hw i hi
      have h0 := hw 0 (by decide)
      have hi : i = 0 := by have : i < 1 := hi; omega
      subst hi
      have e : ∑ i ∈ range 1, w i * (if (0 : Nat) = 0 then (1 : ℝ) else 2) = w 0 := by simp
      rw [← e]
      exact h0)
  exact ⟨E, hE, x, h⟩

/-! ## Solvers -/

/-- C86. `LUSolver` and `QRSolver` with an invertible matrix return the solution of `A x = b`, and there is no other. -/
theorem C86_exact (E : EigenLA) (hE : Documented E) (B : Build) (n c : Nat) (A b : Mat ℝ) (hA : HasSize A n n) (hb : HasSize b n c) (hdet : (on A n n).det ≠ 0) :
    ∃ x x', luSolver E B A b = .ok x ∧ qrSolver E B A b = .ok x' ∧ HasSize x n c ∧ Solves A x b ∧ Same x' x ∧
      ∀ u : Mat ℝ, HasSize u n c → Solves A u b → Same u x := by
  have hu : IsUnit (on A n n).det := isUnit_iff_ne_zero.2 hdet
  obtain ⟨hAr, hAc⟩ := hA
  obtain ⟨hbr, hbc⟩ := hb
  -- a solution
  have hex : ∃ u, Solves A u b := by
    refine ⟨⟨n, c, fun i j => if h : i < n ∧ j < c then ((on A n n)⁻¹ * on b n c) ⟨i, h.1⟩ ⟨j, h.2⟩ else 0⟩, fun i k hi hk => ?_⟩
    rw [hAr] at hi
    rw [hbc] at hk
    have : on A n n * ((on A n n)⁻¹ * on b n c) = on b n c := by
      rw [← Matrix.mul_assoc, Matrix.mul_nonsing_inv _ hu, Matrix.one_mul]
    have := congrFun (congrFun this ⟨i, hi⟩) ⟨k, hk⟩
    rw [Matrix.mul_apply] at this
    rw [hAc, show b.entry i k = on b n c ⟨i, hi⟩ ⟨k, hk⟩ from rfl, ← this,
      ← Fin.sum_univ_eq_sum_range (fun j => A.entry i j * (if h : j < n ∧ k < c then ((on A n n)⁻¹ * on b n c) ⟨j, h.1⟩ ⟨k, h.2⟩ else 0)) n]
    refine sum_congr rfl fun j _ => ?_
    rw [dif_pos ⟨j.2, hk⟩]
    rfl
  -- only one
  have huniq : ∀ u u' : Mat ℝ, Solves A u b → Solves A u' b → ∀ i k, i < n → k < c → u.entry i k = u'.entry i k := by
    intro u u' h h' i k hi hk
    have e : on A n n * on u n c = on A n n * on u' n c := by
      ext i j
      rw [Matrix.mul_apply, Matrix.mul_apply]
      have e1 := h i j (by rw [hAr]; exact i.2) (by rw [hbc]; exact j.2)
      have e2 := h' i j (by rw [hAr]; exact i.2) (by rw [hbc]; exact j.2)
      rw [hAc] at e1 e2
      rw [← Fin.sum_univ_eq_sum_range (fun l => A.entry i l * u.entry l j) n] at e1
      rw [← Fin.sum_univ_eq_sum_range (fun l => A.entry i l * u'.entry l j) n] at e2
      exact e1.trans e2.symm
    have e' : on u n c = on u' n c := by
      calc on u n c = (on A n n)⁻¹ * (on A n n * on u n c) := by rw [← Matrix.mul_assoc, Matrix.nonsing_inv_mul _ hu, Matrix.one_mul]
        _ = (on A n n)⁻¹ * (on A n n * on u' n c) := by rw [e]
        _ = on u' n c := by rw [← Matrix.mul_assoc, Matrix.nonsing_inv_mul _ hu, Matrix.one_mul]
    exact congrFun (congrFun e' ⟨i, hi⟩) ⟨k, hk⟩
  have l := hE.luSolve A b (by omega)
  have q := hE.qrSolve A b (by omega)
  refine ⟨E.luSolve A b, E.qrSolve A b, if_pos (by omega), if_pos (by omega), ⟨l.size.1.trans hAc, l.size.2.trans hbc⟩, l.solves hex,
    ⟨q.size.1.trans l.size.1.symm, q.size.2.trans l.size.2.symm, fun i j hi hj => ?_⟩, fun u hus hu' => ⟨?_, ?_, fun i j hi hj => ?_⟩⟩
  · exact huniq _ _ (q.solves hex) (l.solves hex) i j (by rw [q.size.1, hAc] at hi; exact hi) (by rw [q.size.2, hbc] at hj; exact hj)
  · rw [hus.1, l.size.1, hAc]
  · rw [hus.2, l.size.2, hbc]
  · exact huniq _ _ hu' (l.solves hex) i j (by rw [hus.1] at hi; exact hi) (by rw [hus.2] at hj; exact hj)

/-- C86. `LeastSquareSolver` returns a solution of the normal equations `Aᵀ (A x - b) = 0`. -/
theorem C86_least_squares (E : EigenLA) (hE : Documented E) (B : Build) (A b : Mat ℝ) (hb : b.rows = A.rows) :
    ∃ x, leastSquareSolver E B A b = .ok x ∧ HasSize x A.cols b.cols ∧ (∀ x' c, c < b.cols → sqResidual A x b c ≤ sqResidual A x' b c) ∧
      ∀ k c, k < A.cols → c < b.cols → ∑ i ∈ range A.rows, A.entry i k * (∑ j ∈ range A.cols, A.entry i j * x.entry j c - b.entry i c) = 0 := by
  have ans := hE.svdSolve A b hb
  refine ⟨E.svdSolve A b, if_pos hb, ans.size, ans.best, fun k c hk hc => ?_⟩
  generalize E.svdSolve A b = x at ans
  -- move `x` along the coordinate `k`
  obtain ⟨r, hr⟩ : ∃ r : Nat → ℝ, r = fun i => ∑ j ∈ range A.cols, A.entry i j * x.entry j c - b.entry i c := ⟨_, rfl⟩
  have hmove : ∀ t : ℝ, sqResidual A ⟨x.rows, x.cols, fun i j => if i = k ∧ j = c then x.entry i j + t else x.entry i j⟩ b c
      = ∑ i ∈ range A.rows, (r i + t * A.entry i k) ^ 2 := by
    intro t
    unfold sqResidual
    refine sum_congr rfl fun i _ => ?_
    congr 1
    have : ∀ j, A.entry i j * (if j = k ∧ c = c then x.entry j c + t else x.entry j c) = A.entry i j * x.entry j c + (if j = k then t * A.entry i j else 0) := by
      intro j
      by_cases h : j = k
      · rw [if_pos ⟨h, rfl⟩, if_pos h]
        ring
      · rw [if_neg (fun h' => h h'.1), if_neg h, add_zero]
    rw [sum_congr rfl fun j _ => this j, sum_add_distrib, sum_ite_eq' (range A.cols) k, if_pos (mem_range.2 hk), hr]
    ring
  have h0 : sqResidual A x b c = ∑ i ∈ range A.rows, r i ^ 2 := by
    unfold sqResidual
    rw [hr]
  have hexp : ∀ t : ℝ, ∑ i ∈ range A.rows, (r i + t * A.entry i k) ^ 2
      = ∑ i ∈ range A.rows, r i ^ 2 + 2 * t * ∑ i ∈ range A.rows, A.entry i k * r i + t ^ 2 * ∑ i ∈ range A.rows, A.entry i k ^ 2 := by
    intro t
    rw [mul_sum, mul_sum, ← sum_add_distrib, ← sum_add_distrib]
    exact sum_congr rfl fun i _ => by ring
  have hineq : ∀ t : ℝ, 0 ≤ 2 * t * ∑ i ∈ range A.rows, A.entry i k * r i + t ^ 2 * ∑ i ∈ range A.rows, A.entry i k ^ 2 := by
    intro t
    have := ans.best ⟨x.rows, x.cols, fun i j => if i = k ∧ j = c then x.entry i j + t else x.entry i j⟩ c hc
    rw [hmove, h0, hexp] at this
    linarith
  have hg : ∑ i ∈ range A.rows, A.entry i k * r i = 0 := by
    generalize ∑ i ∈ range A.rows, A.entry i k * r i = g at hineq ⊢
    have hN : 0 ≤ ∑ i ∈ range A.rows, A.entry i k ^ 2 := sum_nonneg fun i _ => sq_nonneg _
    generalize ∑ i ∈ range A.rows, A.entry i k ^ 2 = N at hineq hN
    have := hineq (-g / (N + 1))
    have hN1 : 0 < N + 1 := by linarith
    have e : 2 * (-g / (N + 1)) * g + (-g / (N + 1)) ^ 2 * N = -(g ^ 2 * (N + 2)) / (N + 1) ^ 2 := by
      field_simp
      ring
    rw [e] at this
    have h2 : 0 ≤ -(g ^ 2 * (N + 2)) := by
      by_contra hneg
      exact absurd this (not_le.2 (div_neg_of_neg_of_pos (not_le.1 hneg) (by positivity)))
    have h3 : g ^ 2 ≤ 0 := by nlinarith [sq_nonneg g]
    exact pow_eq_zero_iff (two_ne_zero) |>.1 (le_antisymm h3 (sq_nonneg g))
  rw [hr] at hg
  exact hg

/-- C86: the hypotheses are met, by `[[2, 1], [1, 1]]`. -/
example : ∃ E, Documented E ∧ (on ⟨2, 2, fun i j => if i = 0 ∧ j = 0 then 2 else 1⟩ 2 2).det ≠ 0 := by
  obtain ⟨E, hE⟩ := documented_exists
  refine ⟨E, hE, ?_⟩
  rw [Matrix.det_fin_two]
  simp [on]
  norm_num

/-- C86. The right-hand side must have as many rows as the matrix. -/
theorem C86_refused (E : EigenLA) (B : Build) (A b : Mat ℝ) (h : b.rows ≠ A.rows) :
    luSolver E B A b = eigenFail B ∧ qrSolver E B A b = eigenFail B ∧ leastSquareSolver E B A b = eigenFail B :=
  ⟨if_neg h, if_neg h, if_neg h⟩

end MU
