import Verif.Model.Matrix
import Mathlib.Data.Matrix.Mul
import Mathlib.LinearAlgebra.Matrix.Permutation

/-!
# Matrices by their elements
-/

namespace MU.Spec

open Finset

/-- The matrix is square of size `n`. -/
def Square (A : Mat ℝ) (n : Nat) : Prop := A.rows = n ∧ A.cols = n

/-- The matrix is symmetric. -/
def Symmetric (A : Mat ℝ) : Prop := A.rows = A.cols ∧ ∀ i j, i < A.rows → j < A.rows → A.entry i j = A.entry j i

/-- The quadratic form of the matrix is positive. -/
def PosDef (A : Mat ℝ) : Prop :=
  ∀ v : Nat → ℝ, (∃ i < A.rows, v i ≠ 0) → 0 < ∑ i ∈ range A.rows, ∑ j ∈ range A.rows, v i * A.entry i j * v j

/-- `L` is a Cholesky factor of `A`: lower triangular with a positive diagonal, and `L Lᵀ = A`. -/
structure IsCholesky (A L : Mat ℝ) : Prop where
  size : L.rows = A.rows ∧ L.cols = A.rows
  lower : ∀ i j, i < A.rows → j < A.rows → i < j → L.entry i j = 0
  diag : ∀ i, i < A.rows → 0 < L.entry i i
  prod : ∀ i j, i < A.rows → j < A.rows → ∑ l ∈ range A.rows, L.entry i l * L.entry j l = A.entry i j

/-- The same matrix: same sizes, same elements. -/
def Same (A A' : Mat ℝ) : Prop := A.rows = A'.rows ∧ A.cols = A'.cols ∧ ∀ i j, i < A.rows → j < A.cols → A.entry i j = A'.entry i j

/-- The elements of a matrix, as a matrix of Mathlib. -/
def on (A : Mat ℝ) (m n : Nat) : Matrix (Fin m) (Fin n) ℝ := fun i j => A.entry i j

/-- The matrix has `m` rows and `n` columns. -/
def HasSize (A : Mat ℝ) (m n : Nat) : Prop := A.rows = m ∧ A.cols = n

/-! ## What Eigen documents -/

/-- An answer of `householderQr()` on an `m × n` matrix: `Q` is orthogonal and `A = Q R` where `R` is the upper triangle of `matrixQR()`. -/
structure QrAnswer (m n : Nat) (A Q M : Mat ℝ) : Prop where
  sizeQ : HasSize Q m m
  sizeM : HasSize M m n
  orth : (on Q m m).transpose * on Q m m = 1
  prod : on A m n = on Q m m * on M.upperM m n

/-- An answer of `partialPivLu()` on an `n × n` matrix: a permutation matrix `P`, and `L`, `U` packed in `M`, with `P A = L U`. -/
structure LuAnswer (n : Nat) (A P M : Mat ℝ) : Prop where
  sizeP : HasSize P n n
  sizeM : HasSize M n n
  perm : ∃ σ : Equiv.Perm (Fin n), on P n n = σ.permMatrix ℝ
  prod : on P n n * on A n n =
    (Matrix.of fun i j : Fin n => if j < i then M.entry i j else if i = j then 1 else 0) *
    (Matrix.of fun i j : Fin n => if i ≤ j then M.entry i j else 0)

/-- An answer of `jacobiSvd(ComputeThinU | ComputeThinV)` on an `m × n` matrix, with `k = min m n`: `U` and `V` have orthonormal columns, the singular values are
not negative and in decreasing order, and `A = U S Vᵀ`. -/
structure SvdAnswer (m n : Nat) (A U S V : Mat ℝ) : Prop where
  sizeU : HasSize U m (min m n)
  sizeS : HasSize S (min m n) 1
  sizeV : HasSize V n (min m n)
  orthU : (on U m (min m n)).transpose * on U m (min m n) = 1
  orthV : (on V n (min m n)).transpose * on V n (min m n) = 1
  nonneg : ∀ i, i < min m n → 0 ≤ S.entry i 0
  sorted : ∀ i j, i ≤ j → j < min m n → S.entry j 0 ≤ S.entry i 0
  prod : on A m n = on U m (min m n) * Matrix.diagonal (fun i : Fin (min m n) => S.entry i 0) * (on V n (min m n)).transpose

/-- `x` solves `A x = b`, one column at a time. -/
def Solves (A x b : Mat ℝ) : Prop :=
  ∀ i c, i < A.rows → c < b.cols → ∑ j ∈ range A.cols, A.entry i j * x.entry j c = b.entry i c

/-- An answer of `fullPivLu().solve(b)` or `fullPivHouseholderQr().solve(b)`: a solution, when there is one. -/
structure SolveAnswer (A b x : Mat ℝ) : Prop where
  size : HasSize x A.cols b.cols
  solves : (∃ x', Solves A x' b) → Solves A x b

/-- The square of the norm of column `c` of `A x - b`. -/
def sqResidual (A x b : Mat ℝ) (c : Nat) : ℝ := ∑ i ∈ range A.rows, (∑ j ∈ range A.cols, A.entry i j * x.entry j c - b.entry i c) ^ 2

/-- An answer of `bdcSvd().solve(b)`: a least-squares solution, column by column. -/
structure LeastSquaresAnswer (A b x : Mat ℝ) : Prop where
  size : HasSize x A.cols b.cols
  best : ∀ x' c, c < b.cols → sqResidual A x b c ≤ sqResidual A x' b c

/-- Everything the library relies on. `Verif.Props.Documented` shows that this can be met. -/
structure Documented (E : EigenLA) : Prop where
  qr : ∀ m n A, HasSize A m n → n ≤ m → QrAnswer m n A (E.qr A).1 (E.qr A).2
  lu : ∀ n A, HasSize A n n → LuAnswer n A (E.lu A).1 (E.lu A).2
  svd : ∀ m n A, HasSize A m n → SvdAnswer m n A (E.svd A).1 (E.svd A).2.1 (E.svd A).2.2
  luSolve : ∀ A b, b.rows = A.rows → SolveAnswer A b (E.luSolve A b)
  qrSolve : ∀ A b, b.rows = A.rows → SolveAnswer A b (E.qrSolve A b)
  svdSolve : ∀ A b, b.rows = A.rows → LeastSquaresAnswer A b (E.svdSolve A b)

/-! ## The properties -/

/-- The four conditions of Moore and Penrose. -/
structure MoorePenrose {m n : Nat} (A : Matrix (Fin m) (Fin n) ℝ) (X : Matrix (Fin n) (Fin m) ℝ) : Prop where
  axa : A * X * A = A
  xax : X * A * X = X
  ax : (A * X).transpose = A * X
  xa : (X * A).transpose = X * A

/-- The rows of the `p × n` matrix are linearly independent. -/
def FullRowRank (C : Mat ℝ) : Prop :=
  ∀ w : Nat → ℝ, (∀ j, j < C.cols → ∑ i ∈ range C.rows, w i * C.entry i j = 0) → ∀ i, i < C.rows → w i = 0

end MU.Spec
