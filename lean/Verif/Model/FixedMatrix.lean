import Verif.Model.MatrixOps
import Mathlib.Data.Matrix.Mul

/-!
# Matrix33.h and Matrix66.h

The two headers have the same text but for the size `n`, 3 or 6, and the class of Eigen they derive from, `Eigen::Matrix<Scalar, n, n>`: a matrix whose
size is fixed when the program is compiled. Exact real arithmetic. Eigen's decompositions are the same templates as for `MatrixMN` (`EigenLA`,
`eigenLlt`), asked about the `n × n` elements, with two differences that come from the fixed size, in Eigen 3.3.7 (/repo/cmake/URL.conf.cmake:6):

* `inverse()` of a 3 by 3 matrix is computed from the cofactors (`compute_inverse_size3_helper` in Eigen/src/LU/InverseImpl.h), while other sizes
  use `partialPivLu`;
* a singular value decomposition with thin `U` and `V` has an `eigen_assert` that the number of columns is dynamic (`SVDBase::allocate` in
  Eigen/src/SVD/SVDBase.h).

`GetSVDDecomposition`, `GetPseudoInverse`, `Pinv`, `Eigenvalues` (a column is assigned to an `n × n` matrix) and `IsOrthogonal` do not compile when used.
-/

namespace MU

open Finset

/-- A `Matrix33` (`n = 3`) or `Matrix66` (`n = 6`), /repo/src/MathUtils/Matrix33.h:20-21, 28-31, /repo/src/MathUtils/Matrix66.h:20-21, 28-31; copies from
Eigen expressions /repo/src/MathUtils/Matrix33.h:113-121, /repo/src/MathUtils/Matrix66.h:111-119. -/
abbrev SqMat (n : Nat) := Matrix (Fin n) (Fin n) ℝ

variable {n : Nat}

/-- The elements as Eigen's templates are given them. E.g. /repo/src/MathUtils/Matrix33.h:316, 338, 369. -/
noncomputable def SqMat.mn (A : SqMat n) : Mat ℝ := ⟨n, n, fun i j => if h : i < n ∧ j < n then A ⟨i, h.1⟩ ⟨j, h.2⟩ else 0⟩

/-- `at(irow, icol)`, reading. /repo/src/MathUtils/Matrix33.h:38, 202-205; the same function of `Matrix66`, /repo/src/MathUtils/Matrix66.h:36, has no body
and its other version, /repo/src/MathUtils/Matrix66.h:38, 200-203, reads the same. -/
def fixAt (B : Build) (A : SqMat n) (irow icol : Nat) : Res ℝ :=
  if h : irow < n ∧ icol < n then .ok (A ⟨irow, h.1⟩ ⟨icol, h.2⟩) else eigenFail B

/-- `at(irow, icol) = a`. /repo/src/MathUtils/Matrix33.h:40, 207-210, /repo/src/MathUtils/Matrix66.h:38, 200-203 -/
def fixPut (B : Build) (A : SqMat n) (irow icol : Nat) (a : ℝ) : Res (SqMat n) :=
  if irow < n ∧ icol < n then .ok (Matrix.of fun i j => if (i : Nat) = irow ∧ (j : Nat) = icol then a else A i j) else eigenFail B

/-- `GetNbRows`. /repo/src/MathUtils/Matrix33.h:70, 212-215, /repo/src/MathUtils/Matrix66.h:68, 205-208 -/
def fixNbRows (_ : SqMat n) : Nat := n

/-- `GetNbCols`. /repo/src/MathUtils/Matrix33.h:72, 217-220, /repo/src/MathUtils/Matrix66.h:70, 210-213 -/
def fixNbCols (_ : SqMat n) : Nat := n

/-- `SetNull`. /repo/src/MathUtils/Matrix33.h:46, 222-225, /repo/src/MathUtils/Matrix66.h:44, 215-218 -/
def fixSetNull (_ : SqMat n) : SqMat n := Matrix.of fun _ _ => 0

/-- `SetIdentity`. /repo/src/MathUtils/Matrix33.h:44, 238-241, /repo/src/MathUtils/Matrix66.h:42, 231-234 -/
def fixSetIdentity (_ : SqMat n) : SqMat n := Matrix.of fun i j => if i = j then 1 else 0

/-- `GetColumn`. /repo/src/MathUtils/Matrix33.h:53, 243-246, /repo/src/MathUtils/Matrix66.h:51, 236-239 -/
def fixColumn (B : Build) (A : SqMat n) (iCol : Nat) : Res (Fin n → ℝ) :=
  if h : iCol < n then .ok fun i => A i ⟨iCol, h⟩ else eigenFail B

/-- `GetRow`. /repo/src/MathUtils/Matrix33.h:55, 248-251, /repo/src/MathUtils/Matrix66.h:53, 241-244 -/
def fixRow (B : Build) (A : SqMat n) (iRow : Nat) : Res (Fin n → ℝ) :=
  if h : iRow < n then .ok fun j => A ⟨iRow, h⟩ j else eigenFail B

/-- `GetDiag`. /repo/src/MathUtils/Matrix33.h:57, 253-256, /repo/src/MathUtils/Matrix66.h:55, 246-249 -/
def fixDiag (A : SqMat n) : Fin n → ℝ := fun i => A i i

/-- `Transpose`, in place: `transposeInPlace` swaps every pair of elements. /repo/src/MathUtils/Matrix33.h:62, 258-261, /repo/src/MathUtils/Matrix66.h:60, 251-254 -/
def fixTransposeInPlace (A : SqMat n) : SqMat n := Matrix.of fun i j => A j i

/-- The function `Transpose`: a copy, transposed. /repo/src/MathUtils/Matrix33.h:169-174, /repo/src/MathUtils/Matrix66.h:167-172 -/
def fixTranspose (mat : SqMat n) : SqMat n :=
  let tMat := mat
  fixTransposeInPlace tMat

/-- `MakeSymmetricFromUpper`. /repo/src/MathUtils/Matrix33.h:181-186, /repo/src/MathUtils/Matrix66.h:179-184 -/
def fixSymmetricFromUpper (other : SqMat n) : SqMat n := Matrix.of fun i j => if i ≤ j then other i j else other j i

/-- `MakeSymmetricFromLower`. /repo/src/MathUtils/Matrix33.h:188-193, /repo/src/MathUtils/Matrix66.h:186-191 -/
def fixSymmetricFromLower (other : SqMat n) : SqMat n := Matrix.of fun i j => if j ≤ i then other i j else other j i

/-- `IsSquare`. /repo/src/MathUtils/Matrix33.h:80, 297-300, /repo/src/MathUtils/Matrix66.h:78, 290-293 -/
def fixIsSquare (_ : SqMat n) : Bool := true

/-- `IsSymmetric`: the comparison is evaluated and its result is not used. /repo/src/MathUtils/Matrix33.h:76, 280-290,
/repo/src/MathUtils/Matrix66.h:74, 273-283 -/
def fixIsSymmetric (_ : SqMat n) : Bool := true

open Classical in
/-- `IsIdentity`: Eigen's `isIdentity` with its own tolerance `1e-12`. /repo/src/MathUtils/Matrix33.h:78, 292-295,
/repo/src/MathUtils/Matrix66.h:76, 285-288 -/
noncomputable def fixIsIdentity (A : SqMat n) : Bool :=
  decide (∀ j i : Fin n, if i = j then |A i j - 1| ≤ min |A i j| |(1 : ℝ)| * (1 / 10 ^ 12) else |A i j| ≤ |(1 : ℝ)| * (1 / 10 ^ 12))

open Classical in
/-- `IsEqual`: Eigen's `isApprox`. /repo/src/MathUtils/Matrix33.h:84, 307-310, /repo/src/MathUtils/Matrix66.h:82, 300-303 -/
noncomputable def fixIsEqual (A other : SqMat n) (epsilon : ℝ) : Bool :=
  decide (∑ i, ∑ j, (A i j - other i j) ^ 2 ≤ epsilon * epsilon * min (∑ i, ∑ j, A i j ^ 2) (∑ i, ∑ j, other i j ^ 2))

open Classical in
/-- `IsPositiveSemiDefinite`. /repo/src/MathUtils/Matrix33.h:74, 275-278, /repo/src/MathUtils/Matrix66.h:72, 268-271 -/
noncomputable def fixIsPositiveSemiDefinite (epsilon : ℝ) (A : SqMat n) : Bool :=
  decide (n = n) && decide (∀ z ∈ (A.map (fun x => (x : ℂ))).charpoly.roots, -epsilon < z.re)

/-- The lower and upper parts of the matrix Eigen packs a factorisation in. /repo/src/MathUtils/Matrix33.h:325, 347, 352,
/repo/src/MathUtils/Matrix66.h:318, 340, 345 -/
noncomputable def packed (M : Mat ℝ) (n : Nat) : SqMat n := Matrix.of fun i j => M.entry i j

/-- `GetQRDecomposition`: the new values of `Q` and `R`. /repo/src/MathUtils/Matrix33.h:91, 312-328, /repo/src/MathUtils/Matrix66.h:89, 305-321 -/
noncomputable def fixQR (E : EigenLA) (B : Build) (A : SqMat n) : Res (SqMat n × SqMat n) := do
  cassert B (n ≤ n)
  let QR := E.qr A.mn
  let Qfull := packed QR.1 n
  let thinQ : SqMat n := Matrix.of fun i j => if i = j then 1 else 0
  let Q := Qfull * thinQ
  let Rfull : SqMat n := Matrix.of fun i j => if i ≤ j then packed QR.2 n i j else 0
  return (Q, Rfull)

/-- `GetLUDecomposition`: the new values of `P`, `L` and `U`. /repo/src/MathUtils/Matrix33.h:93, 330-355, /repo/src/MathUtils/Matrix66.h:91, 323-348 -/
noncomputable def fixLU (E : EigenLA) (B : Build) (A : SqMat n) : Res (SqMat n × SqMat n × SqMat n) := do
  cassert B (fixIsSquare A = true)
  let LU := E.lu A.mn
  let P := packed LU.1 n
  let Lpartial : SqMat n := Matrix.of fun i j => if j < i then packed LU.2 n i j else 0
  let L := Lpartial + Matrix.of fun i j => if i = j then 1 else 0
  let U : SqMat n := Matrix.of fun i j => if i ≤ j then packed LU.2 n i j else 0
  return (P, L, U)

/-- `GetCholeskyDecomposition`: the new value of `L`. /repo/src/MathUtils/Matrix33.h:95, 357-379, /repo/src/MathUtils/Matrix66.h:93, 350-372 -/
noncomputable def fixCholesky (A : SqMat n) : Res (SqMat n) :=
  if !fixIsSquare A then .throws .runtimeError
  else if !fixIsSymmetric A then .throws .runtimeError
  else match eigenLlt A.mn with
    | none => .throws .runtimeError
    | some a => .ok (Matrix.of fun i j => if j ≤ i then a i j else 0)

/-- Eigen's `cofactor_3x3<i, j>`, through /repo/src/MathUtils/Matrix33.h:265. -/
def cofactor3 (m : SqMat 3) (i j : Fin 3) : ℝ := m (i + 1) (j + 1) * m (i + 2) (j + 2) - m (i + 1) (j + 2) * m (i + 2) (j + 1)

open Classical in
/-- `Matrix33::Inverse`: Eigen multiplies the cofactors by the inverse of the determinant, which is computed from the cofactors of the first column.
/repo/src/MathUtils/Matrix33.h:102, 263-266 -/
noncomputable def inverse33 (A : SqMat 3) : Res (SqMat 3) :=
  let det := cofactor3 A 0 0 * A 0 0 + cofactor3 A 1 0 * A 1 0 + cofactor3 A 2 0 * A 2 0
  if det = 0 then .nonfinite
  else
    let invdet := 1 / det
    .ok (Matrix.of fun i j => cofactor3 A j i * invdet)

open Classical in
/-- `Matrix66::Inverse`: `inverse` is Eigen's, through `partialPivLu`; a singular matrix is divided by a pivot that is zero.
/repo/src/MathUtils/Matrix66.h:100, 256-259 -/
noncomputable def inverse66 (inverse : Mat ℝ → Mat ℝ) (A : SqMat 6) : Res (SqMat 6) :=
  if A.det = 0 then .nonfinite else .ok (packed (inverse A.mn) 6)

/-- `Matrix33::GetInverse`. /repo/src/MathUtils/Matrix33.h:104, 268-273 -/
noncomputable def getInverse33 (A : SqMat 3) : Res (SqMat 3) := do
  let newMat := A
  let newMat ← inverse33 newMat
  return newMat

/-- `Matrix66::GetInverse`. /repo/src/MathUtils/Matrix66.h:102, 261-266 -/
noncomputable def getInverse66 (inverse : Mat ℝ → Mat ℝ) (A : SqMat 6) : Res (SqMat 6) := do
  let newMat := A
  let newMat ← inverse66 inverse newMat
  return newMat

/-- The right-hand side of a system, with `c` columns, as Eigen's templates are given it; its number of rows is checked when the program is compiled if it is
fixed. /repo/src/MathUtils/Matrix33.h:129, 135, 147 -/
noncomputable def rhsMn {c : Nat} (b : Matrix (Fin n) (Fin c) ℝ) : Mat ℝ := ⟨n, c, fun i j => if h : i < n ∧ j < c then b ⟨i, h.1⟩ ⟨j, h.2⟩ else 0⟩

/-- `LUSolver(rhs)`. /repo/src/MathUtils/Matrix33.h:127-131, /repo/src/MathUtils/Matrix66.h:125-129 -/
noncomputable def fixLUSolver (E : EigenLA) {c : Nat} (A : SqMat n) (rhs : Matrix (Fin n) (Fin c) ℝ) : Matrix (Fin n) (Fin c) ℝ :=
  Matrix.of fun i j => (E.luSolve A.mn (rhsMn rhs)).entry i j

/-- `QRSolver(rhs)`. /repo/src/MathUtils/Matrix33.h:133-137, /repo/src/MathUtils/Matrix66.h:131-135 -/
noncomputable def fixQRSolver (E : EigenLA) {c : Nat} (A : SqMat n) (rhs : Matrix (Fin n) (Fin c) ℝ) : Matrix (Fin n) (Fin c) ℝ :=
  Matrix.of fun i j => (E.qrSolve A.mn (rhsMn rhs)).entry i j

/-- `LeastSquareSolver(b)`: Eigen asserts that a matrix asked for thin `U` and `V` has a dynamic number of columns, which these classes do not have.
/repo/src/MathUtils/Matrix33.h:145-149, /repo/src/MathUtils/Matrix66.h:143-147 -/
noncomputable def fixLeastSquareSolver (E : EigenLA) (B : Build) {c : Nat} (A : SqMat n) (b : Matrix (Fin n) (Fin c) ℝ) : Res (Matrix (Fin n) (Fin c) ℝ) := do
  let ColsAtCompileTimeIsDynamic := false
  cassert B (ColsAtCompileTimeIsDynamic = true)
  return Matrix.of fun i j => (E.svdSolve A.mn (rhsMn b)).entry i j

end MU
