import Verif.Model.Eigen
import Mathlib.Algebra.BigOperators.Group.Finset.Basic
import Mathlib.Analysis.SpecialFunctions.Sqrt
import Mathlib.Algebra.BigOperators.Intervals
import Mathlib.LinearAlgebra.Matrix.Charpoly.Basic
import Mathlib.Analysis.Complex.Basic
import Mathlib.Algebra.Polynomial.Roots

/-!
# Matrix.h: symmetry, decompositions, solvers

Exact real arithmetic on `Mat ℝ` (`Verif.Model.Eigen`). `llt()` is Eigen's: its unblocked algorithm is modelled (`internal::llt_inplace::unblocked` in
Eigen/src/Cholesky/LLT.h, not part of /repo); the blocked variant used for large sizes computes the same numbers in exact arithmetic. It reads the lower
triangle only. The other decompositions of Eigen are parameters of the model, `EigenLA`: the theorems hold for every answer that meets what Eigen documents
(`Verif.Spec.Matrix`), in exact arithmetic, so without Eigen's thresholds on small pivots and singular values. The classes `Matrix33` and `Matrix66` have the same bodies with fixed sizes (/repo/src/MathUtils/Matrix33.h, /repo/src/MathUtils/Matrix66.h).
-/

namespace MU

open Finset

/-- `MatrixMN::IsSquare`, /repo/src/MathUtils/Matrix.h:309-312. -/
def isSquare (A : Mat ℝ) : Bool := decide (A.rows = A.cols)

/-- `MatrixMN::IsSymmetric`, /repo/src/MathUtils/Matrix.h:287-297: the comparison with the adjoint is evaluated, which needs equal sizes, and its result is not
used. The same bodies are at /repo/src/MathUtils/Matrix33.h:280-290 and in /repo/src/MathUtils/Matrix66.h. -/
def isSymmetric (B : Build) (A : Mat ℝ) : Res Bool := do
  if A.rows = A.cols then return true else eigenFail B

/-- Column `k` of Eigen's in-place factorisation of the lower triangle of an `n × n` matrix; `none` when the pivot is not positive.
Called through /repo/src/MathUtils/Matrix.h:401, 416, 425. -/
noncomputable def lltStep (n k : Nat) (a : Nat → Nat → ℝ) : Option (Nat → Nat → ℝ) := by
  classical
  exact
    let x := a k k - ∑ l ∈ range k, a k l ^ 2
    if x ≤ 0 then none
    else
      let s := Real.sqrt x
      some (fun i j =>
        if j = k then
          if i = k then s
          else if k < i ∧ i < n then (a i k - ∑ l ∈ range k, a i l * a k l) / s
          else a i j
        else a i j)

/-- The first `k` columns. Called through /repo/src/MathUtils/Matrix.h:401, 416, 425. -/
noncomputable def lltN (n : Nat) (a : Nat → Nat → ℝ) : Nat → Option (Nat → Nat → ℝ)
  | 0 => some a
  | k + 1 => (lltN n a k).bind (lltStep n k)

/-- Eigen's `llt()`: `none` stands for `info() == NumericalIssue`. Called at /repo/src/MathUtils/Matrix.h:401, 416, 425. -/
noncomputable def eigenLlt (A : Mat ℝ) : Option (Nat → Nat → ℝ) := lltN A.rows A.entry A.rows

/-- Eigen's `matrixL()`: the lower triangle, zeros above. Called at /repo/src/MathUtils/Matrix.h:408. -/
noncomputable def lowerOf (n : Nat) (a : Nat → Nat → ℝ) : Mat ℝ := ⟨n, n, fun i j => if j ≤ i then a i j else 0⟩

/-- `MatrixMN::GetCholeskyDecomposition`: the new value of `L`. /repo/src/MathUtils/Matrix.h:388-410; /repo/src/MathUtils/Matrix33.h:357-379 and
/repo/src/MathUtils/Matrix66.h are the same. -/
noncomputable def getCholesky (B : Build) (A : Mat ℝ) : Res (Mat ℝ) :=
  if !isSquare A then .throws .runtimeError
  else do
    let sym ← isSymmetric B A
    if !sym then .throws .runtimeError
    else match eigenLlt A with
      | none => .throws .runtimeError
      | some a => .ok (lowerOf A.rows a)

/-- `MakeSymmetricFromUpper`: Eigen's `selfadjointView<Upper>`, which needs a square matrix. /repo/src/MathUtils/Matrix.h:186-191,
/repo/src/MathUtils/Matrix33.h:181-186, /repo/src/MathUtils/Matrix66.h:179-184 -/
def makeSymmetricFromUpper (B : Build) (A : Mat ℝ) : Res (Mat ℝ) :=
  if A.rows = A.cols then .ok ⟨A.rows, A.cols, fun i j => if i ≤ j then A.entry i j else A.entry j i⟩ else eigenFail B

/-- `MakeSymmetricFromLower`, /repo/src/MathUtils/Matrix.h:193-198, /repo/src/MathUtils/Matrix33.h:188-193, /repo/src/MathUtils/Matrix66.h:186-191. -/
def makeSymmetricFromLower (B : Build) (A : Mat ℝ) : Res (Mat ℝ) :=
  if A.rows = A.cols then .ok ⟨A.rows, A.cols, fun i j => if j ≤ i then A.entry i j else A.entry j i⟩ else eigenFail B

/-- `MatrixMN::Transpose`, in place, and the free function `Transpose`, /repo/src/MathUtils/Matrix.h:174-179, 265-268. -/
def transposeM (A : Mat ℝ) : Mat ℝ := ⟨A.cols, A.rows, fun i j => A.entry j i⟩

/-- `A * C`; a mismatch of sizes is an `eigen_assert`. E.g. /repo/src/MathUtils/Matrix.h:467, 522, 527, 533. -/
def Mat.mulM (B : Build) (A C : Mat ℝ) : Res (Mat ℝ) :=
  if A.cols = C.rows then .ok ⟨A.rows, C.cols, fun i j => ∑ l ∈ range A.cols, A.entry i l * C.entry l j⟩ else eigenFail B

/-- `A - C`. /repo/src/MathUtils/Matrix.h:527. -/
def Mat.subM (B : Build) (A C : Mat ℝ) : Res (Mat ℝ) :=
  if A.rows = C.rows ∧ A.cols = C.cols then .ok ⟨A.rows, A.cols, fun i j => A.entry i j - C.entry i j⟩ else eigenFail B

/-- `A + C`. E.g. /repo/src/MathUtils/Matrix.h:379. -/
def Mat.addM (B : Build) (A C : Mat ℝ) : Res (Mat ℝ) :=
  if A.rows = C.rows ∧ A.cols = C.cols then .ok ⟨A.rows, A.cols, fun i j => A.entry i j + C.entry i j⟩ else eigenFail B

/-- `A.block(i, j, r, c)`; a block that does not fit is an `eigen_assert`. /repo/src/MathUtils/Matrix.h:339, 357, 523-524. -/
def Mat.blockM (B : Build) (A : Mat ℝ) (i j r c : Nat) : Res (Mat ℝ) :=
  if i + r ≤ A.rows ∧ j + c ≤ A.cols then .ok ⟨r, c, fun i' j' => A.entry (i + i') (j + j')⟩ else eigenFail B

/-- `A.block(i, j, r, c) = C`. /repo/src/MathUtils/Matrix.h:531-532. -/
def Mat.setBlock (B : Build) (A : Mat ℝ) (i j r c : Nat) (C : Mat ℝ) : Res (Mat ℝ) :=
  if i + r ≤ A.rows ∧ j + c ≤ A.cols ∧ C.rows = r ∧ C.cols = c then
    .ok ⟨A.rows, A.cols, fun i' j' =>
      if i ≤ i' ∧ i' < i + r ∧ j ≤ j' ∧ j' < j + c then C.entry (i' - i) (j' - j) else A.entry i' j'⟩
  else eigenFail B

/-- `Identity(r, c)`. /repo/src/MathUtils/Matrix.h:333, 379. -/
def Mat.identityM (r c : Nat) : Mat ℝ := ⟨r, c, fun i j => if i = j then 1 else 0⟩

/-- `triangularView<Eigen::Upper>()`. /repo/src/MathUtils/Matrix.h:338, 356, 383. -/
def Mat.upperM (A : Mat ℝ) : Mat ℝ := ⟨A.rows, A.cols, fun i j => if i ≤ j then A.entry i j else 0⟩

/-- `triangularView<Eigen::StrictlyLower>()`. /repo/src/MathUtils/Matrix.h:378. -/
def Mat.strictlyLowerM (A : Mat ℝ) : Mat ℝ := ⟨A.rows, A.cols, fun i j => if j < i then A.entry i j else 0⟩

/-- `s.asDiagonal()` of a column. /repo/src/MathUtils/Matrix.h:467. -/
def Mat.diagonalM (s : Mat ℝ) : Mat ℝ := ⟨s.rows, s.rows, fun i j => if i = j then s.entry i 0 else 0⟩

/-- What the library asks Eigen to compute. Called at /repo/src/MathUtils/Matrix.h:329, 348, 368, 435, 472, 477, 482. -/
structure EigenLA where
  /-- `householderQr()`: `householderQ()` and `matrixQR()` -/
  qr : Mat ℝ → Mat ℝ × Mat ℝ
  /-- `partialPivLu()`: `permutationP()` and `matrixLU()` -/
  lu : Mat ℝ → Mat ℝ × Mat ℝ
  /-- `jacobiSvd(ComputeThinU | ComputeThinV)`: `matrixU()`, `singularValues()`, `matrixV()` -/
  svd : Mat ℝ → Mat ℝ × Mat ℝ × Mat ℝ
  /-- `fullPivLu().solve(rhs)` -/
  luSolve : Mat ℝ → Mat ℝ → Mat ℝ
  /-- `fullPivHouseholderQr().solve(rhs)` -/
  qrSolve : Mat ℝ → Mat ℝ → Mat ℝ
  /-- `bdcSvd(ComputeThinU | ComputeThinV).solve(rhs)` -/
  svdSolve : Mat ℝ → Mat ℝ → Mat ℝ

/-- `MatrixMN::GetQRDecomposition`: the new values of `Q` and `R`. /repo/src/MathUtils/Matrix.h:324-341 -/
noncomputable def getQR (E : EigenLA) (B : Build) (A : Mat ℝ) : Res (Mat ℝ × Mat ℝ) := do
  cassert B (A.cols ≤ A.rows)
  let Q ← (E.qr A).1.mulM B (Mat.identityM A.rows A.cols)
  let R ← (E.qr A).2.upperM.blockM B 0 0 A.cols A.cols
  return (Q, R)

/-- `MatrixMN::GetFullQRDecomposition`, /repo/src/MathUtils/Matrix.h:343-359. -/
noncomputable def getFullQR (E : EigenLA) (B : Build) (A : Mat ℝ) : Res (Mat ℝ × Mat ℝ) := do
  cassert B (A.cols ≤ A.rows)
  let R ← (E.qr A).2.upperM.blockM B 0 0 A.cols A.cols
  return ((E.qr A).1, R)

/-- `MatrixMN::GetLUDecomposition`: the new values of `P`, `L`, `U`. Eigen's `partialPivLu` also asserts that the matrix is square.
/repo/src/MathUtils/Matrix.h:361-386 -/
noncomputable def getLU (E : EigenLA) (B : Build) (A : Mat ℝ) : Res (Mat ℝ × Mat ℝ × Mat ℝ) := do
  cassert B (isSquare A = true)
  if A.rows = A.cols then
    let L ← (E.lu A).2.strictlyLowerM.addM B (Mat.identityM A.rows A.cols)
    return ((E.lu A).1, L, (E.lu A).2.upperM)
  else eigenFail B

/-- `MatrixMN::GetSVDDecomposition`: the new values of `U`, `S`, `V`. /repo/src/MathUtils/Matrix.h:432-450 -/
noncomputable def getSVD (E : EigenLA) (A : Mat ℝ) : Mat ℝ × Mat ℝ × Mat ℝ := E.svd A

/-- The loop of `MatrixMN::GetPseudoInverse` on the singular values, /repo/src/MathUtils/Matrix.h:458-464. `1. / S(i)` is reached only with `S(i) > tol`; for
`tol ≥ 0` this is not a division by zero. -/
noncomputable def invertSingular (B : Build) (tol : ℝ) (S : Mat ℝ) : Res (Mat ℝ) :=
  forRange 0 S.rows (fun i T => do
    let s ← T.at' B i 0
    if tol < s then T.set B i 0 (1 / s) else T.set B i 0 0) S

/-- `MatrixMN::GetPseudoInverse`, /repo/src/MathUtils/Matrix.h:452-468; `Pinv`, /repo/src/MathUtils/Matrix.h:181-184, calls it. -/
noncomputable def getPseudoInverse (E : EigenLA) (B : Build) (tol : ℝ) (A : Mat ℝ) : Res (Mat ℝ) := do
  let S ← invertSingular B tol (getSVD E A).2.1
  let VS ← (getSVD E A).2.2.mulM B S.diagonalM
  VS.mulM B (transposeM (getSVD E A).1)

/-- `MatrixMN::LUSolver`, /repo/src/MathUtils/Matrix.h:470-473. -/
noncomputable def luSolver (E : EigenLA) (B : Build) (A rhs : Mat ℝ) : Res (Mat ℝ) :=
  if rhs.rows = A.rows then .ok (E.luSolve A rhs) else eigenFail B

/-- `MatrixMN::QRSolver`, /repo/src/MathUtils/Matrix.h:475-478. -/
noncomputable def qrSolver (E : EigenLA) (B : Build) (A rhs : Mat ℝ) : Res (Mat ℝ) :=
  if rhs.rows = A.rows then .ok (E.qrSolve A rhs) else eigenFail B

/-- `MatrixMN::LeastSquareSolver`, /repo/src/MathUtils/Matrix.h:480-483. -/
noncomputable def leastSquareSolver (E : EigenLA) (B : Build) (A b : Mat ℝ) : Res (Mat ℝ) :=
  if b.rows = A.rows then .ok (E.svdSolve A b) else eigenFail B

/-- `MatrixMN::LeastSquareSolverConstraint`: `A` is `*this`. The vector `vect_y_z` is created without a value and both of its blocks are written before it is
read: `garbage` stands for its first content. /repo/src/MathUtils/Matrix.h:485-537 -/
noncomputable def leastSquareSolverConstraint (E : EigenLA) (B : Build) (garbage : Nat → Nat → ℝ) (A b C d : Mat ℝ) : Res (Mat ℝ) := do
  let m := A.rows
  let n := A.cols
  let p := d.rows
  cassert B (p < n)
  cassert B (n < m)
  cassert B (b.rows = m)
  cassert B (C.cols = n)
  cassert B (C.rows = p)
  cassert B (b.cols = 1)
  cassert B (d.cols = 1)
  let Ct := transposeM C
  let QR ← getFullQR E B Ct
  let Rt := transposeM QR.2
  let y ← luSolver E B Rt d
  let AQ ← A.mulM B QR.1
  let A1 ← AQ.blockM B 0 0 m p
  let A2 ← AQ.blockM B 0 p m (n - p)
  let A1y ← A1.mulM B y
  let r ← b.subM B A1y
  let z ← leastSquareSolver E B A2 r
  let v ← (⟨n, 1, garbage⟩ : Mat ℝ).setBlock B 0 0 p 1 y
  let v ← v.setBlock B p 0 (n - p) 1 z
  QR.1.mulM B v

/-- Eigen's `eigenvalues()` of a square real matrix: the complex roots of the characteristic polynomial, with their multiplicities. Their order has no
meaning. Called at /repo/src/MathUtils/Matrix.h:284. -/
noncomputable def eigenvaluesM (A : Mat ℝ) : Multiset ℂ :=
  (Matrix.of fun i j : Fin A.rows => (A.entry i j : ℂ)).charpoly.roots

/-- `MatrixMN::IsPositiveSemiDefinite`, /repo/src/MathUtils/Matrix.h:282-285, /repo/src/MathUtils/Matrix33.h:275-278,
/repo/src/MathUtils/Matrix66.h:268-271. -/
noncomputable def isPositiveSemiDefinite (epsilon : ℝ) (A : Mat ℝ) : Bool := by
  classical
  exact decide (A.rows = A.cols) && decide (∀ z ∈ eigenvaluesM A, -epsilon < z.re)

end MU
