import Verif.Model.Matrix

/-!
# Matrix.h and the vector classes: elements, inverse, eigenvalues, comparisons, products of vectors

Exact real arithmetic. A `VectorN`, `Vector3d` or `Vector6d` is the list of its coefficients. `Matrix33` and `Matrix66` have the bodies of `MatrixMN` with
fixed sizes. `inverse()` and `eigenvalues()` are Eigen's and parameters of the model.
-/

namespace MU

open Finset

/-- `MatrixMN::at` (reading), /repo/src/MathUtils/Matrix.h:207-211. -/
def matAt (B : Build) (A : Mat ℝ) (irow icol : Nat) : Res ℝ := A.at' B irow icol

/-- `MatrixMN::at` (writing, `A.at(i, j) = a`), /repo/src/MathUtils/Matrix.h:213-217. -/
def matPut (B : Build) (A : Mat ℝ) (irow icol : Nat) (a : ℝ) : Res (Mat ℝ) := A.set B irow icol a

/-- `MatrixMN::GetNbRows`, /repo/src/MathUtils/Matrix.h:219-222. -/
def getNbRows (A : Mat ℝ) : Nat := A.rows

/-- `MatrixMN::GetNbCols`, /repo/src/MathUtils/Matrix.h:224-227. -/
def getNbCols (A : Mat ℝ) : Nat := A.cols

/-- `MatrixMN::SetNull`: Eigen's `setZero`. /repo/src/MathUtils/Matrix.h:229-232 -/
def setNullM (A : Mat ℝ) : Mat ℝ := ⟨A.rows, A.cols, fun _ _ => 0⟩

/-- `MatrixMN::SetIdentity`: Eigen's `setIdentity`, of any size. /repo/src/MathUtils/Matrix.h:245-248 -/
def setIdentityM (A : Mat ℝ) : Mat ℝ := Mat.identityM A.rows A.cols

/-- `MatrixMN::GetColumn`, /repo/src/MathUtils/Matrix.h:250-253. -/
def getColumn (B : Build) (A : Mat ℝ) (iCol : Nat) : Res (Mat ℝ) :=
  if iCol < A.cols then .ok ⟨A.rows, 1, fun i _ => A.entry i iCol⟩ else eigenFail B

/-- `MatrixMN::GetRow`, /repo/src/MathUtils/Matrix.h:255-258. -/
def getRow (B : Build) (A : Mat ℝ) (iRow : Nat) : Res (Mat ℝ) :=
  if iRow < A.rows then .ok ⟨1, A.cols, fun _ j => A.entry iRow j⟩ else eigenFail B

/-- `MatrixMN::GetDiag`: a column. /repo/src/MathUtils/Matrix.h:260-263 -/
def getDiag (A : Mat ℝ) : Mat ℝ := ⟨min A.rows A.cols, 1, fun i _ => A.entry i i⟩

open Classical in
/-- `MatrixMN::Inverse`: the new value of the object, where `inverse` is Eigen's, which asserts that the matrix is square; of a singular matrix some
coefficients are infinite or not numbers. /repo/src/MathUtils/Matrix.h:270-273, /repo/src/MathUtils/Matrix33.h:263-266 -/
noncomputable def inverseInPlace (inverse : Mat ℝ → Mat ℝ) (B : Build) (A : Mat ℝ) : Res (Mat ℝ) :=
  if A.rows = A.cols then
    if (Matrix.of fun i j : Fin A.rows => A.entry i j).det = 0 then .nonfinite else .ok (inverse A)
  else eigenFail B

/-- `MatrixMN::GetInverse`: the copy, inverted. /repo/src/MathUtils/Matrix.h:275-280, /repo/src/MathUtils/Matrix33.h:268-273 -/
noncomputable def getInverse (inverse : Mat ℝ → Mat ℝ) (B : Build) (A : Mat ℝ) : Res (Mat ℝ) := do
  let newMat := A
  let newMat ← inverseInPlace inverse B newMat
  return newMat

/-- `MatrixMN::Eigenvalues`: a column of complex numbers; `eigenvalues` is Eigen's, which asserts that the matrix is square.
/repo/src/MathUtils/Matrix.h:539-552 -/
noncomputable def getEigenvalues (eigenvalues : Mat ℝ → List ℂ) (B : Build) (A : Mat ℝ) : Res (List ℂ) := do
  cassert B (getNbRows A = getNbCols A)
  if A.rows = A.cols then return eigenvalues A else eigenFail B

/-- The sum of the squares of the elements: Eigen's `cwiseAbs2().sum()`, in `isApprox` called at /repo/src/MathUtils/Matrix.h:321. -/
noncomputable def sqNormM (A : Mat ℝ) : ℝ := ∑ i ∈ range A.rows, ∑ j ∈ range A.cols, A.entry i j ^ 2

open Classical in
/-- `MatrixMN::IsEqual`: Eigen's `isApprox`, whose subtraction asserts equal sizes. /repo/src/MathUtils/Matrix.h:319-322; /repo/src/MathUtils/Matrix33.h:307-310 is the same; the
vector classes (/repo/src/MathUtils/VectorN.h:144-147, /repo/src/MathUtils/Vector2d.h:158-161, /repo/src/MathUtils/Vector3d.h:126-129,
/repo/src/MathUtils/Vector6d.h:104-107) call the same on matrices of one column. -/
noncomputable def isEqualM (B : Build) (A other : Mat ℝ) (epsilon : ℝ) : Res Bool := do
  let D ← A.subM B other
  return decide (sqNormM D ≤ epsilon * epsilon * min (sqNormM A) (sqNormM other))

open Classical in
/-- `MatrixMN::IsIdentity(epsilon)`: Eigen's `isIdentity`, with `isApprox` and `isMuchSmallerThan` of numbers. Without an argument `epsilon` is Eigen's
`1e-12`. /repo/src/MathUtils/Matrix.h:299-307 -/
noncomputable def isIdentityM (A : Mat ℝ) (epsilon : ℝ) : Bool :=
  decide (∀ j, j < A.cols → ∀ i, i < A.rows →
    if i = j then |A.entry i j - 1| ≤ min |A.entry i j| |(1 : ℝ)| * epsilon else |A.entry i j| ≤ |(1 : ℝ)| * epsilon)

/-- `v1 * v2.transpose()`: `outer` of /repo/src/MathUtils/Vector3d.h:156-159, /repo/src/MathUtils/Vector6d.h:124-127. -/
def outerV (v1 v2 : List ℝ) : Mat ℝ := ⟨v1.length, v2.length, fun i j => v1.getD i 0 * v2.getD j 0⟩

/-- `outer(v)`, /repo/src/MathUtils/Vector3d.h:161-164, /repo/src/MathUtils/Vector6d.h:129-132. -/
def outerSelf (v : List ℝ) : Mat ℝ := outerV v v

/-- `VectorN::GetMatrixSquare` and the function of that name, /repo/src/MathUtils/VectorN.h:74-77, 129-132. -/
def getMatrixSquare (v : List ℝ) : Mat ℝ := outerV v v

/-- `v1.transpose() * v2`: `inner` of /repo/src/MathUtils/Vector3d.h:166-169, /repo/src/MathUtils/Vector6d.h:134-138. The classes have fixed sizes, so `v1` and
`v2` have the same one. -/
def innerV (v1 v2 : List ℝ) : ℝ := ∑ i ∈ range v1.length, v1.getD i 0 * v2.getD i 0

/-- `VectorN::GetDiagonalMatrix` and the function of that name, /repo/src/MathUtils/VectorN.h:84-87, 134-137. -/
def getDiagonalMatrix (v : List ℝ) : Mat ℝ := ⟨v.length, v.length, fun i j => if i = j then v.getD i 0 else 0⟩

/-- `Transpose` of a vector: a row. /repo/src/MathUtils/VectorN.h:79-82 -/
def transposeVector (v : List ℝ) : Mat ℝ := ⟨1, v.length, fun _ j => v.getD j 0⟩

end MU
