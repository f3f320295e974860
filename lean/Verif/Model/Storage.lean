import Verif.Model.Eigen
import Verif.Spec.Storage

/-!
# Vectors and matrices as storage: construction, `at`, `Set`, `SetNull`, `SetOnes`, `SetIdentity`, `Transpose`, `Reverse`

A coefficient is `some a`, or `none` when it is indeterminate: Eigen does not initialise the coefficients of `Matrix(rows, cols)`. Reading an indeterminate
coefficient is undefined behaviour, and so is moving one (`Transpose`, `Reverse`; simplification: also when it is one that stays in place). A vector is a matrix of
one column. Exact numbers.
-/

namespace MU

open Spec

variable {K : Type} [Zero K] [One K]

/-- `setZero` of Eigen: `SetNull` of /repo/src/MathUtils/Vector2d.h:153-156, /repo/src/MathUtils/Vector3d.h:114-117, /repo/src/MathUtils/Vector6d.h:89-92,
/repo/src/MathUtils/VectorN.h:111-114, /repo/src/MathUtils/Matrix.h:229-232, /repo/src/MathUtils/Matrix33.h:222-225, /repo/src/MathUtils/Matrix66.h:215-218. -/
def storeNull (m : Mat (Option K)) : Mat (Option K) := ⟨m.rows, m.cols, fun _ _ => some 0⟩

/-- An object of `Eigen::Matrix` just made, with indeterminate coefficients. /repo/src/MathUtils/VectorN.h:26, /repo/src/MathUtils/Matrix.h:32 -/
def storeRaw (rows cols : Nat) : Mat (Option K) := ⟨rows, cols, fun _ _ => none⟩

/-- The constructors without values: `Vector2d()` /repo/src/MathUtils/Vector2d.h:130-133, `Vector3d()` /repo/src/MathUtils/Vector3d.h:104-107,
`Vector6d()` /repo/src/MathUtils/Vector6d.h:79-82, which call `SetNull`; `VectorN(nbRows)` (and `VectorN()`, size 0) /repo/src/MathUtils/VectorN.h:24-26,
`MatrixMN(nbRows, nbCols)` (and `MatrixMN()`, size 0) /repo/src/MathUtils/Matrix.h:30-32, `Matrix33()` /repo/src/MathUtils/Matrix33.h:31,
`Matrix66()` /repo/src/MathUtils/Matrix66.h:31, which do not. -/
def construct : Container → Mat (Option K)
  | .vector2 => storeNull (storeRaw 2 1)
  | .vector3 => storeNull (storeRaw 3 1)
  | .vector6 => storeNull (storeRaw 6 1)
  | .vectorN n => storeRaw n 1
  | .matrix33 => storeRaw 3 3
  | .matrix66 => storeRaw 6 6
  | .matrixMN m n => storeRaw m n

/-- `at(i)`, `at(i, j)`, reading. /repo/src/MathUtils/Vector2d.h:38, /repo/src/MathUtils/Vector3d.h:46, /repo/src/MathUtils/Vector6d.h:45,
/repo/src/MathUtils/VectorN.h:96-99, /repo/src/MathUtils/Matrix.h:207-211, /repo/src/MathUtils/Matrix33.h:202-205; of `Matrix66` only the version
that is not `const` has a body, /repo/src/MathUtils/Matrix66.h:200-203. -/
def storeAt (B : Build) (m : Mat (Option K)) (i j : Nat) : Res K := do
  match ← m.at' B i j with
  | some a => return a
  | none => .ub

/-- `at(i) = a`, `at(i, j) = a`. /repo/src/MathUtils/Vector2d.h:40, /repo/src/MathUtils/Vector3d.h:48, /repo/src/MathUtils/Vector6d.h:47,
/repo/src/MathUtils/VectorN.h:101-104, /repo/src/MathUtils/Matrix.h:213-217, /repo/src/MathUtils/Matrix33.h:207-210, /repo/src/MathUtils/Matrix66.h:200-203. -/
def storePut (B : Build) (m : Mat (Option K)) (i j : Nat) (a : K) : Res (Mat (Option K)) := m.set B i j (some a)

/-- `Set(x0, x1, ...)`: the elements are assigned one after the other, from index `k` on. /repo/src/MathUtils/Vector2d.h:140-144,
/repo/src/MathUtils/Vector3d.h:119-124, /repo/src/MathUtils/Vector6d.h:94-102; the constructors with values call it
(/repo/src/MathUtils/Vector2d.h:135-138, /repo/src/MathUtils/Vector3d.h:109-112, /repo/src/MathUtils/Vector6d.h:84-87). -/
def storeSet (B : Build) (m : Mat (Option K)) : Nat → List K → Res (Mat (Option K))
  | _, [] => .ok m
  | k, x :: xs => do
    let m ← storePut B m k 0 x
    storeSet B m (k + 1) xs

/-- Some coefficient of the object is indeterminate. Eigen's storage, /repo/src/MathUtils/Matrix.h:32. -/
def Indeterminate (m : Mat (Option K)) : Prop := ∃ i j, i < m.rows ∧ j < m.cols ∧ m.entry i j = none

open Classical in
/-- `Transpose()` in place: `transposeInPlace`. /repo/src/MathUtils/Matrix.h:265-268, /repo/src/MathUtils/Matrix33.h:258-261, /repo/src/MathUtils/Matrix66.h:251-254 -/
noncomputable def storeTranspose (m : Mat (Option K)) : Res (Mat (Option K)) :=
  if Indeterminate m then .ub else .ok ⟨m.cols, m.rows, fun i j => m.entry j i⟩

open Classical in
/-- `Reverse()`: `std::reverse`. /repo/src/MathUtils/VectorN.h:139-142 -/
noncomputable def storeReverse (m : Mat (Option K)) : Res (Mat (Option K)) :=
  if Indeterminate m then .ub else .ok ⟨m.rows, m.cols, fun i j => m.entry (m.rows - 1 - i) j⟩

/-- One operation. `SetOnes`: /repo/src/MathUtils/VectorN.h:116-119; `SetIdentity`: /repo/src/MathUtils/Matrix.h:245-248, /repo/src/MathUtils/Matrix33.h:238-241,
/repo/src/MathUtils/Matrix66.h:231-234. -/
noncomputable def storeStep (B : Build) (m : Mat (Option K)) : Touch K → Res (Mat (Option K))
  | .null => .ok (storeNull m)
  | .ones => .ok ⟨m.rows, m.cols, fun _ _ => some 1⟩
  | .identity => .ok ⟨m.rows, m.cols, fun i j => some (if i = j then 1 else 0)⟩
  | .all xs => storeSet B m 0 xs
  | .put i j a => storePut B m i j a
  | .transpose => storeTranspose m
  | .reverse => storeReverse m

/-- A program that makes an object and applies operations to it, the first one being the last of the list. Uses of the classes
/repo/src/MathUtils/VectorN.h:18-69, /repo/src/MathUtils/Matrix.h:19-165. -/
noncomputable def storeRun (B : Build) (c : Container) : List (Touch K) → Res (Mat (Option K))
  | [] => .ok (construct c)
  | t :: h => do
    let m ← storeRun B c h
    storeStep B m t

end MU
