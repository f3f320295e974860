import Verif.Model.MatrixOps
import Verif.Spec.Matrix

/-!
# Inverse, eigenvalues, comparison of matrices
-/

namespace MU.Spec

open Finset

/-- What Eigen documents of `inverse()`: of an invertible square matrix it is the inverse. -/
def IsInverse (inverse : Mat ℝ → Mat ℝ) : Prop :=
  ∀ n A, HasSize A n n → (on A n n).det ≠ 0 → HasSize (inverse A) n n ∧ on (inverse A) n n * on A n n = 1

/-- What Eigen documents of `eigenvalues()`: the roots of the characteristic polynomial, each as often as its multiplicity, in no particular order. -/
def AreEigenvalues (eigenvalues : Mat ℝ → List ℂ) : Prop :=
  ∀ A : Mat ℝ, A.rows = A.cols → (eigenvalues A : Multiset ℂ) = (Matrix.of fun i j : Fin A.rows => (A.entry i j : ℂ)).charpoly.roots

/-- The norm of Frobenius. -/
noncomputable def matNorm (A : Mat ℝ) : ℝ := Real.sqrt (∑ i ∈ range A.rows, ∑ j ∈ range A.cols, A.entry i j ^ 2)

/-- The norm of the difference. -/
noncomputable def distance (A C : Mat ℝ) : ℝ := Real.sqrt (∑ i ∈ range A.rows, ∑ j ∈ range A.cols, (A.entry i j - C.entry i j) ^ 2)

/-- Every element times `t`. -/
def scaled (t : ℝ) (A : Mat ℝ) : Mat ℝ := ⟨A.rows, A.cols, fun i j => t * A.entry i j⟩

end MU.Spec
