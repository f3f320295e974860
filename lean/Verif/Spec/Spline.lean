import Verif.Model.Eigen
import Mathlib.Data.Real.Basic
import Mathlib.Algebra.BigOperators.Group.Finset.Basic

/-!
What the solver of a linear system has to do, for the properties of splines.
-/

namespace MU
namespace Spec

/-- `A` times the column `c`, row `i`. -/
def rowTimes (A : Mat ℝ) (c : ℕ → ℝ) (i : ℕ) : ℝ := ∑ k ∈ Finset.range A.cols, A.entry i k * c k

/-- The square matrix `A` is regular: only the zero column is mapped to zero. -/
def IsRegular (A : Mat ℝ) : Prop :=
  ∀ c : ℕ → ℝ, (∀ i < A.rows, rowTimes A c i = 0) → ∀ k < A.cols, c k = 0

/-- `solve` solves the square systems with a regular matrix (Eigen's `HouseholderQR::solve`, in exact arithmetic). -/
def SolvesRegular (solve : Mat ℝ → List ℝ → List ℝ) : Prop :=
  ∀ A b, A.rows = A.cols → b.length = A.rows → IsRegular A →
    (solve A b).length = A.cols ∧ ∀ i < A.rows, rowTimes A (fun k => (solve A b).getD k 0) i = b.getD i 0

end Spec
end MU
