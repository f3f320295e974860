import Verif.Spec.Matrix

/-!
# The matrix `A + σ v vᵀ`
-/

namespace MU.Spec

/-- `A + σ v vᵀ`, where `v` is a column. -/
def rankOne (A v : Mat ℝ) (sigma : ℝ) : Mat ℝ := ⟨A.rows, A.cols, fun i j => A.entry i j + sigma * (v.entry i 0 * v.entry j 0)⟩

end MU.Spec
