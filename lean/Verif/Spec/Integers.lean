import Mathlib.Data.Int.Basic
import Mathlib.Data.Real.Basic

/-!
# Machine integers

Nothing here mentions the model.
-/

namespace MU.Spec

/-- The numbers of a signed integer type of `w` bits. -/
def Fits (w : ℕ) (n : ℤ) : Prop := -2 ^ (w - 1) ≤ n ∧ n < 2 ^ (w - 1)

end MU.Spec
