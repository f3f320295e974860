import Verif.Model.IeeeVectors
import Verif.Model.Vectors

/-!
# Check.h in binary64, with overflow, underflow, infinities and NaN

`IsClose` of two numbers is `isCloseI` of `Model/IeeeVectors.lean`.
-/

namespace MU

/-- The loop of `IsClose` on vectors, with its early return: `n` iterations are left. /repo/src/MathUtils/Check.h:21-26 -/
noncomputable def isCloseLoopI (fl : ℝ → Option ℝ) (a b : List (Dbl ℝ)) (rtol atol : Dbl ℝ) : (n i : Nat) → Res Bool
  | 0, _ => .ok true
  | n + 1, i => do
    let ai ← vIdx a i
    let bi ← vIdx b i
    if !isCloseI fl ai bi rtol atol then return false
    else isCloseLoopI fl a b rtol atol n (i + 1)

/-- `IsClose` on vectors, /repo/src/MathUtils/Check.h:18-27. -/
noncomputable def isCloseVecI (fl : ℝ → Option ℝ) (B : Build) (a b : List (Dbl ℝ)) (rtol atol : Dbl ℝ) : Res Bool := do
  cassert B (a.length = b.length)
  isCloseLoopI fl a b rtol atol a.length 0

end MU
