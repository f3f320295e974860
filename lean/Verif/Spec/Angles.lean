import Mathlib.Data.Real.Basic

/-!
# Representatives of an angle, and the numbers of the machine

Nothing here mentions the model.
-/

namespace MU.Spec

/-- `r` differs from `a` by a whole number of turns. -/
def SameAngle (turn a r : ℝ) : Prop := ∃ n : ℤ, r = a + n * turn

/-- The numbers with a significand of 53 bits (the exponent is not bounded). -/
def Double (y : ℝ) : Prop := ∃ m e : ℤ, |m| < 2 ^ 53 ∧ y = (m : ℝ) * (2 : ℝ) ^ e

/-- `rnd` is rounding to nearest, with whatever rule for ties. -/
def ToNearest (rnd : ℝ → ℝ) : Prop := ∀ x, Double (rnd x) ∧ ∀ y, Double y → |x - rnd x| ≤ |x - y|

end MU.Spec
