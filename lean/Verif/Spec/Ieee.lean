import Mathlib.Data.Real.Basic

/-!
# The numbers of the machine, with their range

Nothing here mentions the model. `Spec/Angles.lean` has the numbers without a bound on the exponent.
-/

namespace MU.Spec

/-- The finite numbers of IEEE 754 binary64: a significand of 53 bits, the last bit between `2^-1074` and `2^971`. -/
def Double64 (y : ℝ) : Prop := ∃ m e : ℤ, |m| < 2 ^ 53 ∧ -1074 ≤ e ∧ e ≤ 971 ∧ y = (m : ℝ) * (2 : ℝ) ^ e

/-- The numbers that round to an infinity are those of this magnitude and more: half a last bit above the largest finite number. -/
noncomputable def overflow64 : ℝ := 2 ^ 1024 - 2 ^ 970

/-- `fl` is rounding to nearest in binary64: the nearest finite number, with whatever rule for ties among finite numbers, or `none` for the
numbers that are too large in magnitude, which are rounded to an infinity of their sign. -/
def Ieee (fl : ℝ → Option ℝ) : Prop :=
  ∀ x, (|x| < overflow64 → ∃ y, fl x = some y ∧ Double64 y ∧ ∀ z, Double64 z → |x - y| ≤ |x - z|) ∧ (overflow64 ≤ |x| → fl x = none)

end MU.Spec
