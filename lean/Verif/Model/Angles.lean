import Verif.Core
import Mathlib.Data.Real.Basic
import Mathlib.Algebra.Order.Archimedean.Real.Basic
import Mathlib.Algebra.Order.Floor.Ring

/-!
# Angles.h, Constants.h

The numbers are real. Every addition and subtraction of the code goes through `rnd`, the rounding of the machine: `rnd = id` is exact arithmetic.
`fmod` is exact in IEEE arithmetic, so it is not rounded. `M_PI` is the decimal of the header.
-/

namespace MU

/-- `M_PI`, /repo/src/MathUtils/Constants.h:10-12. -/
noncomputable def M_PI : ℝ := 3.14159265358979323846

/-- `MU_2PI`, /repo/src/MathUtils/Constants.h:45. -/
noncomputable def MU_2PI : ℝ := 2 * M_PI

/-- `MU_PI_180`, `DEG2RAD`, /repo/src/MathUtils/Constants.h:39-40. -/
noncomputable def MU_PI_180 : ℝ := M_PI / 180

/-- `MU_180_PI`, `RAD2DEG`, /repo/src/MathUtils/Constants.h:41-42. -/
noncomputable def MU_180_PI : ℝ := 180 / M_PI

/-- C's `fmod(a, m)` for a non-zero `m`: `a` minus `m` times the quotient truncated towards zero. Called at /repo/src/MathUtils/Angles.h:31, 37. -/
noncomputable def fmod (a m : ℝ) : ℝ := a - m * (if 0 ≤ a / m then (⌊a / m⌋ : ℝ) else (⌈a / m⌉ : ℝ))

/-- `modulo2pi`, /repo/src/MathUtils/Angles.h:29-32. -/
noncomputable def modulo2pi (a : ℝ) : ℝ := fmod a MU_2PI

/-- `modulo360`, /repo/src/MathUtils/Angles.h:35-38. -/
noncomputable def modulo360 (a : ℝ) : ℝ := fmod a 360

/-- `Normalize_0_360`, /repo/src/MathUtils/Angles.h:41-48. -/
noncomputable def normalize_0_360 (rnd : ℝ → ℝ) (a : ℝ) : ℝ :=
  let angle := modulo360 a
  let angle := if angle < 0 then rnd (angle + 360) else angle
  angle

/-- `Normalize__180_180`, /repo/src/MathUtils/Angles.h:51-58. -/
noncomputable def normalize__180_180 (rnd : ℝ → ℝ) (a : ℝ) : ℝ :=
  let angle := modulo360 (rnd (a + 180))
  let angle := if angle ≤ 0 then rnd (angle + 360) else angle
  rnd (angle - 180)

/-- `Normalize_0_2PI`, /repo/src/MathUtils/Angles.h:61-68. -/
noncomputable def normalize_0_2PI (rnd : ℝ → ℝ) (a : ℝ) : ℝ :=
  let angle := modulo2pi a
  let angle := if angle < 0 then rnd (angle + MU_2PI) else angle
  angle

/-- `Normalize__PI_PI`, /repo/src/MathUtils/Angles.h:71-78. -/
noncomputable def normalize__PI_PI (rnd : ℝ → ℝ) (a : ℝ) : ℝ :=
  let angle := modulo2pi (rnd (a + M_PI))
  let angle := if angle ≤ 0 then rnd (angle + MU_2PI) else angle
  rnd (angle - M_PI)

/-- `ANGLE_UNIT`, /repo/src/MathUtils/Unit.h:26-29. -/
inductive AngleUnit where
  | DEG | RAD
  deriving DecidableEq, Repr

/-- `STRING2ANGLE`, /repo/src/MathUtils/Angles.h:81-92. -/
def string2angle (unit : String) : Res AngleUnit :=
  if unit = "DEG" then .ok .DEG else if unit = "RAD" then .ok .RAD else .exits 1

end MU
