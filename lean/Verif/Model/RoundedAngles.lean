import Verif.Model.Angles
import Verif.Model.RoundedUnit

/-!
# Angles.h in radians, in double arithmetic

`Real = double`: the constants are doubles as well, every addition and subtraction is rounded by `rnd`; `fmod` is exact in IEEE arithmetic. No underflow.
-/

namespace MU

/-- `modulo2pi`, /repo/src/MathUtils/Angles.h:29-32. -/
noncomputable def modulo2piR (rnd : ℝ → ℝ) (a : ℝ) : ℝ := fmod a (MU_2PI_R rnd)

/-- `Normalize_0_2PI`, /repo/src/MathUtils/Angles.h:61-68. -/
noncomputable def normalize_0_2PIR (rnd : ℝ → ℝ) (a : ℝ) : ℝ :=
  let angle := modulo2piR rnd a
  let angle := if angle < 0 then rnd (angle + MU_2PI_R rnd) else angle
  angle

/-- `Normalize__PI_PI`, /repo/src/MathUtils/Angles.h:71-78. -/
noncomputable def normalize__PI_PIR (rnd : ℝ → ℝ) (a : ℝ) : ℝ :=
  let angle := modulo2piR rnd (rnd (a + MU_PI_R rnd))
  let angle := if angle ≤ 0 then rnd (angle + MU_2PI_R rnd) else angle
  rnd (angle - MU_PI_R rnd)

end MU
