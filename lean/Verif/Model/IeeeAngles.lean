import Verif.Model.Ieee
import Verif.Model.RoundedAngles

/-!
# Angles.h in binary64, with infinities, NaN and underflow

`Real = double`. `fl` is the rounding, `none` for an overflow (`Spec.Ieee`). The argument is any `double`. `fmod` is exact for finite arguments
(that its value is a number of binary64 is proved: `double64_fmod`), and NaN for an infinity or NaN.
-/

namespace MU

open Dbl

/-- `fmod(a, m)` for a finite `m` other than zero. Called at /repo/src/MathUtils/Angles.h:31, 37. -/
noncomputable def fmodI (a : Dbl ℝ) (m : ℝ) : Dbl ℝ :=
  match a with
  | num x => num (fmod x m)
  | _ => nan

/-- `M_PI` as a double. /repo/src/MathUtils/Angles.h:72, 76 -/
noncomputable def MU_PI_I (fl : ℝ → Option ℝ) : ℝ := (fl M_PI).getD 0
/-- `MU_2PI` as a double. /repo/src/MathUtils/Constants.h:45 -/
noncomputable def MU_2PI_I (fl : ℝ → Option ℝ) : ℝ := (fl (2 * MU_PI_I fl)).getD 0

/-- `modulo2pi`, /repo/src/MathUtils/Angles.h:29-32. -/
noncomputable def modulo2piI (fl : ℝ → Option ℝ) (a : Dbl ℝ) : Dbl ℝ := fmodI a (MU_2PI_I fl)

/-- `modulo360`, /repo/src/MathUtils/Angles.h:35-38. -/
noncomputable def modulo360I (a : Dbl ℝ) : Dbl ℝ := fmodI a 360

/-- `Normalize_0_360`, /repo/src/MathUtils/Angles.h:41-48. -/
noncomputable def normalize_0_360I (fl : ℝ → Option ℝ) (a : Dbl ℝ) : Dbl ℝ :=
  let angle := modulo360I a
  let angle := if lt angle (num 0) then fadd fl angle (num 360) else angle
  angle

/-- `Normalize__180_180`, /repo/src/MathUtils/Angles.h:51-58. -/
noncomputable def normalize__180_180I (fl : ℝ → Option ℝ) (a : Dbl ℝ) : Dbl ℝ :=
  let angle := modulo360I (fadd fl a (num 180))
  let angle := if le angle (num 0) then fadd fl angle (num 360) else angle
  fsub fl angle (num 180)

/-- `Normalize_0_2PI`, /repo/src/MathUtils/Angles.h:61-68. -/
noncomputable def normalize_0_2PII (fl : ℝ → Option ℝ) (a : Dbl ℝ) : Dbl ℝ :=
  let angle := modulo2piI fl a
  let angle := if lt angle (num 0) then fadd fl angle (num (MU_2PI_I fl)) else angle
  angle

/-- `Normalize__PI_PI`, /repo/src/MathUtils/Angles.h:71-78. -/
noncomputable def normalize__PI_PII (fl : ℝ → Option ℝ) (a : Dbl ℝ) : Dbl ℝ :=
  let angle := modulo2piI fl (fadd fl a (num (MU_PI_I fl)))
  let angle := if le angle (num 0) then fadd fl angle (num (MU_2PI_I fl)) else angle
  fsub fl angle (num (MU_PI_I fl))

end MU
