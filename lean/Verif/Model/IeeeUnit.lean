import Verif.Model.IeeeAngles
import Verif.Model.RoundedUnit

/-!
# Unit.h in binary64, with overflow, underflow, infinities and NaN

The functions of `Model/RoundedUnit.lean` for any `double`. `fl` is the rounding, `none` for an overflow (`Spec.Ieee`). The constants are macros of
Constants.h, computed in double; none of them overflows (`const_unit`). As everywhere in the model there is one zero, and a division by zero is the
outcome `nonfinite`.
-/

namespace MU

open Dbl

/-- `MU_ONE_HOUR` as a double, /repo/src/MathUtils/Constants.h:25-26. -/
noncomputable def MU_ONE_HOUR_I (fl : ℝ → Option ℝ) : ℝ := (fl (MU_ONE_MINUTE * 60)).getD 0
/-- `MU_KNOT` as a double, /repo/src/MathUtils/Constants.h:30, 34. -/
noncomputable def MU_KNOT_I (fl : ℝ → Option ℝ) : ℝ := (fl (MU_ONE_MILE / MU_ONE_HOUR_I fl)).getD 0
/-- `MU_KMH` as a double, /repo/src/MathUtils/Constants.h:31, 35. -/
noncomputable def MU_KMH_I (fl : ℝ → Option ℝ) : ℝ := (fl (MU_ONE_KM / MU_ONE_HOUR_I fl)).getD 0
/-- `MU_PI_180`, `DEG2RAD` as a double, /repo/src/MathUtils/Constants.h:38-40. -/
noncomputable def MU_PI_180_I (fl : ℝ → Option ℝ) : ℝ := (fl (MU_PI_I fl / 180)).getD 0
/-- `MU_180_PI`, `RAD2DEG` as a double, /repo/src/MathUtils/Constants.h:41-42. -/
noncomputable def MU_180_PI_I (fl : ℝ → Option ℝ) : ℝ := (fl (180 / MU_PI_I fl)).getD 0
/-- `MU_RPM2RADS` as a double, /repo/src/MathUtils/Constants.h:52. -/
noncomputable def MU_RPM2RADS_I (fl : ℝ → Option ℝ) : ℝ := (fl (MU_2PI_I fl / 60)).getD 0

/-- `deg2rad`, in place, /repo/src/MathUtils/Unit.h:32-35. -/
noncomputable def deg2radI (fl : ℝ → Option ℝ) (v : List (Dbl ℝ)) : List (Dbl ℝ) := v.map (fun x => fmul fl x (num (MU_PI_180_I fl)))
/-- `rad2deg`, in place, /repo/src/MathUtils/Unit.h:45-48. -/
noncomputable def rad2degI (fl : ℝ → Option ℝ) (v : List (Dbl ℝ)) : List (Dbl ℝ) := v.map (fun x => fmul fl x (num (MU_180_PI_I fl)))

/-- `convert_velocity_unit`, /repo/src/MathUtils/Unit.h:140-172, with `KNOT2MS`, `MS2KNOT`, `KMH2MS`, `MS2KMH`, /repo/src/MathUtils/Unit.h:91-112. -/
noncomputable def convertVelocityI (fl : ℝ → Option ℝ) (velocity : Dbl ℝ) (current_unit new_unit : SpeedUnit) : Res (Dbl ℝ) :=
  let new_vel : Dbl ℝ := match current_unit with
    | .MS => velocity
    | .KMH => fmul fl velocity (num (MU_KMH_I fl))
    | .KNOT => fmul fl velocity (num (MU_KNOT_I fl))
  match new_unit with
    | .MS => .ok new_vel
    | .KMH => fquot fl new_vel (num (MU_KMH_I fl))
    | .KNOT => fquot fl new_vel (num (MU_KNOT_I fl))

/-- The first `switch` of `convert_frequency`, /repo/src/MathUtils/Unit.h:255-276, with `RADS2HZ`, `S2HZ`, `DEGS2RADS`, `DEGM2RADS`, `RPM2RADS`,
/repo/src/MathUtils/Unit.h:188-191, 204-207, 214-217, 229-232, 239-242. -/
noncomputable def frequencyToPivotI (fl : ℝ → Option ℝ) (inp : Dbl ℝ) : FrequencyUnit → Res (Dbl ℝ)
  | .HERTZ => .ok inp
  | .RADS => fquot fl inp (num (MU_2PI_I fl))
  | .S => fquot fl (num 1) inp
  | .DEGS => fquot fl (fmul fl inp (num (MU_PI_180_I fl))) (num (MU_2PI_I fl))
  | .DEGM => do
    let radm := fmul fl inp (num (MU_PI_180_I fl))
    let rads ← fquot fl radm (num 60)
    fquot fl rads (num (MU_2PI_I fl))
  | .RPM => fquot fl (fmul fl inp (num (MU_RPM2RADS_I fl))) (num (MU_2PI_I fl))

/-- The second `switch` of `convert_frequency`, /repo/src/MathUtils/Unit.h:278-298, with `HZ2RADS`, `HZ2S`, `RADS2DEGS`, `RADS2DEGM`, `RADS2RPM`,
/repo/src/MathUtils/Unit.h:193-202, 209-212, 234-237, 244-247. -/
noncomputable def frequencyFromPivotI (fl : ℝ → Option ℝ) (piv : Dbl ℝ) : FrequencyUnit → Res (Dbl ℝ)
  | .RADS => .ok (fmul fl (num (MU_2PI_I fl)) piv)
  | .S => fquot fl (num 1) piv
  | .HERTZ => .ok piv
  | .DEGS => .ok (fmul fl (fmul fl (num (MU_2PI_I fl)) piv) (num (MU_180_PI_I fl)))
  | .DEGM => .ok (fmul fl (fmul fl (fmul fl (num (MU_2PI_I fl)) piv) (num (MU_180_PI_I fl))) (num 60))
  | .RPM => fquot fl (fmul fl (num (MU_2PI_I fl)) piv) (num (MU_RPM2RADS_I fl))

/-- `convert_frequency`, /repo/src/MathUtils/Unit.h:250-300. -/
noncomputable def convertFrequencyI (fl : ℝ → Option ℝ) (inp : Dbl ℝ) (src_unit target_unit : FrequencyUnit) : Res (Dbl ℝ) := do
  if src_unit = target_unit then return inp
  else do
    let piv ← frequencyToPivotI fl inp src_unit
    frequencyFromPivotI fl piv target_unit

end MU
