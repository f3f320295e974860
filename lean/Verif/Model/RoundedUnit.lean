import Verif.Model.Unit

/-!
# Unit.h in double arithmetic

The functions of `Model/Unit.lean` with `Real = double`: every operation is followed by the rounding `rnd`; the constants, macros of Constants.h, are computed
in double as well. No overflow or underflow.
-/

namespace MU

/-- A division in double. E.g. /repo/src/MathUtils/Unit.h:97-100. -/
noncomputable def rdivR (rnd : ℝ → ℝ) (a b : ℝ) : Res ℝ := do
  let q ← rdiv a b
  return rnd q

/-- `MU_KNOT`, /repo/src/MathUtils/Constants.h:25-26, 30, 34. -/
noncomputable def MU_KNOT_R (rnd : ℝ → ℝ) : ℝ := rnd (MU_ONE_MILE / rnd (MU_ONE_MINUTE * 60))
/-- `MU_KMH`, /repo/src/MathUtils/Constants.h:25-26, 31, 35. -/
noncomputable def MU_KMH_R (rnd : ℝ → ℝ) : ℝ := rnd (MU_ONE_KM / rnd (MU_ONE_MINUTE * 60))
/-- `MU_PI`: the decimal of the header rounded to a double, /repo/src/MathUtils/Constants.h:10-12, 38. -/
noncomputable def MU_PI_R (rnd : ℝ → ℝ) : ℝ := rnd M_PI
/-- `MU_PI_180`, `DEG2RAD`, /repo/src/MathUtils/Constants.h:38-40. -/
noncomputable def MU_PI_180_R (rnd : ℝ → ℝ) : ℝ := rnd (MU_PI_R rnd / 180)
/-- `MU_180_PI`, `RAD2DEG`, /repo/src/MathUtils/Constants.h:41-42. -/
noncomputable def MU_180_PI_R (rnd : ℝ → ℝ) : ℝ := rnd (180 / MU_PI_R rnd)
/-- `MU_2PI`, /repo/src/MathUtils/Constants.h:45. -/
noncomputable def MU_2PI_R (rnd : ℝ → ℝ) : ℝ := rnd (2 * MU_PI_R rnd)
/-- `MU_RPM2RADS`, /repo/src/MathUtils/Constants.h:52. -/
noncomputable def MU_RPM2RADS_R (rnd : ℝ → ℝ) : ℝ := rnd (MU_2PI_R rnd / 60)

/-- `deg2rad`, in place, /repo/src/MathUtils/Unit.h:32-35. -/
noncomputable def deg2radR (rnd : ℝ → ℝ) (v : List ℝ) : List ℝ := v.map (fun x => rnd (x * MU_PI_180_R rnd))
/-- `rad2deg`, in place, /repo/src/MathUtils/Unit.h:45-48. -/
noncomputable def rad2degR (rnd : ℝ → ℝ) (v : List ℝ) : List ℝ := v.map (fun x => rnd (x * MU_180_PI_R rnd))
/-- `kt2ms`, in place, /repo/src/MathUtils/Unit.h:127-130. -/
noncomputable def kt2msR (rnd : ℝ → ℝ) (v : List ℝ) : List ℝ := v.map (fun x => rnd (x * MU_KNOT_R rnd))

/-- `KNOT2MS`, /repo/src/MathUtils/Unit.h:91-94. -/
noncomputable def KNOT2MSR (rnd : ℝ → ℝ) (v : ℝ) : ℝ := rnd (v * MU_KNOT_R rnd)
/-- `MS2KNOT`, /repo/src/MathUtils/Unit.h:97-100. -/
noncomputable def MS2KNOTR (rnd : ℝ → ℝ) (v : ℝ) : Res ℝ := rdivR rnd v (MU_KNOT_R rnd)
/-- `KMH2MS`, /repo/src/MathUtils/Unit.h:103-106. -/
noncomputable def KMH2MSR (rnd : ℝ → ℝ) (v : ℝ) : ℝ := rnd (v * MU_KMH_R rnd)
/-- `MS2KMH`, /repo/src/MathUtils/Unit.h:109-112. -/
noncomputable def MS2KMHR (rnd : ℝ → ℝ) (v : ℝ) : Res ℝ := rdivR rnd v (MU_KMH_R rnd)

/-- `convert_velocity_unit`, /repo/src/MathUtils/Unit.h:140-172. -/
noncomputable def convertVelocityR (rnd : ℝ → ℝ) (velocity : ℝ) (current_unit new_unit : SpeedUnit) : Res ℝ :=
  let new_vel : ℝ := match current_unit with
    | .MS => velocity
    | .KMH => KMH2MSR rnd velocity
    | .KNOT => KNOT2MSR rnd velocity
  match new_unit with
    | .MS => .ok new_vel
    | .KMH => MS2KMHR rnd new_vel
    | .KNOT => MS2KNOTR rnd new_vel

/-- `RADS2HZ`, /repo/src/MathUtils/Unit.h:204-207. -/
noncomputable def RADS2HZR (rnd : ℝ → ℝ) (x : ℝ) : Res ℝ := rdivR rnd x (MU_2PI_R rnd)

/-- The first `switch` of `convert_frequency`, /repo/src/MathUtils/Unit.h:255-276, with `S2HZ`, `DEGS2RADS`, `DEGM2RADS`, `RPM2RADS`,
/repo/src/MathUtils/Unit.h:188-191, 214-217, 229-232, 239-242. -/
noncomputable def frequencyToPivotR (rnd : ℝ → ℝ) (inp : ℝ) : FrequencyUnit → Res ℝ
  | .HERTZ => .ok inp
  | .RADS => RADS2HZR rnd inp
  | .S => rdivR rnd 1 inp
  | .DEGS => RADS2HZR rnd (rnd (inp * MU_PI_180_R rnd))
  | .DEGM => RADS2HZR rnd (rnd (rnd (inp * MU_PI_180_R rnd) / 60))
  | .RPM => RADS2HZR rnd (rnd (inp * MU_RPM2RADS_R rnd))

/-- The second `switch` of `convert_frequency`, /repo/src/MathUtils/Unit.h:278-298, with `HZ2RADS`, `HZ2S`, `RADS2DEGS`, `RADS2DEGM`, `RADS2RPM`,
/repo/src/MathUtils/Unit.h:193-202, 209-212, 234-237, 244-247. -/
noncomputable def frequencyFromPivotR (rnd : ℝ → ℝ) (piv : ℝ) : FrequencyUnit → Res ℝ
  | .RADS => .ok (rnd (MU_2PI_R rnd * piv))
  | .S => rdivR rnd 1 piv
  | .HERTZ => .ok piv
  | .DEGS => .ok (rnd (rnd (MU_2PI_R rnd * piv) * MU_180_PI_R rnd))
  | .DEGM => .ok (rnd (rnd (rnd (MU_2PI_R rnd * piv) * MU_180_PI_R rnd) * 60))
  | .RPM => rdivR rnd (rnd (MU_2PI_R rnd * piv)) (MU_RPM2RADS_R rnd)

/-- `convert_frequency`, /repo/src/MathUtils/Unit.h:250-300. -/
noncomputable def convertFrequencyR (rnd : ℝ → ℝ) (inp : ℝ) (src_unit target_unit : FrequencyUnit) : Res ℝ := do
  if src_unit = target_unit then return inp
  else do
    let piv ← frequencyToPivotR rnd inp src_unit
    frequencyFromPivotR rnd piv target_unit

end MU
