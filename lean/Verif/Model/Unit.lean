import Verif.Model.Angles

/-!
# Unit.h

Exact arithmetic on reals; a division by zero has the outcome `nonfinite`. `switch` statements without default are total on the enumerators; other
values of the enumeration types are not modelled. `rad2deg(const vector&, vector&)`, /repo/src/MathUtils/Unit.h:51-56, cannot be instantiated (it
modifies a `const` vector) and is not modelled.
-/

namespace MU

/-- Division of reals as the machine does it. E.g. /repo/src/MathUtils/Unit.h:98-100. -/
noncomputable def rdiv (a b : ℝ) : Res ℝ := by
  classical
  exact if b = 0 then .nonfinite else .ok (a / b)

/-- `MU_ONE_MINUTE`, `MU_ONE_HOUR`, /repo/src/MathUtils/Constants.h:25-26. -/
def MU_ONE_MINUTE : ℝ := 60
/-- `MU_ONE_HOUR`, /repo/src/MathUtils/Constants.h:26. -/
noncomputable def MU_ONE_HOUR : ℝ := MU_ONE_MINUTE * 60
/-- `MU_ONE_MILE`, /repo/src/MathUtils/Constants.h:30. -/
def MU_ONE_MILE : ℝ := 1852
/-- `MU_ONE_KM`, /repo/src/MathUtils/Constants.h:31. -/
def MU_ONE_KM : ℝ := 1000
/-- `MU_KNOT`, /repo/src/MathUtils/Constants.h:34. -/
noncomputable def MU_KNOT : ℝ := MU_ONE_MILE / MU_ONE_HOUR
/-- `MU_KMH`, /repo/src/MathUtils/Constants.h:35. -/
noncomputable def MU_KMH : ℝ := MU_ONE_KM / MU_ONE_HOUR
/-- `MU_RPM2RADS`, /repo/src/MathUtils/Constants.h:52. -/
noncomputable def MU_RPM2RADS : ℝ := MU_2PI / 60

/-- `deg2rad`, in place, /repo/src/MathUtils/Unit.h:32-35. -/
noncomputable def deg2rad (v : List ℝ) : List ℝ := v.map (fun x => x * MU_PI_180)

/-- `rad2deg`, in place, /repo/src/MathUtils/Unit.h:45-48. -/
noncomputable def rad2deg (v : List ℝ) : List ℝ := v.map (fun x => x * MU_180_PI)

/-- `kt2ms`, in place, /repo/src/MathUtils/Unit.h:127-130. -/
noncomputable def kt2ms (v : List ℝ) : List ℝ := v.map (fun x => x * MU_KNOT)

/-- `deg2rad(vector, out)`, by copy, /repo/src/MathUtils/Unit.h:38-42. `st` gives the contents of the vectors of the program; `vector` and `out` are two
of them, possibly the same. -/
noncomputable def deg2radCopy (st : ℕ → List ℝ) (vector out : ℕ) : ℕ → List ℝ :=
  let st := Function.update st out (st vector)
  Function.update st out (deg2rad (st out))

/-- `kt2ms(vector, out)`, by copy, /repo/src/MathUtils/Unit.h:133-137. -/
noncomputable def kt2msCopy (st : ℕ → List ℝ) (vector out : ℕ) : ℕ → List ℝ :=
  let st := Function.update st out (st vector)
  Function.update st out (kt2ms (st out))

/-- `SPEED_UNIT`, /repo/src/MathUtils/Unit.h:83-87. -/
inductive SpeedUnit where
  | MS | KNOT | KMH
  deriving DecidableEq, Repr

/-- `KNOT2MS`, /repo/src/MathUtils/Unit.h:91-94. -/
noncomputable def KNOT2MS (v : ℝ) : ℝ := v * MU_KNOT
/-- `MS2KNOT`, /repo/src/MathUtils/Unit.h:97-100. -/
noncomputable def MS2KNOT (v : ℝ) : Res ℝ := rdiv v MU_KNOT
/-- `KMH2MS`, /repo/src/MathUtils/Unit.h:103-106. -/
noncomputable def KMH2MS (v : ℝ) : ℝ := v * MU_KMH
/-- `MS2KMH`, /repo/src/MathUtils/Unit.h:109-112. -/
noncomputable def MS2KMH (v : ℝ) : Res ℝ := rdiv v MU_KMH
/-- `KMH2KNOT`, /repo/src/MathUtils/Unit.h:115-118. -/
noncomputable def KMH2KNOT (v : ℝ) : Res ℝ := MS2KNOT (KMH2MS v)
/-- `KNOT2KMH`, /repo/src/MathUtils/Unit.h:121-124. -/
noncomputable def KNOT2KMH (v : ℝ) : Res ℝ := MS2KMH (KNOT2MS v)

/-- `convert_velocity_unit`, /repo/src/MathUtils/Unit.h:140-172. -/
noncomputable def convertVelocity (velocity : ℝ) (current_unit new_unit : SpeedUnit) : Res ℝ :=
  let new_vel : ℝ := match current_unit with
    | .MS => velocity
    | .KMH => KMH2MS velocity
    | .KNOT => KNOT2MS velocity
  match new_unit with
    | .MS => .ok new_vel
    | .KMH => MS2KMH new_vel
    | .KNOT => MS2KNOT new_vel

/-- `FREQUENCY_UNIT`, /repo/src/MathUtils/Unit.h:179-186. -/
inductive FrequencyUnit where
  | HERTZ | RADS | DEGS | DEGM | S | RPM
  deriving DecidableEq, Repr

/-- `DEGS2RADS`, /repo/src/MathUtils/Unit.h:188-191. -/
noncomputable def DEGS2RADS (x : ℝ) : ℝ := x * MU_PI_180
/-- `RADS2DEGS`, /repo/src/MathUtils/Unit.h:193-196. -/
noncomputable def RADS2DEGS (x : ℝ) : ℝ := x * MU_180_PI
/-- `HZ2RADS`, /repo/src/MathUtils/Unit.h:199-202. -/
noncomputable def HZ2RADS (x : ℝ) : ℝ := MU_2PI * x
/-- `RADS2HZ`, /repo/src/MathUtils/Unit.h:204-207. -/
noncomputable def RADS2HZ (x : ℝ) : Res ℝ := rdiv x MU_2PI
/-- `HZ2S`, /repo/src/MathUtils/Unit.h:209-212. -/
noncomputable def HZ2S (x : ℝ) : Res ℝ := rdiv 1 x
/-- `S2HZ`, /repo/src/MathUtils/Unit.h:214-217. -/
noncomputable def S2HZ (x : ℝ) : Res ℝ := rdiv 1 x
/-- `RADS2S`, /repo/src/MathUtils/Unit.h:219-222. -/
noncomputable def RADS2S (x : ℝ) : Res ℝ := rdiv MU_2PI x
/-- `S2RADS`, /repo/src/MathUtils/Unit.h:224-227. -/
noncomputable def S2RADS (x : ℝ) : Res ℝ := rdiv MU_2PI x
/-- `RPM2RADS`, /repo/src/MathUtils/Unit.h:229-232. -/
noncomputable def RPM2RADS (x : ℝ) : ℝ := x * MU_RPM2RADS
/-- `RADS2RPM`, /repo/src/MathUtils/Unit.h:234-237. -/
noncomputable def RADS2RPM (x : ℝ) : Res ℝ := rdiv x MU_RPM2RADS
/-- `DEGM2RADS`, /repo/src/MathUtils/Unit.h:239-242. -/
noncomputable def DEGM2RADS (x : ℝ) : ℝ := x * MU_PI_180 / 60
/-- `RADS2DEGM`, /repo/src/MathUtils/Unit.h:244-247. -/
noncomputable def RADS2DEGM (x : ℝ) : ℝ := x * MU_180_PI * 60

/-- The first `switch` of `convert_frequency`, /repo/src/MathUtils/Unit.h:255-276. -/
noncomputable def frequencyToPivot (inp : ℝ) : FrequencyUnit → Res ℝ
  | .HERTZ => .ok inp
  | .RADS => RADS2HZ inp
  | .S => S2HZ inp
  | .DEGS => RADS2HZ (DEGS2RADS inp)
  | .DEGM => RADS2HZ (DEGM2RADS inp)
  | .RPM => RADS2HZ (RPM2RADS inp)

/-- The second `switch` of `convert_frequency`, /repo/src/MathUtils/Unit.h:278-298. -/
noncomputable def frequencyFromPivot (piv : ℝ) : FrequencyUnit → Res ℝ
  | .RADS => .ok (HZ2RADS piv)
  | .S => HZ2S piv
  | .HERTZ => .ok piv
  | .DEGS => .ok (RADS2DEGS (HZ2RADS piv))
  | .DEGM => .ok (RADS2DEGM (HZ2RADS piv))
  | .RPM => RADS2RPM (HZ2RADS piv)

/-- `convert_frequency`, /repo/src/MathUtils/Unit.h:250-300. -/
noncomputable def convertFrequency (inp : ℝ) (src_unit target_unit : FrequencyUnit) : Res ℝ := do
  if src_unit = target_unit then return inp
  else do
    let piv ← frequencyToPivot inp src_unit
    frequencyFromPivot piv target_unit

end MU
