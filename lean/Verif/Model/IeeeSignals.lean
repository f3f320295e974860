import Verif.Model.IeeeVectors
import Verif.Model.Vectors

/-!
# Functions.h and Maths.h in binary64, with overflow, underflow, infinities and NaN

As `Model/Ieee.lean`: each operation on finite numbers is rounded to nearest among the finite numbers of binary64 or overflows. There is one zero.
-/

namespace MU
open Dbl

/-- `Heaviside`, /repo/src/MathUtils/Functions.h:33-50, with `Real = double`. -/
noncomputable def heavisideI (x : List (Dbl ℝ)) (x_step : Dbl ℝ) : Res (List (Dbl ℝ)) := do
  let n := x.length
  let out := List.replicate n (num 0)
  forRange 0 n (fun i out => do
    let xval ← vIdx x i
    if lt xval x_step then vSet out i (num 0)
    else if lt x_step xval then vSet out i (num 1)
    else vSet out i (num (1 / 2))) out

/-- `Minus`, /repo/src/MathUtils/StdVector.h:46-56, with `Scalar = double`. -/
noncomputable def vMinusI (fl : ℝ → Option ℝ) (B : Build) (v1 v2 : List (Dbl ℝ)) : Res (List (Dbl ℝ)) := do
  let n := v1.length
  cassert B (v2.length = n)
  let out := List.replicate n (num 0)
  forRange 0 n (fun i out => do
    let a ← vIdx v1 i
    let b ← vIdx v2 i
    vSet out i (fsub fl a b)) out

/-- `Scale`, in place, /repo/src/MathUtils/StdVector.h:82-87, with `Scalar = double`. -/
noncomputable def vScaleI (fl : ℝ → Option ℝ) (v : List (Dbl ℝ)) (alpha : Dbl ℝ) : List (Dbl ℝ) := v.map (fun vi => fmul fl vi alpha)

/-- `Door`, /repo/src/MathUtils/Functions.h:52-58, with `Real = double`. -/
noncomputable def doorI (fl : ℝ → Option ℝ) (B : Build) (x : List (Dbl ℝ)) (x_min x_max height : Dbl ℝ) : Res (List (Dbl ℝ)) := do
  let out ← heavisideI x x_min
  let h2 ← heavisideI x x_max
  let out ← vMinusI fl B out h2
  return vScaleI fl out height

/-- `Dirac`, /repo/src/MathUtils/Functions.h:60-75, with `Real = double`. `abs` is taken to be that of floating-point numbers. -/
noncomputable def diracI (fl : ℝ → Option ℝ) (x : List (Dbl ℝ)) (x_impulse height : Dbl ℝ) : Res (List (Dbl ℝ)) := do
  let n := x.length
  let x1 ← vIdx x 1
  let x0 ← vIdx x 0
  let dx_2 := fmul fl (num (1 / 2)) (fsub fl x1 x0)
  let out := List.replicate n (num 0)
  forRange 0 n (fun i out => do
    let xi ← vIdx x i
    if lt (fabs (fsub fl xi x_impulse)) dx_2 then vSet out i height
    else vSet out i (num 0)) out

/-- The second assertion of `Ramp`, /repo/src/MathUtils/Functions.h:85, with `Real = double`; as `rampAssert`. -/
noncomputable def rampAssertI (B : Build) (x : List (Dbl ℝ)) (x_min x_max : Dbl ℝ) : Res Unit :=
  if B.checked = true then do
    let x0 ← vIdx x 0
    if le x0 x_min then do
      let xl ← vIdx x (usub 64 x.length 1)
      if le x_max xl then .ok () else .aborts
    else .aborts
  else .ok ()

/-- `Ramp`, /repo/src/MathUtils/Functions.h:77-104, with `Real = double`. The slope `a`, a division by zero when `x_min = x_max`, matters only where it
is used. -/
noncomputable def rampI (fl : ℝ → Option ℝ) (B : Build) (x : List (Dbl ℝ)) (x_min x_max y_left y_right : Dbl ℝ) : Res (List (Dbl ℝ)) := do
  let n := x.length
  cassert B (le x_min x_max = true)
  rampAssertI B x x_min x_max
  let a : Res (Dbl ℝ) := fquot fl (fsub fl y_right y_left) (fsub fl x_max x_min)
  let b : Res (Dbl ℝ) := do
    let a ← a
    return fsub fl y_left (fmul fl a x_min)
  let out := List.replicate n (num 0)
  forRange 0 n (fun i out => do
    let xi ← vIdx x i
    if le xi x_min then vSet out i y_left
    else do
      let xi' ← vIdx x i
      if le xi' x_max then do
        let a ← a
        let b ← b
        vSet out i (fadd fl (fmul fl a xi) b)
      else vSet out i y_right) out

/-- `sgn`, /repo/src/MathUtils/Maths.h:10-13, with `T = double`. -/
noncomputable def sgnI (val : Dbl ℝ) : Int := boolInt (lt (num 0) val) - boolInt (lt val (num 0))

/-- `Saturate`, /repo/src/MathUtils/Maths.h:15-20, with `Scalar = double`. -/
noncomputable def saturateI (val valMin valMax : Dbl ℝ) : Dbl ℝ :=
  let valout := if lt valMax val then valMax else val
  if lt valout valMin then valMin else valout

/-- `SgnSqrt`, /repo/src/MathUtils/Maths.h:22-25, with `Scalar = double`: the `int` is converted to `double`. -/
noncomputable def sgnSqrtI (fl : ℝ → Option ℝ) (val : Dbl ℝ) : Dbl ℝ := fmul fl (num (sgnI val : ℝ)) (fsqrt fl (fabs val))

end MU
