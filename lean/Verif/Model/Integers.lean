import Verif.Model.Vectors
import Verif.Model.Angles
import Verif.Model.Polynomial

/-!
# The free functions with integer arguments

The templates of Maths.h, Check.h, Angles.h, VectorGeneration.h, StdVector.h, Functions.h, Polynomial.h and Integration1d.h when the type of their arguments is a signed integer type of `w` bits: `int`, with `w = 32`, or
`long`, with `w = 64`. Overflow of signed arithmetic, division by zero and the conversion of a `double` out of range are undefined. `rnd` is rounding to the nearest `double`; `int`s are `double`s,
and are converted exactly.
-/

namespace MU

/-- The result `n` of an operation on signed integers of `w` bits. /repo/src/MathUtils/StdVector.h:19 (each operation). -/
def signed (w : Nat) (n : Int) : Res Int := if -2 ^ (w - 1) ≤ n ∧ n < 2 ^ (w - 1) then .ok n else .ub

/-- A `double` converted to a signed integer of `w` bits: truncated. /repo/src/MathUtils/Maths.h:19 -/
noncomputable def truncZ (w : Nat) (r : ℝ) : Res Int := signed w (if 0 ≤ r then ⌊r⌋ else ⌈r⌉)

/-- `a / b` on signed integers. /repo/src/MathUtils/StdVector.h:77 -/
def quotZ (w : Nat) (a b : Int) : Res Int := if b = 0 then .ub else signed w (a.tdiv b)

/-- `Saturate`, /repo/src/MathUtils/Maths.h:15-20, for integers of `w` bits. The variable `valout` is a `double`. -/
noncomputable def saturateZ (rnd : ℝ → ℝ) (w : Nat) (val valMin valMax : Int) : Res Int :=
  let valout : ℝ := rnd ((if val > valMax then valMax else val : Int) : ℝ)
  let valout := if valout < rnd (valMin : ℝ) then rnd (valMin : ℝ) else valout
  truncZ w valout

/-- `sgn`, /repo/src/MathUtils/Maths.h:10-13, for integers. -/
def sgnZ (val : Int) : Int := boolInt (decide (0 < val)) - boolInt (decide (val < 0))

/-- `SgnSqrt`, /repo/src/MathUtils/Maths.h:22-25, for `int`. -/
noncomputable def sgnSqrtZ (rnd : ℝ → ℝ) (val : Int) : Res Int := truncZ 32 (rnd ((sgnZ val : Int) * rnd (Real.sqrt |(val : ℝ)|)))

/-- `IsClose`, /repo/src/MathUtils/Check.h:13-16, for `int`. -/
noncomputable def isCloseZ (rnd : ℝ → ℝ) (a b rtol atol : Int) : Res Bool := do
  let d ← signed 32 (a - b)
  pure (decide (|(d : ℝ)| ≤ rnd (atol + rnd (rtol * |(b : ℝ)|))))

/-- `IsClose` with its default tolerances, /repo/src/MathUtils/Check.h:13-16, for `int`: `1e-5` and `1e-8` are converted to `int`. -/
noncomputable def isCloseDefaultZ (rnd : ℝ → ℝ) (a b : Int) : Res Bool := do
  let rtol ← truncZ 32 (1 / 10 ^ 5)
  let atol ← truncZ 32 (1 / 10 ^ 8)
  isCloseZ rnd a b rtol atol

/-- `modulo360`, /repo/src/MathUtils/Angles.h:35-38, for `int`: `fmod` is called with `double`s and is exact. -/
noncomputable def modulo360Z (a : Int) : Res Int := truncZ 32 (fmod (a : ℝ) 360)

/-- `Normalize_0_360`, /repo/src/MathUtils/Angles.h:41-48, for `int`. -/
noncomputable def normalize_0_360Z (a : Int) : Res Int := do
  let angle ← modulo360Z a
  if angle < 0 then signed 32 (angle + 360) else pure angle

/-- `Normalize__180_180`, /repo/src/MathUtils/Angles.h:51-58, for `int`. -/
noncomputable def normalize_180_180Z (a : Int) : Res Int := do
  let s ← signed 32 (a + 180)
  let angle ← modulo360Z s
  let angle ← if angle ≤ 0 then signed 32 (angle + 360) else pure angle
  signed 32 (angle - 180)

/-- `linspace`, /repo/src/MathUtils/VectorGeneration.h:15-30, for `int`. The quotient is of type `unsigned int` and is converted to `int`; `i * step` and the sum with `start` are of type
`unsigned long`, modulo `2^64`, and the sum is converted to `int`, modulo `2^32`. -/
def linspaceZ (B : Build) (start stop : Int) (num : Nat) : Res (List Int) := do
  cassert B (num > 1)
  cassert B (start ≤ stop)
  let numm1 := usub 32 num 1
  let d ← signed 32 (stop - start)
  if numm1 = 0 then .ub else do
    let step := ((d % 2 ^ 32) / (numm1 : Int)).bmod (2 ^ 32)
    let out := List.replicate num 0
    let out ← forRange 0 numm1 (fun i out => vSet out i (((start + (i : Int) * step) % 2 ^ 64).bmod (2 ^ 32))) out
    vSet out numm1 stop

/-- The common shape of `Add`, `Minus`, `Mult` and `Divide`, /repo/src/MathUtils/StdVector.h:12-22, 46-80, for integers of `w` bits. -/
def zipLoopZ (B : Build) (v1 v2 : List Int) (op : Int → Int → Res Int) : Res (List Int) := do
  let n := v1.length
  cassert B (v2.length = n)
  let out := List.replicate n 0
  forRange 0 n (fun i out => do
    let a ← vIdx v1 i
    let b ← vIdx v2 i
    let c ← op a b
    vSet out i c) out

/-- `Add`, /repo/src/MathUtils/StdVector.h:12-22. -/
def vAddZ (w : Nat) (B : Build) (v1 v2 : List Int) : Res (List Int) := zipLoopZ B v1 v2 (fun a b => signed w (a + b))

/-- `Minus`, /repo/src/MathUtils/StdVector.h:46-56. -/
def vMinusZ (w : Nat) (B : Build) (v1 v2 : List Int) : Res (List Int) := zipLoopZ B v1 v2 (fun a b => signed w (a - b))

/-- `Mult`, /repo/src/MathUtils/StdVector.h:58-68. -/
def vMultZ (w : Nat) (B : Build) (v1 v2 : List Int) : Res (List Int) := zipLoopZ B v1 v2 (fun a b => signed w (a * b))

/-- `Divide`, /repo/src/MathUtils/StdVector.h:70-80. -/
def vDivideZ (w : Nat) (B : Build) (v1 v2 : List Int) : Res (List Int) := zipLoopZ B v1 v2 (quotZ w)

/-- `Sum`, /repo/src/MathUtils/StdVector.h:35-44: one addition per element. -/
def vSumZ (w : Nat) (v : List Int) : Res Int := v.foldlM (fun sum elt => signed w (sum + elt)) 0

/-- `Scale`, in place, /repo/src/MathUtils/StdVector.h:82-87. -/
def vScaleZ (w : Nat) : (v : List Int) → (alpha : Int) → Res (List Int)
  | [], _ => .ok []
  | vi :: v, alpha => do
    let r ← signed w (vi * alpha)
    let out ← vScaleZ w v alpha
    return r :: out

/-- `Heaviside`, /repo/src/MathUtils/Functions.h:33-50, for `int`: the value `0.5` is converted to `int`. -/
noncomputable def heavisideZ (x : List Int) (x_step : Int) : Res (List Int) := do
  let n := x.length
  let out := List.replicate n 0
  forRange 0 n (fun i out => do
    let xval ← vIdx x i
    if xval < x_step then vSet out i 0
    else if xval > x_step then vSet out i 1
    else do
      let h ← truncZ 32 (1 / 2)
      vSet out i h) out

/-- `Door`, /repo/src/MathUtils/Functions.h:52-58, for `int`. -/
noncomputable def doorZ (B : Build) (x : List Int) (x_min x_max height : Int) : Res (List Int) := do
  let out ← heavisideZ x x_min
  let h ← heavisideZ x x_max
  let out ← vMinusZ 32 B out h
  vScaleZ 32 out height

/-- `Ramp`, /repo/src/MathUtils/Functions.h:78-105, for `int`. -/
def rampZ (B : Build) (x : List Int) (x_min x_max y_left y_right : Int) : Res (List Int) := do
  let n := x.length
  cassert B (x_min ≤ x_max)
  if B.checked = true then do
    let x0 ← vIdx x 0
    let xn ← vIdx x (usub 64 n 1)
    cassert B (x_min ≥ x0 ∧ x_max ≤ xn)
  let dy ← signed 32 (y_right - y_left)
  let dx ← signed 32 (x_max - x_min)
  let a ← quotZ 32 dy dx
  let p ← signed 32 (a * x_min)
  let b ← signed 32 (y_left - p)
  let out := List.replicate n 0
  forRange 0 n (fun i out => do
    let xi ← vIdx x i
    if xi ≤ x_min then vSet out i y_left
    else if xi ≤ x_max then do
      let q ← signed 32 (a * xi)
      let r ← signed 32 (q + b)
      vSet out i r
    else vSet out i y_right) out

/-- The `while` loop of `Horner`, /repo/src/MathUtils/Polynomial.h:19-23, with `T = int`: the product is an `int`, the sum with the coefficient a `double` that is converted to `int`. -/
noncomputable def hornerLoopZ (rnd : ℝ → ℝ) (coefficients : List ℝ) (x0 : Int) : Nat → Int → Res Int
  | 0, result => .ok result
  | i + 1, result => do
    let c ← vAt coefficients i
    let p ← signed 32 (result * x0)
    let r ← truncZ 32 (rnd (p + c))
    hornerLoopZ rnd coefficients x0 i r

/-- `Horner`, /repo/src/MathUtils/Polynomial.h:10-27, with `T = int`. -/
noncomputable def hornerZ (rnd : ℝ → ℝ) (coefficients : List ℝ) (x0 : Int) : Res Int := do
  let size := coefficients.length
  let c ← vAtInt coefficients ((size : Int) - 1)
  let r ← truncZ 32 c
  hornerLoopZ rnd coefficients x0 (size - 1) r

/-- The `while` loop of `Horner_derivative`, /repo/src/MathUtils/Polynomial.h:38-42, with `T = int`. -/
noncomputable def hornerDerivativeLoopZ (rnd : ℝ → ℝ) (coefficients : List ℝ) (x0 : Int) : Nat → Int → Res Int
  | 0, result => .ok result
  | i + 1, result => do
    let c ← vAt coefficients (i + 1)
    let p ← signed 32 (result * x0)
    let r ← truncZ 32 (rnd (p + rnd (((i + 1 : Nat) : ℝ) * c)))
    hornerDerivativeLoopZ rnd coefficients x0 i r

/-- `Horner_derivative`, /repo/src/MathUtils/Polynomial.h:29-46, with `T = int`. -/
noncomputable def hornerDerivativeZ (rnd : ℝ → ℝ) (coefficients : List ℝ) (x0 : Int) : Res Int := do
  let size := coefficients.length
  let c ← vAtInt coefficients ((size : Int) - 1)
  let r ← truncZ 32 (rnd (((size - 1 : Nat) : ℝ) * c))
  hornerDerivativeLoopZ rnd coefficients x0 (size - 2) r

/-- `Trapz(x, y)`, /repo/src/MathUtils/Integration1d.h:166-191, for `int`. -/
noncomputable def trapzZ (rnd : ℝ → ℝ) (B : Build) (x y : List Int) : Res Int := do
  let N := y.length
  cassert B (N > 1)
  cassert B (x.length = N)
  let x1 ← vIdx x 1
  let x0 ← vIdx x 0
  let dx1 ← signed 32 (x1 - x0)
  let xN_1 ← vIdx x (usub 64 N 1)
  let xN_2 ← vIdx x (usub 64 N 2)
  let dxN_1 ← signed 32 (xN_1 - xN_2)
  let r ← forRange 1 (usub 64 N 1) (fun i (s : Int × Int) => do
    let dxi := s.2
    let a ← vIdx x (i + 1)
    let b ← vIdx x i
    let dxii ← signed 32 (a - b)
    let yi ← vIdx y i
    let d ← signed 32 (dxi + dxii)
    let p ← signed 32 (yi * d)
    let sum ← signed 32 (s.1 + p)
    return (sum, dxii)) (0, dx1)
  let y0 ← vIdx y 0
  let p0 ← signed 32 (y0 * dx1)
  let s0 ← signed 32 (r.1 + p0)
  let yN ← vIdx y (usub 64 N 1)
  let pN ← signed 32 (yN * dxN_1)
  let s ← signed 32 (s0 + pN)
  truncZ 32 (rnd (1 / 2 * s))

end MU
