import Verif.Core
import Mathlib.Algebra.Order.Floor.Ring
import Mathlib.Algebra.Order.Ring.Abs
import Mathlib.Data.Sign.Defs
import Mathlib.Analysis.SpecialFunctions.Pow.Real
import Mathlib.Analysis.SpecialFunctions.Trigonometric.Basic

/-!
# VectorGeneration.h, StdVector.h, Functions.h, Maths.h, Check.h

`std::vector<Real>` is a list. A floating-point result that is not finite has the outcome `nonfinite`. Where the code uses `pow`, `sqrt` or `sin` the
numbers are real, elsewhere they are those of an ordered field. Integers: `unsigned int` has 32 bits, `unsigned long` 64; vectors are shorter than
`2^32`.
-/

namespace MU

/-- `v[i] = a`: undefined behaviour when `i >= v.size()`. E.g. /repo/src/MathUtils/StdVector.h:12-22. -/
def vSet {α : Type} (l : List α) (i : Nat) (a : α) : Res (List α) :=
  if i < l.length then .ok (l.set i a) else .ub

/-- C's `pow` on reals; a result that is not a finite real is `nonfinite`. Called at /repo/src/MathUtils/VectorGeneration.h:39. -/
noncomputable def cpow (base x : ℝ) : Res ℝ := by
  classical
  exact if 0 < base then .ok (base ^ x)
    else if base = 0 then (if 0 < x then .ok 0 else if x = 0 then .ok 1 else .nonfinite)
    else if h : ∃ n : ℤ, x = n then .ok (base ^ h.choose) else .nonfinite

section generation
variable {K : Type} [Field K] [LinearOrder K]

/-- `linspace`, /repo/src/MathUtils/VectorGeneration.h:15-30. The quotient `step` is not looked at when `numm1` is zero. -/
def linspace (B : Build) (start stop : K) (num : Nat) : Res (List K) := do
  cassert B (num > 1)
  cassert B (start ≤ stop)
  let numm1 := usub 32 num 1
  let step := (stop - start) / (numm1 : K)
  let out := List.replicate num 0
  let out ← forRange 0 numm1 (fun i out => vSet out i (start + (i : K) * step)) out
  vSet out numm1 stop

/-- `arange`, /repo/src/MathUtils/VectorGeneration.h:44-53. Converting a negative number, or one of `2^32` or more, to `unsigned int` is undefined. -/
def arange [FloorRing K] (B : Build) (start stop step : K) : Res (List K) := do
  cassert B (start < stop)
  cassert B (step > 0)
  let q ← fdiv (stop - start) step
  let num : Int := ⌊q⌋
  let final_stop := (num : K) * step
  if num < 0 ∨ 2 ^ 32 ≤ num then .ub
  else linspace B start final_stop num.toNat

end generation

/-- `logspace`, /repo/src/MathUtils/VectorGeneration.h:32-42. -/
noncomputable def logspace (B : Build) (start stop : ℝ) (num : Nat) (base : ℝ) : Res (List ℝ) := do
  cassert B (num > 1)
  cassert B (start ≤ stop)
  let out ← linspace B start stop num
  forRange 0 out.length (fun i out => do
    let e ← vAt out i
    let p ← cpow base e
    let _ ← vAt out i
    vSet out i p) out

section stdvector
variable {K : Type} [Field K] [DecidableEq K]

/-- The common shape of the element-wise operations on two vectors. /repo/src/MathUtils/StdVector.h:12-22, 47-70. -/
def zipLoop (B : Build) (v1 v2 : List K) (op : K → K → Res K) : Res (List K) := do
  let n := v1.length
  cassert B (v2.length = n)
  let out := List.replicate n 0
  forRange 0 n (fun i out => do
    let a ← vIdx v1 i
    let b ← vIdx v2 i
    let c ← op a b
    vSet out i c) out

/-- `Add`, /repo/src/MathUtils/StdVector.h:12-22. -/
def vAdd (B : Build) (v1 v2 : List K) : Res (List K) := zipLoop B v1 v2 (fun a b => .ok (a + b))

/-- `AddScalar`, /repo/src/MathUtils/StdVector.h:24-33. -/
def vAddScalar (v1 : List K) (c : K) : Res (List K) := do
  let n := v1.length
  let out := List.replicate n 0
  forRange 0 n (fun i out => do
    let a ← vIdx v1 i
    vSet out i (a + c)) out

/-- `Sum`, /repo/src/MathUtils/StdVector.h:35-44. -/
def vSum (v : List K) : K := v.foldl (fun sum elt => sum + elt) 0

/-- `Minus`, /repo/src/MathUtils/StdVector.h:46-56. -/
def vMinus (B : Build) (v1 v2 : List K) : Res (List K) := zipLoop B v1 v2 (fun a b => .ok (a - b))

/-- `Mult`, /repo/src/MathUtils/StdVector.h:58-68. -/
def vMult (B : Build) (v1 v2 : List K) : Res (List K) := zipLoop B v1 v2 (fun a b => .ok (a * b))

/-- `Divide`, /repo/src/MathUtils/StdVector.h:70-80. -/
def vDivide (B : Build) (v1 v2 : List K) : Res (List K) := zipLoop B v1 v2 (fun a b => fdiv a b)

/-- `Scale`, in place, /repo/src/MathUtils/StdVector.h:82-87. -/
def vScale (v : List K) (alpha : K) : List K := v.map (fun vi => vi * alpha)

/-- `Negate`, in place, /repo/src/MathUtils/StdVector.h:96-99. -/
def vNegate (v : List K) : List K := vScale v (-1)

end stdvector

/-- `Pow`, in place, /repo/src/MathUtils/StdVector.h:89-94. -/
noncomputable def vPow (v : List ℝ) (p : ℝ) : Res (List ℝ) :=
  forRange 0 v.length (fun i v => do
    let vi ← vIdx v i
    let r ← cpow vi p
    vSet v i r) v

/-- `Sinc` of a vector, /repo/src/MathUtils/Functions.h:13-25. -/
noncomputable def sincVec (x : List ℝ) : Res (List ℝ) := by
  classical
  exact do
    let n := x.length
    let out := List.replicate n 0
    forRange 0 n (fun i out => do
      let xi ← vIdx x i
      if xi = 0 then vSet out i 1
      else do
        let q ← fdiv (Real.sin xi) xi
        vSet out i q) out

/-- `Sinc` on an interval, /repo/src/MathUtils/Functions.h:27-31. -/
noncomputable def sincRange (B : Build) (xmin xmax : ℝ) (n : Nat) : Res (List ℝ) := do
  let x ← linspace B xmin xmax n
  sincVec x

section functions
variable {K : Type} [Field K] [LinearOrder K]

/-- `Heaviside`, /repo/src/MathUtils/Functions.h:33-50. -/
def heaviside (x : List K) (x_step : K) : Res (List K) := do
  let n := x.length
  let out := List.replicate n 0
  forRange 0 n (fun i out => do
    let xval ← vIdx x i
    if xval < x_step then vSet out i 0
    else if xval > x_step then vSet out i 1
    else vSet out i (1 / 2)) out

/-- `Door`, /repo/src/MathUtils/Functions.h:52-58. -/
def door (B : Build) (x : List K) (x_min x_max height : K) : Res (List K) := do
  let out ← heaviside x x_min
  let h2 ← heaviside x x_max
  let out ← vMinus B out h2
  return vScale out height

/-- `Dirac`, /repo/src/MathUtils/Functions.h:60-75. `abs` is taken to be that of floating-point numbers. -/
def dirac (x : List K) (x_impulse height : K) : Res (List K) := do
  let n := x.length
  let x1 ← vIdx x 1
  let x0 ← vIdx x 0
  let dx_2 := 1 / 2 * (x1 - x0)
  let out := List.replicate n 0
  forRange 0 n (fun i out => do
    let xi ← vIdx x i
    if |xi - x_impulse| < dx_2 then vSet out i height
    else vSet out i 0) out

/-- The second assertion of `Ramp` reads the ends of the vector, /repo/src/MathUtils/Functions.h:85; `&&` does not look at the last one when the
first comparison is false. -/
def rampAssert (B : Build) (x : List K) (x_min x_max : K) : Res Unit :=
  if B.checked = true then do
    let x0 ← vIdx x 0
    if x_min ≥ x0 then do
      let xl ← vIdx x (usub 64 x.length 1)
      if x_max ≤ xl then .ok () else .aborts
    else .aborts
  else .ok ()

/-- `Ramp`, /repo/src/MathUtils/Functions.h:77-104. The slope `a`, which is not finite when `x_min = x_max`, matters only where it is used. -/
def ramp (B : Build) (x : List K) (x_min x_max y_left y_right : K) : Res (List K) := do
  let n := x.length
  cassert B (x_min ≤ x_max)
  rampAssert B x x_min x_max
  let a : Res K := fdiv (y_right - y_left) (x_max - x_min)
  let b : Res K := do
    let a ← a
    return y_left - a * x_min
  let out := List.replicate n 0
  forRange 0 n (fun i out => do
    let xi ← vIdx x i
    if xi ≤ x_min then vSet out i y_left
    else do
      let xi' ← vIdx x i
      if xi' ≤ x_max then do
        let a ← a
        let b ← b
        vSet out i (a * xi + b)
      else vSet out i y_right) out

/-- A `bool` used as a number. /repo/src/MathUtils/Maths.h:12. -/
def boolInt (c : Bool) : Int := if c then 1 else 0

/-- `sgn`, /repo/src/MathUtils/Maths.h:10-13. -/
def sgn (val : K) : Int := boolInt (decide (0 < val)) - boolInt (decide (val < 0))

/-- `Saturate` for a floating-point type, /repo/src/MathUtils/Maths.h:15-20. -/
def saturate (val valMin valMax : K) : K :=
  let valout := if val > valMax then valMax else val
  if valout < valMin then valMin else valout

/-- `IsClose`, /repo/src/MathUtils/Check.h:13-16. -/
def isClose (a b rtol atol : K) : Bool := decide (|a - b| ≤ atol + rtol * |b|)

/-- The loop of `IsClose` on vectors, with its early return: `n` iterations are left. /repo/src/MathUtils/Check.h:21-26 -/
def isCloseLoop (a b : List K) (rtol atol : K) : (n i : Nat) → Res Bool
  | 0, _ => .ok true
  | n + 1, i => do
    let ai ← vIdx a i
    let bi ← vIdx b i
    if !isClose ai bi rtol atol then return false
    else isCloseLoop a b rtol atol n (i + 1)

/-- `IsClose` on vectors, /repo/src/MathUtils/Check.h:18-27. -/
def isCloseVec (B : Build) (a b : List K) (rtol atol : K) : Res Bool := do
  cassert B (a.length = b.length)
  isCloseLoop a b rtol atol a.length 0

/-- `AssertIsClose`, /repo/src/MathUtils/Check.h:39-42. -/
def assertIsClose (B : Build) (a b rtol atol : K) : Res Unit := cassert B (isClose a b rtol atol = true)

/-- `AssertIsClose` on vectors, /repo/src/MathUtils/Check.h:44-47; nothing is evaluated when `assert` is disabled. -/
def assertIsCloseVec (B : Build) (a b : List K) (rtol atol : K) : Res Unit :=
  if B.checked = true then do
    let c ← isCloseVec B a b rtol atol
    cassert B (c = true)
  else .ok ()

end functions

/-- `SgnSqrt`, /repo/src/MathUtils/Maths.h:22-25. -/
noncomputable def sgnSqrt (val : ℝ) : ℝ := (sgn val : ℝ) * Real.sqrt |val|

/-- `is_odd` on a signed integer: C++'s `%` truncates towards zero. /repo/src/MathUtils/Check.h:29-32 -/
def isOdd (val : Int) : Bool := decide (Int.tmod val 2 ≠ 0)

/-- `is_even`, /repo/src/MathUtils/Check.h:34-37. -/
def isEven (val : Int) : Bool := !isOdd val

end MU
