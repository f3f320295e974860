import Verif.Model.Rounded
import Verif.Model.RoundedGeometry
import Verif.Model.Convolution

/-!
# Signals in double arithmetic

The functions of StdVector.h, Functions.h, VectorGeneration.h and Convolution.h on `double`, every operation being followed by the rounding `rnd`.
`M.sin` is the `sin` of the C library and `pow` its `pow`. Neither overflow nor underflow happens.
-/

namespace MU

/-- `Add`, /repo/src/MathUtils/StdVector.h:12-22, with `Scalar = double`. -/
noncomputable def vAddR (rnd : ℝ → ℝ) (B : Build) (v1 v2 : List ℝ) : Res (List ℝ) := zipLoop B v1 v2 (fun a b => .ok (rnd (a + b)))

/-- `Minus`, /repo/src/MathUtils/StdVector.h:46-56, with `Scalar = double`. -/
noncomputable def vMinusR (rnd : ℝ → ℝ) (B : Build) (v1 v2 : List ℝ) : Res (List ℝ) := zipLoop B v1 v2 (fun a b => .ok (rnd (a - b)))

/-- `Mult`, /repo/src/MathUtils/StdVector.h:58-68, with `Scalar = double`. -/
noncomputable def vMultR (rnd : ℝ → ℝ) (B : Build) (v1 v2 : List ℝ) : Res (List ℝ) := zipLoop B v1 v2 (fun a b => .ok (rnd (a * b)))

/-- `Divide`, /repo/src/MathUtils/StdVector.h:70-80, with `Scalar = double`. -/
noncomputable def vDivideR (rnd : ℝ → ℝ) (B : Build) (v1 v2 : List ℝ) : Res (List ℝ) :=
  zipLoop B v1 v2 (fun a b => do
    let q ← fdiv a b
    return rnd q)

/-- `Sum`, /repo/src/MathUtils/StdVector.h:35-44, with `Scalar = double`. -/
noncomputable def vSumR (rnd : ℝ → ℝ) (v : List ℝ) : ℝ := v.foldl (fun sum elt => rnd (sum + elt)) 0

/-- `Scale`, in place, /repo/src/MathUtils/StdVector.h:82-87, with `Scalar = double`. -/
noncomputable def vScaleR (rnd : ℝ → ℝ) (v : List ℝ) (alpha : ℝ) : List ℝ := v.map (fun vi => rnd (vi * alpha))

/-- `Sinc` of a vector, /repo/src/MathUtils/Functions.h:13-25, with `Real = double`. -/
noncomputable def sincVecR (rnd : ℝ → ℝ) (M : CMath) (x : List ℝ) : Res (List ℝ) := by
  classical
  exact do
    let n := x.length
    let out := List.replicate n 0
    forRange 0 n (fun i out => do
      let xi ← vIdx x i
      if xi = 0 then vSet out i 1
      else do
        let q ← fdiv (M.sin xi) xi
        vSet out i (rnd q)) out

/-- `Door`, /repo/src/MathUtils/Functions.h:52-58, with `Real = double`. `Heaviside` makes comparisons only. -/
noncomputable def doorR (rnd : ℝ → ℝ) (B : Build) (x : List ℝ) (x_min x_max height : ℝ) : Res (List ℝ) := do
  let out ← heaviside x x_min
  let h2 ← heaviside x x_max
  let out ← vMinusR rnd B out h2
  return vScaleR rnd out height

/-- `Dirac`, /repo/src/MathUtils/Functions.h:60-75, with `Real = double`. `abs` is taken to be that of floating-point numbers. -/
noncomputable def diracR (rnd : ℝ → ℝ) (x : List ℝ) (x_impulse height : ℝ) : Res (List ℝ) := do
  let n := x.length
  let x1 ← vIdx x 1
  let x0 ← vIdx x 0
  let dx_2 := rnd (1 / 2 * rnd (x1 - x0))
  let out := List.replicate n 0
  forRange 0 n (fun i out => do
    let xi ← vIdx x i
    if |rnd (xi - x_impulse)| < dx_2 then vSet out i height
    else vSet out i 0) out

/-- `Ramp`, /repo/src/MathUtils/Functions.h:77-104, with `Real = double`. The slope `a`, which is not finite when `x_min = x_max`, matters only where
it is used. -/
noncomputable def rampR (rnd : ℝ → ℝ) (B : Build) (x : List ℝ) (x_min x_max y_left y_right : ℝ) : Res (List ℝ) := do
  let n := x.length
  cassert B (x_min ≤ x_max)
  rampAssert B x x_min x_max
  let a : Res ℝ := do
    let q ← fdiv (rnd (y_right - y_left)) (rnd (x_max - x_min))
    return rnd q
  let b : Res ℝ := do
    let a ← a
    return rnd (y_left - rnd (a * x_min))
  let out := List.replicate n 0
  forRange 0 n (fun i out => do
    let xi ← vIdx x i
    if xi ≤ x_min then vSet out i y_left
    else do
      let xi' ← vIdx x i
      if xi' ≤ x_max then do
        let a ← a
        let b ← b
        vSet out i (rnd (rnd (a * xi) + b))
      else vSet out i y_right) out

/-- `logspace`, /repo/src/MathUtils/VectorGeneration.h:32-42, with `Real = double` and a positive base. -/
noncomputable def logspaceR (rnd : ℝ → ℝ) (pow : ℝ → ℝ → ℝ) (B : Build) (start stop : ℝ) (num : Nat) (base : ℝ) : Res (List ℝ) := do
  cassert B (num > 1)
  cassert B (start ≤ stop)
  let out ← linspaceR rnd B start stop num
  forRange 0 out.length (fun i out => do
    let e ← vAt out i
    let p := pow base e
    let _ ← vAt out i
    vSet out i p) out

/-- `arange`, /repo/src/MathUtils/VectorGeneration.h:44-53, with `Real = double`. Converting a negative number, or one of `2^32` or more, to `unsigned int` is undefined. -/
noncomputable def arangeR (rnd : ℝ → ℝ) (B : Build) (start stop step : ℝ) : Res (List ℝ) := do
  cassert B (start < stop)
  cassert B (step > 0)
  let q ← fdiv (rnd (stop - start)) step
  let num : Int := ⌊rnd q⌋
  let final_stop := rnd ((num : ℝ) * step)
  if num < 0 ∨ 2 ^ 32 ≤ num then .ub
  else linspaceR rnd B start final_stop num.toNat

/-- The loops that fill `integrand`, /repo/src/MathUtils/Convolution.h:48-57, with `Real = double`. -/
noncomputable def convolutionIntegrandR (rnd : ℝ → ℝ) (kernel signal : List ℝ) (reverse : Bool) : Res (List ℝ) :=
  forRange 0 kernel.length (fun i acc => do
    let k ← vIdx kernel i
    let s ← if reverse then vIdx signal i else vIdx signal (usub 64 (usub 64 kernel.length i) 1)
    return acc ++ [rnd (k * s)]) []

/-- `NaiveConvolution`, /repo/src/MathUtils/Convolution.h:40-75, with `Real = double`. The local vector `sv` (59-63) has no effect on the result and is
left out. -/
noncomputable def naiveConvolutionR (rnd : ℝ → ℝ) (B : Build) (kernel signal : List ℝ) (dt : ℝ) (reverse : Bool) : Res ℝ := do
  cassert B (signal.length ≥ kernel.length)
  let integrand ← convolutionIntegrandR rnd kernel signal reverse
  trapzUniformR rnd integrand dt

end MU
