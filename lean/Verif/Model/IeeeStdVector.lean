import Verif.Model.IeeeSignals

/-!
# StdVector.h in binary64, with overflow, underflow, infinities and NaN

As `Model/Ieee.lean`. `Minus` and `Scale` are in `Model/IeeeSignals.lean`.
-/

namespace MU
open Dbl

/-- The common shape of `Add`, `Mult` and `Divide`, /repo/src/MathUtils/StdVector.h:12-22, 58-80, with `Scalar = double`. -/
noncomputable def zipLoopI (B : Build) (v1 v2 : List (Dbl ℝ)) (op : Dbl ℝ → Dbl ℝ → Res (Dbl ℝ)) : Res (List (Dbl ℝ)) := do
  let n := v1.length
  cassert B (v2.length = n)
  let out := List.replicate n (num 0)
  forRange 0 n (fun i out => do
    let a ← vIdx v1 i
    let b ← vIdx v2 i
    let c ← op a b
    vSet out i c) out

/-- `Add`, /repo/src/MathUtils/StdVector.h:12-22, with `Scalar = double`. -/
noncomputable def vAddI (fl : ℝ → Option ℝ) (B : Build) (v1 v2 : List (Dbl ℝ)) : Res (List (Dbl ℝ)) := zipLoopI B v1 v2 (fun a b => .ok (fadd fl a b))

/-- `AddScalar`, /repo/src/MathUtils/StdVector.h:24-33, with `Scalar = double`. -/
noncomputable def vAddScalarI (fl : ℝ → Option ℝ) (v1 : List (Dbl ℝ)) (c : Dbl ℝ) : Res (List (Dbl ℝ)) := do
  let n := v1.length
  let out := List.replicate n (num 0)
  forRange 0 n (fun i out => do
    let a ← vIdx v1 i
    vSet out i (fadd fl a c)) out

/-- `Sum`, /repo/src/MathUtils/StdVector.h:35-44, with `Scalar = double`. -/
noncomputable def vSumI (fl : ℝ → Option ℝ) (v : List (Dbl ℝ)) : Dbl ℝ := v.foldl (fun sum elt => fadd fl sum elt) (num 0)

/-- `Mult`, /repo/src/MathUtils/StdVector.h:58-68, with `Scalar = double`. -/
noncomputable def vMultI (fl : ℝ → Option ℝ) (B : Build) (v1 v2 : List (Dbl ℝ)) : Res (List (Dbl ℝ)) := zipLoopI B v1 v2 (fun a b => .ok (fmul fl a b))

/-- `Divide`, /repo/src/MathUtils/StdVector.h:70-80, with `Scalar = double`. As everywhere in the model, a division by zero is the outcome `nonfinite`. -/
noncomputable def vDivideI (fl : ℝ → Option ℝ) (B : Build) (v1 v2 : List (Dbl ℝ)) : Res (List (Dbl ℝ)) := zipLoopI B v1 v2 (fun a b => fquot fl a b)

/-- `Negate`, in place, /repo/src/MathUtils/StdVector.h:96-99, with `Scalar = double`. -/
noncomputable def vNegateI (fl : ℝ → Option ℝ) (v : List (Dbl ℝ)) : List (Dbl ℝ) := vScaleI fl v (num (-1))

end MU
