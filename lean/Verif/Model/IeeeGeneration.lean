import Verif.Model.Ieee

/-!
# linspace in binary64, with overflow and underflow

As `Model/Ieee.lean`: each operation is rounded to nearest among the finite numbers of binary64 or overflows.
-/

namespace MU
open Dbl

/-- `linspace`, /repo/src/MathUtils/VectorGeneration.h:15-30, with `Real = double` and finite ends. `i` and `numm1` are converted to `double` exactly.
The quotient `step` is not looked at when `numm1` is zero. -/
noncomputable def linspaceI (fl : ℝ → Option ℝ) (B : Build) (start stop : ℝ) (num : Nat) : Res (List (Dbl ℝ)) := do
  cassert B (num > 1)
  cassert B (start ≤ stop)
  let numm1 := usub 32 num 1
  let step ← if numm1 = 0 then .ok nan else fquot fl (fsub fl (.num stop) (.num start)) (.num (numm1 : ℝ))
  let out := List.replicate num (.num 0)
  let out ← forRange 0 numm1 (fun i out => vSet out i (fadd fl (.num start) (fmul fl (.num (i : ℝ)) step))) out
  vSet out numm1 (.num stop)

end MU
