import Verif.Model.Geometry
import Verif.Model.Vectors
import Verif.Model.Angles

/-!
# Complex.h

`std::complex<double>` is a complex number, in exact arithmetic: `sqrt(x*x + y*y)` neither overflows nor rounds.
-/

namespace MU

/-- `Real`, /repo/src/MathUtils/Complex.h:10-18. -/
noncomputable def realParts (vector : List ℂ) : Res (List ℝ) := do
  let n := vector.length
  let out := List.replicate n 0
  forRange 0 n (fun i out => do
    let z ← vIdx vector i
    vSet out i z.re) out

/-- `Imag`, /repo/src/MathUtils/Complex.h:20-28. -/
noncomputable def imagParts (vector : List ℂ) : Res (List ℝ) := do
  let n := vector.length
  let out := List.replicate n 0
  forRange 0 n (fun i out => do
    let z ← vIdx vector i
    vSet out i z.im) out

/-- `Amplitude`, /repo/src/MathUtils/Complex.h:30-41. -/
noncomputable def amplitude (vector : List ℂ) : Res (List ℝ) := do
  let n := vector.length
  let out := List.replicate n 0
  forRange 0 n (fun i out => do
    let z ← vIdx vector i
    let x := z.re
    let z ← vIdx vector i
    let y := z.im
    vSet out i (Real.sqrt (x * x + y * y))) out

/-- `Phase`, /repo/src/MathUtils/Complex.h:43-61. -/
noncomputable def phase (vector : List ℂ) (unit : AngleUnit) : Res (List ℝ) := do
  let c : ℝ := if unit = .DEG then 1 * MU_180_PI else 1
  let n := vector.length
  let out := List.replicate n 0
  forRange 0 n (fun i out => do
    let z ← vIdx vector i
    let x := z.re
    let z ← vIdx vector i
    let y := z.im
    vSet out i (atan2 y x * c)) out

end MU
