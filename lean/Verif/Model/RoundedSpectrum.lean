import Verif.Model.Complex
import Verif.Model.FFT
import Verif.Model.RoundedUnit
import Verif.Model.RoundedVectors

/-!
# Check.h, Complex.h and the frequencies of FFT.h in double arithmetic

Every operation is followed by the rounding `rnd`. No overflow or underflow; `sqrt` is rounded correctly, `atan2` is a parameter.
-/

namespace MU

/-- The loop of `IsClose` on vectors in double, with its early return: `n` iterations are left. /repo/src/MathUtils/Check.h:21-26 -/
noncomputable def isCloseLoopR (rnd : ℝ → ℝ) (a b : List ℝ) (rtol atol : ℝ) : (n i : Nat) → Res Bool
  | 0, _ => .ok true
  | n + 1, i => do
    let ai ← vIdx a i
    let bi ← vIdx b i
    if !isCloseR rnd ai bi rtol atol then return false
    else isCloseLoopR rnd a b rtol atol n (i + 1)

/-- `IsClose` on vectors in double, /repo/src/MathUtils/Check.h:18-27. -/
noncomputable def isCloseVecR (rnd : ℝ → ℝ) (B : Build) (a b : List ℝ) (rtol atol : ℝ) : Res Bool := do
  cassert B (a.length = b.length)
  isCloseLoopR rnd a b rtol atol a.length 0

/-- `Amplitude` in double, /repo/src/MathUtils/Complex.h:30-41. -/
noncomputable def amplitudeR (rnd : ℝ → ℝ) (vector : List ℂ) : Res (List ℝ) := do
  let n := vector.length
  let out := List.replicate n 0
  forRange 0 n (fun i out => do
    let z ← vIdx vector i
    let x := z.re
    let z ← vIdx vector i
    let y := z.im
    vSet out i (rnd (Real.sqrt (rnd (rnd (x * x) + rnd (y * y)))))) out

/-- `Phase` in double, /repo/src/MathUtils/Complex.h:43-61. -/
noncomputable def phaseR (rnd : ℝ → ℝ) (M : CMath) (vector : List ℂ) (unit : AngleUnit) : Res (List ℝ) := do
  let c : ℝ := if unit = .DEG then rnd (1 * MU_180_PI_R rnd) else 1
  let n := vector.length
  let out := List.replicate n 0
  forRange 0 n (fun i out => do
    let z ← vIdx vector i
    let x := z.re
    let z ← vIdx vector i
    let y := z.im
    vSet out i (rnd (M.atan2 y x * c))) out

/-- The loop of `GetFrequencyVector` in double: the vector and `f` after the iterations. /repo/src/MathUtils/FFT.h:70-74 -/
noncomputable def frequencyLoopR (rnd : ℝ → ℝ) (df : ℝ) (unit : FrequencyUnit) (n : Nat) : Res (List ℝ × ℝ) :=
  forRange 0 n (fun _ s => do
    let c ← convertFrequencyR rnd s.2 .HERTZ unit
    return (s.1 ++ [c], rnd (s.2 + df))) ([], 0)

/-- `GetFrequencyVector` in double, /repo/src/MathUtils/FFT.h:58-78; `nfft` is an `unsigned int`, its conversion to double is exact. -/
noncomputable def FFTObj.getFrequencyVectorR (rnd : ℝ → ℝ) (o : FFTObj) (nfft : Nat) (sampleFrequency : ℝ) (unit : FrequencyUnit) : Res (List ℝ) := do
  let df ← rdivR rnd sampleFrequency nfft
  let n := if o.halfSpectrum then nfft / 2 + 1 else nfft
  let s ← frequencyLoopR rnd df unit n
  return s.1

end MU
