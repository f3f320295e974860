import Verif.Model.Unit
import Mathlib.Analysis.SpecialFunctions.Complex.Log

/-!
# FFT.h

The class derives from `Eigen::FFT` (unsupported/Eigen/FFT), whose transforms are not in this repository. They are modelled by the sums they stand
for (`eigenFwd`, `eigenInv`), with the treatment of the flags, of the sizes and of the second half of the spectrum that `Eigen::FFT` makes.
-/

namespace MU
open Finset

/-- The flags of `Eigen::FFT` that the class sets: `HalfSpectrum` and `Unscaled`. Both are clear in a new object.
Base class and flags: /repo/src/MathUtils/FFT.h:16, 38-55. -/
structure FFTObj where
  halfSpectrum : Bool := false
  unscaled : Bool := false
  deriving DecidableEq

namespace FFTObj

/-- `HalfSpectrumON`, `HalfSpectrumOFF`, `ScalingON`, `ScalingOFF`, /repo/src/MathUtils/FFT.h:38-56. -/
inductive Call where
  | halfSpectrumON | halfSpectrumOFF | scalingON | scalingOFF
  deriving DecidableEq

/-- The effect of these calls, /repo/src/MathUtils/FFT.h:38-56. -/
def call (o : FFTObj) : Call → FFTObj
  | .halfSpectrumON => { o with halfSpectrum := true }
  | .halfSpectrumOFF => { o with halfSpectrum := false }
  | .scalingON => { o with unscaled := false }
  | .scalingOFF => { o with unscaled := true }

end FFTObj

/-- `Eigen::FFT::fwd` on `n` real samples, the bins `0 .. n/2`. Called through /repo/src/MathUtils/FFT.h:23, 30. -/
noncomputable def fwdBin (v : List ℝ) (k : Nat) : ℂ :=
  ∑ j ∈ range v.length, (v.getD j 0 : ℂ) * Complex.exp (-(2 * Real.pi * Complex.I * j * k / v.length))

/-- `Eigen::FFT::fwd(dst, src)` on a vector of reals: `n/2 + 1` bins with `HalfSpectrum`, otherwise `n`, where the bins above `n/2` are filled by
`ReflectSpectrum`. Called at /repo/src/MathUtils/FFT.h:23, 30. -/
noncomputable def eigenFwd (half : Bool) (v : List ℝ) : List ℂ :=
  let n := v.length
  if half then (List.range (n / 2 + 1)).map (fwdBin v)
  else (List.range n).map fun (k : Nat) => if k < n / 2 + 1 then fwdBin v k else (starRingEnd ℂ) (fwdBin v (n - k))

/-- The spectrum that the inverse transform to reals uses: the bins `0 .. n/2` of its argument, and their reflection.
Called through /repo/src/MathUtils/FFT.h:35. -/
noncomputable def reflected (n : Nat) (f : List ℂ) (k : Nat) : ℂ :=
  if k < n / 2 + 1 then f.getD k 0 else (starRingEnd ℂ) (f.getD (n - k) 0)

/-- `Eigen::FFT::inv(dst, src)` to a vector of reals: with `HalfSpectrum` the size is `2 * (src.size() - 1)`, otherwise `src.size()`; the result is
divided by the size unless `Unscaled` is set. Called at /repo/src/MathUtils/FFT.h:35. -/
noncomputable def eigenInv (half unscaled : Bool) (f : List ℂ) : List ℝ :=
  let n := if half then 2 * (f.length - 1) else f.length
  (List.range n).map fun (j : Nat) =>
    let s := (∑ k ∈ range n, reflected n f k * Complex.exp (2 * Real.pi * Complex.I * j * k / n)).re
    if unscaled then s else s * (1 / n)

/-- The loop of `GetFrequencyVector`, /repo/src/MathUtils/FFT.h:70-74: the vector and `f` after the iterations. -/
noncomputable def frequencyLoop (df : ℝ) (unit : FrequencyUnit) (n : Nat) : Res (List ℝ × ℝ) :=
  forRange 0 n (fun _ s => do
    let c ← convertFrequency s.2 .HERTZ unit
    return (s.1 ++ [c], s.2 + df)) ([], 0)

namespace FFTObj

/-- `GetFrequencyVector`, /repo/src/MathUtils/FFT.h:58-78. -/
noncomputable def getFrequencyVector (o : FFTObj) (nfft : Nat) (sampleFrequency : ℝ) (unit : FrequencyUnit) : Res (List ℝ) := do
  let df ← rdiv sampleFrequency nfft
  let n := if o.halfSpectrum then nfft / 2 + 1 else nfft
  let s ← frequencyLoop df unit n
  return s.1

/-- `fft(freqVector, vector)`, /repo/src/MathUtils/FFT.h:21-24. -/
noncomputable def fft (o : FFTObj) (v : List ℝ) : List ℂ := eigenFwd o.halfSpectrum v

/-- `fft(freqVector, frequencies, vector, sampleFrequency, unit)`, /repo/src/MathUtils/FFT.h:26-32; `vector.size()` is converted to 32 bits. -/
noncomputable def fftFrequencies (o : FFTObj) (v : List ℝ) (sampleFrequency : ℝ) (unit : FrequencyUnit) : Res (List ℂ × List ℝ) := do
  let fs ← o.getFrequencyVector (v.length % 2 ^ 32) sampleFrequency unit
  return (eigenFwd o.halfSpectrum v, fs)

/-- `ifft`, /repo/src/MathUtils/FFT.h:34-36. -/
noncomputable def ifft (o : FFTObj) (f : List ℂ) : List ℝ := eigenInv o.halfSpectrum o.unscaled f

end FFTObj

/-- `Pow2`, /repo/src/MathUtils/FFT.h:117-119: a shift of an `int` by 32 or more is undefined; `1 << 31` converts to 2^31. -/
def pow2 (p : Nat) : Res Nat := if p < 32 then .ok (1 <<< p) else .ub

end MU
