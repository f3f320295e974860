import Verif.Model.Integration1d

/-!
# Convolution.h

`boost::circular_buffer<Real>` is the list of its elements in the order of `operator[]`. An index outside its bounds is undefined behaviour.
-/

namespace MU

variable {K : Type} [Field K]

/-- The loops that fill `integrand`, /repo/src/MathUtils/Convolution.h:48-57: the elements of the vector in order. `reverse` selects `signal[i]`,
otherwise `signal[N-i-1]` on `unsigned long`. -/
def convolutionIntegrand (kernel signal : List K) (reverse : Bool) : Res (List K) :=
  forRange 0 kernel.length (fun i acc => do
    let k ← vIdx kernel i
    let s ← if reverse then vIdx signal i else vIdx signal (usub 64 (usub 64 kernel.length i) 1)
    return acc ++ [k * s]) []

/-- `NaiveConvolution`, /repo/src/MathUtils/Convolution.h:40-75. The local vector `sv` (59-63) has no effect on the result and is left out: its loop
ends for signals of fewer than 2^32 elements. -/
def naiveConvolution (B : Build) (kernel signal : List K) (dt : K) (reverse : Bool) : Res K := do
  cassert B (signal.length ≥ kernel.length)
  let integrand ← convolutionIntegrand kernel signal reverse
  trapzUniform integrand dt

end MU
