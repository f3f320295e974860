import Verif.Model.FFT
import Verif.Model.Convolution
import Mathlib.Analysis.SpecialFunctions.Complex.Log

/-!
# Specification of the discrete Fourier transform and of the discrete convolution
-/

namespace MU.Spec
open Finset

/-- The discrete Fourier transform of `n` real samples. -/
noncomputable def dft (n : Nat) (v : Nat → ℝ) (k : Nat) : ℂ :=
  ∑ j ∈ range n, (v j : ℂ) * Complex.exp (-(2 * Real.pi * Complex.I * j * k / n))

variable {K : Type} [Field K]

/-- The weights of the trapezoidal rule with `n ≥ 2` points: one half at both ends. -/
def trapzWeight (n i : Nat) : K := if i = 0 ∨ i = n - 1 then 1 / 2 else 1

end MU.Spec
