import Mathlib.Analysis.SpecialFunctions.ImproperIntegrals
import Mathlib.MeasureTheory.Integral.IntervalIntegral.Basic
import Mathlib.Analysis.SpecialFunctions.Gamma.Basic

/-!
# Specification of the Bessel and Struve functions

The integral representations of the Bessel functions for real order and positive argument (for `J` and `I` at a whole order, every argument), and the
series of the Struve functions.
-/

namespace MU.Spec

/-- Bessel function of the first kind (Schläfli's integral). -/
noncomputable def besselJ (ν x : ℝ) : ℝ :=
  1 / Real.pi * (∫ θ in (0 : ℝ)..Real.pi, Real.cos (ν * θ - x * Real.sin θ)) -
    Real.sin (ν * Real.pi) / Real.pi * ∫ t in Set.Ioi (0 : ℝ), Real.exp (-x * Real.sinh t - ν * t)

/-- Bessel function of the second kind. -/
noncomputable def besselY (ν x : ℝ) : ℝ :=
  1 / Real.pi * (∫ θ in (0 : ℝ)..Real.pi, Real.sin (x * Real.sin θ - ν * θ)) -
    1 / Real.pi * ∫ t in Set.Ioi (0 : ℝ), (Real.exp (ν * t) + Real.exp (-ν * t) * Real.cos (ν * Real.pi)) * Real.exp (-x * Real.sinh t)

/-- Modified Bessel function of the first kind. -/
noncomputable def besselI (ν x : ℝ) : ℝ :=
  1 / Real.pi * (∫ θ in (0 : ℝ)..Real.pi, Real.exp (x * Real.cos θ) * Real.cos (ν * θ)) -
    Real.sin (ν * Real.pi) / Real.pi * ∫ t in Set.Ioi (0 : ℝ), Real.exp (-x * Real.cosh t - ν * t)

/-- Modified Bessel function of the second kind. -/
noncomputable def besselK (ν x : ℝ) : ℝ :=
  ∫ t in Set.Ioi (0 : ℝ), Real.exp (-x * Real.cosh t) * Real.cosh (ν * t)

/-- Hankel function of the first kind. -/
noncomputable def hankel1 (ν x : ℝ) : ℂ := besselJ ν x + besselY ν x * Complex.I

/-- Struve function of order `n`. -/
noncomputable def struve (n : ℕ) (x : ℝ) : ℝ :=
  (x / 2) ^ (n + 1) * ∑' k : ℕ, (-1) ^ k * (x / 2) ^ (2 * k) / (Real.Gamma (k + 3 / 2) * Real.Gamma (k + n + 3 / 2))

end MU.Spec
