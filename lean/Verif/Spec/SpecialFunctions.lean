import Mathlib.Analysis.SpecialFunctions.ImproperIntegrals
import Mathlib.MeasureTheory.Integral.IntervalIntegral.Basic

/-!
# Specification of the exponential integrals
-/

namespace MU.Spec
open Filter Topology

/-- `E1(x)`, the integral of `e^-t / t` from `x` to infinity. -/
noncomputable def E1 (x : ℝ) : ℝ := ∫ t in Set.Ioi x, Real.exp (-t) / t

/-- `v` is `Ei(x)`: the principal value of the integral of `e^t / t` from minus infinity to `x`. -/
def IsEi (x v : ℝ) : Prop :=
  Tendsto (fun δ => (∫ t in Set.Iic (-δ), Real.exp t / t) + ∫ t in δ..x, Real.exp t / t) (𝓝[>] 0) (𝓝 v)

end MU.Spec
