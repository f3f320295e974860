import Verif.Core
import Mathlib.Algebra.BigOperators.Ring.Finset
import Mathlib.Analysis.Calculus.Deriv.Basic

/-!
# Specification of series expansions

Domains of a variable, the map of a domain onto `[-1, 1]`, polynomials in several variables, partial derivatives of a program.
-/

namespace MU.Spec
open Finset

variable {K : Type} [Field K]

/-- The domain of one variable of a series: `[a, b]`, or `[a, +infinity)`. -/
inductive Domain (K : Type) where
  | segment (a b : K)
  | halfLine (a : K)

namespace Domain

/-- The documented map of the domain to `[-1, 1]`. It sends `a` to `-1` and `b` (infinity) to `1`. -/
def unit : Domain K → K → K
  | segment a b, x => (2 * x - a - b) / (b - a)
  | halfLine a, x => 1 - 2 * a / x

/-- Where the map is defined: the segment must not be reduced to a point, the variable of a half line must not be zero. -/
def Defined : Domain K → K → Prop
  | segment a b, _ => a ≠ b
  | halfLine _, x => x ≠ 0

end Domain

/-- `b 0 + b 1 * u + … + b (n-1) * u^(n-1)`. -/
def poly1 (n : Nat) (b : Nat → K) (u : K) : K := ∑ i ∈ range n, b i * u ^ i

/-- The sum of `b i j * u^i * v^j` over `i < n`, `j < m`. -/
def poly2 (n m : Nat) (b : Nat → Nat → K) (u v : K) : K := ∑ i ∈ range n, ∑ j ∈ range m, b i j * u ^ i * v ^ j

/-- The sum of `b i j k * u^i * v^j * w^k` over `i < n`, `j < m`, `k < l`. -/
def poly3 (n m l : Nat) (b : Nat → Nat → Nat → K) (u v w : K) : K :=
  ∑ i ∈ range n, ∑ j ∈ range m, ∑ k ∈ range l, b i j k * u ^ i * v ^ j * w ^ k

/-- The call `D` returns the derivative at `x` of the function computed by the calls `F t`. -/
def IsDerivAt (F : ℝ → Res ℝ) (D : Res ℝ) (x : ℝ) : Prop :=
  ∃ f d, (∀ᶠ t in nhds x, F t = .ok (f t)) ∧ D = .ok d ∧ HasDerivAt f d x

end MU.Spec
