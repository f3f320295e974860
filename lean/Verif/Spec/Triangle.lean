import Mathlib.MeasureTheory.Integral.IntervalIntegral.Basic
import Mathlib.Analysis.SpecialFunctions.Sqrt
import Mathlib.Data.Fin.VecNotation

/-!
# Integrals over a triangle in space

Nothing here mentions the model.
-/

namespace MU.Spec

/-- The point of the plane of the triangle with barycentric coordinates `(1 - a - b, a, b)`. -/
def barPoint (v1 v2 v3 : Fin 3 → ℝ) (a b : ℝ) : Fin 3 → ℝ := fun j => (1 - a - b) * v1 j + a * v2 j + b * v3 j

/-- The inner product of the space. -/
def dot3 (x y : Fin 3 → ℝ) : ℝ := ∑ j, x j * y j

/-- The distance of the space. -/
noncomputable def dist3 (x y : Fin 3 → ℝ) : ℝ := Real.sqrt (∑ j, (x j - y j) ^ 2)

/-- The area of the triangle: half the square root of the Gram determinant of two sides. -/
noncomputable def area (v1 v2 v3 : Fin 3 → ℝ) : ℝ :=
  1 / 2 * Real.sqrt (dot3 (v2 - v1) (v2 - v1) * dot3 (v3 - v1) (v3 - v1) - dot3 (v2 - v1) (v3 - v1) ^ 2)

/-- The surface integral of `F` over the triangle: the triangle is parametrised by its barycentric coordinates `a ∈ [0, 1]`, `b ∈ [0, 1 - a]`, and
the element of surface is `2 * area da db`. -/
noncomputable def triangleIntegral (F : (Fin 3 → ℝ) → ℝ) (v1 v2 v3 : Fin 3 → ℝ) : ℝ :=
  2 * area v1 v2 v3 * ∫ a in (0 : ℝ)..1, ∫ b in (0 : ℝ)..(1 - a), F (barPoint v1 v2 v3 a b)

/-- The polynomial of degree at most `k` with coefficient `c p q` for `a ^ p * b ^ q`. -/
def triPoly (k : Nat) (c : Nat → Nat → ℝ) (a b : ℝ) : ℝ :=
  ∑ p ∈ Finset.range (k + 1), ∑ q ∈ Finset.range (k + 1 - p), c p q * a ^ p * b ^ q

/-- The sum of the magnitudes of the coefficients of such a polynomial. -/
def coefSum (k : Nat) (c : Nat → Nat → ℝ) : ℝ := ∑ p ∈ Finset.range (k + 1), ∑ q ∈ Finset.range (k + 1 - p), |c p q|

end MU.Spec
