import Verif.Spec.NGrid
import Mathlib.Analysis.Calculus.Deriv.Basic

/-!
# Specification of the accuracy of simplex interpolation
-/

namespace MU.Spec

/-- The scalar product. -/
def dotL (g d : List ℝ) : ℝ := (List.zipWith (· * ·) g d).sum

/-- The difference of two points. -/
def diffL (y x : List ℝ) : List ℝ := List.zipWith (· - ·) y x

/-- The point at the proportion `t` of the segment from `x` to `y`. -/
def segL (x y : List ℝ) (t : ℝ) : List ℝ := List.zipWith (fun a b => a + t * (b - a)) x y

/-- `f` has on the box of the grid a gradient `G` that varies by at most `M` per unit of length along every segment: its second derivative in every direction is at
most `M` in magnitude. -/
structure Curvature (grids : List (List ℝ)) (f : List ℝ → ℝ) (G : List ℝ → List ℝ) (M : ℝ) : Prop where
  deriv : ∀ x y, InBox grids x → InBox grids y → ∀ t ∈ Set.Icc (0 : ℝ) 1,
    HasDerivWithinAt (fun s => f (segL x y s)) (dotL (G (segL x y t)) (diffL y x)) (Set.Icc 0 1) t
  bound : ∀ x y, InBox grids x → InBox grids y → |dotL (G y) (diffL y x) - dotL (G x) (diffL y x)| ≤ M * dotL (diffL y x) (diffL y x)

/-- The sum over the axes of `(x - a) (b - x)`, where `a` and `b` are the nodes around the coordinate `x`. -/
def spread : (cell : List (Nat × ℝ × ℝ)) → (x : List ℝ) → ℝ
  | (_, a, b) :: cell, x :: xs => (x - a) * (b - x) + spread cell xs
  | _, _ => 0

/-- The sum over the axes of `2 L (x - a) (b - x) / (b - a)`. -/
noncomputable def spreadL : (cell : List (Nat × ℝ × ℝ)) → (Ls x : List ℝ) → ℝ
  | (_, a, b) :: cell, L :: Ls, x :: xs => 2 * L * ((x - a) * (b - x)) / (b - a) + spreadL cell Ls xs
  | _, _, _ => 0

/-- `f` varies along each axis at a rate of at most the corresponding element of `Ls`: at two points of the box the values differ by at most the sum of the
`L |y - x|`. -/
def RateBounds (grids : List (List ℝ)) (f : List ℝ → ℝ) (Ls : List ℝ) : Prop :=
  ∀ x y, InBox grids x → InBox grids y → |f y - f x| ≤ dotL Ls ((diffL y x).map (|·|))

end MU.Spec
