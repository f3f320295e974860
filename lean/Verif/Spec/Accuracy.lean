import Verif.Spec.Chebyshev
import Verif.Spec.NGrid
import Mathlib.Analysis.Calculus.Deriv.Basic

/-!
# Specification of the accuracy of approximations of a smooth function
-/

namespace MU.Spec

/-- On the set `S` (an interval) the function `f` has derivatives of orders `1`, …, `k`, one-sided at the ends, and the `k`-th one is at most `M`
in magnitude. -/
def DerivBound (k : Nat) (f : ℝ → ℝ) (S : Set ℝ) (M : ℝ) : Prop :=
  ∃ d : Nat → ℝ → ℝ, (∀ t ∈ S, d 0 t = f t) ∧ (∀ j, j < k → ∀ t ∈ S, HasDerivWithinAt (d j) (d (j + 1) t) S t) ∧ ∀ t ∈ S, |d k t| ≤ M

/-- The image of a domain by the map to `[-1, 1]`: a half line does not reach `1`. -/
def Domain.unitSet : Domain ℝ → Set ℝ
  | .segment _ _ => Set.Icc (-1) 1
  | .halfLine _ => Set.Ico (-1) 1

/-- As a function of the variable mapped to `[-1, 1]`, `F` has a derivative of order `k` at most `M` in magnitude on the whole domain. -/
def DerivBoundOn (k : Nat) (F : ℝ → ℝ) (X : Domain ℝ) (M : ℝ) : Prop :=
  ∃ G : ℝ → ℝ, (∀ x, X.Mem x → F x = G (X.unit x)) ∧ DerivBound k G X.unitSet M

/-- For each axis the second derivative along this axis of the function `f` of several variables is at most the corresponding element of `Ms` in
magnitude, at all points of the box of the grid. -/
def AxisBounds : (grids : List (List ℝ)) → (Ms : List ℝ) → (f : List ℝ → ℝ) → Prop
  | [], [], _ => True
  | g :: gs, M :: Ms, f =>
    (∀ a b, g.head? = some a → g.getLast? = some b → ∀ xs, InBox gs xs → DerivBound 2 (fun t => f (t :: xs)) (Set.Icc a b) M) ∧
    (∀ a b, g.head? = some a → g.getLast? = some b → ∀ t, a ≤ t → t ≤ b → AxisBounds gs Ms (fun xs => f (t :: xs)))
  | _, _, _ => False

/-- The sum over the axes of `M h² / 8`, where `h` is the width of the cell along the axis. -/
noncomputable def cellError : (cell : List (Nat × ℝ × ℝ)) → (Ms : List ℝ) → ℝ
  | (_, a, b) :: cell, M :: Ms => M * (b - a) ^ 2 / 8 + cellError cell Ms
  | _, _ => 0

end MU.Spec
