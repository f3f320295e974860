import Mathlib.Analysis.Calculus.ContDiff.Basic
import Mathlib.Algebra.Polynomial.Eval.Degree

/-!
# What an interpolating spline is

No reference to the model. A spline of degree `p` over increasing abscissas is a function with `p - 1` continuous derivatives which is a polynomial
of degree at most `p` between neighbouring break points. The break points are the first abscissa, the last abscissa and, between
them, the means of `p` consecutive abscissas that are neither at the one end nor at the other. The first and the last polynomial go on outside.
-/

open Polynomial

namespace MU
namespace Spec

/-- The break points: there are `x.length - p + 1` of them. -/
noncomputable def breakPoint (x : List ℝ) (p j : ℕ) : ℝ :=
  if j = 0 then x.getD 0 0
  else if j + p < x.length then (∑ r ∈ Finset.range p, x.getD (j + r) 0) / p
  else x.getD (x.length - 1) 0

/-- Piece number `j` of a spline reaches up to the break points on both sides, the first and the last one beyond. -/
def OnPiece (x : List ℝ) (p j : ℕ) (a : ℝ) : Prop :=
  (j = 0 ∨ breakPoint x p j ≤ a) ∧ (j + 1 + p = x.length ∨ a ≤ breakPoint x p (j + 1))

structure IsSpline (x : List ℝ) (p : ℕ) (f : ℝ → ℝ) : Prop where
  smooth : ContDiff ℝ (p - 1 : ℕ) f
  pieces : ∀ j, j + p < x.length → ∃ q : ℝ[X], q.natDegree ≤ p ∧ ∀ a, OnPiece x p j a → f a = q.eval a

/-- The function takes the given values at the abscissas. -/
def PassesThrough (x y : List ℝ) (f : ℝ → ℝ) : Prop := ∀ i (hx : i < x.length) (hy : i < y.length), f x[i] = y[i]

end Spec
end MU
