import Verif.Spec.NGrid

/-!
# Specification of the rate of variation of data on a grid
-/

namespace MU.Spec

variable {K : Type} [Field K] [LinearOrder K]

/-- Along each axis the data of neighbouring nodes differ by at most the element of `Ls` of this axis times the distance of the nodes. -/
def LipschitzData : (grids : List (List K)) → (Ls : List K) → (F : List Nat → K) → Prop
  | [], [], _ => True
  | g :: gs, L :: Ls, F =>
    0 ≤ L ∧
    (∀ i a b, g[i]? = some a → g[i + 1]? = some b → ∀ is, Inside is (gs.map List.length) → |F ((i + 1) :: is) - F (i :: is)| ≤ L * (b - a)) ∧
    ∀ i, i < g.length → LipschitzData gs Ls (fun is => F (i :: is))
  | _, _, _ => False

/-- The sum over the axes of `L` times the difference of the coordinates. -/
def weightedDistance : (Ls x x' : List K) → K
  | L :: Ls, x :: xs, x' :: xs' => L * |x - x'| + weightedDistance Ls xs xs'
  | _, _, _ => 0

end MU.Spec
