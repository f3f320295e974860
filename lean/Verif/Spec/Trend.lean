import Verif.Spec.NGrid

/-!
# Specification of the trend of data on a grid
-/

namespace MU.Spec

/-- How a coordinate may change. -/
inductive Trend | up | down | same
  deriving DecidableEq

variable {K : Type}

/-- The coordinate changes from `x` to `x'` in the direction allowed. -/
def Trend.Moves [LE K] (d : Trend) (x x' : K) : Prop :=
  match d with
  | .up => x ≤ x'
  | .down => x' ≤ x
  | .same => x = x'

/-- Every coordinate changes in the direction allowed for its axis. -/
def MovesAlong [LE K] : (ds : List Trend) → (x x' : List K) → Prop
  | [], [], [] => True
  | d :: ds, x :: xs, x' :: xs' => d.Moves x x' ∧ MovesAlong ds xs xs'
  | _, _, _ => False

/-- The data do not decrease from a node to another one in the directions allowed. -/
def FollowsTrend [LE K] (grids : List (List K)) (ds : List Trend) (F : List Nat → K) : Prop :=
  ∀ i p i' p', IsNode grids i p → IsNode grids i' p' → MovesAlong ds p p' → F i ≤ F i'

end MU.Spec
