import Verif.Model.RegularGridInterpolator
import Verif.Spec.NGrid

/-!
# Histories of calls to a regular grid interpolator

Which axes a history of calls leaves in the object, and what it means that the object is loaded with data.
-/

namespace MU.Spec

variable {K : Type} [Field K] [LinearOrder K]

/-- The axis passed to a call of `AddCoord`. -/
def axisArg : RGI.Op K → Option (List K)
  | .addCoord v => some v
  | .addVar _ => none

/-- The axes of a history that are strictly increasing, in order. -/
def acceptedAxes (ops : List (RGI.Op K)) : List (List K) :=
  (ops.filterMap axisArg).filter (fun v => decide (v.Pairwise (· < ·)))

/-- The program survived all its calls: each returned, or threw an exception that the client caught. -/
def Alive (outcomes : List (Res Unit)) : Prop := ∀ r ∈ outcomes, r = .ok () ∨ ∃ e, r = .throws e

/-- `s` is an object on which, after some history of calls (accepted, rejected or failing), an `AddVar` has just succeeded; `grids` are the
axes accepted during the history, and the array passed to that `AddVar` has the shape of the grid and the element `F idx` at indices `idx`. -/
structure Loaded (dim : Nat) (grids : List (List K)) (F : List Nat → K) (s : RGI K) : Prop where
  dim_pos : 0 < dim
  history : ∃ (ops : List (RGI.Op K)) (outs : List (Res Unit)) (s0 : RGI K) (a : NDArray K),
    RGI.execAll dim ops (RGI.new K dim) = (outs, s0) ∧ Alive outs ∧ acceptedAxes ops = grids ∧
    a.shape = grids.map List.length ∧ Holds a.shape a.elems F ∧ (RGI.addVar dim a).run s0 = (.ok (), s)

end MU.Spec
