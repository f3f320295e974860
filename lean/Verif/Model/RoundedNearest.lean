import Verif.Model.RegularGridNearest
import Mathlib.Data.Real.Basic

/-! The nearest node in `double`: the functions of `Model/RegularGridNearest.lean` again, each arithmetic operation followed by the rounding `rnd`. Comparisons and
copies are exact. Overflow and underflow are not modelled. -/

namespace MU.RGN

variable {D : Type}

/-- The index found by `Nearest` on one axis, with `Coord_t = double`. /repo/src/MathUtils/RegularGridNearest.h:196-219 -/
noncomputable def nearestIndexR (rnd : ℝ → ℝ) (coord : List ℝ) (xi : ℝ) : Res Nat := do
  let first ← vIdx coord 0
  if xi < first then .ok 0 else
  let last ← vIdx coord (coord.length - 1)
  if last ≤ xi then .ok (coord.length - 1) else
  let k ← upperBound coord xi
  let icell := k - 1
  let hi ← vIdx coord (icell + 1)
  let lo ← vIdx coord icell
  if rnd (1 / 2 * rnd (hi + lo)) ≤ xi then .ok (icell + 1) else .ok icell

/-- The loop of `Nearest`, with `Coord_t = double`. /repo/src/MathUtils/RegularGridNearest.h:196-222 -/
noncomputable def nearestLoopR (rnd : ℝ → ℝ) : (grids : List (List ℝ)) → (point : List ℝ) → Res (List Nat × List ℝ)
  | [], [] => .ok ([], [])
  | g :: gs, x :: xs => do
    let i ← nearestIndexR rnd g x
    let c ← vIdx g i
    let r ← nearestLoopR rnd gs xs
    return (i :: r.1, c :: r.2)
  | _, _ => .ub

/-- `Nearest`, with `Coord_t = double`. /repo/src/MathUtils/RegularGridNearest.h:187-227 -/
noncomputable def nearestR (rnd : ℝ → ℝ) (s : RGN ℝ D) (point : List ℝ) : Res (GridNode ℝ D) := do
  let (indices, coords) ← nearestLoopR rnd s.grid_list point
  let val ← mdRead s.data.shape s.data.elems (indices.map (fun (n : Nat) => (n : Int)))
  return ⟨indices, coords, val⟩

end MU.RGN
