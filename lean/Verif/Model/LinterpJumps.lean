import Verif.Model.Linterp

/-!
# thirdparty/linterp.h for `Continuous = false`

The interpolators of `Model/Linterp.lean` for functions that jump at the nodes of the grid: there are two values for each node of an axis. The cells and the fractions are found
as in the continuous case; the size that the constructor asks for, the extents of the array and the indices differ. `CopyData` does not matter: the contents are the same.
-/

namespace MU.NDInterp

variable {K : Type}

/-- The constructor for `Continuous = false`: the size is compared with twice the number of nodes. /repo/src/MathUtils/thirdparty/linterp.h:96-112, 123-140, 149-163. -/
def newJumps (grids : List (List K)) (values : List K) : Res (NDInterp K) :=
  if values.length ≠ 2 * (grids.map List.length).prod then .throws .invalidArgument else .ok ⟨grids, values⟩

/-- The extents of the array for `Continuous = false`: each of them is doubled. /repo/src/MathUtils/thirdparty/linterp.h:164-172. -/
def jumpExtents (grids : List (List K)) : List Nat := grids.map (fun g => g.length * 2)

/-- `get_f_val(cell_index, v_index)` for `Continuous = false`: the indices `f_index`. /repo/src/MathUtils/thirdparty/linterp.h:205-215. -/
def fIndexJumps : (grids : List (List K)) → (cell v : List Int) → List Int
  | g :: gs, c :: cs, v :: vs =>
    (if c < 0 then 0 else if (g.length : Int) - 1 ≤ c then 2 * (g.length : Int) - 1 else 1 + 2 * c + v) :: fIndexJumps gs cs vs
  | _, _, _ => []

/-- `get_f_val(cell_index, v_index)` for `Continuous = false`. /repo/src/MathUtils/thirdparty/linterp.h:192-217. An index within the extents whose element is past the end of the
values is undefined. -/
def getFValJumps (t : NDInterp K) (cell v : List Int) : Res K :=
  mdRead (jumpExtents t.grids) t.values (fIndexJumps t.grids cell v)

variable [Field K] [LinearOrder K]

/-- `InterpMultilinear::interp(x)` for `Continuous = false`. /repo/src/MathUtils/thirdparty/linterp.h:333-376, 219-225. -/
def interpMultilinearJumps (t : NDInterp K) (x : List K) : Res K := do
  let (cells, ys) ← axes t.grids x
  let f ← forRange 0 (1 <<< t.grids.length) (fun v f => do
    let y ← getFValJumps t cells (vertexBits t.grids.length v)
    return f ++ [y]) []
  unitcube f ys

/-- The walk along the vertices of the simplex for `Continuous = false`. /repo/src/MathUtils/thirdparty/linterp.h:291-296. -/
def simplexWalkJumps (t : NDInterp K) (cells : List Int) : (order : List (K × Nat)) → (v : List Int) → (v0 y : K) → Res K
  | [], _, _, y => .ok y
  | (xi, d) :: rest, v, v0, y => do
    let v := v.modify d (· - 1)
    let v1 ← getFValJumps t cells v
    simplexWalkJumps t cells rest v v1 (y + (1 - xi) * (v1 - v0))

/-- `InterpSimplex::interp(x)` for `Continuous = false`. /repo/src/MathUtils/thirdparty/linterp.h:242-299. -/
def interpSimplexJumps (sort : List (K × Nat) → List (K × Nat)) (t : NDInterp K) (x : List K) : Res K := do
  let (cells, ys) ← axes t.grids x
  let xipair := sort ys.zipIdx
  let ones := List.replicate t.grids.length 1
  let v0 ← getFValJumps t cells ones
  simplexWalkJumps t cells xipair ones v0 v0

end MU.NDInterp
