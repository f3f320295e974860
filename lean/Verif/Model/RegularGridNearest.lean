import Verif.Model.RegularGridInterpolator

/-!
# RegularGridNearest.h

The dimension is a parameter; arrays of `_dim` elements are lists of this length. The number of nodes of an axis fits in the `int` of `Nearest`.
-/

namespace MU

/-- `GridNode`. /repo/src/MathUtils/RegularGridNearest.h:21-44 -/
structure GridNode (K D : Type) where
  indices : List Nat
  coords : List K
  val : D

/-- Fields of `RegularGridNearest`. /repo/src/MathUtils/RegularGridNearest.h:90-91 -/
structure RGN (K D : Type) where
  grid_list : List (List K)
  data : NDArray D

namespace RGN

variable {K D : Type}

/-- Constructor. /repo/src/MathUtils/RegularGridNearest.h:95-98 -/
def new (K D : Type) (dim : Nat) : RGN K D := ⟨[], ⟨List.replicate dim 0, []⟩⟩

/-- `AddCoord`. /repo/src/MathUtils/RegularGridNearest.h:119-126 -/
def addCoord (dim : Nat) (vec : List K) : Act (RGN K D) Unit := do
  let s ← Act.get
  if s.grid_list.length = dim then Act.lift (.exits 1)
  else Act.update fun s => { s with grid_list := s.grid_list ++ [vec] }

/-- `AddVar`. /repo/src/MathUtils/RegularGridNearest.h:128-142 -/
def addVar (dim : Nat) (a : NDArray D) : Act (RGN K D) Unit := do
  let s ← Act.get
  if s.grid_list.length ≠ dim then Act.lift (.exits 1)
  else Act.update fun s => { s with data := a }

/-- `operator=`: the object afterwards. The array is resized to the shape of the other one before its elements are copied.
/repo/src/MathUtils/RegularGridNearest.h:105-117 -/
def assign (other : RGN K D) : Act (RGN K D) Unit := do
  Act.update fun s => { s with grid_list := other.grid_list }
  Act.update fun s => { s with data := other.data }

/-- Copy constructor. /repo/src/MathUtils/RegularGridNearest.h:100-103 -/
def copy (dim : Nat) (other : RGN K D) : Res Unit × RGN K D := (assign other).run (new K D dim)

/-- `GetCoord`. /repo/src/MathUtils/RegularGridNearest.h:144-152 -/
def getCoord (dim : Nat) (s : RGN K D) (idx : Nat) : Res (List K) :=
  if dim ≤ idx then .exits 1 else vIdx s.grid_list idx

/-- `GetDimension`. /repo/src/MathUtils/RegularGridNearest.h:174-177 -/
def getDimension (dim : Nat) : Nat := dim

/-- `IsValid`. /repo/src/MathUtils/RegularGridNearest.h:267-270 -/
def isValid (_ : RGN K D) : Bool := true

/-- `GetData`: the body has no return statement, so that every call is undefined. /repo/src/MathUtils/RegularGridNearest.h:179-183 -/
def getData (_ : RGN K D) (_ : List K) : Res D := .ub

/-- A client that adds axes one after the other. It stands for any user of /repo/src/MathUtils/RegularGridNearest.h:63. -/
def addCoords (dim : Nat) : List (List K) → Act (RGN K D) Unit
  | [] => pure ()
  | g :: gs => do
    addCoord dim g
    addCoords dim gs

/-- A client that constructs an object, adds its axes and an array. It stands for any user of /repo/src/MathUtils/RegularGridNearest.h:57, 63-65. -/
def make (dim : Nat) (grids : List (List K)) (a : NDArray D) : Res Unit × RGN K D :=
  (do addCoords dim grids; addVar dim a : Act (RGN K D) Unit).run (new K D dim)

variable [Field K] [LinearOrder K]

omit [Field K] in
/-- `GetCoordMinVal`: `*std::min_element` of an empty axis reads its end. /repo/src/MathUtils/RegularGridNearest.h:154-162 -/
def getCoordMinVal (dim : Nat) (s : RGN K D) (idx : Nat) : Res K :=
  if dim ≤ idx then .exits 1 else do
    let g ← vIdx s.grid_list idx
    match g with
    | [] => .ub
    | a :: l => return l.foldl (fun m x => if x < m then x else m) a

omit [Field K] in
/-- `GetCoordMaxVal`. /repo/src/MathUtils/RegularGridNearest.h:164-172 -/
def getCoordMaxVal (dim : Nat) (s : RGN K D) (idx : Nat) : Res K :=
  if dim ≤ idx then .exits 1 else do
    let g ← vIdx s.grid_list idx
    match g with
    | [] => .ub
    | a :: l => return l.foldl (fun m x => if m < x then x else m) a

/-- The index found by `Nearest` on one axis. /repo/src/MathUtils/RegularGridNearest.h:196-219 -/
def nearestIndex (coord : List K) (xi : K) : Res Nat := do
  let first ← vIdx coord 0
  if xi < first then .ok 0 else
  let last ← vIdx coord (coord.length - 1)
  if last ≤ xi then .ok (coord.length - 1) else
  let k ← upperBound coord xi
  let icell := k - 1
  let hi ← vIdx coord (icell + 1)
  let lo ← vIdx coord icell
  if 1 / 2 * (hi + lo) ≤ xi then .ok (icell + 1) else .ok icell

/-- The loop of `Nearest`: indices and coordinates. The point has `_dim` coordinates; `m_grid_list[i]` is undefined when fewer axes have been added.
/repo/src/MathUtils/RegularGridNearest.h:196-222. -/
def nearestLoop : (grids : List (List K)) → (point : List K) → Res (List Nat × List K)
  | [], [] => .ok ([], [])
  | g :: gs, x :: xs => do
    let i ← nearestIndex g x
    let c ← vIdx g i
    let r ← nearestLoop gs xs
    return (i :: r.1, c :: r.2)
  | _, _ => .ub

/-- `Nearest`. /repo/src/MathUtils/RegularGridNearest.h:187-227 -/
def nearest (s : RGN K D) (point : List K) : Res (GridNode K D) := do
  let (indices, coords) ← nearestLoop s.grid_list point
  let val ← mdRead s.data.shape s.data.elems (indices.map (fun (n : Nat) => (n : Int)))
  return ⟨indices, coords, val⟩

/-- The cell found by `GetSurroundingGridNodes` on one axis, an `unsigned int` (32 bits): `-1` is `2^32 - 1`.
/repo/src/MathUtils/RegularGridNearest.h:239-257 -/
def surroundingIndex (coord : List K) (xi : K) : Res Nat := do
  let first ← vIdx coord 0
  if xi < first then .ok (2 ^ 32 - 1) else
  let last ← vIdx coord (coord.length - 1)
  if last ≤ xi then .ok ((coord.length - 1) % 2 ^ 32) else
  let k ← upperBound coord xi
  return (k - 1) % 2 ^ 32

/-- The loop over the dimensions, as in `nearestLoop`. /repo/src/MathUtils/RegularGridNearest.h:239-257 -/
def surroundingLoop : (grids : List (List K)) → (point : List K) → Res (List Nat)
  | [], [] => .ok []
  | g :: gs, x :: xs => do
    let i ← surroundingIndex g x
    let r ← surroundingLoop gs xs
    return i :: r
  | _, _ => .ub

omit [Field K] [LinearOrder K] in
/-- The indices of `GetNode(cell_index, v_index)`; all quantities are unsigned, so that `cell_index[i] < 0` is never true; `size() - 1` wraps
around for an empty axis. /repo/src/MathUtils/RegularGridNearest.h:290-300 -/
def nodeIndices : (grids : List (List K)) → (cell v : List Nat) → List Nat
  | g :: gs, c :: cs, v :: vs =>
    (if c < 0 then 0 else if usub 64 g.length 1 ≤ c then usub 64 g.length 1 else c + v) :: nodeIndices gs cs vs
  | _, _, _ => []

omit [Field K] [LinearOrder K] in
/-- The coordinates of `GetNode`. /repo/src/MathUtils/RegularGridNearest.h:301 -/
def nodeCoords : (grids : List (List K)) → (idx : List Nat) → Res (List K)
  | g :: gs, i :: is => do
    let c ← vIdx g i
    let r ← nodeCoords gs is
    return c :: r
  | _, _ => .ok []

omit [Field K] [LinearOrder K] in
/-- `v_index[dim] = (v >> (_dim - dim - 1)) & 1`. /repo/src/MathUtils/RegularGridNearest.h:275-278 -/
def vertexBits (N v : Nat) : List Nat := (List.range N).map fun dim => (v >>> (N - dim - 1)) &&& 1

omit [Field K] [LinearOrder K] in
/-- `GetNode(cell_index, v)`. /repo/src/MathUtils/RegularGridNearest.h:272-307 -/
def getNode (s : RGN K D) (cell : List Nat) (v : Nat) : Res (GridNode K D) := do
  let indices := nodeIndices s.grid_list cell (vertexBits s.grid_list.length v)
  let coords ← nodeCoords s.grid_list indices
  let val ← mdRead s.data.shape s.data.elems (indices.map (fun (n : Nat) => (n : Int)))
  return ⟨indices, coords, val⟩

/-- `GetSurroundingGridNodes`. /repo/src/MathUtils/RegularGridNearest.h:229-265 -/
def surrounding (s : RGN K D) (point : List K) : Res (List (GridNode K D)) := do
  let cell ← surroundingLoop s.grid_list point
  forRange 0 (1 <<< s.grid_list.length) (fun v nodes => do
    let n ← getNode s cell v
    return nodes ++ [n]) []

end RGN
end MU
