import Verif.Model.RegularGridNearest

/-!
# Memory exhaustion in regular grids (RegularGridInterpolator.h, RegularGridNearest.h)

Same conventions as in Model/OutOfMemory: `fail site = true` says that memory is exhausted at this allocation, `std::bad_alloc` then leaves the function. The
library functions `vector::push_back`, `vector::assign` on a new vector and `multi_array::resize` (which builds a new array and then exchanges the pointers)
have no effect when they throw. The numbers copied by `m_data = ndarray` need no allocation.
-/

namespace MU

/-- The allocations of the functions that load a grid. /repo/src/MathUtils/RegularGridInterpolator.h:109-184,
/repo/src/MathUtils/RegularGridNearest.h:105-142, /repo/src/MathUtils/thirdparty/linterp.h:123-173 -/
inductive GridSite where
  /-- `m_grid_list.push_back` -/
  | axis
  /-- `m_grid_list = other.m_grid_list` -/
  | axes
  /-- `ex.assign` -/
  | extents
  /-- `m_data.resize` -/
  | resize
  /-- the copy of axis `d` in `_BuildInterpolator` -/
  | copyAxis (d : Nat)
  /-- `get_begins_ends` -/
  | iterators
  /-- `std::make_unique` of the interpolator -/
  | object
  /-- the list of axes of the interpolator -/
  | axisList
  /-- the array reference of the interpolator -/
  | arrayRef
  deriving DecidableEq, Repr

/-- An allocation. /repo/src/MathUtils/RegularGridInterpolator.h:109-184 -/
def gridAlloc {σ : Type} (fail : GridSite → Bool) (site : GridSite) : Act σ Unit :=
  Act.lift (if fail site then .throws .badAlloc else .ok ())

namespace RGI
variable {K : Type} [Field K] [LinearOrder K]

/-- `AddCoord`. /repo/src/MathUtils/RegularGridInterpolator.h:125-140 -/
def addCoordF (fail : GridSite → Bool) (dim : Nat) (vec : List K) : Act (RGI K) Unit := do
  let s ← Act.get
  if s.grid_list.length = dim then
    Act.lift (.exits 1)
  else if increasing vec then do
    gridAlloc fail .axis
    Act.update fun s => { s with grid_list := s.grid_list ++ [vec] }
  else
    Act.lift (.throws .runtimeError)

/-- `_BuildInterpolator`. /repo/src/MathUtils/RegularGridInterpolator.h:162-184. When the copy of axis `d` fails the limits of the axes before it are already the new
ones (limits that were not initialised stay so in the model). Missing and empty axes (undefined behaviour) are looked for before the copies. The wrong size of the
values (linterp.h:158-160) is reported before the array reference is allocated. -/
def buildF (fail : GridSite → Bool) (dim : Nat) : Act (RGI K) Unit := do
  let s ← Act.get
  let l ← Act.lift (computeLimits dim s.grid_list)
  match (List.range dim).find? (fun d => fail (.copyAxis d)) with
  | some d => do
    Act.update fun s => { s with limits := s.limits.map (fun old => l.take d ++ old.drop d) }
    Act.lift (.throws .badAlloc)
  | none => do
    Act.update fun s => { s with limits := some l }
    gridAlloc fail .iterators
    gridAlloc fail .object
    gridAlloc fail .axisList
    let t ← Act.lift (NDInterp.new s.grid_list s.data.elems)
    gridAlloc fail .arrayRef
    Act.update fun s => { s with interp := some (t, s.gen) }

/-- `AddVar`. /repo/src/MathUtils/RegularGridInterpolator.h:142-160 -/
def addVarF (fail : GridSite → Bool) (dim : Nat) (a : NDArray K) : Act (RGI K) Unit := do
  let s ← Act.get
  if s.grid_list.length ≠ dim then
    Act.lift (.exits 1)
  else do
    gridAlloc fail .extents
    gridAlloc fail .resize
    Act.update fun s => { s with data := a, gen := s.gen + 1 }
    buildF fail dim

/-- `operator=`. /repo/src/MathUtils/RegularGridInterpolator.h:109-123. When the assignment of the axes throws the axes are in some state, `left`. The interpolator of the
object refers to the block of the values, which `resize` replaces, but not to the storage of the axes: `m_grid_list.push_back` (linterp.h:131) copies a `ublas::array_adaptor`,
and its copy owns its elements. -/
def assignF (fail : GridSite → Bool) (left : List (List K)) (dim : Nat) (other : RGI K) : Act (RGI K) Unit := do
  if fail .axes then
    Act.update fun s => { s with grid_list := left }
    Act.lift (.throws .badAlloc)
  else do
    Act.update fun s => { s with grid_list := other.grid_list }
    gridAlloc fail .extents
    gridAlloc fail .resize
    Act.update fun s => { s with data := other.data, gen := s.gen + 1 }
    buildF fail dim

/-- Copy constructor. /repo/src/MathUtils/RegularGridInterpolator.h:104-107. When it throws there is no object. -/
def copyF (fail : GridSite → Bool) (left : List (List K)) (dim : Nat) (other : RGI K) : Res (RGI K) :=
  match (assignF fail left dim other).run (new K dim) with
  | (.ok _, s) => .ok s
  | (.throws e, _) => .throws e
  | (.exits c, _) => .exits c
  | (.aborts, _) => .aborts
  | (.ub, _) => .ub
  | (.nonfinite, _) => .nonfinite

end RGI

namespace RGN
variable {K D : Type}

/-- `AddCoord`. /repo/src/MathUtils/RegularGridNearest.h:119-126 -/
def addCoordF (fail : GridSite → Bool) (dim : Nat) (vec : List K) : Act (RGN K D) Unit := do
  let s ← Act.get
  if s.grid_list.length = dim then Act.lift (.exits 1)
  else do
    gridAlloc fail .axis
    Act.update fun s => { s with grid_list := s.grid_list ++ [vec] }

/-- `AddVar`, for elements whose copy does not throw. /repo/src/MathUtils/RegularGridNearest.h:128-142 -/
def addVarF (fail : GridSite → Bool) (dim : Nat) (a : NDArray D) : Act (RGN K D) Unit := do
  let s ← Act.get
  if s.grid_list.length ≠ dim then Act.lift (.exits 1)
  else do
    gridAlloc fail .extents
    gridAlloc fail .resize
    Act.update fun s => { s with data := a }

/-- `operator=`, for elements whose copy does not throw. /repo/src/MathUtils/RegularGridNearest.h:105-117. When the assignment of the axes throws the axes are in
some state, `left`. -/
def assignF (fail : GridSite → Bool) (left : List (List K)) (other : RGN K D) : Act (RGN K D) Unit := do
  if fail .axes then
    Act.update fun s => { s with grid_list := left }
    Act.lift (.throws .badAlloc)
  else do
    Act.update fun s => { s with grid_list := other.grid_list }
    gridAlloc fail .extents
    gridAlloc fail .resize
    Act.update fun s => { s with data := other.data }

end RGN
end MU
