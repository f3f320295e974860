import Verif.Model.Linterp

/-!
# RegularGridInterpolator.h

The dimension `_dim` is a parameter `dim`; a `std::array<Real, _dim>` is a list of this length. A `boost::multi_array` is its shape and its
elements in C order. The interpolator object built by `_BuildInterpolator` does not own the values, it points into `m_data`; since
`boost::multi_array::resize` always allocates a new block, each resize starts a new generation of the storage, and following the pointer of
an older generation is undefined behaviour.
-/

namespace MU

/-- A `boost::multi_array`: shape and elements in C order.
/repo/src/MathUtils/RegularGridInterpolator.h:52, /repo/src/MathUtils/RegularGridNearest.h:53. -/
structure NDArray (K : Type) where
  shape : List Nat
  elems : List K

/-- Fields of `RegularGridInterpolator`. /repo/src/MathUtils/RegularGridInterpolator.h:85-90. `m_limits` is uninitialised before the first build. -/
structure RGI (K : Type) where
  grid_list : List (List K)
  data : NDArray K
  /-- generation of the storage of `m_data` -/
  gen : Nat
  /-- the interpolator, and the generation of the storage it points to; `none` for a null pointer -/
  interp : Option (NDInterp K × Nat)
  limits : Option (List (K × K))

namespace RGI

variable {K : Type}

/-- `RegularGridInterpolator()`. /repo/src/MathUtils/RegularGridInterpolator.h:99-102. The default multi-array has zero extents. -/
def new (K : Type) (dim : Nat) : RGI K :=
  { grid_list := [], data := ⟨List.replicate dim 0, []⟩, gen := 0, interp := none, limits := none }

variable [Field K] [LinearOrder K]

/-- The check of `AddCoord`: no `vec[i] <= vec[i-1]` for `i` in `1 .. size-1`. /repo/src/MathUtils/RegularGridInterpolator.h:133-137 -/
def increasing : List K → Bool
  | a :: b :: l => !(decide (b ≤ a)) && increasing (b :: l)
  | _ => true

/-- `AddCoord`. /repo/src/MathUtils/RegularGridInterpolator.h:125-140. `EXIT_FAILURE` is 1. -/
def addCoord (dim : Nat) (vec : List K) : Act (RGI K) Unit := do
  let s ← Act.get
  if s.grid_list.length = dim then
    Act.lift (.exits 1)
  else if increasing vec then
    Act.update fun s => { s with grid_list := s.grid_list ++ [vec] }
  else
    Act.lift (.throws .runtimeError)

/-- First and last elements of the axes, as computed by `_BuildInterpolator`. /repo/src/MathUtils/RegularGridInterpolator.h:171-175. `m_grid_list[dim]` is
undefined when there are fewer than `dim` axes, `v[0]` when the axis is empty. -/
def computeLimits : (dim : Nat) → List (List K) → Res (List (K × K))
  | 0, _ => .ok []
  | _ + 1, [] => .ub
  | d + 1, g :: gs => do
    let a ← vIdx g 0
    let b ← vIdx g (g.length - 1)
    let r ← computeLimits d gs
    return (a, b) :: r

/-- `_BuildInterpolator`. /repo/src/MathUtils/RegularGridInterpolator.h:162-184. When the constructor of the interpolator throws, `c_interpolator` keeps its
previous value. -/
def build (dim : Nat) : Act (RGI K) Unit := do
  let s ← Act.get
  let l ← Act.lift (computeLimits dim s.grid_list)
  Act.update fun s => { s with limits := some l }
  let t ← Act.lift (NDInterp.new s.grid_list s.data.elems)
  Act.update fun s => { s with interp := some (t, s.gen) }

/-- `AddVar`. /repo/src/MathUtils/RegularGridInterpolator.h:142-160 -/
def addVar (dim : Nat) (a : NDArray K) : Act (RGI K) Unit := do
  let s ← Act.get
  if s.grid_list.length ≠ dim then
    Act.lift (.exits 1)
  else do
    Act.update fun s => { s with data := a, gen := s.gen + 1 }
    build dim

/-- `operator=`: the object `this` afterwards. /repo/src/MathUtils/RegularGridInterpolator.h:109-123 -/
def assign (dim : Nat) (other : RGI K) : Act (RGI K) Unit := do
  Act.update fun s => { s with grid_list := other.grid_list }
  Act.update fun s => { s with data := other.data, gen := s.gen + 1 }
  build dim

/-- Copy constructor. /repo/src/MathUtils/RegularGridInterpolator.h:104-107 -/
def copy (dim : Nat) (other : RGI K) : Res Unit × RGI K := (assign dim other).run (new K dim)

/-- The loop of the bound check. /repo/src/MathUtils/RegularGridInterpolator.h:190-195 -/
def boundCheck : (limits : List (K × K)) → (point : List K) → Res Unit
  | [], _ => .ok ()
  | (a, b) :: ls, x :: xs => if x < a ∨ b < x then .throws .runtimeError else boundCheck ls xs
  | _ :: _, [] => .ub

/-- `Interp(point, bound_check)`. /repo/src/MathUtils/RegularGridInterpolator.h:186-199 -/
def interpolate (s : RGI K) (point : List K) (bound_check : Bool) : Res K := do
  if bound_check then
    let l ← readVar s.limits
    boundCheck l point
  let (t, g) ← deref s.interp
  if g ≠ s.gen then .ub else
  NDInterp.interpMultilinear t point

/-- `EvalAtIndice`. /repo/src/MathUtils/RegularGridInterpolator.h:201-204 -/
def evalAtIndice (s : RGI K) (index : List Nat) : Res K :=
  mdRead s.data.shape s.data.elems (index.map (fun (n : Nat) => (n : Int)))

/-- `IsValid`. /repo/src/MathUtils/RegularGridInterpolator.h:211-214 -/
def isValid (s : RGI K) : Bool := s.interp.isSome

/-- `GetDimension`. /repo/src/MathUtils/RegularGridInterpolator.h:206-209 -/
def getDimension (dim : Nat) : Nat := dim

/-- `GetCoord`. /repo/src/MathUtils/RegularGridInterpolator.h:216-223 -/
def getCoord (dim : Nat) (s : RGI K) (idx : Nat) : Res (List K) :=
  if dim ≤ idx then .exits 1 else vIdx s.grid_list idx

/-- `GetCoordMaxVal`. /repo/src/MathUtils/RegularGridInterpolator.h:225-232 -/
def getCoordMaxVal (dim : Nat) (s : RGI K) (idx : Nat) : Res K :=
  if dim ≤ idx then .exits 1 else do
    let l ← readVar s.limits
    let p ← vIdx l idx
    return p.2

/-- `GetCoordMinVal`. /repo/src/MathUtils/RegularGridInterpolator.h:234-241 -/
def getCoordMinVal (dim : Nat) (s : RGI K) (idx : Nat) : Res K :=
  if dim ≤ idx then .exits 1 else do
    let l ← readVar s.limits
    let p ← vIdx l idx
    return p.1

/-- A call made by a client. The public functions of /repo/src/MathUtils/RegularGridInterpolator.h:62-64. -/
inductive Op (K : Type) where
  | addCoord (vec : List K)
  | addVar (a : NDArray K)

/-- Executing a call. The public functions of /repo/src/MathUtils/RegularGridInterpolator.h:62-64. -/
def exec (dim : Nat) : Op K → Act (RGI K) Unit
  | .addCoord v => addCoord dim v
  | .addVar a => addVar dim a

/-- A client program in which exceptions are caught and ignored: the outcome of each call, in order, and the object at the end. The
program ends at the first call that exits the process or is undefined.
It stands for any user of /repo/src/MathUtils/RegularGridInterpolator.h:62-64. -/
def execAll (dim : Nat) : List (Op K) → RGI K → List (Res Unit) × RGI K
  | [], s => ([], s)
  | op :: rest, s =>
    match (exec dim op).run s with
    | (.ok (), s') => let r := execAll dim rest s'; (.ok () :: r.1, r.2)
    | (.throws e, s') => let r := execAll dim rest s'; (.throws e :: r.1, r.2)
    | (r, s') => ([r], s')

end RGI
end MU
