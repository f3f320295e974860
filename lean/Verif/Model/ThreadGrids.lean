import Verif.Model.Threads
import Verif.Model.RegularGridNearest

/-!
# Regular grids shared by threads

The calls of a client on a regular grid, as programs of accesses to its fields (see Threads.lean). `m_data.resize(ex); m_data = ndarray` is one assignment.
The interpolator reads the axes through pointers to their elements, which no function but `operator=` assigns: these reads are not shown.
-/

namespace MU

/-! ## `RegularGridInterpolator` -/

namespace RGI

/-- The fields of `RegularGridInterpolator`. /repo/src/MathUtils/RegularGridInterpolator.h:85-90 -/
inductive Member where
  | grid
  | data
  | interp
  | limits

/-- The array and the generation of its storage are one field. /repo/src/MathUtils/RegularGridInterpolator.h:85-90 -/
def layout (K : Type) : Layout (RGI K) where
  L := Member
  V
    | .grid => List (List K)
    | .data => NDArray K × Nat
    | .interp => Option (NDInterp K × Nat)
    | .limits => Option (List (K × K))
  get
    | .grid, s => s.grid_list
    | .data, s => (s.data, s.gen)
    | .interp, s => s.interp
    | .limits, s => s.limits
  set
    | .grid, v, s => { s with grid_list := v }
    | .data, v, s => { s with data := v.1, gen := v.2 }
    | .interp, v, s => { s with interp := v }
    | .limits, v, s => { s with limits := v }

/-- What a call returns. The public functions of /repo/src/MathUtils/RegularGridInterpolator.h:62-78. -/
inductive Answer (K : Type) where
  | value (v : K)
  | axis (l : List K)
  | count (n : Nat)
  | flag (b : Bool)
  | done

/-- A call. The public functions of /repo/src/MathUtils/RegularGridInterpolator.h:62-78. -/
inductive Call (K : Type) where
  | addCoord (vec : List K)
  | addVar (a : NDArray K)
  | getCoord (idx : Nat)
  | getCoordMinVal (idx : Nat)
  | getCoordMaxVal (idx : Nat)
  | getDimension
  | interp (point : List K) (bound_check : Bool)
  | evalAtIndice (index : List Nat)
  | isValid

variable {K : Type}

/-- Reading a field. /repo/src/MathUtils/RegularGridInterpolator.h:85-90 -/
def rGrid : Prog (layout K) (List (List K)) := Prog.load (Λ := layout K) .grid
@[inherit_doc rGrid] def rData : Prog (layout K) (NDArray K × Nat) := Prog.load (Λ := layout K) .data
@[inherit_doc rGrid] def rInterp : Prog (layout K) (Option (NDInterp K × Nat)) := Prog.load (Λ := layout K) .interp
@[inherit_doc rGrid] def rLimits : Prog (layout K) (Option (List (K × K))) := Prog.load (Λ := layout K) .limits

/-- Assigning a field. /repo/src/MathUtils/RegularGridInterpolator.h:85-90 -/
def wGrid (v : List (List K)) : Prog (layout K) Unit := Prog.store (Λ := layout K) .grid v
@[inherit_doc wGrid] def wData (v : NDArray K × Nat) : Prog (layout K) Unit := Prog.store (Λ := layout K) .data v
@[inherit_doc wGrid] def wInterp (v : Option (NDInterp K × Nat)) : Prog (layout K) Unit := Prog.store (Λ := layout K) .interp v
@[inherit_doc wGrid] def wLimits (v : Option (List (K × K))) : Prog (layout K) Unit := Prog.store (Λ := layout K) .limits v

variable [Field K] [LinearOrder K]

/-- `AddCoord`. /repo/src/MathUtils/RegularGridInterpolator.h:125-140 -/
def addCoordP (dim : Nat) (vec : List K) : Prog (layout K) Unit := do
  let g ← rGrid
  if g.length = dim then Prog.lift (.exits 1)
  else if increasing vec then do
    let g ← rGrid
    wGrid (g ++ [vec])
  else Prog.lift (.throws .runtimeError)

/-- `_BuildInterpolator`. /repo/src/MathUtils/RegularGridInterpolator.h:162-184 -/
def buildP (dim : Nat) : Prog (layout K) Unit := do
  let g ← rGrid
  let l ← Prog.lift (computeLimits dim g)
  wLimits (some l)
  let g ← rGrid
  let d ← rData
  let t ← Prog.lift (NDInterp.new g d.1.elems)
  wInterp (some (t, d.2))

/-- `AddVar`. /repo/src/MathUtils/RegularGridInterpolator.h:142-160 -/
def addVarP (dim : Nat) (a : NDArray K) : Prog (layout K) Unit := do
  let g ← rGrid
  if g.length ≠ dim then Prog.lift (.exits 1)
  else do
    let d ← rData
    wData (a, d.2 + 1)
    buildP dim

/-- `Interp` after the bound check. /repo/src/MathUtils/RegularGridInterpolator.h:198 -/
def valueP (point : List K) : Prog (layout K) K := do
  let i ← rInterp
  let t ← Prog.lift (deref i)
  let d ← rData
  if t.2 ≠ d.2 then Prog.lift .ub else Prog.lift (NDInterp.interpMultilinear t.1 point)

/-- `Interp(point, bound_check)`. /repo/src/MathUtils/RegularGridInterpolator.h:186-199 -/
def interpP (point : List K) (bound_check : Bool) : Prog (layout K) K :=
  if bound_check then do
    let v ← rLimits
    let l ← Prog.lift (readVar v)
    Prog.lift (boundCheck l point)
    valueP point
  else valueP point

/-- The accesses of a call. The public functions of /repo/src/MathUtils/RegularGridInterpolator.h:62-78. -/
def Call.prog (dim : Nat) : Call K → Prog (layout K) (Answer K)
  | .addCoord vec => do
    addCoordP dim vec
    return .done
  | .addVar a => do
    addVarP dim a
    return .done
  | .getCoord idx =>
    if dim ≤ idx then Prog.lift (.exits 1) else do
    let g ← rGrid
    let l ← Prog.lift (vIdx g idx)
    return .axis l
  | .getCoordMinVal idx =>
    if dim ≤ idx then Prog.lift (.exits 1) else do
    let v ← rLimits
    let l ← Prog.lift (readVar v)
    let p ← Prog.lift (vIdx l idx)
    return .value p.1
  | .getCoordMaxVal idx =>
    if dim ≤ idx then Prog.lift (.exits 1) else do
    let v ← rLimits
    let l ← Prog.lift (readVar v)
    let p ← Prog.lift (vIdx l idx)
    return .value p.2
  | .getDimension => return .count dim
  | .interp point bound_check => do
    let v ← interpP point bound_check
    return .value v
  | .evalAtIndice index => do
    let d ← rData
    let v ← Prog.lift (mdRead d.1.shape d.1.elems (index.map (fun (n : Nat) => (n : Int))))
    return .value v
  | .isValid => do
    let i ← rInterp
    return .flag i.isSome

/-- The same call made in a program of one thread, with the functions of RegularGridInterpolator.lean. The public functions of
/repo/src/MathUtils/RegularGridInterpolator.h:62-78. -/
def Call.seq (dim : Nat) : Call K → Act (RGI K) (Answer K)
  | .addCoord vec => do
    RGI.addCoord dim vec
    return .done
  | .addVar a => do
    RGI.addVar dim a
    return .done
  | .getCoord idx => do
    let s ← Act.get
    Act.lift (Answer.axis <$> RGI.getCoord dim s idx)
  | .getCoordMinVal idx => do
    let s ← Act.get
    Act.lift (Answer.value <$> RGI.getCoordMinVal dim s idx)
  | .getCoordMaxVal idx => do
    let s ← Act.get
    Act.lift (Answer.value <$> RGI.getCoordMaxVal dim s idx)
  | .getDimension => Act.lift (.ok (.count (RGI.getDimension dim)))
  | .interp point bound_check => do
    let s ← Act.get
    Act.lift (Answer.value <$> RGI.interpolate s point bound_check)
  | .evalAtIndice index => do
    let s ← Act.get
    Act.lift (Answer.value <$> RGI.evalAtIndice s index)
  | .isValid => do
    let s ← Act.get
    Act.lift (.ok (.flag (RGI.isValid s)))

end RGI

/-! ## `RegularGridNearest` -/

namespace RGN

/-- The fields of `RegularGridNearest`. /repo/src/MathUtils/RegularGridNearest.h:90-91 -/
inductive Member where
  | grid
  | data

/-- /repo/src/MathUtils/RegularGridNearest.h:90-91 -/
def layout (K D : Type) : Layout (RGN K D) where
  L := Member
  V
    | .grid => List (List K)
    | .data => NDArray D
  get
    | .grid, s => s.grid_list
    | .data, s => s.data
  set
    | .grid, v, s => { s with grid_list := v }
    | .data, v, s => { s with data := v }

/-- What a call returns. The public functions of /repo/src/MathUtils/RegularGridNearest.h:63-81. -/
inductive Answer (K D : Type) where
  | node (n : GridNode K D)
  | nodes (l : List (GridNode K D))
  | datum (v : D)
  | coord (x : K)
  | axis (l : List K)
  | count (n : Nat)
  | flag (b : Bool)
  | done

/-- A call. The public functions of /repo/src/MathUtils/RegularGridNearest.h:63-81. -/
inductive Call (K D : Type) where
  | addCoord (vec : List K)
  | addVar (a : NDArray D)
  | getCoord (idx : Nat)
  | getCoordMinVal (idx : Nat)
  | getCoordMaxVal (idx : Nat)
  | getDimension
  | nearest (point : List K)
  | getData (point : List K)
  | surrounding (point : List K)
  | isValid

variable {K D : Type}

/-- Reading a field. /repo/src/MathUtils/RegularGridNearest.h:90-91 -/
def rGrid : Prog (layout K D) (List (List K)) := Prog.load (Λ := layout K D) .grid
@[inherit_doc rGrid] def rData : Prog (layout K D) (NDArray D) := Prog.load (Λ := layout K D) .data

/-- Assigning a field. /repo/src/MathUtils/RegularGridNearest.h:90-91 -/
def wGrid (v : List (List K)) : Prog (layout K D) Unit := Prog.store (Λ := layout K D) .grid v
@[inherit_doc wGrid] def wData (v : NDArray D) : Prog (layout K D) Unit := Prog.store (Λ := layout K D) .data v

/-- `AddCoord`. /repo/src/MathUtils/RegularGridNearest.h:119-126 -/
def addCoordP (dim : Nat) (vec : List K) : Prog (layout K D) Unit := do
  let g ← rGrid
  if g.length = dim then Prog.lift (.exits 1)
  else do
    let g ← rGrid
    wGrid (g ++ [vec])

/-- `AddVar`. /repo/src/MathUtils/RegularGridNearest.h:128-142 -/
def addVarP (dim : Nat) (a : NDArray D) : Prog (layout K D) Unit := do
  let g ← rGrid
  if g.length ≠ dim then Prog.lift (.exits 1)
  else wData a

/-- `GetNode(cell_index, v)`. /repo/src/MathUtils/RegularGridNearest.h:272-307 -/
def getNodeP (cell : List Nat) (v : Nat) : Prog (layout K D) (GridNode K D) := do
  let g ← rGrid
  let coords ← Prog.lift (nodeCoords g (nodeIndices g cell (vertexBits g.length v)))
  let d ← rData
  let val ← Prog.lift (mdRead d.shape d.elems ((nodeIndices g cell (vertexBits g.length v)).map (fun (n : Nat) => (n : Int))))
  return ⟨nodeIndices g cell (vertexBits g.length v), coords, val⟩

/-- The loop over the vertices of `GetSurroundingGridNodes`. /repo/src/MathUtils/RegularGridNearest.h:259-262 -/
def nodesP (cell : List Nat) (n lo : Nat) (nodes : List (GridNode K D)) : Prog (layout K D) (List (GridNode K D)) :=
  Prog.forN n lo (fun v nodes => do
    let x ← getNodeP cell v
    return nodes ++ [x]) nodes

variable [Field K] [LinearOrder K]

/-- `Nearest`. /repo/src/MathUtils/RegularGridNearest.h:187-227. The axes are read once. -/
def nearestP (point : List K) : Prog (layout K D) (GridNode K D) := do
  let g ← rGrid
  let r ← Prog.lift (nearestLoop g point)
  let d ← rData
  let val ← Prog.lift (mdRead d.shape d.elems (r.1.map (fun (n : Nat) => (n : Int))))
  return ⟨r.1, r.2, val⟩

/-- `GetSurroundingGridNodes`. /repo/src/MathUtils/RegularGridNearest.h:229-265 -/
def surroundingP (point : List K) : Prog (layout K D) (List (GridNode K D)) := do
  let g ← rGrid
  let cell ← Prog.lift (surroundingLoop g point)
  nodesP cell (1 <<< g.length - 0) 0 []

/-- The accesses of a call. The public functions of /repo/src/MathUtils/RegularGridNearest.h:63-81. -/
def Call.prog (dim : Nat) : Call K D → Prog (layout K D) (Answer K D)
  | .addCoord vec => do
    addCoordP dim vec
    return .done
  | .addVar a => do
    addVarP dim a
    return .done
  | .getCoord idx =>
    if dim ≤ idx then Prog.lift (.exits 1) else do
    let g ← rGrid
    let l ← Prog.lift (vIdx g idx)
    return .axis l
  | .getCoordMinVal idx =>
    if dim ≤ idx then Prog.lift (.exits 1) else do
    let g ← rGrid
    let l ← Prog.lift (vIdx g idx)
    match l with
    | [] => Prog.lift .ub
    | a :: l => return .coord (l.foldl (fun m x => if x < m then x else m) a)
  | .getCoordMaxVal idx =>
    if dim ≤ idx then Prog.lift (.exits 1) else do
    let g ← rGrid
    let l ← Prog.lift (vIdx g idx)
    match l with
    | [] => Prog.lift .ub
    | a :: l => return .coord (l.foldl (fun m x => if m < x then x else m) a)
  | .getDimension => return .count dim
  | .nearest point => do
    let n ← nearestP point
    return .node n
  | .getData _ => Prog.lift .ub
  | .surrounding point => do
    let l ← surroundingP point
    return .nodes l
  | .isValid => return .flag true

/-- The same call made in a program of one thread, with the functions of RegularGridNearest.lean. The public functions of
/repo/src/MathUtils/RegularGridNearest.h:63-81. -/
def Call.seq (dim : Nat) : Call K D → Act (RGN K D) (Answer K D)
  | .addCoord vec => do
    RGN.addCoord dim vec
    return .done
  | .addVar a => do
    RGN.addVar dim a
    return .done
  | .getCoord idx => do
    let s ← Act.get
    Act.lift (Answer.axis <$> RGN.getCoord dim s idx)
  | .getCoordMinVal idx => do
    let s ← Act.get
    Act.lift (Answer.coord <$> RGN.getCoordMinVal dim s idx)
  | .getCoordMaxVal idx => do
    let s ← Act.get
    Act.lift (Answer.coord <$> RGN.getCoordMaxVal dim s idx)
  | .getDimension => Act.lift (.ok (.count (RGN.getDimension dim)))
  | .nearest point => do
    let s ← Act.get
    Act.lift (Answer.node <$> RGN.nearest s point)
  | .getData point => do
    let s ← Act.get
    Act.lift (Answer.datum <$> RGN.getData s point)
  | .surrounding point => do
    let s ← Act.get
    Act.lift (Answer.nodes <$> RGN.surrounding s point)
  | .isValid => do
    let s ← Act.get
    Act.lift (.ok (.flag (RGN.isValid s)))

end RGN
end MU
