import Verif.Core

/-!
# thirdparty/linterp.h

`NDInterpolator`, `InterpMultilinear` and `InterpSimplex` for `Continuous = true` (the only instantiation in the library; `Continuous = false` is in `Model/LinterpJumps.lean`), for one query
point (`interp`, i.e. `interp_vec` with `n = 1`; several points and the C interface are in `Model/LinterpC.lean`). `array<T, N>` and `vector` are lists. `int` and
`unsigned` counters do not overflow (`Model/Widths.lean` has the check of sizes with their widths). The array of values is the C-order (row-major) sequence pointed to
by `f_begin`. The reference-counted constructors (/repo/src/MathUtils/thirdparty/linterp.h:101-106) are not modelled.
-/

namespace MU

/-- `NDInterpolator`: its axes (`m_grid_list`) and the values it points to (`m_pF`, of extents the lengths of the axes).
/repo/src/MathUtils/thirdparty/linterp.h:86-92 -/
structure NDInterp (K : Type) where
  grids : List (List K)
  values : List K

/-- Row-major access `(*m_pF)(index)` of a `boost::const_multi_array_ref` of the given extents: undefined when an index is out of its
extent. /repo/src/MathUtils/thirdparty/linterp.h:216 -/
def mdOffset : (extents : List Nat) → (index : List Int) → (acc : Nat) → Res Nat
  | [], [], acc => .ok acc
  | n :: ns, i :: is, acc => if 0 ≤ i ∧ i < n then mdOffset ns is (acc * n + i.toNat) else .ub
  | _, _, _ => .ub

/-- Reading an element of a multi-array given its extents and its C-order contents. /repo/src/MathUtils/thirdparty/linterp.h:216. -/
def mdRead {K : Type} (extents : List Nat) (values : List K) (index : List Int) : Res K := do
  let o ← mdOffset extents index 0
  vIdx values o

namespace NDInterp

variable {K : Type}

/-- The constructor: `init`, `set_grids`, `set_f_array`. /repo/src/MathUtils/thirdparty/linterp.h:96-112, 123-140, 149-173. The axes and values are not copied
(`CopyData = false`): the model keeps their contents, the life time of what is pointed to is handled by the class that owns it. -/
def new (grids : List (List K)) (values : List K) : Res (NDInterp K) :=
  if values.length ≠ (grids.map List.length).prod then .throws .invalidArgument else .ok ⟨grids, values⟩

/-- `get_f_val(cell_index, v_index)`: the indices `f_index`. /repo/src/MathUtils/thirdparty/linterp.h:192-204. -/
def fIndex : (grids : List (List K)) → (cell v : List Int) → List Int
  | g :: gs, c :: cs, v :: vs =>
    (if c < 0 then 0 else if (g.length : Int) - 1 ≤ c then (g.length : Int) - 1 else c + v) :: fIndex gs cs vs
  | _, _, _ => []

/-- `get_f_val(cell_index, v_index)`. /repo/src/MathUtils/thirdparty/linterp.h:192-217 -/
def getFVal (t : NDInterp K) (cell v : List Int) : Res K :=
  mdRead (t.grids.map List.length) t.values (fIndex t.grids cell v)

/-- `v_index[dim] = (v >> (N - dim - 1)) & 1`. /repo/src/MathUtils/thirdparty/linterp.h:220-223 -/
def vertexBits (N v : Nat) : List Int :=
  (List.range N).map fun dim => (((v >>> (N - dim - 1)) &&& 1 : Nat) : Int)

/-- `get_f_val(cell_index, int v)`. /repo/src/MathUtils/thirdparty/linterp.h:219-225 -/
def getFValV (t : NDInterp K) (cell : List Int) (v : Nat) : Res K :=
  getFVal t cell (vertexBits t.grids.length v)

variable [Field K] [LinearOrder K]

/-- `find_cell`. /repo/src/MathUtils/thirdparty/linterp.h:181-189. `*(grid.begin())` of an empty axis is undefined. -/
def findCell (g : List K) (x : K) : Res Int := do
  let first ← vIdx g 0
  if x < first then .ok (-1) else
  let last ← vIdx g (g.length - 1)
  if last ≤ x then .ok ((g.length : Int) - 1) else
  let k ← upperBound g x
  return (k : Int) - 1

/-- The cell of a coordinate and the position within it. /repo/src/MathUtils/thirdparty/linterp.h:355-366 (and 264-276 for the simplex). -/
def axis (g : List K) (x : K) : Res (Int × K) := do
  let c ← findCell g x
  if c = -1 then .ok (c, 1)
  else if c = (g.length : Int) - 1 then .ok (c, 0)
  else
    let gc ← vIdx g c.toNat
    let gc1 ← vIdx g (c + 1).toNat
    let y ← fdiv (x - gc) (gc1 - gc)
    return (c, if y < 0 then 0 else if 1 < y then 1 else y)

/-- The loop over the dimensions. /repo/src/MathUtils/thirdparty/linterp.h:354-369. The point has as many coordinates as there are axes; reading more would be out of
bounds of the `array`. -/
def axes : (grids : List (List K)) → (x : List K) → Res (List Int × List K)
  | [], _ => .ok ([], [])
  | g :: gs, x :: xs => do
    let a ← axis g x
    let r ← axes gs xs
    return (a.1 :: r.1, a.2 :: r.2)
  | _ :: _, [] => .ub

/-- `linterp_nd_unitcube`. /repo/src/MathUtils/thirdparty/linterp.h:316-331. The vertex values `f` and the coordinates in the unit cube `xi`; the assertion
`1 << n == f_len` always holds for the calls made. Without coordinates the recursion of the code has no base case. -/
def unitcube : (f xi : List K) → Res K
  | _, [] => .ub
  | f, [x] => do
    let lower ← vIdx f 0
    let upper ← vIdx f 1
    return lower + x * (upper - lower)
  | f, x :: rest => do
    let lower ← unitcube (f.take (f.length / 2)) rest
    let upper ← unitcube (f.drop (f.length / 2)) rest
    return lower + x * (upper - lower)

/-- `InterpMultilinear::interp(x)`. /repo/src/MathUtils/thirdparty/linterp.h:333-376 -/
def interpMultilinear (t : NDInterp K) (x : List K) : Res K := do
  let (cells, ys) ← axes t.grids x
  let f ← forRange 0 (1 <<< t.grids.length) (fun v f => do
    let y ← getFValV t cells v
    return f ++ [y]) []
  unitcube f ys

/-- The walk along the vertices of the simplex. /repo/src/MathUtils/thirdparty/linterp.h:291-296. `order` is what remains of the sorted pairs (fraction, dimension),
`v` the current vertex, `v0` the value there, `y` the result so far. -/
def simplexWalk (t : NDInterp K) (cells : List Int) : (order : List (K × Nat)) → (v : List Int) → (v0 y : K) → Res K
  | [], _, _, y => .ok y
  | (xi, d) :: rest, v, v0, y => do
    let v := v.modify d (· - 1)
    let v1 ← getFVal t cells v
    simplexWalk t cells rest v v1 (y + (1 - xi) * (v1 - v0))

/-- `InterpSimplex::interp(x)`. /repo/src/MathUtils/thirdparty/linterp.h:242-299. `std::sort` with the comparison of the fractions may leave pairs with equal fractions in
any order: the model takes the sorting function `sort` as a parameter (`IsSort` is what the standard guarantees of it). -/
def interpSimplex (sort : List (K × Nat) → List (K × Nat)) (t : NDInterp K) (x : List K) : Res K := do
  let (cells, ys) ← axes t.grids x
  let xipair := sort ys.zipIdx
  let ones := List.replicate t.grids.length 1
  let v0 ← getFVal t cells ones
  simplexWalk t cells xipair ones v0 v0

end NDInterp

/-- What the C++ standard guarantees of `std::sort` with the comparison of the first components.
Called at /repo/src/MathUtils/thirdparty/linterp.h:282-284. -/
def IsSort {K : Type} [LinearOrder K] (sort : List (K × Nat) → List (K × Nat)) : Prop :=
  ∀ l, (sort l).Perm l ∧ (sort l).Pairwise (fun a b => a.1 ≤ b.1)

end MU
