import Verif.Model.Linterp

/-!
# thirdparty/linterp.h: interpolation of several points, and the C interface

Memory is a family of blocks (arrays) named by natural numbers; a pointer argument points to the beginning of a block. Blocks do not overlap: two arguments are
the same block or unrelated. The objects of the C interface are made with `CopyData = false`, they read the blocks at each use. `int` counts and lengths are
natural numbers where they are lengths; the number of points may be negative.
-/

namespace MU.LinterpC

variable {K : Type}

/-- The blocks of memory that the arguments of /repo/src/MathUtils/thirdparty/linterp.h:392-397 point to. -/
abbrev Heap (K : Type) := Nat → List K

/-- The first `len` elements of the block `p`: `const_multi_array_ref` and the axes refer to them. /repo/src/MathUtils/thirdparty/linterp.h:130-131, 168-169. Reading
past the end of a block is undefined; the model says so already when the reference is made. -/
def view (h : Heap K) (p len : Nat) : Res (List K) :=
  if len ≤ (h p).length then .ok ((h p).take len) else .ub

/-- `set_grids` without copy. /repo/src/MathUtils/thirdparty/linterp.h:123-140 -/
def views (h : Heap K) : (ps lens : List Nat) → Res (List (List K))
  | [], [] => .ok []
  | p :: ps, n :: ns => do
    let g ← view h p n
    let r ← views h ps ns
    return g :: r
  | _, _ => .ub

/-- `coord_iter_begin[dim][i]` for each dimension. /repo/src/MathUtils/thirdparty/linterp.h:264, 355 -/
def point (h : Heap K) (i : Nat) : (xi : List Nat) → Res (List K)
  | [] => .ok []
  | p :: ps => do
    let c ← vIdx (h p) i
    let r ← point h i ps
    return c :: r

/-- `*i_result++ = y` at the point `i`. /repo/src/MathUtils/thirdparty/linterp.h:297, 374 -/
def store (h : Heap K) (res i : Nat) (y : K) : Res (Heap K) :=
  if i < (h res).length then .ok (fun p => if p = res then (h res).set i y else h p) else .ub

/-- `interp_vec(n, xi, xi + N, result)`, where `one` is the computation for one point (`interpSimplex` at /repo/src/MathUtils/thirdparty/linterp.h:251-299,
`interpMultilinear` at /repo/src/MathUtils/thirdparty/linterp.h:344-376): the coordinates of a point are all read before its result is written. -/
def interpVec (one : NDInterp K → List K → Res K) (grids lens : List Nat) (pF : Nat) (n : Int) (xi : List Nat) (res : Nat) (h : Heap K) : Res (Heap K) :=
  forRange 0 n.toNat (fun i h => do
    let g ← views h grids lens
    let f ← view h pF lens.prod
    let x ← point h i xi
    let y ← one ⟨g, f⟩ x
    store h res i y) h

variable [Field K] [LinearOrder K]

/-- `linterp_simplex_1`, `linterp_simplex_2`, `linterp_simplex_3`, for lists of one, two and three pointers. /repo/src/MathUtils/thirdparty/linterp.h:400-408, 411-419,
422-430. The block of memory afterwards. -/
def linterpSimplex (sort : List (K × Nat) → List (K × Nat)) (grids lens : List Nat) (pF : Nat) (n : Int) (xi : List Nat) (res : Nat) (h : Heap K) :
    Res (Heap K) := do
  let total := lens.prod
  let g ← views h grids lens
  let f ← view h pF total
  let _ ← NDInterp.new g f
  interpVec (NDInterp.interpSimplex sort) grids lens pF n xi res h

end MU.LinterpC
