import Mathlib.Algebra.Order.Field.Basic
import Mathlib.Algebra.Module.Basic
import Mathlib.Tactic.Ring

/-!
# Specifications for interpolation

What "linear interpolation" and "bilinear interpolation" mean, without reference to the code.
-/

namespace MU.Spec

/-- The value at `x` of the straight line through `(x0, y0)` and `(x1, y1)`. -/
def line {K Y : Type} [Field K] [AddCommGroup Y] [Module K Y] (x0 : K) (y0 : Y) (x1 : K) (y1 : Y) (x : K) : Y :=
  y0 + ((x - x0) / (x1 - x0)) • (y1 - y0)

/-- The bilinear interpolant on the rectangle `[x0,x1] × [y0,y1]` with corner values `f00` at `(x0,y0)`, `f10` at `(x1,y0)`,
`f01` at `(x0,y1)` and `f11` at `(x1,y1)`: interpolate along `x` on both horizontal edges, then along `y`. -/
def bilinear {K Y : Type} [Field K] [AddCommGroup Y] [Module K Y] (x0 x1 y0 y1 : K) (f00 f10 f01 f11 : Y) (x y : K) : Y :=
  line y0 (line x0 f00 x1 f10 x) y1 (line x0 f01 x1 f11 x) y

/-- A table a user may interpolate: at least two nodes, strictly increasing abscissae, as many ordinates. -/
structure Table {K Y : Type} [LT K] (xs : List K) (ys : List Y) : Prop where
  two : 2 ≤ xs.length
  increasing : xs.Pairwise (· < ·)
  sizes : xs.length = ys.length

end MU.Spec

namespace MU.Spec

/-- A grid a user may interpolate: strictly increasing coordinates, at least two per axis, one datum per node stored row by row (the
datum of node `(i, j)` is at position `i * ny + j`). -/
structure Grid {K : Type} [LT K] (xs ys data : List K) : Prop where
  twox : 2 ≤ xs.length
  twoy : 2 ≤ ys.length
  incx : xs.Pairwise (· < ·)
  incy : ys.Pairwise (· < ·)
  size : data.length = xs.length * ys.length

/-- Position of node `(i, j)` is within the data. -/
theorem Grid.idx_lt {K : Type} [LT K] {xs ys data : List K} (g : Grid xs ys data) {i j : Nat} (hi : i < xs.length)
    (hj : j < ys.length) : i * ys.length + j < data.length := by
  rw [g.size]
  calc i * ys.length + j < i * ys.length + ys.length := by omega
    _ = (i + 1) * ys.length := by ring
    _ ≤ xs.length * ys.length := Nat.mul_le_mul_right _ hi

/-- The datum of node `(i, j)`. -/
def Grid.at {K : Type} [LT K] {xs ys data : List K} (g : Grid xs ys data) (i j : Nat) (hi : i < xs.length) (hj : j < ys.length) : K :=
  data[i * ys.length + j]'(g.idx_lt hi hj)

/-- The bilinear interpolant of cell `(i, j)` at `(x, y)`. -/
def Grid.cell {K : Type} [Field K] [LT K] {xs ys data : List K} (g : Grid xs ys data) (i j : Nat) (hi : i + 1 < xs.length)
    (hj : j + 1 < ys.length) (x y : K) : K :=
  bilinear xs[i] xs[i + 1] ys[j] ys[j + 1] (g.at i j (by omega) (by omega)) (g.at (i + 1) j hi (by omega))
    (g.at i (j + 1) (by omega) hj) (g.at (i + 1) (j + 1) hi hj) x y

end MU.Spec
