import Verif.Model.Interp2d
import Verif.Model.RegularGridNearest

/-!
# Queries at coordinates that are not finite

The evaluation functions of the interpolators, for query coordinates that may be infinite or not a number (NaN). The tables are finite: an
object is initialised as in `Model/Interp1d.lean`, `Model/Interp2d.lean`, `Model/RegularGridInterpolator.lean` and
`Model/RegularGridNearest.lean`; only the functions that take a query point are written again. Finite numbers are exact (no rounding, no
overflow), there is one zero. `Lemmas/NonFinite.lean` proves that the functions agree with those of the other models when all coordinates
are finite.
-/

namespace MU

/-- A floating-point number: a finite one, an infinity or NaN. The type `Real` of /repo/src/MathUtils/Interp1d.h:16,
/repo/src/MathUtils/Interp2d.h:16, /repo/src/MathUtils/RegularGridInterpolator.h:56. -/
inductive Dbl (K : Type) where
  | num (x : K)
  | pinf
  | ninf
  | nan
  deriving DecidableEq, Repr

namespace Dbl

variable {K : Type} [Field K] [LinearOrder K]

omit [Field K] in
/-- `x < y`: false when an operand is NaN. Used at /repo/src/MathUtils/Interp1d.h:191, 209. -/
def lt : Dbl K → Dbl K → Bool
  | num a, num b => decide (a < b)
  | num _, pinf => true
  | ninf, num _ => true
  | ninf, pinf => true
  | _, _ => false

omit [Field K] in
/-- `x <= y`: false when an operand is NaN. Used at /repo/src/MathUtils/Interp2d.h:169-170. -/
def le : Dbl K → Dbl K → Bool
  | num a, num b => decide (a ≤ b)
  | num _, pinf => true
  | ninf, num _ => true
  | ninf, pinf => true
  | pinf, pinf => true
  | ninf, ninf => true
  | _, _ => false

omit [LinearOrder K] in
/-- `-x`. Used (in differences) at /repo/src/MathUtils/thirdparty/linterp.h:325, 364. -/
def neg : Dbl K → Dbl K
  | num a => num (-a)
  | pinf => ninf
  | ninf => pinf
  | nan => nan

omit [LinearOrder K] in
/-- `x + y`: the sum of opposite infinities is NaN. Used at /repo/src/MathUtils/Interp1d.h:185. -/
def add : Dbl K → Dbl K → Dbl K
  | num a, num b => num (a + b)
  | nan, _ => nan
  | _, nan => nan
  | pinf, ninf => nan
  | ninf, pinf => nan
  | pinf, _ => pinf
  | _, pinf => pinf
  | ninf, _ => ninf
  | _, ninf => ninf

omit [LinearOrder K] in
/-- `x - y`. Used at /repo/src/MathUtils/thirdparty/linterp.h:325, 364. -/
def sub (x y : Dbl K) : Dbl K := add x (neg y)

/-- `x * y`: zero times an infinity is NaN. Used at /repo/src/MathUtils/Interp1d.h:185. -/
def mul : Dbl K → Dbl K → Dbl K
  | num a, num b => num (a * b)
  | nan, _ => nan
  | _, nan => nan
  | num a, pinf => if 0 < a then pinf else if a < 0 then ninf else nan
  | num a, ninf => if 0 < a then ninf else if a < 0 then pinf else nan
  | pinf, num a => if 0 < a then pinf else if a < 0 then ninf else nan
  | ninf, num a => if 0 < a then ninf else if a < 0 then pinf else nan
  | pinf, pinf => pinf
  | ninf, ninf => pinf
  | pinf, ninf => ninf
  | ninf, pinf => ninf

/-- `x / d` for a finite `d`; as everywhere in the model, a division by zero is the outcome `nonfinite`.
Used at /repo/src/MathUtils/thirdparty/linterp.h:364. -/
def divNum (x : Dbl K) (d : K) : Res (Dbl K) :=
  if d = 0 then .nonfinite else .ok (mul x (num d⁻¹))

omit [Field K] in
/-- `std::distance(l.begin(), std::lower_bound(l.begin(), l.end(), x))`: the algorithm needs the range to be partitioned with respect to
`element < x`, as `lowerBound`. Called at /repo/src/MathUtils/Interp1d.h:175-176. -/
def lowerBound (l : List K) (x : Dbl K) : Res Nat :=
  if (l.dropWhile (fun a => lt (num a) x)).all (fun a => !lt (num a) x) then .ok (l.takeWhile (fun a => lt (num a) x)).length else .ub

omit [Field K] in
/-- `std::distance(l.begin(), std::upper_bound(l.begin(), l.end(), x))`: the algorithm needs the range to be partitioned with respect to
`!(x < element)`, as `upperBound`. Called at /repo/src/MathUtils/thirdparty/linterp.h:187, /repo/src/MathUtils/RegularGridNearest.h:210, 253. -/
def upperBound (l : List K) (x : Dbl K) : Res Nat :=
  if (l.dropWhile (fun a => !lt x (num a))).all (fun a => lt x (num a)) then .ok (l.takeWhile (fun a => !lt x (num a))).length else .ub

end Dbl

open Dbl

namespace Interp1d

variable {K : Type} [Field K] [LinearOrder K]

/-- `Interp1dLinearBase::PrivEval`. /repo/src/MathUtils/Interp1d.h:172-186 -/
def privEvalBaseD (s : Interp1d K K) (x : Dbl K) : Res (Dbl K) := do
  let xs ← deref s.xcoord
  let index ← Dbl.lowerBound xs x
  let index := if index = 0 then 1 else index
  let a_ ← vAt s.a (index - 1)
  let b_ ← vAt s.b (index - 1)
  return add (mul (num a_) x) (num b_)

/-- `Interp1d::Eval(x)`: the `PrivEval` of the object's class. /repo/src/MathUtils/Interp1d.h:31, 188-215 -/
def evalD (kind : Interp1dKind) (s : Interp1d K K) (x : Dbl K) : Res (Dbl K) :=
  match kind with
  | .linear => do
    let mn ← readVar s.xmin
    if lt x (num mn) then .exits 1 else
    let mx ← readVar s.xmax
    if lt (num mx) x then .exits 1 else
    privEvalBaseD s x
  | .extrapolate => privEvalBaseD s x
  | .saturate => do
    let mn ← readVar s.xmin
    let mx ← readVar s.xmax
    let x_tmp := if lt x (num mn) ∨ lt (num mx) x then (if lt x (num mn) then num mn else num mx) else x
    privEvalBaseD s x_tmp

end Interp1d

/-- A client program: `MakeInterp1d(m)`, one `Initialize(x, y)`, then `Eval(x)`. It stands for any user of
/repo/src/MathUtils/Interp1d.h:31, 49-51, 60. -/
def interp1dD {K : Type} [Field K] [LinearOrder K] (B : Build) (m : InterpMethod) (xs ys : List K) (x : Dbl K) : Res (Dbl K) := do
  let kind ← Interp1d.make m
  let (r, s) := (Interp1d.init B (some xs) (some ys)).run (Interp1d.fresh K K)
  r
  Interp1d.evalD kind s x

namespace Interp2d

variable {K : Type} [Field K] [LinearOrder K]

/-- The assertions at the start of `Interp2dLinear::Eval`. /repo/src/MathUtils/Interp2d.h:169-170 -/
def evalAssertsD (B : Build) (s : Interp2d K) (x y : Dbl K) : Res Unit :=
  if B.checked then do
    let xmin ← readVar s.xmin
    let xmax ← readVar s.xmax
    cassert B (le (num xmin) x ∧ le x (num xmax))
    let ymin ← readVar s.ymin
    let ymax ← readVar s.ymax
    cassert B (le (num ymin) y ∧ le y (num ymax))
  else .ok ()

/-- `Interp2dLinear::Eval(x, y)`. /repo/src/MathUtils/Interp2d.h:166-189. -/
def evalD (B : Build) (s : Interp2d K) (x y : Dbl K) : Res (Dbl K) := do
  evalAssertsD B s x y
  let xs ← deref s.xcoord
  let ix ← Dbl.lowerBound xs x
  let ys ← deref s.ycoord
  let iy ← Dbl.lowerBound ys y
  let ix := if ix = 0 then 1 else ix
  let iy := if iy = 0 then 1 else iy
  let idata := iy + (ix - 1) * (s.ny - 1) - 1
  let a1_ ← vAt s.a1 idata
  let a2_ ← vAt s.a2 idata
  let a3_ ← vAt s.a3 idata
  let a4_ ← vAt s.a4 idata
  return add (add (add (num a1_) (mul (num a2_) x)) (mul (num a3_) y)) (mul (mul (num a4_) x) y)

end Interp2d

/-- A client program: `MakeInterp2d(m)`, one `Initialize(xs, ys, data)`, then `Eval(x, y)`.
It stands for any user of /repo/src/MathUtils/Interp2d.h:33-49. -/
def interp2dD {K : Type} [Field K] [LinearOrder K] (B : Build) (m : InterpMethod) (xs ys data : List K) (x y : Dbl K) : Res (Dbl K) := do
  let o ← Interp2d.make K m
  let (r, s) := (Interp2d.init B (some xs) (some ys) (some data)).run o
  r
  Interp2d.evalD B s x y

namespace NDInterp

variable {K : Type} [Field K] [LinearOrder K]

omit [Field K] in
/-- `find_cell`. /repo/src/MathUtils/thirdparty/linterp.h:181-189 -/
def findCellD (g : List K) (x : Dbl K) : Res Int := do
  let first ← vIdx g 0
  if lt x (num first) then .ok (-1) else
  let last ← vIdx g (g.length - 1)
  if le (num last) x then .ok ((g.length : Int) - 1) else
  let k ← Dbl.upperBound g x
  return (k : Int) - 1

/-- The cell of a coordinate and the position within it. /repo/src/MathUtils/thirdparty/linterp.h:355-366. -/
def axisD (g : List K) (x : Dbl K) : Res (Int × Dbl K) := do
  let c ← findCellD g x
  if c = -1 then .ok (c, num 1)
  else if c = (g.length : Int) - 1 then .ok (c, num 0)
  else
    let gc ← vIdx g c.toNat
    let gc1 ← vIdx g (c + 1).toNat
    let y ← divNum (sub x (num gc)) (gc1 - gc)
    return (c, if lt y (num 0) then num 0 else if lt (num 1) y then num 1 else y)

/-- The loop over the dimensions. /repo/src/MathUtils/thirdparty/linterp.h:354-369 -/
def axesD : (grids : List (List K)) → (x : List (Dbl K)) → Res (List Int × List (Dbl K))
  | [], _ => .ok ([], [])
  | g :: gs, x :: xs => do
    let a ← axisD g x
    let r ← axesD gs xs
    return (a.1 :: r.1, a.2 :: r.2)
  | _ :: _, [] => .ub

/-- `linterp_nd_unitcube`. /repo/src/MathUtils/thirdparty/linterp.h:316-331 -/
def unitcubeD : (f xi : List (Dbl K)) → Res (Dbl K)
  | _, [] => .ub
  | f, [x] => do
    let lower ← vIdx f 0
    let upper ← vIdx f 1
    return add lower (mul x (sub upper lower))
  | f, x :: rest => do
    let lower ← unitcubeD (f.take (f.length / 2)) rest
    let upper ← unitcubeD (f.drop (f.length / 2)) rest
    return add lower (mul x (sub upper lower))

/-- `InterpMultilinear::interp(x)`. /repo/src/MathUtils/thirdparty/linterp.h:333-376 -/
def interpMultilinearD (t : NDInterp K) (x : List (Dbl K)) : Res (Dbl K) := do
  let (cells, ys) ← axesD t.grids x
  let f ← forRange 0 (1 <<< t.grids.length) (fun v f => do
    let y ← getFValV t cells v
    return f ++ [y]) []
  unitcubeD (f.map num) ys

end NDInterp

namespace RGI

variable {K : Type} [Field K] [LinearOrder K]

omit [Field K] in
/-- The loop of the bound check. /repo/src/MathUtils/RegularGridInterpolator.h:190-195 -/
def boundCheckD : (limits : List (K × K)) → (point : List (Dbl K)) → Res Unit
  | [], _ => .ok ()
  | (a, b) :: ls, x :: xs => if lt x (num a) ∨ lt (num b) x then .throws .runtimeError else boundCheckD ls xs
  | _ :: _, [] => .ub

/-- `Interp(point, bound_check)`. /repo/src/MathUtils/RegularGridInterpolator.h:186-199 -/
def interpolateD (s : RGI K) (point : List (Dbl K)) (bound_check : Bool) : Res (Dbl K) := do
  if bound_check then
    let l ← readVar s.limits
    boundCheckD l point
  let (t, g) ← deref s.interp
  if g ≠ s.gen then .ub else
  NDInterp.interpMultilinearD t point

end RGI

namespace RGN

variable {K D : Type} [Field K] [LinearOrder K]

/-- The index found by `Nearest` on one axis; `coord[icell + 1]` is undefined behind the last node. /repo/src/MathUtils/RegularGridNearest.h:196-219 -/
def nearestIndexD (coord : List K) (xi : Dbl K) : Res Nat := do
  let first ← vIdx coord 0
  if lt xi (num first) then .ok 0 else
  let last ← vIdx coord (coord.length - 1)
  if le (num last) xi then .ok (coord.length - 1) else
  let k ← Dbl.upperBound coord xi
  let icell := k - 1
  let hi ← vIdx coord (icell + 1)
  let lo ← vIdx coord icell
  if le (num (1 / 2 * (hi + lo))) xi then .ok (icell + 1) else .ok icell

/-- The loop of `Nearest`. /repo/src/MathUtils/RegularGridNearest.h:196-222 -/
def nearestLoopD : (grids : List (List K)) → (point : List (Dbl K)) → Res (List Nat × List K)
  | [], [] => .ok ([], [])
  | g :: gs, x :: xs => do
    let i ← nearestIndexD g x
    let c ← vIdx g i
    let r ← nearestLoopD gs xs
    return (i :: r.1, c :: r.2)
  | _, _ => .ub

/-- `Nearest`. /repo/src/MathUtils/RegularGridNearest.h:187-227 -/
def nearestD (s : RGN K D) (point : List (Dbl K)) : Res (GridNode K D) := do
  let (indices, coords) ← nearestLoopD s.grid_list point
  let val ← mdRead s.data.shape s.data.elems (indices.map (fun (n : Nat) => (n : Int)))
  return ⟨indices, coords, val⟩

omit [Field K] in
/-- The cell found by `GetSurroundingGridNodes` on one axis. /repo/src/MathUtils/RegularGridNearest.h:239-257 -/
def surroundingIndexD (coord : List K) (xi : Dbl K) : Res Nat := do
  let first ← vIdx coord 0
  if lt xi (num first) then .ok (2 ^ 32 - 1) else
  let last ← vIdx coord (coord.length - 1)
  if le (num last) xi then .ok ((coord.length - 1) % 2 ^ 32) else
  let k ← Dbl.upperBound coord xi
  return (k - 1) % 2 ^ 32

omit [Field K] in
/-- The loop over the dimensions. /repo/src/MathUtils/RegularGridNearest.h:239-257 -/
def surroundingLoopD : (grids : List (List K)) → (point : List (Dbl K)) → Res (List Nat)
  | [], [] => .ok []
  | g :: gs, x :: xs => do
    let i ← surroundingIndexD g x
    let r ← surroundingLoopD gs xs
    return i :: r
  | _, _ => .ub

omit [Field K] in
/-- `GetSurroundingGridNodes`. /repo/src/MathUtils/RegularGridNearest.h:229-265 -/
def surroundingD (s : RGN K D) (point : List (Dbl K)) : Res (List (GridNode K D)) := do
  let cell ← surroundingLoopD s.grid_list point
  forRange 0 (1 <<< s.grid_list.length) (fun v nodes => do
    let n ← getNode s cell v
    return nodes ++ [n]) []

end RGN
end MU
