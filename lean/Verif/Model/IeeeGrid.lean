import Verif.Model.Ieee
import Verif.Model.RoundedGrid

/-!
# Interpolation on regular grids in binary64, with overflow and underflow

The functions of `Model/RoundedGrid.lean` when an operation may overflow to an infinity. `fl` is the rounding, `none` for an overflow (`Spec.Ieee`). The axes, the values and the
query point are finite numbers. As everywhere in the model there is one zero, and a division by zero is the outcome `nonfinite`.
-/

namespace MU

open Dbl

namespace NDInterp

/-- The cell of a coordinate and the position within it. /repo/src/MathUtils/thirdparty/linterp.h:355-366, with `T = double`. -/
noncomputable def axisI (fl : ℝ → Option ℝ) (g : List ℝ) (x : ℝ) : Res (Int × Dbl ℝ) := do
  let c ← findCell g x
  if c = -1 then .ok (c, num 1)
  else if c = (g.length : Int) - 1 then .ok (c, num 0)
  else
    let gc ← vIdx g c.toNat
    let gc1 ← vIdx g (c + 1).toNat
    let y ← fquot fl (fsub fl (num x) (num gc)) (fsub fl (num gc1) (num gc))
    return (c, if Dbl.lt y (num 0) then num 0 else if Dbl.lt (num 1) y then num 1 else y)

/-- The loop over the dimensions. /repo/src/MathUtils/thirdparty/linterp.h:354-369, with `T = double`. -/
noncomputable def axesI (fl : ℝ → Option ℝ) : (grids : List (List ℝ)) → (x : List ℝ) → Res (List Int × List (Dbl ℝ))
  | [], _ => .ok ([], [])
  | g :: gs, x :: xs => do
    let a ← axisI fl g x
    let r ← axesI fl gs xs
    return (a.1 :: r.1, a.2 :: r.2)
  | _ :: _, [] => .ub

/-- `linterp_nd_unitcube`. /repo/src/MathUtils/thirdparty/linterp.h:316-331, with `T = double`. -/
noncomputable def unitcubeI (fl : ℝ → Option ℝ) : (f xi : List (Dbl ℝ)) → Res (Dbl ℝ)
  | _, [] => .ub
  | f, [x] => do
    let lower ← vIdx f 0
    let upper ← vIdx f 1
    return fadd fl lower (fmul fl x (fsub fl upper lower))
  | f, x :: rest => do
    let lower ← unitcubeI fl (f.take (f.length / 2)) rest
    let upper ← unitcubeI fl (f.drop (f.length / 2)) rest
    return fadd fl lower (fmul fl x (fsub fl upper lower))

/-- `InterpMultilinear::interp(x)`. /repo/src/MathUtils/thirdparty/linterp.h:333-376, with `T = double`. -/
noncomputable def interpMultilinearI (fl : ℝ → Option ℝ) (t : NDInterp ℝ) (x : List ℝ) : Res (Dbl ℝ) := do
  let (cells, ys) ← axesI fl t.grids x
  let f ← forRange 0 (1 <<< t.grids.length) (fun v f => do
    let y ← getFValV t cells v
    return f ++ [num y]) []
  unitcubeI fl f ys

end NDInterp

/-- `RegularGridInterpolator<double, _dim>::Interp(point, bound_check)`. /repo/src/MathUtils/RegularGridInterpolator.h:186-199. The bound check compares only. -/
noncomputable def RGI.interpolateI (fl : ℝ → Option ℝ) (s : RGI ℝ) (point : List ℝ) (bound_check : Bool) : Res (Dbl ℝ) := do
  if bound_check then
    let l ← readVar s.limits
    RGI.boundCheck l point
  let (t, g) ← deref s.interp
  if g ≠ s.gen then .ub else
  NDInterp.interpMultilinearI fl t point

end MU
