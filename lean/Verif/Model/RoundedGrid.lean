import Verif.Model.Linterp
import Verif.Model.RegularGridInterpolator
import Mathlib.Data.Real.Basic

/-! Interpolation on regular grids in `double`: the functions of `Model/Linterp.lean` and `Model/RegularGridInterpolator.lean` again, each arithmetic operation
followed by the rounding `rnd`. Comparisons and copies are exact. Overflow and underflow are not modelled. -/

namespace MU

namespace NDInterp

/-- The cell of a coordinate and the position within it. /repo/src/MathUtils/thirdparty/linterp.h:355-366, with `T = double`. -/
noncomputable def axisR (rnd : ℝ → ℝ) (g : List ℝ) (x : ℝ) : Res (Int × ℝ) := do
  let c ← findCell g x
  if c = -1 then .ok (c, 1)
  else if c = (g.length : Int) - 1 then .ok (c, 0)
  else
    let gc ← vIdx g c.toNat
    let gc1 ← vIdx g (c + 1).toNat
    let q ← fdiv (rnd (x - gc)) (rnd (gc1 - gc))
    let y := rnd q
    return (c, if y < 0 then 0 else if 1 < y then 1 else y)

/-- The loop over the dimensions. /repo/src/MathUtils/thirdparty/linterp.h:354-369, with `T = double`. -/
noncomputable def axesR (rnd : ℝ → ℝ) : (grids : List (List ℝ)) → (x : List ℝ) → Res (List Int × List ℝ)
  | [], _ => .ok ([], [])
  | g :: gs, x :: xs => do
    let a ← axisR rnd g x
    let r ← axesR rnd gs xs
    return (a.1 :: r.1, a.2 :: r.2)
  | _ :: _, [] => .ub

/-- `linterp_nd_unitcube`. /repo/src/MathUtils/thirdparty/linterp.h:316-331, with `T = double`. -/
noncomputable def unitcubeR (rnd : ℝ → ℝ) : (f xi : List ℝ) → Res ℝ
  | _, [] => .ub
  | f, [x] => do
    let lower ← vIdx f 0
    let upper ← vIdx f 1
    return rnd (lower + rnd (x * rnd (upper - lower)))
  | f, x :: rest => do
    let lower ← unitcubeR rnd (f.take (f.length / 2)) rest
    let upper ← unitcubeR rnd (f.drop (f.length / 2)) rest
    return rnd (lower + rnd (x * rnd (upper - lower)))

/-- `InterpMultilinear::interp(x)`. /repo/src/MathUtils/thirdparty/linterp.h:333-376, with `T = double`. -/
noncomputable def interpMultilinearR (rnd : ℝ → ℝ) (t : NDInterp ℝ) (x : List ℝ) : Res ℝ := do
  let (cells, ys) ← axesR rnd t.grids x
  let f ← forRange 0 (1 <<< t.grids.length) (fun v f => do
    let y ← getFValV t cells v
    return f ++ [y]) []
  unitcubeR rnd f ys

end NDInterp

/-- `RegularGridInterpolator<double, _dim>::Interp(point, bound_check)`. /repo/src/MathUtils/RegularGridInterpolator.h:186-199. The bound check compares only. -/
noncomputable def RGI.interpolateR (rnd : ℝ → ℝ) (s : RGI ℝ) (point : List ℝ) (bound_check : Bool) : Res ℝ := do
  if bound_check then
    let l ← readVar s.limits
    RGI.boundCheck l point
  let (t, g) ← deref s.interp
  if g ≠ s.gen then .ub else
  NDInterp.interpMultilinearR rnd t point

end MU
