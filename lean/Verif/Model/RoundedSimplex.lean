import Verif.Model.RoundedGrid

/-! Simplex interpolation in `double`: the functions of `Model/Linterp.lean` again, each arithmetic operation followed by the rounding `rnd`. Comparisons, the sort and
copies are exact. Overflow and underflow are not modelled. -/

namespace MU.NDInterp

/-- The walk of `InterpSimplex::interp_vec`. /repo/src/MathUtils/thirdparty/linterp.h:290-295, with `T = double`. -/
noncomputable def simplexWalkR (rnd : ℝ → ℝ) (t : NDInterp ℝ) (cells : List Int) : (order : List (ℝ × Nat)) → (v : List Int) → (v0 y : ℝ) → Res ℝ
  | [], _, _, y => .ok y
  | (xi, d) :: rest, v, v0, y => do
    let v := v.modify d (· - 1)
    let v1 ← getFVal t cells v
    simplexWalkR rnd t cells rest v v1 (rnd (y + rnd (rnd (1 - xi) * rnd (v1 - v0))))

/-- `InterpSimplex::interp(x)`. /repo/src/MathUtils/thirdparty/linterp.h:242-299, with `T = double`. The sorting function is a parameter as in `interpSimplex`. -/
noncomputable def interpSimplexR (rnd : ℝ → ℝ) (sort : List (ℝ × Nat) → List (ℝ × Nat)) (t : NDInterp ℝ) (x : List ℝ) : Res ℝ := do
  let (cells, ys) ← axesR rnd t.grids x
  let xipair := sort ys.zipIdx
  let ones := List.replicate t.grids.length 1
  let v0 ← getFVal t cells ones
  simplexWalkR rnd t cells xipair ones v0 v0

end MU.NDInterp
