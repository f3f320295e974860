import Verif.Model.Interp2d
import Mathlib.Data.Real.Basic

/-!
# `Interp2dLinear` in double arithmetic

Every operation of the expressions is followed by `rnd`. No overflow or underflow, no contraction of a product and a sum into one operation.
-/

namespace MU.Interp2d

/-- Body of the inner loop of `Interp2dLinear::Initialize`, /repo/src/MathUtils/Interp2d.h:138-161, with `Real = double`. -/
noncomputable def initializeInnerR (rnd : ℝ → ℝ) (data : Option (List ℝ)) (ny : Nat) (i : Nat) (x1 x2 inv_dx : ℝ) (j : Nat) :
    Act (Interp2d ℝ) Unit := do
  let s ← Act.get
  let ys ← Act.lift (deref s.ycoord)
  let y1 ← Act.lift (vAt ys (j - 1))
  let y2 ← Act.lift (vAt ys j)
  let inv_dy ← Act.lift (fdiv 1 (rnd (y2 - y1)))
  let inv_dy := rnd inv_dy
  let d ← Act.lift (deref data)
  let d11 ← Act.lift (vAt d (ny * (i - 1) + (j - 1)))
  let d12 ← Act.lift (vAt d (ny * (i - 1) + j))
  let d21 ← Act.lift (vAt d (ny * i + (j - 1)))
  let d22 ← Act.lift (vAt d (ny * i + j))
  Act.update fun s => { s with a1 := s.a1 ++
    [rnd (rnd (rnd (rnd (rnd (rnd (rnd (d11 * x2) * y2) - rnd (rnd (d12 * x2) * y1)) - rnd (rnd (d21 * x1) * y2)) + rnd (rnd (d22 * x1) * y1)) *
      inv_dx) * inv_dy)] }
  Act.update fun s => { s with a2 := s.a2 ++
    [rnd (rnd (rnd (rnd (rnd (rnd (-d11 * y2) + rnd (d12 * y1)) + rnd (d21 * y2)) - rnd (d22 * y1)) * inv_dx) * inv_dy)] }
  Act.update fun s => { s with a3 := s.a3 ++
    [rnd (rnd (rnd (rnd (rnd (rnd (-d11 * x2) + rnd (d12 * x2)) + rnd (d21 * x1)) - rnd (d22 * x1)) * inv_dx) * inv_dy)] }
  Act.update fun s => { s with a4 := s.a4 ++ [rnd (rnd (rnd (rnd (rnd (d11 - d12) - d21) + d22) * inv_dx) * inv_dy)] }

/-- Body of the outer loop of `Interp2dLinear::Initialize`, /repo/src/MathUtils/Interp2d.h:128-162, with `Real = double`. -/
noncomputable def initializeOuterR (rnd : ℝ → ℝ) (data : Option (List ℝ)) (ny : Nat) (i : Nat) : Act (Interp2d ℝ) Unit := do
  let s ← Act.get
  let xs ← Act.lift (deref s.xcoord)
  let x1 ← Act.lift (vAt xs (i - 1))
  let x2 ← Act.lift (vAt xs i)
  let inv_dx ← Act.lift (fdiv 1 (rnd (x2 - x1)))
  let inv_dx := rnd inv_dx
  Act.loop 1 s.ny (initializeInnerR rnd data ny i x1 x2 inv_dx)

/-- `Interp2dLinear::Initialize`, /repo/src/MathUtils/Interp2d.h:110-164, with `Real = double`: the comparisons of the base class are exact. -/
noncomputable def initR (rnd : ℝ → ℝ) (B : Build) (x y data : Option (List ℝ)) : Act (Interp2d ℝ) Unit := do
  initializeBase B x y data
  let s ← Act.get
  Act.loop 1 s.nx (initializeOuterR rnd data s.ny)

/-- `Interp2dLinear::Eval(x, y)`, /repo/src/MathUtils/Interp2d.h:166-189, 43, with `Real = double`: the comparisons are exact. -/
noncomputable def evalR (rnd : ℝ → ℝ) (B : Build) (s : Interp2d ℝ) (x y : ℝ) : Res ℝ := do
  evalAsserts B s x y
  let xs ← deref s.xcoord
  let ix ← lowerBound xs x
  let ys ← deref s.ycoord
  let iy ← lowerBound ys y
  let ix := if ix = 0 then 1 else ix
  let iy := if iy = 0 then 1 else iy
  let idata := iy + (ix - 1) * (s.ny - 1) - 1
  let a1_ ← vAt s.a1 idata
  let a2_ ← vAt s.a2 idata
  let a3_ ← vAt s.a3 idata
  let a4_ ← vAt s.a4 idata
  return rnd (rnd (rnd (a1_ + rnd (a2_ * x)) + rnd (a3_ * y)) + rnd (rnd (a4_ * x) * y))

end MU.Interp2d

namespace MU

/-- A client program: `MakeInterp2d(m)`, one `Initialize(xs, ys, data)`, then `Eval(x, y)`, in `double`.
It stands for any user of /repo/src/MathUtils/Interp2d.h:33-49. -/
noncomputable def interp2dR (rnd : ℝ → ℝ) (B : Build) (m : InterpMethod) (xs ys data : List ℝ) (x y : ℝ) : Res ℝ := do
  let o ← Interp2d.make ℝ m
  let (r, s) := (Interp2d.initR rnd B (some xs) (some ys) (some data)).run o
  r
  Interp2d.evalR rnd B s x y

end MU
