import Verif.Model.Ieee
import Verif.Model.Interp2d

/-!
# `Interp2dLinear` in binary64, with overflow and underflow

The functions of `Model/Interp2d.lean`, for `Real = double`, when an operation may overflow to an infinity. `fl` is the rounding, `none` for an overflow (`Spec.Ieee`). The
coordinates, the data and the query point are finite numbers; the coefficients need not be. No contraction of a product and a sum into one operation; one zero.
-/

namespace MU

open Dbl

/-- Fields of `Interp2dLinear<double>`. /repo/src/MathUtils/Interp2d.h:18-27, 92-95. The fields of the base class are finite numbers, in `base`, whose own coefficients are not used. -/
structure Interp2dI where
  base : Interp2d ℝ
  a1 : List (Dbl ℝ)
  a2 : List (Dbl ℝ)
  a3 : List (Dbl ℝ)
  a4 : List (Dbl ℝ)

namespace Interp2dI

/-- A member function of the base class called on the derived object. /repo/src/MathUtils/Interp2d.h:115 -/
def onBase {α : Type} (f : Act (Interp2d ℝ) α) : Act Interp2dI α := fun s => ((f.run s.base).1, { s with base := (f.run s.base).2 })

/-- Body of the inner loop of `Interp2dLinear::Initialize`, /repo/src/MathUtils/Interp2d.h:138-161, with `Real = double`. -/
noncomputable def initializeInnerI (fl : ℝ → Option ℝ) (data : Option (List ℝ)) (ny : Nat) (i : Nat) (x1 x2 : ℝ) (inv_dx : Dbl ℝ) (j : Nat) : Act Interp2dI Unit := do
  let s ← Act.get
  let ys ← Act.lift (deref s.base.ycoord)
  let y1 ← Act.lift (vAt ys (j - 1))
  let y2 ← Act.lift (vAt ys j)
  let inv_dy ← Act.lift (fquot fl (num 1) (fsub fl (num y2) (num y1)))
  let d ← Act.lift (deref data)
  let d11 ← Act.lift (vAt d (ny * (i - 1) + (j - 1)))
  let d12 ← Act.lift (vAt d (ny * (i - 1) + j))
  let d21 ← Act.lift (vAt d (ny * i + (j - 1)))
  let d22 ← Act.lift (vAt d (ny * i + j))
  Act.update fun s => { s with a1 := s.a1 ++ [fmul fl (fmul fl (fadd fl (fsub fl (fsub fl (fmul fl (fmul fl (num d11) (num x2)) (num y2))
    (fmul fl (fmul fl (num d12) (num x2)) (num y1))) (fmul fl (fmul fl (num d21) (num x1)) (num y2))) (fmul fl (fmul fl (num d22) (num x1)) (num y1))) inv_dx) inv_dy] }
  Act.update fun s => { s with a2 := s.a2 ++ [fmul fl (fmul fl (fsub fl (fadd fl (fadd fl (fmul fl (num (-d11)) (num y2)) (fmul fl (num d12) (num y1)))
    (fmul fl (num d21) (num y2))) (fmul fl (num d22) (num y1))) inv_dx) inv_dy] }
  Act.update fun s => { s with a3 := s.a3 ++ [fmul fl (fmul fl (fsub fl (fadd fl (fadd fl (fmul fl (num (-d11)) (num x2)) (fmul fl (num d12) (num x2)))
    (fmul fl (num d21) (num x1))) (fmul fl (num d22) (num x1))) inv_dx) inv_dy] }
  Act.update fun s => { s with a4 := s.a4 ++ [fmul fl (fmul fl (fadd fl (fsub fl (fsub fl (num d11) (num d12)) (num d21)) (num d22)) inv_dx) inv_dy] }

/-- Body of the outer loop of `Interp2dLinear::Initialize`, /repo/src/MathUtils/Interp2d.h:128-162, with `Real = double`. -/
noncomputable def initializeOuterI (fl : ℝ → Option ℝ) (data : Option (List ℝ)) (ny : Nat) (i : Nat) : Act Interp2dI Unit := do
  let s ← Act.get
  let xs ← Act.lift (deref s.base.xcoord)
  let x1 ← Act.lift (vAt xs (i - 1))
  let x2 ← Act.lift (vAt xs i)
  let inv_dx ← Act.lift (fquot fl (num 1) (fsub fl (num x2) (num x1)))
  Act.loop 1 s.base.ny (initializeInnerI fl data ny i x1 x2 inv_dx)

/-- `Interp2dLinear::Initialize`, /repo/src/MathUtils/Interp2d.h:110-164, with `Real = double`. -/
noncomputable def initI (fl : ℝ → Option ℝ) (B : Build) (x y data : Option (List ℝ)) : Act Interp2dI Unit := do
  onBase (Interp2d.initializeBase B x y data)
  let s ← Act.get
  Act.loop 1 s.base.nx (initializeOuterI fl data s.base.ny)

/-- `Interp2dLinear::Eval(x, y)`, /repo/src/MathUtils/Interp2d.h:166-189, 43, with `Real = double`. -/
noncomputable def evalI (fl : ℝ → Option ℝ) (B : Build) (s : Interp2dI) (x y : ℝ) : Res (Dbl ℝ) := do
  Interp2d.evalAsserts B s.base x y
  let xs ← deref s.base.xcoord
  let ix ← lowerBound xs x
  let ys ← deref s.base.ycoord
  let iy ← lowerBound ys y
  let ix := if ix = 0 then 1 else ix
  let iy := if iy = 0 then 1 else iy
  let idata := iy + (ix - 1) * (s.base.ny - 1) - 1
  let a1_ ← vAt s.a1 idata
  let a2_ ← vAt s.a2 idata
  let a3_ ← vAt s.a3 idata
  let a4_ ← vAt s.a4 idata
  return fadd fl (fadd fl (fadd fl a1_ (fmul fl a2_ (num x))) (fmul fl a3_ (num y))) (fmul fl (fmul fl a4_ (num x)) (num y))

end Interp2dI

/-- A client program: `MakeInterp2d(m)`, one `Initialize(xs, ys, data)`, then `Eval(x, y)`, in `double`. It stands for any user of /repo/src/MathUtils/Interp2d.h:33-49. -/
noncomputable def interp2dI (fl : ℝ → Option ℝ) (B : Build) (m : InterpMethod) (xs ys data : List ℝ) (x y : ℝ) : Res (Dbl ℝ) := do
  let o ← Interp2d.make ℝ m
  let (r, s) := (Interp2dI.initI fl B (some xs) (some ys) (some data)).run ⟨o, [], [], [], []⟩
  r
  Interp2dI.evalI fl B s x y

end MU
