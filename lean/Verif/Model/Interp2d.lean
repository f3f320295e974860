import Verif.Model.Interp1d

/-!
# Interp2d.h

`Real` is a linearly ordered field `K`; counters are natural numbers (grids are assumed to have fewer than 2^32 nodes per axis and
nx*ny < 2^64).
-/

namespace MU

/-- Fields of `Interp2d` and `Interp2dLinear`. /repo/src/MathUtils/Interp2d.h:18-27, 92-95 -/
structure Interp2d (K : Type) where
  xcoord : Option (List K)
  ycoord : Option (List K)
  mdata : Option (List K)
  nx : Nat
  xmin : Option K
  xmax : Option K
  ny : Nat
  ymin : Option K
  ymax : Option K
  ndata : Nat
  a1 : List K
  a2 : List K
  a3 : List K
  a4 : List K

namespace Interp2d

/-- A newly constructed object. /repo/src/MathUtils/Interp2d.h:18-27, 92-95 -/
def fresh (K : Type) : Interp2d K :=
  { xcoord := none, ycoord := none, mdata := none, nx := 0, xmin := none, xmax := none, ny := 0, ymin := none, ymax := none,
    ndata := 0, a1 := [], a2 := [], a3 := [], a4 := [] }

variable {K : Type} [Field K] [LinearOrder K]

/-- `Interp2d::Initialize`. /repo/src/MathUtils/Interp2d.h:62-86. `x->at(nx-1)` does not wrap around: `at(0)` has succeeded. -/
def initializeBase (B : Build) (x y data : Option (List K)) : Act (Interp2d K) Unit := do
  let xs ← Act.lift (deref x)
  Act.lift (cassert B (xs.Pairwise (· ≤ ·)))
  let ys ← Act.lift (deref y)
  Act.lift (cassert B (ys.Pairwise (· ≤ ·)))
  Act.update fun s => { s with nx := xs.length }
  let x0 ← Act.lift (vAt xs 0)
  Act.update fun s => { s with xmin := some x0 }
  let x1 ← Act.lift (vAt xs (xs.length - 1))
  Act.update fun s => { s with xmax := some x1 }
  Act.update fun s => { s with ny := ys.length }
  let y0 ← Act.lift (vAt ys 0)
  Act.update fun s => { s with ymin := some y0 }
  let y1 ← Act.lift (vAt ys (ys.length - 1))
  Act.update fun s => { s with ymax := some y1 }
  Act.update fun s => { s with ndata := xs.length * ys.length }
  Act.update fun s => { s with xcoord := some xs, ycoord := some ys, mdata := data }

/-- Body of the inner loop of `Interp2dLinear::Initialize`. /repo/src/MathUtils/Interp2d.h:138-161 -/
def initializeInner (data : Option (List K)) (ny : Nat) (i : Nat) (x1 x2 inv_dx : K) (j : Nat) : Act (Interp2d K) Unit := do
  let s ← Act.get
  let ys ← Act.lift (deref s.ycoord)
  let y1 ← Act.lift (vAt ys (j - 1))
  let y2 ← Act.lift (vAt ys j)
  let inv_dy ← Act.lift (fdiv 1 (y2 - y1))
  let d ← Act.lift (deref data)
  let d11 ← Act.lift (vAt d (ny * (i - 1) + (j - 1)))
  let d12 ← Act.lift (vAt d (ny * (i - 1) + j))
  let d21 ← Act.lift (vAt d (ny * i + (j - 1)))
  let d22 ← Act.lift (vAt d (ny * i + j))
  Act.update fun s => { s with a1 := s.a1 ++ [(d11 * x2 * y2 - d12 * x2 * y1 - d21 * x1 * y2 + d22 * x1 * y1) * inv_dx * inv_dy] }
  Act.update fun s => { s with a2 := s.a2 ++ [(-d11 * y2 + d12 * y1 + d21 * y2 - d22 * y1) * inv_dx * inv_dy] }
  Act.update fun s => { s with a3 := s.a3 ++ [(-d11 * x2 + d12 * x2 + d21 * x1 - d22 * x1) * inv_dx * inv_dy] }
  Act.update fun s => { s with a4 := s.a4 ++ [(d11 - d12 - d21 + d22) * inv_dx * inv_dy] }

/-- Body of the outer loop of `Interp2dLinear::Initialize`. /repo/src/MathUtils/Interp2d.h:128-162 -/
def initializeOuter (data : Option (List K)) (ny : Nat) (i : Nat) : Act (Interp2d K) Unit := do
  let s ← Act.get
  let xs ← Act.lift (deref s.xcoord)
  let x1 ← Act.lift (vAt xs (i - 1))
  let x2 ← Act.lift (vAt xs i)
  let inv_dx ← Act.lift (fdiv 1 (x2 - x1))
  Act.loop 1 s.ny (initializeInner data ny i x1 x2 inv_dx)

/-- `Interp2dLinear::Initialize`. /repo/src/MathUtils/Interp2d.h:110-164 -/
def init (B : Build) (x y data : Option (List K)) : Act (Interp2d K) Unit := do
  initializeBase B x y data
  let s ← Act.get
  Act.loop 1 s.nx (initializeOuter data s.ny)

/-- The assertions at the start of `Interp2dLinear::Eval`. /repo/src/MathUtils/Interp2d.h:169-170. Their operands are read only when assertions are on. -/
def evalAsserts (B : Build) (s : Interp2d K) (x y : K) : Res Unit :=
  if B.checked then do
    let xmin ← readVar s.xmin
    let xmax ← readVar s.xmax
    cassert B (xmin ≤ x ∧ x ≤ xmax)
    let ymin ← readVar s.ymin
    let ymax ← readVar s.ymax
    cassert B (ymin ≤ y ∧ y ≤ ymax)
  else .ok ()

/-- `Interp2dLinear::Eval(x, y)`; `operator()(x, y)` is the same. /repo/src/MathUtils/Interp2d.h:166-189, 43. `this->ny-1` and the final `-1` do not wrap
around when the object is initialised (ny ≥ 1, iy ≥ 1). -/
def eval (B : Build) (s : Interp2d K) (x y : K) : Res K := do
  evalAsserts B s x y
  let xs ← deref s.xcoord
  let ix ← lowerBound xs x
  let ys ← deref s.ycoord
  let iy ← lowerBound ys y
  let ix := if ix = 0 then 1 else ix
  let iy := if iy = 0 then 1 else iy
  let idata := iy + (ix - 1) * (s.ny - 1) - 1
  let a1_ ← vAt s.a1 idata
  let a2_ ← vAt s.a2 idata
  let a3_ ← vAt s.a3 idata
  let a4_ ← vAt s.a4 idata
  return a1_ + a2_ * x + a3_ * y + a4_ * x * y

/-- `Interp2dLinear::Eval(vcoord)`; `operator()(vcoord)` is the same. /repo/src/MathUtils/Interp2d.h:196-209, 45-47 -/
def evalVec (B : Build) (s : Interp2d K) (vc : List (List K)) : Res (List K) :=
  forRange 0 vc.length (fun i out => do
    let c ← vIdx vc i
    let cx ← vIdx c 0
    let cy ← vIdx c 1
    let v ← eval B s cx cy
    return out ++ [v]) []

/-- `Interp2d::MakeInterp2d`: only LINEAR exists, otherwise a `const char*` is thrown. /repo/src/MathUtils/Interp2d.h:212-220 -/
def make (K : Type) (m : InterpMethod) : Res (Interp2d K) :=
  match m with
  | .LINEAR => .ok (fresh K)
  | _ => .throws .cstring

/-- A client program: successive `Initialize` calls on the same object. It stands for any user of /repo/src/MathUtils/Interp2d.h:33-35. -/
def initAll (B : Build) : List (List K × List K × List K) → Act (Interp2d K) Unit
  | [] => pure ()
  | (xs, ys, d) :: hist => do
    init B (some xs) (some ys) (some d)
    initAll B hist

end Interp2d

/-- A client program: `MakeInterp2d(m)`, one `Initialize(xs, ys, data)`, then `Eval(x, y)`.
It stands for any user of /repo/src/MathUtils/Interp2d.h:33-49. -/
def interp2d {K : Type} [Field K] [LinearOrder K] (B : Build) (m : InterpMethod) (xs ys data : List K) (x y : K) : Res K := do
  let o ← Interp2d.make K m
  let (r, s) := (Interp2d.init B (some xs) (some ys) (some data)).run o
  r
  Interp2d.eval B s x y

/-- A client program: `MakeInterp2d(m)`, `Initialize` calls with the data of `hist`, then `Eval(x, y)`.
It stands for any user of /repo/src/MathUtils/Interp2d.h:33-49. -/
def interp2dHist {K : Type} [Field K] [LinearOrder K] (B : Build) (m : InterpMethod) (hist : List (List K × List K × List K))
    (x y : K) : Res K := do
  let o ← Interp2d.make K m
  let (r, s) := (Interp2d.initAll B hist).run o
  r
  Interp2d.eval B s x y

end MU
