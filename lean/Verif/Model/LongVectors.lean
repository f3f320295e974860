import Verif.Model.Vectors
import Verif.Model.Convolution
import Verif.Model.Interp1d
import Verif.Model.Interp2d

/-!
# Vectors of any length, with the widths of the counters

Elsewhere the loops over the elements of a vector count with natural numbers. Here the loops whose counter is narrower than the length of a vector (64 bits) are modelled with the
counter of the code: an `unsigned int` goes back to 0 after `2^32 - 1`, and an `int` that goes beyond `2^31 - 1` is undefined behaviour. A loop that may never end takes the number
of turns it is watched for, and gives `none` when it has not ended by then. Memory is unlimited.
-/

namespace MU

/-- `for (unsigned int i = …; i < n; i++)` where `n` has 64 bits: the loops of /repo/src/MathUtils/Convolution.h:61-63. At most `turns` turns are made. -/
def forU32 {σ : Type} (n : Nat) (f : Nat → σ → Res σ) : (turns i : Nat) → σ → Option (Res σ)
  | 0, _, _ => none
  | turns + 1, i, s =>
    if i < n then
      match f i s with
      | .ok s' => forU32 n f turns ((i + 1) % 2 ^ 32) s'
      | r => some r
    else some (.ok s)

/-- The same loop on the fields of an object: /repo/src/MathUtils/Interp1d.h:156-169. -/
def Act.loopU32 {σ : Type} (n : Nat) (f : Nat → Act σ Unit) : (turns i : Nat) → σ → Option (Res Unit × σ)
  | 0, _, _ => none
  | turns + 1, i, s =>
    if i < n then
      match (f i).run s with
      | (.ok (), s') => loopU32 n f turns ((i + 1) % 2 ^ 32) s'
      | r => some r
    else some (.ok (), s)

/-- The same loop when its body may itself never end: /repo/src/MathUtils/Interp2d.h:128-162. -/
def loopU32N {σ : Type} (n : Nat) (f : Nat → σ → Option (Res Unit × σ)) : (turns i : Nat) → σ → Option (Res Unit × σ)
  | 0, _, _ => none
  | turns + 1, i, s =>
    if i < n then
      match f i s with
      | some (.ok (), s') => loopU32N n f turns ((i + 1) % 2 ^ 32) s'
      | r => r
    else some (.ok (), s)

/-- One statement after another, when the first may never end. The `;` of /repo/src/MathUtils/Convolution.h:40-75 and /repo/src/MathUtils/Check.h:18-27. -/
def andThen {α β : Type} (x : Option (Res α)) (f : α → Option (Res β)) : Option (Res β) :=
  match x with
  | none => none
  | some (.ok a) => f a
  | some (.throws e) => some (.throws e)
  | some (.exits c) => some (.exits c)
  | some .aborts => some .aborts
  | some .ub => some .ub
  | some .nonfinite => some .nonfinite

/-- `for (int i = 0; i < n; i++)` where `n` has 64 bits: the loop of /repo/src/MathUtils/Interp1d.h:40-42. After the turn of `2^31 - 1` the counter overflows. -/
def forI32 {σ : Type} (n : Nat) (f : Nat → σ → Res σ) (s : σ) : Res σ :=
  if n < 2 ^ 31 then forRange 0 n f s else do
    let _ ← forRange 0 (2 ^ 31) f s
    .ub

section stdvector
variable {K : Type} [Field K] [DecidableEq K]

/-- `Minus`, /repo/src/MathUtils/StdVector.h:46-56, with `unsigned int n = v1.size()`. -/
def vMinus32 (B : Build) (v1 v2 : List K) : Res (List K) := do
  let n := v1.length % 2 ^ 32
  cassert B (v2.length = n)
  let out := List.replicate n 0
  forRange 0 n (fun i out => do
    let a ← vIdx v1 i
    let b ← vIdx v2 i
    vSet out i (a - b)) out

end stdvector

section
variable {K : Type} [Field K] [LinearOrder K]

/-- `Door`, /repo/src/MathUtils/Functions.h:51-58, with this `Minus`. -/
def door32 (B : Build) (x : List K) (x_min x_max height : K) : Res (List K) := do
  let out ← heaviside x x_min
  let h2 ← heaviside x x_max
  let out ← vMinus32 B out h2
  return vScale out height

/-- The loop of `IsClose` on vectors, with `unsigned int i`. /repo/src/MathUtils/Check.h:21-26 -/
def isCloseLoop32 (a b : List K) (rtol atol : K) : (turns i : Nat) → Option (Res Bool)
  | 0, _ => none
  | turns + 1, i =>
    if i < a.length then
      match (do let ai ← vIdx a i; let bi ← vIdx b i; return isClose ai bi rtol atol) with
      | .ok c => if !c then some (.ok false) else isCloseLoop32 a b rtol atol turns ((i + 1) % 2 ^ 32)
      | r => some r
    else some (.ok true)

/-- `IsClose` on vectors, /repo/src/MathUtils/Check.h:18-27. -/
def isCloseVec32 (B : Build) (a b : List K) (rtol atol : K) (turns : Nat) : Option (Res Bool) :=
  andThen (some (cassert B (a.length = b.length))) fun _ => isCloseLoop32 a b rtol atol turns 0

/-- `NaiveConvolution`, /repo/src/MathUtils/Convolution.h:40-75, with the copy of the signal into `sv` (59-63), whose counter is an `unsigned int`. -/
def naiveConvolution32 (B : Build) (kernel signal : List K) (dt : K) (reverse : Bool) (turns : Nat) : Option (Res K) :=
  andThen (some (do cassert B (signal.length ≥ kernel.length); convolutionIntegrand kernel signal reverse)) fun integrand =>
  andThen (forU32 signal.length (fun i sv => do let s ← vIdx signal i; return sv ++ [s]) turns 0 ([] : List K)) fun _ =>
  some (trapzUniform integrand dt)

end

namespace Interp1d
variable {K Y : Type} [Field K] [LinearOrder K] [AddCommGroup Y] [Module K Y]

/-- Body of the loop of `Interp1dLinearBase::Initialize`, with `i - 1` on `unsigned int`. /repo/src/MathUtils/Interp1d.h:156-169 -/
def initializeStep32 (i : Nat) : Act (Interp1d K Y) Unit := do
  let s ← Act.get
  let xs ← Act.lift (deref s.xcoord)
  let xi ← Act.lift (vAt xs (usub 32 i 1))
  let xii ← Act.lift (vAt xs i)
  let ys ← Act.lift (deref s.yval)
  let yi ← Act.lift (vAt ys (usub 32 i 1))
  let yii ← Act.lift (vAt ys i)
  let xii_m_xi := xii - xi
  let ca ← Act.lift (sdiv (yii - yi) xii_m_xi)
  Act.update fun s => { s with a := s.a ++ [ca] }
  let cb ← Act.lift (sdiv (xii • yi - xi • yii) xii_m_xi)
  Act.update fun s => { s with b := s.b ++ [cb] }

/-- `Interp1dLinearBase::Initialize`, with `unsigned int i` and `unsigned long ndata`. /repo/src/MathUtils/Interp1d.h:145-170 -/
def init32 (B : Build) (x : Option (List K)) (y : Option (List Y)) (turns : Nat) (s : Interp1d K Y) : Option (Res Unit × Interp1d K Y) :=
  match (initializeBase B x y).run s with
  | (.ok (), s') => Act.loopU32 s'.ndata initializeStep32 turns 1 s'
  | r => some r

/-- `Interp1d::Eval(xvector)`, with `int i`; `operator()(xvector)` is the same. /repo/src/MathUtils/Interp1d.h:33-44, 56-58 -/
def evalVec32 (kind : Interp1dKind) (s : Interp1d K Y) (xv : List K) : Res (List Y) :=
  forI32 xv.length (fun i out => do
    let xi ← vIdx xv i
    let y ← eval kind s xi
    return out ++ [y]) []

end Interp1d

namespace Interp2d
variable {K : Type} [Field K] [LinearOrder K]

/-- Body of the inner loop of `Interp2dLinear::Initialize`, with `i - 1` and `j - 1` on `unsigned int`. /repo/src/MathUtils/Interp2d.h:138-161. `ny` has 64 bits, and so have the
indices into the data. -/
def initializeInner32 (data : Option (List K)) (ny : Nat) (i : Nat) (x1 x2 inv_dx : K) (j : Nat) : Act (Interp2d K) Unit := do
  let s ← Act.get
  let ys ← Act.lift (deref s.ycoord)
  let y1 ← Act.lift (vAt ys (usub 32 j 1))
  let y2 ← Act.lift (vAt ys j)
  let inv_dy ← Act.lift (fdiv 1 (y2 - y1))
  let d ← Act.lift (deref data)
  let d11 ← Act.lift (vAt d (ny * usub 32 i 1 + usub 32 j 1))
  let d12 ← Act.lift (vAt d (ny * usub 32 i 1 + j))
  let d21 ← Act.lift (vAt d (ny * i + usub 32 j 1))
  let d22 ← Act.lift (vAt d (ny * i + j))
  Act.update fun s => { s with a1 := s.a1 ++ [(d11 * x2 * y2 - d12 * x2 * y1 - d21 * x1 * y2 + d22 * x1 * y1) * inv_dx * inv_dy] }
  Act.update fun s => { s with a2 := s.a2 ++ [(-d11 * y2 + d12 * y1 + d21 * y2 - d22 * y1) * inv_dx * inv_dy] }
  Act.update fun s => { s with a3 := s.a3 ++ [(-d11 * x2 + d12 * x2 + d21 * x1 - d22 * x1) * inv_dx * inv_dy] }
  Act.update fun s => { s with a4 := s.a4 ++ [(d11 - d12 - d21 + d22) * inv_dx * inv_dy] }

/-- The start of the body of the outer loop, with `i - 1` on `unsigned int`. /repo/src/MathUtils/Interp2d.h:130-133 -/
def initializeHead32 (i : Nat) : Act (Interp2d K) (K × K × K) := do
  let s ← Act.get
  let xs ← Act.lift (deref s.xcoord)
  let x1 ← Act.lift (vAt xs (usub 32 i 1))
  let x2 ← Act.lift (vAt xs i)
  let inv_dx ← Act.lift (fdiv 1 (x2 - x1))
  return (x1, x2, inv_dx)

/-- Body of the outer loop, with `unsigned int j` and `unsigned long ny`. /repo/src/MathUtils/Interp2d.h:128-162 -/
def initializeOuter32 (data : Option (List K)) (ny : Nat) (turns i : Nat) (s : Interp2d K) : Option (Res Unit × Interp2d K) :=
  match (initializeHead32 i).run s with
  | (.ok (x1, x2, inv_dx), s') => Act.loopU32 s'.ny (initializeInner32 data ny i x1 x2 inv_dx) turns 1 s'
  | (.throws e, s') => some (.throws e, s')
  | (.exits c, s') => some (.exits c, s')
  | (.aborts, s') => some (.aborts, s')
  | (.ub, s') => some (.ub, s')
  | (.nonfinite, s') => some (.nonfinite, s')

/-- `Interp2dLinear::Initialize`, with `unsigned int i` and `unsigned long nx`; each of the two loops is watched for `turns` turns. /repo/src/MathUtils/Interp2d.h:110-164 -/
def init32 (B : Build) (x y data : Option (List K)) (turns : Nat) (s : Interp2d K) : Option (Res Unit × Interp2d K) :=
  match (initializeBase B x y data).run s with
  | (.ok (), s') => loopU32N s'.nx (initializeOuter32 data s'.ny turns) turns 1 s'
  | r => some r

end Interp2d

end MU
