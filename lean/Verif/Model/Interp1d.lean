import Verif.Core

/-!
# Interp.h, Interp1d.h

`XReal` is a linearly ordered field `K`; `YScalar` (real or complex) is a `K`-vector space `Y`. Counters (`unsigned int`, `unsigned long`) are
natural numbers: vectors are assumed to have fewer than 2^32 elements. Messages on the error stream are not modelled.
-/

namespace MU

/-- `enum INTERP_METHOD`. /repo/src/MathUtils/Interp.h:15-20 -/
inductive InterpMethod where
  | LINEAR
  | LINEAR_EXTRAPOLATE
  | LINEAR_SATURATE
  | BSPLINE
  deriving DecidableEq, Repr

/-- Which class derived from `Interp1dLinearBase` an object belongs to. /repo/src/MathUtils/Interp1d.h:105-132 -/
inductive Interp1dKind where
  | linear
  | extrapolate
  | saturate
  deriving DecidableEq, Repr

/-- Fields of `Interp1d` and `Interp1dLinearBase`. /repo/src/MathUtils/Interp1d.h:18-23, 88-90. Pointers may be null (`none`), `xmin` and `xmax` are
uninitialised (`none`) before `Initialize`. -/
structure Interp1d (K Y : Type) where
  xcoord : Option (List K)
  yval : Option (List Y)
  ndata : Nat
  xmin : Option K
  xmax : Option K
  a : List Y
  b : List Y

namespace Interp1d

/-- A newly constructed object (implicit default constructors). /repo/src/MathUtils/Interp1d.h:18-23, 88-90 -/
def fresh (K Y : Type) : Interp1d K Y :=
  { xcoord := none, yval := none, ndata := 0, xmin := none, xmax := none, a := [], b := [] }

variable {K Y : Type} [Field K] [LinearOrder K] [AddCommGroup Y] [Module K Y]

/-- `Interp1d::Initialize`. /repo/src/MathUtils/Interp1d.h:68-82. `std::is_sorted` is `List.Pairwise (· ≤ ·)`. The arguments are the pointees of the shared
pointers, `none` for a null pointer. -/
def initializeBase (B : Build) (x : Option (List K)) (y : Option (List Y)) : Act (Interp1d K Y) Unit := do
  let xs ← Act.lift (deref x)
  let ys ← Act.lift (deref y)
  Act.lift (cassert B (xs.length = ys.length))
  Act.lift (cassert B (xs.Pairwise (· ≤ ·)))
  Act.update fun s => { s with ndata := xs.length }
  let x0 ← Act.lift (vAt xs 0)
  Act.update fun s => { s with xmin := some x0 }
  let x1 ← Act.lift (vAt xs (xs.length - 1)) -- does not wrap around: at(0) has succeeded
  Act.update fun s => { s with xmax := some x1 }
  Act.update fun s => { s with xcoord := some xs, yval := some ys }

/-- Body of the loop of `Interp1dLinearBase::Initialize`. /repo/src/MathUtils/Interp1d.h:156-169 -/
def initializeStep (i : Nat) : Act (Interp1d K Y) Unit := do
  let s ← Act.get
  let xs ← Act.lift (deref s.xcoord)
  let xi ← Act.lift (vAt xs (i - 1))
  let xii ← Act.lift (vAt xs i)
  let ys ← Act.lift (deref s.yval)
  let yi ← Act.lift (vAt ys (i - 1))
  let yii ← Act.lift (vAt ys i)
  let xii_m_xi := xii - xi
  let ca ← Act.lift (sdiv (yii - yi) xii_m_xi)
  Act.update fun s => { s with a := s.a ++ [ca] }
  let cb ← Act.lift (sdiv (xii • yi - xi • yii) xii_m_xi)
  Act.update fun s => { s with b := s.b ++ [cb] }

/-- `Interp1dLinearBase::Initialize`. /repo/src/MathUtils/Interp1d.h:145-170. `reserve` has no observable effect. -/
def init (B : Build) (x : Option (List K)) (y : Option (List Y)) : Act (Interp1d K Y) Unit := do
  initializeBase B x y
  let s ← Act.get
  Act.loop 1 s.ndata initializeStep

/-- `Interp1dLinearBase::PrivEval`. /repo/src/MathUtils/Interp1d.h:172-186 -/
def privEvalBase (s : Interp1d K Y) (x : K) : Res Y := do
  let xs ← deref s.xcoord
  let index ← lowerBound xs x
  let index := if index = 0 then 1 else index
  let a_ ← vAt s.a (index - 1)
  let b_ ← vAt s.b (index - 1)
  return x • a_ + b_

/-- `Interp1dLinear::PrivEval`. /repo/src/MathUtils/Interp1d.h:188-199. The disjunction is evaluated left to right. -/
def privEvalLinear (s : Interp1d K Y) (x : K) : Res Y := do
  let mn ← readVar s.xmin
  if x < mn then .exits 1 else
  let mx ← readVar s.xmax
  if mx < x then .exits 1 else
  privEvalBase s x

/-- `Interp1dLinearExtrapolate::PrivEval`. /repo/src/MathUtils/Interp1d.h:201-204 -/
def privEvalExtrapolate (s : Interp1d K Y) (x : K) : Res Y := privEvalBase s x

/-- `Interp1dLinearSaturate::PrivEval`. /repo/src/MathUtils/Interp1d.h:206-215 -/
def privEvalSaturate (s : Interp1d K Y) (x : K) : Res Y := do
  let mn ← readVar s.xmin
  let mx ← readVar s.xmax
  let x_tmp := if x < mn ∨ mx < x then (if x < mn then mn else mx) else x
  privEvalBase s x_tmp

/-- `Interp1d::Eval(x)`, i.e. the virtual `PrivEval` of the object's class; `operator()(x)` is the same. /repo/src/MathUtils/Interp1d.h:31, 52-54 -/
def eval (kind : Interp1dKind) (s : Interp1d K Y) (x : K) : Res Y :=
  match kind with
  | .linear => privEvalLinear s x
  | .extrapolate => privEvalExtrapolate s x
  | .saturate => privEvalSaturate s x

/-- `Interp1d::Eval(xvector)`; `operator()(xvector)` is the same. /repo/src/MathUtils/Interp1d.h:33-44, 56-58 -/
def evalVec (kind : Interp1dKind) (s : Interp1d K Y) (xv : List K) : Res (List Y) :=
  forRange 0 xv.length (fun i out => do
    let xi ← vIdx xv i
    let y ← eval kind s xi
    return out ++ [y]) []

/-- `Interp1d::MakeInterp1d`: the class of the object created. /repo/src/MathUtils/Interp1d.h:220-243 -/
def make (m : InterpMethod) : Res Interp1dKind :=
  match m with
  | .LINEAR => .ok .linear
  | .LINEAR_EXTRAPOLATE => .ok .extrapolate
  | .LINEAR_SATURATE => .ok .saturate
  | .BSPLINE => .exits 1

end Interp1d

/-- A client program: `MakeInterp1d(m)`, one `Initialize(x, y)`, then `Eval(x)`.
It stands for any user of /repo/src/MathUtils/Interp1d.h:31, 49-51, 60. -/
def interp1d {K Y : Type} [Field K] [LinearOrder K] [AddCommGroup Y] [Module K Y]
    (B : Build) (m : InterpMethod) (xs : List K) (ys : List Y) (x : K) : Res Y := do
  let kind ← Interp1d.make m
  let (r, s) := (Interp1d.init B (some xs) (some ys)).run (Interp1d.fresh K Y)
  r
  Interp1d.eval kind s x

end MU

namespace MU

/-- A client program: successive `Initialize` calls on the same object, with the data of `hist`.
It stands for any user of /repo/src/MathUtils/Interp1d.h:49-51. -/
def Interp1d.initAll {K Y : Type} [Field K] [LinearOrder K] [AddCommGroup Y] [Module K Y]
    (B : Build) : List (List K × List Y) → Act (Interp1d K Y) Unit
  | [] => pure ()
  | (xs, ys) :: hist => do
    Interp1d.init B (some xs) (some ys)
    Interp1d.initAll B hist

/-- A client program: `MakeInterp1d(m)`, `Initialize` calls with the data of `hist`, then `Eval(x)`.
It stands for any user of /repo/src/MathUtils/Interp1d.h:31, 49-51, 60. -/
def interp1dHist {K Y : Type} [Field K] [LinearOrder K] [AddCommGroup Y] [Module K Y]
    (B : Build) (m : InterpMethod) (hist : List (List K × List Y)) (x : K) : Res Y := do
  let kind ← Interp1d.make m
  let (r, s) := (Interp1d.initAll B hist).run (Interp1d.fresh K Y)
  r
  Interp1d.eval kind s x

end MU
