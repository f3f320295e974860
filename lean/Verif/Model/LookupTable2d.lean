import Verif.Model.Interp2d
import Verif.Model.LookupTable1D

/-!
# LookupTable2D.h

Same conventions as for LookupTable1D.h. `Eval(name, coord)` (lines 137-140) is not modelled: it calls an overload of `Interp2d::Eval` that
is commented out, so that it does not compile when used.
-/

namespace MU

/-- Fields of `LookupTable2d`. /repo/src/MathUtils/LookupTable2D.h:24-31 -/
structure LookupTable2d (K : Type) where
  interp_method : InterpMethod
  Xcoords : Option (List K)
  Ycoords : Option (List K)
  MData : List (List K)
  assoc : List (String × Nat)
  interpolators : List (Interp2d K)

namespace LookupTable2d

variable {K : Type}

/-- `LookupTable2d()`. /repo/src/MathUtils/LookupTable2D.h:25-35 -/
def new (K : Type) : LookupTable2d K :=
  { interp_method := .LINEAR, Xcoords := none, Ycoords := none, MData := [], assoc := [], interpolators := [] }

/-- `SetInterpolationMethod`. /repo/src/MathUtils/LookupTable2D.h:82-89 -/
def setInterpolationMethod (m : InterpMethod) : Act (LookupTable2d K) Unit :=
  Act.update fun s => { s with interp_method := m }

/-- `SetX`. /repo/src/MathUtils/LookupTable2D.h:96-99 -/
def setX (X : List K) : Act (LookupTable2d K) Unit := Act.update fun s => { s with Xcoords := some X }

/-- `SetY`. /repo/src/MathUtils/LookupTable2D.h:101-104 -/
def setY (Y : List K) : Act (LookupTable2d K) Unit := Act.update fun s => { s with Ycoords := some Y }

/-- `GetX`. /repo/src/MathUtils/LookupTable2D.h:50 -/
def getX (s : LookupTable2d K) : Res (List K) := deref s.Xcoords

/-- `GetY`. /repo/src/MathUtils/LookupTable2D.h:55 -/
def getY (s : LookupTable2d K) : Res (List K) := deref s.Ycoords

/-- `GetNbSeries`. /repo/src/MathUtils/LookupTable2D.h:58 -/
def getNbSeries (s : LookupTable2d K) : Nat := s.MData.length

/-- `GetNbSample`. /repo/src/MathUtils/LookupTable2D.h:91-94 -/
def getNbSample (s : LookupTable2d K) : Res Nat := do
  let xs ← deref s.Xcoords
  let ys ← deref s.Ycoords
  return xs.length * ys.length

/-- `HasSerie`. /repo/src/MathUtils/LookupTable2D.h:147-155 -/
def hasSerie (s : LookupTable2d K) (name : String) : Bool :=
  match s.assoc.lookup name with
  | none => false
  | some _ => true

/-- `GetIndex`. /repo/src/MathUtils/LookupTable2D.h:157-160 -/
def getIndex (s : LookupTable2d K) (name : String) : Res Nat := assocAt s.assoc name

variable [Field K] [LinearOrder K]

/-- `AddData`. /repo/src/MathUtils/LookupTable2D.h:106-130 -/
def addData (B : Build) (name : String) (data : List K) : Act (LookupTable2d K) Bool := do
  let s ← Act.get
  let i := getNbSeries s
  let res := assocInsert s.assoc name i
  Act.update fun s => { s with assoc := res.1 }
  if res.2 then
    Act.update fun s => { s with MData := s.MData ++ [data] }
    let o ← Act.lift (Interp2d.make K s.interp_method)
    let r := (Interp2d.init B s.Xcoords s.Ycoords (some data)).run o
    Act.lift r.1
    Act.update fun s => { s with interpolators := s.interpolators ++ [r.2] }
    return true
  else
    return false

/-- `Eval(name, x, y)`. /repo/src/MathUtils/LookupTable2D.h:132-135 -/
def eval (B : Build) (s : LookupTable2d K) (name : String) (x y : K) : Res K := do
  let i ← getIndex s name
  let o ← vAt s.interpolators i
  Interp2d.eval B o x y

/-- `Eval(name, vcoord)`. /repo/src/MathUtils/LookupTable2D.h:142-145 -/
def evalVec (B : Build) (s : LookupTable2d K) (name : String) (vc : List (List K)) : Res (List K) := do
  let i ← getIndex s name
  let o ← vAt s.interpolators i
  Interp2d.evalVec B o vc

/-- A call made by a client on a table. The public functions of /repo/src/MathUtils/LookupTable2D.h:45-64. -/
inductive Op (K : Type) where
  | setX (X : List K)
  | setY (Y : List K)
  | setMethod (m : InterpMethod)
  | addData (name : String) (data : List K)

/-- Executing a call; the boolean returned by `AddData` is dropped. The public functions of /repo/src/MathUtils/LookupTable2D.h:45-64. -/
def exec (B : Build) : Op K → Act (LookupTable2d K) Unit
  | .setX X => setX X
  | .setY Y => setY Y
  | .setMethod m => setInterpolationMethod m
  | .addData name d => do
    let _ ← addData B name d
    return ()

/-- A client program: a sequence of calls, stopped by the first failure. It stands for any user of /repo/src/MathUtils/LookupTable2D.h:45-64. -/
def execAll (B : Build) : List (Op K) → Act (LookupTable2d K) Unit
  | [] => pure ()
  | op :: rest => do
    exec B op
    execAll B rest

end LookupTable2d
end MU
