import Verif.Model.Interp1d

/-!
# LookupTable1D.h

`std::unordered_map<std::string, unsigned long>` is an association list without duplicate keys; where the code iterates over it, the
model takes the iteration order as an argument. Messages on standard output are not modelled; memory exhaustion and the interpolator
object lost when `Initialize` throws are in Model/OutOfMemory.
-/

namespace MU

/-- `assoc.at(name)`: throws `std::out_of_range` when the key is absent.
/repo/src/MathUtils/LookupTable1D.h:172, /repo/src/MathUtils/LookupTable2D.h:159. -/
def assocAt {V : Type} (m : List (String × V)) (name : String) : Res V :=
  match m.lookup name with
  | some v => .ok v
  | none => .throws .outOfRange

/-- `assoc.insert(pair)`: the map afterwards, and whether the insertion took place.
/repo/src/MathUtils/LookupTable1D.h:111, /repo/src/MathUtils/LookupTable2D.h:111. -/
def assocInsert {V : Type} (m : List (String × V)) (name : String) (v : V) : List (String × V) × Bool :=
  match m.lookup name with
  | some _ => (m, false)
  | none => (m ++ [(name, v)], true)

/-- An object pointed to by `std::unique_ptr<Interp1d>`: its class and its fields. /repo/src/MathUtils/Interp1d.h:85-132 -/
abbrev Interp1dObj (K Y : Type) := Interp1dKind × Interp1d K Y

/-- Fields of `LookupTable1D`. /repo/src/MathUtils/LookupTable1D.h:18-25. `interp_method` may be uninitialised. -/
structure LookupTable1D (K Y : Type) where
  interp_method : Option InterpMethod
  Xcoords : Option (List K)
  assoc : List (String × Nat)
  Ydata : List (List Y)
  interpolators : List (Interp1dObj K Y)

namespace LookupTable1D

variable {K Y : Type}

/-- `LookupTable1D(interp_method)`. /repo/src/MathUtils/LookupTable1D.h:93-97 -/
def new (K Y : Type) (m : InterpMethod) : LookupTable1D K Y :=
  { interp_method := some m, Xcoords := none, assoc := [], Ydata := [], interpolators := [] }

/-- `SetX`. /repo/src/MathUtils/LookupTable1D.h:99-102 -/
def setX (X : List K) : Act (LookupTable1D K Y) Unit :=
  Act.update fun s => { s with Xcoords := some X }

/-- `GetX`. /repo/src/MathUtils/LookupTable1D.h:63 -/
def getX (s : LookupTable1D K Y) : Res (List K) := deref s.Xcoords

/-- `GetNbSeries`. /repo/src/MathUtils/LookupTable1D.h:70 -/
def getNbSeries (s : LookupTable1D K Y) : Nat := s.Ydata.length

/-- `GetNbSample`. /repo/src/MathUtils/LookupTable1D.h:73 -/
def getNbSample (s : LookupTable1D K Y) : Res Nat := do
  let xs ← deref s.Xcoords
  return xs.length

/-- `GetIndex`. /repo/src/MathUtils/LookupTable1D.h:170-173 -/
def getIndex (s : LookupTable1D K Y) (name : String) : Res Nat := assocAt s.assoc name

/-- `GetXmin`. /repo/src/MathUtils/LookupTable1D.h:65, /repo/src/MathUtils/Interp1d.h:62 -/
def getXmin (s : LookupTable1D K Y) (name : String) : Res K := do
  let i ← getIndex s name
  let o ← vAt s.interpolators i
  readVar o.2.xmin

/-- `GetXmax`. /repo/src/MathUtils/LookupTable1D.h:67, /repo/src/MathUtils/Interp1d.h:64 -/
def getXmax (s : LookupTable1D K Y) (name : String) : Res K := do
  let i ← getIndex s name
  let o ← vAt s.interpolators i
  readVar o.2.xmax

variable [Field K] [LinearOrder K] [AddCommGroup Y] [Module K Y]

/-- `AddY`. /repo/src/MathUtils/LookupTable1D.h:104-136 -/
def addY (B : Build) (name : String) (Yv : List Y) : Act (LookupTable1D K Y) Bool := do
  let s ← Act.get
  let i := getNbSeries s
  let res := assocInsert s.assoc name i
  Act.update fun s => { s with assoc := res.1 }
  if res.2 then
    Act.update fun s => { s with Ydata := s.Ydata ++ [Yv] }
    let m ← Act.lift (readVar s.interp_method)
    let kind ← Act.lift (Interp1d.make m)
    let r := (Interp1d.init B s.Xcoords (some Yv)).run (Interp1d.fresh K Y)
    Act.lift r.1
    Act.update fun s => { s with interpolators := s.interpolators ++ [(kind, r.2)] }
    return true
  else
    return false

/-- `Eval(name, x)`. /repo/src/MathUtils/LookupTable1D.h:138-141 -/
def eval (s : LookupTable1D K Y) (name : String) (x : K) : Res Y := do
  let i ← getIndex s name
  let o ← vAt s.interpolators i
  Interp1d.eval o.1 o.2 x

/-- `Eval(name, xvect)`. /repo/src/MathUtils/LookupTable1D.h:143-147 -/
def evalVec (s : LookupTable1D K Y) (name : String) (xv : List K) : Res (List Y) := do
  let i ← getIndex s name
  let o ← vAt s.interpolators i
  Interp1d.evalVec o.1 o.2 xv

/-- `Eval<Tx,Ty>(x)` on all series, iterating over the map in the order `order`. /repo/src/MathUtils/LookupTable1D.h:149-168. The keys being distinct,
`out[name] = v` adds an entry. -/
def evalAll (s : LookupTable1D K Y) (x : K) : (order : List (String × Nat)) → Res (List (String × Y))
  | [] => .ok []
  | (name, idx) :: rest => do
    let o ← vIdx s.interpolators idx
    let v ← Interp1d.eval o.1 o.2 x
    let out ← evalAll s x rest
    return (name, v) :: out

/-- The table in a moved-from state: null pointer, and (as all implementations do) empty containers. /repo/src/MathUtils/LookupTable1D.h:43-58 -/
def movedFrom (s : LookupTable1D K Y) : LookupTable1D K Y :=
  { interp_method := s.interp_method, Xcoords := none, assoc := [], Ydata := [], interpolators := [] }

/-- Move assignment (`dst = std::move(src)`, distinct objects): the destination afterwards. /repo/src/MathUtils/LookupTable1D.h:43-51. `interp_method` is not
assigned. -/
def moveAssign (dst src : LookupTable1D K Y) : LookupTable1D K Y :=
  { interp_method := dst.interp_method, Xcoords := src.Xcoords, assoc := src.assoc, Ydata := src.Ydata,
    interpolators := src.interpolators }

/-- Move construction: the new object. /repo/src/MathUtils/LookupTable1D.h:54-58. `interp_method` is not initialised. -/
def moveConstruct (src : LookupTable1D K Y) : LookupTable1D K Y :=
  { interp_method := none, Xcoords := src.Xcoords, assoc := src.assoc, Ydata := src.Ydata, interpolators := src.interpolators }

/-- A call made by a client on a table. The public functions of /repo/src/MathUtils/LookupTable1D.h:61-76. -/
inductive Op (K Y : Type) where
  | setX (X : List K)
  | addY (name : String) (Yv : List Y)

/-- Executing a call; the boolean returned by `AddY` is dropped. The public functions of /repo/src/MathUtils/LookupTable1D.h:61-76. -/
def exec (B : Build) : Op K Y → Act (LookupTable1D K Y) Unit
  | .setX X => setX X
  | .addY name Yv => do
    let _ ← addY B name Yv
    return ()

/-- A client program: a sequence of calls, stopped by the first failure. It stands for any user of /repo/src/MathUtils/LookupTable1D.h:61-76. -/
def execAll (B : Build) : List (Op K Y) → Act (LookupTable1D K Y) Unit
  | [] => pure ()
  | op :: rest => do
    exec B op
    execAll B rest

end LookupTable1D
end MU
