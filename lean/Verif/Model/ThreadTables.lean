import Verif.Model.Threads
import Verif.Model.LookupTable1D
import Verif.Model.LookupTable2d

/-!
# Lookup tables shared by threads

The calls of a client on a table, as programs of accesses to its fields (see Threads.lean). An interpolator is read together with the vector of pointers
that holds it; the hash table of names is read once before the loop that visits it.
-/

namespace MU

/-! ## `LookupTable1D` -/

namespace LookupTable1D

/-- The fields of `LookupTable1D`. /repo/src/MathUtils/LookupTable1D.h:18-25 -/
inductive Member where
  | method
  | x
  | assoc
  | ydata
  | interps

/-- /repo/src/MathUtils/LookupTable1D.h:18-25 -/
def layout (K Y : Type) : Layout (LookupTable1D K Y) where
  L := Member
  V
    | .method => Option InterpMethod
    | .x => Option (List K)
    | .assoc => List (String × Nat)
    | .ydata => List (List Y)
    | .interps => List (Interp1dObj K Y)
  get
    | .method, s => s.interp_method
    | .x, s => s.Xcoords
    | .assoc, s => s.assoc
    | .ydata, s => s.Ydata
    | .interps, s => s.interpolators
  set
    | .method, v, s => { s with interp_method := v }
    | .x, v, s => { s with Xcoords := v }
    | .assoc, v, s => { s with assoc := v }
    | .ydata, v, s => { s with Ydata := v }
    | .interps, v, s => { s with interpolators := v }

/-- What a call returns. The public functions of /repo/src/MathUtils/LookupTable1D.h:61-86. -/
inductive Answer (K Y : Type) where
  | value (v : Y)
  | values (l : List Y)
  | series (l : List (String × Y))
  | abscissa (x : K)
  | abscissae (l : List K)
  | count (n : Nat)
  | added (b : Bool)
  | done

/-- A call. `order` is the order in which the hash table is visited. The public functions of /repo/src/MathUtils/LookupTable1D.h:61-86. -/
inductive Call (K Y : Type) where
  | eval (name : String) (x : K)
  | evalVec (name : String) (xv : List K)
  | evalAll (order : List (String × Nat) → List (String × Nat)) (x : K)
  | getX
  | getXmin (name : String)
  | getXmax (name : String)
  | getNbSeries
  | getNbSample
  | setX (X : List K)
  | addY (name : String) (Yv : List Y)

variable {K Y : Type}

/-- Reading a field. /repo/src/MathUtils/LookupTable1D.h:18-25 -/
def rMethod : Prog (layout K Y) (Option InterpMethod) := Prog.load (Λ := layout K Y) .method
@[inherit_doc rMethod] def rX : Prog (layout K Y) (Option (List K)) := Prog.load (Λ := layout K Y) .x
@[inherit_doc rMethod] def rAssoc : Prog (layout K Y) (List (String × Nat)) := Prog.load (Λ := layout K Y) .assoc
@[inherit_doc rMethod] def rYdata : Prog (layout K Y) (List (List Y)) := Prog.load (Λ := layout K Y) .ydata
@[inherit_doc rMethod] def rInterps : Prog (layout K Y) (List (Interp1dObj K Y)) := Prog.load (Λ := layout K Y) .interps

/-- Assigning a field. /repo/src/MathUtils/LookupTable1D.h:18-25 -/
def wX (v : Option (List K)) : Prog (layout K Y) Unit := Prog.store (Λ := layout K Y) .x v
@[inherit_doc wX] def wAssoc (v : List (String × Nat)) : Prog (layout K Y) Unit := Prog.store (Λ := layout K Y) .assoc v
@[inherit_doc wX] def wYdata (v : List (List Y)) : Prog (layout K Y) Unit := Prog.store (Λ := layout K Y) .ydata v
@[inherit_doc wX] def wInterps (v : List (Interp1dObj K Y)) : Prog (layout K Y) Unit := Prog.store (Λ := layout K Y) .interps v

/-- `interpolators.at(GetIndex(name))`. /repo/src/MathUtils/LookupTable1D.h:140, 170-173 -/
def findP (name : String) : Prog (layout K Y) (Interp1dObj K Y) := do
  let m ← rAssoc
  let i ← Prog.lift (assocAt m name)
  let v ← rInterps
  Prog.lift (vAt v i)

variable [Field K] [LinearOrder K] [AddCommGroup Y] [Module K Y]

/-- The loop of `Eval<Tx,Ty>(x)`. /repo/src/MathUtils/LookupTable1D.h:158-164 -/
def evalAllP (x : K) : List (String × Nat) → Prog (layout K Y) (List (String × Y))
  | [] => pure []
  | (name, idx) :: rest => do
    let v ← rInterps
    let o ← Prog.lift (vIdx v idx)
    let y ← Prog.lift (Interp1d.eval o.1 o.2 x)
    let out ← evalAllP x rest
    return (name, y) :: out

/-- `AddY`. /repo/src/MathUtils/LookupTable1D.h:104-136. `insert` does not modify the map when the name is there. -/
def addYP (B : Build) (name : String) (Yv : List Y) : Prog (layout K Y) Bool := do
  let y ← rYdata
  let m ← rAssoc
  if (assocInsert m name y.length).2 then do
    wAssoc (assocInsert m name y.length).1
    let y ← rYdata
    wYdata (y ++ [Yv])
    let mm ← rMethod
    let mt ← Prog.lift (readVar mm)
    let kind ← Prog.lift (Interp1d.make mt)
    let xs ← rX
    let r := (Interp1d.init B xs (some Yv)).run (Interp1d.fresh K Y)
    Prog.lift r.1
    let v ← rInterps
    wInterps (v ++ [(kind, r.2)])
    return true
  else return false

/-- The accesses of a call. The public functions of /repo/src/MathUtils/LookupTable1D.h:61-86. -/
def Call.prog (B : Build) : Call K Y → Prog (layout K Y) (Answer K Y)
  | .eval name x => do
    let o ← findP name
    let v ← Prog.lift (Interp1d.eval o.1 o.2 x)
    return .value v
  | .evalVec name xv => do
    let o ← findP name
    let v ← Prog.lift (Interp1d.evalVec o.1 o.2 xv)
    return .values v
  | .evalAll order x => do
    let _ ← rYdata
    let m ← rAssoc
    let l ← evalAllP x (order m)
    return .series l
  | .getX => do
    let p ← rX
    let xs ← Prog.lift (deref p)
    return .abscissae xs
  | .getXmin name => do
    let o ← findP name
    let v ← Prog.lift (readVar o.2.xmin)
    return .abscissa v
  | .getXmax name => do
    let o ← findP name
    let v ← Prog.lift (readVar o.2.xmax)
    return .abscissa v
  | .getNbSeries => do
    let y ← rYdata
    return .count y.length
  | .getNbSample => do
    let p ← rX
    let xs ← Prog.lift (deref p)
    return .count xs.length
  | .setX X => do
    wX (some X)
    return .done
  | .addY name Yv => do
    let b ← addYP B name Yv
    return .added b

/-- The same call made in a program of one thread, with the functions of LookupTable1D.lean. The public functions of
/repo/src/MathUtils/LookupTable1D.h:61-86. -/
def Call.seq (B : Build) : Call K Y → Act (LookupTable1D K Y) (Answer K Y)
  | .eval name x => do
    let s ← Act.get
    Act.lift (Answer.value <$> LookupTable1D.eval s name x)
  | .evalVec name xv => do
    let s ← Act.get
    Act.lift (Answer.values <$> LookupTable1D.evalVec s name xv)
  | .evalAll order x => do
    let s ← Act.get
    Act.lift (Answer.series <$> LookupTable1D.evalAll s x (order s.assoc))
  | .getX => do
    let s ← Act.get
    Act.lift (Answer.abscissae <$> LookupTable1D.getX s)
  | .getXmin name => do
    let s ← Act.get
    Act.lift (Answer.abscissa <$> LookupTable1D.getXmin s name)
  | .getXmax name => do
    let s ← Act.get
    Act.lift (Answer.abscissa <$> LookupTable1D.getXmax s name)
  | .getNbSeries => do
    let s ← Act.get
    Act.lift (.ok (.count (LookupTable1D.getNbSeries s)))
  | .getNbSample => do
    let s ← Act.get
    Act.lift (Answer.count <$> LookupTable1D.getNbSample s)
  | .setX X => do
    LookupTable1D.setX X
    return .done
  | .addY name Yv => do
    let b ← LookupTable1D.addY B name Yv
    return .added b

end LookupTable1D

/-! ## `LookupTable2d` -/

namespace LookupTable2d

/-- The fields of `LookupTable2d`. /repo/src/MathUtils/LookupTable2D.h:24-31 -/
inductive Member where
  | method
  | x
  | y
  | assoc
  | mdata
  | interps

/-- /repo/src/MathUtils/LookupTable2D.h:24-31 -/
def layout (K : Type) : Layout (LookupTable2d K) where
  L := Member
  V
    | .method => InterpMethod
    | .x => Option (List K)
    | .y => Option (List K)
    | .assoc => List (String × Nat)
    | .mdata => List (List K)
    | .interps => List (Interp2d K)
  get
    | .method, s => s.interp_method
    | .x, s => s.Xcoords
    | .y, s => s.Ycoords
    | .assoc, s => s.assoc
    | .mdata, s => s.MData
    | .interps, s => s.interpolators
  set
    | .method, v, s => { s with interp_method := v }
    | .x, v, s => { s with Xcoords := v }
    | .y, v, s => { s with Ycoords := v }
    | .assoc, v, s => { s with assoc := v }
    | .mdata, v, s => { s with MData := v }
    | .interps, v, s => { s with interpolators := v }

/-- What a call returns. The public functions of /repo/src/MathUtils/LookupTable2D.h:44-73. -/
inductive Answer (K : Type) where
  | value (v : K)
  | values (l : List K)
  | count (n : Nat)
  | flag (b : Bool)
  | done

/-- A call. The public functions of /repo/src/MathUtils/LookupTable2D.h:44-73. -/
inductive Call (K : Type) where
  | eval (name : String) (x y : K)
  | evalVec (name : String) (vc : List (List K))
  | hasSerie (name : String)
  | getX
  | getY
  | getNbSeries
  | getNbSample
  | setX (X : List K)
  | setY (Y : List K)
  | setMethod (m : InterpMethod)
  | addData (name : String) (data : List K)

variable {K : Type}

/-- Reading a field. /repo/src/MathUtils/LookupTable2D.h:24-31 -/
def rMethod : Prog (layout K) InterpMethod := Prog.load (Λ := layout K) .method
@[inherit_doc rMethod] def rX : Prog (layout K) (Option (List K)) := Prog.load (Λ := layout K) .x
@[inherit_doc rMethod] def rY : Prog (layout K) (Option (List K)) := Prog.load (Λ := layout K) .y
@[inherit_doc rMethod] def rAssoc : Prog (layout K) (List (String × Nat)) := Prog.load (Λ := layout K) .assoc
@[inherit_doc rMethod] def rMData : Prog (layout K) (List (List K)) := Prog.load (Λ := layout K) .mdata
@[inherit_doc rMethod] def rInterps : Prog (layout K) (List (Interp2d K)) := Prog.load (Λ := layout K) .interps

/-- Assigning a field. /repo/src/MathUtils/LookupTable2D.h:24-31 -/
def wMethod (v : InterpMethod) : Prog (layout K) Unit := Prog.store (Λ := layout K) .method v
@[inherit_doc wMethod] def wX (v : Option (List K)) : Prog (layout K) Unit := Prog.store (Λ := layout K) .x v
@[inherit_doc wMethod] def wY (v : Option (List K)) : Prog (layout K) Unit := Prog.store (Λ := layout K) .y v
@[inherit_doc wMethod] def wAssoc (v : List (String × Nat)) : Prog (layout K) Unit := Prog.store (Λ := layout K) .assoc v
@[inherit_doc wMethod] def wMData (v : List (List K)) : Prog (layout K) Unit := Prog.store (Λ := layout K) .mdata v
@[inherit_doc wMethod] def wInterps (v : List (Interp2d K)) : Prog (layout K) Unit := Prog.store (Λ := layout K) .interps v

/-- `interpolators.at(GetIndex(name))`. /repo/src/MathUtils/LookupTable2D.h:134, 157-160 -/
def findP (name : String) : Prog (layout K) (Interp2d K) := do
  let m ← rAssoc
  let i ← Prog.lift (assocAt m name)
  let v ← rInterps
  Prog.lift (vAt v i)

variable [Field K] [LinearOrder K]

/-- `AddData`. /repo/src/MathUtils/LookupTable2D.h:106-130. `insert` does not modify the map when the name is there. -/
def addDataP (B : Build) (name : String) (data : List K) : Prog (layout K) Bool := do
  let d ← rMData
  let m ← rAssoc
  if (assocInsert m name d.length).2 then do
    wAssoc (assocInsert m name d.length).1
    let d ← rMData
    wMData (d ++ [data])
    let mt ← rMethod
    let o ← Prog.lift (Interp2d.make K mt)
    let xs ← rX
    let ys ← rY
    let r := (Interp2d.init B xs ys (some data)).run o
    Prog.lift r.1
    let v ← rInterps
    wInterps (v ++ [r.2])
    return true
  else return false

/-- The accesses of a call. The public functions of /repo/src/MathUtils/LookupTable2D.h:44-73. -/
def Call.prog (B : Build) : Call K → Prog (layout K) (Answer K)
  | .eval name x y => do
    let o ← findP name
    let v ← Prog.lift (Interp2d.eval B o x y)
    return .value v
  | .evalVec name vc => do
    let o ← findP name
    let v ← Prog.lift (Interp2d.evalVec B o vc)
    return .values v
  | .hasSerie name => do
    let m ← rAssoc
    return .flag (match m.lookup name with
      | none => false
      | some _ => true)
  | .getX => do
    let p ← rX
    let xs ← Prog.lift (deref p)
    return .values xs
  | .getY => do
    let p ← rY
    let ys ← Prog.lift (deref p)
    return .values ys
  | .getNbSeries => do
    let d ← rMData
    return .count d.length
  | .getNbSample => do
    let p ← rX
    let xs ← Prog.lift (deref p)
    let q ← rY
    let ys ← Prog.lift (deref q)
    return .count (xs.length * ys.length)
  | .setX X => do
    wX (some X)
    return .done
  | .setY Y => do
    wY (some Y)
    return .done
  | .setMethod m => do
    let _ ← rMData
    wMethod m
    return .done
  | .addData name data => do
    let b ← addDataP B name data
    return .flag b

/-- The same call made in a program of one thread, with the functions of LookupTable2d.lean. The public functions of
/repo/src/MathUtils/LookupTable2D.h:44-73. -/
def Call.seq (B : Build) : Call K → Act (LookupTable2d K) (Answer K)
  | .eval name x y => do
    let s ← Act.get
    Act.lift (Answer.value <$> LookupTable2d.eval B s name x y)
  | .evalVec name vc => do
    let s ← Act.get
    Act.lift (Answer.values <$> LookupTable2d.evalVec B s name vc)
  | .hasSerie name => do
    let s ← Act.get
    Act.lift (.ok (.flag (LookupTable2d.hasSerie s name)))
  | .getX => do
    let s ← Act.get
    Act.lift (Answer.values <$> LookupTable2d.getX s)
  | .getY => do
    let s ← Act.get
    Act.lift (Answer.values <$> LookupTable2d.getY s)
  | .getNbSeries => do
    let s ← Act.get
    Act.lift (.ok (.count (LookupTable2d.getNbSeries s)))
  | .getNbSample => do
    let s ← Act.get
    Act.lift (Answer.count <$> LookupTable2d.getNbSample s)
  | .setX X => do
    LookupTable2d.setX X
    return .done
  | .setY Y => do
    LookupTable2d.setY Y
    return .done
  | .setMethod m => do
    LookupTable2d.setInterpolationMethod m
    return .done
  | .addData name data => do
    let b ← LookupTable2d.addData B name data
    return .flag b

end LookupTable2d
end MU
