import Verif.Model.LookupTable2d

/-!
# Memory exhaustion in lookup tables (LookupTable1D.h, LookupTable2D.h, Interp1d.h, Interp2d.h)

The functions that load a table, with every allocation they make: each allocation may fail, and then `std::bad_alloc` leaves the function at
that point. `fail site = true` says that memory is exhausted at this allocation. The library functions concerned
(`unordered_map::insert`, `vector::push_back`, `vector::reserve`, `make_shared`) have no effect when they throw; this is the C++ standard's guarantee.
The coefficients are pushed into capacity reserved beforehand, so that these `push_back` do not allocate on a new object.

The state carries, besides the table, the number of interpolator objects that were created with `new` and that nothing owns any more (memory that is never
given back).
-/

namespace MU

/-- The allocations made while a table is loaded. /repo/src/MathUtils/LookupTable1D.h:99-136, /repo/src/MathUtils/LookupTable2D.h:96-130,
/repo/src/MathUtils/Interp1d.h:151-152, 224-232, /repo/src/MathUtils/Interp2d.h:117-120, 215 -/
inductive AllocSite where
  /-- the copies of the arguments, passed by value -/
  | arguments
  /-- the string of the pair -/
  | pair
  /-- the node of the hash map, or its bucket array -/
  | node
  /-- `std::make_shared` -/
  | makeShared
  /-- `Ydata.push_back`, `MData.push_back` -/
  | pushData
  /-- `new Interp1dLinear` and the like -/
  | newInterp
  /-- the `k`-th `reserve` of `Initialize` -/
  | reserve (k : Nat)
  /-- `interpolators.push_back` -/
  | pushInterp
  deriving DecidableEq, Repr

/-- An allocation. /repo/src/MathUtils/LookupTable1D.h:99-136 -/
def alloc {σ : Type} (fail : AllocSite → Bool) (site : AllocSite) : Act σ Unit :=
  Act.lift (if fail site then .throws .badAlloc else .ok ())

/-- A client that catches the exceptions of a call: the program goes on unless it has been terminated. It stands for any user of
/repo/src/MathUtils/LookupTable1D.h:61-76, /repo/src/MathUtils/LookupTable2D.h:45-64. -/
def caught {σ α : Type} (m : Act σ α) : Act σ Unit := fun s =>
  match m s with
  | (.ok _, s') => (.ok (), s')
  | (.throws _, s') => (.ok (), s')
  | (.exits c, s') => (.exits c, s')
  | (.aborts, s') => (.aborts, s')
  | (.ub, s') => (.ub, s')
  | (.nonfinite, s') => (.nonfinite, s')

section oneD
variable {K Y : Type} [Field K] [LinearOrder K] [AddCommGroup Y] [Module K Y]

/-- `Interp1dLinearBase::Initialize` on a new object. /repo/src/MathUtils/Interp1d.h:145-170 -/
def Interp1d.initF (fail : AllocSite → Bool) (B : Build) (x : Option (List K)) (y : Option (List Y)) : Act (Interp1d K Y) Unit := do
  initializeBase B x y
  alloc fail (.reserve 1)
  alloc fail (.reserve 2)
  let s ← Act.get
  Act.loop 1 s.ndata initializeStep

/-- `SetX`. /repo/src/MathUtils/LookupTable1D.h:99-102 -/
def LookupTable1D.setXF (fail : AllocSite → Bool) (X : List K) : Act (LookupTable1D K Y × Nat) Unit := do
  alloc fail .arguments
  alloc fail .makeShared
  Act.update fun p => ({ p.1 with Xcoords := some X }, p.2)

/-- `AddY`. /repo/src/MathUtils/LookupTable1D.h:104-136. When `Initialize` throws, nothing destroys `*interp_ptr` (line 124); when `push_back` throws,
`interp_unique` does (line 131). -/
def LookupTable1D.addYF (fail : AllocSite → Bool) (B : Build) (name : String) (Yv : List Y) : Act (LookupTable1D K Y × Nat) Bool := do
  alloc fail .arguments
  let p ← Act.get
  let i := getNbSeries p.1
  alloc fail .pair
  alloc fail .node
  let res := assocInsert p.1.assoc name i
  Act.update fun p => ({ p.1 with assoc := res.1 }, p.2)
  if res.2 then
    alloc fail .makeShared
    alloc fail .pushData
    Act.update fun p => ({ p.1 with Ydata := p.1.Ydata ++ [Yv] }, p.2)
    let m ← Act.lift (readVar p.1.interp_method)
    let kind ← Act.lift (Interp1d.make m)
    alloc fail .newInterp
    let r := (Interp1d.initF fail B p.1.Xcoords (some Yv)).run (Interp1d.fresh K Y)
    Act.update fun p => (p.1, p.2 + if r.1.isOk then 0 else 1)
    Act.lift r.1
    alloc fail .pushInterp
    Act.update fun p => ({ p.1 with interpolators := p.1.interpolators ++ [(kind, r.2)] }, p.2)
    return true
  else
    return false

/-- A call during which the allocations of `fail` fail. The public functions of /repo/src/MathUtils/LookupTable1D.h:61-76. -/
def LookupTable1D.execF (B : Build) (c : Op K Y × (AllocSite → Bool)) : Act (LookupTable1D K Y × Nat) Unit :=
  match c.1 with
  | .setX X => setXF c.2 X
  | .addY name Yv => do
    let _ ← addYF c.2 B name Yv
    return ()

/-- A client program: calls, of which the exceptions are caught. It stands for any user of /repo/src/MathUtils/LookupTable1D.h:61-76. -/
def LookupTable1D.execAllF (B : Build) : List (Op K Y × (AllocSite → Bool)) → Act (LookupTable1D K Y × Nat) Unit
  | [] => pure ()
  | c :: rest => do
    caught (execF B c)
    execAllF B rest

end oneD

section twoD
variable {K : Type} [Field K] [LinearOrder K]

/-- `Interp2dLinear::Initialize` on a new object. /repo/src/MathUtils/Interp2d.h:110-164 -/
def Interp2d.initF (fail : AllocSite → Bool) (B : Build) (x y data : Option (List K)) : Act (Interp2d K) Unit := do
  initializeBase B x y data
  alloc fail (.reserve 1)
  alloc fail (.reserve 2)
  alloc fail (.reserve 3)
  alloc fail (.reserve 4)
  let s ← Act.get
  Act.loop 1 s.nx (initializeOuter data s.ny)

/-- `SetX`. /repo/src/MathUtils/LookupTable2D.h:96-99 -/
def LookupTable2d.setXF (fail : AllocSite → Bool) (X : List K) : Act (LookupTable2d K × Nat) Unit := do
  alloc fail .arguments
  alloc fail .makeShared
  Act.update fun p => ({ p.1 with Xcoords := some X }, p.2)

/-- `SetY`. /repo/src/MathUtils/LookupTable2D.h:101-104 -/
def LookupTable2d.setYF (fail : AllocSite → Bool) (Y : List K) : Act (LookupTable2d K × Nat) Unit := do
  alloc fail .arguments
  alloc fail .makeShared
  Act.update fun p => ({ p.1 with Ycoords := some Y }, p.2)

/-- `AddData`. /repo/src/MathUtils/LookupTable2D.h:106-130. Same remarks as for `LookupTable1D.addYF`. -/
def LookupTable2d.addDataF (fail : AllocSite → Bool) (B : Build) (name : String) (data : List K) : Act (LookupTable2d K × Nat) Bool := do
  alloc fail .arguments
  let p ← Act.get
  let i := getNbSeries p.1
  alloc fail .pair
  alloc fail .node
  let res := assocInsert p.1.assoc name i
  Act.update fun p => ({ p.1 with assoc := res.1 }, p.2)
  if res.2 then
    alloc fail .makeShared
    alloc fail .pushData
    Act.update fun p => ({ p.1 with MData := p.1.MData ++ [data] }, p.2)
    let o ← Act.lift (Interp2d.make K p.1.interp_method)
    alloc fail .newInterp
    let r := (Interp2d.initF fail B p.1.Xcoords p.1.Ycoords (some data)).run o
    Act.update fun p => (p.1, p.2 + if r.1.isOk then 0 else 1)
    Act.lift r.1
    alloc fail .pushInterp
    Act.update fun p => ({ p.1 with interpolators := p.1.interpolators ++ [r.2] }, p.2)
    return true
  else
    return false

/-- A call during which the allocations of `fail` fail. The public functions of /repo/src/MathUtils/LookupTable2D.h:45-64. -/
def LookupTable2d.execF (B : Build) (c : Op K × (AllocSite → Bool)) : Act (LookupTable2d K × Nat) Unit :=
  match c.1 with
  | .setX X => setXF c.2 X
  | .setY Y => setYF c.2 Y
  | .setMethod m => Act.update fun p => ({ p.1 with interp_method := m }, p.2)
  | .addData name d => do
    let _ ← addDataF c.2 B name d
    return ()

/-- A client program: calls, of which the exceptions are caught. It stands for any user of /repo/src/MathUtils/LookupTable2D.h:45-64. -/
def LookupTable2d.execAllF (B : Build) : List (Op K × (AllocSite → Bool)) → Act (LookupTable2d K × Nat) Unit
  | [] => pure ()
  | c :: rest => do
    caught (execF B c)
    execAllF B rest

end twoD
end MU
