import Verif.Model.Integration1d
import Verif.Model.Interp1d
import Mathlib.Logic.Function.Basic

/-!
# Threads that share an object

A method is a program of accesses to the fields of the object. Threads interleave access by access; a data race (two threads about to access the same
field, one of them for writing) is undefined behaviour in C++.

Simplifications: a field is accessed as a whole (`std::vector` included); the accesses to objects that belong to one thread are not shown.
-/

namespace MU

/-- The fields of a class `σ`. -/
structure Layout (σ : Type) where
  /-- the names of the fields -/
  L : Type
  /-- their types -/
  V : L → Type
  get : (l : L) → σ → V l
  set : (l : L) → V l → σ → σ

/-- The accesses a method makes to the fields, in order, and its outcome. -/
inductive Prog {σ : Type} (Λ : Layout σ) (α : Type) where
  | ret (r : Res α)
  | read (l : Λ.L) (k : Λ.V l → Prog Λ α)
  | write (l : Λ.L) (v : Λ.V l) (p : Prog Λ α)

namespace Prog
variable {σ : Type} {Λ : Layout σ} {α β : Type}

def bind (p : Prog Λ α) (f : α → Prog Λ β) : Prog Λ β :=
  match p with
  | ret (.ok a) => f a
  | ret (.throws e) => ret (.throws e)
  | ret (.exits c) => ret (.exits c)
  | ret .aborts => ret .aborts
  | ret .ub => ret .ub
  | ret .nonfinite => ret .nonfinite
  | read l k => read l (fun v => (k v).bind f)
  | write l v p => write l v (p.bind f)

instance : Monad (Prog Λ) where
  pure a := ret (.ok a)
  bind := Prog.bind

/-- Reading a field. -/
def load (l : Λ.L) : Prog Λ (Λ.V l) := read l (fun v => ret (.ok v))

/-- Assigning a field. -/
def store (l : Λ.L) (v : Λ.V l) : Prog Λ Unit := write l v (ret (.ok ()))

/-- A computation that does not touch the fields. -/
def lift (r : Res α) : Prog Λ α := ret r

/-- `for (i = lo; i < lo + n; ++i) s = f(i, s);` -/
def forN {τ : Type} : (n lo : Nat) → (Nat → τ → Prog Λ τ) → τ → Prog Λ τ
  | 0, _, _, s => ret (.ok s)
  | n + 1, lo, f, s => f lo s >>= forN n (lo + 1) f

/-- The method run alone. -/
def run : Prog Λ α → σ → Res α × σ
  | ret r, s => (r, s)
  | read l k, s => (k (Λ.get l s)).run s
  | write l v p, s => p.run (Λ.set l v s)

end Prog

/-! ## Interleavings -/

section threads
variable {σ : Type} {Λ : Layout σ} {α ι : Type} [DecidableEq ι]

/-- One access by one of the threads. -/
inductive Step : (ι → Prog Λ α) × σ → (ι → Prog Λ α) × σ → Prop where
  | read {ts : ι → Prog Λ α} {s : σ} {i : ι} {l : Λ.L} {k : Λ.V l → Prog Λ α} (h : ts i = .read l k) :
      Step (ts, s) (Function.update ts i (k (Λ.get l s)), s)
  | write {ts : ι → Prog Λ α} {s : σ} {i : ι} {l : Λ.L} {v : Λ.V l} {p : Prog Λ α} (h : ts i = .write l v p) :
      Step (ts, s) (Function.update ts i p, Λ.set l v s)

/-- What the threads and the object can become, in any number of accesses, in any order. -/
inductive Reach : (ι → Prog Λ α) × σ → (ι → Prog Λ α) × σ → Prop where
  | refl (c : (ι → Prog Λ α) × σ) : Reach c c
  | tail {c c' c'' : (ι → Prog Λ α) × σ} (h : Reach c c') (t : Step c' c'') : Reach c c''

/-- The next access of the method is to the field `l`. -/
def Prog.Accesses (p : Prog Λ α) (l : Λ.L) : Prop := (∃ k, p = .read l k) ∨ ∃ v q, p = .write l v q

/-- The next access of the method is an assignment of the field `l`. -/
def Prog.Writes (p : Prog Λ α) (l : Λ.L) : Prop := ∃ v q, p = .write l v q

/-- A data race: two threads are about to access the same field, one of them for writing. -/
def Race (ts : ι → Prog Λ α) : Prop := ∃ i j, i ≠ j ∧ ∃ l, (ts i).Writes l ∧ (ts j).Accesses l

end threads

/-! ## `Interp1d::Eval` -/

namespace Interp1d

/-- The fields read by `Eval`. /repo/src/MathUtils/Interp1d.h:18-23, 88-90 -/
inductive Member where
  | xcoord
  | xmin
  | xmax
  | a
  | b

/-- /repo/src/MathUtils/Interp1d.h:18-23, 88-90 -/
def layout (K Y : Type) : Layout (Interp1d K Y) where
  L := Member
  V
    | .xcoord => Option (List K)
    | .xmin => Option K
    | .xmax => Option K
    | .a => List Y
    | .b => List Y
  get
    | .xcoord, s => s.xcoord
    | .xmin, s => s.xmin
    | .xmax, s => s.xmax
    | .a, s => s.a
    | .b, s => s.b
  set
    | .xcoord, v, s => { s with xcoord := v }
    | .xmin, v, s => { s with xmin := v }
    | .xmax, v, s => { s with xmax := v }
    | .a, v, s => { s with a := v }
    | .b, v, s => { s with b := v }

variable {K Y : Type} [Field K] [LinearOrder K] [AddCommGroup Y] [Module K Y]

/-- `Interp1dLinearBase::PrivEval`. /repo/src/MathUtils/Interp1d.h:172-186 -/
def privEvalBaseP (x : K) : Prog (layout K Y) Y := do
  let xc ← Prog.load (Λ := layout K Y) .xcoord
  let xs ← Prog.lift (deref xc)
  let index ← Prog.lift (lowerBound xs x)
  let index := if index = 0 then 1 else index
  let va ← Prog.load (Λ := layout K Y) .a
  let a_ ← Prog.lift (vAt va (index - 1))
  let vb ← Prog.load (Λ := layout K Y) .b
  let b_ ← Prog.lift (vAt vb (index - 1))
  return x • a_ + b_

/-- `Interp1d::Eval(x)` of the three classes. /repo/src/MathUtils/Interp1d.h:31, 52-54, 188-215 -/
def evalP (kind : Interp1dKind) (x : K) : Prog (layout K Y) Y :=
  match kind with
  | .linear => do
    let v ← Prog.load (Λ := layout K Y) .xmin
    let mn ← Prog.lift (readVar v)
    if x < mn then Prog.lift (.exits 1) else do
    let v ← Prog.load (Λ := layout K Y) .xmax
    let mx ← Prog.lift (readVar v)
    if mx < x then Prog.lift (.exits 1) else privEvalBaseP x
  | .extrapolate => privEvalBaseP x
  | .saturate => do
    let v ← Prog.load (Λ := layout K Y) .xmin
    let mn ← Prog.lift (readVar v)
    let v ← Prog.load (Λ := layout K Y) .xmax
    let mx ← Prog.lift (readVar v)
    let x_tmp := if x < mn ∨ mx < x then (if x < mn then mn else mx) else x
    privEvalBaseP x_tmp

end Interp1d

/-! ## `Integrate1d::Get` -/

namespace Integrate1d

/-- The fields of `Integrate1d`. /repo/src/MathUtils/Integration1d.h:27-39 -/
inductive Member where
  | xmin
  | xmax
  | nb
  | y
  | integrand
  | method
  | source
  | computed
  | result

/-- /repo/src/MathUtils/Integration1d.h:27-39 -/
def layout (K : Type) : Layout (Integrate1d K) where
  L := Member
  V
    | .xmin => K
    | .xmax => K
    | .nb => Nat
    | .y => List K
    | .integrand => Option (K → K)
    | .method => IntegrationMethod
    | .source => IntegrationData
    | .computed => Bool
    | .result => K
  get
    | .xmin, s => s.m_Xmin
    | .xmax, s => s.m_Xmax
    | .nb, s => s.m_NbPoints
    | .y, s => s.m_Y
    | .integrand, s => s.m_integrand
    | .method, s => s.m_IntegrationMethod
    | .source, s => s.c_DataSource
    | .computed, s => s.c_Computed
    | .result, s => s.c_Result
  set
    | .xmin, v, s => { s with m_Xmin := v }
    | .xmax, v, s => { s with m_Xmax := v }
    | .nb, v, s => { s with m_NbPoints := v }
    | .y, v, s => { s with m_Y := v }
    | .integrand, v, s => { s with m_integrand := v }
    | .method, v, s => { s with m_IntegrationMethod := v }
    | .source, v, s => { s with c_DataSource := v }
    | .computed, v, s => { s with c_Computed := v }
    | .result, v, s => { s with c_Result := v }

variable {K : Type} [Field K] [DecidableEq K]

/-- Reading a field. /repo/src/MathUtils/Integration1d.h:27-39 -/
def rXmin : Prog (layout K) K := Prog.load (Λ := layout K) .xmin
@[inherit_doc rXmin] def rXmax : Prog (layout K) K := Prog.load (Λ := layout K) .xmax
@[inherit_doc rXmin] def rNb : Prog (layout K) Nat := Prog.load (Λ := layout K) .nb
@[inherit_doc rXmin] def rY : Prog (layout K) (List K) := Prog.load (Λ := layout K) .y
@[inherit_doc rXmin] def rIntegrand : Prog (layout K) (Option (K → K)) := Prog.load (Λ := layout K) .integrand
@[inherit_doc rXmin] def rMethod : Prog (layout K) IntegrationMethod := Prog.load (Λ := layout K) .method
@[inherit_doc rXmin] def rSource : Prog (layout K) IntegrationData := Prog.load (Λ := layout K) .source
@[inherit_doc rXmin] def rComputed : Prog (layout K) Bool := Prog.load (Λ := layout K) .computed
@[inherit_doc rXmin] def rResult : Prog (layout K) K := Prog.load (Λ := layout K) .result

/-- Assigning a field. /repo/src/MathUtils/Integration1d.h:27-39 -/
def wY (v : List K) : Prog (layout K) Unit := Prog.store (Λ := layout K) .y v
@[inherit_doc wY] def wComputed (v : Bool) : Prog (layout K) Unit := Prog.store (Λ := layout K) .computed v
@[inherit_doc wY] def wResult (v : K) : Prog (layout K) Unit := Prog.store (Λ := layout K) .result v

/-- The sampling loop of `ComputeTrapz`, /repo/src/MathUtils/Integration1d.h:122-125. The number of points and the function, which nothing writes, are
read once. -/
def sampleP (F : K → K) (dx : K) : Nat → K → Prog (layout K) Unit
  | 0, _ => pure ()
  | n + 1, x => do
    let y ← rY
    wY (y ++ [F x])
    sampleP F dx n (x + dx)

/-- The end of `ComputeTrapz`, /repo/src/MathUtils/Integration1d.h:127-134. -/
def sumUpP (dx : K) : Prog (layout K) Unit := do
  let nb ← rNb
  let sum ← Prog.forN (usub 32 nb 1 - 1) 1 (fun i sum => do
    let ys ← rY
    let y ← Prog.lift (vIdx ys i)
    return sum + y) (0 : K)
  let ys ← rY
  let y0 ← Prog.lift (vIdx ys 0)
  let ys ← rY
  let yN ← Prog.lift (vIdx ys (usub 64 (ys.length) 1))
  wResult (y0 + yN + 2 * sum)
  let r ← rResult
  wResult (r * (1 / 2 * dx))

/-- `ComputeTrapz`, /repo/src/MathUtils/Integration1d.h:111-136. -/
def computeTrapzP : Prog (layout K) Unit := do
  let xmax ← rXmax
  let xmin ← rXmin
  let nb ← rNb
  let dx ← Prog.lift (fdiv (xmax - xmin) ((usub 32 nb 1 : Nat) : K))
  let src ← rSource
  if src = .FUNCTION then do
    let f ← rIntegrand
    let F ← Prog.lift (deref f)
    wY []
    let x ← rXmin
    sampleP F dx nb x
    sumUpP dx
  else sumUpP dx

/-- `Compute`, /repo/src/MathUtils/Integration1d.h:91-103. -/
def computeP : Prog (layout K) Unit := do
  let m ← rMethod
  match m with
  | .TRAPEZOIDAL => do
    computeTrapzP
    wComputed true
  | .NEWTON_COTES => Prog.lift (.throws .runtimeError)

/-- `Get`, /repo/src/MathUtils/Integration1d.h:83-88. -/
def getP : Prog (layout K) K := do
  let c ← rComputed
  if c then rResult
  else do
    computeP
    rResult

end Integrate1d
end MU
