import Verif.Model.Integration1d
import Verif.Model.Chebyshev

/-!
# The user's functions as programs: Integration1d.h and ChebyshevSeries1d.h

The integrand of `Integrate1d` and the function of a Chebyshev series are code of the user. In `Model/Integration1d.lean` and
`Model/Chebyshev.lean` they are total functions without side effects. Here they may throw, and what a call does may depend on all the earlier
calls.
-/

namespace MU

/-- A function of the user: what the call on `x` does, given the arguments of the earlier calls. It stands for `m_integrand`,
/repo/src/MathUtils/Integration1d.h:32, and for `Function1d::Evaluate`, /repo/src/MathUtils/ChebyshevSeries1d.h:22. -/
abbrev Callback (K : Type) := List K → K → Res K

/-- The fields of `Integrate1d`, /repo/src/MathUtils/Integration1d.h:27-39, built on a function (`c_DataSource = FUNCTION`, never changed), and the
arguments of the calls made so far to the function. -/
structure IntC (K : Type) where
  m_Xmin : K
  m_Xmax : K
  m_NbPoints : Nat
  m_Y : List K
  m_integrand : Callback K
  m_IntegrationMethod : IntegrationMethod
  c_Computed : Bool
  c_Result : K
  calls : List K

namespace IntC

variable {K : Type} [Field K] [DecidableEq K]

/-- The constructor on a function, /repo/src/MathUtils/Integration1d.h:43-51. -/
def new (F : Callback K) (xmin xmax : K) (nbPoints : Nat) : IntC K := ⟨xmin, xmax, nbPoints, [], F, .TRAPEZOIDAL, false, 0, []⟩

/-- `SetIntegrationMethod`, /repo/src/MathUtils/Integration1d.h:63. -/
def setIntegrationMethod (m : IntegrationMethod) : Act (IntC K) Unit := Act.update fun s => { s with m_IntegrationMethod := m }

/-- `SetXmin`, /repo/src/MathUtils/Integration1d.h:67-70. -/
def setXmin (xmin : K) : Act (IntC K) Unit := do
  Act.update fun s => { s with m_Xmin := xmin }
  Act.update fun s => { s with c_Computed := false }

/-- `SetXmax`, /repo/src/MathUtils/Integration1d.h:74-77. -/
def setXmax (xmax : K) : Act (IntC K) Unit := do
  Act.update fun s => { s with m_Xmax := xmax }
  Act.update fun s => { s with c_Computed := false }

/-- `(*m_integrand)(x)`, /repo/src/MathUtils/Integration1d.h:123. -/
def call (x : K) : Act (IntC K) K := fun s => (s.m_integrand s.calls x, { s with calls := s.calls ++ [x] })

/-- The sampling loop of `ComputeTrapz`, /repo/src/MathUtils/Integration1d.h:122-125, `n` iterations from `x`. -/
def sample (dx : K) : Nat → K → Act (IntC K) Unit
  | 0, _ => pure ()
  | n + 1, x => do
    let y ← call x
    Act.update fun s => { s with m_Y := s.m_Y ++ [y] }
    sample dx n (x + dx)

/-- The end of `ComputeTrapz`, /repo/src/MathUtils/Integration1d.h:128-134. -/
def sumUp (dx : K) : Act (IntC K) Unit := do
  let s ← Act.get
  let sum ← Act.lift (forRange 1 (usub 32 s.m_NbPoints 1) (fun i sum => do
    let y ← vIdx s.m_Y i
    return sum + y) 0)
  let y0 ← Act.lift (vIdx s.m_Y 0)
  let yN ← Act.lift (vIdx s.m_Y (usub 64 s.m_Y.length 1))
  Act.update fun s => { s with c_Result := y0 + yN + 2 * sum }
  Act.update fun s => { s with c_Result := s.c_Result * (1 / 2 * dx) }

/-- `ComputeTrapz`, /repo/src/MathUtils/Integration1d.h:111-136. -/
def computeTrapz : Act (IntC K) Unit := do
  let s ← Act.get
  let dx ← Act.lift (fdiv (s.m_Xmax - s.m_Xmin) ((usub 32 s.m_NbPoints 1 : Nat) : K))
  Act.update fun s => { s with m_Y := [] }
  sample dx s.m_NbPoints s.m_Xmin
  sumUp dx

/-- `ComputeNewtonCotes`, /repo/src/MathUtils/Integration1d.h:138-142. -/
def computeNewtonCotes : Act (IntC K) Unit := Act.lift (.throws .runtimeError)

/-- `Compute`, /repo/src/MathUtils/Integration1d.h:91-103. -/
def compute : Act (IntC K) Unit := do
  let s ← Act.get
  match s.m_IntegrationMethod with
  | .TRAPEZOIDAL => computeTrapz
  | .NEWTON_COTES => computeNewtonCotes
  Act.update fun s => { s with c_Computed := true }

/-- `Get`, /repo/src/MathUtils/Integration1d.h:83-88. -/
def get : Act (IntC K) K := do
  let s ← Act.get
  if s.c_Computed then pure () else compute
  let s ← Act.get
  return s.c_Result

/-- Executing a call of the user; the value returned by `Get` is dropped. The public functions of /repo/src/MathUtils/Integration1d.h:63-88. -/
def exec : Integrate1d.Op K → Act (IntC K) Unit
  | .setMethod m => setIntegrationMethod m
  | .setXmin x => setXmin x
  | .setXmax x => setXmax x
  | .get => do
    let _ ← get
    return ()

/-- The object after a sequence of calls in which exceptions are caught and ignored.
It stands for any user of /repo/src/MathUtils/Integration1d.h:63-88. -/
def after (s : IntC K) : List (Integrate1d.Op K) → IntC K
  | [] => s
  | op :: rest => after ((exec op).run s).2 rest

end IntC

/-! ## ChebyshevSeries1d.h -/

/-- The fields of `ChebyshevSeries1dBase` and of its subclasses, /repo/src/MathUtils/ChebyshevSeries1d.h:169-179,215-216, and the arguments of the
calls made so far to the function. -/
structure CS1C where
  m_function : Callback ℝ
  m_order_x : Nat
  m_x : Seg ℝ
  m_ai : List ℝ
  calls : List ℝ

namespace CS1C

/-- The constructor of the base class, /repo/src/MathUtils/ChebyshevSeries1d.h:36-39. -/
def base (F : Callback ℝ) (x : Seg ℝ) (order_x : Nat) : CS1C := ⟨F, order_x, x, List.replicate (order_x + 1) 0, []⟩

/-- `m_function->Evaluate(x)`, /repo/src/MathUtils/ChebyshevSeries1d.h:62. -/
def call (x : ℝ) : Act CS1C ℝ := fun s => (s.m_function s.calls x, { s with calls := s.calls ++ [x] })

/-- `m_ai(i) = a`. /repo/src/MathUtils/ChebyshevSeries1d.h:62-66. -/
def setA (B : Build) (i : Nat) (a : ℝ) : Act CS1C Unit := do
  let s ← Act.get
  let l ← Act.lift (eSet B s.m_ai i a)
  Act.update fun s => { s with m_ai := l }

/-- `m_ai(i)`. /repo/src/MathUtils/ChebyshevSeries1d.h:62-66. -/
def getA (B : Build) (i : Nat) : Act CS1C ℝ := do
  let s ← Act.get
  Act.lift (eAt B s.m_ai i)

/-- `Compute_ai`, /repo/src/MathUtils/ChebyshevSeries1d.h:44-69. In `m_ai(i) += Evaluate(x) * Ti` the coefficient is read after the call. -/
noncomputable def computeAi (B : Build) : Act CS1C Unit := do
  let s ← Act.get
  let x ← Act.lift (abscissae s.m_x s.m_order_x)
  Act.loop 0 (s.m_order_x + 1) (fun i => do
    Act.loop 0 (s.m_order_x + 1) (fun r => do
      let xr ← Act.lift (vAt x r)
      let v ← call xr.2
      let a ← getA B i
      setA B i (a + v * chebT i xr.1))
    let a ← getA B i
    setA B i (a * (2 / ((s.m_order_x : ℝ) + 1)))
    if i = 0 then do
      let a ← getA B i
      setA B i (a / 2)
    else pure ())

/-- The series as a value of the model in which the function is pure: `Evaluate`, /repo/src/MathUtils/ChebyshevSeries1d.h:72-88, only reads `m_x`,
`m_order_x` and `m_ai`. -/
def erase (s : CS1C) (f : ℝ → ℝ) : CS1 ℝ := ⟨f, s.m_order_x, s.m_x, s.m_ai⟩

end CS1C
end MU
