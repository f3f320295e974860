import Verif.Core

/-!
# Integration1d.h

`Scalar` is a field `K`. The integrand is a function pointer: a pure function in the model. `unsigned int` has 32 bits, `unsigned long` 64.
-/

namespace MU

/-- `enum INTEGRATION_METHOD`, /repo/src/MathUtils/Integration1d.h:12-15. -/
inductive IntegrationMethod where
  | TRAPEZOIDAL
  | NEWTON_COTES
  deriving DecidableEq, Repr

/-- `enum INTEGRATION_DATA`, /repo/src/MathUtils/Integration1d.h:21-24. -/
inductive IntegrationData where
  | VECTOR
  | FUNCTION
  deriving DecidableEq, Repr

/-- The fields of `Integrate1d`, /repo/src/MathUtils/Integration1d.h:27-39. -/
structure Integrate1d (K : Type) where
  m_Xmin : K
  m_Xmax : K
  m_NbPoints : Nat
  m_Y : List K
  m_integrand : Option (K → K)
  m_IntegrationMethod : IntegrationMethod
  c_DataSource : IntegrationData
  c_Computed : Bool
  c_Result : K

namespace Integrate1d

variable {K : Type} [Field K] [DecidableEq K]

/-- The constructor on a function, /repo/src/MathUtils/Integration1d.h:43-51. -/
def ofFunction (F : K → K) (xmin xmax : K) (nbPoints : Nat) : Integrate1d K :=
  ⟨xmin, xmax, nbPoints, [], some F, .TRAPEZOIDAL, .FUNCTION, false, 0⟩

/-- The constructor on a vector, /repo/src/MathUtils/Integration1d.h:53-61. -/
def ofVector (Y : List K) (xmin xmax : K) (nbPoints : Nat) : Integrate1d K :=
  ⟨xmin, xmax, nbPoints, Y, none, .TRAPEZOIDAL, .VECTOR, false, 0⟩

/-- `SetIntegrationMethod`, /repo/src/MathUtils/Integration1d.h:63. -/
def setIntegrationMethod (m : IntegrationMethod) : Act (Integrate1d K) Unit := Act.update fun s => { s with m_IntegrationMethod := m }

/-- `SetXmin`, /repo/src/MathUtils/Integration1d.h:67-70. -/
def setXmin (xmin : K) : Act (Integrate1d K) Unit := do
  Act.update fun s => { s with m_Xmin := xmin }
  Act.update fun s => { s with c_Computed := false }

/-- `SetXmax`, /repo/src/MathUtils/Integration1d.h:74-77. -/
def setXmax (xmax : K) : Act (Integrate1d K) Unit := do
  Act.update fun s => { s with m_Xmax := xmax }
  Act.update fun s => { s with c_Computed := false }

/-- The sampling loop of `ComputeTrapz`, /repo/src/MathUtils/Integration1d.h:120-125: the vector and `x` after `n` iterations. -/
def sample (F : K → K) (dx : K) : Nat → List K × K → List K × K
  | 0, s => s
  | n + 1, (Y, x) => sample F dx n (Y ++ [F x], x + dx)

/-- `ComputeTrapz`, /repo/src/MathUtils/Integration1d.h:111-136. -/
def computeTrapz : Act (Integrate1d K) Unit := do
  let s ← Act.get
  let dx ← Act.lift (fdiv (s.m_Xmax - s.m_Xmin) ((usub 32 s.m_NbPoints 1 : Nat) : K))
  if s.c_DataSource = .FUNCTION then do
    let F ← Act.lift (deref s.m_integrand)
    Act.update fun s => { s with m_Y := (sample F dx s.m_NbPoints ([], s.m_Xmin)).1 }
  else pure ()
  let s ← Act.get
  let sum ← Act.lift (forRange 1 (usub 32 s.m_NbPoints 1) (fun i sum => do
    let y ← vIdx s.m_Y i
    return sum + y) 0)
  let y0 ← Act.lift (vIdx s.m_Y 0)
  let yN ← Act.lift (vIdx s.m_Y (usub 64 s.m_Y.length 1))
  Act.update fun s => { s with c_Result := y0 + yN + 2 * sum }
  Act.update fun s => { s with c_Result := s.c_Result * (1 / 2 * dx) }

/-- `ComputeNewtonCotes`, /repo/src/MathUtils/Integration1d.h:138-142. -/
def computeNewtonCotes : Act (Integrate1d K) Unit := Act.lift (.throws .runtimeError)

/-- `Compute`, /repo/src/MathUtils/Integration1d.h:91-103. -/
def compute : Act (Integrate1d K) Unit := do
  let s ← Act.get
  match s.m_IntegrationMethod with
  | .TRAPEZOIDAL => computeTrapz
  | .NEWTON_COTES => computeNewtonCotes
  Act.update fun s => { s with c_Computed := true }

/-- `Get`, /repo/src/MathUtils/Integration1d.h:83-88. -/
def get : Act (Integrate1d K) K := do
  let s ← Act.get
  if s.c_Computed then pure () else compute
  let s ← Act.get
  return s.c_Result

/-- A call made by a client. The public functions of /repo/src/MathUtils/Integration1d.h:63-88. -/
inductive Op (K : Type) where
  | setMethod (m : IntegrationMethod)
  | setXmin (x : K)
  | setXmax (x : K)
  | get

/-- Executing a call; the value returned by `Get` is dropped. The public functions of /repo/src/MathUtils/Integration1d.h:63-88. -/
def exec : Op K → Act (Integrate1d K) Unit
  | .setMethod m => setIntegrationMethod m
  | .setXmin x => setXmin x
  | .setXmax x => setXmax x
  | .get => do
    let _ ← get
    return ()

/-- The object after a sequence of calls in which exceptions are caught and ignored.
It stands for any user of /repo/src/MathUtils/Integration1d.h:63-88. -/
def after (s : Integrate1d K) : List (Op K) → Integrate1d K
  | [] => s
  | op :: rest => after ((exec op).run s).2 rest

end Integrate1d

section functions
variable {K : Type} [Field K]

/-- `Trapz(y, dx)`, /repo/src/MathUtils/Integration1d.h:151-164. -/
def trapzUniform (y : List K) (dx : K) : Res K := do
  let N := y.length
  let sum ← forRange 1 (usub 64 N 1) (fun i sum => do
    let yi ← vIdx y i
    return sum + yi) 0
  let y0 ← vIdx y 0
  let yN ← vIdx y (usub 64 N 1)
  return dx * (sum + 1 / 2 * (y0 + yN))

/-- `Trapz(x, y)`, /repo/src/MathUtils/Integration1d.h:166-191. -/
def trapz (B : Build) (x y : List K) : Res K := do
  let N := y.length
  cassert B (N > 1)
  cassert B (x.length = N)
  let x1 ← vIdx x 1
  let x0 ← vIdx x 0
  let dx1 := x1 - x0
  let xN_1 ← vIdx x (usub 64 N 1)
  let xN_2 ← vIdx x (usub 64 N 2)
  let dxN_1 := xN_1 - xN_2
  let r ← forRange 1 (usub 64 N 1) (fun i (s : K × K) => do
    let dxi := s.2
    let a ← vIdx x (i + 1)
    let b ← vIdx x i
    let dxii := a - b
    let yi ← vIdx y i
    return (s.1 + yi * (dxi + dxii), dxii)) (0, dx1)
  let y0 ← vIdx y 0
  let yN ← vIdx y (usub 64 N 1)
  return 1 / 2 * (r.1 + y0 * dx1 + yN * dxN_1)

end functions
end MU
