import Verif.Model.Interp1d
import Verif.Model.Integration1d
import Verif.Model.Polynomial
import Verif.Model.Vectors
import Mathlib.Data.Real.Basic

/-!
# Double arithmetic

The same functions as in Polynomial.lean, Vectors.lean, Integration1d.lean and Interp1d.lean, with `double` for the type of the numbers: every
operation of the source is followed by the rounding `rnd`. Operations are not contracted (no fused multiply-add) and neither overflow nor underflow
happens. Integers below `2^53` are converted to `double` exactly.
-/

namespace MU

/-- The `while` loop of `Horner`, /repo/src/MathUtils/Polynomial.h:19-23, with `T = double`. -/
noncomputable def hornerLoopR (rnd : ℝ → ℝ) (coefficients : List ℝ) (x0 : ℝ) : Nat → ℝ → Res ℝ
  | 0, result => .ok result
  | i + 1, result => do
    let c ← vAt coefficients i
    hornerLoopR rnd coefficients x0 i (rnd (rnd (result * x0) + c))

/-- `Horner`, /repo/src/MathUtils/Polynomial.h:10-27, with `T = double`. -/
noncomputable def hornerR (rnd : ℝ → ℝ) (coefficients : List ℝ) (x0 : ℝ) : Res ℝ := do
  let size := coefficients.length
  let c ← vAtInt coefficients ((size : Int) - 1)
  hornerLoopR rnd coefficients x0 (size - 1) c

/-- The `while` loop of `Horner_derivative`, /repo/src/MathUtils/Polynomial.h:38-42, with `T = double`. -/
noncomputable def hornerDerivativeLoopR (rnd : ℝ → ℝ) (coefficients : List ℝ) (x0 : ℝ) : Nat → ℝ → Res ℝ
  | 0, result => .ok result
  | i + 1, result => do
    let c ← vAt coefficients (i + 1)
    hornerDerivativeLoopR rnd coefficients x0 i (rnd (rnd (result * x0) + rnd (((i + 1 : Nat) : ℝ) * c)))

/-- `Horner_derivative`, /repo/src/MathUtils/Polynomial.h:29-46, with `T = double`. -/
noncomputable def hornerDerivativeR (rnd : ℝ → ℝ) (coefficients : List ℝ) (x0 : ℝ) : Res ℝ := do
  let size := coefficients.length
  let c ← vAtInt coefficients ((size : Int) - 1)
  hornerDerivativeLoopR rnd coefficients x0 (size - 2) (rnd (((size - 1 : Nat) : ℝ) * c))

/-- `linspace`, /repo/src/MathUtils/VectorGeneration.h:15-30, with `Real = double`. -/
noncomputable def linspaceR (rnd : ℝ → ℝ) (B : Build) (start stop : ℝ) (num : Nat) : Res (List ℝ) := do
  cassert B (num > 1)
  cassert B (start ≤ stop)
  let numm1 := usub 32 num 1
  let step := rnd (rnd (stop - start) / (numm1 : ℝ))
  let out := List.replicate num 0
  let out ← forRange 0 numm1 (fun i out => vSet out i (rnd (start + rnd ((i : ℝ) * step)))) out
  vSet out numm1 stop

/-- `Trapz(y, dx)`, /repo/src/MathUtils/Integration1d.h:151-164, with `Scalar = double`. -/
noncomputable def trapzUniformR (rnd : ℝ → ℝ) (y : List ℝ) (dx : ℝ) : Res ℝ := do
  let N := y.length
  let sum ← forRange 1 (usub 64 N 1) (fun i sum => do
    let yi ← vIdx y i
    return rnd (sum + yi)) 0
  let y0 ← vIdx y 0
  let yN ← vIdx y (usub 64 N 1)
  return rnd (dx * rnd (sum + rnd (1 / 2 * rnd (y0 + yN))))

/-- `Trapz(x, y)`, /repo/src/MathUtils/Integration1d.h:166-191, with `Scalar = double`. -/
noncomputable def trapzR (rnd : ℝ → ℝ) (B : Build) (x y : List ℝ) : Res ℝ := do
  let N := y.length
  cassert B (N > 1)
  cassert B (x.length = N)
  let x1 ← vIdx x 1
  let x0 ← vIdx x 0
  let dx1 := rnd (x1 - x0)
  let xN_1 ← vIdx x (usub 64 N 1)
  let xN_2 ← vIdx x (usub 64 N 2)
  let dxN_1 := rnd (xN_1 - xN_2)
  let r ← forRange 1 (usub 64 N 1) (fun i (s : ℝ × ℝ) => do
    let dxi := s.2
    let a ← vIdx x (i + 1)
    let b ← vIdx x i
    let dxii := rnd (a - b)
    let yi ← vIdx y i
    return (rnd (s.1 + rnd (yi * rnd (dxi + dxii))), dxii)) (0, dx1)
  let y0 ← vIdx y 0
  let yN ← vIdx y (usub 64 N 1)
  return rnd (1 / 2 * rnd (rnd (r.1 + rnd (y0 * dx1)) + rnd (yN * dxN_1)))

namespace Integrate1d

/-- The sampling loop of `ComputeTrapz`, /repo/src/MathUtils/Integration1d.h:120-125, with `Scalar = double`. -/
noncomputable def sampleR (rnd : ℝ → ℝ) (F : ℝ → ℝ) (dx : ℝ) : Nat → List ℝ × ℝ → List ℝ × ℝ
  | 0, s => s
  | n + 1, (Y, x) => sampleR rnd F dx n (Y ++ [F x], rnd (x + dx))

/-- `ComputeTrapz`, /repo/src/MathUtils/Integration1d.h:111-136, with `Scalar = double`. -/
noncomputable def computeTrapzR (rnd : ℝ → ℝ) : Act (Integrate1d ℝ) Unit := do
  let s ← Act.get
  let dx ← Act.lift (fdiv (rnd (s.m_Xmax - s.m_Xmin)) ((usub 32 s.m_NbPoints 1 : Nat) : ℝ))
  let dx := rnd dx
  if s.c_DataSource = .FUNCTION then do
    let F ← Act.lift (deref s.m_integrand)
    Act.update fun s => { s with m_Y := (sampleR rnd F dx s.m_NbPoints ([], s.m_Xmin)).1 }
  else pure ()
  let s ← Act.get
  let sum ← Act.lift (forRange 1 (usub 32 s.m_NbPoints 1) (fun i sum => do
    let y ← vIdx s.m_Y i
    return rnd (sum + y)) 0)
  let y0 ← Act.lift (vIdx s.m_Y 0)
  let yN ← Act.lift (vIdx s.m_Y (usub 64 s.m_Y.length 1))
  Act.update fun s => { s with c_Result := rnd (rnd (y0 + yN) + rnd (2 * sum)) }
  Act.update fun s => { s with c_Result := rnd (s.c_Result * rnd (1 / 2 * dx)) }

/-- `Compute`, /repo/src/MathUtils/Integration1d.h:91-103, with `Scalar = double`. -/
noncomputable def computeR (rnd : ℝ → ℝ) : Act (Integrate1d ℝ) Unit := do
  let s ← Act.get
  match s.m_IntegrationMethod with
  | .TRAPEZOIDAL => computeTrapzR rnd
  | .NEWTON_COTES => computeNewtonCotes
  Act.update fun s => { s with c_Computed := true }

/-- `Get`, /repo/src/MathUtils/Integration1d.h:83-88, with `Scalar = double`. -/
noncomputable def getR (rnd : ℝ → ℝ) : Act (Integrate1d ℝ) ℝ := do
  let s ← Act.get
  if s.c_Computed then pure () else computeR rnd
  let s ← Act.get
  return s.c_Result

end Integrate1d

namespace Interp1d

/-- Body of the loop of `Interp1dLinearBase::Initialize`, /repo/src/MathUtils/Interp1d.h:156-169, with `XReal = YScalar = double`. -/
noncomputable def initializeStepR (rnd : ℝ → ℝ) (i : Nat) : Act (Interp1d ℝ ℝ) Unit := do
  let s ← Act.get
  let xs ← Act.lift (deref s.xcoord)
  let xi ← Act.lift (vAt xs (i - 1))
  let xii ← Act.lift (vAt xs i)
  let ys ← Act.lift (deref s.yval)
  let yi ← Act.lift (vAt ys (i - 1))
  let yii ← Act.lift (vAt ys i)
  let xii_m_xi := rnd (xii - xi)
  let ca ← Act.lift (fdiv (rnd (yii - yi)) xii_m_xi)
  Act.update fun s => { s with a := s.a ++ [rnd ca] }
  let cb ← Act.lift (fdiv (rnd (rnd (yi * xii) - rnd (xi * yii))) xii_m_xi)
  Act.update fun s => { s with b := s.b ++ [rnd cb] }

/-- `Interp1dLinearBase::Initialize`, /repo/src/MathUtils/Interp1d.h:145-170, with `XReal = YScalar = double`. -/
noncomputable def initR (rnd : ℝ → ℝ) (B : Build) (x : Option (List ℝ)) (y : Option (List ℝ)) : Act (Interp1d ℝ ℝ) Unit := do
  initializeBase B x y
  let s ← Act.get
  Act.loop 1 s.ndata (initializeStepR rnd)

/-- `Interp1dLinearBase::PrivEval`, /repo/src/MathUtils/Interp1d.h:172-186, with `XReal = YScalar = double`. -/
noncomputable def privEvalBaseR (rnd : ℝ → ℝ) (s : Interp1d ℝ ℝ) (x : ℝ) : Res ℝ := do
  let xs ← deref s.xcoord
  let index ← lowerBound xs x
  let index := if index = 0 then 1 else index
  let a_ ← vAt s.a (index - 1)
  let b_ ← vAt s.b (index - 1)
  return rnd (rnd (a_ * x) + b_)

/-- `Interp1d::Eval(x)` of the three classes, /repo/src/MathUtils/Interp1d.h:31, 188-215, with `XReal = YScalar = double`: the tests on the range
are exact. -/
noncomputable def evalR (rnd : ℝ → ℝ) (kind : Interp1dKind) (s : Interp1d ℝ ℝ) (x : ℝ) : Res ℝ :=
  match kind with
  | .linear => do
    let mn ← readVar s.xmin
    if x < mn then .exits 1 else
    let mx ← readVar s.xmax
    if mx < x then .exits 1 else
    privEvalBaseR rnd s x
  | .extrapolate => privEvalBaseR rnd s x
  | .saturate => do
    let mn ← readVar s.xmin
    let mx ← readVar s.xmax
    let x_tmp := if x < mn ∨ mx < x then (if x < mn then mn else mx) else x
    privEvalBaseR rnd s x_tmp

end Interp1d

/-- A client program: `MakeInterp1d(m)`, one `Initialize(x, y)`, then `Eval(x)`, in `double`.
It stands for any user of /repo/src/MathUtils/Interp1d.h:31, 49-51, 60. -/
noncomputable def interp1dR (rnd : ℝ → ℝ) (B : Build) (m : InterpMethod) (xs ys : List ℝ) (x : ℝ) : Res ℝ := do
  let kind ← Interp1d.make m
  let (r, s) := (Interp1d.initR rnd B (some xs) (some ys)).run (Interp1d.fresh ℝ ℝ)
  r
  Interp1d.evalR rnd kind s x

end MU
