import Verif.Model.Rounded
import Verif.Model.NonFinite

/-!
# Linear interpolation in binary64, with overflow and underflow

The functions of `Model/Interp1d.lean`, for `XReal = YScalar = double`, when every operation is rounded to nearest among the finite numbers of
binary64 or overflows to an infinity. `fl` is the rounding, `none` for an overflow (`Spec.Ieee`). Infinities and NaN propagate as IEEE 754 says;
there is one zero. The elements of a table and the query point are finite numbers. The orders of the operations are those of the source; the
compiler does not contract products and sums.
-/

namespace MU

namespace Dbl

/-- The rounded value of the exact result `x` of an operation on finite numbers. /repo/src/MathUtils/Interp1d.h:163-185 (each operation). -/
noncomputable def ofReal (fl : ℝ → Option ℝ) (x : ℝ) : Dbl ℝ :=
  match fl x with
  | some y => num y
  | none => if 0 < x then pinf else ninf

/-- The exact operation when an operand is not finite, the rounded one otherwise: `op` is `Dbl.add`, `Dbl.sub` or `Dbl.mul`.
/repo/src/MathUtils/Interp1d.h:163-185. -/
noncomputable def rounded (fl : ℝ → Option ℝ) : Dbl ℝ → Dbl ℝ
  | num x => ofReal fl x
  | d => d

/-- `x + y`. /repo/src/MathUtils/Interp1d.h:185 -/
noncomputable def fadd (fl : ℝ → Option ℝ) (x y : Dbl ℝ) : Dbl ℝ := rounded fl (add x y)

/-- `x - y`. /repo/src/MathUtils/Interp1d.h:163-167 -/
noncomputable def fsub (fl : ℝ → Option ℝ) (x y : Dbl ℝ) : Dbl ℝ := rounded fl (sub x y)

/-- `x * y`. /repo/src/MathUtils/Interp1d.h:167, 185 -/
noncomputable def fmul (fl : ℝ → Option ℝ) (x y : Dbl ℝ) : Dbl ℝ := rounded fl (mul x y)

/-- `x / y`. /repo/src/MathUtils/Interp1d.h:164, 167. The quotient of a finite number by an infinity is zero, of two infinities NaN. As everywhere in
the model, a division by zero is the outcome `nonfinite`. -/
noncomputable def fquot (fl : ℝ → Option ℝ) (x : Dbl ℝ) : Dbl ℝ → Res (Dbl ℝ)
  | num d => if d = 0 then .nonfinite else .ok (rounded fl (mul x (num d⁻¹)))
  | nan => .ok nan
  | _ => match x with
    | num _ => .ok (num 0)
    | _ => .ok nan

end Dbl

open Dbl

namespace Interp1d

/-- Body of the loop of `Interp1dLinearBase::Initialize`, /repo/src/MathUtils/Interp1d.h:156-169, with `XReal = YScalar = double`. -/
noncomputable def initializeStepI (fl : ℝ → Option ℝ) (i : Nat) : Act (Interp1d ℝ (Dbl ℝ)) Unit := do
  let s ← Act.get
  let xs ← Act.lift (deref s.xcoord)
  let xi ← Act.lift (vAt xs (i - 1))
  let xii ← Act.lift (vAt xs i)
  let ys ← Act.lift (deref s.yval)
  let yi ← Act.lift (vAt ys (i - 1))
  let yii ← Act.lift (vAt ys i)
  let xii_m_xi := fsub fl (num xii) (num xi)
  let ca ← Act.lift (fquot fl (fsub fl yii yi) xii_m_xi)
  Act.update fun s => { s with a := s.a ++ [ca] }
  let cb ← Act.lift (fquot fl (fsub fl (fmul fl yi (num xii)) (fmul fl (num xi) yii)) xii_m_xi)
  Act.update fun s => { s with b := s.b ++ [cb] }

/-- `Interp1dLinearBase::Initialize`, /repo/src/MathUtils/Interp1d.h:145-170, with `XReal = YScalar = double`. -/
noncomputable def initI (fl : ℝ → Option ℝ) (B : Build) (x : Option (List ℝ)) (y : Option (List (Dbl ℝ))) :
    Act (Interp1d ℝ (Dbl ℝ)) Unit := do
  initializeBase B x y
  let s ← Act.get
  Act.loop 1 s.ndata (initializeStepI fl)

/-- `Interp1dLinearBase::PrivEval`, /repo/src/MathUtils/Interp1d.h:172-186, with `XReal = YScalar = double`. -/
noncomputable def privEvalBaseI (fl : ℝ → Option ℝ) (s : Interp1d ℝ (Dbl ℝ)) (x : ℝ) : Res (Dbl ℝ) := do
  let xs ← deref s.xcoord
  let index ← MU.lowerBound xs x
  let index := if index = 0 then 1 else index
  let a_ ← vAt s.a (index - 1)
  let b_ ← vAt s.b (index - 1)
  return fadd fl (fmul fl a_ (num x)) b_

/-- `Interp1d::Eval(x)` of the three classes, /repo/src/MathUtils/Interp1d.h:31, 188-215, with `XReal = YScalar = double`: the tests on the range
are exact. -/
noncomputable def evalI (fl : ℝ → Option ℝ) (kind : Interp1dKind) (s : Interp1d ℝ (Dbl ℝ)) (x : ℝ) : Res (Dbl ℝ) :=
  match kind with
  | .linear => do
    let mn ← readVar s.xmin
    if x < mn then .exits 1 else
    let mx ← readVar s.xmax
    if mx < x then .exits 1 else
    privEvalBaseI fl s x
  | .extrapolate => privEvalBaseI fl s x
  | .saturate => do
    let mn ← readVar s.xmin
    let mx ← readVar s.xmax
    let x_tmp := if x < mn ∨ mx < x then (if x < mn then mn else mx) else x
    privEvalBaseI fl s x_tmp

end Interp1d

/-- A client program: `MakeInterp1d(m)`, one `Initialize(x, y)` with finite numbers, then `Eval(x)`, in `double`.
It stands for any user of /repo/src/MathUtils/Interp1d.h:31, 49-51, 60. -/
noncomputable def interp1dI (fl : ℝ → Option ℝ) (B : Build) (m : InterpMethod) (xs ys : List ℝ) (x : ℝ) : Res (Dbl ℝ) := do
  let kind ← Interp1d.make m
  let (r, s) := (Interp1d.initI fl B (some xs) (some (ys.map num))).run (Interp1d.fresh ℝ (Dbl ℝ))
  r
  Interp1d.evalI fl kind s x

end MU
