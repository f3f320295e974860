import Verif.Model.Ieee
import Verif.Model.VectorClasses

/-!
# Vector3d::Normalize and Vector3d::IsUnit in binary64, with overflow and underflow

As in Model/Ieee, every operation is rounded by `fl`, overflows to an infinity, and infinities and NaN propagate. The order in which Eigen adds the three squares
of a norm is not part of its contract: `sum3` is the sum it computes.
-/

namespace MU

open Dbl

/-- `std::sqrt`. /repo/src/MathUtils/Vector3d.h:138, 143 (in Eigen's `normalize` and `norm`) -/
noncomputable def Dbl.fsqrt (fl : ℝ → Option ℝ) : Dbl ℝ → Dbl ℝ
  | num x => if x < 0 then nan else ofReal fl (Real.sqrt x)
  | pinf => pinf
  | _ => nan

/-- `std::fabs`. /repo/src/MathUtils/Check.h:15 -/
noncomputable def Dbl.fabs : Dbl ℝ → Dbl ℝ
  | num x => num |x|
  | ninf => pinf
  | d => d

/-- Eigen's `squaredNorm`. Called (in `normalize` and `norm`) at /repo/src/MathUtils/Vector3d.h:138, 143. -/
noncomputable def squaredNormI (fl : ℝ → Option ℝ) (sum3 : Dbl ℝ → Dbl ℝ → Dbl ℝ → Dbl ℝ) (v : Fin 3 → Dbl ℝ) : Dbl ℝ :=
  sum3 (fmul fl (v 0) (v 0)) (fmul fl (v 1) (v 1)) (fmul fl (v 2) (v 2))

/-- `Vector3d::Normalize`, /repo/src/MathUtils/Vector3d.h:136-139: Eigen's `normalize()` divides by the square root of the sum of the squares, if that is
positive. -/
noncomputable def normalize3I (fl : ℝ → Option ℝ) (sum3 : Dbl ℝ → Dbl ℝ → Dbl ℝ → Dbl ℝ) (v : Fin 3 → Dbl ℝ) : Res (Fin 3 → Dbl ℝ) :=
  let z := squaredNormI fl sum3 v
  if Dbl.lt (num 0) z then do
    let a ← fquot fl (v 0) (fsqrt fl z)
    let b ← fquot fl (v 1) (fsqrt fl z)
    let c ← fquot fl (v 2) (fsqrt fl z)
    return ![a, b, c]
  else .ok v

/-- `IsClose`, /repo/src/MathUtils/Check.h:13-16. -/
noncomputable def isCloseI (fl : ℝ → Option ℝ) (a b rtol atol : Dbl ℝ) : Bool :=
  Dbl.le (fabs (fsub fl a b)) (fadd fl atol (fmul fl rtol (fabs b)))

/-- `Vector3d::IsUnit`: `IsClose` with its default tolerances, /repo/src/MathUtils/Check.h:13. /repo/src/MathUtils/Vector3d.h:141-144 -/
noncomputable def isUnit3I (fl : ℝ → Option ℝ) (sum3 : Dbl ℝ → Dbl ℝ → Dbl ℝ → Dbl ℝ) (v : Fin 3 → Dbl ℝ) : Bool :=
  isCloseI fl (fsqrt fl (squaredNormI fl sum3 v)) (num 1) (ofReal fl (1 / 10 ^ 5)) (ofReal fl (1 / 10 ^ 8))

end MU
