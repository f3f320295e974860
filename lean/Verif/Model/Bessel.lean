import Verif.Model.Unit
import Mathlib.Analysis.Complex.Basic

/-!
# Model of the Bessel wrappers

Numbers are exact reals. boost's functions are parameters: a call can return a value, or raise (outside of their domain). The order is a real number,
which covers the integral and the floating point instances of the template.
-/

namespace MU

/-- `Cyl_Bessel_first_kind`, `Cyl_Bessel_second_kind`, `Cyl_modified_Bessel_first_kind`, `Cyl_modified_Bessel_second_kind`,
`Cyl_Hankel_first_kind`: the call of boost's function, /repo/src/MathUtils/BoostFunctions.h:23-26, 39-42, 55-58, 71-74, 87-90. -/
def cylBessel {R : Type} (boost : ℝ → ℝ → Res R) (order x : ℝ) : Res R := boost order x

open Classical in
/-- `Cyl_Bessel_first_kind_derivative`, /repo/src/MathUtils/BoostFunctions.h:29-36. `order / x` is the division of reals: the instance where both are
integers is not modelled. -/
noncomputable def cylJDerivative (cyl_bessel_j : ℝ → ℝ → Res ℝ) (order x : ℝ) : Res ℝ :=
  if order = 0 then do
    let v ← cyl_bessel_j 1 x
    return -v
  else do
    let u ← cyl_bessel_j (order - 1) x
    let q ← rdiv order x
    let v ← cyl_bessel_j order x
    return u - q * v

open Classical in
/-- `Cyl_Bessel_second_kind_derivative`, /repo/src/MathUtils/BoostFunctions.h:45-52. -/
noncomputable def cylYDerivative (cyl_neumann : ℝ → ℝ → Res ℝ) (order x : ℝ) : Res ℝ :=
  if order = 0 then do
    let v ← cyl_neumann 1 x
    return -v
  else do
    let u ← cyl_neumann (order - 1) x
    let q ← rdiv order x
    let v ← cyl_neumann order x
    return u - q * v

open Classical in
/-- `Cyl_modified_Bessel_first_kind_derivative`, /repo/src/MathUtils/BoostFunctions.h:61-68. -/
noncomputable def cylIDerivative (cyl_bessel_i : ℝ → ℝ → Res ℝ) (order x : ℝ) : Res ℝ :=
  if order = 0 then cyl_bessel_i 1 x
  else do
    let u ← cyl_bessel_i (order - 1) x
    let q ← rdiv order x
    let v ← cyl_bessel_i order x
    return u - q * v

open Classical in
/-- `Cyl_modified_Bessel_second_kind_derivative`, /repo/src/MathUtils/BoostFunctions.h:77-84. -/
noncomputable def cylKDerivative (cyl_bessel_k : ℝ → ℝ → Res ℝ) (order x : ℝ) : Res ℝ :=
  if order = 0 then do
    let v ← cyl_bessel_k 1 x
    return -v
  else do
    let u ← cyl_bessel_k (order - 1) x
    let q ← rdiv order x
    let v ← cyl_bessel_k order x
    return -u - q * v

open Classical in
/-- `Cyl_Hankel_first_kind_derivative`, /repo/src/MathUtils/BoostFunctions.h:93-100. -/
noncomputable def cylHDerivative (cyl_hankel_1 : ℝ → ℝ → Res ℂ) (order x : ℝ) : Res ℂ :=
  if order = 0 then do
    let v ← cyl_hankel_1 1 x
    return -v
  else do
    let u ← cyl_hankel_1 (order - 1) x
    let q ← rdiv order x
    let v ← cyl_hankel_1 order x
    return u - (q : ℂ) * v

end MU
