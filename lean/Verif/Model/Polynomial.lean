import Verif.Core
import Mathlib.Algebra.Algebra.Basic

/-!
# Model of Polynomial.h

`T` is a field `A` containing the coefficients' field `K` (real coefficients, real or complex point); the conversion of a coefficient to `T` is
`algebraMap`. The sizes are below `2^31`, so `int size = coefficients.size()` is exact.
-/

namespace MU

variable {K A : Type} [Field K] [Field A] [Algebra K A]

/-- `coefficients.at(i)` with a signed index: a negative one is converted to a huge `size_t` and `at` throws.
/repo/src/MathUtils/Polynomial.h:18-21, 37-40. -/
def vAtInt {α : Type} (l : List α) (i : Int) : Res α := if i < 0 then .throws .outOfRange else vAt l i.toNat

/-- The `while` loop of `Horner`, /repo/src/MathUtils/Polynomial.h:19-23. The argument is `i + 1`, the number of coefficients left. -/
def hornerLoop (coefficients : List K) (x0 : A) : Nat → A → Res A
  | 0, result => .ok result
  | i + 1, result => do
    let c ← vAt coefficients i
    hornerLoop coefficients x0 i (result * x0 + algebraMap K A c)

/-- `Horner`, /repo/src/MathUtils/Polynomial.h:10-27. -/
def horner (coefficients : List K) (x0 : A) : Res A := do
  let size := coefficients.length
  let c ← vAtInt coefficients ((size : Int) - 1)
  hornerLoop coefficients x0 (size - 1) (algebraMap K A c)

/-- The `while` loop of `Horner_derivative`, /repo/src/MathUtils/Polynomial.h:38-42. The first argument is `i`. -/
def hornerDerivativeLoop (coefficients : List K) (x0 : A) : Nat → A → Res A
  | 0, result => .ok result
  | i + 1, result => do
    let c ← vAt coefficients (i + 1)
    hornerDerivativeLoop coefficients x0 i (result * x0 + algebraMap K A (((i + 1 : Nat) : K) * c))

/-- `Horner_derivative`, /repo/src/MathUtils/Polynomial.h:29-46. -/
def hornerDerivative (coefficients : List K) (x0 : A) : Res A := do
  let size := coefficients.length
  let c ← vAtInt coefficients ((size : Int) - 1)
  hornerDerivativeLoop coefficients x0 (size - 2) (algebraMap K A (((size - 1 : Nat) : K) * c))

end MU
