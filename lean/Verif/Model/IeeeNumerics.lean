import Verif.Model.Ieee

/-!
# Polynomials and trapezoidal sums in binary64, with overflow and underflow

As `Model/Ieee.lean`: each operation is rounded to nearest among the finite numbers of binary64 or overflows. The arguments are finite.
-/

namespace MU
open Dbl

/-- The `while` loop of `Horner`, /repo/src/MathUtils/Polynomial.h:20-23, with `T = double`. -/
noncomputable def hornerLoopI (fl : ℝ → Option ℝ) (coefficients : List ℝ) (x0 : ℝ) : Nat → Dbl ℝ → Res (Dbl ℝ)
  | 0, result => .ok result
  | i + 1, result => do
    let c ← vAt coefficients i
    hornerLoopI fl coefficients x0 i (fadd fl (fmul fl result (.num x0)) (.num c))

/-- `Horner`, /repo/src/MathUtils/Polynomial.h:10-27, with `T = double`. -/
noncomputable def hornerI (fl : ℝ → Option ℝ) (coefficients : List ℝ) (x0 : ℝ) : Res (Dbl ℝ) := do
  let size := coefficients.length
  let c ← vAtInt coefficients ((size : Int) - 1)
  hornerLoopI fl coefficients x0 (size - 1) (.num c)

/-- The `while` loop of `Horner_derivative`, /repo/src/MathUtils/Polynomial.h:38-42, with `T = double`. The index is converted to `double` exactly. -/
noncomputable def hornerDerivativeLoopI (fl : ℝ → Option ℝ) (coefficients : List ℝ) (x0 : ℝ) : Nat → Dbl ℝ → Res (Dbl ℝ)
  | 0, result => .ok result
  | i + 1, result => do
    let c ← vAt coefficients (i + 1)
    hornerDerivativeLoopI fl coefficients x0 i
      (fadd fl (fmul fl result (.num x0)) (fmul fl (.num ((i + 1 : Nat) : ℝ)) (.num c)))

/-- `Horner_derivative`, /repo/src/MathUtils/Polynomial.h:29-46, with `T = double`. -/
noncomputable def hornerDerivativeI (fl : ℝ → Option ℝ) (coefficients : List ℝ) (x0 : ℝ) : Res (Dbl ℝ) := do
  let size := coefficients.length
  let c ← vAtInt coefficients ((size : Int) - 1)
  hornerDerivativeLoopI fl coefficients x0 (size - 2) (fmul fl (.num ((size - 1 : Nat) : ℝ)) (.num c))

/-- `Trapz(y, dx)`, /repo/src/MathUtils/Integration1d.h:151-164, with `Scalar = double`. -/
noncomputable def trapzUniformI (fl : ℝ → Option ℝ) (y : List ℝ) (dx : ℝ) : Res (Dbl ℝ) := do
  let N := y.length
  let sum ← forRange 1 (usub 64 N 1) (fun i sum => do
    let yi ← vIdx y i
    return fadd fl sum (.num yi)) (.num 0)
  let y0 ← vIdx y 0
  let yN ← vIdx y (usub 64 N 1)
  return fmul fl (.num dx) (fadd fl sum (fmul fl (.num (1 / 2)) (fadd fl (.num y0) (.num yN))))

/-- `Trapz(x, y)`, /repo/src/MathUtils/Integration1d.h:166-191, with `Scalar = double`. -/
noncomputable def trapzI (fl : ℝ → Option ℝ) (B : Build) (x y : List ℝ) : Res (Dbl ℝ) := do
  let N := y.length
  cassert B (N > 1)
  cassert B (x.length = N)
  let x1 ← vIdx x 1
  let x0 ← vIdx x 0
  let dx1 := fsub fl (.num x1) (.num x0)
  let xN_1 ← vIdx x (usub 64 N 1)
  let xN_2 ← vIdx x (usub 64 N 2)
  let dxN_1 := fsub fl (.num xN_1) (.num xN_2)
  let r ← forRange 1 (usub 64 N 1) (fun i (s : Dbl ℝ × Dbl ℝ) => do
    let dxi := s.2
    let a ← vIdx x (i + 1)
    let b ← vIdx x i
    let dxii := fsub fl (.num a) (.num b)
    let yi ← vIdx y i
    return (fadd fl s.1 (fmul fl (.num yi) (fadd fl dxi dxii)), dxii)) (.num 0, dx1)
  let y0 ← vIdx y 0
  let yN ← vIdx y (usub 64 N 1)
  return fmul fl (.num (1 / 2)) (fadd fl (fadd fl r.1 (fmul fl (.num y0) dx1)) (fmul fl (.num yN) dxN_1))

end MU
