import Verif.Model.SpecialFunctions
import Verif.Model.Rounded
import Verif.Model.RoundedUnit

/-!
# BoostFunctions.h in double arithmetic: exponential integrals and Struve functions

The same functions as in SpecialFunctions.lean with `T = double`: every literal is rounded to a double and every operation is followed by `rnd`. No
contraction, overflow or underflow. The functions of the C library and of boost are parameters.
-/

namespace MU

/-- `exp` and `log` of the C library, called at /repo/src/MathUtils/BoostFunctions.h:273, 310, 344, 378, 393, 478, 512, 549. -/
structure ELib where
  exp : ℝ → ℝ
  log : ℝ → ℝ

/-- `IsClose(x, 0.)` in double, /repo/src/MathUtils/Check.h:14-16, called at /repo/src/MathUtils/BoostFunctions.h:236, 449. -/
noncomputable def isCloseZeroR (rnd : ℝ → ℝ) (x : ℝ) : Prop := |rnd (x - 0)| ≤ rnd (rnd 1e-8 + rnd (rnd 1e-5 * |(0 : ℝ)|))

/-- `Chebyshev_polynomial_shifted` in double, /repo/src/MathUtils/BoostFunctions.h:202-206; `TR` is `boost::math::chebyshev_t`. -/
noncomputable def chebyshevShiftedR (rnd : ℝ → ℝ) (TR : Nat → ℝ → ℝ) (order : Nat) (x : ℝ) : ℝ := TR order (rnd (rnd (2 * x) - 1))

/-- `0.5 * c.at(0) * T*_0(x / 6.)`, then `+= c.at(j) * T*_j(x / 6.)` for `j = 1..9`, in double, /repo/src/MathUtils/BoostFunctions.h:274-279. -/
noncomputable def chebyshevSumR (rnd : ℝ → ℝ) (TR : Nat → ℝ → ℝ) (c : List ℝ) (x : ℝ) : Res ℝ := do
  let c0 ← vAt c 0
  forRange 1 10 (fun j s => do
    let cj ← vAt c j
    return rnd (s + rnd (cj * chebyshevShiftedR rnd TR j (rnd (x / 6))))) (rnd (rnd (0.5 * c0) * chebyshevShiftedR rnd TR 0 (rnd (x / 6))))

namespace Ext
open Classical in
/-- `a / d` in double: a non-zero number divided by zero is infinite, and a number divided by an infinity is zero.
Used for the continued fractions of /repo/src/MathUtils/BoostFunctions.h:306-309, 340-343, 374-377, 422-425. -/
noncomputable def divR (rnd : ℝ → ℝ) (a : ℝ) : Ext → Ext
  | fin d => if d = 0 then (if a = 0 then nan else inf) else fin (rnd (a / d))
  | inf => fin 0
  | nan => nan

/-- `a + f` in double. Used for the continued fractions of /repo/src/MathUtils/BoostFunctions.h:306-309, 340-343, 374-377, 422-425. -/
noncomputable def addR (rnd : ℝ → ℝ) (a : ℝ) : Ext → Ext
  | fin f => fin (rnd (a + f))
  | inf => inf
  | nan => nan
end Ext

/-- `for (unsigned int j = n; j >= 1; --j) fraction = betaj.at(j - 1) / (alphaj.at(j) + x + fraction);` in double,
/repo/src/MathUtils/BoostFunctions.h:306-308, 340-342, 374-376, 422-424. -/
noncomputable def fractionLoopR (rnd : ℝ → ℝ) (alphaj betaj : List ℝ) (x : ℝ) : Nat → Ext → Res Ext
  | 0, f => .ok f
  | j + 1, f => do
    let b ← vAt betaj j
    let a ← vAt alphaj (j + 1)
    fractionLoopR rnd alphaj betaj x j (Ext.divR rnd b (Ext.addR rnd (rnd (a + x)) f))

/-- The continued fraction in double: the literals, the assertion on the sizes, the loop and the first term,
/repo/src/MathUtils/BoostFunctions.h:283-309, 317-343, 351-377, 399-425. -/
noncomputable def continuedFractionR (rnd : ℝ → ℝ) (B : Build) (alphaj betaj : List ℝ) (x : ℝ) : Res ℝ := do
  let alphaj := alphaj.map rnd
  let betaj := betaj.map rnd
  cassert B (alphaj.length = betaj.length + 1)
  let f ← fractionLoopR rnd alphaj betaj x 9 (.fin 0)
  let a0 ← vAt alphaj 0
  (Ext.addR rnd a0 f).get

open Classical in
/-- `Ei_approximation` in double, /repo/src/MathUtils/BoostFunctions.h:227-384. -/
noncomputable def eiApproximationR (rnd : ℝ → ℝ) (M : ELib) (TR : Nat → ℝ → ℝ) (B : Build) (x : ℝ) : Res ℝ := do
  if isCloseZeroR rnd x ∨ x < 0 then .exits 0
  else if 0 < x ∧ x < 6 then do
    let pj := ei6_pj.map rnd
    let qj := ei6_qj.map rnd
    cassert B (pj.length = qj.length)
    let x0 := rnd 0.372507410781366634461991866580
    let xx0 ← rdivR rnd x x0
    let Ei := rnd (0 + M.log xx0)
    let numerator ← chebyshevSumR rnd TR pj x
    let denominator ← chebyshevSumR rnd TR qj x
    let r ← rdivR rnd numerator denominator
    return rnd (Ei + rnd (rnd (x - x0) * r))
  else if 6 ≤ x ∧ x < 12 then do
    let fraction ← continuedFractionR rnd B ei12_alphaj ei12_betaj x
    return rnd (rnd (M.exp x / x) * fraction)
  else if 12 ≤ x ∧ x < 24 then do
    let fraction ← continuedFractionR rnd B ei24_alphaj ei24_betaj x
    return rnd (rnd (M.exp x / x) * fraction)
  else do
    let fraction ← continuedFractionR rnd B eiInf_alphaj eiInf_betaj x
    return rnd (rnd (M.exp x / x) * rnd (1 + rnd (rnd (1 / x) * fraction)))

open Classical in
/-- `expEi` in double, /repo/src/MathUtils/BoostFunctions.h:387-432; `Ei` (221-224) is `boost::math::expint`. -/
noncomputable def expEiR (rnd : ℝ → ℝ) (M : ELib) (expint : ℝ → Res ℝ) (B : Build) (x : ℝ) : Res ℝ := do
  if x < 24 then do
    let e ← expint x
    return rnd (M.exp (-x) * e)
  else do
    let fraction ← continuedFractionR rnd B expEi_alphaj expEi_betaj x
    return rnd (rnd (1 / x) * rnd (1 + rnd (rnd (1 / x) * fraction)))

/-- `numerator += c.at(j) * xn; xn /= x;` for `j = 0..n`, in double, /repo/src/MathUtils/BoostFunctions.h:504-511, 541-548; numerator and denominator
are accumulated in the same loop, here one after the other. -/
noncomputable def inverseSumR (rnd : ℝ → ℝ) (c : List ℝ) (x : ℝ) (n : Nat) : Res ℝ := do
  let s ← forRange 0 (n + 1) (fun j (s : ℝ × ℝ) => do
    let cj ← vAt c j
    let xn ← rdivR rnd s.2 x
    return (rnd (s.1 + rnd (cj * s.2)), xn)) (0, 1)
  return s.1

open Classical in
/-- `E1_approximation` in double, /repo/src/MathUtils/BoostFunctions.h:440-557. -/
noncomputable def e1ApproximationR (rnd : ℝ → ℝ) (M : ELib) (B : Build) (x : ℝ) : Res ℝ := do
  if isCloseZeroR rnd x ∨ x < 0 then .exits 0
  else if 0 < x ∧ x < 1 then do
    let pj := e1a_pj.map rnd
    let qj := e1a_qj.map rnd
    cassert B (pj.length = qj.length)
    let numerator ← hornerR rnd pj x
    let denominator ← hornerR rnd qj x
    let r ← rdivR rnd numerator denominator
    return rnd (-M.log x + r)
  else if 1 ≤ x ∧ x < 4 then do
    let pj := e1b_pj.map rnd
    let qj := e1b_qj.map rnd
    cassert B (pj.length = qj.length)
    let numerator ← inverseSumR rnd pj x 8
    let denominator ← inverseSumR rnd qj x 8
    let r ← rdivR rnd numerator denominator
    return rnd (M.exp (-x) * r)
  else do
    let pj := e1c_pj.map rnd
    let qj := e1c_qj.map rnd
    cassert B (pj.length = qj.length)
    let numerator ← inverseSumR rnd pj x 9
    let denominator ← inverseSumR rnd qj x 9
    let r ← rdivR rnd (rnd (rnd (1 / x) * numerator)) denominator
    return rnd (rnd (M.exp (-x) / x) * rnd (1 + r))

/-- `Struve += coef.at(j - 1) * pow(arg, 2 * j - 1 + e)` for `j = 1..6`, in double, /repo/src/MathUtils/BoostFunctions.h:127-129 (`e = 0`), 158-160
(`e = 1`); `P` is `pow` of the C library. -/
noncomputable def struveSumR (rnd : ℝ → ℝ) (P : ℝ → Nat → ℝ) (coef : List ℝ) (arg : ℝ) (e : Nat) : Res ℝ :=
  forRange 1 7 (fun j s => do
    let c ← vAt coef (j - 1)
    return rnd (s + rnd (c * P arg (2 * j - 1 + e)))) 0

/-- `numerator += coef.at(j) * pow(arg, 2 * j)` for `j = 0..3`, in double, /repo/src/MathUtils/BoostFunctions.h:137-140, 168-171. -/
noncomputable def struveFractionR (rnd : ℝ → ℝ) (P : ℝ → Nat → ℝ) (coef : List ℝ) (arg : ℝ) : Res ℝ :=
  forRange 0 4 (fun j s => do
    let c ← vAt coef j
    return rnd (s + rnd (c * P arg (2 * j)))) 0

/-- `MU_2_PI` in double, /repo/src/MathUtils/Constants.h:46-47. -/
noncomputable def MU_2_PI_R (rnd : ℝ → ℝ) : ℝ := rnd (1 / rnd (MU_PI_R rnd * 0.5))

open Classical in
/-- `Struve_zero_order` in double, /repo/src/MathUtils/BoostFunctions.h:121-149. -/
noncomputable def struveZeroR (rnd : ℝ → ℝ) (P : ℝ → Nat → ℝ) (neumann : Nat → ℝ → ℝ) (x : ℝ) : Res ℝ := do
  if 0 ≤ x ∧ x ≤ 3 then struveSumR rnd P (struve_coef_a.map rnd) (rnd (x / 3)) 0
  else if 3 < x then do
    let arg := rnd (3 / x)
    let numerator ← struveFractionR rnd P (struve_coef_b.map rnd) arg
    let denominator ← struveFractionR rnd P (struve_coef_c.map rnd) arg
    let r ← rdivR rnd (rnd (2 * numerator)) (rnd (rnd (MU_PI_R rnd * x) * denominator))
    return rnd (neumann 0 x + r)
  else .exits 0

open Classical in
/-- `Struve_first_order` in double, /repo/src/MathUtils/BoostFunctions.h:152-180. -/
noncomputable def struveFirstR (rnd : ℝ → ℝ) (P : ℝ → Nat → ℝ) (neumann : Nat → ℝ → ℝ) (x : ℝ) : Res ℝ := do
  if 0 ≤ x ∧ x ≤ 3 then struveSumR rnd P (struve_coef_d.map rnd) (rnd (x / 3)) 1
  else if 3 < x then do
    let arg := rnd (3 / x)
    let numerator ← struveFractionR rnd P (struve_coef_e.map rnd) arg
    let denominator ← struveFractionR rnd P (struve_coef_f.map rnd) arg
    let r ← rdivR rnd (rnd (2 * numerator)) (rnd (MU_PI_R rnd * denominator))
    return rnd (neumann 1 x + r)
  else .exits 0

/-- `Struve_zero_order_derivative` in double, /repo/src/MathUtils/BoostFunctions.h:183-186. -/
noncomputable def struveZeroDerivativeR (rnd : ℝ → ℝ) (P : ℝ → Nat → ℝ) (neumann : Nat → ℝ → ℝ) (x : ℝ) : Res ℝ := do
  let s ← struveFirstR rnd P neumann x
  return rnd (MU_2_PI_R rnd - s)

end MU
