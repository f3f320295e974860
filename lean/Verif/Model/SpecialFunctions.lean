import Verif.Model.Polynomial
import Verif.Model.Vectors
import Verif.Model.Unit
import Mathlib.Analysis.SpecialFunctions.Log.Basic

/-!
# BoostFunctions.h: exponential integrals and Struve functions

`T` is `ℝ` and every literal is the decimal number it denotes: the rounding of the literals and of the operations is not modelled. The functions of
boost are parameters: `expint` (`boost::math::expint`) and `neumann` (`boost::math::cyl_neumann` of an integer order).
`boost::math::chebyshev_t` is modelled by its recurrence.
-/

namespace MU

/-- `coef_a`, /repo/src/MathUtils/BoostFunctions.h:126-126. -/
noncomputable def struve_coef_a : List ℝ :=
  [1.909859164,
   -1.909855001,
   0.687514637,
   -0.126164557,
   0.013828813,
   -0.000876918]

/-- `coef_b`, /repo/src/MathUtils/BoostFunctions.h:133-133. -/
noncomputable def struve_coef_b : List ℝ :=
  [0.99999906,
   4.77228920,
   3.85542044,
   0.32303607]

/-- `coef_c`, /repo/src/MathUtils/BoostFunctions.h:134-134. -/
noncomputable def struve_coef_c : List ℝ :=
  [1.0,
   4.88331068,
   4.28957333,
   0.52120508]

/-- `coef_d`, /repo/src/MathUtils/BoostFunctions.h:157-157. -/
noncomputable def struve_coef_d : List ℝ :=
  [1.909859286,
   -1.145914713,
   0.294656958,
   -0.042070508,
   0.003785727,
   -0.000207183]

/-- `coef_e`, /repo/src/MathUtils/BoostFunctions.h:164-164. -/
noncomputable def struve_coef_e : List ℝ :=
  [1.00000004,
   3.92205313,
   2.64893033,
   0.27450895]

/-- `coef_f`, /repo/src/MathUtils/BoostFunctions.h:165-165. -/
noncomputable def struve_coef_f : List ℝ :=
  [1.0,
   3.81095112,
   2.26216956,
   0.10885141]

/-- `pj` of `Ei_approximation`, `x < 6`, /repo/src/MathUtils/BoostFunctions.h:246-255. -/
noncomputable def ei6_pj : List ℝ :=
  [-4.1658081333604994241879e11,
   1.2177698136199594677580e10,
   -2.5301823984599019348858e10,
   3.1984354235237738511048e8,
   -3.5377809694431133484800e8,
   -3.1398660864247265862050e5,
   -1.4299841572091610380064e6,
   -1.4287072500197005777376e4,
   -1.2831220659262000678155e3,
   -1.2963702602474830028590e1]

/-- `qj` of `Ei_approximation`, `x < 6`, /repo/src/MathUtils/BoostFunctions.h:256-265. -/
noncomputable def ei6_qj : List ℝ :=
  [-1.7934749837151009723371e11,
   9.8900934262481749439886e10,
   -2.8986272696554495342658e10,
   5.4229617984472955011862e9,
   -7.0108568774215954065376e8,
   6.4698830956576428587653e7,
   -4.2648434812177161405483e6,
   1.9418469440759880361415e5,
   -5.5648470543369082846819e3,
   7.688671875000000000000e1]

/-- `alphaj` of `Ei_approximation`, `6 <= x < 12`, /repo/src/MathUtils/BoostFunctions.h:283-292. -/
noncomputable def ei12_alphaj : List ℝ :=
  [9.981193787537396413219e-1,
   9.565134591978630774217e0,
   -3.988850730390541057912e0,
   1.120011024227297451523e1,
   -3.015761863840593359165e1,
   1.945603779539281810439e1,
   1.052976392459015155422e1,
   -2.421106956980653511550e1,
   -2.378372882815725244124e0,
   -2.645977793077147237806e0]

/-- `betaj` of `Ei_approximation`, `6 <= x < 12`, /repo/src/MathUtils/BoostFunctions.h:293-301. -/
noncomputable def ei12_betaj : List ℝ :=
  [1.249884822712447891440e0,
   -2.369210235636181001661e2,
   4.731097187816050252967e2,
   2.852397548119248700147e1,
   7.608194509086645763123e2,
   -8.791401054875438925029e0,
   3.697412299772985940785e2,
   4.644185932583286942650e0,
   1.598517957704779356479e-4]

/-- `alphaj` of `Ei_approximation`, `12 <= x < 24`, /repo/src/MathUtils/BoostFunctions.h:317-326. -/
noncomputable def ei24_alphaj : List ℝ :=
  [9.999933106160568739091e-1,
   -1.845086232391278674524e0,
   2.652575818452799819855e1,
   2.495487730402059440626e1,
   -3.323612579343962284333e1,
   -9.134835699998742552432e-1,
   -2.105740799548040450394e1,
   -1.000641913989284829961e1,
   -1.860092121726437582253e1,
   -1.647721172463463140042e0]

/-- `betaj` of `Ei_approximation`, `12 <= x < 24`, /repo/src/MathUtils/BoostFunctions.h:327-335. -/
noncomputable def ei24_betaj : List ℝ :=
  [1.001533852045342697818e0,
   -1.093556195391091243924e1,
   1.991004470817742470726e2,
   1.192832423968601006985e3,
   4.429413178337928401161e1,
   2.538819315630708031713e2,
   5.994932325667407355255e1,
   6.403800405352415551324e1,
   9.792403599217290296840e1]

/-- `alphaj` of `Ei_approximation`, `x >= 24`, /repo/src/MathUtils/BoostFunctions.h:351-360. -/
noncomputable def eiInf_alphaj : List ℝ :=
  [1.00000000000000485503e0,
   -3.00000000320981265753e0,
   -5.00006640413131002475e0,
   -7.06810977895029358836e0,
   -1.52856623636929636839e1,
   -7.63147701620253630855e0,
   -2.79798528624305389340e1,
   -1.81949664929868906455e1,
   -2.23127670777632409550e2,
   1.75338801265465972390e2]

/-- `betaj` of `Ei_approximation`, `x >= 24`, /repo/src/MathUtils/BoostFunctions.h:361-369. -/
noncomputable def eiInf_betaj : List ℝ :=
  [1.99999999999048104167e0,
   -2.99999894040324959612e0,
   -7.99243595776339741065e0,
   -1.20187763547154743238e1,
   7.04831847180424675988e1,
   1.17179220502086455287e2,
   1.37790390235747998793e2,
   3.97277109100414518365e0,
   3.97845977167414720840e4]

/-- `alphaj` of `expEi`, /repo/src/MathUtils/BoostFunctions.h:399-408. -/
noncomputable def expEi_alphaj : List ℝ :=
  [1.00000000000000485503e0,
   -3.00000000320981265753e0,
   -5.00006640413131002475e0,
   -7.06810977895029358836e0,
   -1.52856623636929636839e1,
   -7.63147701620253630855e0,
   -2.79798528624305389340e1,
   -1.81949664929868906455e1,
   -2.23127670777632409550e2,
   1.75338801265465972390e2]

/-- `betaj` of `expEi`, /repo/src/MathUtils/BoostFunctions.h:409-417. -/
noncomputable def expEi_betaj : List ℝ :=
  [1.99999999999048104167e0,
   -2.99999894040324959612e0,
   -7.99243595776339741065e0,
   -1.20187763547154743238e1,
   7.04831847180424675988e1,
   1.17179220502086455287e2,
   1.37790390235747998793e2,
   3.97277109100414518365e0,
   3.97845977167414720840e4]

/-- `pj` of `E1_approximation`, `x < 1`, /repo/src/MathUtils/BoostFunctions.h:458-464. -/
noncomputable def e1a_pj : List ℝ :=
  [-1.4815102102575750838086e5,
   1.5026059476436982420737e5,
   8.9904972007457256553251e4,
   1.5924175980637303639884e4,
   2.1500672908092918123209e3,
   1.1669552669734461083368e2,
   5.0196785185439843791020e0]

/-- `qj` of `E1_approximation`, `x < 1`, /repo/src/MathUtils/BoostFunctions.h:465-471. -/
noncomputable def e1a_qj : List ℝ :=
  [2.5666493484897117319268e5,
   1.8434070063353677359298e5,
   5.2440529172056355429883e4,
   8.1258035174768735759866e3,
   7.5043163907103936624165e2,
   4.0205465640027706061433e1,
   1.0000000000000000000000e0]

/-- `pj` of `E1_approximation`, `1 <= x < 4`, /repo/src/MathUtils/BoostFunctions.h:484-492. -/
noncomputable def e1b_pj : List ℝ :=
  [1.737331760720576030932e-8,
   9.999989642347613068437e-1,
   1.487967702840464066613e1,
   7.633628873405946890896e1,
   1.698106763764238382705e2,
   1.700632978311516129328e2,
   7.246689782858597021199e1,
   1.10732662778631743809e1,
   3.828573121022477169108e-1]

/-- `qj` of `E1_approximation`, `1 <= x < 4`, /repo/src/MathUtils/BoostFunctions.h:493-501. -/
noncomputable def e1b_qj : List ℝ :=
  [1.000000000000000000000e0,
   1.587964570758947927903e1,
   9.021658450529372642314e1,
   2.342573504717625153053e2,
   2.953136335677908517423e2,
   1.775728186717289799677e2,
   4.662179610356861756812e1,
   4.344836335509282083360e0,
   8.258160008564488034698e-2]

/-- `pj` of `E1_approximation`, `x >= 4`, /repo/src/MathUtils/BoostFunctions.h:519-528. -/
noncomputable def e1c_pj : List ℝ :=
  [-9.9999999999999999087819e-1,
   -5.2199632588522572481039e1,
   -1.0611777263550331766871e3,
   -1.0816852399095915622498e4,
   -5.9346841538837119172356e4,
   -1.7503273087497081314708e5,
   -2.6181454937205639647381e5,
   -1.7283375773777593926828e5,
   -3.5846198743996904308695e4,
   -1.3276881505637444622987e2]

/-- `qj` of `E1_approximation`, `x >= 4`, /repo/src/MathUtils/BoostFunctions.h:529-538. -/
noncomputable def e1c_qj : List ℝ :=
  [1.0000000000000000000000e0,
   5.4199632588522559414924e1,
   1.1635769915320848035459e3,
   1.2842808586627297365998e4,
   7.9231787645279043698718e4,
   2.7858134710520842139357e5,
   5.4616842050691155735758e5,
   5.5903756210022864003380e5,
   5.5989762083608489777411e5,
   3.9147856245556345627078e4]

/-- `boost::math::chebyshev_t` on `[-1, 1]`: the three-term recurrence. Called at /repo/src/MathUtils/BoostFunctions.h:205. -/
noncomputable def chebyshevT : Nat → ℝ → ℝ
  | 0, _ => 1
  | 1, x => x
  | n + 2, x => 2 * x * chebyshevT (n + 1) x - chebyshevT n x

/-- `Chebyshev_polynomial_shifted`, /repo/src/MathUtils/BoostFunctions.h:202-206. -/
noncomputable def chebyshevShifted (order : Nat) (x : ℝ) : ℝ := chebyshevT order (2 * x - 1)

/-- A floating-point intermediate result that may be infinite; the sign of an infinity is not kept.
Used for the continued fractions of /repo/src/MathUtils/BoostFunctions.h:306-309, 340-343, 374-377, 422-425. -/
inductive Ext where
  | fin (r : ℝ)
  | inf
  | nan

namespace Ext
open Classical in
/-- `a / d`: a non-zero number divided by zero is infinite, and a number divided by an infinity is zero.
Used for the continued fractions of /repo/src/MathUtils/BoostFunctions.h:306-309, 340-343, 374-377, 422-425. -/
noncomputable def div (a : ℝ) : Ext → Ext
  | fin d => if d = 0 then (if a = 0 then nan else inf) else fin (a / d)
  | inf => fin 0
  | nan => nan

/-- `a + f`. Used for the continued fractions of /repo/src/MathUtils/BoostFunctions.h:306-309, 340-343, 374-377, 422-425. -/
noncomputable def add (a : ℝ) : Ext → Ext
  | fin f => fin (a + f)
  | inf => inf
  | nan => nan

/-- A result that has to be a number. Used for the continued fractions of /repo/src/MathUtils/BoostFunctions.h:306-309, 340-343, 374-377, 422-425. -/
def get : Ext → Res ℝ
  | fin r => .ok r
  | _ => .nonfinite
end Ext

/-- `for (unsigned int j = n; j >= 1; --j) fraction = betaj.at(j - 1) / (alphaj.at(j) + x + fraction);`,
/repo/src/MathUtils/BoostFunctions.h:306-308, 340-342, 374-376, 422-424. -/
noncomputable def fractionLoop (alphaj betaj : List ℝ) (x : ℝ) : Nat → Ext → Res Ext
  | 0, f => .ok f
  | j + 1, f => do
    let b ← vAt betaj j
    let a ← vAt alphaj (j + 1)
    fractionLoop alphaj betaj x j (Ext.div b (Ext.add (a + x) f))

/-- The continued fraction: the assertion on the sizes, the loop and the first term, /repo/src/MathUtils/BoostFunctions.h:302-309, 336-343, 370-377,
418-425. -/
noncomputable def continuedFraction (B : Build) (alphaj betaj : List ℝ) (x : ℝ) : Res ℝ := do
  cassert B (alphaj.length = betaj.length + 1)
  let f ← fractionLoop alphaj betaj x 9 (.fin 0)
  let a0 ← vAt alphaj 0
  (Ext.add a0 f).get

/-- `0.5 * c.at(0) * T*_0(x / 6.)`, then `+= c.at(j) * T*_j(x / 6.)` for `j = 1..9`, /repo/src/MathUtils/BoostFunctions.h:274-279. -/
noncomputable def chebyshevSum (c : List ℝ) (x : ℝ) : Res ℝ := do
  let c0 ← vAt c 0
  forRange 1 10 (fun j s => do
    let cj ← vAt c j
    return s + cj * chebyshevShifted j (x / 6)) (0.5 * c0 * chebyshevShifted 0 (x / 6))

open Classical in
/-- `Ei_approximation`, /repo/src/MathUtils/BoostFunctions.h:227-384. -/
noncomputable def eiApproximation (B : Build) (x : ℝ) : Res ℝ := do
  if isClose x 0 1e-5 1e-8 = true ∨ x < 0 then .exits 0
  else if 0 < x ∧ x < 6 then do
    cassert B (ei6_pj.length = ei6_qj.length)
    let x0 := 0.372507410781366634461991866580
    let numerator ← chebyshevSum ei6_pj x
    let denominator ← chebyshevSum ei6_qj x
    let r ← rdiv numerator denominator
    return Real.log (x / x0) + (x - x0) * r
  else if 6 ≤ x ∧ x < 12 then do
    let fraction ← continuedFraction B ei12_alphaj ei12_betaj x
    return Real.exp x / x * fraction
  else if 12 ≤ x ∧ x < 24 then do
    let fraction ← continuedFraction B ei24_alphaj ei24_betaj x
    return Real.exp x / x * fraction
  else do
    let fraction ← continuedFraction B eiInf_alphaj eiInf_betaj x
    return Real.exp x / x * (1 + 1 / x * fraction)

open Classical in
/-- `expEi`, /repo/src/MathUtils/BoostFunctions.h:387-432; `Ei` (221-224) is `boost::math::expint`. -/
noncomputable def expEi (expint : ℝ → Res ℝ) (B : Build) (x : ℝ) : Res ℝ := do
  if x < 24 then do
    let e ← expint x
    return Real.exp (-x) * e
  else do
    let fraction ← continuedFraction B expEi_alphaj expEi_betaj x
    return 1 / x * (1 + 1 / x * fraction)

/-- `numerator += c.at(j) * xn; xn /= x;` for `j = 0..n`, /repo/src/MathUtils/BoostFunctions.h:504-511, 541-548; numerator and denominator are
accumulated in the same loop, here one after the other. -/
noncomputable def inverseSum (c : List ℝ) (x : ℝ) (n : Nat) : Res ℝ := do
  let s ← forRange 0 (n + 1) (fun j (s : ℝ × ℝ) => do
    let cj ← vAt c j
    return (s.1 + cj * s.2, s.2 / x)) (0, 1)
  return s.1

open Classical in
/-- `E1_approximation`, /repo/src/MathUtils/BoostFunctions.h:440-557. -/
noncomputable def e1Approximation (B : Build) (x : ℝ) : Res ℝ := do
  if isClose x 0 1e-5 1e-8 = true ∨ x < 0 then .exits 0
  else if 0 < x ∧ x < 1 then do
    cassert B (e1a_pj.length = e1a_qj.length)
    let numerator ← horner e1a_pj x
    let denominator ← horner e1a_qj x
    let r ← rdiv numerator denominator
    return -Real.log x + r
  else if 1 ≤ x ∧ x < 4 then do
    cassert B (e1b_pj.length = e1b_qj.length)
    let numerator ← inverseSum e1b_pj x 8
    let denominator ← inverseSum e1b_qj x 8
    let r ← rdiv numerator denominator
    return Real.exp (-x) * r
  else do
    cassert B (e1c_pj.length = e1c_qj.length)
    let numerator ← inverseSum e1c_pj x 9
    let denominator ← inverseSum e1c_qj x 9
    let r ← rdiv (1 / x * numerator) denominator
    return Real.exp (-x) / x * (1 + r)

/-- `Struve += coef.at(j - 1) * pow(arg, 2 * j - 1 + e)` for `j = 1..6`, /repo/src/MathUtils/BoostFunctions.h:127-129 (`e = 0`), 158-160 (`e = 1`). -/
noncomputable def struveSum (coef : List ℝ) (arg : ℝ) (e : Nat) : Res ℝ :=
  forRange 1 7 (fun j s => do
    let c ← vAt coef (j - 1)
    return s + c * arg ^ (2 * j - 1 + e)) 0

/-- `numerator += coef.at(j) * pow(arg, 2 * j)` for `j = 0..3`, /repo/src/MathUtils/BoostFunctions.h:137-140, 168-171. -/
noncomputable def struveFraction (coef : List ℝ) (arg : ℝ) : Res ℝ :=
  forRange 0 4 (fun j s => do
    let c ← vAt coef j
    return s + c * arg ^ (2 * j)) 0

/-- `MU_2_PI`, /repo/src/MathUtils/Constants.h:46-47. -/
noncomputable def MU_2_PI : ℝ := 1 / (M_PI * 0.5)

open Classical in
/-- `Struve_zero_order`, /repo/src/MathUtils/BoostFunctions.h:121-149. -/
noncomputable def struveZero (neumann : Nat → ℝ → ℝ) (x : ℝ) : Res ℝ := do
  if 0 ≤ x ∧ x ≤ 3 then struveSum struve_coef_a (x / 3) 0
  else if 3 < x then do
    let numerator ← struveFraction struve_coef_b (3 / x)
    let denominator ← struveFraction struve_coef_c (3 / x)
    let r ← rdiv (2 * numerator) (M_PI * x * denominator)
    return neumann 0 x + r
  else .exits 0

open Classical in
/-- `Struve_first_order`, /repo/src/MathUtils/BoostFunctions.h:152-180. -/
noncomputable def struveFirst (neumann : Nat → ℝ → ℝ) (x : ℝ) : Res ℝ := do
  if 0 ≤ x ∧ x ≤ 3 then struveSum struve_coef_d (x / 3) 1
  else if 3 < x then do
    let numerator ← struveFraction struve_coef_e (3 / x)
    let denominator ← struveFraction struve_coef_f (3 / x)
    let r ← rdiv (2 * numerator) (M_PI * denominator)
    return neumann 1 x + r
  else .exits 0

/-- `Struve_zero_order_derivative`, /repo/src/MathUtils/BoostFunctions.h:183-186. -/
noncomputable def struveZeroDerivative (neumann : Nat → ℝ → ℝ) (x : ℝ) : Res ℝ := do
  let s ← struveFirst neumann x
  return MU_2_PI - s

end MU
