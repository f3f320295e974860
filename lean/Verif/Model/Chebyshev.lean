import Verif.Model.Eigen
import Verif.Model.Segment
import Mathlib.Analysis.SpecialFunctions.Trigonometric.Basic
import Mathlib.Data.Nat.Factorial.Basic

/-!
# Model of ChebyshevSeries1d.h, ChebyshevSeries2d.h, ChebyshevSeries3d.h

`T = double` is the only instance that compiles (the partial sums are stored in `std::vector<double>`).

Simplifications: the orders are natural numbers (a negative order is outside the model); the user's function is a total function without side
effects; the functions of Boost, which are not in /repo, are modelled by their documented recurrences.
-/

namespace MU

variable {K : Type} [Field K] [DecidableEq K]

/-! ## Boost -/

/-- `Chebyshev_polynomial`, /repo/src/MathUtils/BoostFunctions.h:194-198: `boost::math::chebyshev_t`, the three-term recurrence. -/
def chebT : Nat → K → K
  | 0, _ => 1
  | 1, x => x
  | n + 2, x => 2 * x * chebT (n + 1) x - chebT n x

/-- `boost::math::chebyshev_u`, called by `chebyshev_t_prime`. Called through /repo/src/MathUtils/BoostFunctions.h:217. -/
def chebU : Nat → K → K
  | 0, _ => 1
  | 1, x => 2 * x
  | n + 2, x => 2 * x * chebU (n + 1) x - chebU n x

/-- `Chebyshev_polynomial_derivative`, /repo/src/MathUtils/BoostFunctions.h:214-218: `boost::math::chebyshev_t_prime`, which returns `0` for
`n = 0` and `n * chebyshev_u(n - 1, x)` otherwise. -/
def chebTPrime : Nat → K → K
  | 0, _ => 0
  | n + 1, x => ((n + 1 : Nat) : K) * chebU n x

/-- One step of the loop of `boost::math::chebyshev_clenshaw_recurrence`. Called through /repo/src/MathUtils/ChebyshevSeries1d.h:84. -/
def clenshawStep (x c : K) (b : K × K) : K × K := (2 * x * b.1 - b.2 + c, b.1)

/-- `boost::math::chebyshev_clenshaw_recurrence(c, length, x)`: `0` for `length = 0`, `c[0] / 2` for `length = 1`, otherwise the loop from the
last coefficient down to `c[1]`, then `x * b1 - b2 + c[0] / 2`.
Called at /repo/src/MathUtils/ChebyshevSeries1d.h:84, /repo/src/MathUtils/ChebyshevSeries2d.h:103, 106, 128, 152,
/repo/src/MathUtils/ChebyshevSeries3d.h:136, 139, 142. -/
def clenshaw (c : List K) (x : K) : K :=
  match c with
  | [] => 0
  | [c0] => c0 / 2
  | c0 :: rest =>
    let b := rest.foldr (clenshawStep x) (0, 0)
    x * b.1 - b.2 + c0 / 2

/-- `Factorial<int, double>`, /repo/src/MathUtils/BoostFunctions.h:108-112. -/
def fact (n : Nat) : K := (n.factorial : K)

/-! ## Common pieces -/

/-- `v.at(0) *= 2.`.
/repo/src/MathUtils/ChebyshevSeries1d.h:83, /repo/src/MathUtils/ChebyshevSeries2d.h:102, 105, 127, 151,
/repo/src/MathUtils/ChebyshevSeries3d.h:135, 138, 141. -/
def doubleHead : List K → Res (List K)
  | [] => .throws .outOfRange
  | a :: l => .ok (a * 2 :: l)

/-- `TransformationCoefficient(lj, kj)`, /repo/src/MathUtils/ChebyshevSeries1d.h:138-154, /repo/src/MathUtils/ChebyshevSeries2d.h:196-212,
/repo/src/MathUtils/ChebyshevSeries3d.h:268-284 (the same text). It is private and only called with `kj <= lj`, hence the natural subtraction. `pow(2., kj - 1.)` is
`2^kj / 2`. -/
def transformationCoefficient (lj kj : Nat) : K :=
  let ljkj_plus := lj + kj
  if lj = 0 ∧ kj = 0 then 1
  else if ljkj_plus % 2 = 1 then 0
  else
    let floor_plus := ljkj_plus / 2
    let floor_minus := (lj - kj) / 2
    (-1) ^ floor_minus * (2 ^ kj / 2) * (lj : K) * (fact (floor_plus - 1) / (fact floor_minus * fact kj))

/-- `cos(MU_PI_2 * (2. * r + 1.) / (order + 1.))`, /repo/src/MathUtils/ChebyshevSeries1d.h:52, /repo/src/MathUtils/ChebyshevSeries2d.h:53,64,
/repo/src/MathUtils/ChebyshevSeries3d.h:55,66,77. -/
noncomputable def chebNode (order r : Nat) : ℝ := Real.cos (Real.pi / 2 * (2 * (r : ℝ) + 1) / ((order : ℝ) + 1))

/-- The loop filling `x_tilde` and `x` (or `y`, `z`), /repo/src/MathUtils/ChebyshevSeries1d.h:46-55, /repo/src/MathUtils/ChebyshevSeries2d.h:47-67,
/repo/src/MathUtils/ChebyshevSeries3d.h:49-80. -/
noncomputable def abscissae (s : Seg ℝ) (order : Nat) : Res (List (ℝ × ℝ)) :=
  collect (order + 1) (fun r => do
    let tmp := chebNode order r
    let x ← s.toSegment tmp
    return (tmp, x))

/-- `c.at(k)(i, j)`. /repo/src/MathUtils/ChebyshevSeries3d.h:133, 163, 186, 209. -/
def cubeGet (B : Build) (c : List (Mat K)) (i j k : Nat) : Res K := do
  let m ← vAt c k
  m.at' B i j

/-- `c.at(k)(i, j) = a`. /repo/src/MathUtils/ChebyshevSeries3d.h:93-108, 255. -/
def cubeSet (B : Build) (c : List (Mat K)) (i j k : Nat) (a : K) : Res (List (Mat K)) := do
  let m ← vAt c k
  let m ← m.set B i j a
  return c.set k m

/-! ## ChebyshevSeries1d.h -/

/-- The fields of `ChebyshevSeries1dBase` and of its subclasses, /repo/src/MathUtils/ChebyshevSeries1d.h:169-179,215-216. -/
structure CS1 (K : Type) where
  m_function : K → K
  m_order_x : Nat
  m_x : Seg K
  m_ai : List K

namespace CS1

/-- The constructor of the base class, /repo/src/MathUtils/ChebyshevSeries1d.h:36-39. -/
def base (F : K → K) (x : Seg K) (order_x : Nat) : CS1 K := ⟨F, order_x, x, List.replicate (order_x + 1) 0⟩

/-- `ChebyshevSeries1dClosed`, /repo/src/MathUtils/ChebyshevSeries1d.h:192-194. -/
def closed (F : K → K) (xmin xmax : K) (order_x : Nat) : CS1 K := base F (.closed xmin xmax) order_x

/-- `ChebyshevSeries1dOpened`, /repo/src/MathUtils/ChebyshevSeries1d.h:229-231. -/
def opened (F : K → K) (xmin : K) (order_x : Nat) : CS1 K := base F (.opened xmin) order_x

/-- `Compute_ai`, /repo/src/MathUtils/ChebyshevSeries1d.h:44-69. -/
noncomputable def computeAi (B : Build) (s : CS1 ℝ) : Res (CS1 ℝ) := do
  let x ← abscissae s.m_x s.m_order_x
  let ai ← forRange 0 (s.m_order_x + 1) (fun i ai => do
    let ai ← forRange 0 (s.m_order_x + 1) (fun r ai => do
      let xr ← vAt x r
      let a ← eAt B ai i
      eSet B ai i (a + s.m_function xr.2 * chebT i xr.1)) ai
    let a ← eAt B ai i
    let ai ← eSet B ai i (a * (2 / ((s.m_order_x : ℝ) + 1)))
    if i = 0 then do
      let a ← eAt B ai i
      eSet B ai i (a / 2)
    else return ai) s.m_ai
  return { s with m_ai := ai }

/-- `Evaluate`, /repo/src/MathUtils/ChebyshevSeries1d.h:72-88. -/
def evaluate (B : Build) (s : CS1 K) (x : K) : Res K := do
  let xunit ← s.m_x.toUnit x
  let ai ← collect (s.m_order_x + 1) (fun i => eAt B s.m_ai i)
  let ai ← doubleHead ai
  return clenshaw ai xunit

/-- `Evaluate_derivative_x`, /repo/src/MathUtils/ChebyshevSeries1d.h:91-108. -/
def evaluateDerivativeX (B : Build) (s : CS1 K) (x : K) : Res K := do
  let xunit ← s.m_x.toUnit x
  let result ← forRange 0 (s.m_order_x + 1) (fun i result => do
    let Ti := chebTPrime i xunit
    let a ← eAt B s.m_ai i
    return result + Ti * a) 0
  let c ← s.m_x.coefficientDerivative x
  return result * c

/-- `Compute_bi`, /repo/src/MathUtils/ChebyshevSeries1d.h:111-133. -/
def computeBi (B : Build) (s : CS1 K) : Res (List K) :=
  if s.m_order_x > 18 then .exits 0
  else
    forRange 0 (s.m_order_x + 1) (fun i bi =>
      forRange i (s.m_order_x + 1) (fun r bi => do
        let lambda_ri := transformationCoefficient r i
        let a ← eAt B s.m_ai r
        let b ← eAt B bi i
        eSet B bi i (b + a * lambda_ri)) bi) (List.replicate (s.m_order_x + 1) 0)

end CS1

/-! ## ChebyshevSeries2d.h -/

/-- The fields of `ChebyshevSeries2dBase` and of its subclasses, /repo/src/MathUtils/ChebyshevSeries2d.h:233-252,302-308,406-407. -/
structure CS2 (K : Type) where
  m_function : K → K → K
  m_order_x : Nat
  m_order_y : Nat
  m_x : Seg K
  m_y : Seg K
  m_aij : Mat K

namespace CS2

/-- The constructor of the base class, /repo/src/MathUtils/ChebyshevSeries2d.h:36-40. -/
def base (F : K → K → K) (x y : Seg K) (order_x order_y : Nat) : CS2 K := ⟨F, order_x, order_y, x, y, Mat.zero (order_x + 1) (order_y + 1)⟩

/-- `ChebyshevSeries2dClosed`, /repo/src/MathUtils/ChebyshevSeries2d.h:265-268. -/
def closed (F : K → K → K) (xmin xmax ymin ymax : K) (order_x order_y : Nat) : CS2 K :=
  base F (.closed xmin xmax) (.closed ymin ymax) order_x order_y

/-- `ChebyshevSeries2dOpened`, /repo/src/MathUtils/ChebyshevSeries2d.h:321-324. -/
def opened (F : K → K → K) (xmin ymin : K) (order_x order_y : Nat) : CS2 K := base F (.opened xmin) (.opened ymin) order_x order_y

/-- `ChebyshevSeries2dMixed`, /repo/src/MathUtils/ChebyshevSeries2d.h:369-372. -/
def mixed (F : K → K → K) (xmin xmax ymin : K) (order_x order_y : Nat) : CS2 K :=
  base F (.closed xmin xmax) (.opened ymin) order_x order_y

/-- `Compute_aij`, /repo/src/MathUtils/ChebyshevSeries2d.h:45-87. -/
noncomputable def computeAij (B : Build) (s : CS2 ℝ) : Res (CS2 ℝ) := do
  let x ← abscissae s.m_x s.m_order_x
  let y ← abscissae s.m_y s.m_order_y
  let aij ← forRange 0 (s.m_order_x + 1) (fun i aij =>
    forRange 0 (s.m_order_y + 1) (fun j aij => do
      let aij ← forRange 0 (s.m_order_x + 1) (fun r aij => do
        let xr ← vAt x r
        let Ti := chebT i xr.1
        forRange 0 (s.m_order_y + 1) (fun t aij => do
          let yt ← vAt y t
          let a ← aij.at' B i j
          aij.set B i j (a + s.m_function xr.2 yt.2 * Ti * chebT j yt.1)) aij) aij
      let a ← aij.at' B i j
      let aij ← aij.set B i j (a * (4 / (((s.m_order_x : ℝ) + 1) * ((s.m_order_y : ℝ) + 1))))
      if i = 0 ∧ j = 0 then do
        let a ← aij.at' B i j
        aij.set B i j (a / 4)
      else if (i = 0 ∧ j ≠ 0) ∨ (i ≠ 0 ∧ j = 0) then do
        let a ← aij.at' B i j
        aij.set B i j (a / 2)
      else return aij) aij) s.m_aij
  return { s with m_aij := aij }

/-- `Evaluate`, /repo/src/MathUtils/ChebyshevSeries2d.h:90-110. -/
def evaluate (B : Build) (s : CS2 K) (x y : K) : Res K := do
  let xunit ← s.m_x.toUnit x
  let yunit ← s.m_y.toUnit y
  let ai ← collect (s.m_order_x + 1) (fun i => do
    let bj ← s.m_aij.row B i
    let bj ← doubleHead bj
    return clenshaw bj yunit)
  let ai ← doubleHead ai
  return clenshaw ai xunit

/-- `Evaluate_derivative_x`, /repo/src/MathUtils/ChebyshevSeries2d.h:113-134. -/
def evaluateDerivativeX (B : Build) (s : CS2 K) (x y : K) : Res K := do
  let xunit ← s.m_x.toUnit x
  let yunit ← s.m_y.toUnit y
  let result ← forRange 0 (s.m_order_x + 1) (fun i result => do
    let Ti := chebTPrime i xunit
    let bj ← s.m_aij.row B i
    let bj ← doubleHead bj
    return result + Ti * clenshaw bj yunit) 0
  let c ← s.m_x.coefficientDerivative x
  return result * c

/-- `Evaluate_derivative_y`, /repo/src/MathUtils/ChebyshevSeries2d.h:137-158. -/
def evaluateDerivativeY (B : Build) (s : CS2 K) (x y : K) : Res K := do
  let xunit ← s.m_x.toUnit x
  let yunit ← s.m_y.toUnit y
  let result ← forRange 0 (s.m_order_y + 1) (fun j result => do
    let Tj := chebTPrime j yunit
    let ai ← s.m_aij.col B j
    let ai ← doubleHead ai
    return result + Tj * clenshaw ai xunit) 0
  let c ← s.m_y.coefficientDerivative y
  return result * c

/-- `Compute_bij`, /repo/src/MathUtils/ChebyshevSeries2d.h:161-191. -/
def computeBij (B : Build) (s : CS2 K) : Res (Mat K) :=
  if s.m_order_x > 18 ∨ s.m_order_y > 18 then .exits 0
  else
    forRange 0 (s.m_order_x + 1) (fun i bij =>
      forRange 0 (s.m_order_y + 1) (fun j bij =>
        forRange i (s.m_order_x + 1) (fun r bij => do
          let lambda_ri := transformationCoefficient r i
          let tmp ← forRange j (s.m_order_y + 1) (fun t tmp => do
            let lambda_sj := transformationCoefficient t j
            let a ← s.m_aij.at' B r t
            return tmp + a * lambda_sj) 0
          let b ← bij.at' B i j
          bij.set B i j (b + tmp * lambda_ri)) bij) bij) (Mat.zero (s.m_order_x + 1) (s.m_order_y + 1))

end CS2

/-! ## ChebyshevSeries3d.h -/

/-- The fields of `ChebyshevSeries3dBase` and of its subclasses, /repo/src/MathUtils/ChebyshevSeries3d.h:316-339,407-416,482-484,551-556. -/
structure CS3 (K : Type) where
  m_function : K → K → K → K
  m_order_x : Nat
  m_order_y : Nat
  m_order_z : Nat
  m_x : Seg K
  m_y : Seg K
  m_z : Seg K
  m_aijk : List (Mat K)

namespace CS3

/-- The constructor of the base class, /repo/src/MathUtils/ChebyshevSeries3d.h:36-44. -/
def base (F : K → K → K → K) (x y z : Seg K) (order_x order_y order_z : Nat) : CS3 K :=
  ⟨F, order_x, order_y, order_z, x, y, z, List.replicate (order_z + 1) (Mat.zero (order_x + 1) (order_y + 1))⟩

/-- `ChebyshevSeries3dClosed`, /repo/src/MathUtils/ChebyshevSeries3d.h:352-357. -/
def closed (F : K → K → K → K) (xmin xmax ymin ymax zmin zmax : K) (order_x order_y order_z : Nat) : CS3 K :=
  base F (.closed xmin xmax) (.closed ymin ymax) (.closed zmin zmax) order_x order_y order_z

/-- `ChebyshevSeries3dYZOpenedXClosed`, /repo/src/MathUtils/ChebyshevSeries3d.h:429-432. -/
def yzOpenedXClosed (F : K → K → K → K) (xmin xmax ymin zmin : K) (order_x order_y order_z : Nat) : CS3 K :=
  base F (.closed xmin xmax) (.opened ymin) (.opened zmin) order_x order_y order_z

/-- `ChebyshevSeries3dZOpenedXYClosed`, /repo/src/MathUtils/ChebyshevSeries3d.h:497-501. -/
def zOpenedXYClosed (F : K → K → K → K) (xmin xmax ymin ymax zmin : K) (order_x order_y order_z : Nat) : CS3 K :=
  base F (.closed xmin xmax) (.closed ymin ymax) (.opened zmin) order_x order_y order_z

/-- `Compute_aijk`, /repo/src/MathUtils/ChebyshevSeries3d.h:47-113. -/
noncomputable def computeAijk (B : Build) (s : CS3 ℝ) : Res (CS3 ℝ) := do
  let x ← abscissae s.m_x s.m_order_x
  let y ← abscissae s.m_y s.m_order_y
  let z ← abscissae s.m_z s.m_order_z
  let aijk ← forRange 0 (s.m_order_x + 1) (fun i aijk =>
    forRange 0 (s.m_order_y + 1) (fun j aijk =>
      forRange 0 (s.m_order_z + 1) (fun k aijk => do
        let aijk ← forRange 0 (s.m_order_x + 1) (fun r aijk => do
          let xr ← vAt x r
          let Ti := chebT i xr.1
          forRange 0 (s.m_order_y + 1) (fun q aijk => do
            let yq ← vAt y q
            let Tj := chebT j yq.1
            forRange 0 (s.m_order_z + 1) (fun t aijk => do
              let zt ← vAt z t
              let a ← cubeGet B aijk i j k
              cubeSet B aijk i j k (a + s.m_function xr.2 yq.2 zt.2 * Ti * Tj * chebT k zt.1)) aijk) aijk) aijk
        let a ← cubeGet B aijk i j k
        let aijk ← cubeSet B aijk i j k
          (a * (8 / (((s.m_order_x : ℝ) + 1) * ((s.m_order_y : ℝ) + 1) * ((s.m_order_z : ℝ) + 1))))
        if i = 0 ∧ j = 0 ∧ k = 0 then do
          let a ← cubeGet B aijk i j k
          cubeSet B aijk i j k (a / 8)
        else if (i = 0 ∧ j ≠ 0 ∧ k = 0) ∨ (i ≠ 0 ∧ j = 0 ∧ k = 0) ∨ (i = 0 ∧ j = 0 ∧ k ≠ 0) then do
          let a ← cubeGet B aijk i j k
          cubeSet B aijk i j k (a / 4)
        else if (i = 0 ∧ j ≠ 0 ∧ k ≠ 0) ∨ (i ≠ 0 ∧ j = 0 ∧ k ≠ 0) ∨ (i ≠ 0 ∧ j ≠ 0 ∧ k = 0) then do
          let a ← cubeGet B aijk i j k
          cubeSet B aijk i j k (a / 2)
        else return aijk) aijk) aijk) s.m_aijk
  return { s with m_aijk := aijk }

/-- `Evaluate`, /repo/src/MathUtils/ChebyshevSeries3d.h:116-146. -/
def evaluate (B : Build) (s : CS3 K) (x y z : K) : Res K := do
  let xunit ← s.m_x.toUnit x
  let yunit ← s.m_y.toUnit y
  let zunit ← s.m_z.toUnit z
  let ai ← collect (s.m_order_x + 1) (fun i => do
    let bj ← collect (s.m_order_y + 1) (fun j => do
      let ck ← collect (s.m_order_z + 1) (fun k => cubeGet B s.m_aijk i j k)
      let ck ← doubleHead ck
      return clenshaw ck zunit)
    let bj ← doubleHead bj
    return clenshaw bj yunit)
  let ai ← doubleHead ai
  return clenshaw ai xunit

/-- The three nested loops of the derivatives, /repo/src/MathUtils/ChebyshevSeries3d.h:157-166,180-189,203-212: they differ in which factor is a
derivative. -/
def sumLoop (B : Build) (s : CS3 K) (tx ty tz : Nat → K) : Res K :=
  forRange 0 (s.m_order_x + 1) (fun i result =>
    forRange 0 (s.m_order_y + 1) (fun j result =>
      forRange 0 (s.m_order_z + 1) (fun k result => do
        let a ← cubeGet B s.m_aijk i j k
        return result + a * tx i * ty j * tz k) result) result) 0

/-- `Evaluate_derivative_x`, /repo/src/MathUtils/ChebyshevSeries3d.h:149-171. -/
def evaluateDerivativeX (B : Build) (s : CS3 K) (x y z : K) : Res K := do
  let xunit ← s.m_x.toUnit x
  let yunit ← s.m_y.toUnit y
  let zunit ← s.m_z.toUnit z
  let result ← sumLoop B s (fun i => chebTPrime i xunit) (fun j => chebT j yunit) (fun k => chebT k zunit)
  let c ← s.m_x.coefficientDerivative x
  return result * c

/-- `Evaluate_derivative_y`, /repo/src/MathUtils/ChebyshevSeries3d.h:174-194. -/
def evaluateDerivativeY (B : Build) (s : CS3 K) (x y z : K) : Res K := do
  let xunit ← s.m_x.toUnit x
  let yunit ← s.m_y.toUnit y
  let zunit ← s.m_z.toUnit z
  let result ← sumLoop B s (fun i => chebT i xunit) (fun j => chebTPrime j yunit) (fun k => chebT k zunit)
  let c ← s.m_y.coefficientDerivative y
  return result * c

/-- `Evaluate_derivative_z`, /repo/src/MathUtils/ChebyshevSeries3d.h:197-217. -/
def evaluateDerivativeZ (B : Build) (s : CS3 K) (x y z : K) : Res K := do
  let xunit ← s.m_x.toUnit x
  let yunit ← s.m_y.toUnit y
  let zunit ← s.m_z.toUnit z
  let result ← sumLoop B s (fun i => chebT i xunit) (fun j => chebT j yunit) (fun k => chebTPrime k zunit)
  let c ← s.m_z.coefficientDerivative z
  return result * c

/-- `Compute_bijk`, /repo/src/MathUtils/ChebyshevSeries3d.h:220-263. -/
def computeBijk (B : Build) (s : CS3 K) : Res (List (Mat K)) :=
  if s.m_order_x > 18 ∨ s.m_order_y > 18 ∨ s.m_order_z > 18 then .exits 0
  else
    forRange 0 (s.m_order_x + 1) (fun i bijk =>
      forRange 0 (s.m_order_y + 1) (fun j bijk =>
        forRange 0 (s.m_order_z + 1) (fun k bijk =>
          forRange i (s.m_order_x + 1) (fun r bijk => do
            let lambda_ri := transformationCoefficient r i
            let tmp_1 ← forRange j (s.m_order_y + 1) (fun q tmp_1 => do
              let lambda_sj := transformationCoefficient q j
              let tmp_2 ← forRange k (s.m_order_z + 1) (fun t tmp_2 => do
                let lambda_tk := transformationCoefficient t k
                let a ← cubeGet B s.m_aijk r q t
                return tmp_2 + a * lambda_tk) 0
              return tmp_1 + tmp_2 * lambda_sj) 0
            let b ← cubeGet B bijk i j k
            cubeSet B bijk i j k (b + tmp_1 * lambda_ri)) bijk) bijk) bijk)
      (List.replicate (s.m_order_z + 1) (Mat.zero (s.m_order_x + 1) (s.m_order_y + 1)))

end CS3

end MU
