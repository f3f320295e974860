import Verif.Model.Eigen
import Verif.Model.Polynomial
import Verif.Model.Segment

/-!
# Model of PowerSeries1d.h, PowerSeries2d.h, PowerSeries3d.h

The coefficients and the arguments are `double`: `T = double` is the only instance that compiles, because the partial sums are stored in
`std::vector<double>` and evaluated with `Horner<double>`. The orders are `int`s: an empty coefficient vector has order `-1`.
-/

namespace MU

variable {K : Type} [Field K] [DecidableEq K]

/-- The number of iterations of `for (int i = 0; i <= order; ++i)`. E.g. /repo/src/MathUtils/PowerSeries1d.h:33, 58. -/
def upTo (order : Int) : Nat := (order + 1).toNat

/-! ## PowerSeries1d.h -/

/-- The fields of `PowerSeries1dBase` and of its subclasses, /repo/src/MathUtils/PowerSeries1d.h:85-94,122-125. -/
structure PS1 (K : Type) where
  m_order_x : Int
  m_x : Seg K
  m_bi : List K

namespace PS1

/-- The constructor of the base class, /repo/src/MathUtils/PowerSeries1d.h:23-25. -/
def base (bi : List K) (x : Seg K) : PS1 K := ⟨(bi.length : Int) - 1, x, bi⟩

/-- `PowerSeries1dClosed`, /repo/src/MathUtils/PowerSeries1d.h:107-108. -/
def closed (bi : List K) (xmin xmax : K) : PS1 K := base bi (.closed xmin xmax)

/-- `PowerSeries1dOpened`, /repo/src/MathUtils/PowerSeries1d.h:138. -/
def opened (bi : List K) (xmin : K) : PS1 K := base bi (.opened xmin)

/-- `Evaluate_unit`, /repo/src/MathUtils/PowerSeries1d.h:28-40. -/
def evaluateUnit (B : Build) (s : PS1 K) (xunit : K) : Res K := do
  let qi ← collect (upTo s.m_order_x) (fun i => eAt B s.m_bi i)
  horner qi xunit

/-- `Evaluate`, /repo/src/MathUtils/PowerSeries1d.h:43-50. -/
def evaluate (B : Build) (s : PS1 K) (x : K) : Res K := do
  let xunit ← s.m_x.toUnit x
  evaluateUnit B s xunit

/-- `Evaluate_derivative_x_unit`, /repo/src/MathUtils/PowerSeries1d.h:53-65. -/
def evaluateDerivativeXUnit (B : Build) (s : PS1 K) (x xunit : K) : Res K := do
  let qi ← collect (upTo s.m_order_x) (fun i => eAt B s.m_bi i)
  let c ← s.m_x.coefficientDerivative x
  let h ← hornerDerivative qi xunit
  return c * h

/-- `Evaluate_derivative_x`, /repo/src/MathUtils/PowerSeries1d.h:68-75. -/
def evaluateDerivativeX (B : Build) (s : PS1 K) (x : K) : Res K := do
  let xunit ← s.m_x.toUnit x
  evaluateDerivativeXUnit B s x xunit

end PS1

/-! ## PowerSeries2d.h -/

/-- The fields of `PowerSeries2dBase` and of its subclasses, /repo/src/MathUtils/PowerSeries2d.h:127-142,180-186,260-261. -/
structure PS2 (K : Type) where
  m_order_x : Int
  m_order_y : Int
  m_x : Seg K
  m_y : Seg K
  m_bij : Mat K

namespace PS2

/-- The constructor of the base class, /repo/src/MathUtils/PowerSeries2d.h:23-27. -/
def base (bij : Mat K) (x y : Seg K) : PS2 K := ⟨(bij.rows : Int) - 1, (bij.cols : Int) - 1, x, y, bij⟩

/-- `PowerSeries2dClosed`, /repo/src/MathUtils/PowerSeries2d.h:155-156. -/
def closed (bij : Mat K) (xmin xmax ymin ymax : K) : PS2 K := base bij (.closed xmin xmax) (.closed ymin ymax)

/-- `PowerSeries2dOpened`, /repo/src/MathUtils/PowerSeries2d.h:199-200. -/
def opened (bij : Mat K) (xmin ymin : K) : PS2 K := base bij (.opened xmin) (.opened ymin)

/-- `PowerSeries2dMixed`, /repo/src/MathUtils/PowerSeries2d.h:235-236. -/
def mixed (bij : Mat K) (xmin xmax ymin : K) : PS2 K := base bij (.closed xmin xmax) (.opened ymin)

/-- `Evaluate_unit`, /repo/src/MathUtils/PowerSeries2d.h:30-44. -/
def evaluateUnit (B : Build) (s : PS2 K) (xunit yunit : K) : Res K := do
  let qi ← collect (upTo s.m_order_x) (fun i => do
    let pj ← s.m_bij.row B i
    horner pj yunit)
  horner qi xunit

/-- `Evaluate`, /repo/src/MathUtils/PowerSeries2d.h:47-55. -/
def evaluate (B : Build) (s : PS2 K) (x y : K) : Res K := do
  let xunit ← s.m_x.toUnit x
  let yunit ← s.m_y.toUnit y
  evaluateUnit B s xunit yunit

/-- `Evaluate_derivative_x_unit`, /repo/src/MathUtils/PowerSeries2d.h:58-72. -/
def evaluateDerivativeXUnit (B : Build) (s : PS2 K) (x xunit yunit : K) : Res K := do
  let qi ← collect (upTo s.m_order_x) (fun i => do
    let pj ← s.m_bij.row B i
    horner pj yunit)
  let c ← s.m_x.coefficientDerivative x
  let h ← hornerDerivative qi xunit
  return c * h

/-- `Evaluate_derivative_x`, /repo/src/MathUtils/PowerSeries2d.h:75-83. -/
def evaluateDerivativeX (B : Build) (s : PS2 K) (x y : K) : Res K := do
  let xunit ← s.m_x.toUnit x
  let yunit ← s.m_y.toUnit y
  evaluateDerivativeXUnit B s x xunit yunit

/-- `Evaluate_derivative_y_unit`, /repo/src/MathUtils/PowerSeries2d.h:86-100. -/
def evaluateDerivativeYUnit (B : Build) (s : PS2 K) (y xunit yunit : K) : Res K := do
  let qi ← collect (upTo s.m_order_x) (fun i => do
    let pj ← s.m_bij.row B i
    hornerDerivative pj yunit)
  let c ← s.m_y.coefficientDerivative y
  let h ← horner qi xunit
  return c * h

/-- `Evaluate_derivative_y`, /repo/src/MathUtils/PowerSeries2d.h:103-111. -/
def evaluateDerivativeY (B : Build) (s : PS2 K) (x y : K) : Res K := do
  let xunit ← s.m_x.toUnit x
  let yunit ← s.m_y.toUnit y
  evaluateDerivativeYUnit B s y xunit yunit

end PS2

/-! ## PowerSeries3d.h -/

/-- The fields of `PowerSeries3dBase` and of its subclasses, /repo/src/MathUtils/PowerSeries3d.h:474-498,564-573,629-632,693-699. -/
structure PS3 (K : Type) where
  m_order_x : Int
  m_order_y : Int
  m_order_z : Int
  m_x : Seg K
  m_y : Seg K
  m_z : Seg K
  m_bijk : List (Mat K)
  m_type : String

namespace PS3

/-- The constructor of the base class, /repo/src/MathUtils/PowerSeries3d.h:23-29: `bijk.at(0)` throws on an empty vector. -/
def base (bijk : List (Mat K)) (x y z : Seg K) (type : String) : Res (PS3 K) := do
  let b0 ← vAt bijk 0
  return ⟨(b0.rows : Int) - 1, (b0.cols : Int) - 1, (bijk.length : Int) - 1, x, y, z, bijk, type⟩

/-- `PowerSeries3dClosed`, /repo/src/MathUtils/PowerSeries3d.h:511-515. -/
def closed (bijk : List (Mat K)) (xmin xmax ymin ymax zmin zmax : K) : Res (PS3 K) :=
  base bijk (.closed xmin xmax) (.closed ymin ymax) (.closed zmin zmax) "PowerSeries3dClosed"

/-- `PowerSeries3dYZOpenedXClosed`, /repo/src/MathUtils/PowerSeries3d.h:586-590. -/
def yzOpenedXClosed (bijk : List (Mat K)) (xmin xmax ymin zmin : K) : Res (PS3 K) :=
  base bijk (.closed xmin xmax) (.opened ymin) (.opened zmin) "PowerSeries3dYZOpenedXClosed"

/-- `PowerSeries3dZOpenedXYClosed`, /repo/src/MathUtils/PowerSeries3d.h:645-649. -/
def zOpenedXYClosed (bijk : List (Mat K)) (xmin xmax ymin ymax zmin : K) : Res (PS3 K) :=
  base bijk (.closed xmin xmax) (.closed ymin ymax) (.opened zmin) "PowerSeries3dZOpenedXYClosed"

/-- `Evaluate_unit`, /repo/src/MathUtils/PowerSeries3d.h:74-93. -/
def evaluateUnit (B : Build) (s : PS3 K) (xunit yunit zunit : K) : Res K := do
  let rk ← collect (upTo s.m_order_z) (fun k => do
    let qi ← collect (upTo s.m_order_x) (fun i => do
      let b ← vAt s.m_bijk k
      let pj ← b.row B i
      horner pj yunit)
    horner qi xunit)
  horner rk zunit

/-- `Evaluate_derivative_x_unit`, /repo/src/MathUtils/PowerSeries3d.h:96-115. -/
def evaluateDerivativeXUnit (B : Build) (s : PS3 K) (x xunit yunit zunit : K) : Res K := do
  let rk ← collect (upTo s.m_order_z) (fun k => do
    let qi ← collect (upTo s.m_order_x) (fun i => do
      let b ← vAt s.m_bijk k
      let pj ← b.row B i
      horner pj yunit)
    hornerDerivative qi xunit)
  let c ← s.m_x.coefficientDerivative x
  let h ← horner rk zunit
  return c * h

/-- `Evaluate_derivative_y_unit`, /repo/src/MathUtils/PowerSeries3d.h:118-137. -/
def evaluateDerivativeYUnit (B : Build) (s : PS3 K) (y xunit yunit zunit : K) : Res K := do
  let rk ← collect (upTo s.m_order_z) (fun k => do
    let qi ← collect (upTo s.m_order_x) (fun i => do
      let b ← vAt s.m_bijk k
      let pj ← b.row B i
      hornerDerivative pj yunit)
    horner qi xunit)
  let c ← s.m_y.coefficientDerivative y
  let h ← horner rk zunit
  return c * h

/-- `Evaluate_derivative_z_unit`, /repo/src/MathUtils/PowerSeries3d.h:140-159. -/
def evaluateDerivativeZUnit (B : Build) (s : PS3 K) (z xunit yunit zunit : K) : Res K := do
  let rk ← collect (upTo s.m_order_z) (fun k => do
    let qi ← collect (upTo s.m_order_x) (fun i => do
      let b ← vAt s.m_bijk k
      let pj ← b.row B i
      horner pj yunit)
    horner qi xunit)
  let c ← s.m_z.coefficientDerivative z
  let h ← hornerDerivative rk zunit
  return c * h

/-- `Evaluate_f_dfdx_dfdy_unit`, /repo/src/MathUtils/PowerSeries3d.h:162-193. The three vectors of the loop over `k` (and the two of the loop over
`i`) are built together, element by element: they are the components of one vector of triples (pairs). -/
def evaluateFDfdxDfdyUnit (B : Build) (s : PS3 K) (x y xunit yunit zunit : K) : Res (K × K × K) := do
  let rk ← collect (upTo s.m_order_z) (fun k => do
    let qi ← collect (upTo s.m_order_x) (fun i => do
      let b ← vAt s.m_bijk k
      let pj ← b.row B i
      let q ← horner pj yunit
      let qd ← hornerDerivative pj yunit
      return (q, qd))
    let r ← horner (qi.map (·.1)) xunit
    let rd ← hornerDerivative (qi.map (·.1)) xunit
    let rd2 ← horner (qi.map (·.2)) xunit
    return (r, rd, rd2))
  let f ← horner (rk.map (·.1)) zunit
  let cx ← s.m_x.coefficientDerivative x
  let hx ← horner (rk.map (·.2.1)) zunit
  let cy ← s.m_y.coefficientDerivative y
  let hy ← horner (rk.map (·.2.2)) zunit
  return (f, cx * hx, cy * hy)

/-- `Compute_cij_unit`, /repo/src/MathUtils/PowerSeries3d.h:196-214. -/
def computeCijUnit (B : Build) (s : PS3 K) (zunit : K) : Res (Mat K) :=
  forRange 0 (upTo s.m_order_x) (fun i cij =>
    forRange 0 (upTo s.m_order_y) (fun j cij => do
      let rk ← collect (upTo s.m_order_z) (fun k => do
        let b ← vAt s.m_bijk k
        b.at' B i j)
      let h ← horner rk zunit
      cij.set B i j h) cij) (Mat.zero (upTo s.m_order_x) (upTo s.m_order_y))

/-- `Evaluate_unit_zunit_predefined`, /repo/src/MathUtils/PowerSeries3d.h:217-231. -/
def evaluateUnitZunitPredefined (B : Build) (s : PS3 K) (xunit yunit : K) (cij : Mat K) : Res K := do
  let qi ← collect (upTo s.m_order_x) (fun i => do
    let pj ← cij.row B i
    horner pj yunit)
  horner qi xunit

/-- `Evaluate_derivative_x_unit_zunit_predefined`, /repo/src/MathUtils/PowerSeries3d.h:234-249. -/
def evaluateDerivativeXUnitZunitPredefined (B : Build) (s : PS3 K) (x xunit yunit : K) (cij : Mat K) : Res K := do
  let qi ← collect (upTo s.m_order_x) (fun i => do
    let pj ← cij.row B i
    horner pj yunit)
  let c ← s.m_x.coefficientDerivative x
  let h ← hornerDerivative qi xunit
  return c * h

/-- `Evaluate_derivative_y_unit_zunit_predefined`, /repo/src/MathUtils/PowerSeries3d.h:252-267. -/
def evaluateDerivativeYUnitZunitPredefined (B : Build) (s : PS3 K) (y xunit yunit : K) (cij : Mat K) : Res K := do
  let qi ← collect (upTo s.m_order_x) (fun i => do
    let pj ← cij.row B i
    hornerDerivative pj yunit)
  let c ← s.m_y.coefficientDerivative y
  let h ← horner qi xunit
  return c * h

/-- `Evaluate_f_dfdx_dfdy_unit_zunit_predefined`, /repo/src/MathUtils/PowerSeries3d.h:270-292. The two vectors are one vector of pairs. -/
def evaluateFDfdxDfdyUnitZunitPredefined (B : Build) (s : PS3 K) (x y xunit yunit : K) (cij : Mat K) : Res (K × K × K) := do
  let qi ← collect (upTo s.m_order_x) (fun i => do
    let pj ← cij.row B i
    let q ← horner pj yunit
    let qd ← hornerDerivative pj yunit
    return (q, qd))
  let f ← horner (qi.map (·.1)) xunit
  let cx ← s.m_x.coefficientDerivative x
  let hx ← hornerDerivative (qi.map (·.1)) xunit
  let cy ← s.m_y.coefficientDerivative y
  let hy ← horner (qi.map (·.2)) xunit
  return (f, cx * hx, cy * hy)

/-- `Evaluate`, /repo/src/MathUtils/PowerSeries3d.h:297-306. -/
def evaluate (B : Build) (s : PS3 K) (x y z : K) : Res K := do
  let xunit ← s.m_x.toUnit x
  let yunit ← s.m_y.toUnit y
  let zunit ← s.m_z.toUnit z
  evaluateUnit B s xunit yunit zunit

/-- `Evaluate_zinf`, /repo/src/MathUtils/PowerSeries3d.h:309-318. -/
def evaluateZinf (B : Build) (s : PS3 K) (x y : K) : Res K := do
  let xunit ← s.m_x.toUnit x
  let yunit ← s.m_y.toUnit y
  evaluateUnit B s xunit yunit 1

/-- `Evaluate_derivative_x`, /repo/src/MathUtils/PowerSeries3d.h:321-330. -/
def evaluateDerivativeX (B : Build) (s : PS3 K) (x y z : K) : Res K := do
  let xunit ← s.m_x.toUnit x
  let yunit ← s.m_y.toUnit y
  let zunit ← s.m_z.toUnit z
  evaluateDerivativeXUnit B s x xunit yunit zunit

/-- `Evaluate_derivative_x_zinf`, /repo/src/MathUtils/PowerSeries3d.h:333-342. -/
def evaluateDerivativeXZinf (B : Build) (s : PS3 K) (x y : K) : Res K := do
  let xunit ← s.m_x.toUnit x
  let yunit ← s.m_y.toUnit y
  evaluateDerivativeXUnit B s x xunit yunit 1

/-- `Evaluate_derivative_y`, /repo/src/MathUtils/PowerSeries3d.h:345-354. -/
def evaluateDerivativeY (B : Build) (s : PS3 K) (x y z : K) : Res K := do
  let xunit ← s.m_x.toUnit x
  let yunit ← s.m_y.toUnit y
  let zunit ← s.m_z.toUnit z
  evaluateDerivativeYUnit B s y xunit yunit zunit

/-- `Evaluate_derivative_y_zinf`, /repo/src/MathUtils/PowerSeries3d.h:357-366. -/
def evaluateDerivativeYZinf (B : Build) (s : PS3 K) (x y : K) : Res K := do
  let xunit ← s.m_x.toUnit x
  let yunit ← s.m_y.toUnit y
  evaluateDerivativeYUnit B s y xunit yunit 1

/-- `Evaluate_derivative_z`, /repo/src/MathUtils/PowerSeries3d.h:369-378. -/
def evaluateDerivativeZ (B : Build) (s : PS3 K) (x y z : K) : Res K := do
  let xunit ← s.m_x.toUnit x
  let yunit ← s.m_y.toUnit y
  let zunit ← s.m_z.toUnit z
  evaluateDerivativeZUnit B s z xunit yunit zunit

/-- `Evaluate_f_dfdx_dfdy`, /repo/src/MathUtils/PowerSeries3d.h:381-390 (its third argument is not used by the callee). -/
def evaluateFDfdxDfdy (B : Build) (s : PS3 K) (x y z : K) : Res (K × K × K) := do
  let xunit ← s.m_x.toUnit x
  let yunit ← s.m_y.toUnit y
  let zunit ← s.m_z.toUnit z
  evaluateFDfdxDfdyUnit B s x y xunit yunit zunit

/-- `Compute_cij`, /repo/src/MathUtils/PowerSeries3d.h:393-399. -/
def computeCij (B : Build) (s : PS3 K) (z : K) : Res (Mat K) := do
  let zunit ← s.m_z.toUnit z
  computeCijUnit B s zunit

/-- `Compute_cij_zinf`, /repo/src/MathUtils/PowerSeries3d.h:402-408. -/
def computeCijZinf (B : Build) (s : PS3 K) : Res (Mat K) := computeCijUnit B s 1

/-- `Evaluate_z_predefined`, /repo/src/MathUtils/PowerSeries3d.h:411-419. -/
def evaluateZPredefined (B : Build) (s : PS3 K) (x y : K) (cij : Mat K) : Res K := do
  let xunit ← s.m_x.toUnit x
  let yunit ← s.m_y.toUnit y
  evaluateUnitZunitPredefined B s xunit yunit cij

/-- `Evaluate_derivative_x_z_predefined`, /repo/src/MathUtils/PowerSeries3d.h:422-430. -/
def evaluateDerivativeXZPredefined (B : Build) (s : PS3 K) (x y : K) (cij : Mat K) : Res K := do
  let xunit ← s.m_x.toUnit x
  let yunit ← s.m_y.toUnit y
  evaluateDerivativeXUnitZunitPredefined B s x xunit yunit cij

/-- `Evaluate_derivative_y_z_predefined`, /repo/src/MathUtils/PowerSeries3d.h:433-441. Line 439 passes `x` where the callee expects `y`. -/
def evaluateDerivativeYZPredefined (B : Build) (s : PS3 K) (x y : K) (cij : Mat K) : Res K := do
  let xunit ← s.m_x.toUnit x
  let yunit ← s.m_y.toUnit y
  evaluateDerivativeYUnitZunitPredefined B s x xunit yunit cij

/-- `Evaluate_f_dfdx_dfdy_z_predefined`, /repo/src/MathUtils/PowerSeries3d.h:444-452. -/
def evaluateFDfdxDfdyZPredefined (B : Build) (s : PS3 K) (x y : K) (cij : Mat K) : Res (K × K × K) := do
  let xunit ← s.m_x.toUnit x
  let yunit ← s.m_y.toUnit y
  evaluateFDfdxDfdyUnitZunitPredefined B s x y xunit yunit cij

end PS3

end MU
