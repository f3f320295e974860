import Verif.Core
import Mathlib.Analysis.SpecialFunctions.Sqrt
import Mathlib.Algebra.Module.Pi
import Mathlib.Data.Fin.VecNotation

/-!
# Integration2dTriangle.h, Integration2d.h, QuadratureTables.h, Integrand.h

`double` is `ℝ`, `Vector3d<double>` is `Fin 3 → ℝ`, the result type `T` (scalar, vector or matrix) is a real vector space. The tables hold the
decimals written in the source (the compiler rounds them to the nearest double; the model does not); `1. / 3.` is the exact quotient. The
integrand, `Integrand<T>::Evaluate`, is a total function without side effects, /repo/src/MathUtils/Integrand.h:14-21.

In `ComputeOverStandardTriangle` the local variable `result` is multiplied by zero before being assigned: formally a read of an indeterminate value
when `T` is a scalar. The value is overwritten at `i = 0` and never used; the model does not include this statement.
-/

namespace MU

/-- The three vectors of one order, /repo/src/MathUtils/QuadratureTables.h:46-53. -/
structure QTable where
  alpha : List ℚ
  beta : List ℚ
  weight : List ℚ

/-- The fields of `QuadratureTables`, /repo/src/MathUtils/QuadratureTables.h:46-53. -/
structure QuadratureTables where
  m_weight : List (List ℚ)
  m_alpha : List (List ℚ)
  m_beta : List (List ℚ)

namespace QuadratureTables

/-- No table. /repo/src/MathUtils/QuadratureTables.h:15. -/
def empty : QuadratureTables := ⟨[], [], []⟩

/-- `Set_table`, /repo/src/MathUtils/QuadratureTables.h:20-24. -/
def setTable (t : QuadratureTables) (q : QTable) : QuadratureTables :=
  ⟨t.m_weight ++ [q.weight], t.m_alpha ++ [q.alpha], t.m_beta ++ [q.beta]⟩

/-- `v[order - 1]` with a signed index: a negative one is out of bounds. /repo/src/MathUtils/QuadratureTables.h:28, 33, 38. -/
def entry (v : List (List ℚ)) (order : Int) : Res (List ℚ) := if order - 1 < 0 then .ub else vIdx v (order - 1).toNat

/-- `alpha`, /repo/src/MathUtils/QuadratureTables.h:27-29. -/
def alpha (t : QuadratureTables) (order : Int) : Res (List ℚ) := entry t.m_alpha order

/-- `beta`, /repo/src/MathUtils/QuadratureTables.h:32-34. -/
def beta (t : QuadratureTables) (order : Int) : Res (List ℚ) := entry t.m_beta order

/-- `weight`, /repo/src/MathUtils/QuadratureTables.h:37-39. -/
def weight (t : QuadratureTables) (order : Int) : Res (List ℚ) := entry t.m_weight order

/-- `get_size_tables`, /repo/src/MathUtils/QuadratureTables.h:42-44. -/
def size (t : QuadratureTables) : Int := t.m_weight.length

end QuadratureTables

/-- The table of order 1, 1 Gauss point. /repo/src/MathUtils/Integration2dTriangle.h:26-31 -/
def table1 : QTable :=
  ⟨[1 / 3],
    [1 / 3],
    [1]⟩

/-- The table of order 2, 3 Gauss points. /repo/src/MathUtils/Integration2dTriangle.h:32-37 -/
def table2 : QTable :=
  ⟨[0.166666666666670, 0.166666666666670, 0.666666666666670],
    [0.166666666666670, 0.666666666666670, 0.166666666666670],
    [0.333333333333330, 0.333333333333330, 0.333333333333330]⟩

/-- The table of order 3, 4 Gauss points. /repo/src/MathUtils/Integration2dTriangle.h:38-43 -/
def table3 : QTable :=
  ⟨[0.333333333333330, 0.200000000000000, 0.200000000000000, 0.600000000000000],
    [0.333333333333330, 0.200000000000000, 0.600000000000000, 0.200000000000000],
    [-0.56250000000000, 0.520833333333330, 0.520833333333330, 0.520833333333330]⟩

/-- The table of order 4, 6 Gauss points. /repo/src/MathUtils/Integration2dTriangle.h:44-52 -/
def table4 : QTable :=
  ⟨[0.445948490915970, 0.445948490915970, 0.108103018168070, 0.091576213509770, 0.091576213509770, 0.816847572980460],
    [0.445948490915970, 0.108103018168070, 0.445948490915970, 0.091576213509770, 0.816847572980460, 0.091576213509770],
    [0.223381589678010, 0.223381589678010, 0.223381589678010, 0.109951743655320, 0.109951743655320, 0.109951743655320]⟩

/-- The table of order 5, 7 Gauss points. /repo/src/MathUtils/Integration2dTriangle.h:53-61 -/
def table5 : QTable :=
  ⟨[0.333333333333330, 0.470142064105110, 0.470142064105110, 0.059715871789770, 0.101286507323460, 0.101286507323460,
     0.797426985353090],
    [0.333333333333330, 0.470142064105110, 0.059715871789770, 0.470142064105110, 0.101286507323460, 0.797426985353090,
     0.101286507323460],
    [0.225000000000000, 0.132394152788510, 0.132394152788510, 0.132394152788510, 0.125939180544830, 0.125939180544830,
     0.125939180544830]⟩

/-- The table of order 6, 12 Gauss points. /repo/src/MathUtils/Integration2dTriangle.h:62-73 -/
def table6 : QTable :=
  ⟨[0.24928674517091, 0.24928674517091, 0.50142650965818, 0.06308901449150, 0.06308901449150, 0.87382197101700,
     0.31035245103378, 0.63650249912140, 0.05314504984482, 0.63650249912140, 0.31035245103378, 0.05314504984482],
    [0.24928674517091, 0.50142650965818, 0.24928674517091, 0.06308901449150, 0.87382197101700, 0.06308901449150,
     0.63650249912140, 0.05314504984482, 0.31035245103378, 0.31035245103378, 0.05314504984482, 0.63650249912140],
    [0.11678627572638, 0.11678627572638, 0.11678627572638, 0.05084490637021, 0.05084490637021, 0.05084490637021,
     0.08285107561837, 0.08285107561837, 0.08285107561837, 0.08285107561837, 0.08285107561837, 0.08285107561837]⟩

/-- The table of order 7, 13 Gauss points. /repo/src/MathUtils/Integration2dTriangle.h:74-88 -/
def table7 : QTable :=
  ⟨[0.33333333333333, 0.26034596607904, 0.26034596607904, 0.47930806784192, 0.06513010290222, 0.06513010290222,
     0.86973979419557, 0.31286549600487, 0.63844418856981, 0.04869031542532, 0.63844418856981, 0.31286549600487, 0.04869031542532],
    [0.33333333333333, 0.26034596607904, 0.47930806784192, 0.26034596607904, 0.06513010290222, 0.86973979419557,
     0.06513010290222, 0.63844418856981, 0.04869031542532, 0.31286549600487, 0.31286549600487, 0.04869031542532, 0.63844418856981],
    [-0.14957004446768, 0.17561525743321, 0.17561525743321, 0.17561525743321, 0.05334723560884, 0.05334723560884,
     0.05334723560884, 0.07711376089026, 0.07711376089026, 0.07711376089026, 0.07711376089026, 0.07711376089026, 0.07711376089026]⟩

/-- The table of order 8, 16 Gauss points. /repo/src/MathUtils/Integration2dTriangle.h:89-103 -/
def table8 : QTable :=
  ⟨[0.33333333333333, 0.45929258829272, 0.45929258829272, 0.08141482341455, 0.17056930775176, 0.17056930775176,
     0.65886138449648, 0.05054722831703, 0.05054722831703, 0.89890554336594, 0.26311282963464, 0.72849239295540,
     0.00839477740996, 0.72849239295540, 0.26311282963464, 0.00839477740996],
    [0.33333333333333, 0.45929258829272, 0.08141482341455, 0.45929258829272, 0.17056930775176, 0.65886138449648,
     0.17056930775176, 0.05054722831703, 0.89890554336594, 0.05054722831703, 0.72849239295540, 0.00839477740996,
     0.26311282963464, 0.26311282963464, 0.00839477740996, 0.72849239295540],
    [0.14431560767779, 0.09509163426728, 0.09509163426728, 0.09509163426728, 0.10321737053472, 0.10321737053472,
     0.10321737053472, 0.03245849762320, 0.03245849762320, 0.03245849762320, 0.02723031417443, 0.02723031417443,
     0.02723031417443, 0.02723031417443, 0.02723031417443, 0.02723031417443]⟩

/-- The tables set by the constructor, in order. /repo/src/MathUtils/Integration2dTriangle.h:24-103 -/
def triangleTables : QuadratureTables :=
  (((((((QuadratureTables.empty.setTable table1).setTable table2).setTable table3).setTable table4).setTable table5).setTable table6).setTable
    table7).setTable table8

/-- `Vector3d<double>`, a vector of Eigen. /repo/src/MathUtils/Vector3d.h:24-28 -/
abbrev V3 := Fin 3 → ℝ

/-- Eigen's `cross`. Called at /repo/src/MathUtils/Integration2dTriangle.h:124. -/
def V3.cross (a b : V3) : V3 := ![a 1 * b 2 - a 2 * b 1, a 2 * b 0 - a 0 * b 2, a 0 * b 1 - a 1 * b 0]

/-- Eigen's `norm`. Called at /repo/src/MathUtils/Integration2dTriangle.h:124. -/
noncomputable def V3.norm (a : V3) : ℝ := Real.sqrt (a 0 ^ 2 + a 1 ^ 2 + a 2 ^ 2)

/-- The fields of `Integration2d`, /repo/src/MathUtils/Integration2d.h:34-41. -/
structure Integration2dTriangle (T : Type) where
  m_integrand : V3 → T
  m_order : Int
  m_tables : QuadratureTables

namespace Integration2dTriangle

variable {T : Type}

/-- The constructor, /repo/src/MathUtils/Integration2dTriangle.h:21-115. -/
def new (F : V3 → T) (order : Int) : Res (Integration2dTriangle T) :=
  let m_tables := triangleTables
  if order > m_tables.size then .exits 0
  else if order < 1 then .exits 0
  else .ok ⟨F, order, m_tables⟩

variable [AddCommGroup T] [Module ℝ T]

/-- `ComputeOverStandardTriangle`, /repo/src/MathUtils/Integration2dTriangle.h:139-172. `none` is the value of `result` before the first
iteration. -/
noncomputable def computeOverStandardTriangle (s : Integration2dTriangle T) (vertex_1 vertex_2 vertex_3 : V3) : Res T := do
  let alpha ← s.m_tables.alpha s.m_order
  let beta ← s.m_tables.beta s.m_order
  let weight ← s.m_tables.weight s.m_order
  let result ← forRange 0 weight.length (fun i result => do
    let a ← vAt alpha i
    let b ← vAt beta i
    let x : V3 := (1 - (a : ℝ) - (b : ℝ)) • vertex_1 + (a : ℝ) • vertex_2 + (b : ℝ) • vertex_3
    let w ← vAt weight i
    if i = 0 then return some ((w : ℝ) • s.m_integrand x)
    else do
      let r ← readVar result
      return some (r + (w : ℝ) • s.m_integrand x)) none
  let result ← readVar result
  return (1 / 2 : ℝ) • result

/-- `Compute`, /repo/src/MathUtils/Integration2dTriangle.h:118-134. -/
noncomputable def compute (s : Integration2dTriangle T) (vertex_1 vertex_2 vertex_3 : V3) : Res T := do
  let e1 := vertex_1 - vertex_3
  let e2 := vertex_2 - vertex_3
  let area := 1 / 2 * V3.norm (V3.cross e1 e2)
  let integral ← computeOverStandardTriangle s vertex_1 vertex_2 vertex_3
  return (2 * area) • integral

end Integration2dTriangle

end MU
