import Mathlib.Algebra.Field.Defs

/-!
# The formulas of the technical notes for linear and bilinear interpolation

/repo/docs/technical_notes/Source/Theory.rst, sections Linear interpolation and Bilinear interpolation, as they are printed there. `f12` is the value
at `(x1, y2)`, `f21` the value at `(x2, y1)`.
-/

namespace MU.Spec

variable {K : Type} [Field K]

/-- `f(x) = a_1 + a_2 x`. -/
def docLinear (x1 x2 f1 f2 x : K) : K := (x2 * f1 - x1 * f2) / (x2 - x1) + (f2 - f1) / (x2 - x1) * x

/-- `a_1`, with `f(x_1, y_1)` twice. -/
def docA1 (x1 x2 y1 y2 f11 _f12 f21 f22 : K) : K := (x2 * y2 * f11 - x2 * y1 * f11 - x1 * y2 * f21 + x1 * y1 * f22) / ((x2 - x1) * (y2 - y1))

def docA2 (x1 x2 y1 y2 f11 f12 f21 f22 : K) : K := (-y2 * f11 + y1 * f12 + y2 * f21 - y1 * f22) / ((x2 - x1) * (y2 - y1))

def docA3 (x1 x2 y1 y2 f11 f12 f21 f22 : K) : K := (-x2 * f11 + x1 * f12 + x2 * f21 - x1 * f22) / ((x2 - x1) * (y2 - y1))

def docA4 (x1 x2 y1 y2 f11 f12 f21 f22 : K) : K := (f11 - f12 - f21 + f22) / ((x2 - x1) * (y2 - y1))

/-- `a_1` with `f(x_1, y_2)` in its second term. -/
def mendedA1 (x1 x2 y1 y2 f11 f12 f21 f22 : K) : K := (x2 * y2 * f11 - x2 * y1 * f12 - x1 * y2 * f21 + x1 * y1 * f22) / ((x2 - x1) * (y2 - y1))

/-- `a_3` with the values at `(x_1, y_2)` and `(x_2, y_1)` exchanged. -/
def mendedA3 (x1 x2 y1 y2 f11 f12 f21 f22 : K) : K := docA3 x1 x2 y1 y2 f11 f21 f12 f22

end MU.Spec
