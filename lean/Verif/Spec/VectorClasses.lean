import Verif.Model.VectorClasses
import Mathlib.Analysis.Complex.Exponential

/-!
# Plane vectors as complex numbers
-/

namespace MU.Spec

/-- The plane vector as a complex number: north (or local x) is the real part. -/
def toC (v : V2) : ℂ := ⟨v.x, v.y⟩

/-- The angle in radians; a degree is `M_PI / 180` of the library's constant. -/
noncomputable def radians (angle : ℝ) : AngleUnit → ℝ
  | .DEG => angle * M_PI / 180
  | .RAD => angle

/-- `m` is the largest absolute value of the list. -/
def IsMaxAbs {K : Type} [LinearOrder K] [AddGroup K] (v : List K) (m : K) : Prop := (∀ a ∈ v, |a| ≤ m) ∧ ∃ a ∈ v, |a| = m

/-- The memory after the object at `p` has become `v`, and nothing else has changed. -/
def Becomes (m m' : Mem) (p : Nat) (v : V2) : Prop := m' p = v ∧ ∀ q, q ≠ p → m' q = m q

end MU.Spec
