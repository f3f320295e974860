import Verif.Model.NonFinite
import Verif.Spec.Ieee
import Mathlib.Data.EReal.Basic

/-!
# The doubles that are not NaN, in the extended real line
-/

namespace MU.Spec

/-- The extended real number of a double that is not NaN (and zero for NaN, where it is not used). -/
noncomputable def ext : Dbl ℝ → EReal
  | .num x => (x : EReal)
  | .pinf => ⊤
  | .ninf => ⊥
  | .nan => 0

/-- `r` is a finite double nearest to `x`. -/
def NearestDouble (x r : ℝ) : Prop := Double64 r ∧ ∀ z, Double64 z → |x - r| ≤ |x - z|

/-- `d` is the extended real number `e` rounded to nearest: an infinity stays, a real number becomes a nearest finite double or, when it is too large in magnitude, the infinity of
its sign. -/
def RoundedTo (e : EReal) (d : Dbl ℝ) : Prop :=
  (e = ⊤ → d = .pinf) ∧ (e = ⊥ → d = .ninf) ∧
    ∀ x : ℝ, e = x → (|x| < overflow64 → ∃ r, d = .num r ∧ NearestDouble x r) ∧ (overflow64 ≤ x → d = .pinf) ∧ (x ≤ -overflow64 → d = .ninf)

/-- Opposite infinities, or a NaN: no sum. -/
def NoSum (a b : Dbl ℝ) : Prop := a = .nan ∨ b = .nan ∨ (a = .pinf ∧ b = .ninf) ∨ (a = .ninf ∧ b = .pinf)

/-- Zero and an infinity, or a NaN: no product. -/
def NoProduct (a b : Dbl ℝ) : Prop := a = .nan ∨ b = .nan ∨ (a = .num 0 ∧ (b = .pinf ∨ b = .ninf)) ∨ ((a = .pinf ∨ a = .ninf) ∧ b = .num 0)

/-- Two infinities, or a NaN: no quotient. -/
def NoQuotient (a b : Dbl ℝ) : Prop := a = .nan ∨ b = .nan ∨ ((a = .pinf ∨ a = .ninf) ∧ (b = .pinf ∨ b = .ninf))

/-- A double: a finite one, an infinity or NaN. -/
def IsDbl (d : Dbl ℝ) : Prop := ∀ x, d = .num x → Double64 x

end MU.Spec
