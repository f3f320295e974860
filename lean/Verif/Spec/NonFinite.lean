import Verif.Model.NonFinite
import Verif.Spec.RegularGrid

/-!
# Coordinates that are not finite

What a grid interpolator makes of infinite coordinates and of NaN.
-/

namespace MU.Spec

variable {K : Type}

/-- A floating-point number that is an infinity or NaN. -/
def NotFinite (x : Dbl K) : Prop := ∀ v, x ≠ .num v

/-- The point `x'` is `x` with minus infinity replaced by the first node of its axis, plus infinity by the last node and NaN by the last node. -/
inductive Replaced : (grids : List (List K)) → (x : List (Dbl K)) → (x' : List K) → Prop
  | nil : Replaced [] [] []
  | num {g gs c xs xs'} : Replaced gs xs xs' → Replaced (g :: gs) (.num c :: xs) (c :: xs')
  | ninf {g : List K} {gs a xs xs'} : g.head? = some a → Replaced gs xs xs' → Replaced (g :: gs) (.ninf :: xs) (a :: xs')
  | pinf {g : List K} {gs b xs xs'} : g.getLast? = some b → Replaced gs xs xs' → Replaced (g :: gs) (.pinf :: xs) (b :: xs')
  | nan {g : List K} {gs b xs xs'} : g.getLast? = some b → Replaced gs xs xs' → Replaced (g :: gs) (.nan :: xs) (b :: xs')

/-- Every coordinate of `x` is a number between the first and the last node of its axis, or NaN. -/
inductive InBoxOrNaN [LE K] : (grids : List (List K)) → (x : List (Dbl K)) → Prop
  | nil : InBoxOrNaN [] []
  | num {g : List K} {gs x xs a b} : g.head? = some a → g.getLast? = some b → a ≤ x → x ≤ b → InBoxOrNaN gs xs →
    InBoxOrNaN (g :: gs) (.num x :: xs)
  | nan {g gs xs} : InBoxOrNaN gs xs → InBoxOrNaN (g :: gs) (.nan :: xs)

end MU.Spec
