import Verif.Model.Chebyshev
import Verif.Spec.Series
import Mathlib.RingTheory.Polynomial.Chebyshev

/-!
# Specification of the Chebyshev series
-/

namespace MU.Spec
open Finset Polynomial

/-- The `r`-th Chebyshev node of `[-1, 1]` (zero of `T_{n+1}`), `0 <= r <= n`. -/
noncomputable def unitNode (n r : Nat) : ℝ := Real.cos ((2 * (r : ℝ) + 1) * Real.pi / (2 * ((n : ℝ) + 1)))

/-- The Chebyshev nodes of a domain. -/
noncomputable def Domain.node : Domain ℝ → Nat → Nat → ℝ
  | .segment a b, n, r => (a + b) / 2 + (b - a) / 2 * unitNode n r
  | .halfLine a, n, r => 2 * a / (1 - unitNode n r)

/-- The domain can be mapped to `[-1, 1]`. -/
def Domain.Proper : Domain ℝ → Prop
  | .segment a b => a ≠ b
  | .halfLine a => a ≠ 0

/-- The domain is a segment not reduced to a point, or a half line of positive numbers. -/
def Domain.Usual : Domain ℝ → Prop
  | .segment a b => a < b
  | .halfLine a => 0 < a

/-- The points of the domain. -/
def Domain.Mem (x : ℝ) : Domain ℝ → Prop
  | .segment a b => a ≤ x ∧ x ≤ b
  | .halfLine a => a ≤ x

/-- `a 0 T_0(u) + … + a n T_n(u)`. -/
noncomputable def cheb1 (n : Nat) (a : Nat → ℝ) (u : ℝ) : ℝ := ∑ i ∈ range (n + 1), a i * (Chebyshev.T ℝ i).eval u

/-- `∑ a i j T_i(u) T_j(v)`, `i <= n`, `j <= m`. -/
noncomputable def cheb2 (n m : Nat) (a : Nat → Nat → ℝ) (u v : ℝ) : ℝ :=
  ∑ i ∈ range (n + 1), ∑ j ∈ range (m + 1), a i j * (Chebyshev.T ℝ i).eval u * (Chebyshev.T ℝ j).eval v

/-- `∑ a i j k T_i(u) T_j(v) T_k(w)`, `i <= n`, `j <= m`, `k <= l`. -/
noncomputable def cheb3 (n m l : Nat) (a : Nat → Nat → Nat → ℝ) (u v w : ℝ) : ℝ :=
  ∑ i ∈ range (n + 1), ∑ j ∈ range (m + 1), ∑ k ∈ range (l + 1),
    a i j k * (Chebyshev.T ℝ i).eval u * (Chebyshev.T ℝ j).eval v * (Chebyshev.T ℝ k).eval w

/-- `s` has just been built by one of the constructors of ChebyshevSeries1d.h, for the function `F`, the order `n`, on the domain `X`. -/
inductive Fresh1 (F : ℝ → ℝ) (n : Nat) : CS1 ℝ → Domain ℝ → Prop
  | closed (xmin xmax : ℝ) : Fresh1 F n (CS1.closed F xmin xmax n) (.segment xmin xmax)
  | opened (xmin : ℝ) : Fresh1 F n (CS1.opened F xmin n) (.halfLine xmin)

/-- The states of such an object after any number of calls of `Compute_ai`. -/
inductive Reach1 (F : ℝ → ℝ) (n : Nat) (X : Domain ℝ) : CS1 ℝ → Prop
  | fresh {s : CS1 ℝ} : Fresh1 F n s X → Reach1 F n X s
  | compute {B : Build} {s s' : CS1 ℝ} : Reach1 F n X s → s.computeAi B = .ok s' → Reach1 F n X s'

/-- `s` has just been built by one of the constructors of ChebyshevSeries2d.h. -/
inductive Fresh2 (F : ℝ → ℝ → ℝ) (n m : Nat) : CS2 ℝ → Domain ℝ → Domain ℝ → Prop
  | closed (xmin xmax ymin ymax : ℝ) : Fresh2 F n m (CS2.closed F xmin xmax ymin ymax n m) (.segment xmin xmax) (.segment ymin ymax)
  | opened (xmin ymin : ℝ) : Fresh2 F n m (CS2.opened F xmin ymin n m) (.halfLine xmin) (.halfLine ymin)
  | mixed (xmin xmax ymin : ℝ) : Fresh2 F n m (CS2.mixed F xmin xmax ymin n m) (.segment xmin xmax) (.halfLine ymin)

/-- The states of such an object after any number of calls of `Compute_aij`. -/
inductive Reach2 (F : ℝ → ℝ → ℝ) (n m : Nat) (X Y : Domain ℝ) : CS2 ℝ → Prop
  | fresh {s : CS2 ℝ} : Fresh2 F n m s X Y → Reach2 F n m X Y s
  | compute {B : Build} {s s' : CS2 ℝ} : Reach2 F n m X Y s → s.computeAij B = .ok s' → Reach2 F n m X Y s'

/-- `s` has just been built by one of the constructors of ChebyshevSeries3d.h. -/
inductive Fresh3 (F : ℝ → ℝ → ℝ → ℝ) (n m l : Nat) : CS3 ℝ → Domain ℝ → Domain ℝ → Domain ℝ → Prop
  | closed (xmin xmax ymin ymax zmin zmax : ℝ) : Fresh3 F n m l (CS3.closed F xmin xmax ymin ymax zmin zmax n m l)
      (.segment xmin xmax) (.segment ymin ymax) (.segment zmin zmax)
  | yzOpened (xmin xmax ymin zmin : ℝ) : Fresh3 F n m l (CS3.yzOpenedXClosed F xmin xmax ymin zmin n m l)
      (.segment xmin xmax) (.halfLine ymin) (.halfLine zmin)
  | zOpened (xmin xmax ymin ymax zmin : ℝ) : Fresh3 F n m l (CS3.zOpenedXYClosed F xmin xmax ymin ymax zmin n m l)
      (.segment xmin xmax) (.segment ymin ymax) (.halfLine zmin)

/-- The states of such an object after any number of calls of `Compute_aijk`. -/
inductive Reach3 (F : ℝ → ℝ → ℝ → ℝ) (n m l : Nat) (X Y Z : Domain ℝ) : CS3 ℝ → Prop
  | fresh {s : CS3 ℝ} : Fresh3 F n m l s X Y Z → Reach3 F n m l X Y Z s
  | compute {B : Build} {s s' : CS3 ℝ} : Reach3 F n m l X Y Z s → s.computeAijk B = .ok s' → Reach3 F n m l X Y Z s'

end MU.Spec
