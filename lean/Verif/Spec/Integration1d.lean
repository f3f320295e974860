import Verif.Model.Integration1d
import Mathlib.Algebra.BigOperators.Group.Finset.Basic
import Mathlib.Algebra.BigOperators.Group.Finset.Sigma

/-!
# Specification of the trapezoidal rule and of `Integrate1d`
-/

namespace MU.Spec
open Finset

variable {K : Type} [Field K]

/-- The sum of the areas of the panels `[x i, x (i+1)]`, `i < n`. -/
def panels (n : Nat) (x y : Nat → K) : K := ∑ i ∈ range n, (x (i + 1) - x i) * (y i + y (i + 1)) / 2

/-- What `Integrate1d` integrates: a function, or a vector of values. -/
inductive Source (K : Type) where
  | function (F : K → K)
  | vector (Y : List K)

/-- The object as constructed. -/
def Source.new (src : Source K) (xmin xmax : K) (n : Nat) : Integrate1d K :=
  match src with
  | .function F => .ofFunction F xmin xmax n
  | .vector Y => .ofVector Y xmin xmax n

/-- The number of values of a vector is the number of points; at least two points. -/
def Source.Consistent (src : Source K) (n : Nat) : Prop :=
  2 ≤ n ∧ n < 2 ^ 32 ∧ match src with
  | .function _ => True
  | .vector Y => Y.length = n

/-- The `i`-th of `n` equally spaced points of `[a, b]`. -/
def point (a b : K) (n i : Nat) : K := a + i * ((b - a) / ((n : K) - 1))

/-- The `i`-th sample. -/
def Source.value (src : Source K) (a b : K) (n i : Nat) : K :=
  match src with
  | .function F => F (point a b n i)
  | .vector Y => Y.getD i 0

/-- The settings of an object, seen from outside. -/
structure Settings (K : Type) where
  xmin : K
  xmax : K
  method : IntegrationMethod

/-- The effect of a call on the settings. -/
def Settings.next (t : Settings K) : Integrate1d.Op K → Settings K
  | .setMethod m => { t with method := m }
  | .setXmin x => { t with xmin := x }
  | .setXmax x => { t with xmax := x }
  | .get => t

/-- The settings after a sequence of calls. -/
def Settings.after (t : Settings K) (h : List (Integrate1d.Op K)) : Settings K := h.foldl Settings.next t

/-- What `Get` should do with these settings: the trapezoidal rule, or an exception for the method which is not implemented. -/
def Settings.expected (t : Settings K) (src : Source K) (n : Nat) : Res K :=
  match t.method with
  | .TRAPEZOIDAL => .ok (panels (n - 1) (point t.xmin t.xmax n) (src.value t.xmin t.xmax n))
  | .NEWTON_COTES => .throws .runtimeError

/-- In this sequence of calls, the method is never set after a `Get`. -/
def MethodBeforeGet : List (Integrate1d.Op K) → Prop
  | [] => True
  | .get :: rest => ∀ m, .setMethod m ∉ rest
  | _ :: rest => MethodBeforeGet rest

/-- The calls that set a bound. -/
def SetsBound : Integrate1d.Op K → Prop
  | .setXmin _ => True
  | .setXmax _ => True
  | _ => False

/-- Since the last call that sets a bound there was a `Get`, made while the method was the trapezoidal rule. -/
def Computed (t : Settings K) (h : List (Integrate1d.Op K)) : Prop :=
  ∃ h₁ h₂, h = h₁ ++ .get :: h₂ ∧ (∀ op ∈ h₂, ¬ SetsBound op) ∧ (t.after h₁).method = .TRAPEZOIDAL

end MU.Spec
