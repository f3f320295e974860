import Verif.Core

/-!
# Specification: what an element of a vector or of a matrix holds after a history of writes

Independent of the model. A history lists the operations, the latest one first.
-/

namespace MU.Spec

/-- The classes of vectors and matrices, with the sizes given to the constructors. -/
inductive Container
  | vector2 | vector3 | vector6
  | vectorN (n : Nat)
  | matrix33 | matrix66
  | matrixMN (m n : Nat)

/-- Operations that give values to elements. `put i j a` is `at(i, j) = a`, or `at(i) = a` for a vector, where `j = 0`. -/
inductive Touch (K : Type)
  | null | ones | identity
  | all (xs : List K)
  | put (i j : Nat) (a : K)
  | transpose
  | reverse

variable {K : Type} [Zero K] [One K]

/-- Number of rows and of columns at construction. -/
def Container.size : Container → Nat × Nat
  | .vector2 => (2, 1)
  | .vector3 => (3, 1)
  | .vector6 => (6, 1)
  | .vectorN n => (n, 1)
  | .matrix33 => (3, 3)
  | .matrix66 => (6, 6)
  | .matrixMN m n => (m, n)

/-- The classes whose objects are null when they are made. -/
def Container.startsNull : Container → Bool
  | .vector2 | .vector3 | .vector6 => true
  | _ => false

/-- The class has the operation, with that number of arguments. -/
def Container.Has : Container → Touch K → Prop
  | _, .null => True
  | .vectorN _, .ones => True
  | .matrix33, .identity => True
  | .matrix66, .identity => True
  | .matrixMN _ _, .identity => True
  | .vector2, .all xs => xs.length = 2
  | .vector3, .all xs => xs.length = 3
  | .vector6, .all xs => xs.length = 6
  | .matrix33, .put _ _ _ => True
  | .matrix66, .put _ _ _ => True
  | .matrixMN _ _, .put _ _ _ => True
  | _, .put _ j _ => j = 0
  | .matrix33, .transpose => True
  | .matrix66, .transpose => True
  | .matrixMN _ _, .transpose => True
  | .vectorN _, .reverse => True
  | _, _ => False

/-- The size after a history. -/
def sizeAfter (c : Container) : List (Touch K) → Nat × Nat
  | [] => c.size
  | .transpose :: h => ((sizeAfter c h).2, (sizeAfter c h).1)
  | _ :: h => sizeAfter c h

/-- What the element `(i, j)` holds after a history; `none`: no value was ever given to it. -/
def heldAfter (c : Container) : List (Touch K) → Nat → Nat → Option K
  | [], _, _ => if c.startsNull then some 0 else none
  | .null :: _, _, _ => some 0
  | .ones :: _, _, _ => some 1
  | .identity :: _, i, j => some (if i = j then 1 else 0)
  | .all xs :: _, i, _ => xs[i]?
  | .put i' j' a :: h, i, j => if i = i' ∧ j = j' then some a else heldAfter c h i j
  | .transpose :: h, i, j => heldAfter c h j i
  | .reverse :: h, i, j => heldAfter c h ((sizeAfter c h).1 - 1 - i) j

/-- Element `(i, j)` exists after the history. -/
def Exists (c : Container) (h : List (Touch K)) (i j : Nat) : Prop := i < (sizeAfter c h).1 ∧ j < (sizeAfter c h).2

/-- A correct use: the class has the operations, only elements that exist are written, and no element is moved before a value was given to it. -/
def CorrectUse (c : Container) : List (Touch K) → Prop
  | [] => True
  | t :: h => CorrectUse c h ∧ c.Has t ∧
      match t with
      | .put i j _ => Exists c h i j
      | .transpose | .reverse => ∀ i j, Exists c h i j → (heldAfter c h i j).isSome
      | _ => True

/-- The operation gives the value `a` to element `(i, j)`. -/
def Gives (t : Touch K) (i j : Nat) (a : K) : Prop :=
  match t with
  | .null => a = 0
  | .ones => a = 1
  | .identity => a = if i = j then 1 else 0
  | .all xs => xs[i]? = some a
  | .put i' j' b => i' = i ∧ j' = j ∧ b = a
  | _ => False

/-- The operation writes one element, another one than `(i, j)`. -/
def WritesAnother (t : Touch K) (i j : Nat) : Prop :=
  match t with
  | .put i' j' _ => ¬ (i' = i ∧ j' = j)
  | _ => False

end MU.Spec
