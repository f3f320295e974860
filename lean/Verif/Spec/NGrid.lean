import Verif.Spec.Interp
import Mathlib.Algebra.Order.Group.Abs

/-!
# Specifications for regular grids of any dimension

A grid is a list of axes. A node is given by its indices, one per axis. Data are stored in C order (row by row).
-/

namespace MU.Spec

variable {K : Type}

/-- One index per axis, each below the number of nodes of its axis. -/
def Inside (idx sizes : List Nat) : Prop := List.Forall₂ (fun i n => i < n) idx sizes

/-- Position in C order of the element of given indices in an array of given sizes: the last index varies fastest. -/
def pos : (sizes idx : List Nat) → Nat
  | _ :: ns, i :: is => i * ns.prod + pos ns is
  | _, _ => 0

/-- The sequence `values` is an array of the given sizes whose element of indices `idx` is `F idx`. -/
structure Holds (sizes : List Nat) (values : List K) (F : List Nat → K) : Prop where
  size : values.length = sizes.prod
  elem : ∀ idx, Inside idx sizes → values[pos sizes idx]? = some (F idx)

/-- A grid a user may interpolate: at least one axis, every axis has a node and is strictly increasing. -/
structure Axes [LT K] (grids : List (List K)) : Prop where
  dims : grids ≠ []
  nonempty : ∀ g ∈ grids, g ≠ []
  increasing : ∀ g ∈ grids, g.Pairwise (· < ·)

/-- `x` is the node of indices `idx`. -/
inductive IsNode : (grids : List (List K)) → (idx : List Nat) → (x : List K) → Prop
  | nil : IsNode [] [] []
  | cons {g gs i is x xs} : g[i]? = some x → IsNode gs is xs → IsNode (g :: gs) (i :: is) (x :: xs)

/-- Every coordinate of `x` lies between the first and the last node of its axis. -/
inductive InBox [LE K] : (grids : List (List K)) → (x : List K) → Prop
  | nil : InBox [] []
  | cons {g : List K} {gs x xs a b} : g.head? = some a → g.getLast? = some b → a ≤ x → x ≤ b → InBox gs xs →
    InBox (g :: gs) (x :: xs)

/-- Every coordinate of `x` is at least the first node of its axis and less than the last one. -/
inductive InHalfOpenBox [LE K] [LT K] : (grids : List (List K)) → (x : List K) → Prop
  | nil : InHalfOpenBox [] []
  | cons {g : List K} {gs x xs a b} : g.head? = some a → g.getLast? = some b → a ≤ x → x < b → InHalfOpenBox gs xs →
    InHalfOpenBox (g :: gs) (x :: xs)

/-- `i` is the index of a node of the axis at minimal distance from `x`, the largest one if there are several. -/
def NearestOn [Field K] [LinearOrder K] (g : List K) (x : K) (i : Nat) : Prop :=
  ∃ p, g[i]? = some p ∧ ∀ j q, g[j]? = some q → |x - p| ≤ |x - q| ∧ (|x - q| = |x - p| → j ≤ i)

/-- On each axis the index is that of a nearest node. -/
inductive Nearest [Field K] [LinearOrder K] : (grids : List (List K)) → (idx : List Nat) → (x : List K) → Prop
  | nil : Nearest [] [] []
  | cons {g gs i is x xs} : NearestOn g x i → Nearest gs is xs → Nearest (g :: gs) (i :: is) (x :: xs)

/-- `x'` is `x` with every coordinate clamped to the interval from the first to the last node of its axis. -/
inductive Clamped [LinearOrder K] : (grids : List (List K)) → (x x' : List K) → Prop
  | nil : Clamped [] [] []
  | cons {g : List K} {gs x xs xs' a b} : g.head? = some a → g.getLast? = some b → Clamped gs xs xs' →
    Clamped (g :: gs) (x :: xs) (max a (min x b) :: xs')

/-- `cell` is a cell of the grid containing `x`: for each axis the index `c` and the two consecutive nodes of indices `c` and `c + 1` around
the coordinate. -/
inductive Brackets [LE K] : (grids : List (List K)) → (cell : List (Nat × K × K)) → (x : List K) → Prop
  | nil : Brackets [] [] []
  | cons {g : List K} {gs c a b cell x xs} : g[c]? = some a → g[c + 1]? = some b → a ≤ x → x ≤ b → Brackets gs cell xs →
    Brackets (g :: gs) ((c, a, b) :: cell) (x :: xs)

/-- The tensor-product linear interpolant of the cell: interpolate along the first axis between the interpolants, in the other
coordinates, of the two faces. -/
def tensor [Field K] : (cell : List (Nat × K × K)) → (F : List Nat → K) → (x : List K) → K
  | (c, a, b) :: cell, F, x :: xs =>
    line a (tensor cell (fun is => F (c :: is)) xs) b (tensor cell (fun is => F ((c + 1) :: is)) xs) x
  | _, F, _ => F []

/-- `f` is affine in each coordinate separately (the others being held fixed). -/
def SeparatelyAffine [Field K] (f : List K → K) : Prop :=
  ∀ (before after : List K) (x0 x1 t : K), f (before ++ (x0 + t * (x1 - x0)) :: after) =
    f (before ++ x0 :: after) + t * (f (before ++ x1 :: after) - f (before ++ x0 :: after))

/-- Each index is one of the two indices of the cell on its axis. -/
def VertexOf (cell : List (Nat × K × K)) (idx : List Nat) : Prop :=
  List.Forall₂ (fun c i => i = c.1 ∨ i = c.1 + 1) cell idx

/-- `r` is a convex combination of the data of vertices of the cell, whose weighted position is `x`: there are vertices with their weights
(non-negative, of sum 1), indices and coordinates. -/
def ConvexCombination [Field K] [LE K] (grids : List (List K)) (cell : List (Nat × K × K)) (F : List Nat → K) (x : List K) (r : K) :
    Prop :=
  ∃ terms : List (K × List Nat × List K),
    (∀ t ∈ terms, 0 ≤ t.1 ∧ VertexOf cell t.2.1 ∧ IsNode grids t.2.1 t.2.2) ∧
    (terms.map (fun t => t.1)).sum = 1 ∧
    (terms.map (fun t => t.1 * F t.2.1)).sum = r ∧
    ∀ d (hd : d < x.length), (terms.map (fun t => t.1 * t.2.2.getD d 0)).sum = x[d]

/-- The affine function with constant `α` and slopes `β`. -/
def affine [Field K] (α : K) (β : List K) (x : List K) : K := α + (List.zipWith (· * ·) β x).sum

end MU.Spec
