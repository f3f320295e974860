import Verif.Model.Triangle

/-!
# The integrand of a triangle rule as a program: Integration2dTriangle.h

In `Model/Triangle.lean` the integrand is a total function. Here `Integrand::Evaluate` is code of the user: it may throw, and what a call does may depend on all the
earlier calls (`Evaluate` is `const`, but may change `mutable` members or what it refers to).
-/

namespace MU

/-- The fields of `Integration2d`, /repo/src/MathUtils/Integration2d.h:34-41, and the arguments of the calls made so far to `Evaluate`. -/
structure TriC (T : Type) where
  m_integrand : List V3 → V3 → Res T
  m_order : Int
  m_tables : QuadratureTables
  calls : List V3

namespace TriC

variable {T : Type}

/-- The constructor, /repo/src/MathUtils/Integration2dTriangle.h:21-115. -/
def new (F : List V3 → V3 → Res T) (order : Int) : Res (TriC T) :=
  let m_tables := triangleTables
  if order > m_tables.size then .exits 0
  else if order < 1 then .exits 0
  else .ok ⟨F, order, m_tables, []⟩

/-- `m_integrand->Evaluate(x)`, /repo/src/MathUtils/Integration2dTriangle.h:160,163. -/
def call (x : V3) : Act (TriC T) T := fun s => (s.m_integrand s.calls x, { s with calls := s.calls ++ [x] })

variable [AddCommGroup T] [Module ℝ T]

/-- The loop of `ComputeOverStandardTriangle`, /repo/src/MathUtils/Integration2dTriangle.h:150-168: `n` iterations from `i`. -/
noncomputable def gaussLoop (alpha beta weight : List ℚ) (vertex_1 vertex_2 vertex_3 : V3) : Nat → Nat → Option T → Act (TriC T) (Option T)
  | 0, _, result => pure result
  | n + 1, i, result => do
    let a ← Act.lift (vAt alpha i)
    let b ← Act.lift (vAt beta i)
    let x : V3 := (1 - (a : ℝ) - (b : ℝ)) • vertex_1 + (a : ℝ) • vertex_2 + (b : ℝ) • vertex_3
    let w ← Act.lift (vAt weight i)
    if i = 0 then do
      let y ← call x
      gaussLoop alpha beta weight vertex_1 vertex_2 vertex_3 n (i + 1) (some ((w : ℝ) • y))
    else do
      let y ← call x
      let r ← Act.lift (readVar result)
      gaussLoop alpha beta weight vertex_1 vertex_2 vertex_3 n (i + 1) (some (r + (w : ℝ) • y))

/-- `ComputeOverStandardTriangle`, /repo/src/MathUtils/Integration2dTriangle.h:139-172. As in `Model/Triangle.lean`, `none` is the value of `result` before the first
iteration. -/
noncomputable def computeOverStandardTriangle (vertex_1 vertex_2 vertex_3 : V3) : Act (TriC T) T := do
  let s ← Act.get
  let alpha ← Act.lift (s.m_tables.alpha s.m_order)
  let beta ← Act.lift (s.m_tables.beta s.m_order)
  let weight ← Act.lift (s.m_tables.weight s.m_order)
  let result ← gaussLoop alpha beta weight vertex_1 vertex_2 vertex_3 weight.length 0 none
  let result ← Act.lift (readVar result)
  return (1 / 2 : ℝ) • result

/-- `Compute`, /repo/src/MathUtils/Integration2dTriangle.h:118-134. -/
noncomputable def compute (vertex_1 vertex_2 vertex_3 : V3) : Act (TriC T) T := do
  let e1 := vertex_1 - vertex_3
  let e2 := vertex_2 - vertex_3
  let area := 1 / 2 * V3.norm (V3.cross e1 e2)
  let integral ← computeOverStandardTriangle vertex_1 vertex_2 vertex_3
  return (2 * area) • integral

/-- The object after calls of `Compute` on the triangles of a list, in which exceptions are caught and ignored.
It stands for any user of /repo/src/MathUtils/Integration2dTriangle.h:118-134. -/
noncomputable def after (s : TriC T) : List (V3 × V3 × V3) → TriC T
  | [] => s
  | v :: rest => after ((compute v.1 v.2.1 v.2.2).run s).2 rest

end TriC
end MU
