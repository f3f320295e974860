import Verif.Model.Callback

/-!
# The user's function as a program: ChebyshevSeries2d.h and ChebyshevSeries3d.h

As `CS1C` of `Verif.Model.Callback`, in two and three variables: `Function2d::Evaluate` and `Function3d::Evaluate` may throw, and what a call does may depend on all
the earlier calls. They do not call the series that is being computed.
-/

namespace MU

/-- A series and the calls made so far to its function: `P` is the type of the arguments, `R` has the fields that do not change and `C` the coefficients.
/repo/src/MathUtils/ChebyshevSeries2d.h:236-254, /repo/src/MathUtils/ChebyshevSeries3d.h:317-341 -/
structure SeriesC (P R C : Type) where
  m_function : List P → P → Res ℝ
  fields : R
  coeffs : C
  calls : List P

namespace SeriesC
variable {P R C : Type}

/-- `m_function->Evaluate(...)`, /repo/src/MathUtils/ChebyshevSeries2d.h:76, /repo/src/MathUtils/ChebyshevSeries3d.h:93. -/
def call (p : P) : Act (SeriesC P R C) ℝ := fun s => (s.m_function s.calls p, { s with calls := s.calls ++ [p] })

/-- An assignment to a coefficient, in which nothing of the user's is called; e.g. /repo/src/MathUtils/ChebyshevSeries2d.h:79,
/repo/src/MathUtils/ChebyshevSeries3d.h:98. -/
def modify (g : C → Res C) : Act (SeriesC P R C) Unit := do
  let s ← Act.get
  let c ← Act.lift (g s.coeffs)
  Act.update fun s => { s with coeffs := c }

end SeriesC

/-- The fields other than the coefficients. /repo/src/MathUtils/ChebyshevSeries2d.h:236-254, 293-298 -/
structure Fields2 where
  m_order_x : Nat
  m_order_y : Nat
  m_x : Seg ℝ
  m_y : Seg ℝ

/-- `ChebyshevSeries2dBase` with a function that may throw. /repo/src/MathUtils/ChebyshevSeries2d.h:28-31, 236-254 -/
abbrev CS2C := SeriesC (ℝ × ℝ) Fields2 (Mat ℝ)

namespace CS2C
open SeriesC

/-- The constructor of the base class, /repo/src/MathUtils/ChebyshevSeries2d.h:36-42. -/
noncomputable def base (F : List (ℝ × ℝ) → ℝ × ℝ → Res ℝ) (x y : Seg ℝ) (order_x order_y : Nat) : CS2C :=
  ⟨F, ⟨order_x, order_y, x, y⟩, ⟨order_x + 1, order_y + 1, fun _ _ => 0⟩, []⟩

/-- `Compute_aij`, /repo/src/MathUtils/ChebyshevSeries2d.h:45-87. -/
noncomputable def computeAij (B : Build) : Act CS2C Unit := do
  let s ← Act.get
  let x ← Act.lift (abscissae s.fields.m_x s.fields.m_order_x)
  let y ← Act.lift (abscissae s.fields.m_y s.fields.m_order_y)
  Act.loop 0 (s.fields.m_order_x + 1) (fun i =>
    Act.loop 0 (s.fields.m_order_y + 1) (fun j => do
      Act.loop 0 (s.fields.m_order_x + 1) (fun r => do
        let xr ← Act.lift (vAt x r)
        Act.loop 0 (s.fields.m_order_y + 1) (fun t => do
          let yt ← Act.lift (vAt y t)
          let v ← call (xr.2, yt.2)
          modify fun aij => do
            let a ← aij.at' B i j
            aij.set B i j (a + v * chebT i xr.1 * chebT j yt.1)))
      modify fun aij => do
        let a ← aij.at' B i j
        aij.set B i j (a * (4 / (((s.fields.m_order_x : ℝ) + 1) * ((s.fields.m_order_y : ℝ) + 1))))
      if i = 0 ∧ j = 0 then
        modify fun aij => do
          let a ← aij.at' B i j
          aij.set B i j (a / 4)
      else if (i = 0 ∧ j ≠ 0) ∨ (i ≠ 0 ∧ j = 0) then
        modify fun aij => do
          let a ← aij.at' B i j
          aij.set B i j (a / 2)
      else pure ()))

/-- The series as a value of the model in which the function is pure: `Evaluate`, /repo/src/MathUtils/ChebyshevSeries2d.h:90-110, reads the same fields. -/
def erase (s : CS2C) (f : ℝ → ℝ → ℝ) : CS2 ℝ := ⟨f, s.fields.m_order_x, s.fields.m_order_y, s.fields.m_x, s.fields.m_y, s.coeffs⟩

end CS2C

/-- The fields other than the coefficients. /repo/src/MathUtils/ChebyshevSeries3d.h:317-341, 395-402 -/
structure Fields3 where
  m_order_x : Nat
  m_order_y : Nat
  m_order_z : Nat
  m_x : Seg ℝ
  m_y : Seg ℝ
  m_z : Seg ℝ

/-- `ChebyshevSeries3dBase` with a function that may throw. /repo/src/MathUtils/ChebyshevSeries3d.h:28-31, 317-341 -/
abbrev CS3C := SeriesC (ℝ × ℝ × ℝ) Fields3 (List (Mat ℝ))

namespace CS3C
open SeriesC

/-- The constructor of the base class, /repo/src/MathUtils/ChebyshevSeries3d.h:36-44. -/
noncomputable def base (F : List (ℝ × ℝ × ℝ) → ℝ × ℝ × ℝ → Res ℝ) (x y z : Seg ℝ) (order_x order_y order_z : Nat) : CS3C :=
  ⟨F, ⟨order_x, order_y, order_z, x, y, z⟩, (CS3.base (fun _ _ _ => (0 : ℝ)) x y z order_x order_y order_z).m_aijk, []⟩

/-- `Compute_aijk`, /repo/src/MathUtils/ChebyshevSeries3d.h:47-113. -/
noncomputable def computeAijk (B : Build) : Act CS3C Unit := do
  let s ← Act.get
  let x ← Act.lift (abscissae s.fields.m_x s.fields.m_order_x)
  let y ← Act.lift (abscissae s.fields.m_y s.fields.m_order_y)
  let z ← Act.lift (abscissae s.fields.m_z s.fields.m_order_z)
  Act.loop 0 (s.fields.m_order_x + 1) (fun i =>
    Act.loop 0 (s.fields.m_order_y + 1) (fun j =>
      Act.loop 0 (s.fields.m_order_z + 1) (fun k => do
        Act.loop 0 (s.fields.m_order_x + 1) (fun r => do
          let xr ← Act.lift (vAt x r)
          Act.loop 0 (s.fields.m_order_y + 1) (fun q => do
            let yq ← Act.lift (vAt y q)
            Act.loop 0 (s.fields.m_order_z + 1) (fun t => do
              let zt ← Act.lift (vAt z t)
              let v ← call (xr.2, yq.2, zt.2)
              modify fun aijk => do
                let a ← cubeGet B aijk i j k
                cubeSet B aijk i j k (a + v * chebT i xr.1 * chebT j yq.1 * chebT k zt.1))))
        modify fun aijk => do
          let a ← cubeGet B aijk i j k
          cubeSet B aijk i j k (a * (8 / (((s.fields.m_order_x : ℝ) + 1) * ((s.fields.m_order_y : ℝ) + 1) * ((s.fields.m_order_z : ℝ) + 1))))
        if i = 0 ∧ j = 0 ∧ k = 0 then
          modify fun aijk => do
            let a ← cubeGet B aijk i j k
            cubeSet B aijk i j k (a / 8)
        else if (i = 0 ∧ j ≠ 0 ∧ k = 0) ∨ (i ≠ 0 ∧ j = 0 ∧ k = 0) ∨ (i = 0 ∧ j = 0 ∧ k ≠ 0) then
          modify fun aijk => do
            let a ← cubeGet B aijk i j k
            cubeSet B aijk i j k (a / 4)
        else if (i = 0 ∧ j ≠ 0 ∧ k ≠ 0) ∨ (i ≠ 0 ∧ j = 0 ∧ k ≠ 0) ∨ (i ≠ 0 ∧ j ≠ 0 ∧ k = 0) then
          modify fun aijk => do
            let a ← cubeGet B aijk i j k
            cubeSet B aijk i j k (a / 2)
        else pure ())))

/-- The series as a value of the model in which the function is pure: `Evaluate`, /repo/src/MathUtils/ChebyshevSeries3d.h:116-146, reads the same fields. -/
def erase (s : CS3C) (f : ℝ → ℝ → ℝ → ℝ) : CS3 ℝ :=
  ⟨f, s.fields.m_order_x, s.fields.m_order_y, s.fields.m_order_z, s.fields.m_x, s.fields.m_y, s.fields.m_z, s.coeffs⟩

end CS3C
end MU
