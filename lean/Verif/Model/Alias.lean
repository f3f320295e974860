import Verif.Model.Interp2d

/-!
# Vectors shared between the caller and an interpolator

`Initialize` takes shared pointers and keeps them: the vectors stay those of the caller, who may change them later (the pointers are to
`const` vectors, which forbids the interpolator, not the caller, to write). The memory is a function from addresses to the contents of the
vectors; shared ownership keeps every vector alive, so that no address dangles. The fields of an object hold the coefficients and the limits by
value and the vectors by address; every call reads the contents the vectors have at that moment.
-/

namespace MU

/-- Contents of the vectors. The pointees of `xcoord`, `yval` of /repo/src/MathUtils/Interp1d.h:18-19 and of `xcoord`, `ycoord`, `mdata` of
/repo/src/MathUtils/Interp2d.h:18-20. -/
abbrev Memory (K : Type) := Nat → List K

/-- An `Interp1d` and the addresses of its vectors. The fields `xcoord` and `yval` of `obj` are not used. /repo/src/MathUtils/Interp1d.h:18-23, 88-90 -/
structure Interp1dShared (K : Type) where
  px : Nat
  py : Nat
  obj : Interp1d K K

namespace Interp1dShared

variable {K : Type} [Field K] [LinearOrder K]

omit [Field K] [LinearOrder K] in
/-- The object as a call sees it: its pointers followed in the memory of that moment. /repo/src/MathUtils/Interp1d.h:18-19 -/
def view (mem : Memory K) (s : Interp1dShared K) : Interp1d K K :=
  { s.obj with xcoord := some (mem s.px), yval := some (mem s.py) }

/-- `MakeInterp1d(m)` followed by `Initialize(px, py)`. /repo/src/MathUtils/Interp1d.h:68-82, 145-170, 220-243 -/
def make (B : Build) (m : InterpMethod) (mem : Memory K) (px py : Nat) : Res (Interp1dKind × Interp1dShared K) := do
  let kind ← Interp1d.make m
  let (r, s) := (Interp1d.init B (some (mem px)) (some (mem py))).run (Interp1d.fresh K K)
  r
  return (kind, ⟨px, py, s⟩)

/-- `Eval(x)`. /repo/src/MathUtils/Interp1d.h:31, 172-215 -/
def eval (kind : Interp1dKind) (mem : Memory K) (s : Interp1dShared K) (x : K) : Res K := Interp1d.eval kind (view mem s) x

end Interp1dShared

/-- An `Interp2d` and the addresses of its vectors. The fields `xcoord`, `ycoord` and `mdata` of `obj` are not used.
/repo/src/MathUtils/Interp2d.h:18-27, 92-95 -/
structure Interp2dShared (K : Type) where
  px : Nat
  py : Nat
  pd : Nat
  obj : Interp2d K

namespace Interp2dShared

variable {K : Type} [Field K] [LinearOrder K]

omit [Field K] [LinearOrder K] in
/-- The object as a call sees it. /repo/src/MathUtils/Interp2d.h:18-20 -/
def view (mem : Memory K) (s : Interp2dShared K) : Interp2d K :=
  { s.obj with xcoord := some (mem s.px), ycoord := some (mem s.py), mdata := some (mem s.pd) }

/-- `MakeInterp2d(LINEAR)` followed by `Initialize(px, py, pd)`. /repo/src/MathUtils/Interp2d.h:62-86, 110-164, 212-220 -/
def make (B : Build) (mem : Memory K) (px py pd : Nat) : Res (Interp2dShared K) := do
  let o ← Interp2d.make K .LINEAR
  let (r, s) := (Interp2d.init B (some (mem px)) (some (mem py)) (some (mem pd))).run o
  r
  return ⟨px, py, pd, s⟩

/-- `Eval(x, y)`. /repo/src/MathUtils/Interp2d.h:166-189 -/
def eval (B : Build) (mem : Memory K) (s : Interp2dShared K) (x y : K) : Res K := Interp2d.eval B (view mem s) x y

end Interp2dShared
end MU
