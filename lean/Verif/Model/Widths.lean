import Verif.Model.RegularGridInterpolator

/-!
# The size check of regular grids with the widths of its integers

`NDInterp.new` and `RGI.build` count with natural numbers. Here the check of `set_f_array` is made as in the code, with an `unsigned int` and an `int` of 32 bits.
Each axis has fewer than `2^31` nodes.
-/

namespace MU

variable {K : Type}

/-- The constructor, with `unsigned int nGridPoints` and `int f_len`. /repo/src/MathUtils/thirdparty/linterp.h:149-173. The product of the sizes wraps modulo `2^32`; so does
`f_end - f_begin` when it is converted to `int`; the comparison converts back to `unsigned int`. -/
def NDInterp.new32 (grids : List (List K)) (values : List K) : Res (NDInterp K) :=
  if values.length % 2 ^ 32 ≠ (grids.map List.length).prod % 2 ^ 32 then .throws .invalidArgument else .ok ⟨grids, values⟩

namespace RGI

/-- `_BuildInterpolator`, with this check. /repo/src/MathUtils/RegularGridInterpolator.h:162-184 -/
def build32 (dim : Nat) : Act (RGI K) Unit := do
  let s ← Act.get
  let l ← Act.lift (computeLimits dim s.grid_list)
  Act.update fun s => { s with limits := some l }
  let t ← Act.lift (NDInterp.new32 s.grid_list s.data.elems)
  Act.update fun s => { s with interp := some (t, s.gen) }

/-- `AddVar`, with this check. /repo/src/MathUtils/RegularGridInterpolator.h:142-160 -/
def addVar32 (dim : Nat) (a : NDArray K) : Act (RGI K) Unit := do
  let s ← Act.get
  if s.grid_list.length ≠ dim then
    Act.lift (.exits 1)
  else do
    Act.update fun s => { s with data := a, gen := s.gen + 1 }
    build32 dim

end RGI

end MU
