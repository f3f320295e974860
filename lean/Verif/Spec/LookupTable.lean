import Verif.Model.LookupTable1D
import Verif.Model.LookupTable2d

/-!
# What lookup tables are supposed to be

A 1D table is the current abscissae and the list of the series registered so far: name, abscissae current when the series was added,
ordinates. The first registration of a name wins. Likewise in 2D, with two coordinate vectors.
(The only things used from the model are the types of the calls.)
-/

namespace MU.Spec

structure Lut1 (K Y : Type) where
  X : Option (List K)
  series : List (String × (List K × List Y))

namespace Lut1
variable {K Y : Type}

def empty : Lut1 K Y := ⟨none, []⟩

/-- Effect of a successful call. -/
def step (t : Lut1 K Y) : LookupTable1D.Op K Y → Lut1 K Y
  | .setX X => { t with X := some X }
  | .addY name Yv =>
    match t.X, t.series.lookup name with
    | some X, none => { t with series := t.series ++ [(name, (X, Yv))] }
    | _, _ => t

/-- Effect of a sequence of successful calls. -/
def after (ops : List (LookupTable1D.Op K Y)) : Lut1 K Y := ops.foldl step empty

end Lut1

structure Lut2 (K : Type) where
  X : Option (List K)
  Y : Option (List K)
  series : List (String × (List K × List K × List K))

namespace Lut2
variable {K : Type}

def empty : Lut2 K := ⟨none, none, []⟩

/-- Effect of a successful call. The interpolation method has no influence on a series successfully added: only LINEAR exists in 2D. -/
def step (t : Lut2 K) : LookupTable2d.Op K → Lut2 K
  | .setX X => { t with X := some X }
  | .setY Y => { t with Y := some Y }
  | .setMethod _ => t
  | .addData name d =>
    match t.X, t.Y, t.series.lookup name with
    | some X, some Y, none => { t with series := t.series ++ [(name, (X, Y, d))] }
    | _, _, _ => t

/-- Effect of a sequence of successful calls. -/
def after (ops : List (LookupTable2d.Op K)) : Lut2 K := ops.foldl step empty

end Lut2
end MU.Spec
