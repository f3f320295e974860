import Verif.Model.PowerSeries
import Verif.Spec.Series

/-!
# Specification of the power series

Which constructor call gives which object on which domain, and the coefficient arrays.
-/

namespace MU.Spec

variable {K : Type} [Field K] [DecidableEq K]

/-- `s` is built by one of the constructors of PowerSeries1d.h from the coefficients `b`, on the domain `X`. -/
inductive Built1 (b : List K) : PS1 K → Domain K → Prop
  | closed (xmin xmax : K) : Built1 b (PS1.closed b xmin xmax) (.segment xmin xmax)
  | opened (xmin : K) : Built1 b (PS1.opened b xmin) (.halfLine xmin)

/-- `s` is built by one of the constructors of PowerSeries2d.h from the coefficients `b`, on the domain `X × Y`. -/
inductive Built2 (b : Mat K) : PS2 K → Domain K → Domain K → Prop
  | closed (xmin xmax ymin ymax : K) : Built2 b (PS2.closed b xmin xmax ymin ymax) (.segment xmin xmax) (.segment ymin ymax)
  | opened (xmin ymin : K) : Built2 b (PS2.opened b xmin ymin) (.halfLine xmin) (.halfLine ymin)
  | mixed (xmin xmax ymin : K) : Built2 b (PS2.mixed b xmin xmax ymin) (.segment xmin xmax) (.halfLine ymin)

/-- `s` is built by one of the constructors of PowerSeries3d.h from the coefficients `b`, on the domain `X × Y × Z`. -/
inductive Built3 (b : List (Mat K)) (s : PS3 K) : Domain K → Domain K → Domain K → Prop
  | closed (xmin xmax ymin ymax zmin zmax : K) : PS3.closed b xmin xmax ymin ymax zmin zmax = .ok s →
      Built3 b s (.segment xmin xmax) (.segment ymin ymax) (.segment zmin zmax)
  | yzOpened (xmin xmax ymin zmin : K) : PS3.yzOpenedXClosed b xmin xmax ymin zmin = .ok s →
      Built3 b s (.segment xmin xmax) (.halfLine ymin) (.halfLine zmin)
  | zOpened (xmin xmax ymin ymax zmin : K) : PS3.zOpenedXYClosed b xmin xmax ymin ymax zmin = .ok s →
      Built3 b s (.segment xmin xmax) (.segment ymin ymax) (.halfLine zmin)

end MU.Spec

namespace MU
variable {K : Type}

/-- A vector of `l` matrices of `n` rows and `m` columns, none of these numbers being zero, with the elements `e i j k`. -/
structure Cube (b : List (Mat K)) (n m l : Nat) (e : Nat → Nat → Nat → K) : Prop where
  len : b.length = l
  mats : ∀ k a, b[k]? = some a → a.rows = n ∧ a.cols = m ∧ ∀ i j, i < n → j < m → a.entry i j = e i j k
  hn : n ≠ 0
  hm : m ≠ 0
  hl : l ≠ 0

end MU
