import Verif.Core

/-!
# Eigen containers

The library stores coefficients in Eigen vectors and matrices. Eigen checks the indices of `operator()` and `row` with `eigen_assert`, which is
an `assert`: with `NDEBUG` an index outside the bounds is undefined behaviour.
-/

namespace MU

variable {K : Type}

/-- The outcome of an Eigen access with an index outside the bounds.
Eigen is not in the repository; the vectors and matrices accessed are the classes of /repo/src/MathUtils/VectorN.h:18 and
/repo/src/MathUtils/Matrix.h:20. -/
def eigenFail {α : Type} (B : Build) : Res α := if B.checked = true then .aborts else .ub

/-- `v(i)` on an Eigen vector (`VectorN`, /repo/src/MathUtils/VectorN.h). E.g. /repo/src/MathUtils/ChebyshevSeries1d.h:81. -/
def eAt (B : Build) (v : List K) (i : Nat) : Res K :=
  match v[i]? with
  | some a => .ok a
  | none => eigenFail B

theorem eAt_lt {B : Build} {v : List K} {i : Nat} (h : i < v.length) : eAt B v i = .ok v[i] := by
  simp [eAt, List.getElem?_eq_getElem h]

/-- `v(i) = a`. E.g. /repo/src/MathUtils/ChebyshevSeries1d.h:62-66, 121. -/
def eSet (B : Build) (v : List K) (i : Nat) (a : K) : Res (List K) :=
  if i < v.length then .ok (v.set i a) else eigenFail B

/-- `MatrixMN` (/repo/src/MathUtils/Matrix.h:19-24): its dimensions and its elements; the elements outside the dimensions have no meaning. -/
structure Mat (K : Type) where
  rows : Nat
  cols : Nat
  entry : Nat → Nat → K

namespace Mat

/-- `m(i, j)`. E.g. /repo/src/MathUtils/ChebyshevSeries2d.h:76-83. -/
def at' (B : Build) (m : Mat K) (i j : Nat) : Res K :=
  if i < m.rows ∧ j < m.cols then .ok (m.entry i j) else eigenFail B

/-- `m(i, j) = a`. E.g. /repo/src/MathUtils/ChebyshevSeries2d.h:76-83. -/
def set (B : Build) (m : Mat K) (i j : Nat) (a : K) : Res (Mat K) :=
  if i < m.rows ∧ j < m.cols then
    .ok { m with entry := fun i' j' => if i' = i ∧ j' = j then a else m.entry i' j' }
  else eigenFail B

/-- `Eigen::VectorXd tmp = m.row(i); std::vector<double> v(tmp.data(), tmp.data() + tmp.size());`.
/repo/src/MathUtils/ChebyshevSeries2d.h:100-101, 125-126, /repo/src/MathUtils/PowerSeries2d.h:36-37, 64-65, 92-93. -/
def row (B : Build) (m : Mat K) (i : Nat) : Res (List K) :=
  if i < m.rows then .ok ((List.range m.cols).map (m.entry i)) else eigenFail B

/-- The same with `m.col(j)`. /repo/src/MathUtils/ChebyshevSeries2d.h:149-150. -/
def col (B : Build) (m : Mat K) (j : Nat) : Res (List K) :=
  if j < m.cols then .ok ((List.range m.rows).map (fun i => m.entry i j)) else eigenFail B

/-- `MatrixMN<T>::Zero(rows, cols)`.
/repo/src/MathUtils/ChebyshevSeries2d.h:39, 172, /repo/src/MathUtils/ChebyshevSeries3d.h:42, 236, /repo/src/MathUtils/PowerSeries3d.h:198. -/
def zero [Zero K] (rows cols : Nat) : Mat K := ⟨rows, cols, fun _ _ => 0⟩

theorem at_lt {B : Build} {m : Mat K} {i j : Nat} (hi : i < m.rows) (hj : j < m.cols) : m.at' B i j = .ok (m.entry i j) := by
  simp [at', hi, hj]

theorem row_lt {B : Build} {m : Mat K} {i : Nat} (hi : i < m.rows) : m.row B i = .ok ((List.range m.cols).map (m.entry i)) := by
  simp [row, hi]

theorem col_lt {B : Build} {m : Mat K} {j : Nat} (hj : j < m.cols) : m.col B j = .ok ((List.range m.rows).map (fun i => m.entry i j)) := by
  simp [col, hj]

end Mat

/-- `std::vector v; for (i = 0; i < n; ++i) v.push_back(f(i));`.
E.g. /repo/src/MathUtils/ChebyshevSeries1d.h:79-82, /repo/src/MathUtils/ChebyshevSeries2d.h:98-104. -/
def collect {α : Type} (n : Nat) (f : Nat → Res α) : Res (List α) :=
  forRange 0 n (fun i acc => do
    let a ← f i
    return acc ++ [a]) []

theorem collect_ok {α : Type} {n : Nat} {f : Nat → Res α} (g : Nat → α) (h : ∀ i, i < n → f i = .ok (g i)) :
    collect n f = .ok ((List.range n).map g) := by
  have := forRange_ok (lo := 0) (hi := n) (Nat.zero_le _) (f := fun i acc => do
    let a ← f i
    return acc ++ [a]) (fun k => (List.range k).map g) (by
      intro i _ hi
      simp [h i hi, List.range_succ])
  exact this

end MU
