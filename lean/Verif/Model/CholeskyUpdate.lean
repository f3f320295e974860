import Verif.Model.Matrix
import Verif.Model.Unit

/-!
# Matrix.h: updates of a Cholesky decomposition

Exact real arithmetic. `LLT::rankUpdate` is Eigen's; its algorithm is modelled (`internal::llt_rank_update_lower` in Eigen/src/Cholesky/LLT.h and
`JacobiRotation::makeGivens` in Eigen/src/Jacobi/Jacobi.h, not part of /repo). A division by zero has the outcome `nonfinite`. What `llt()` leaves in its matrix
when it fails is that of the unblocked algorithm.
-/

namespace MU

/-- What `llt()` contains after the columns `< k`, and whether it has succeeded so far: at the first pivot which is not positive it stops and keeps what it has.
Called at /repo/src/MathUtils/Matrix.h:416, 425. -/
noncomputable def lltContent (n : Nat) (a : Nat → Nat → ℝ) : Nat → (Nat → Nat → ℝ) × Bool
  | 0 => (a, true)
  | k + 1 =>
    let s := lltContent n a k
    if s.2 then
      match lltStep n k s.1 with
      | some b => (b, true)
      | none => (s.1, false)
    else s

open Classical in
/-- Eigen's `JacobiRotation::makeGivens(p, q, &r)`: cosine, sine and `r`. For `q ≠ 0` its three branches differ in the rounding only. Called through
/repo/src/MathUtils/Matrix.h:417, 426. -/
noncomputable def givens (p q : ℝ) : ℝ × ℝ × ℝ :=
  if q = 0 then (if p < 0 then -1 else 1, 0, |p|)
  else (p / Real.sqrt (p ^ 2 + q ^ 2), -q / Real.sqrt (p ^ 2 + q ^ 2), Real.sqrt (p ^ 2 + q ^ 2))

/-- The variables of Eigen's rank update: the matrix, the vector `temp`, and `beta`. Called through /repo/src/MathUtils/Matrix.h:417, 426. -/
structure Upd where
  mat : Nat → Nat → ℝ
  temp : Nat → ℝ
  beta : ℝ

/-- Step `i` of the loop for `sigma > 0`: a rotation of the column and of `temp`. Called through /repo/src/MathUtils/Matrix.h:417, 426. -/
noncomputable def updateStep (n i : Nat) (s : Upd) : Upd :=
  let g := givens (s.mat i i) (-s.temp i)
  { s with
    mat := fun r c =>
      if c = i then
        if r = i then g.2.2
        else if i < r ∧ r < n then g.1 * s.mat r i + g.2.1 * s.temp r
        else s.mat r c
      else s.mat r c
    temp := fun r => if i < r ∧ r < n then -g.2.1 * s.mat r i + g.1 * s.temp r else s.temp r }

/-- The steps `< k`. Called through /repo/src/MathUtils/Matrix.h:417, 426. -/
noncomputable def updateLoop (n : Nat) : Nat → Upd → Upd
  | 0, s => s
  | k + 1, s => updateStep n k (updateLoop n k s)

open Classical in
/-- Step `j` of the loop for `sigma ≤ 0`; `false` when Eigen returns with `NumericalIssue`. Called through /repo/src/MathUtils/Matrix.h:417, 426. -/
noncomputable def downStep (n : Nat) (sigma : ℝ) (j : Nat) (s : Upd) : Res (Upd × Bool) := do
  let Ljj := s.mat j j
  let dj := Ljj ^ 2
  let wj := s.temp j
  let swj2 := sigma * wj ^ 2
  let gamma := dj * s.beta + swj2
  let q ← rdiv swj2 s.beta
  let x := dj + q
  if x ≤ 0 then return (s, false)
  else do
    let nLjj := Real.sqrt x
    let b ← rdiv swj2 dj
    let u ← rdiv wj Ljj
    let f ← rdiv nLjj Ljj
    let g ← if gamma = 0 then .ok 0 else rdiv (nLjj * sigma * wj) gamma
    let temp := fun r => if j < r ∧ r < n then s.temp r - u * s.mat r j else s.temp r
    return ({
      mat := fun r c =>
        if c = j then
          if r = j then nLjj
          else if j < r ∧ r < n ∧ gamma ≠ 0 then f * s.mat r j + g * temp r
          else s.mat r c
        else s.mat r c
      temp := temp
      beta := s.beta + b }, true)

/-- The steps `< k`. Called through /repo/src/MathUtils/Matrix.h:417, 426. -/
noncomputable def downLoop (n : Nat) (sigma : ℝ) : Nat → Upd → Res (Upd × Bool)
  | 0, s => .ok (s, true)
  | k + 1, s => do
    let r ← downLoop n sigma k s
    if r.2 then downStep n sigma k r.1 else return r

open Classical in
/-- Eigen's `LLT::rankUpdate(vec, sigma)`: the matrix afterwards. Called at /repo/src/MathUtils/Matrix.h:417, 426. -/
noncomputable def rankUpdate (n : Nat) (mat : Nat → Nat → ℝ) (vec : Nat → ℝ) (sigma : ℝ) : Res (Nat → Nat → ℝ) :=
  if 0 < sigma then .ok (updateLoop n n ⟨mat, fun r => Real.sqrt sigma * vec r, 1⟩).mat
  else do
    let r ← downLoop n sigma n ⟨mat, vec, 1⟩
    return r.1.mat

/-- `MatrixMN::GetCholeskyUpdate`: the new value of `L`. Eigen asserts that the matrix is square and that `v` is a column of the same size; `info()` is not
read. /repo/src/MathUtils/Matrix.h:413-419 -/
noncomputable def getCholeskyUpdate (B : Build) (A v : Mat ℝ) (sigma : ℝ) : Res (Mat ℝ) :=
  if A.rows = A.cols ∧ v.cols = 1 ∧ v.rows = A.cols then do
    let m ← rankUpdate A.rows (lltContent A.rows A.entry A.rows).1 (fun r => v.entry r 0) sigma
    return lowerOf A.rows m
  else eigenFail B

/-- `MatrixMN::InPlaceCholeskyUpdate`: the new value of `*this`. /repo/src/MathUtils/Matrix.h:422-429 -/
noncomputable def inPlaceCholeskyUpdate (B : Build) (this v : Mat ℝ) (sigma : ℝ) : Res (Mat ℝ) :=
  if this.rows = this.cols ∧ v.cols = 1 ∧ v.rows = this.cols then do
    let m ← rankUpdate this.rows (lltContent this.rows this.entry this.rows).1 (fun r => v.entry r 0) sigma
    let out := lowerOf this.rows m
    return out
  else eigenFail B

end MU
