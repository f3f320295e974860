import Verif.Model.Polynomial
import Verif.Model.Eigen
import Verif.Spec.Series
import Mathlib.Analysis.Calculus.Deriv.Pow
import Mathlib.Analysis.Calculus.Deriv.Add
import Mathlib.Analysis.Calculus.Deriv.Mul
import Mathlib.Algebra.BigOperators.Intervals
import Mathlib.Tactic.Ring
import Mathlib.Tactic.LinearCombination

set_option linter.unusedSectionVars false

namespace MU
open Finset

variable {K A : Type} [Field K] [Field A] [Algebra K A]

/-- The value of a list at an index, zero beyond its end. -/
theorem vAt_getD {l : List K} {i : Nat} (h : i < l.length) : vAt l i = .ok (l.getD i 0) := by
  rw [vAt_lt h]; simp [List.getD, List.getElem?_eq_getElem h]

theorem hornerLoop_ok (cs : List K) (x : A) {n : Nat} (hn : n ≤ cs.length) (r : A) :
    hornerLoop cs x n r = .ok (r * x ^ n + ∑ i ∈ range n, algebraMap K A (cs.getD i 0) * x ^ i) := by
  induction n generalizing r with
  | zero => simp [hornerLoop]
  | succ n ih =>
    rw [hornerLoop, vAt_getD (by omega), Res.ok_bind, ih (by omega), sum_range_succ]
    congr 1; ring

theorem horner_ok {cs : List K} (h : cs ≠ []) (x : A) :
    horner cs x = .ok (∑ i ∈ range cs.length, algebraMap K A (cs.getD i 0) * x ^ i) := by
  have hl := List.length_pos_of_ne_nil h
  unfold horner vAtInt
  simp only []
  rw [if_neg (by omega), show ((cs.length : Int) - 1).toNat = cs.length - 1 by omega, vAt_getD (by omega)]
  simp only [Res.ok_bind]
  rw [hornerLoop_ok cs x (by omega)]
  obtain ⟨n, hn⟩ : ∃ n, cs.length = n + 1 := ⟨cs.length - 1, by omega⟩
  rw [hn, sum_range_succ]
  congr 1
  simp [add_comm]

theorem horner_nil (x : A) : horner ([] : List K) x = .throws .outOfRange := by
  simp [horner, vAtInt]

theorem hornerDerivative_nil (x : A) : hornerDerivative ([] : List K) x = .throws .outOfRange := by
  simp [hornerDerivative, vAtInt]

theorem hornerDerivativeLoop_ok (cs : List K) (x : A) {n : Nat} (hn : n < cs.length) (r : A) :
    hornerDerivativeLoop cs x n r =
      .ok (r * x ^ n + ∑ i ∈ range n, algebraMap K A (((i + 1 : Nat) : K) * cs.getD (i + 1) 0) * x ^ i) := by
  induction n generalizing r with
  | zero => simp [hornerDerivativeLoop]
  | succ n ih =>
    rw [hornerDerivativeLoop, vAt_getD (by omega), Res.ok_bind, ih (by omega), sum_range_succ]
    congr 1; ring

theorem hornerDerivative_ok {cs : List K} (h : cs ≠ []) (x : A) :
    hornerDerivative cs x = .ok (∑ i ∈ range cs.length, algebraMap K A ((i : K) * cs.getD i 0) * x ^ (i - 1)) := by
  have hl := List.length_pos_of_ne_nil h
  unfold hornerDerivative vAtInt
  simp only []
  rw [if_neg (by omega), show ((cs.length : Int) - 1).toNat = cs.length - 1 by omega, vAt_getD (by omega)]
  simp only [Res.ok_bind]
  rw [hornerDerivativeLoop_ok cs x (by omega)]
  obtain ⟨n, hn⟩ : ∃ n, cs.length = n + 1 := ⟨cs.length - 1, by omega⟩
  rw [hn, sum_range_succ']
  cases n with
  | zero => simp
  | succ n =>
    rw [sum_range_succ, show n + 1 + 1 - 2 = n by omega]
    simp only [Nat.add_sub_cancel, Nat.cast_zero, zero_mul, map_zero, add_zero]
    rw [add_comm]

theorem getD_range_map (n : Nat) (g : Nat → K) {i : Nat} (h : i < n) : ((List.range n).map g).getD i 0 = g i := by
  simp [List.getD, h]

/-- `Horner` on a vector filled by a loop. -/
theorem horner_map {n : Nat} (hn : n ≠ 0) (g : Nat → K) (x : K) :
    horner ((List.range n).map g) x = .ok (Spec.poly1 n g x) := by
  rw [horner_ok (by simpa using hn)]
  congr 1
  rw [List.length_map, List.length_range]
  refine sum_congr rfl (fun i hi => ?_)
  rw [getD_range_map n g (mem_range.mp hi)]
  rfl

/-- The derivative of `poly1`. -/
def dpoly1 (n : Nat) (b : Nat → K) (u : K) : K := ∑ i ∈ range n, (i : K) * b i * u ^ (i - 1)

theorem hornerDerivative_map {n : Nat} (hn : n ≠ 0) (g : Nat → K) (x : K) :
    hornerDerivative ((List.range n).map g) x = .ok (dpoly1 n g x) := by
  rw [hornerDerivative_ok (by simpa using hn)]
  congr 1
  rw [List.length_map, List.length_range]
  refine sum_congr rfl (fun i hi => ?_)
  rw [getD_range_map n g (mem_range.mp hi)]
  rfl

/-- The derivative of a sum of powers, at every point of a normed field. -/
theorem hasDerivAt_sum_pow {𝕜 : Type} [NontriviallyNormedField 𝕜] (n : Nat) (c : Nat → 𝕜) (x : 𝕜) :
    HasDerivAt (fun t => ∑ i ∈ range n, c i * t ^ i) (∑ i ∈ range n, (i : 𝕜) * c i * x ^ (i - 1)) x := by
  have := HasDerivAt.fun_sum (u := range n) (A := fun i t => c i * t ^ i) (A' := fun i => (i : 𝕜) * c i * x ^ (i - 1)) (x := x)
    (fun i _ => by
      have := (hasDerivAt_pow i x).const_mul (c i)
      rw [show (i : 𝕜) * c i * x ^ (i - 1) = c i * (↑i * x ^ (i - 1)) by ring]
      exact this)
  exact this

theorem hasDerivAt_poly1 (n : Nat) (c : Nat → ℝ) (x : ℝ) : HasDerivAt (Spec.poly1 n c) (dpoly1 n c x) x :=
  hasDerivAt_sum_pow n c x

end MU
