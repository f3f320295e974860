import Verif.Core
import Mathlib.Algebra.BigOperators.Intervals
import Mathlib.Algebra.BigOperators.Group.Finset.Basic

/-!
# Common loops
-/

namespace MU
open Finset

variable {K : Type}

/-- `for (...) result += g(i)`. -/
theorem sum_loop [AddCommMonoid K] {lo hi : Nat} (hle : lo ≤ hi) {body : Nat → K → Res K} (g : Nat → K)
    (h : ∀ i, lo ≤ i → i < hi → ∀ acc, body i acc = .ok (acc + g i)) (a : K) :
    forRange lo hi body a = .ok (a + ∑ i ∈ Ico lo hi, g i) := by
  have := forRange_ok hle (f := body) (fun k => a + ∑ i ∈ Ico lo k, g i) (by
    intro i h1 h2
    rw [h i h1 h2, sum_Ico_succ_top h1, add_assoc])
  simpa using this

theorem vIdx_getD [Zero K] {l : List K} {i : Nat} (h : i < l.length) : vIdx l i = .ok (l.getD i 0) := by
  rw [vIdx_lt h]
  simp [List.getD, List.getElem?_eq_getElem h]

/-- `for (...) v.push_back(g(i))`. -/
theorem push_loop {α : Type} {hi : Nat} {body : Nat → List α → Res (List α)} (g : Nat → α)
    (h : ∀ i, i < hi → ∀ l, body i l = .ok (l ++ [g i])) :
    forRange 0 hi body [] = .ok ((List.range hi).map g) := by
  have := forRange_ok (Nat.zero_le hi) (f := body) (fun k => (List.range k).map g) (by
    intro i _ h2
    rw [h i h2, List.range_succ, List.map_append, List.map_singleton])
  simpa using this

end MU
