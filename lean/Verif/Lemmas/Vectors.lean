import Verif.Model.Vectors
import Verif.Lemmas.Loops
import Mathlib.Tactic.Linarith
import Mathlib.Tactic.Ring
import Mathlib.Tactic.FieldSimp
import Mathlib.Tactic.Positivity
import Mathlib.Tactic.NormNum
import Mathlib.Tactic.Push

set_option linter.unusedSectionVars false

/-!
# Loops that fill a vector
-/

namespace MU

/-- A loop that fills the first `k` elements. -/
theorem fill_loop {α : Type} {n k : Nat} (hk : k ≤ n) (z : α) {body : Nat → List α → Res (List α)} (g : Nat → α)
    (h : ∀ i, i < k → ∀ out : List α, out.length = n → body i out = vSet out i (g i)) :
    forRange 0 k body (List.replicate n z) = .ok ((List.range n).map (fun i => if i < k then g i else z)) := by
  have := forRange_ok (Nat.zero_le k) (f := body) (fun j => (List.range n).map (fun i => if i < j then g i else z)) (by
    intro i _ hi
    rw [h i hi _ (by simp)]
    unfold vSet
    rw [if_pos (by simp; omega)]
    congr 1
    apply List.ext_getElem?
    intro j
    rw [List.getElem?_set]
    by_cases hij : i = j
    · subst hij
      have : i < n := by omega
      simp [this]
    · rw [if_neg hij]
      by_cases hjn : j < n
      · have e : (j ≤ i) = (j < i) := by
          apply propext
          omega
        simp [hjn, e]
      · simp [hjn])
  simp only [Nat.not_lt_zero, if_false] at this
  rw [← this]
  congr 1
  apply List.ext_getElem <;> simp

/-- A loop that fills the whole vector. -/
theorem fill_all {α : Type} {n : Nat} (z : α) {body : Nat → List α → Res (List α)} (g : Nat → α)
    (h : ∀ i, i < n → ∀ out : List α, out.length = n → body i out = vSet out i (g i)) :
    forRange 0 n body (List.replicate n z) = .ok ((List.range n).map g) := by
  rw [fill_loop (le_refl n) z g h]
  congr 1
  apply List.map_congr_left
  intro i hi
  simp at hi
  simp [hi]

/-- A loop that replaces each element of a vector by a function of it. -/
theorem map_loop {α : Type} {l : List α} {body : Nat → List α → Res (List α)} (g : α → α)
    (h : ∀ i (hi : i < l.length), ∀ out : List α, out.length = l.length → out[i]? = some l[i] → body i out = vSet out i (g l[i])) :
    forRange 0 l.length body l = .ok (l.map g) := by
  have := forRange_ok (Nat.zero_le l.length) (f := body) (fun j => (l.take j).map g ++ l.drop j) (by
    intro i _ hi
    have e : ((l.take i).map g ++ l.drop i)[i]? = some l[i] := by
      rw [List.getElem?_append_right (by simp)]
      simp [hi.le, hi]
    rw [h i hi _ (by simp; omega) e]
    unfold vSet
    rw [if_pos (by simp; omega)]
    congr 1
    apply List.ext_getElem?
    intro j
    rw [List.getElem?_set]
    by_cases hij : i = j
    · subst hij
      rw [if_pos rfl, if_pos (by simp; omega), List.getElem?_append_left (by simp; omega)]
      simp [hi]
    · rw [if_neg hij]
      rcases lt_or_gt_of_ne hij with hlt | hlt
      · rw [List.getElem?_append_right (by simp; omega), List.getElem?_append_right (by simp; omega)]
        simp only [List.length_map, List.length_take, List.getElem?_drop]
        congr 1
        omega
      · rw [List.getElem?_append_left (by simp; omega), List.getElem?_append_left (by simp; omega)]
        simp only [List.getElem?_map, List.getElem?_take]
        rw [if_pos hlt, if_pos (by omega)])
  simpa using this

theorem vIdx_eq {α : Type} {l : List α} {i : Nat} {a : α} (h : l[i]? = some a) : vIdx l i = .ok a := by
  simp [vIdx, h]

theorem vAt_eq {α : Type} {l : List α} {i : Nat} {a : α} (h : l[i]? = some a) : vAt l i = .ok a := by
  simp [vAt, h]

section
variable {K : Type} [Field K] [DecidableEq K]

/-- The element-wise operations. -/
theorem zipLoop_ok (B : Build) {v1 v2 : List K} (hlen : v2.length = v1.length) {op : K → K → Res K} (f : K → K → K)
    (h : ∀ i (h1 : i < v1.length) (h2 : i < v2.length), op v1[i] v2[i] = .ok (f v1[i] v2[i])) :
    zipLoop B v1 v2 op = .ok (List.zipWith f v1 v2) := by
  unfold zipLoop
  simp only [cassert_true B _ hlen, Res.ok_bind]
  rw [fill_all (0 : K) (fun i => f (v1.getD i 0) (v2.getD i 0))]
  · congr 1
    apply List.ext_getElem
    · simp [hlen]
    · intro i h1 h2
      have : i < v1.length := by simpa using h1
      simp [List.getD, List.getElem?_eq_getElem, this, hlen]
  · intro i hi out _
    have hi2 : i < v2.length := by omega
    rw [vIdx_lt hi, Res.ok_bind, vIdx_lt hi2, Res.ok_bind, h i hi hi2, Res.ok_bind]
    simp [List.getD, List.getElem?_eq_getElem, hi, hi2]

theorem zipLoop_refused {v1 v2 : List K} (hlen : v2.length ≠ v1.length) (op : K → K → Res K) : zipLoop ⟨true⟩ v1 v2 op = .aborts := by
  unfold zipLoop
  simp only [cassert_false _ hlen, Res.aborts_bind]

end

section
variable {K : Type} [Field K] [LinearOrder K]

theorem elementwise {x : List K} {body : Nat → List K → Res (List K)} (f : K → K)
    (h : ∀ i (hi : i < x.length), ∀ out : List K, out.length = x.length → body i out = vSet out i (f x[i])) :
    forRange 0 x.length body (List.replicate x.length 0) = .ok (x.map f) := by
  rw [fill_all (0 : K) (fun i => f (x.getD i 0))]
  · congr 1
    apply List.ext_getElem
    · simp
    · intro i h1 h2
      have : i < x.length := by simpa using h1
      simp [List.getD, List.getElem?_eq_getElem, this]
  · intro i hi out ho
    rw [h i hi out ho]
    simp [List.getD, List.getElem?_eq_getElem, hi]

theorem linspace_ok (B : Build) {start stop : K} {num : Nat} (hn : 2 ≤ num) (hn2 : num < 2 ^ 32) (hle : start ≤ stop) :
    linspace B start stop num = .ok ((List.range num).map (fun i : Nat =>
      if i = num - 1 then stop else start + (i : K) * ((stop - start) / ((num - 1 : Nat) : K)))) := by
  unfold linspace
  rw [cassert_true B _ (by omega), Res.ok_bind, cassert_true B _ hle, Res.ok_bind]
  simp only [usub_of_le (show 1 ≤ num by omega) hn2]
  rw [fill_loop (show num - 1 ≤ num by omega) (0 : K) (fun i : Nat => start + (i : K) * ((stop - start) / ((num - 1 : Nat) : K)))
    (fun i _ out _ => rfl), Res.ok_bind]
  unfold vSet
  rw [if_pos (by simp; omega)]
  congr 1
  apply List.ext_getElem?
  intro j
  rw [List.getElem?_set]
  by_cases hj : num - 1 = j
  · subst hj
    rw [if_pos rfl, if_pos (by simp; omega)]
    have : num - 1 < num := by omega
    simp [this]
  · rw [if_neg hj]
    by_cases hjn : j < num
    · have h1 : j < num - 1 := by omega
      have h2 : j ≠ num - 1 := by omega
      simp [hjn, h1, h2]
    · simp [hjn]

end

end MU
