import Verif.Core
import Mathlib.Data.List.TakeWhile

/-! Binary searches on sorted vectors. -/

namespace MU

variable {K : Type} [LinearOrder K]

omit [LinearOrder K] in
theorem takeWhile_length_spec {p : K → Bool} {l : List K}
    (h : l.Pairwise (fun a b => p b = true → p a = true)) (j : Nat) (hj : j < l.length) :
    j < (l.takeWhile p).length ↔ p l[j] = true := by
  induction l generalizing j with
  | nil => simp at hj
  | cons a t ih =>
    rw [List.pairwise_cons] at h
    by_cases ha : p a = true
    · rw [List.takeWhile_cons_of_pos ha]
      cases j with
      | zero => simp [ha]
      | succ j =>
        have := ih h.2 j (by simpa using hj)
        simpa using this
    · rw [List.takeWhile_cons_of_neg ha]
      simp only [List.length_nil, not_lt_zero, false_iff]
      intro hp
      cases j with
      | zero => exact ha (by simpa using hp)
      | succ j =>
        simp only [List.getElem_cons_succ] at hp
        exact ha (h.1 _ (List.getElem_mem _) hp)

omit [LinearOrder K] in
theorem dropWhile_all {p : K → Bool} {l : List K}
    (h : l.Pairwise (fun a b => p b = true → p a = true)) :
    (l.dropWhile p).all (fun a => !p a) = true := by
  induction l with
  | nil => simp
  | cons a t ih =>
    rw [List.pairwise_cons] at h
    by_cases ha : p a = true
    · rw [List.dropWhile_cons_of_pos ha]; exact ih h.2
    · rw [List.dropWhile_cons_of_neg ha]
      simp only [List.all_cons, Bool.and_eq_true, Bool.not_eq_true', List.all_eq_true]
      refine ⟨by simpa using ha, fun x hx => ?_⟩
      by_contra hc
      exact ha (h.1 x hx (by simpa using hc))

/-- On a sorted vector `std::lower_bound` returns the position splitting the elements below `v` from the others. -/
theorem lowerBound_spec {l : List K} (h : l.Pairwise (· ≤ ·)) (v : K) :
    ∃ k, lowerBound l v = .ok k ∧ k ≤ l.length ∧ ∀ j (hj : j < l.length), j < k ↔ l[j] < v := by
  have hp : l.Pairwise (fun a b => decide (b < v) = true → decide (a < v) = true) :=
    h.imp (fun {a b} hab hb => by
      simp only [decide_eq_true_eq] at *; exact lt_of_le_of_lt hab hb)
  refine ⟨(l.takeWhile (fun a => decide (a < v))).length, ?_, (List.takeWhile_sublist _).length_le, ?_⟩
  · unfold lowerBound
    rw [if_pos]
    unfold partitionedLT
    simpa using dropWhile_all hp
  · intro j hj
    simpa using takeWhile_length_spec hp j hj

/-- On a sorted vector `std::upper_bound` returns the position splitting the elements not above `v` from the others. -/
theorem upperBound_spec {l : List K} (h : l.Pairwise (· ≤ ·)) (v : K) :
    ∃ k, upperBound l v = .ok k ∧ k ≤ l.length ∧ ∀ j (hj : j < l.length), j < k ↔ l[j] ≤ v := by
  have hp : l.Pairwise (fun a b => decide (b ≤ v) = true → decide (a ≤ v) = true) :=
    h.imp (fun {a b} hab hb => by
      simp only [decide_eq_true_eq] at *; exact le_trans hab hb)
  refine ⟨(l.takeWhile (fun a => decide (a ≤ v))).length, ?_, (List.takeWhile_sublist _).length_le, ?_⟩
  · unfold upperBound
    rw [if_pos]
    unfold partitionedLE
    simpa using dropWhile_all hp
  · intro j hj
    simpa using takeWhile_length_spec hp j hj

theorem pairwise_lt_le {l : List K} (h : l.Pairwise (· < ·)) : l.Pairwise (· ≤ ·) := h.imp le_of_lt

theorem getElem_lt_of_pairwise {l : List K} (h : l.Pairwise (· < ·)) {i j : Nat} (hij : i < j) (hj : j < l.length) :
    l[i] < l[j] := (List.pairwise_iff_getElem.mp h) i j (by omega) hj hij

theorem getElem_le_of_pairwise {l : List K} (h : l.Pairwise (· < ·)) {i j : Nat} (hij : i ≤ j) (hj : j < l.length) :
    l[i] ≤ l[j] := by
  rcases Nat.lt_or_eq_of_le hij with h1 | h1
  · exact le_of_lt (getElem_lt_of_pairwise h h1 hj)
  · subst h1; exact le_refl _

end MU
