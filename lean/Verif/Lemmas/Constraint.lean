import Verif.Lemmas.Matrix

/-!
# Elimination of linear constraints by an orthogonal matrix
-/

namespace MU

open Finset Spec

variable {n p : Nat} {Q R C : Nat → Nat → ℝ}

/-- Orthogonal by columns. -/
theorem orth_cols {M : Mat ℝ} (h : (on M n n).transpose * on M n n = 1) {l l' : Nat} (hl : l < n) (hl' : l' < n) :
    ∑ i ∈ range n, M.entry i l * M.entry i l' = if l = l' then 1 else 0 := by
  have := congrFun (congrFun h ⟨l, hl⟩) ⟨l', hl'⟩
  simp only [Matrix.mul_apply, Matrix.transpose_apply, on, Matrix.one_apply, Fin.mk.injEq] at this
  rw [← this, ← Fin.sum_univ_eq_sum_range (fun i => M.entry i l * M.entry i l') n]

/-- Orthogonal by rows. -/
theorem orth_rows {M : Mat ℝ} (h : (on M n n).transpose * on M n n = 1) {l l' : Nat} (hl : l < n) (hl' : l' < n) :
    ∑ i ∈ range n, M.entry l i * M.entry l' i = if l = l' then 1 else 0 := by
  have h' : on M n n * (on M n n).transpose = 1 := mul_eq_one_comm.1 h
  have := congrFun (congrFun h' ⟨l, hl⟩) ⟨l', hl'⟩
  simp only [Matrix.mul_apply, Matrix.transpose_apply, on, Matrix.one_apply, Fin.mk.injEq] at this
  rw [← this, ← Fin.sum_univ_eq_sum_range (fun i => M.entry l i * M.entry l' i) n]

/-- The constraints, in the coordinates of the columns of `Q`. -/
theorem constraint_coords (hpn : p ≤ n) (hQ : ∀ l l', l < n → l' < n → ∑ i ∈ range n, Q i l * Q i l' = if l = l' then 1 else 0)
    (hC : ∀ j i, j < p → i < n → C j i = ∑ l ∈ range p, Q i l * R l j) (v : Nat → ℝ) {j : Nat} (hj : j < p) :
    ∑ i ∈ range n, C j i * ∑ l ∈ range n, Q i l * v l = ∑ l ∈ range p, R l j * v l := by
  calc ∑ i ∈ range n, C j i * ∑ l ∈ range n, Q i l * v l
      = ∑ i ∈ range n, ∑ k ∈ range p, ∑ l ∈ range n, R k j * v l * (Q i k * Q i l) := by
        refine sum_congr rfl fun i hi => ?_
        rw [hC j i hj (mem_range.1 hi), sum_mul_sum]
        refine sum_congr rfl fun k _ => sum_congr rfl fun l _ => ?_
        ring
    _ = ∑ k ∈ range p, ∑ l ∈ range n, R k j * v l * ∑ i ∈ range n, Q i k * Q i l := by
        rw [sum_comm]
        refine sum_congr rfl fun k _ => ?_
        rw [sum_comm]
        exact sum_congr rfl fun l _ => by rw [mul_sum]
    _ = ∑ k ∈ range p, R k j * v k := by
        refine sum_congr rfl fun k hk => ?_
        have hk := mem_range.1 hk
        rw [sum_eq_single k]
        · rw [hQ k k (by omega) (by omega), if_pos rfl, mul_one]
        · intro l hl hlk
          rw [hQ k l (by omega) (mem_range.1 hl), if_neg (fun h => hlk h.symm), mul_zero]
        · intro h
          exact absurd (mem_range.2 (by omega)) h

/-- Every vector is `Q v`. -/
theorem coords_back (hQ : ∀ l l', l < n → l' < n → ∑ i ∈ range n, Q l i * Q l' i = if l = l' then 1 else 0) (x : Nat → ℝ) {i : Nat} (hi : i < n) :
    ∑ l ∈ range n, Q i l * ∑ k ∈ range n, Q k l * x k = x i := by
  calc ∑ l ∈ range n, Q i l * ∑ k ∈ range n, Q k l * x k = ∑ k ∈ range n, x k * ∑ l ∈ range n, Q i l * Q k l := by
        simp only [mul_sum]
        rw [sum_comm]
        exact sum_congr rfl fun k _ => sum_congr rfl fun l _ => by ring
    _ = x i := by
        rw [sum_eq_single i]
        · rw [hQ i i hi hi, if_pos rfl, mul_one]
        · intro k hk hki
          rw [hQ i k hi (mem_range.1 hk), if_neg (fun h => hki h.symm), mul_zero]
        · intro h
          exact absurd (mem_range.2 hi) h

/-- The rows of the constraints are independent: `R` is injective. -/
theorem constraint_injective (hC : ∀ j i, j < p → i < n → C j i = ∑ l ∈ range p, Q i l * R l j)
    (hrank : ∀ w : Nat → ℝ, (∀ i, i < n → ∑ j ∈ range p, w j * C j i = 0) → ∀ j, j < p → w j = 0) (w : Nat → ℝ)
    (hw : ∀ l, l < p → ∑ j ∈ range p, R l j * w j = 0) : ∀ j, j < p → w j = 0 := by
  apply hrank
  intro i hi
  calc ∑ j ∈ range p, w j * C j i = ∑ j ∈ range p, ∑ l ∈ range p, Q i l * (R l j * w j) := by
        refine sum_congr rfl fun j hj => ?_
        rw [hC j i (mem_range.1 hj) hi, mul_sum]
        exact sum_congr rfl fun l _ => by ring
    _ = ∑ l ∈ range p, Q i l * ∑ j ∈ range p, R l j * w j := by
        rw [sum_comm]
        exact sum_congr rfl fun l _ => by rw [mul_sum]
    _ = 0 := sum_eq_zero fun l hl => by rw [hw l (mem_range.1 hl), mul_zero]

/-- The product by a matrix, in the coordinates of the columns of `Q`. -/
theorem product_coords (A : Nat → Nat → ℝ) (x v : Nat → ℝ) (hx : ∀ j, j < n → x j = ∑ l ∈ range n, Q j l * v l) (hpn : p ≤ n) (i : Nat) :
    ∑ j ∈ range n, A i j * x j
      = ∑ l ∈ range p, (∑ j ∈ range n, A i j * Q j l) * v l + ∑ l ∈ range (n - p), (∑ j ∈ range n, A i j * Q j (p + l)) * v (p + l) := by
  have e : ∑ j ∈ range n, A i j * x j = ∑ l ∈ range n, (∑ j ∈ range n, A i j * Q j l) * v l := by
    calc ∑ j ∈ range n, A i j * x j = ∑ j ∈ range n, ∑ l ∈ range n, A i j * Q j l * v l := by
          refine sum_congr rfl fun j hj => ?_
          rw [hx j (mem_range.1 hj), mul_sum]
          exact sum_congr rfl fun l _ => by ring
      _ = _ := by
          rw [sum_comm]
          exact sum_congr rfl fun l _ => by rw [sum_mul]
  rw [e]
  have := sum_range_add (fun l => (∑ j ∈ range n, A i j * Q j l) * v l) p (n - p)
  rw [show p + (n - p) = n by omega] at this
  exact this

end MU
