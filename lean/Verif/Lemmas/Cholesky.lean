import Verif.Spec.Matrix
import Mathlib.LinearAlgebra.Matrix.NonsingularInverse
import Mathlib.LinearAlgebra.Matrix.Block
import Mathlib.Tactic.Linarith
import Mathlib.Tactic.LinearCombination
import Mathlib.Tactic.Positivity
import Mathlib.Tactic.Ring

/-!
# The factorisation of Cholesky
-/

namespace MU

open Finset

/-- What the first `k` columns contain. -/
structure LltInv (n : Nat) (a c : Nat → Nat → ℝ) (k : Nat) : Prop where
  pos : ∀ j, j < k → 0 < c j j
  prod : ∀ i j, j < k → j ≤ i → i < n → ∑ l ∈ range (j + 1), c i l * c j l = a i j
  rest : ∀ i j, k ≤ j → c i j = a i j

theorem lltStep_some {n k : Nat} {a c c' : Nat → Nat → ℝ} (hk : k < n) (h : LltInv n a c k) (hs : lltStep n k c = some c') :
    LltInv n a c' (k + 1) := by
  unfold lltStep at hs
  simp only at hs
  split at hs
  · cases hs
  · rename_i hx
    rw [not_le] at hx
    have hsq := Real.mul_self_sqrt hx.le
    have hsp := Real.sqrt_pos.2 hx
    generalize Real.sqrt (c k k - ∑ l ∈ range k, c k l ^ 2) = s at *
    cases hs
    have old : ∀ i j, j ≠ k → (if j = k then if i = k then s else if k < i ∧ i < n then (c i k - ∑ l ∈ range k, c i l * c k l) / s else c i j else c i j) = c i j :=
      fun i j hj => if_neg hj
    have eqk : (if k = k then if k = k then s else if k < k ∧ k < n then (c k k - ∑ l ∈ range k, c k l * c k l) / s else c k k else c k k) = s := by
      rw [if_pos rfl, if_pos rfl]
    constructor
    · intro j hj
      by_cases hjk : j = k
      · subst hjk
        simpa using hsp
      · simp only [if_neg hjk]
        exact h.pos j (by omega)
    · intro i j hj hji hi
      by_cases hjk : j = k
      · subst hjk
        rw [sum_range_succ]
        have e : ∑ l ∈ range j, (if l = j then if i = j then s else if j < i ∧ i < n then (c i j - ∑ l ∈ range j, c i l * c j l) / s else c i l else c i l) *
            (if l = j then if j = j then s else if j < j ∧ j < n then (c j j - ∑ l ∈ range j, c j l * c j l) / s else c j l else c j l)
            = ∑ l ∈ range j, c i l * c j l := by
          refine sum_congr rfl fun l hl => ?_
          have := mem_range.1 hl
          rw [if_neg (by omega), if_neg (by omega)]
        rw [e]
        simp only [if_true]
        by_cases hij : i = j
        · subst hij
          rw [if_pos rfl, hsq, ← h.rest i i le_rfl]
          simp only [sq]
          ring
        · rw [if_neg hij, if_pos ⟨by omega, hi⟩, ← h.rest i j le_rfl]
          field_simp
          ring
      · rw [← h.prod i j (by omega) hji hi]
        refine sum_congr rfl fun l hl => ?_
        have := mem_range.1 hl
        rw [if_neg (by omega), if_neg (by omega)]
    · intro i j hj
      rw [if_neg (by omega)]
      exact h.rest i j (by omega)

theorem lltN_inv {n : Nat} {a : Nat → Nat → ℝ} (k : Nat) (hk : k ≤ n) {c : Nat → Nat → ℝ} (h : lltN n a k = some c) : LltInv n a c k := by
  induction k generalizing c with
  | zero =>
    cases h
    exact ⟨fun j hj => absurd hj (Nat.not_lt_zero j), fun i j hj => absurd hj (Nat.not_lt_zero j), fun i j _ => rfl⟩
  | succ k ih =>
    simp only [lltN] at h
    cases hc : lltN n a k with
    | none => rw [hc] at h; cases h
    | some b =>
      rw [hc] at h
      exact lltStep_some (by omega) (ih (by omega) hc) h

/-- The symmetric matrix with the lower triangle of `a`. -/
def symLow (a : Nat → Nat → ℝ) (i j : Nat) : ℝ := if j ≤ i then a i j else a j i

/-- The products of rows, lower triangle only. -/
theorem prod_sym {n : Nat} {a c : Nat → Nat → ℝ} {k : Nat} (h : LltInv n a c k) {m i j : Nat} (hi : i < n) (hj : j < n) (him : i < k ∨ j < k)
    (hm : min i j + 1 ≤ m) :
    ∑ l ∈ range m, (if l ≤ i then c i l else 0) * (if l ≤ j then c j l else 0) = symLow a i j := by
  have aux : ∀ i j, i < n → j < k → j ≤ i → j + 1 ≤ m → ∑ l ∈ range m, (if l ≤ i then c i l else 0) * (if l ≤ j then c j l else 0) = a i j := by
    intro i j hi hjk hji hm
    rw [← h.prod i j hjk hji hi]
    have : ∑ l ∈ range (j + 1), c i l * c j l = ∑ l ∈ range (j + 1), (if l ≤ i then c i l else 0) * (if l ≤ j then c j l else 0) := by
      refine sum_congr rfl fun l hl => ?_
      have := mem_range.1 hl
      rw [if_pos (by omega), if_pos (by omega)]
    rw [this]
    symm
    apply sum_subset (range_mono hm)
    intro l _ hl
    have : ¬ l < j + 1 := fun h => hl (mem_range.2 h)
    rw [if_neg (show ¬ l ≤ j by omega), mul_zero]
  unfold symLow
  by_cases hji : j ≤ i
  · rw [if_pos hji]
    exact aux i j hi (by omega) hji (by omega)
  · rw [if_neg hji]
    have := aux j i hj (by omega) (by omega) (by omega)
    rw [← this]
    exact sum_congr rfl fun l _ => mul_comm _ _

/-- A triangular system with a non-zero diagonal has a solution. -/
theorem solve_upper {k : Nat} {c : Nat → Nat → ℝ} (hp : ∀ j, j < k → 0 < c j j) (b : Nat → ℝ) :
    ∃ w : Nat → ℝ, ∀ l, l < k → ∑ i ∈ range k, w i * (if l ≤ i then c i l else 0) = b l := by
  let M : Matrix (Fin k) (Fin k) ℝ := fun l i => if (l : Nat) ≤ i then c i l else 0
  have hdet : IsUnit M.det := by
    have ht : M.BlockTriangular id := by
      intro i j hij
      have : (j : Nat) < i := hij
      show (if (i : Nat) ≤ j then c j i else 0) = 0
      rw [if_neg (by omega)]
    rw [Matrix.det_of_upperTriangular ht, isUnit_iff_ne_zero, prod_ne_zero_iff]
    intro i _
    show (if (i : Nat) ≤ i then c i i else 0) ≠ 0
    rw [if_pos le_rfl]
    exact (hp i i.2).ne'
  let v : Fin k → ℝ := M⁻¹.mulVec (fun l => b l)
  have hv : M.mulVec v = fun l : Fin k => b l := by
    show M.mulVec (M⁻¹.mulVec _) = _
    rw [Matrix.mulVec_mulVec, Matrix.mul_nonsing_inv _ hdet, Matrix.one_mulVec]
  refine ⟨fun i => if h : i < k then v ⟨i, h⟩ else 0, fun l hl => ?_⟩
  have := congrFun hv ⟨l, hl⟩
  simp only [Matrix.mulVec, dotProduct] at this
  rw [← this, ← Fin.sum_univ_eq_sum_range (fun i => (if h : i < k then v ⟨i, h⟩ else 0) * (if l ≤ i then c i l else 0)) k]
  refine sum_congr rfl fun i _ => ?_
  rw [dif_pos i.2, mul_comm]

/-- A square as a double sum. -/
theorem sq_sum (s : Finset Nat) (f : Nat → ℝ) : (∑ i ∈ s, f i) ^ 2 = ∑ i ∈ s, ∑ j ∈ s, f i * f j := by
  rw [sq, sum_mul_sum]

/-- The quadratic form of a product of a lower triangular matrix by its transpose. -/
theorem quad_form {k m : Nat} (L S : Nat → Nat → ℝ) (v : Nat → ℝ) (h : ∀ i j, i < k → j < k → ∑ l ∈ range m, L i l * L j l = S i j) :
    ∑ i ∈ range k, ∑ j ∈ range k, v i * S i j * v j = ∑ l ∈ range m, (∑ i ∈ range k, v i * L i l) ^ 2 := by
  have e : ∑ l ∈ range m, (∑ i ∈ range k, v i * L i l) ^ 2 = ∑ l ∈ range m, ∑ i ∈ range k, ∑ j ∈ range k, (v i * L i l) * (v j * L j l) :=
    sum_congr rfl fun l _ => sq_sum _ _
  rw [e, sum_comm (s := range m)]
  refine sum_congr rfl fun i hi => ?_
  rw [sum_comm (s := range m)]
  refine sum_congr rfl fun j hj => ?_
  rw [← h i j (mem_range.1 hi) (mem_range.1 hj), mul_sum, sum_mul]
  refine sum_congr rfl fun l _ => ?_
  ring

/-- When the factorisation succeeds, the symmetric matrix with this lower triangle is positive definite. -/
theorem llt_posDef {n : Nat} {a c : Nat → Nat → ℝ} (h : LltInv n a c n) (v : Nat → ℝ) (hv : ∃ i < n, v i ≠ 0) :
    0 < ∑ i ∈ range n, ∑ j ∈ range n, v i * symLow a i j * v j := by
  rw [quad_form (m := n) (fun i l => if l ≤ i then c i l else 0) (symLow a) v
    (fun i j hi hj => prod_sym h hi hj (Or.inl hi) (by omega))]
  -- the largest index where `v` is not zero
  have : ∃ i, (i < n ∧ v i ≠ 0) ∧ ∀ j, j < n → i < j → v j = 0 := by
    classical
    obtain ⟨i0, hi0, hv0⟩ := hv
    let F := (range n).filter (fun i => v i ≠ 0)
    have hF : F.Nonempty := ⟨i0, mem_filter.2 ⟨mem_range.2 hi0, hv0⟩⟩
    refine ⟨F.max' hF, ⟨mem_range.1 (mem_filter.1 (F.max'_mem hF)).1, (mem_filter.1 (F.max'_mem hF)).2⟩, fun j hj hlt => ?_⟩
    by_contra hne
    exact absurd (F.le_max' j (mem_filter.2 ⟨mem_range.2 hj, hne⟩)) (not_le.2 hlt)
  obtain ⟨i, ⟨hi, hvi⟩, hz⟩ := this
  refine lt_of_lt_of_le ?_ (single_le_sum (f := fun l => (∑ i ∈ range n, v i * (if l ≤ i then c i l else 0)) ^ 2)
    (fun l _ => sq_nonneg _) (mem_range.2 hi))
  have e : ∑ j ∈ range n, v j * (if i ≤ j then c j i else 0) = v i * c i i := by
    rw [sum_eq_single i]
    · rw [if_pos le_rfl]
    · intro j hj hji
      by_cases hij : i ≤ j
      · rw [hz j (mem_range.1 hj) (by omega), zero_mul]
      · rw [if_neg hij, mul_zero]
    · intro hn
      exact absurd (mem_range.2 hi) hn
  show 0 < (∑ j ∈ range n, v j * (if i ≤ j then c j i else 0)) ^ 2
  rw [e]
  have := h.pos i hi
  positivity

/-- When the factorisation stops, the symmetric matrix with this lower triangle is not positive definite. -/
theorem llt_not_posDef {n k : Nat} {a c : Nat → Nat → ℝ} (hk : k < n) (h : LltInv n a c k) (hs : lltStep n k c = none) :
    ∃ v : Nat → ℝ, (∃ i < n, v i ≠ 0) ∧ ∑ i ∈ range n, ∑ j ∈ range n, v i * symLow a i j * v j ≤ 0 := by
  have hx : c k k - ∑ l ∈ range k, c k l ^ 2 ≤ 0 := by
    unfold lltStep at hs
    simp only at hs
    split at hs
    · assumption
    · cases hs
  obtain ⟨w, hw⟩ := solve_upper h.pos (fun l => -c k l)
  refine ⟨fun i => if i < k then w i else if i = k then 1 else 0, ⟨k, hk, by simp⟩, ?_⟩
  -- only the first `k + 1` rows and columns count
  have cut : ∀ f : Nat → ℝ, ∑ i ∈ range n, (if i < k then w i else if i = k then 1 else 0) * f i = ∑ i ∈ range k, w i * f i + f k := by
    intro f
    have : ∑ i ∈ range (k + 1), (if i < k then w i else if i = k then 1 else 0) * f i
        = ∑ i ∈ range n, (if i < k then w i else if i = k then 1 else 0) * f i := by
      apply sum_subset (range_mono (by omega))
      intro i _ hi
      have : ¬ i < k + 1 := fun h => hi (mem_range.2 h)
      rw [if_neg (by omega), if_neg (by omega), zero_mul]
    rw [← this, sum_range_succ, if_neg (lt_irrefl k), if_pos rfl, one_mul]
    congr 1
    refine sum_congr rfl fun i hi => ?_
    rw [if_pos (mem_range.1 hi)]
  have e1 : ∑ i ∈ range n, ∑ j ∈ range n, (if i < k then w i else if i = k then 1 else 0) * symLow a i j * (if j < k then w j else if j = k then 1 else 0)
      = ∑ i ∈ range k, w i * (∑ j ∈ range k, w j * symLow a i j + symLow a i k) + (∑ j ∈ range k, w j * symLow a k j + symLow a k k) := by
    have inner : ∀ i, ∑ j ∈ range n, (if i < k then w i else if i = k then 1 else 0) * symLow a i j * (if j < k then w j else if j = k then 1 else 0)
        = (if i < k then w i else if i = k then 1 else 0) * (∑ j ∈ range k, w j * symLow a i j + symLow a i k) := by
      intro i
      rw [← cut (fun j => symLow a i j), mul_sum]
      refine sum_congr rfl fun j _ => ?_
      ring
    simp only [inner]
    exact cut (fun i => ∑ j ∈ range k, w j * symLow a i j + symLow a i k)
  rw [e1]
  have key : ∀ i, i < k → ∑ l ∈ range k, (if l ≤ i then c i l else 0) * c k l = symLow a i k := by
    intro i hi
    rw [← prod_sym h (m := k) (by omega) hk (Or.inl hi) (by omega)]
    refine sum_congr rfl fun l hl => ?_
    have := mem_range.1 hl
    rw [if_pos (show l ≤ k by omega)]
  have symm : ∀ i j, symLow a i j = symLow a j i := by
    intro i j
    unfold symLow
    by_cases h1 : j ≤ i <;> by_cases h2 : i ≤ j
    · have : i = j := by omega
      subst this; rfl
    · rw [if_pos h1, if_neg h2]
    · rw [if_neg h1, if_pos h2]
    · omega
  have q := quad_form (k := k) (m := k) (fun i l => if l ≤ i then c i l else 0) (symLow a) w
    (fun i j hi hj => prod_sym h (by omega) (by omega) (Or.inl hi) (by omega))
  have hw2 : ∑ l ∈ range k, (∑ i ∈ range k, w i * (if l ≤ i then c i l else 0)) ^ 2 = ∑ l ∈ range k, c k l ^ 2 := by
    refine sum_congr rfl fun l hl => ?_
    rw [hw l (mem_range.1 hl)]
    ring
  have cross : ∑ i ∈ range k, w i * symLow a i k = -∑ l ∈ range k, c k l ^ 2 := by
    have : ∑ i ∈ range k, w i * symLow a i k = ∑ l ∈ range k, (∑ i ∈ range k, w i * (if l ≤ i then c i l else 0)) * c k l := by
      calc ∑ i ∈ range k, w i * symLow a i k = ∑ i ∈ range k, ∑ l ∈ range k, w i * (if l ≤ i then c i l else 0) * c k l := by
            refine sum_congr rfl fun i hi => ?_
            rw [← key i (mem_range.1 hi), mul_sum]
            exact sum_congr rfl fun l _ => by ring
        _ = _ := by
            rw [sum_comm]
            exact sum_congr rfl fun l _ => by rw [sum_mul]
    rw [this, ← sum_neg_distrib]
    refine sum_congr rfl fun l hl => ?_
    rw [hw l (mem_range.1 hl)]
    ring
  have e2 : ∑ i ∈ range k, w i * (∑ j ∈ range k, w j * symLow a i j + symLow a i k)
      = ∑ i ∈ range k, ∑ j ∈ range k, w i * symLow a i j * w j + ∑ i ∈ range k, w i * symLow a i k := by
    rw [← sum_add_distrib]
    refine sum_congr rfl fun i _ => ?_
    rw [mul_add, mul_sum]
    congr 1
    exact sum_congr rfl fun j _ => by ring
  have e3 : ∑ j ∈ range k, w j * symLow a k j = ∑ i ∈ range k, w i * symLow a i k := sum_congr rfl fun i _ => by rw [symm]
  have e4 : symLow a k k = c k k := by
    rw [h.rest k k le_rfl]
    unfold symLow
    rw [if_pos le_rfl]
  rw [e2, e3, q, hw2, cross, e4]
  linarith

/-- The factorisation succeeds exactly on positive definite matrices. -/
theorem llt_iff (n : Nat) (a : Nat → Nat → ℝ) :
    (∃ c, lltN n a n = some c) ↔ ∀ v : Nat → ℝ, (∃ i < n, v i ≠ 0) → 0 < ∑ i ∈ range n, ∑ j ∈ range n, v i * symLow a i j * v j := by
  constructor
  · rintro ⟨c, hc⟩ v hv
    exact llt_posDef (lltN_inv n le_rfl hc) v hv
  · intro hp
    have : ∀ k, k ≤ n → ∃ c, lltN n a k = some c := by
      intro k
      induction k with
      | zero => exact fun _ => ⟨a, rfl⟩
      | succ k ih =>
        intro hk
        obtain ⟨c, hc⟩ := ih (by omega)
        cases hs : lltStep n k c with
        | some c' => exact ⟨c', by simp only [lltN, hc]; exact hs⟩
        | none =>
          obtain ⟨v, hv, hle⟩ := llt_not_posDef (by omega) (lltN_inv k (by omega) hc) hs
          exact absurd (hp v hv) (not_lt.2 hle)
    exact this n le_rfl

end MU
