import Verif.Lemmas.SplineTheory
import Mathlib.Algebra.Polynomial.Degree.Lemmas
import Mathlib.Algebra.BigOperators.Intervals
import Mathlib.Algebra.BigOperators.Field
import Mathlib.Tactic.FieldSimp

/-!
B-splines on a knot sequence, piece by piece, by the recursion of Cox and de Boor: the facts behind Eigen's spline module, which
/repo/src/MathUtils/Spline.h uses. Nothing here models code.
-/

set_option linter.unusedSectionVars false

namespace MU
namespace SW

open Polynomial Finset

/-- `1 / (t (k + q) - t k)`, zero when the knots coincide. -/
noncomputable def wt (t : ℕ → ℝ) (q k : ℕ) : ℝ := (t (k + q) - t k)⁻¹

/-- The polynomial that the B-spline number `k` of degree `q` is on the interval number `i`. -/
noncomputable def bs (t : ℕ → ℝ) (i : ℕ) : ℕ → ℕ → ℝ[X]
  | 0, k => if k = i then 1 else 0
  | q + 1, k => C (wt t (q + 1) k) * (X - C (t k)) * bs t i q k +
      C (wt t (q + 1) (k + 1)) * (C (t (k + q + 2)) - X) * bs t i q (k + 1)

variable {t : ℕ → ℝ} {i n : ℕ}

theorem bs_succ (q k : ℕ) : bs t i (q + 1) k = C (wt t (q + 1) k) * (X - C (t k)) * bs t i q k +
    C (wt t (q + 1) (k + 1)) * (C (t (k + q + 2)) - X) * bs t i q (k + 1) := by rw [bs]

theorem bs_nought (k : ℕ) : bs t i 0 k = if k = i then 1 else 0 := by rw [bs]

theorem bs_zero {q k : ℕ} (h : i < k ∨ k + q < i) : bs t i q k = 0 := by
  induction q generalizing k with
  | zero => rw [bs, if_neg (by omega)]
  | succ q ih => rw [bs, ih (by omega), ih (by omega)]; ring

theorem bs_natDegree (q k : ℕ) : (bs t i q k).natDegree ≤ q := by
  induction q generalizing k with
  | zero => rw [bs]; split_ifs <;> simp
  | succ q ih =>
    rw [bs]
    refine (natDegree_add_le _ _).trans (max_le ?_ ?_)
    · refine (natDegree_mul_le).trans ?_
      have h1 : (C (wt t (q + 1) k) * (X - C (t k))).natDegree ≤ 1 :=
        (natDegree_C_mul_le _ _).trans (natDegree_X_sub_C_le _)
      have := ih k
      omega
    · refine (natDegree_mul_le).trans ?_
      have h1 : (C (wt t (q + 1) (k + 1)) * (C (t (k + q + 2)) - X)).natDegree ≤ 1 := by
        refine (natDegree_C_mul_le _ _).trans ?_
        rw [← neg_sub, natDegree_neg]
        exact natDegree_X_sub_C_le _
      have := ih (k + 1)
      omega

theorem wt_mul {q k : ℕ} (h : t (k + q) - t k ≠ 0) : wt t q k * (t (k + q) - t k) = 1 := inv_mul_cancel₀ h

/-- The derivative of a B-spline. -/
theorem bs_derivative (ht : Monotone t) (q k : ℕ) : derivative (bs t i (q + 1) k) =
    C ((q : ℝ) + 1) * (C (wt t (q + 1) k) * bs t i q k - C (wt t (q + 1) (k + 1)) * bs t i q (k + 1)) := by
  induction q generalizing k with
  | zero =>
    rw [bs_succ]
    have h : ∀ k, derivative (bs t i 0 k) = 0 := fun k => by rw [bs]; split_ifs <;> simp
    simp only [derivative_add, derivative_mul, derivative_C, derivative_sub, derivative_X, h, Nat.cast_zero, zero_add, C_1]
    ring
  | succ q ih =>
    have key : wt t (q + 1) (k + 1) * (wt t (q + 2) k * (t (k + q + 2) - t k) -
        wt t (q + 2) (k + 1) * (t (k + q + 3) - t (k + 1))) = 0 := by
      by_cases h1 : t (k + 1 + (q + 1)) - t (k + 1) = 0
      · rw [wt, h1]; simp
      · have m1 : t k ≤ t (k + 1) := ht (by omega)
        have m2 : t (k + 1) ≤ t (k + 1 + (q + 1)) := ht (by omega)
        have m3 : t (k + 1 + (q + 1)) ≤ t (k + 1 + (q + 2)) := ht (by omega)
        have h2 : t (k + (q + 2)) - t k ≠ 0 := by
          rw [show k + (q + 2) = k + 1 + (q + 1) by omega]
          intro h; apply h1; linarith
        have h3 : t (k + 1 + (q + 2)) - t (k + 1) ≠ 0 := by intro h; apply h1; linarith
        have e1 := wt_mul h2
        have e2 := wt_mul h3
        rw [show k + q + 2 = k + (q + 2) by omega, show k + q + 3 = k + 1 + (q + 2) by omega, e1, e2]
        ring
    have keyC := congrArg (fun x : ℝ => (C x : ℝ[X])) key
    simp only [C_mul, C_sub, C_0] at keyC
    rw [bs_succ (q + 1)]
    simp only [derivative_add, derivative_mul, derivative_C, derivative_sub, derivative_X]
    rw [ih k, ih (k + 1)]
    have e1 : bs t i (q + 1) k = C (wt t (q + 1) k) * (X - C (t k)) * bs t i q k +
      C (wt t (q + 1) (k + 1)) * (C (t (k + q + 2)) - X) * bs t i q (k + 1) := by rw [bs]
    have e2 : bs t i (q + 1) (k + 1) = C (wt t (q + 1) (k + 1)) * (X - C (t (k + 1))) * bs t i q (k + 1) +
      C (wt t (q + 1) (k + 2)) * (C (t (k + q + 3)) - X) * bs t i q (k + 2) := by
      rw [bs, show k + 1 + q + 2 = k + q + 3 by omega]
    have e3 : k + (q + 1) + 2 = k + q + 3 := by omega
    have e4 : q + 1 + 1 = q + 2 := rfl
    have e5 : k + 1 + 1 = k + 2 := rfl
    rw [e3, e4, e5]
    push_cast
    rw [e1, e2]
    simp only [C_add, C_1]
    generalize bs t i q k = b0
    generalize bs t i q (k + 1) = b1 at *
    generalize bs t i q (k + 2) = b2
    linear_combination (-(C (q : ℝ) + 1) * b1) * keyC

/-- The spline with coefficients `c 0, ..., c (n - 1)`, on the interval number `i`. -/
noncomputable def sp (t : ℕ → ℝ) (n i q : ℕ) (c : ℕ → ℝ) : ℝ[X] := ∑ k ∈ range n, C (c k) * bs t i q k

theorem sum_shift (g : ℕ → ℝ[X]) (n : ℕ) (h0 : g 0 = 0) (hn : g n = 0) : ∑ k ∈ range n, g (k + 1) = ∑ k ∈ range n, g k := by
  have h1 := sum_range_succ' g n
  have h2 := sum_range_succ g n
  rw [h0, add_zero] at h1
  rw [hn, add_zero] at h2
  rw [← h1, h2]

/-- The coefficients of the derivative. -/
noncomputable def dcoef (t : ℕ → ℝ) (q : ℕ) (c : ℕ → ℝ) (k : ℕ) : ℝ := ((q : ℝ) + 1) * (c k - c (k - 1)) * wt t (q + 1) k

theorem sp_derivative (ht : Monotone t) {q : ℕ} (hq : q + 1 ≤ i) (hi : i < n) (c : ℕ → ℝ) :
    derivative (sp t n i (q + 1) c) = sp t n i q (dcoef t q c) := by
  rw [sp, derivative_sum]
  have h1 : ∀ k, derivative (C (c k) * bs t i (q + 1) k) =
      C (((q : ℝ) + 1) * c k * wt t (q + 1) k) * bs t i q k -
      (fun j => C (((q : ℝ) + 1) * c (j - 1) * wt t (q + 1) j) * bs t i q j) (k + 1) := by
    intro k
    simp only [derivative_mul, derivative_C, zero_mul, zero_add]
    rw [bs_derivative ht]
    simp only [C_mul, C_add, C_1, Nat.add_sub_cancel]
    ring
  rw [sum_congr rfl (fun k _ => h1 k), sum_sub_distrib,
    sum_shift (fun j => C (((q : ℝ) + 1) * c (j - 1) * wt t (q + 1) j) * bs t i q j), ← sum_sub_distrib, sp]
  · refine sum_congr rfl (fun k _ => ?_)
    rw [dcoef, ← sub_mul, ← C_sub]
    congr 2
    ring
  · simp only [bs_zero (t := t) (i := i) (q := q) (k := 0) (by omega), mul_zero]
  · simp only [bs_zero (t := t) (i := i) (q := q) (k := n) (by omega), mul_zero]

theorem sp_natDegree (q : ℕ) (c : ℕ → ℝ) : (sp t n i q c).natDegree ≤ q := by
  refine natDegree_sum_le_of_forall_le _ _ (fun k _ => ?_)
  exact (natDegree_C_mul_le _ _).trans (bs_natDegree q k)

/-- Two neighbouring pieces of a B-spline agree at the knot between them. -/
theorem bs_joined (h1 : t i < t (i + 1)) (h2 : t (i + 1) < t (i + 2)) (q k : ℕ) :
    (bs t i (q + 1) k).eval (t (i + 1)) = (bs t (i + 1) (q + 1) k).eval (t (i + 1)) := by
  induction q generalizing k with
  | zero =>
    simp only [bs_succ, bs_nought, eval_add, eval_mul, eval_C, eval_sub, eval_X]
    rcases Nat.lt_trichotomy k i with h | h | h
    · by_cases hk : k + 1 = i
      · rw [if_neg (by omega : ¬ k = i), if_pos hk, if_neg (by omega : ¬ k = i + 1), if_neg (by omega : ¬ k + 1 = i + 1),
          show k + 0 + 2 = i + 1 by omega]
        simp
      · rw [if_neg (by omega : ¬ k = i), if_neg hk, if_neg (by omega : ¬ k = i + 1), if_neg (by omega : ¬ k + 1 = i + 1)]
    · subst h
      rw [if_pos rfl, if_neg (by omega), if_neg (by omega), if_pos rfl]
      have e1 := wt_mul (t := t) (q := 1) (k := k) (by linarith)
      have e2 := wt_mul (t := t) (q := 1) (k := k + 1) (by rw [show k + 1 + 1 = k + 2 by rfl]; linarith)
      simp only [eval_one, eval_zero, mul_zero, mul_one, add_zero, zero_add]
      rw [e1, show k + 0 + 2 = k + 1 + 1 by rfl, e2]
    · by_cases hk : k = i + 1
      · subst hk
        rw [if_neg (by omega), if_neg (by omega), if_pos rfl, if_neg (by omega)]
        simp
      · rw [if_neg (by omega), if_neg (by omega), if_neg hk, if_neg (by omega)]
  | succ q ih =>
    rw [bs_succ (i := i) (q + 1), bs_succ (i := i + 1) (q + 1)]
    simp only [eval_add, eval_mul, ih k, ih (k + 1)]

theorem sp_joined (h1 : t i < t (i + 1)) (h2 : t (i + 1) < t (i + 2)) {q : ℕ} (hq : 0 < q) (c : ℕ → ℝ) :
    (sp t n i q c).eval (t (i + 1)) = (sp t n (i + 1) q c).eval (t (i + 1)) := by
  obtain ⟨q, rfl⟩ : ∃ q', q = q' + 1 := ⟨q - 1, by omega⟩
  rw [sp, sp, eval_finsetSum, eval_finsetSum]
  refine sum_congr rfl (fun k _ => ?_)
  rw [eval_mul, eval_mul, bs_joined h1 h2]

/-- The B-splines add up to one. -/
theorem bs_unity (ht : Monotone t) (hi : i < n) (h1 : t i < t (i + 1)) {q : ℕ} (hq : q ≤ i) :
    ∑ k ∈ range n, bs t i q k = 1 := by
  induction q with
  | zero => simp [bs, hi]
  | succ q ih =>
    rw [← ih (by omega)]
    have h2 : ∀ k, bs t i (q + 1) k = C (wt t (q + 1) k) * (X - C (t k)) * bs t i q k +
        (fun j => C (wt t (q + 1) j) * (C (t (j + q + 1)) - X) * bs t i q j) (k + 1) := by
      intro k
      rw [bs]
      simp only [show k + 1 + q + 1 = k + q + 2 by omega]
    rw [sum_congr rfl (fun k _ => h2 k), sum_add_distrib,
      sum_shift (fun j => C (wt t (q + 1) j) * (C (t (j + q + 1)) - X) * bs t i q j), ← sum_add_distrib]
    · refine sum_congr rfl (fun k _ => ?_)
      by_cases hk : i < k ∨ k + q < i
      · simp [bs_zero (t := t) hk]
      · push Not at hk
        have m1 : t k ≤ t i := ht (by omega)
        have m2 : t (i + 1) ≤ t (k + (q + 1)) := ht (by omega)
        have e := congrArg (fun x : ℝ => (C x : ℝ[X])) (wt_mul (t := t) (q := q + 1) (k := k) (by linarith))
        simp only [C_mul, C_sub, C_1] at e
        rw [show k + q + 1 = k + (q + 1) by omega]
        linear_combination (bs t i q k) * e
    · simp only [bs_zero (t := t) (i := i) (q := q) (k := 0) (by omega), mul_zero]
    · simp only [bs_zero (t := t) (i := i) (q := q) (k := n) (by omega), mul_zero]

/-- The coefficients that matter on an interval are determined by the polynomial there. -/
theorem sp_inj (ht : Monotone t) (hi : i < n) (h1 : t i < t (i + 1)) {q : ℕ} (hq : q ≤ i) {c : ℕ → ℝ}
    (h : sp t n i q c = 0) {k : ℕ} (hk1 : k ≤ i) (hk2 : i ≤ k + q) : c k = 0 := by
  induction q generalizing c k with
  | zero =>
    obtain rfl : k = i := by omega
    rw [sp, sum_eq_single_of_mem k (by simpa using hi) (fun j _ hj => by rw [bs, if_neg hj, mul_zero])] at h
    simpa [bs] using h
  | succ q ih =>
    have hd : sp t n i q (dcoef t q c) = 0 := by rw [← sp_derivative ht hq hi, h, derivative_zero]
    have hstep : ∀ k, k ≤ i → i ≤ k + q → c k = c (k - 1) := by
      intro k a1 a2
      have := ih (by omega) hd a1 a2
      rw [dcoef] at this
      have m1 : t k ≤ t i := ht (by omega)
      have m2 : t (i + 1) ≤ t (k + (q + 1)) := ht (by omega)
      have m3 : wt t (q + 1) k ≠ 0 := inv_ne_zero (by linarith)
      have m4 : (q : ℝ) + 1 ≠ 0 := by positivity
      rcases mul_eq_zero.mp this with h | h
      · rcases mul_eq_zero.mp h with h | h
        · exact absurd h m4
        · linarith
      · exact absurd h m3
    have hconst : ∀ d, d ≤ q + 1 → c (i - d) = c i := by
      intro d
      induction d with
      | zero => intro _; rfl
      | succ d ihd =>
        intro hd'
        rw [← ihd (by omega), hstep (i - d) (by omega) (by omega)]
        congr 1
    have hall : sp t n i (q + 1) c = C (c i) := by
      rw [sp, ← mul_one (C (c i)), ← bs_unity ht hi h1 hq, mul_sum]
      refine sum_congr rfl (fun j _ => ?_)
      by_cases hj : i < j ∨ j + (q + 1) < i
      · simp [bs_zero (t := t) hj]
      · push Not at hj
        rw [← hconst (i - j) (by omega), show i - (i - j) = j by omega]
    rw [hall, C_eq_zero] at h
    rw [← h, ← hconst (i - k) (by omega), show i - (i - k) = k by omega]

/-- The derivatives of a spline are splines. -/
theorem sp_iterate (ht : Monotone t) {p : ℕ} (c : ℕ → ℝ) : ∀ r, r ≤ p → ∃ c', ∀ i, p ≤ i → i < n →
    derivative^[r] (sp t n i p c) = sp t n i (p - r) c' := by
  intro r
  induction r with
  | zero => intro _; exact ⟨c, fun _ _ _ => rfl⟩
  | succ r ih =>
    intro hr
    obtain ⟨c', h⟩ := ih (by omega)
    refine ⟨dcoef t (p - (r + 1)) c', fun i h1 h2 => ?_⟩
    rw [Function.iterate_succ_apply', h i h1 h2, show p - r = (p - (r + 1)) + 1 by omega, sp_derivative ht (by omega) h2]

/-- A spline is a smooth piecewise polynomial. -/
theorem sp_smooth (ht : Monotone t) {p m : ℕ} (hs : ∀ j < m, t (p + j) < t (p + j + 1)) (c : ℕ → ℝ) :
    Smooth (fun j => t (p + j)) m p (fun j => sp t (m + p) (p + j) p c) where
  degree _ _ := sp_natDegree _ _
  joined r hr := by
    intro j hj
    obtain ⟨c', h⟩ := sp_iterate (n := m + p) ht (p := p) c r hr.le
    simp only
    rw [h (p + j) (by omega) (by omega), h (p + (j + 1)) (by omega) (by omega)]
    exact sp_joined (hs j (by omega)) (by simpa [Nat.add_assoc] using hs (j + 1) hj) (by omega) c'

end SW
end MU
