import Verif.Props.Decompositions
import Verif.Props.ConstraintRules
import Mathlib.LinearAlgebra.Matrix.Gershgorin
import Mathlib.LinearAlgebra.Matrix.ToLinearEquiv
import Mathlib.Algebra.Order.BigOperators.Ring.Finset

/-!
# C227: errors in the right-hand side of a linear system

What becomes of errors in the right-hand side: diagonally dominant matrices, matrices whose quadratic form is bounded below, least squares.
-/

set_option linter.unusedSectionVars false

namespace MU
open Finset Spec

namespace Spec

/-- In each row the element on the diagonal exceeds the sum of the others, in magnitude, by at least `α`. -/
def Dominant (A : Mat ℝ) (n : Nat) (α : ℝ) : Prop := ∀ i < n, α + ∑ j ∈ (range n).erase i, |A.entry i j| ≤ |A.entry i i|

/-- The quadratic form of the matrix is at least `α` times the sum of squares. -/
def Coercive (A : Mat ℝ) (n : Nat) (α : ℝ) : Prop :=
  ∀ v : Nat → ℝ, α * ∑ i ∈ range n, v i ^ 2 ≤ ∑ i ∈ range n, v i * ∑ j ∈ range n, A.entry i j * v j

end Spec

/-! ## Diagonally dominant matrices -/

theorem dominant_det {A : Mat ℝ} {n : Nat} {α : ℝ} (hα : 0 < α) (h : Dominant A n α) : (on A n n).det ≠ 0 := by
  refine det_ne_zero_of_sum_row_lt_diag fun k => ?_
  have e : ∑ j ∈ univ.erase k, ‖on A n n k j‖ = ∑ j ∈ (range n).erase k, |A.entry k j| := by
    have h1 : ∑ j ∈ univ.erase k, ‖on A n n k j‖ + ‖on A n n k k‖ = ∑ j, ‖on A n n k j‖ := sum_erase_add _ _ (mem_univ k)
    have h2 : ∑ j ∈ (range n).erase k, |A.entry k j| + |A.entry k k| = ∑ j ∈ range n, |A.entry k j| := sum_erase_add _ _ (mem_range.2 k.2)
    have h3 : ∑ j, ‖on A n n k j‖ = ∑ j ∈ range n, |A.entry k j| := Fin.sum_univ_eq_sum_range (fun j => |A.entry k j|) n
    have h4 : ‖on A n n k k‖ = |A.entry k k| := rfl
    linarith
  rw [e]
  have : ‖on A n n k k‖ = |A.entry k k| := rfl
  linarith [h k k.2]

theorem dominant_bound {A : Mat ℝ} {n : Nat} {α e : ℝ} (hα : 0 < α) (h : Dominant A n α) {z w : Nat → ℝ}
    (hz : ∀ i < n, ∑ j ∈ range n, A.entry i j * z j = w i) (hw : ∀ i < n, |w i| ≤ e) {i : Nat} (hi : i < n) : |z i| ≤ e / α := by
  obtain ⟨k, hk, hmax⟩ := exists_max_image (range n) (fun i => |z i|) ⟨i, mem_range.2 hi⟩
  have hk' := mem_range.1 hk
  refine (hmax i (mem_range.2 hi)).trans ?_
  rw [le_div_iff₀ hα]
  have hs := hz k hk'
  rw [← sum_erase_add _ _ hk] at hs
  have h1 : A.entry k k * z k = w k - ∑ j ∈ (range n).erase k, A.entry k j * z j := by linarith
  have h2 : |∑ j ∈ (range n).erase k, A.entry k j * z j| ≤ (∑ j ∈ (range n).erase k, |A.entry k j|) * |z k| := by
    rw [sum_mul]
    refine (abs_sum_le_sum_abs _ _).trans (sum_le_sum fun j hj => ?_)
    rw [abs_mul]
    exact mul_le_mul_of_nonneg_left (hmax j (mem_of_mem_erase hj)) (abs_nonneg _)
  have h3 : |A.entry k k| * |z k| ≤ |w k| + |∑ j ∈ (range n).erase k, A.entry k j * z j| := by
    rw [← abs_mul, h1]
    exact abs_sub _ _
  have h4 := mul_le_mul_of_nonneg_right (h k hk') (abs_nonneg (z k))
  have h5 := hw k hk'
  rw [add_mul] at h4
  show |z k| * α ≤ e
  linarith

/-- C227: with a matrix whose diagonal dominates by `α`, `LUSolver` and `QRSolver` answer, and errors of at most `e` in the right-hand side change the solution by at most
`e / α`. -/
theorem C227_dominant (E : EigenLA) (hE : Documented E) (B : Build) (n c : Nat) (A b d : Mat ℝ) (hA : HasSize A n n) (hb : HasSize b n c) (hd : HasSize d n c) {α e : ℝ}
    (hα : 0 < α) (hdom : Dominant A n α) (he : ∀ i k, i < n → k < c → |b.entry i k - d.entry i k| ≤ e) :
    ∃ x y x' y', luSolver E B A b = .ok x ∧ luSolver E B A d = .ok y ∧ qrSolver E B A b = .ok x' ∧ qrSolver E B A d = .ok y' ∧
      ∀ i k, i < n → k < c → |x.entry i k - y.entry i k| ≤ e / α ∧ |x'.entry i k - y'.entry i k| ≤ e / α := by
  have hdet := dominant_det hα hdom
  obtain ⟨x, x', h1, h2, h3, h4, h5, -⟩ := C86_exact E hE B n c A b hA hb hdet
  obtain ⟨y, y', g1, g2, g3, g4, g5, -⟩ := C86_exact E hE B n c A d hA hd hdet
  refine ⟨x, y, x', y', h1, g1, h2, g2, fun i k hi hk => ?_⟩
  have hx : |x.entry i k - y.entry i k| ≤ e / α := by
    refine dominant_bound hα hdom (z := fun i => x.entry i k - y.entry i k) (w := fun i => b.entry i k - d.entry i k) (fun i hi => ?_) (fun i hi => he i k hi hk) hi
    have e1 := h4 i k (by rw [hA.1]; exact hi) (by rw [hb.2]; exact hk)
    have e2 := g4 i k (by rw [hA.1]; exact hi) (by rw [hd.2]; exact hk)
    rw [hA.2] at e1 e2
    simp only [mul_sub, sum_sub_distrib]
    rw [e1, e2]
  refine ⟨hx, ?_⟩
  rw [h5.2.2 i k (by rw [h5.1, h3.1]; exact hi) (by rw [h5.2.1, h3.2]; exact hk), g5.2.2 i k (by rw [g5.1, g3.1]; exact hi) (by rw [g5.2.1, g3.2]; exact hk)]
  exact hx

/-- The solution itself: never larger than the right-hand side over `α`. -/
theorem C227_dominant_size (E : EigenLA) (hE : Documented E) (B : Build) (n c : Nat) (A b : Mat ℝ) (hA : HasSize A n n) (hb : HasSize b n c) {α e : ℝ}
    (hα : 0 < α) (hdom : Dominant A n α) (he : ∀ i k, i < n → k < c → |b.entry i k| ≤ e) :
    ∃ x, luSolver E B A b = .ok x ∧ HasSize x n c ∧ ∀ i k, i < n → k < c → |x.entry i k| ≤ e / α := by
  obtain ⟨x, x', h1, h2, h3, h4, h5, -⟩ := C86_exact E hE B n c A b hA hb (dominant_det hα hdom)
  refine ⟨x, h1, h3, fun i k hi hk => ?_⟩
  refine dominant_bound hα hdom (z := fun i => x.entry i k) (w := fun i => b.entry i k) (fun i hi => ?_) (fun i hi => he i k hi hk) hi
  have e1 := h4 i k (by rw [hA.1]; exact hi) (by rw [hb.2]; exact hk)
  rwa [hA.2] at e1

theorem dominant_near {A C : Mat ℝ} {n : Nat} {α δ : ℝ} (h : Dominant A n α) (hAC : ∀ i < n, ∑ j ∈ range n, |A.entry i j - C.entry i j| ≤ δ) : Dominant C n (α - δ) := by
  intro i hi
  have h1 := h i hi
  have h2 := hAC i hi
  rw [← sum_erase_add _ _ (mem_range.2 hi)] at h2
  have h3 : ∑ j ∈ (range n).erase i, |C.entry i j| ≤ ∑ j ∈ (range n).erase i, |A.entry i j| + ∑ j ∈ (range n).erase i, |A.entry i j - C.entry i j| := by
    rw [← sum_add_distrib]
    refine sum_le_sum fun j _ => ?_
    have := abs_sub (A.entry i j) (A.entry i j - C.entry i j)
    rwa [sub_sub_cancel] at this
  have h4 : |A.entry i i| - |C.entry i i| ≤ |A.entry i i - C.entry i i| := abs_sub_abs_le_abs_sub _ _
  linarith

/-- C227: errors in the matrix. When those of each row add up to at most `δ < α`, the system still has a solution, and it changes by at most `δ / α` times the bound
`e / (α - δ)` of the solution. -/
theorem C227_matrix (E : EigenLA) (hE : Documented E) (B : Build) (n c : Nat) (A C b : Mat ℝ) (hA : HasSize A n n) (hC : HasSize C n n) (hb : HasSize b n c) {α δ e : ℝ}
    (hα : 0 < α) (hδ : δ < α) (hdom : Dominant A n α) (hAC : ∀ i < n, ∑ j ∈ range n, |A.entry i j - C.entry i j| ≤ δ) (he : ∀ i k, i < n → k < c → |b.entry i k| ≤ e) :
    ∃ x y, luSolver E B A b = .ok x ∧ luSolver E B C b = .ok y ∧ ∀ i k, i < n → k < c → |x.entry i k - y.entry i k| ≤ δ * (e / (α - δ)) / α := by
  have hdom' := dominant_near hdom hAC
  have hpos : 0 < α - δ := sub_pos.2 hδ
  obtain ⟨x, x', h1, -, h3, h4, -, -⟩ := C86_exact E hE B n c A b hA hb (dominant_det hα hdom)
  obtain ⟨y, y', g1, -, g3, g4, -, -⟩ := C86_exact E hE B n c C b hC hb (dominant_det hpos hdom')
  refine ⟨x, y, h1, g1, fun i k hi hk => ?_⟩
  have e1 : ∀ i < n, ∑ j ∈ range n, A.entry i j * x.entry j k = b.entry i k := by
    intro i hi
    have := h4 i k (by rw [hA.1]; exact hi) (by rw [hb.2]; exact hk)
    rwa [hA.2] at this
  have e2 : ∀ i < n, ∑ j ∈ range n, C.entry i j * y.entry j k = b.entry i k := by
    intro i hi
    have := g4 i k (by rw [hC.1]; exact hi) (by rw [hb.2]; exact hk)
    rwa [hC.2] at this
  have hy : ∀ j < n, |y.entry j k| ≤ e / (α - δ) := fun j hj => dominant_bound hpos hdom' (z := fun j => y.entry j k) e2 (fun i hi => he i k hi hk) hj
  have h0 : 0 ≤ e / (α - δ) := (abs_nonneg _).trans (hy i hi)
  refine dominant_bound hα hdom (z := fun i => x.entry i k - y.entry i k) (w := fun i => -∑ j ∈ range n, (A.entry i j - C.entry i j) * y.entry j k) (fun i hi => ?_)
    (fun i hi => ?_) hi
  · simp only [mul_sub, sub_mul, sum_sub_distrib]
    rw [e1 i hi, e2 i hi]
    ring
  · rw [abs_neg]
    calc |∑ j ∈ range n, (A.entry i j - C.entry i j) * y.entry j k| ≤ ∑ j ∈ range n, |A.entry i j - C.entry i j| * (e / (α - δ)) := by
          refine (abs_sum_le_sum_abs _ _).trans (sum_le_sum fun j hj => ?_)
          rw [abs_mul]
          exact mul_le_mul_of_nonneg_left (hy j (mem_range.1 hj)) (abs_nonneg _)
      _ = (∑ j ∈ range n, |A.entry i j - C.entry i j|) * (e / (α - δ)) := (sum_mul _ _ _).symm
      _ ≤ δ * (e / (α - δ)) := mul_le_mul_of_nonneg_right (hAC i hi) h0

/-- `4 1; -1 3`, which dominates by 2, and `4 1; -1 4`: the errors of each row add up to at most 1. -/
example : ∀ i < 2, ∑ j ∈ range 2, |(⟨2, 2, fun i j => if i = 0 then (if j = 0 then 4 else 1) else if j = 0 then -1 else 3⟩ : Mat ℝ).entry i j -
    (⟨2, 2, fun i j => if i = 0 then (if j = 0 then 4 else 1) else if j = 0 then -1 else 4⟩ : Mat ℝ).entry i j| ≤ (1 : ℝ) := by
  intro i hi
  interval_cases i
  · simp
  · norm_num [sum_range_succ]

/-- The matrix `4 1; -1 3` dominates by 2. -/
example : Dominant ⟨2, 2, fun i j => if i = 0 then (if j = 0 then 4 else 1) else if j = 0 then -1 else 3⟩ 2 2 := by
  intro i hi
  interval_cases i
  · rw [show (range 2).erase 0 = {1} by decide]
    norm_num [abs_of_nonneg]
  · rw [show (range 2).erase 1 = {0} by decide]
    norm_num [abs_of_nonneg]

/-! ## Matrices with a quadratic form bounded below -/

theorem coercive_det {A : Mat ℝ} {n : Nat} {α : ℝ} (hα : 0 < α) (h : Coercive A n α) : (on A n n).det ≠ 0 := by
  intro h0
  obtain ⟨v, hv, hz⟩ := Matrix.exists_mulVec_eq_zero_iff.2 h0
  apply hv
  have hc := h (fun i => if hi : i < n then v ⟨i, hi⟩ else 0)
  have hrow : ∀ i ∈ range n, ∑ j ∈ range n, A.entry i j * (if hj : j < n then v ⟨j, hj⟩ else 0) = 0 := by
    intro i hi
    have := congrFun hz ⟨i, mem_range.1 hi⟩
    rw [Matrix.mulVec, dotProduct] at this
    rw [← Fin.sum_univ_eq_sum_range (fun j => A.entry i j * (if hj : j < n then v ⟨j, hj⟩ else 0)) n]
    simpa [on] using this
  rw [sum_eq_zero (s := range n) (f := fun i => (if hi : i < n then v ⟨i, hi⟩ else 0) * ∑ j ∈ range n, A.entry i j * (if hj : j < n then v ⟨j, hj⟩ else 0))
    (fun i hi => by rw [hrow i hi, mul_zero])] at hc
  have hs : ∑ i ∈ range n, (if hi : i < n then v ⟨i, hi⟩ else 0) ^ 2 = 0 :=
    le_antisymm (by by_contra hn; nlinarith [not_le.1 hn]) (sum_nonneg fun i _ => sq_nonneg _)
  funext i
  have := (sum_eq_zero_iff_of_nonneg fun i _ => sq_nonneg _).1 hs i (mem_range.2 i.2)
  simpa using this

theorem coercive_bound {A : Mat ℝ} {n : Nat} {α : ℝ} (hα : 0 < α) (h : Coercive A n α) {z w : Nat → ℝ}
    (hz : ∀ i < n, ∑ j ∈ range n, A.entry i j * z j = w i) : α ^ 2 * ∑ i ∈ range n, z i ^ 2 ≤ ∑ i ∈ range n, w i ^ 2 := by
  have h1 := h z
  rw [show ∑ i ∈ range n, z i * ∑ j ∈ range n, A.entry i j * z j = ∑ i ∈ range n, z i * w i from
    sum_congr rfl fun i hi => by rw [hz i (mem_range.1 hi)]] at h1
  have h2 : (∑ i ∈ range n, z i * w i) ^ 2 ≤ (∑ i ∈ range n, z i ^ 2) * ∑ i ∈ range n, w i ^ 2 := sum_mul_sq_le_sq_mul_sq _ _ _
  have hS : 0 ≤ ∑ i ∈ range n, z i ^ 2 := sum_nonneg fun i _ => sq_nonneg _
  have hW : 0 ≤ ∑ i ∈ range n, w i ^ 2 := sum_nonneg fun i _ => sq_nonneg _
  rcases hS.eq_or_lt with h0 | h0
  · rw [← h0]
    linarith
  · have h3 : (α * ∑ i ∈ range n, z i ^ 2) ^ 2 ≤ (∑ i ∈ range n, z i * w i) ^ 2 := pow_le_pow_left₀ (mul_nonneg hα.le hS) h1 2
    have h4 := h3.trans h2
    rw [show (α * ∑ i ∈ range n, z i ^ 2) ^ 2 = (∑ i ∈ range n, z i ^ 2) * (α ^ 2 * ∑ i ∈ range n, z i ^ 2) by ring] at h4
    exact le_of_mul_le_mul_left h4 h0

/-- C227: with a matrix whose quadratic form is at least `α` times the sum of squares (a positive definite one of least eigenvalue `α`, say), `LUSolver` and `QRSolver` answer,
and the norm of the change of each column of the solution is at most the norm of the change of the right-hand side over `α`. -/
theorem C227_coercive (E : EigenLA) (hE : Documented E) (B : Build) (n c : Nat) (A b d : Mat ℝ) (hA : HasSize A n n) (hb : HasSize b n c) (hd : HasSize d n c) {α : ℝ}
    (hα : 0 < α) (hco : Coercive A n α) :
    ∃ x y x' y', luSolver E B A b = .ok x ∧ luSolver E B A d = .ok y ∧ qrSolver E B A b = .ok x' ∧ qrSolver E B A d = .ok y' ∧
      ∀ k, k < c → α ^ 2 * ∑ i ∈ range n, (x.entry i k - y.entry i k) ^ 2 ≤ ∑ i ∈ range n, (b.entry i k - d.entry i k) ^ 2 ∧
        α ^ 2 * ∑ i ∈ range n, (x'.entry i k - y'.entry i k) ^ 2 ≤ ∑ i ∈ range n, (b.entry i k - d.entry i k) ^ 2 := by
  have hdet := coercive_det hα hco
  obtain ⟨x, x', h1, h2, h3, h4, h5, -⟩ := C86_exact E hE B n c A b hA hb hdet
  obtain ⟨y, y', g1, g2, g3, g4, g5, -⟩ := C86_exact E hE B n c A d hA hd hdet
  refine ⟨x, y, x', y', h1, g1, h2, g2, fun k hk => ?_⟩
  have hx : α ^ 2 * ∑ i ∈ range n, (x.entry i k - y.entry i k) ^ 2 ≤ ∑ i ∈ range n, (b.entry i k - d.entry i k) ^ 2 := by
    refine coercive_bound hα hco (z := fun i => x.entry i k - y.entry i k) (w := fun i => b.entry i k - d.entry i k) (fun i hi => ?_)
    have e1 := h4 i k (by rw [hA.1]; exact hi) (by rw [hb.2]; exact hk)
    have e2 := g4 i k (by rw [hA.1]; exact hi) (by rw [hd.2]; exact hk)
    rw [hA.2] at e1 e2
    simp only [mul_sub, sum_sub_distrib]
    rw [e1, e2]
  refine ⟨hx, ?_⟩
  rw [sum_congr rfl (fun i hi => by
    rw [h5.2.2 i k (by rw [h5.1, h3.1]; exact mem_range.1 hi) (by rw [h5.2.1, h3.2]; exact hk),
      g5.2.2 i k (by rw [g5.1, g3.1]; exact mem_range.1 hi) (by rw [g5.2.1, g3.2]; exact hk)])]
  exact hx

/-- The matrix `3 -1; 1 2` is not symmetric and has a form of at least twice the sum of squares. -/
example : Coercive ⟨2, 2, fun i j => if i = 0 then (if j = 0 then 3 else -1) else if j = 0 then 1 else 2⟩ 2 2 := by
  intro v
  simp [sum_range_succ]
  nlinarith [sq_nonneg (v 0)]

/-! ## Least squares -/

/-- C227: `LeastSquareSolver` never amplifies: the fitted values `A x` change by no more, in norm, than the right-hand side does, and with what is left of that change they make
up its square. -/
theorem C227_least_squares (E : EigenLA) (hE : Documented E) (B : Build) (A b d : Mat ℝ) (hb : b.rows = A.rows) (hd : d.rows = A.rows) (hc : d.cols = b.cols) :
    ∃ x y, leastSquareSolver E B A b = .ok x ∧ leastSquareSolver E B A d = .ok y ∧ ∀ k, k < b.cols →
      ∑ i ∈ range A.rows, (∑ j ∈ range A.cols, A.entry i j * x.entry j k - ∑ j ∈ range A.cols, A.entry i j * y.entry j k) ^ 2 +
        ∑ i ∈ range A.rows, ((∑ j ∈ range A.cols, A.entry i j * x.entry j k - b.entry i k) - (∑ j ∈ range A.cols, A.entry i j * y.entry j k - d.entry i k)) ^ 2 =
        ∑ i ∈ range A.rows, (b.entry i k - d.entry i k) ^ 2 := by
  obtain ⟨x, h1, -, -, h2⟩ := C86_least_squares E hE B A b hb
  obtain ⟨y, g1, -, -, g2⟩ := C86_least_squares E hE B A d hd
  refine ⟨x, y, h1, g1, fun k hk => ?_⟩
  set f : Nat → ℝ := fun i => ∑ j ∈ range A.cols, A.entry i j * x.entry j k - ∑ j ∈ range A.cols, A.entry i j * y.entry j k with hf
  set r : Nat → ℝ := fun i => (∑ j ∈ range A.cols, A.entry i j * x.entry j k - b.entry i k) - (∑ j ∈ range A.cols, A.entry i j * y.entry j k - d.entry i k) with hr
  have horth : ∑ i ∈ range A.rows, f i * r i = 0 := by
    have e : ∀ i, f i * r i = ∑ j ∈ range A.cols, (x.entry j k - y.entry j k) * (A.entry i j * r i) := by
      intro i
      rw [hf]
      simp only
      rw [← sum_sub_distrib, sum_mul]
      exact sum_congr rfl fun j _ => by ring
    rw [sum_congr rfl fun i _ => e i, sum_comm]
    refine sum_eq_zero fun j hj => ?_
    rw [← mul_sum]
    have a1 := h2 j k (mem_range.1 hj) hk
    have a2 := g2 j k (mem_range.1 hj) (by omega)
    have : ∑ i ∈ range A.rows, A.entry i j * r i = 0 := by
      rw [hr]
      simp only [mul_sub _ (_ - _) (_ - _), sum_sub_distrib]
      rw [a1, a2, sub_zero]
    rw [this, mul_zero]
  have hsum : ∀ i, (b.entry i k - d.entry i k) ^ 2 = f i ^ 2 + r i ^ 2 - 2 * (f i * r i) := by
    intro i
    rw [hf, hr]
    ring
  rw [sum_congr rfl fun i _ => hsum i, sum_sub_distrib, sum_add_distrib, ← mul_sum, horth]
  ring

/-- So the fitted values do not move by more than the data. -/
theorem C227_fitted (E : EigenLA) (hE : Documented E) (B : Build) (A b d : Mat ℝ) (hb : b.rows = A.rows) (hd : d.rows = A.rows) (hc : d.cols = b.cols) :
    ∃ x y, leastSquareSolver E B A b = .ok x ∧ leastSquareSolver E B A d = .ok y ∧ ∀ k, k < b.cols →
      ∑ i ∈ range A.rows, (∑ j ∈ range A.cols, A.entry i j * x.entry j k - ∑ j ∈ range A.cols, A.entry i j * y.entry j k) ^ 2 ≤
        ∑ i ∈ range A.rows, (b.entry i k - d.entry i k) ^ 2 := by
  obtain ⟨x, y, h1, h2, h3⟩ := C227_least_squares E hE B A b d hb hd hc
  refine ⟨x, y, h1, h2, fun k hk => ?_⟩
  rw [← h3 k hk]
  exact le_add_of_nonneg_right (sum_nonneg fun i _ => sq_nonneg _)

example : ∃ E, Documented E ∧ ∃ x y, leastSquareSolver E ⟨true⟩ ⟨3, 2, fun i j => (i : ℝ) + 2 * j⟩ ⟨3, 1, fun i _ => i⟩ = .ok x ∧
    leastSquareSolver E ⟨true⟩ ⟨3, 2, fun i j => (i : ℝ) + 2 * j⟩ ⟨3, 1, fun i _ => 2 * i⟩ = .ok y := by
  obtain ⟨E, hE⟩ := documented_exists
  obtain ⟨x, y, h1, h2, -⟩ := C227_fitted E hE ⟨true⟩ ⟨3, 2, fun i j => (i : ℝ) + 2 * j⟩ ⟨3, 1, fun i _ => i⟩ ⟨3, 1, fun i _ => 2 * i⟩ rfl rfl rfl
  exact ⟨E, hE, x, y, h1, h2⟩

/-- C227: nor does `LeastSquareSolverConstraint`, for a given constraint. -/
theorem C227_constrained (E : EigenLA) (hE : Documented E) (B : Build) (garbage : Nat → Nat → ℝ) {m n p : Nat} (hpn : p < n) (hnm : n < m) (A b b' C d : Mat ℝ)
    (hA : HasSize A m n) (hb : HasSize b m 1) (hb' : HasSize b' m 1) (hC : HasSize C p n) (hd : HasSize d p 1) (hrank : FullRowRank C) :
    ∃ x y, leastSquareSolverConstraint E B garbage A b C d = .ok x ∧ leastSquareSolverConstraint E B garbage A b' C d = .ok y ∧
      ∑ i ∈ range m, (∑ j ∈ range n, A.entry i j * x.entry j 0 - ∑ j ∈ range n, A.entry i j * y.entry j 0) ^ 2 ≤ ∑ i ∈ range m, (b.entry i 0 - b'.entry i 0) ^ 2 := by
  obtain ⟨x, h1, -, h2, h3⟩ := C210_stationary E hE B garbage hpn hnm A b C d hA hb hC hd hrank
  obtain ⟨y, g1, -, g2, g3⟩ := C210_stationary E hE B garbage hpn hnm A b' C d hA hb' hC hd hrank
  refine ⟨x, y, h1, g1, ?_⟩
  have hker : (on C p n).mulVec (col x n - col y n) = 0 := by rw [Matrix.mulVec_sub, h2, g2, sub_self]
  have a1 := h3 _ hker
  have a2 := g3 _ hker
  rw [Matrix.mulVec_sub] at a1 a2
  have e : ∀ (z : Mat ℝ) (i : Fin m), ∑ j ∈ range n, A.entry i j * z.entry j 0 = (on A m n).mulVec (col z n) i := by
    intro z i
    have := rowTimes_col (x := z) hA i.1 i.2
    rwa [hA.2] at this
  rw [Finset.sum_range, Finset.sum_range]
  simp only [e]
  set f := (on A m n).mulVec (col x n)
  set g := (on A m n).mulVec (col y n)
  have orth : ∑ i, ((f i - col b m i) - (g i - col b' m i)) * (f i - g i) = 0 := by
    simp only [dotProduct, Pi.sub_apply] at a1 a2
    simp only [sub_mul _ _ (f _ - g _), sum_sub_distrib] at a1 a2 ⊢
    linarith
  have hsum : ∀ i : Fin m, (b.entry i 0 - b'.entry i 0) ^ 2 =
      (f i - g i) ^ 2 + ((f i - col b m i) - (g i - col b' m i)) ^ 2 - 2 * (((f i - col b m i) - (g i - col b' m i)) * (f i - g i)) := by
    intro i
    rw [show b.entry i 0 = col b m i from rfl, show b'.entry i 0 = col b' m i from rfl]
    ring
  rw [sum_congr rfl fun i _ => hsum i, sum_sub_distrib, sum_add_distrib, ← mul_sum, orth, mul_zero, sub_zero]
  exact le_add_of_nonneg_right (sum_nonneg fun i _ => sq_nonneg _)

/-- The constraint `x₀ + 2 x₁ = 5` has the rank required. -/
example (E : EigenLA) (hE : Documented E) (B : Build) (garbage : Nat → Nat → ℝ) :
    ∃ x y, leastSquareSolverConstraint E B garbage ⟨3, 2, fun i j => if j = 0 then (i : ℝ) else -i⟩ ⟨3, 1, fun i _ => -i⟩ ⟨1, 2, fun _ j => if j = 0 then 1 else 2⟩ ⟨1, 1, fun _ _ => 5⟩ = .ok x ∧
      leastSquareSolverConstraint E B garbage ⟨3, 2, fun i j => if j = 0 then (i : ℝ) else -i⟩ ⟨3, 1, fun i _ => i⟩ ⟨1, 2, fun _ j => if j = 0 then 1 else 2⟩ ⟨1, 1, fun _ _ => 5⟩ = .ok y := by
  obtain ⟨x, y, h1, h2, -⟩ := C227_constrained (m := 3) (n := 2) (p := 1) E hE B garbage (by norm_num) (by norm_num) ⟨3, 2, fun i j => if j = 0 then (i : ℝ) else -i⟩
    ⟨3, 1, fun i _ => -i⟩ ⟨3, 1, fun i _ => i⟩ ⟨1, 2, fun _ j => if j = 0 then 1 else 2⟩ ⟨1, 1, fun _ _ => 5⟩ ⟨rfl, rfl⟩ ⟨rfl, rfl⟩ ⟨rfl, rfl⟩ ⟨rfl, rfl⟩ ⟨rfl, rfl⟩ constraintRules_met.1
  exact ⟨x, y, h1, h2⟩

end MU
