import Verif.Lemmas.Cholesky
import Verif.Lemmas.Matrix
import Mathlib.Tactic.NormNum

/-!
# C61, C81, C84: symmetric matrices
-/

set_option linter.unusedSectionVars false

namespace MU

open Finset Spec

/-! ## Cholesky -/

theorem symLow_of_symmetric {A : Mat ℝ} (h : Symmetric A) {i j : Nat} (hi : i < A.rows) (hj : j < A.rows) : symLow A.entry i j = A.entry i j := by
  unfold symLow
  split
  · rfl
  · exact h.2 j i hj hi

theorem getCholesky_square (B : Build) {A : Mat ℝ} (h : A.rows = A.cols) :
    getCholesky B A = match lltN A.rows A.entry A.rows with
      | none => .throws .runtimeError
      | some a => .ok (lowerOf A.rows a) := by
  unfold getCholesky isSquare isSymmetric eigenLlt
  simp only [h, decide_true, Bool.not_true, Bool.false_eq_true, if_false, if_true, Res.pure_eq, Res.ok_bind]
  cases lltN A.cols A.entry A.cols <;> rfl

/-- C81. On a symmetric matrix, `GetCholeskyDecomposition` succeeds exactly when the matrix is positive definite, and throws `runtime_error` otherwise. -/
theorem C81_positive_definite (B : Build) (A : Mat ℝ) (h : Symmetric A) :
    ((∃ L, getCholesky B A = .ok L) ↔ PosDef A) ∧ (¬ PosDef A → getCholesky B A = .throws .runtimeError) := by
  have iff := llt_iff A.rows A.entry
  have same : (∀ v : Nat → ℝ, (∃ i < A.rows, v i ≠ 0) → 0 < ∑ i ∈ range A.rows, ∑ j ∈ range A.rows, v i * symLow A.entry i j * v j) ↔ PosDef A := by
    unfold PosDef
    refine forall_congr' fun v => imp_congr Iff.rfl ?_
    rw [show ∑ i ∈ range A.rows, ∑ j ∈ range A.rows, v i * symLow A.entry i j * v j = ∑ i ∈ range A.rows, ∑ j ∈ range A.rows, v i * A.entry i j * v j from
      sum_congr rfl fun i hi => sum_congr rfl fun j hj => by rw [symLow_of_symmetric h (mem_range.1 hi) (mem_range.1 hj)]]
  rw [same] at iff
  rw [getCholesky_square B h.1]
  cases hc : lltN A.rows A.entry A.rows with
  | none =>
    refine ⟨Iff.intro ?_ fun hp => ?_, fun _ => rfl⟩
    · rintro ⟨L, hL⟩
      cases hL
    obtain ⟨c, hc'⟩ := iff.2 hp
    rw [hc] at hc'
    cases hc'
  | some c =>
    exact ⟨⟨fun _ => iff.1 ⟨c, hc⟩, fun _ => ⟨_, rfl⟩⟩, fun hn => absurd (iff.1 ⟨c, hc⟩) hn⟩

/-- What is returned on a square matrix, symmetric or not. -/
theorem cholesky_lower {B : Build} {A L : Mat ℝ} (h : A.rows = A.cols) (hL : getCholesky B A = .ok L) :
    (L.rows = A.rows ∧ L.cols = A.rows) ∧ (∀ i j, i < j → L.entry i j = 0) ∧ (∀ i, i < A.rows → 0 < L.entry i i) ∧
    ∀ i j, i < A.rows → j < A.rows → ∑ l ∈ range A.rows, L.entry i l * L.entry j l = symLow A.entry i j := by
  rw [getCholesky_square B h] at hL
  cases hc : lltN A.rows A.entry A.rows with
  | none => rw [hc] at hL; cases hL
  | some c =>
    rw [hc] at hL
    cases hL
    have inv := lltN_inv A.rows le_rfl hc
    refine ⟨⟨rfl, rfl⟩, fun i j hij => if_neg (by omega), fun i hi => ?_, fun i j hi hj => prod_sym inv hi hj (Or.inl hi) (by omega)⟩
    show 0 < if i ≤ i then c i i else 0
    rw [if_pos le_rfl]
    exact inv.pos i hi

/-- C81. The matrix returned is a Cholesky factor: lower triangular, positive on the diagonal, and `L Lᵀ = A`. -/
theorem C81_factor (B : Build) (A L : Mat ℝ) (h : Symmetric A) (hL : getCholesky B A = .ok L) : IsCholesky A L := by
  obtain ⟨h1, h2, h3, h4⟩ := cholesky_lower h.1 hL
  exact ⟨h1, fun i j _ _ => h2 i j, h3, fun i j hi hj => by rw [h4 i j hi hj, symLow_of_symmetric h hi hj]⟩

/-- C81. There is only one Cholesky factor. -/
theorem C81_unique (A L L' : Mat ℝ) (h : IsCholesky A L) (h' : IsCholesky A L') : Same L L' := by
  have cut : ∀ {M : Mat ℝ}, IsCholesky A M → ∀ i j, i < A.rows → j ≤ i →
      ∑ l ∈ range j, M.entry i l * M.entry j l + M.entry i j * M.entry j j = A.entry i j := by
    intro M hM i j hi hji
    rw [← hM.prod i j hi (by omega), ← sum_range_succ]
    apply sum_subset (range_mono (by omega))
    intro l hl hl'
    have : ¬ l < j + 1 := fun h => hl' (mem_range.2 h)
    rw [hM.lower j l (by omega) (mem_range.1 hl) (by omega), mul_zero]
  have key : ∀ j, j < A.rows → ∀ i, i < A.rows → j ≤ i → L.entry i j = L'.entry i j := by
    intro j
    induction j using Nat.strong_induction_on with
    | _ j ih =>
      intro hj
      have hsum : ∀ i, i < A.rows → j ≤ i → ∑ l ∈ range j, L.entry i l * L.entry j l = ∑ l ∈ range j, L'.entry i l * L'.entry j l := by
        intro i hi hji
        refine sum_congr rfl fun l hl => ?_
        have hl := mem_range.1 hl
        rw [ih l hl (by omega) i hi (by omega), ih l hl (by omega) j hj (by omega)]
      have hd : L.entry j j = L'.entry j j := by
        have e := cut h j j hj le_rfl
        have e' := cut h' j j hj le_rfl
        rw [hsum j hj le_rfl] at e
        have := h.diag j hj
        have := h'.diag j hj
        nlinarith [e, e', mul_self_inj_of_nonneg (h.diag j hj).le (h'.diag j hj).le |>.1 (by linarith)]
      intro i hi hji
      have e := cut h i j hi hji
      have e' := cut h' i j hi hji
      rw [hsum i hi hji, hd] at e
      have hp := (h'.diag j hj).ne'
      exact mul_right_cancel₀ hp (by linarith)
  refine ⟨h.size.1.trans h'.size.1.symm, h.size.2.trans h'.size.2.symm, fun i j hi hj => ?_⟩
  rw [h.size.1] at hi
  rw [h.size.2] at hj
  by_cases hji : j ≤ i
  · exact key j hj i hi hji
  · rw [h.lower i j hi hj (by omega), h'.lower i j hi hj (by omega)]

/-- C81. Any Cholesky factor is what the call returns. -/
theorem C81_complete (B : Build) (A L : Mat ℝ) (h : Symmetric A) (hL : IsCholesky A L) : ∃ L', getCholesky B A = .ok L' ∧ Same L' L := by
  have hp : PosDef A := by
    intro v hv
    have hinv : LltInv A.rows A.entry (fun i j => if j < A.rows then L.entry i j else A.entry i j) A.rows := by
      refine ⟨fun j hj => by simpa [hj] using hL.diag j hj, fun i j hj hji hi => ?_, fun i j hj => if_neg (by omega)⟩
      rw [← hL.prod i j hi hj]
      have e : ∀ l, l < j + 1 → (if l < A.rows then L.entry i l else A.entry i l) * (if l < A.rows then L.entry j l else A.entry j l) = L.entry i l * L.entry j l :=
        fun l hl => by rw [if_pos (by omega), if_pos (by omega)]
      rw [sum_congr rfl fun l hl => e l (mem_range.1 hl)]
      apply sum_subset (range_mono (by omega))
      intro l hl hl'
      have : ¬ l < j + 1 := fun h => hl' (mem_range.2 h)
      rw [hL.lower j l hj (mem_range.1 hl) (by omega), mul_zero]
    have := llt_posDef hinv v hv
    rw [show ∑ i ∈ range A.rows, ∑ j ∈ range A.rows, v i * A.entry i j * v j = ∑ i ∈ range A.rows, ∑ j ∈ range A.rows, v i * symLow A.entry i j * v j from
      sum_congr rfl fun i hi => sum_congr rfl fun j hj => by rw [symLow_of_symmetric h (mem_range.1 hi) (mem_range.1 hj)]]
    exact this
  obtain ⟨L', hL'⟩ := (C81_positive_definite B A h).1.2 hp
  exact ⟨L', hL', C81_unique A L' L (C81_factor B A L' h hL') hL⟩

/-- The matrix `[[4, 2], [2, 5]]`. -/
def choleskyExample : Mat ℝ := ⟨2, 2, fun i j => if i = 0 then (if j = 0 then 4 else 2) else (if j = 0 then 2 else 5)⟩

/-- C81: the hypotheses are met: `[[4, 2], [2, 5]]` is symmetric, and its factor is `[[2, 0], [1, 2]]`. -/
example (B : Build) : ∃ L, getCholesky B choleskyExample = .ok L ∧ L.entry 0 0 = 2 ∧ L.entry 1 0 = 1 ∧ L.entry 1 1 = 2 := by
  have hs : Symmetric choleskyExample := by
    refine ⟨rfl, fun i j hi hj => ?_⟩
    have hi : i < 2 := hi
    have hj : j < 2 := hj
    interval_cases i <;> interval_cases j <;> simp [choleskyExample]
  have hc : IsCholesky choleskyExample ⟨2, 2, fun i j => if i = 0 then (if j = 0 then 2 else 0) else (if j = 0 then 1 else 2)⟩ := by
    refine ⟨⟨rfl, rfl⟩, fun i j hi hj hij => ?_, fun i hi => ?_, fun i j hi hj => ?_⟩
    · have hi : i < 2 := hi
      have hj : j < 2 := hj
      interval_cases i <;> interval_cases j <;> simp_all
    · have hi : i < 2 := hi
      interval_cases i <;> simp
    · have hi : i < 2 := hi
      have hj : j < 2 := hj
      show ∑ l ∈ range 2, _ = _
      interval_cases i <;> interval_cases j <;> simp [sum_range_succ, choleskyExample] <;> norm_num
  obtain ⟨L, hL, hsame⟩ := C81_complete B _ _ hs hc
  obtain ⟨r, c, e⟩ := hsame
  refine ⟨L, hL, ?_, ?_, ?_⟩
  · rw [e 0 0 (by rw [r]; decide) (by rw [c]; decide)]; simp
  · rw [e 1 0 (by rw [r]; decide) (by rw [c]; decide)]; simp
  · rw [e 1 1 (by rw [r]; decide) (by rw [c]; decide)]; simp

/-! ## Symmetry -/

/-- C61. Symmetric matrices are told symmetric; a matrix that is not square is refused by `GetCholeskyDecomposition` with `runtime_error`, and stops
`IsSymmetric` on an assertion. What is missing: a square matrix that is not symmetric is told symmetric, see `C61_refuted`. -/
theorem C61_square_partial (B : Build) (A : Mat ℝ) :
    (Symmetric A → isSymmetric B A = .ok true) ∧
    (A.rows ≠ A.cols → getCholesky B A = .throws .runtimeError ∧ isSymmetric B A = eigenFail B) := by
  refine ⟨fun h => ?_, fun h => ⟨?_, ?_⟩⟩
  · unfold isSymmetric
    rw [if_pos h.1]
    rfl
  · unfold getCholesky isSquare
    simp [h]
  · unfold isSymmetric
    rw [if_neg h]

/-- C61. The factor of a square matrix that is not symmetric is the one of another matrix: the one with the same lower triangle made symmetric. -/
theorem C61_lower_triangle (B : Build) (A A' L : Mat ℝ) (h : A.rows = A.cols) (hr : A'.rows = A.rows) (hs : Symmetric A')
    (hlow : ∀ i j, j ≤ i → i < A.rows → A'.entry i j = A.entry i j) (hL : getCholesky B A = .ok L) : IsCholesky A' L := by
  obtain ⟨h1, h2, h3, h4⟩ := cholesky_lower h hL
  refine ⟨by rw [hr]; exact h1, fun i j _ _ => h2 i j, fun i hi => h3 i (hr ▸ hi), fun i j hi hj => ?_⟩
  have hi' : i < A.rows := hr ▸ hi
  have hj' : j < A.rows := hr ▸ hj
  rw [hr, h4 i j hi' hj']
  unfold symLow
  split
  · rename_i hji
    rw [hlow i j hji hi']
  · rename_i hji
    rw [hs.2 i j hi hj, hlow j i (by omega) hj']

/-- The matrix `[[1, 7], [0, 1]]`. -/
def notSymmetricExample : Mat ℝ := ⟨2, 2, fun i j => if i = j then 1 else if i < j then 7 else 0⟩

/-- C61 is false of the code: `[[1, 7], [0, 1]]` is not symmetric, `IsSymmetric` returns true on it, and `GetCholeskyDecomposition` returns a matrix whose
product by its transpose is not it. -/
theorem C61_refuted (B : Build) :
    ¬ Symmetric notSymmetricExample ∧ isSymmetric B notSymmetricExample = .ok true ∧
    ∃ L, getCholesky B notSymmetricExample = .ok L ∧ ∑ l ∈ range 2, L.entry 0 l * L.entry 1 l ≠ notSymmetricExample.entry 0 1 := by
  have hns : notSymmetricExample.entry 0 1 = 7 := by simp [notSymmetricExample]
  have hns' : notSymmetricExample.entry 1 0 = 0 := by simp [notSymmetricExample]
  refine ⟨fun h => ?_, rfl, ?_⟩
  · have := h.2 0 1 (by decide) (by decide)
    rw [hns, hns'] at this
    norm_num at this
  · have hp := (llt_iff 2 notSymmetricExample.entry).2 (by
      rintro v ⟨i, hi, hv⟩
      have e : ∑ i ∈ range 2, ∑ j ∈ range 2, v i * symLow notSymmetricExample.entry i j * v j = v 0 ^ 2 + v 1 ^ 2 := by
        simp only [sum_range_succ, sum_range_zero]
        simp [symLow, notSymmetricExample]
        ring
      rw [e]
      have hi : i = 0 ∨ i = 1 := by omega
      rcases hi with rfl | rfl
      · have := pow_pos (abs_pos.2 hv) 2
        rw [sq_abs] at this
        nlinarith [sq_nonneg (v 1)]
      · have := pow_pos (abs_pos.2 hv) 2
        rw [sq_abs] at this
        nlinarith [sq_nonneg (v 0)])
    obtain ⟨c, hc⟩ := hp
    have hL : getCholesky B notSymmetricExample = .ok (lowerOf 2 c) := by
      rw [getCholesky_square B rfl]
      show (match lltN 2 notSymmetricExample.entry 2 with
        | none => Res.throws .runtimeError
        | some a => Res.ok (lowerOf 2 a)) = _
      rw [hc]
    refine ⟨_, hL, ?_⟩
    have := (cholesky_lower rfl hL).2.2.2 0 1 (by decide) (by decide)
    rw [show notSymmetricExample.rows = 2 from rfl] at this
    rw [this, hns]
    simp [symLow, notSymmetricExample]

/-- C61: other witnesses: every square matrix is told symmetric. -/
theorem C61_always_true (B : Build) (A : Mat ℝ) (h : A.rows = A.cols) : isSymmetric B A = .ok true := by
  unfold isSymmetric
  rw [if_pos h]
  rfl

example : (⟨1, 2, fun _ _ => 0⟩ : Mat ℝ).rows ≠ (⟨1, 2, fun _ _ => 0⟩ : Mat ℝ).cols := by decide

/-- C61_lower_triangle: the hypotheses are met. -/
example : ∃ L, getCholesky ⟨true⟩ notSymmetricExample = .ok L ∧ IsCholesky ⟨2, 2, fun i j => if i = j then 1 else 0⟩ L := by
  obtain ⟨_, _, L, hL, _⟩ := C61_refuted ⟨true⟩
  refine ⟨L, hL, C61_lower_triangle ⟨true⟩ notSymmetricExample _ L rfl rfl ⟨rfl, fun i j _ _ => ?_⟩ (fun i j hij _ => ?_) hL⟩
  · show (if i = j then (1 : ℝ) else 0) = if j = i then 1 else 0
    simp [eq_comm]
  · show (if i = j then (1 : ℝ) else 0) = if i = j then 1 else if i < j then 7 else 0
    rw [if_neg (show ¬ i < j by omega)]

/-! ## `MakeSymmetricFromUpper`, `MakeSymmetricFromLower` -/

/-- C84. The result is symmetric and keeps the upper triangle; a symmetric matrix is unchanged; a matrix that is not square is refused. -/
theorem C84_from_upper (B : Build) (A : Mat ℝ) :
    (A.rows = A.cols → ∃ A', makeSymmetricFromUpper B A = .ok A' ∧ Symmetric A' ∧ A'.rows = A.rows ∧
      ∀ i j, i ≤ j → A'.entry i j = A.entry i j) ∧
    (Symmetric A → ∃ A', makeSymmetricFromUpper B A = .ok A' ∧ Same A' A) ∧
    (A.rows ≠ A.cols → makeSymmetricFromUpper B A = eigenFail B) := by
  unfold makeSymmetricFromUpper
  refine ⟨fun h => ⟨_, if_pos h, ⟨h, fun i j _ _ => ?_⟩, rfl, fun i j hij => if_pos hij⟩, fun h => ⟨_, if_pos h.1, rfl, rfl, fun i j hi hj => ?_⟩, fun h => if_neg h⟩
  · show (if i ≤ j then A.entry i j else A.entry j i) = if j ≤ i then A.entry j i else A.entry i j
    by_cases h1 : i ≤ j <;> by_cases h2 : j ≤ i
    · have : i = j := by omega
      subst this; rfl
    · rw [if_pos h1, if_neg h2]
    · rw [if_neg h1, if_pos h2]
    · omega
  · show (if i ≤ j then A.entry i j else A.entry j i) = A.entry i j
    split
    · rfl
    · exact (h.2 i j hi (by rw [h.1]; exact hj)).symm

/-- C84. The same with the lower triangle. -/
theorem C84_from_lower (B : Build) (A : Mat ℝ) :
    (A.rows = A.cols → ∃ A', makeSymmetricFromLower B A = .ok A' ∧ Symmetric A' ∧ A'.rows = A.rows ∧
      ∀ i j, j ≤ i → A'.entry i j = A.entry i j) ∧
    (Symmetric A → ∃ A', makeSymmetricFromLower B A = .ok A' ∧ Same A' A) ∧
    (A.rows ≠ A.cols → makeSymmetricFromLower B A = eigenFail B) := by
  unfold makeSymmetricFromLower
  refine ⟨fun h => ⟨_, if_pos h, ⟨h, fun i j _ _ => ?_⟩, rfl, fun i j hij => if_pos hij⟩, fun h => ⟨_, if_pos h.1, rfl, rfl, fun i j hi hj => ?_⟩, fun h => if_neg h⟩
  · show (if j ≤ i then A.entry i j else A.entry j i) = if i ≤ j then A.entry j i else A.entry i j
    by_cases h1 : i ≤ j <;> by_cases h2 : j ≤ i
    · have : i = j := by omega
      subst this; rfl
    · rw [if_pos h1, if_neg h2]
    · rw [if_neg h1, if_pos h2]
    · omega
  · show (if j ≤ i then A.entry i j else A.entry j i) = A.entry i j
    split
    · rfl
    · exact (h.2 i j hi (by rw [h.1]; exact hj)).symm

/-- C84. The two functions agree through the transpose. -/
theorem C84_transpose (B : Build) (A : Mat ℝ) (h : A.rows = A.cols) :
    ∃ A' A'', makeSymmetricFromUpper B A = .ok A' ∧ makeSymmetricFromLower B (transposeM A) = .ok A'' ∧ Same A' A'' := by
  refine ⟨_, _, if_pos h, if_pos h.symm, h, h.symm, fun i j _ _ => ?_⟩
  show (if i ≤ j then A.entry i j else A.entry j i) = if j ≤ i then A.entry j i else A.entry i j
  by_cases h1 : i ≤ j <;> by_cases h2 : j ≤ i
  · have : i = j := by omega
    subst this; rfl
  · rw [if_pos h1, if_neg h2]
  · rw [if_neg h1, if_pos h2]
  · omega

/-- C84: a matrix that is not symmetric. -/
example : ∃ A', makeSymmetricFromUpper ⟨true⟩ notSymmetricExample = .ok A' ∧ A'.entry 1 0 = 7 := by
  refine ⟨_, if_pos rfl, ?_⟩
  simp [notSymmetricExample]

end MU
