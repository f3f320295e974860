import Verif.Props.Decompositions
import Verif.Props.MatrixOps
import Mathlib.LinearAlgebra.Matrix.DotProduct
import Mathlib.Algebra.Order.Star.Real

/-!
# C179: the solvers, the inverse, the pseudo-inverse and the decompositions agree
-/

set_option linter.unusedSectionVars false

namespace MU
open Spec Finset

namespace Spec

/-- The columns of the matrix are linearly independent. -/
def FullColumnRank (A : Mat ℝ) : Prop :=
  ∀ v : Nat → ℝ, (∀ i, i < A.rows → ∑ j ∈ range A.cols, A.entry i j * v j = 0) → ∀ j, j < A.cols → v j = 0

end Spec

/-! ## Matrices of Mathlib -/

section
variable {m n k : Nat}

theorem sum_on (A x : Mat ℝ) (n : Nat) (i c : Nat) : ∑ j ∈ range n, A.entry i j * x.entry j c = ∑ j : Fin n, A.entry i j * x.entry j c :=
  (Fin.sum_univ_eq_sum_range (fun j => A.entry i j * x.entry j c) n).symm

theorem injective_on {A : Mat ℝ} (hA : HasSize A m n) (h : FullColumnRank A) {p : Nat} (M : Matrix (Fin n) (Fin p) ℝ) (hM : on A m n * M = 0) : M = 0 := by
  obtain ⟨rfl, rfl⟩ := hA
  ext j c
  have := h (fun l => if hl : l < A.cols then M ⟨l, hl⟩ c else 0) (fun i hi => by
    have := congrFun (congrFun hM ⟨i, hi⟩) c
    rw [Matrix.mul_apply] at this
    rw [← Fin.sum_univ_eq_sum_range (fun l => A.entry i l * if hl : l < A.cols then M ⟨l, hl⟩ c else 0)]
    simpa [on] using this) j j.2
  simpa using this

theorem left_inverse {A : Mat ℝ} (hA : HasSize A m n) (h : FullColumnRank A) {X : Matrix (Fin n) (Fin m) ℝ} (hX : MoorePenrose (on A m n) X) : X * on A m n = 1 := by
  have := injective_on hA h (X * on A m n - 1) (by rw [Matrix.mul_sub, ← Matrix.mul_assoc, hX.axa, Matrix.mul_one, sub_self])
  exact sub_eq_zero.1 this

/-- The normal equations have one solution. -/
theorem normal_unique {A : Mat ℝ} (hA : HasSize A m n) (h : FullColumnRank A) {p : Nat} {x y : Matrix (Fin n) (Fin p) ℝ} {b : Matrix (Fin m) (Fin p) ℝ}
    (hx : (on A m n).transpose * (on A m n * x - b) = 0) (hy : (on A m n).transpose * (on A m n * y - b) = 0) : x = y := by
  have e : (on A m n).transpose * (on A m n * (x - y)) = 0 := by
    have := sub_eq_zero.2 (hx.trans hy.symm)
    rw [← Matrix.mul_sub] at this
    rw [Matrix.mul_sub]
    simpa using this
  rw [← Matrix.mul_assoc, ← Matrix.conjTranspose_eq_transpose_of_trivial, Matrix.conjTranspose_mul_self_mul_eq_zero] at e
  exact sub_eq_zero.1 (injective_on hA h _ e)

theorem normal_pinv {A : Matrix (Fin m) (Fin n) ℝ} {X : Matrix (Fin n) (Fin m) ℝ} (hX : MoorePenrose A X) {p : Nat} (b : Matrix (Fin m) (Fin p) ℝ) :
    A.transpose * (A * (X * b) - b) = 0 := by
  have : A.transpose * (A * X) = A.transpose := by
    rw [← hX.ax, ← Matrix.transpose_mul, hX.axa]
  rw [Matrix.mul_sub, ← Matrix.mul_assoc A, ← Matrix.mul_assoc, this, sub_self]

end

/-- The answer of `LeastSquareSolver` in matrices. -/
theorem leastSquares_on (E : EigenLA) (hE : Documented E) (B : Build) {m n c : Nat} {A b : Mat ℝ} (hA : HasSize A m n) (hb : HasSize b m c) :
    ∃ x, leastSquareSolver E B A b = .ok x ∧ HasSize x n c ∧ (on A m n).transpose * (on A m n * on x n c - on b m c) = 0 := by
  obtain ⟨rfl, rfl⟩ := hA
  obtain ⟨hbr, rfl⟩ := hb
  obtain ⟨x, h1, h2, -, h4⟩ := C86_least_squares E hE B A b hbr
  refine ⟨x, h1, h2, ?_⟩
  ext k c
  have := h4 k c k.2 c.2
  rw [Matrix.mul_apply, Matrix.zero_apply, ← this, ← Fin.sum_univ_eq_sum_range (fun i => A.entry i k * (∑ j ∈ range A.cols, A.entry i j * x.entry j c - b.entry i c))]
  refine sum_congr rfl fun i _ => ?_
  rw [Matrix.transpose_apply, Matrix.sub_apply, Matrix.mul_apply, sum_on]
  rfl

theorem same_of_on {m n : Nat} {A C : Mat ℝ} (hA : HasSize A m n) (hC : HasSize C m n) (h : on A m n = on C m n) : Same A C := by
  obtain ⟨rfl, rfl⟩ := hA
  exact ⟨hC.1.symm, hC.2.symm, fun i j hi hj => congrFun (congrFun h ⟨i, hi⟩) ⟨j, hj⟩⟩

theorem product_on {B : Build} {m n c : Nat} {X b : Mat ℝ} (hX : HasSize X n m) (hb : HasSize b m c) :
    ∃ y, X.mulM B b = .ok y ∧ HasSize y n c ∧ on y n c = on X n m * on b m c := by
  refine ⟨_, mulM_ok (by rw [hX.2, hb.1]), ⟨hX.1, hb.2⟩, ?_⟩
  ext i j
  rw [Matrix.mul_apply]
  show ∑ l ∈ range X.cols, X.entry i l * b.entry l j = _
  rw [sum_on, hX.2]
  rfl

/-- The residual of another vector is larger by the square of a distance. -/
theorem residual_split {m n c : Nat} {A x y b : Mat ℝ} (hA : HasSize A m n) (hx : (on A m n).transpose * (on A m n * on x n c - on b m c) = 0) (k : Fin c) :
    sqResidual A y b k = sqResidual A x b k + ∑ i : Fin m, (on A m n * (on y n c - on x n c)) i k ^ 2 := by
  obtain ⟨rfl, rfl⟩ := hA
  have res : ∀ z : Mat ℝ, sqResidual A z b k = ∑ i : Fin A.rows, (on A A.rows A.cols * on z A.cols c - on b A.rows c) i k ^ 2 := by
    intro z
    unfold sqResidual
    rw [← Fin.sum_univ_eq_sum_range (fun i => (∑ j ∈ range A.cols, A.entry i j * z.entry j k - b.entry i k) ^ 2)]
    refine sum_congr rfl fun i _ => ?_
    rw [sum_on, Matrix.sub_apply, Matrix.mul_apply]
    rfl
  have cross : ∑ i : Fin A.rows, (on A A.rows A.cols * (on y A.cols c - on x A.cols c)) i k * (on A A.rows A.cols * on x A.cols c - on b A.rows c) i k = 0 := by
    have e : (on A A.rows A.cols * (on y A.cols c - on x A.cols c)).transpose * (on A A.rows A.cols * on x A.cols c - on b A.rows c) = 0 := by
      rw [Matrix.transpose_mul, Matrix.mul_assoc, hx, Matrix.mul_zero]
    have := congrFun (congrFun e k) k
    rwa [Matrix.mul_apply] at this
  rw [res, res, ← sum_add_distrib]
  have : ∀ i : Fin A.rows, (on A A.rows A.cols * on y A.cols c - on b A.rows c) i k =
      (on A A.rows A.cols * (on y A.cols c - on x A.cols c)) i k + (on A A.rows A.cols * on x A.cols c - on b A.rows c) i k := by
    intro i
    rw [Matrix.mul_sub]
    simp only [Matrix.sub_apply]
    ring
  calc _ = ∑ i : Fin A.rows, ((on A A.rows A.cols * on x A.cols c - on b A.rows c) i k ^ 2 + (on A A.rows A.cols * (on y A.cols c - on x A.cols c)) i k ^ 2)
        + 2 * ∑ i : Fin A.rows, (on A A.rows A.cols * (on y A.cols c - on x A.cols c)) i k * (on A A.rows A.cols * on x A.cols c - on b A.rows c) i k := by
        rw [mul_sum, ← sum_add_distrib]
        refine sum_congr rfl fun i _ => ?_
        rw [this i]
        ring
    _ = _ := by rw [cross, mul_zero, add_zero]

/-- **C179**: for independent columns, `LeastSquareSolver(b)` is the product of `GetPseudoInverse()` and `b`, and the pseudo-inverse is a left inverse. -/
theorem C179_pseudo_inverse (E : EigenLA) (hE : Documented E) (B : Build) (tol : ℝ) (ht : 0 ≤ tol) (m n c : Nat) (A b : Mat ℝ) (hA : HasSize A m n) (hb : HasSize b m c)
    (hcol : FullColumnRank A) (hs : ∀ i, i < min m n → (E.svd A).2.1.entry i 0 = 0 ∨ tol < (E.svd A).2.1.entry i 0) :
    ∃ x X y, leastSquareSolver E B A b = .ok x ∧ getPseudoInverse E B tol A = .ok X ∧ X.mulM B b = .ok y ∧ Same x y ∧ on X n m * on A m n = 1 := by
  obtain ⟨x, hx, hxs, hxn⟩ := leastSquares_on E hE B hA hb
  obtain ⟨X, hX, hXs, hMP⟩ := C62_moore_penrose E hE B tol ht m n A hA hs
  obtain ⟨y, hy, hys, hyn⟩ := product_on (B := B) hXs hb
  refine ⟨x, X, y, hx, hX, hy, same_of_on hxs hys ?_, left_inverse hA hcol hMP⟩
  refine normal_unique hA hcol hxn ?_
  rw [hyn]
  exact normal_pinv hMP _

/-- C179: with any columns, the product of the pseudo-inverse and `b` has the residual of the answer of `LeastSquareSolver(b)`, the smallest. -/
theorem C179_residual (E : EigenLA) (hE : Documented E) (B : Build) (tol : ℝ) (ht : 0 ≤ tol) (m n c : Nat) (A b : Mat ℝ) (hA : HasSize A m n) (hb : HasSize b m c)
    (hs : ∀ i, i < min m n → (E.svd A).2.1.entry i 0 = 0 ∨ tol < (E.svd A).2.1.entry i 0) :
    ∃ x X y, leastSquareSolver E B A b = .ok x ∧ getPseudoInverse E B tol A = .ok X ∧ X.mulM B b = .ok y ∧
      (∀ k, k < c → sqResidual A x b k = sqResidual A y b k) ∧ ∀ k, k < c → ∀ z, sqResidual A y b k ≤ sqResidual A z b k := by
  obtain ⟨x, hx, hxs, hxn⟩ := leastSquares_on E hE B hA hb
  obtain ⟨X, hX, hXs, hMP⟩ := C62_moore_penrose E hE B tol ht m n A hA hs
  obtain ⟨y, hy, hys, hyn⟩ := product_on (B := B) hXs hb
  have hy0 : (on A m n).transpose * (on A m n * on y n c - on b m c) = 0 := by
    rw [hyn]
    exact normal_pinv hMP _
  have le : ∀ {u : Mat ℝ}, (on A m n).transpose * (on A m n * on u n c - on b m c) = 0 → ∀ k, k < c → ∀ z, sqResidual A u b k ≤ sqResidual A z b k := by
    intro u hu k hk z
    rw [residual_split (y := z) hA hu ⟨k, hk⟩]
    have : 0 ≤ ∑ i : Fin m, (on A m n * (on z n c - on u n c)) i ⟨k, hk⟩ ^ 2 := sum_nonneg fun i _ => sq_nonneg _
    linarith
  exact ⟨x, X, y, hx, hX, hy, fun k hk => le_antisymm (le hxn k hk y) (le hy0 k hk x), le hy0⟩

theorem fullColumnRank_of_det {n : Nat} {A : Mat ℝ} (hA : HasSize A n n) (hdet : (on A n n).det ≠ 0) : FullColumnRank A := by
  obtain ⟨rfl, hc⟩ := hA
  intro v hv j hj
  by_contra hne
  refine hdet (Matrix.exists_mulVec_eq_zero_iff.1 ⟨fun j => v j, fun h0 => hne ?_, ?_⟩)
  · exact congrFun h0 ⟨j, by omega⟩
  · ext i
    have := hv i i.2
    rw [hc, ← Fin.sum_univ_eq_sum_range (fun j => A.entry i j * v j)] at this
    exact this

theorem same_symm {A C : Mat ℝ} (h : Same A C) : Same C A :=
  ⟨h.1.symm, h.2.1.symm, fun i j hi hj => (h.2.2 i j (by rw [h.1]; exact hi) (by rw [h.2.1]; exact hj)).symm⟩

theorem same_trans {A C D : Mat ℝ} (h : Same A C) (h' : Same C D) : Same A D :=
  ⟨h.1.trans h'.1, h.2.1.trans h'.2.1, fun i j hi hj => (h.2.2 i j hi hj).trans (h'.2.2 i j (by rw [← h.1]; exact hi) (by rw [← h.2.1]; exact hj))⟩

/-- C179: for an invertible matrix, `GetInverse()` and `GetPseudoInverse()` are the same matrix, and `LUSolver(b)`, `QRSolver(b)`, `LeastSquareSolver(b)` and the
product of the inverse and `b` the same columns. -/
theorem C179_inverse (E : EigenLA) (hE : Documented E) (inverse : Mat ℝ → Mat ℝ) (hinv : IsInverse inverse) (B : Build) (tol : ℝ) (ht : 0 ≤ tol) (n c : Nat) (A b : Mat ℝ)
    (hA : HasSize A n n) (hb : HasSize b n c) (hdet : (on A n n).det ≠ 0) (hs : ∀ i, i < n → (E.svd A).2.1.entry i 0 = 0 ∨ tol < (E.svd A).2.1.entry i 0) :
    ∃ Y X y u v w, getInverse inverse B A = .ok Y ∧ getPseudoInverse E B tol A = .ok X ∧ Same X Y ∧ Y.mulM B b = .ok y ∧ luSolver E B A b = .ok u ∧
      qrSolver E B A b = .ok v ∧ leastSquareSolver E B A b = .ok w ∧ Same u y ∧ Same v y ∧ Same w y := by
  have hcol := fullColumnRank_of_det hA hdet
  obtain ⟨Y, hY, -, hYs, -, hAY, huniq⟩ := C96_inverse inverse hinv B n A hA hdet
  obtain ⟨w, X, z, hw, hX, hz, hwz, hXA⟩ := C179_pseudo_inverse E hE B tol ht n n c A b hA hb hcol (fun i hi => hs i (by simpa using hi))
  obtain ⟨y, hy, hys, hyn⟩ := product_on (B := B) hYs hb
  obtain ⟨u, v, hu, hv, hus, -, hvu, hsol⟩ := C86_exact E hE B n c A b hA hb hdet
  obtain ⟨X', hX', hXs, -⟩ := C62_moore_penrose E hE B tol ht n n A hA (fun i hi => hs i (by simpa using hi))
  rw [hX] at hX'
  injection hX' with hX'
  subst hX'
  have hXY : on X n n = on Y n n := huniq _ (Or.inl hXA)
  have hyu : Same y u := by
    refine hsol y hys fun i k hi hk => ?_
    rw [sum_on]
    have hi' : i < n := by rw [← hA.1]; exact hi
    have hk' : k < c := by rw [← hb.2]; exact hk
    have e := congrFun (congrFun (show on A n n * on y n c = on b n c by rw [hyn, ← Matrix.mul_assoc, hAY, Matrix.one_mul]) ⟨i, hi'⟩) ⟨k, hk'⟩
    rw [Matrix.mul_apply] at e
    rw [hA.2]
    exact e
  have huy := same_symm hyu
  refine ⟨Y, X, y, u, v, w, hY, hX, same_of_on hXs hYs hXY, hy, hu, hv, hw, huy, same_trans hvu huy, ?_⟩
  obtain ⟨z', hz', hzs, hzn⟩ := product_on (B := B) hXs hb
  rw [hz] at hz'
  injection hz' with hz'
  subst hz'
  exact same_trans hwz (same_of_on hzs hys (by rw [hzn, hyn, hXY]))

/-- C179: for independent columns, the answer `x` of `LeastSquareSolver(b)` is that of the triangular system `R x = Qᵀ b` with the factors of
`GetQRDecomposition`. -/
theorem C179_qr (E : EigenLA) (hE : Documented E) (B : Build) (m n c : Nat) (h : n ≤ m) (A b : Mat ℝ) (hA : HasSize A m n) (hb : HasSize b m c) (hcol : FullColumnRank A) :
    ∃ x Q R, leastSquareSolver E B A b = .ok x ∧ getQR E B A = .ok (Q, R) ∧ on R n n * on x n c = (on Q m n).transpose * on b m c ∧ (on R n n).det ≠ 0 := by
  obtain ⟨x, hx, hxs, hxn⟩ := leastSquares_on E hE B hA hb
  obtain ⟨Q, R, hqr, hQs, hRs, hQ, -, hprod⟩ := C82_thin E hE B m n A hA h
  have hdet : (on R n n).det ≠ 0 := by
    intro h0
    obtain ⟨v, hv, hv0⟩ := Matrix.exists_mulVec_eq_zero_iff.2 h0
    refine hv ?_
    have := injective_on hA hcol (Matrix.of fun i (_ : Fin 1) => v i) (by
      rw [hprod, Matrix.mul_assoc]
      have : on R n n * (Matrix.of fun i (_ : Fin 1) => v i) = 0 := by
        ext i j
        have := congrFun hv0 i
        simpa [Matrix.mul_apply, Matrix.mulVec, dotProduct] using this
      rw [this, Matrix.mul_zero])
    ext i
    exact congrFun (congrFun this i) 0
  refine ⟨x, Q, R, hx, hqr, ?_, hdet⟩
  have e : (on R n n).transpose * (on R n n * on x n c - (on Q m n).transpose * on b m c) = 0 := by
    rw [hprod, Matrix.transpose_mul, Matrix.mul_assoc, Matrix.mul_sub, ← Matrix.mul_assoc, ← Matrix.mul_assoc, hQ, Matrix.one_mul] at hxn
    exact hxn
  have hu : IsUnit (on R n n).transpose.det := by rw [Matrix.det_transpose]; exact isUnit_iff_ne_zero.2 hdet
  have e2 := congrArg (fun M => (on R n n).transpose⁻¹ * M) e
  simp only [← Matrix.mul_assoc, Matrix.nonsing_inv_mul _ hu, Matrix.one_mul, Matrix.mul_zero] at e2
  exact sub_eq_zero.1 e2

/-- C179: a constraint that the answer of `LeastSquareSolver(b)` satisfies changes nothing: for independent columns, `LeastSquareSolverConstraint(b, C, d)` returns
the same vector. -/
theorem C179_constraint (E : EigenLA) (hE : Documented E) (B : Build) (garbage : Nat → Nat → ℝ) (m n p : Nat) (hpn : p < n) (hnm : n < m) (A b C d : Mat ℝ)
    (hA : HasSize A m n) (hb : HasSize b m 1) (hC : HasSize C p n) (hd : HasSize d p 1) (hrank : FullRowRank C) (hcol : FullColumnRank A)
    (hsat : ∀ x, leastSquareSolver E B A b = .ok x → Solves C x d) :
    ∃ x y, leastSquareSolver E B A b = .ok x ∧ leastSquareSolverConstraint E B garbage A b C d = .ok y ∧ Same y x := by
  obtain ⟨x, hx, hxs, hxn⟩ := leastSquares_on E hE B hA hb
  obtain ⟨y, hy, hys, -, hbest⟩ := C63_optimal E hE B garbage m n p hpn hnm A b C d hA hb hC hd hrank
  refine ⟨x, y, hx, hy, same_of_on hys hxs (sub_eq_zero.1 (injective_on hA hcol _ ?_))⟩
  have h1 := hbest x (hsat x hx)
  have h2 := residual_split (y := y) hA hxn 0
  have hz : ∑ i : Fin m, (on A m n * (on y n 1 - on x n 1)) i 0 ^ 2 = 0 :=
    le_antisymm (by have h2 : sqResidual A y b 0 = sqResidual A x b 0 + _ := h2; linarith) (sum_nonneg fun i _ => sq_nonneg _)
  ext i k
  have hk : k = 0 := Subsingleton.elim _ _
  subst hk
  have := (sum_eq_zero_iff_of_nonneg (fun i _ => sq_nonneg _)).1 hz i (mem_univ i)
  exact pow_eq_zero_iff two_ne_zero |>.1 this

/-- A matrix of three rows and two independent columns. -/
example : FullColumnRank ⟨3, 2, fun i j => if i = j then 1 else 2⟩ := by
  intro v h j hj
  have h0 := h 0 (by norm_num)
  have h1 := h 1 (by norm_num)
  simp [sum_range_succ] at h0 h1
  have hv1 : v 1 = 0 := by linarith
  have hv0 : v 0 = 0 := by linarith
  interval_cases j <;> assumption

end MU
