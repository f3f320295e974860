import Verif.Spec.MatrixOps
import Verif.Lemmas.Vectors
import Mathlib.LinearAlgebra.Matrix.Charpoly.Eigs
import Mathlib.LinearAlgebra.Matrix.ToLinearEquiv
import Mathlib.Analysis.Complex.Polynomial.Basic
import Mathlib.LinearAlgebra.Matrix.NonsingularInverse
import Mathlib.Algebra.Order.BigOperators.Ring.Finset
import Mathlib.Algebra.Polynomial.Splits

/-!
# C96-C100: elements, inverse, eigenvalues, comparisons, products of vectors
-/

set_option linter.unusedSectionVars false

namespace MU

open Spec Finset

theorem getD_lt {l : List ℝ} {i : Nat} (h : i < l.length) : l.getD i 0 = l[i] := by
  rw [List.getD_eq_getElem?_getD, List.getElem?_eq_getElem h]
  rfl

/-! ## C96: inverse -/

/-- C96. `GetInverse` of an invertible matrix is its inverse on both sides, and the only one; `Inverse` puts the same matrix in the object. -/
theorem C96_inverse (inverse : Mat ℝ → Mat ℝ) (hinv : IsInverse inverse) (B : Build) (n : Nat) (A : Mat ℝ) (hA : HasSize A n n) (hdet : (on A n n).det ≠ 0) :
    ∃ X, getInverse inverse B A = .ok X ∧ inverseInPlace inverse B A = .ok X ∧ HasSize X n n ∧ on X n n * on A n n = 1 ∧ on A n n * on X n n = 1 ∧
      ∀ Y : Matrix (Fin n) (Fin n) ℝ, (Y * on A n n = 1 ∨ on A n n * Y = 1) → Y = on X n n := by
  obtain ⟨h1, h2⟩ := hinv n A hA hdet
  have h3 : on A n n * on (inverse A) n n = 1 := mul_eq_one_comm.1 h2
  have e : inverseInPlace inverse B A = .ok (inverse A) := by
    unfold inverseInPlace
    rw [if_pos (hA.1.trans hA.2.symm), if_neg]
    obtain ⟨rfl, -⟩ := hA
    exact hdet
  refine ⟨inverse A, ?_, e, h1, h2, h3, ?_⟩
  · unfold getInverse
    rw [e]
  · rintro Y (hY | hY)
    · calc Y = Y * (on A n n * on (inverse A) n n) := by rw [h3, mul_one]
        _ = _ := by rw [← mul_assoc, hY, one_mul]
    · calc Y = (on (inverse A) n n * on A n n) * Y := by rw [h2, one_mul]
        _ = _ := by rw [mul_assoc, hY, mul_one]

/-- C96. Inverting twice gives the matrix back. -/
theorem C96_involution (inverse : Mat ℝ → Mat ℝ) (hinv : IsInverse inverse) (B : Build) (n : Nat) (A : Mat ℝ) (hA : HasSize A n n) (hdet : (on A n n).det ≠ 0) :
    ∃ X A', inverseInPlace inverse B A = .ok X ∧ inverseInPlace inverse B X = .ok A' ∧ Same A' A := by
  obtain ⟨X, _, e, hX, h1, h2, _⟩ := C96_inverse inverse hinv B n A hA hdet
  have hdX : (on X n n).det ≠ 0 := fun h0 => by
    have := congrArg Matrix.det h1
    rw [Matrix.det_mul, h0, zero_mul, Matrix.det_one] at this
    exact zero_ne_one this
  obtain ⟨A', _, e', hA', _, _, uniq⟩ := C96_inverse inverse hinv B n X hX hdX
  refine ⟨X, A', e, e', hA'.1.trans hA.1.symm, hA'.2.trans hA.2.symm, fun i j hi hj => ?_⟩
  have := congrFun (congrFun (uniq _ (Or.inl h2)) ⟨i, hA'.1 ▸ hi⟩) ⟨j, hA'.2 ▸ hj⟩
  exact this.symm

/-- C96. A singular matrix gives no finite result (in the model by definition: Eigen divides by a zero determinant or pivot), and a matrix that is not square is an assertion of Eigen's. -/
theorem C96_refused (inverse : Mat ℝ → Mat ℝ) (B : Build) (A : Mat ℝ) :
    (∀ n, HasSize A n n → (on A n n).det = 0 → getInverse inverse B A = .nonfinite) ∧ (A.rows ≠ A.cols → getInverse inverse B A = eigenFail B) := by
  constructor
  · rintro n ⟨rfl, hc⟩ hd
    unfold getInverse inverseInPlace
    have hd : (Matrix.of fun i j : Fin A.rows => A.entry i j).det = 0 := hd
    simp [hc, hd]
  · intro h
    unfold getInverse inverseInPlace
    simp [h]

/-- There is such an `inverse()`. -/
theorem isInverse_exists : ∃ inverse, IsInverse inverse := by
  refine ⟨fun A => ⟨A.rows, A.cols, fun i j => if h : i < A.rows ∧ j < A.rows then ((on A A.rows A.rows)⁻¹) ⟨i, h.1⟩ ⟨j, h.2⟩ else 0⟩, ?_⟩
  rintro n A ⟨rfl, hc⟩ hd
  refine ⟨⟨rfl, hc⟩, ?_⟩
  have : on (⟨A.rows, A.cols, fun i j => if h : i < A.rows ∧ j < A.rows then ((on A A.rows A.rows)⁻¹) ⟨i, h.1⟩ ⟨j, h.2⟩ else 0⟩ : Mat ℝ) A.rows A.rows =
      (on A A.rows A.rows)⁻¹ := by
    ext i j
    simp [on]
  rw [this]
  exact Matrix.nonsing_inv_mul _ (isUnit_iff_ne_zero.2 hd)

/-- C96: the hypotheses are met, by `[[0, 2], [1, 0]]` whose inverse is `[[0, 1], [1/2, 0]]`. -/
example : ∃ inverse, IsInverse inverse ∧ ∃ X, getInverse inverse ⟨true⟩ ⟨2, 2, fun i j => if i = j then 0 else if i = 0 then 2 else 1⟩ = .ok X ∧ X.entry 1 0 = 1 / 2 := by
  obtain ⟨inverse, h⟩ := isInverse_exists
  have hd : (on (⟨2, 2, fun i j => if i = j then 0 else if i = 0 then 2 else 1⟩ : Mat ℝ) 2 2).det ≠ 0 := by
    rw [Matrix.det_fin_two]
    simp [on]
  obtain ⟨X, e, _, _, h1, _⟩ := C96_inverse inverse h ⟨true⟩ 2 _ ⟨rfl, rfl⟩ hd
  refine ⟨inverse, h, X, e, ?_⟩
  have := congrFun (congrFun h1 1) 1
  simp [Matrix.mul_apply, on] at this
  linarith

/-! ## C97: eigenvalues -/

/-- C97. `Eigenvalues` of a matrix with `n` rows and columns: `n` complex numbers; they are exactly the eigenvalues; their sum is the trace and their product the
determinant. -/
theorem C97_eigenvalues (eigenvalues : Mat ℝ → List ℂ) (heig : AreEigenvalues eigenvalues) (B : Build) (n : Nat) (A : Mat ℝ) (hA : HasSize A n n) :
    ∃ l, getEigenvalues eigenvalues B A = .ok l ∧ l.length = n ∧
      (∀ z : ℂ, z ∈ l ↔ ∃ v : Fin n → ℂ, v ≠ 0 ∧ ∀ i : Fin n, ∑ j : Fin n, (A.entry i j : ℂ) * v j = z * v i) ∧
      l.sum = ∑ i : Fin n, (A.entry i i : ℂ) ∧ l.prod = ((on A n n).det : ℂ) := by
  obtain ⟨hr, hc⟩ := hA
  subst hr
  have hroots := heig A hc.symm
  generalize hM : (Matrix.of fun i j : Fin A.rows => (A.entry i j : ℂ)) = M at hroots
  refine ⟨eigenvalues A, ?_, ?_, ?_, ?_, ?_⟩
  · unfold getEigenvalues
    rw [cassert_true _ _ (show getNbRows A = getNbCols A from hc.symm), Res.ok_bind, if_pos hc.symm]
    rfl
  · rw [← Multiset.coe_card, hroots, IsAlgClosed.card_roots_eq_natDegree, Matrix.charpoly_natDegree_eq_dim, Fintype.card_fin]
  · intro z
    rw [← Multiset.mem_coe, hroots, Polynomial.mem_roots (Matrix.charpoly_monic M).ne_zero, Polynomial.IsRoot.def, Matrix.eval_charpoly,
      ← Matrix.exists_mulVec_eq_zero_iff]
    refine exists_congr fun v => and_congr_right fun _ => ?_
    rw [Matrix.sub_mulVec, sub_eq_zero, funext_iff]
    refine forall_congr' fun i => ?_
    rw [Matrix.scalar_apply, Matrix.mulVec_diagonal, ← hM]
    exact eq_comm
  · rw [← Multiset.sum_coe, hroots, ← Matrix.trace_eq_sum_roots_charpoly M, ← hM]
    rfl
  · rw [← Multiset.prod_coe, hroots, ← Matrix.det_eq_prod_roots_charpoly M, ← hM]
    have : (Matrix.of fun i j : Fin A.rows => (A.entry i j : ℂ)) = (on A A.rows A.rows).map (Complex.ofRealHom) := by
      ext i j
      rfl
    rw [this, ← RingHom.mapMatrix_apply, ← RingHom.map_det]
    rfl

/-- C97. The conjugate of an eigenvalue is listed as often. -/
theorem C97_conjugate (eigenvalues : Mat ℝ → List ℂ) (heig : AreEigenvalues eigenvalues) (B : Build) (n : Nat) (A : Mat ℝ) (hA : HasSize A n n) :
    ∃ l, getEigenvalues eigenvalues B A = .ok l ∧ ∀ z : ℂ, l.count (starRingEnd ℂ z) = l.count z := by
  obtain ⟨l, h, _⟩ := C97_eigenvalues eigenvalues heig B n A hA
  obtain ⟨hr, hc⟩ := hA
  subst hr
  refine ⟨l, h, fun z => ?_⟩
  have hl : l = eigenvalues A := by
    unfold getEigenvalues at h
    rw [cassert_true _ _ (show getNbRows A = getNbCols A from hc.symm), Res.ok_bind, if_pos hc.symm] at h
    cases h
    rfl
  have hroots := heig A hc.symm
  rw [← hl] at hroots
  have hreal : (Matrix.of fun i j : Fin A.rows => (A.entry i j : ℂ)).charpoly = (on A A.rows A.rows).charpoly.map Complex.ofRealHom := by
    rw [← Matrix.charpoly_map]
    rfl
  have hconj : (Matrix.of fun i j : Fin A.rows => (A.entry i j : ℂ)).charpoly.map (starRingEnd ℂ) = (Matrix.of fun i j : Fin A.rows => (A.entry i j : ℂ)).charpoly := by
    rw [hreal, Polynomial.map_map]
    congr 1
    ext x
    simp
  rw [← Multiset.coe_count, ← Multiset.coe_count, hroots, Polynomial.count_roots, Polynomial.count_roots]
  have := Polynomial.eq_rootMultiplicity_map (p := (Matrix.of fun i j : Fin A.rows => (A.entry i j : ℂ)).charpoly) (f := starRingEnd ℂ) (starRingEnd ℂ).injective z
  rw [hconj] at this
  exact this.symm

/-- C97. Without as many rows as columns the `assert` of the function, or Eigen's, fails. -/
theorem C97_refused (eigenvalues : Mat ℝ → List ℂ) (B : Build) (A : Mat ℝ) (h : A.rows ≠ A.cols) :
    getEigenvalues eigenvalues B A = if B.checked = true then .aborts else .ub := by
  unfold getEigenvalues getNbRows getNbCols cassert eigenFail
  simp only [h, if_false]
  cases B.checked <;> simp

/-- C97: the hypotheses are met: the rotation by a quarter turn has the eigenvalues `i` and `-i`. -/
example : ∃ eigenvalues, AreEigenvalues eigenvalues ∧
    ∃ l, getEigenvalues eigenvalues ⟨true⟩ ⟨2, 2, fun i j => if i = j then 0 else if i = 0 then -1 else 1⟩ = .ok l ∧ l.length = 2 ∧ Complex.I ∈ l := by
  have hex : AreEigenvalues fun A => (Matrix.of fun i j : Fin A.rows => (A.entry i j : ℂ)).charpoly.roots.toList := fun A _ => Multiset.coe_toList _
  obtain ⟨l, h, hl, hm, _⟩ := C97_eigenvalues _ hex ⟨true⟩ 2 ⟨2, 2, fun i j => if i = j then 0 else if i = 0 then -1 else 1⟩ ⟨rfl, rfl⟩
  refine ⟨_, hex, l, h, hl, (hm _).2 ⟨![1, -Complex.I], ?_, ?_⟩⟩
  · intro h0
    have := congrFun h0 0
    simp at this
  · intro i
    fin_cases i <;> simp [Fin.sum_univ_two]

/-! ## C98: comparisons -/

theorem isEqualM_iff (B : Build) (A C : Mat ℝ) (hr : A.rows = C.rows) (hc : A.cols = C.cols) (epsilon : ℝ) :
    ∃ b, isEqualM B A C epsilon = .ok b ∧ (b = true ↔ distance A C ≤ |epsilon| * min (matNorm A) (matNorm C)) := by
  unfold isEqualM Mat.subM
  rw [if_pos ⟨hr, hc⟩, Res.ok_bind]
  refine ⟨_, rfl, ?_⟩
  rw [decide_eq_true_iff]
  have hA : 0 ≤ sqNormM A := sum_nonneg fun i _ => sum_nonneg fun j _ => sq_nonneg _
  have hC : 0 ≤ sqNormM C := sum_nonneg fun i _ => sum_nonneg fun j _ => sq_nonneg _
  have hmin : min (matNorm A) (matNorm C) = Real.sqrt (min (sqNormM A) (sqNormM C)) := (Real.sqrt_monotone.map_min).symm
  rw [hmin, ← Real.sqrt_sq_eq_abs, ← Real.sqrt_mul (sq_nonneg _), sq epsilon]
  exact (Real.sqrt_le_sqrt_iff (mul_nonneg (mul_self_nonneg _) (le_min hA hC))).symm

theorem matNorm_nonneg (A : Mat ℝ) : 0 ≤ matNorm A := Real.sqrt_nonneg _

theorem matNorm_entry (A : Mat ℝ) {i j : Nat} (hi : i < A.rows) (hj : j < A.cols) : |A.entry i j| ≤ matNorm A := by
  rw [matNorm, ← Real.sqrt_sq_eq_abs]
  apply Real.sqrt_le_sqrt
  refine le_trans ?_ (single_le_sum (f := fun i => ∑ j ∈ range A.cols, A.entry i j ^ 2) (fun i _ => sum_nonneg fun j _ => sq_nonneg _) (mem_range.2 hi))
  exact single_le_sum (f := fun j => A.entry i j ^ 2) (fun j _ => sq_nonneg _) (mem_range.2 hj)

theorem distance_entry (A C : Mat ℝ) {i j : Nat} (hi : i < A.rows) (hj : j < A.cols) : |A.entry i j - C.entry i j| ≤ distance A C :=
  matNorm_entry ⟨A.rows, A.cols, fun i j => A.entry i j - C.entry i j⟩ hi hj

theorem distance_comm (A C : Mat ℝ) (hr : A.rows = C.rows) (hc : A.cols = C.cols) : distance A C = distance C A := by
  unfold distance
  rw [hr, hc]
  congr 1
  exact sum_congr rfl fun i _ => sum_congr rfl fun j _ => by ring

theorem distance_same {A C : Mat ℝ} (h : Same A C) : distance A C = 0 := by
  unfold distance
  rw [sum_eq_zero, Real.sqrt_zero]
  intro i hi
  refine sum_eq_zero fun j hj => ?_
  rw [h.2.2 i j (mem_range.1 hi) (mem_range.1 hj), sub_self, sq, mul_zero]

/-- C98. `IsEqual` compares the norm of the difference with `epsilon` times the smaller norm; matrices of different sizes are an assertion of Eigen's. -/
theorem C98_meaning (B : Build) (A C : Mat ℝ) (epsilon : ℝ) (he : 0 ≤ epsilon) :
    (A.rows = C.rows ∧ A.cols = C.cols → ∃ b, isEqualM B A C epsilon = .ok b ∧ (b = true ↔ distance A C ≤ epsilon * min (matNorm A) (matNorm C))) ∧
    (¬ (A.rows = C.rows ∧ A.cols = C.cols) → isEqualM B A C epsilon = eigenFail B) := by
  constructor
  · rintro ⟨hr, hc⟩
    obtain ⟨b, h, hb⟩ := isEqualM_iff B A C hr hc epsilon
    exact ⟨b, h, by rw [hb, abs_of_nonneg he]⟩
  · intro h
    unfold isEqualM Mat.subM eigenFail
    rw [if_neg h]
    split <;> rfl

/-- C98. A matrix is equal to itself whatever `epsilon`, and `IsEqual` is symmetric. -/
theorem C98_reflexive_symmetric (B : Build) (A C : Mat ℝ) (epsilon : ℝ) (hr : A.rows = C.rows) (hc : A.cols = C.cols) :
    isEqualM B A A epsilon = .ok true ∧ isEqualM B A C epsilon = isEqualM B C A epsilon := by
  constructor
  · obtain ⟨b, h, hb⟩ := isEqualM_iff B A A rfl rfl epsilon
    rw [h]
    congr 1
    rw [hb, distance_same ⟨rfl, rfl, fun _ _ _ _ => rfl⟩]
    exact mul_nonneg (abs_nonneg _) (le_min (matNorm_nonneg A) (matNorm_nonneg A))
  · obtain ⟨b, h, hb⟩ := isEqualM_iff B A C hr hc epsilon
    obtain ⟨b', h', hb'⟩ := isEqualM_iff B C A hr.symm hc.symm epsilon
    rw [h, h']
    congr 1
    rw [distance_comm C A hr.symm hc.symm, min_comm, ← hb] at hb'
    cases b <;> cases b' <;> simp_all

/-- C98. Matrices found equal differ, element by element, by at most `epsilon` times the norm; with `epsilon = 0` they are the same; and the matrix found equal to
a matrix of zeros is a matrix of zeros, whatever `epsilon`. -/
theorem C98_elements (B : Build) (A C : Mat ℝ) (epsilon : ℝ) (he : 0 ≤ epsilon) (hr : A.rows = C.rows) (hc : A.cols = C.cols)
    (h : isEqualM B A C epsilon = .ok true) :
    (∀ i j, i < A.rows → j < A.cols → |A.entry i j - C.entry i j| ≤ epsilon * min (matNorm A) (matNorm C)) ∧
    (epsilon = 0 → Same A C) ∧ ((∀ i j, i < C.rows → j < C.cols → C.entry i j = 0) → ∀ i j, i < A.rows → j < A.cols → A.entry i j = 0) := by
  obtain ⟨b, hb, hiff⟩ := isEqualM_iff B A C hr hc epsilon
  rw [h] at hb
  cases hb
  have hd := hiff.1 rfl
  rw [abs_of_nonneg he] at hd
  have hel : ∀ i j, i < A.rows → j < A.cols → |A.entry i j - C.entry i j| ≤ epsilon * min (matNorm A) (matNorm C) :=
    fun i j hi hj => (distance_entry A C hi hj).trans hd
  refine ⟨hel, fun h0 => ⟨hr, hc, fun i j hi hj => ?_⟩, fun hz i j hi hj => ?_⟩
  · have := hel i j hi hj
    rw [h0, zero_mul] at this
    exact sub_eq_zero.1 (abs_eq_zero.1 (le_antisymm this (abs_nonneg _)))
  · have hC : matNorm C = 0 := by
      unfold matNorm
      rw [sum_eq_zero, Real.sqrt_zero]
      intro i hi
      refine sum_eq_zero fun j hj => ?_
      rw [hz i j (mem_range.1 hi) (mem_range.1 hj), sq, mul_zero]
    have := hel i j hi hj
    rw [hC, min_eq_right (matNorm_nonneg A), mul_zero, hz i j (hr ▸ hi) (hc ▸ hj), sub_zero] at this
    exact abs_eq_zero.1 (le_antisymm this (abs_nonneg _))

/-- C98. The answer does not depend on the units: multiplying both matrices by the same number other than 0 does not change it. -/
theorem C98_scale (B : Build) (A C : Mat ℝ) (epsilon t : ℝ) (ht : t ≠ 0) (hr : A.rows = C.rows) (hc : A.cols = C.cols) :
    isEqualM B (scaled t A) (scaled t C) epsilon = isEqualM B A C epsilon := by
  have hs : ∀ M : Mat ℝ, matNorm (scaled t M) = |t| * matNorm M := fun M => by
    unfold matNorm scaled
    rw [← Real.sqrt_sq_eq_abs, ← Real.sqrt_mul (sq_nonneg _)]
    simp only [mul_sum, mul_pow]
  have hd : distance (scaled t A) (scaled t C) = |t| * distance A C := by
    unfold distance scaled
    rw [← Real.sqrt_sq_eq_abs, ← Real.sqrt_mul (sq_nonneg _)]
    simp only [mul_sum, ← mul_sub, mul_pow]
  obtain ⟨b, h, hb⟩ := isEqualM_iff B A C hr hc epsilon
  obtain ⟨b', h', hb'⟩ := isEqualM_iff B (scaled t A) (scaled t C) hr hc epsilon
  rw [h, h']
  congr 1
  have hp : 0 < |t| := abs_pos.2 ht
  rw [hd, hs, hs, ← mul_min_of_nonneg _ _ hp.le, show |epsilon| * (|t| * min (matNorm A) (matNorm C)) = |t| * (|epsilon| * min (matNorm A) (matNorm C)) by ring,
    mul_le_mul_iff_right₀ hp, ← hb] at hb'
  cases b <;> cases b' <;> simp_all

/-- C98. `IsIdentity(epsilon)`: every element is within `epsilon` of that of the identity matrix, relatively to the smaller of the two on the diagonal; a positive
answer implies an error of at most `epsilon` everywhere, the identity matrix is accepted, and with `epsilon = 0` nothing else is. -/
theorem C98_identity (A : Mat ℝ) (epsilon : ℝ) (he : 0 ≤ epsilon) :
    (isIdentityM A epsilon = true → ∀ i j, i < A.rows → j < A.cols → |A.entry i j - if i = j then 1 else 0| ≤ epsilon) ∧
    (Same A (Mat.identityM A.rows A.cols) → isIdentityM A epsilon = true) ∧
    ((∀ i j, i < A.rows → j < A.cols → |A.entry i j - if i = j then 1 else 0| ≤ epsilon / (1 + epsilon)) → isIdentityM A epsilon = true) ∧
    (isIdentityM A 0 = true ↔ Same A (Mat.identityM A.rows A.cols)) ∧
    (∀ epsilon', epsilon ≤ epsilon' → isIdentityM A epsilon = true → isIdentityM A epsilon' = true) := by
  have key : ∀ e : ℝ, 0 ≤ e → isIdentityM A e = true → ∀ i j, i < A.rows → j < A.cols → |A.entry i j - if i = j then 1 else 0| ≤ e := by
    intro e he h i j hi hj
    unfold isIdentityM at h
    rw [decide_eq_true_iff] at h
    have := h j hj i hi
    split_ifs at this ⊢
    · refine this.trans ?_
      rw [abs_one]
      calc min |A.entry i j| 1 * e ≤ 1 * e := mul_le_mul_of_nonneg_right (min_le_right _ _) he
        _ = e := one_mul e
    · rw [sub_zero]
      rwa [abs_one, one_mul] at this
  have same : ∀ e : ℝ, 0 ≤ e → Same A (Mat.identityM A.rows A.cols) → isIdentityM A e = true := by
    intro e he h
    unfold isIdentityM
    rw [decide_eq_true_iff]
    intro j hj i hi
    rw [h.2.2 i j hi hj]
    simp only [Mat.identityM]
    split_ifs
    · simpa using he
    · simpa using he
  refine ⟨key epsilon he, same epsilon he, fun h => ?_, ⟨fun h => ⟨rfl, rfl, fun i j hi hj => ?_⟩, same 0 le_rfl⟩, fun epsilon' hle h => ?_⟩
  · unfold isIdentityM
    rw [decide_eq_true_iff]
    intro j hj i hi
    have h1 := h i j hi hj
    have hp : 0 < 1 + epsilon := by linarith
    have hq : epsilon / (1 + epsilon) ≤ epsilon := div_le_self he (by linarith)
    split_ifs at h1 ⊢
    · rw [abs_one]
      have h2 : 1 - epsilon / (1 + epsilon) ≤ |A.entry i j| := by
        have := abs_sub_abs_le_abs_sub 1 (A.entry i j)
        rw [abs_one, abs_sub_comm] at this
        linarith
      have h3 : 1 - epsilon / (1 + epsilon) = 1 / (1 + epsilon) := by field_simp; ring
      have h4 : 1 / (1 + epsilon) ≤ 1 := by rw [div_le_one hp]; linarith
      have h5 : 1 / (1 + epsilon) ≤ min |A.entry i j| 1 := le_min (h3 ▸ h2) h4
      calc |A.entry i j - 1| ≤ epsilon / (1 + epsilon) := h1
        _ = 1 / (1 + epsilon) * epsilon := by ring
        _ ≤ _ := mul_le_mul_of_nonneg_right h5 he
    · rw [sub_zero] at h1
      rw [abs_one, one_mul]
      exact h1.trans hq
  · have := key 0 le_rfl h i j hi hj
    exact sub_eq_zero.1 (abs_eq_zero.1 (le_antisymm this (abs_nonneg _)))
  · unfold isIdentityM at h ⊢
    rw [decide_eq_true_iff] at h ⊢
    intro j hj i hi
    have := h j hj i hi
    split_ifs at this ⊢
    · exact this.trans (mul_le_mul_of_nonneg_left hle (le_min (abs_nonneg _) (abs_nonneg _)))
    · exact this.trans (mul_le_mul_of_nonneg_left hle (abs_nonneg _))

/-- C98: the hypotheses are met: `(1)` and `(2)` are equal to within 1 but not to within 1/3; nothing but zeros is equal to zeros. -/
example (B : Build) : isEqualM B ⟨1, 1, fun _ _ => 1⟩ ⟨1, 1, fun _ _ => 2⟩ 1 = .ok true ∧ isEqualM B ⟨1, 1, fun _ _ => 1⟩ ⟨1, 1, fun _ _ => 2⟩ (1 / 3) = .ok false ∧
    isEqualM B ⟨1, 1, fun _ _ => 1 / 10 ^ 20⟩ ⟨1, 1, fun _ _ => 0⟩ 1 = .ok false ∧ isIdentityM ⟨2, 3, fun i j => if i = j then 1 else 0⟩ 0 = true := by
  refine ⟨?_, ?_, ?_, (C98_identity _ 0 le_rfl).2.1 ⟨rfl, rfl, fun _ _ _ _ => rfl⟩⟩ <;>
  · unfold isEqualM Mat.subM
    rw [if_pos ⟨rfl, rfl⟩, Res.ok_bind]
    refine congrArg Res.ok ?_
    norm_num [sqNormM]

/-! ## C99: products of vectors -/

/-- C99. `inner` is symmetric, at most the product of the norms, and zero on `(v, v)` only when `v` is. -/
theorem C99_inner (u v : List ℝ) (h : u.length = v.length) :
    innerV u v = innerV v u ∧ innerV u v ^ 2 ≤ innerV u u * innerV v v ∧ 0 ≤ innerV u u ∧ (innerV u u = 0 ↔ ∀ a ∈ u, a = 0) := by
  refine ⟨?_, ?_, sum_nonneg fun i _ => mul_self_nonneg _, ?_⟩
  · unfold innerV
    rw [h]
    exact sum_congr rfl fun i _ => mul_comm _ _
  · unfold innerV
    rw [← h]
    have := sum_mul_sq_le_sq_mul_sq (range u.length) (fun i => u.getD i 0) (fun i => v.getD i 0)
    simpa only [sq] using this
  · unfold innerV
    rw [sum_eq_zero_iff_of_nonneg fun i _ => mul_self_nonneg _]
    constructor
    · intro h0 a ha
      obtain ⟨i, hi, rfl⟩ := List.getElem_of_mem ha
      have := mul_self_eq_zero.1 (h0 i (mem_range.2 hi))
      rwa [getD_lt hi] at this
    · intro h0 i hi
      have hi := mem_range.1 hi
      rw [getD_lt hi, h0 _ (List.getElem_mem hi), mul_zero]

/-- C99. `inner` is linear in its first argument, and by symmetry in the second. -/
theorem C99_inner_linear (u u' v : List ℝ) (h : u.length = v.length) (h' : u'.length = v.length) (a b : ℝ) :
    innerV (List.zipWith (fun x y => a * x + b * y) u u') v = a * innerV u v + b * innerV u' v := by
  unfold innerV
  rw [List.length_zipWith, h, h', min_self, mul_sum, mul_sum, ← sum_add_distrib]
  refine sum_congr rfl fun i hi => ?_
  have hi := mem_range.1 hi
  rw [getD_lt (l := List.zipWith _ u u') (by simp; omega), getD_lt (l := u) (by omega), getD_lt (l := u') (by omega), List.getElem_zipWith]
  ring

/-- C99. The transpose of a vector is a row with its elements in order, so that the row times a column is `inner`. -/
theorem C99_transpose (B : Build) (u v : List ℝ) (h : u.length = v.length) :
    HasSize (transposeVector u) 1 u.length ∧ (∀ (j : Nat) (a : ℝ), u[j]? = some a → matAt B (transposeVector u) 0 j = .ok a) ∧
    ∑ j ∈ range u.length, (transposeVector u).entry 0 j * v.getD j 0 = innerV u v := by
  refine ⟨⟨rfl, rfl⟩, fun j a ha => ?_, rfl⟩
  obtain ⟨hj, rfl⟩ := List.getElem?_eq_some_iff.1 ha
  unfold matAt
  rw [Mat.at_lt (show 0 < (transposeVector u).rows from Nat.one_pos) (show j < (transposeVector u).cols from hj)]
  show Res.ok (u.getD j 0) = _
  rw [getD_lt hj]

/-- C99. `outer(u, v)` is the matrix which sends `w` to `inner(v, w) u`; its trace is `inner(u, v)`; its transpose is `outer(v, u)`. -/
theorem C99_outer (B : Build) (u v w : List ℝ) (hw : w.length = v.length) :
    HasSize (outerV u v) u.length v.length ∧
    (∀ i, i < u.length → ∑ j ∈ range v.length, (outerV u v).entry i j * w.getD j 0 = innerV v w * u.getD i 0) ∧
    (u.length = v.length → ∑ i ∈ range u.length, (outerV u v).entry i i = innerV u v) ∧
    Same (transposeM (outerV u v)) (outerV v u) ∧ outerSelf v = outerV v v ∧ getMatrixSquare v = outerV v v ∧
    (∀ (i j : Nat) (a b : ℝ), u[i]? = some a → v[j]? = some b → matAt B (outerV u v) i j = .ok (a * b)) := by
  refine ⟨⟨rfl, rfl⟩, fun i _ => ?_, fun _ => rfl, ⟨rfl, rfl, fun i j _ _ => mul_comm _ _⟩, rfl, rfl, fun i j a b ha hb => ?_⟩
  · unfold innerV outerV
    rw [sum_mul]
    exact sum_congr rfl fun j _ => by ring
  · have hi := (List.getElem?_eq_some_iff.1 ha)
    have hj := (List.getElem?_eq_some_iff.1 hb)
    obtain ⟨hi, rfl⟩ := hi
    obtain ⟨hj, rfl⟩ := hj
    unfold matAt
    rw [Mat.at_lt (show i < (outerV u v).rows from hi) (show j < (outerV u v).cols from hj)]
    show Res.ok (u.getD i 0 * v.getD j 0) = _
    rw [getD_lt hi, getD_lt hj]

/-- C99. `GetMatrixSquare` is symmetric and positive semi-definite. -/
theorem C99_square (v : List ℝ) :
    Symmetric (getMatrixSquare v) ∧ ∀ x : Nat → ℝ, 0 ≤ ∑ i ∈ range v.length, ∑ j ∈ range v.length, x i * (getMatrixSquare v).entry i j * x j := by
  refine ⟨⟨rfl, fun i j _ _ => mul_comm _ _⟩, fun x => ?_⟩
  have : ∑ i ∈ range v.length, ∑ j ∈ range v.length, x i * (getMatrixSquare v).entry i j * x j = (∑ i ∈ range v.length, x i * v.getD i 0) ^ 2 := by
    rw [sq, sum_mul_sum]
    refine sum_congr rfl fun i _ => sum_congr rfl fun j _ => ?_
    show x i * (v.getD i 0 * v.getD j 0) * x j = _
    ring
  rw [this]
  exact sq_nonneg _

/-- C99. `GetDiagonalMatrix(v)` has the elements of `v` on the diagonal and zeros elsewhere, and multiplies a vector element by element; its diagonal is `v` again. -/
theorem C99_diagonal (v w : List ℝ) :
    HasSize (getDiagonalMatrix v) v.length v.length ∧
    (∀ i, i < v.length → ∑ j ∈ range v.length, (getDiagonalMatrix v).entry i j * w.getD j 0 = v.getD i 0 * w.getD i 0) ∧
    (∀ (i j : Nat) (a : ℝ), v[i]? = some a → (getDiagonalMatrix v).entry i j = if i = j then a else 0) ∧
    HasSize (getDiag (getDiagonalMatrix v)) v.length 1 ∧ ∀ (i : Nat) (a : ℝ), v[i]? = some a → (getDiag (getDiagonalMatrix v)).entry i 0 = a := by
  have hel : ∀ (i j : Nat) (a : ℝ), v[i]? = some a → (getDiagonalMatrix v).entry i j = if i = j then a else 0 := by
    intro i j a ha
    show (if i = j then v.getD i 0 else 0) = _
    rw [List.getD_eq_getElem?_getD, ha]
    rfl
  refine ⟨⟨rfl, rfl⟩, fun i hi => ?_, hel, ⟨min_self _, rfl⟩, fun i a ha => ?_⟩
  · rw [sum_eq_single i]
    · show (if i = i then v.getD i 0 else 0) * _ = _
      rw [if_pos rfl]
    · intro j _ hj
      show (if i = j then v.getD i 0 else 0) * _ = 0
      rw [if_neg (Ne.symm hj), zero_mul]
    · intro h
      exact absurd (mem_range.2 hi) h
  · show (getDiagonalMatrix v).entry i i = a
    rw [hel i i a ha, if_pos rfl]

/-- C99: the products of `(1, 2, 3)` and `(4, 5, 6)`. -/
example : innerV [1, 2, 3] [4, 5, 6] = 32 ∧ (outerV [1, 2, 3] [4, 5, 6]).entry 2 0 = 12 ∧ (getDiagonalMatrix [1, 2, 3]).entry 1 1 = 2 := by
  refine ⟨?_, ?_, ?_⟩
  · norm_num [innerV, sum_range_succ]
  · norm_num [outerV]
  · norm_num [getDiagonalMatrix]

/-! ## C100: elements -/

/-- C100. Writing an element with `at` changes that element and no other one, nor the size; reading and writing outside the bounds is an assertion of Eigen's. -/
theorem C100_at (B : Build) (A : Mat ℝ) (i j : Nat) (a : ℝ) :
    (i < getNbRows A ∧ j < getNbCols A → ∃ A', matPut B A i j a = .ok A' ∧ getNbRows A' = getNbRows A ∧ getNbCols A' = getNbCols A ∧ matAt B A' i j = .ok a ∧
      ∀ i' j', (i', j') ≠ (i, j) → matAt B A' i' j' = matAt B A i' j') ∧
    (¬ (i < getNbRows A ∧ j < getNbCols A) → matPut B A i j a = eigenFail B ∧ matAt B A i j = eigenFail B) := by
  unfold getNbRows getNbCols matPut matAt Mat.set Mat.at'
  constructor
  · intro h
    rw [if_pos h]
    refine ⟨_, rfl, rfl, rfl, ?_, fun i' j' hne => ?_⟩
    · simp [h]
    · have : ¬ (i' = i ∧ j' = j) := fun hh => hne (by rw [hh.1, hh.2])
      simp [this]
  · intro h
    exact ⟨if_neg h, if_neg h⟩

/-- C100. `GetRow`, `GetColumn` and `GetDiag` have the elements of the matrix, in order, and `Transpose` exchanges rows and columns. -/
theorem C100_parts (B : Build) (A : Mat ℝ) :
    (∀ i, i < getNbRows A → ∃ R, getRow B A i = .ok R ∧ HasSize R 1 (getNbCols A) ∧ ∀ j, j < getNbCols A → matAt B R 0 j = matAt B A i j) ∧
    (∀ j, j < getNbCols A → ∃ C, getColumn B A j = .ok C ∧ HasSize C (getNbRows A) 1 ∧ ∀ i, i < getNbRows A → matAt B C i 0 = matAt B A i j) ∧
    (HasSize (getDiag A) (min (getNbRows A) (getNbCols A)) 1 ∧ ∀ i, i < min (getNbRows A) (getNbCols A) → matAt B (getDiag A) i 0 = matAt B A i i) ∧
    (∀ i, ¬ i < getNbRows A → getRow B A i = eigenFail B) ∧ (∀ j, ¬ j < getNbCols A → getColumn B A j = eigenFail B) ∧
    (HasSize (transposeM A) (getNbCols A) (getNbRows A) ∧ ∀ i j, matAt B (transposeM A) j i = matAt B A i j) := by
  unfold getNbRows getNbCols matAt
  refine ⟨fun i hi => ⟨_, if_pos hi, ⟨rfl, rfl⟩, fun j hj => ?_⟩, fun j hj => ⟨_, if_pos hj, ⟨rfl, rfl⟩, fun i hi => ?_⟩, ⟨⟨rfl, rfl⟩, fun i hi => ?_⟩,
    fun i hi => if_neg hi, fun j hj => if_neg hj, ⟨rfl, rfl⟩, fun i j => ?_⟩
  · rw [Mat.at_lt hi hj, Mat.at_lt (m := ⟨1, A.cols, fun _ j => A.entry i j⟩) one_pos hj]
  · rw [Mat.at_lt hi hj, Mat.at_lt (m := ⟨A.rows, 1, fun i _ => A.entry i j⟩) hi one_pos]
  · rw [Mat.at_lt (lt_min_iff.1 hi).1 (lt_min_iff.1 hi).2, Mat.at_lt (m := getDiag A) hi one_pos]
    rfl
  · unfold Mat.at' transposeM
    simp only [and_comm]

/-- C100. `SetNull` and `SetIdentity` keep the size and set every element; the second gives a matrix that `IsIdentity` accepts and that leaves every vector
unchanged. -/
theorem C100_set (B : Build) (A : Mat ℝ) :
    (HasSize (setNullM A) (getNbRows A) (getNbCols A) ∧ ∀ i j, i < getNbRows A → j < getNbCols A → matAt B (setNullM A) i j = .ok 0) ∧
    (HasSize (setIdentityM A) (getNbRows A) (getNbCols A) ∧
      (∀ i j, i < getNbRows A → j < getNbCols A → matAt B (setIdentityM A) i j = .ok (if i = j then 1 else 0)) ∧
      (∀ epsilon, 0 ≤ epsilon → isIdentityM (setIdentityM A) epsilon = true) ∧
      ∀ x : Nat → ℝ, ∀ i, i < getNbRows A → i < getNbCols A → ∑ j ∈ range (getNbCols A), (setIdentityM A).entry i j * x j = x i) := by
  unfold getNbRows getNbCols matAt
  refine ⟨⟨⟨rfl, rfl⟩, fun i j hi hj => Mat.at_lt (m := setNullM A) hi hj⟩, ⟨rfl, rfl⟩, fun i j hi hj => Mat.at_lt (m := setIdentityM A) hi hj,
    fun e he => (C98_identity _ e he).2.1 ⟨rfl, rfl, fun _ _ _ _ => rfl⟩, fun x i hi hj => ?_⟩
  rw [sum_eq_single i]
  · show (if i = i then (1 : ℝ) else 0) * x i = x i
    rw [if_pos rfl, one_mul]
  · intro j _ hj
    show (if i = j then (1 : ℝ) else 0) * x j = 0
    rw [if_neg (Ne.symm hj), zero_mul]
  · intro h
    exact absurd (mem_range.2 hj) h

/-- C100: an element of a matrix with two rows and three columns is written and read back. -/
example : ∃ A', matPut ⟨true⟩ ⟨2, 3, fun i j => 10 * i + j⟩ 1 2 5 = .ok A' ∧ matAt ⟨true⟩ A' 1 2 = .ok 5 ∧ matAt ⟨true⟩ A' 1 1 = .ok 11 := by
  obtain ⟨A', h1, _, _, h2, h3⟩ := (C100_at ⟨true⟩ ⟨2, 3, fun i j => 10 * i + j⟩ 1 2 5).1 (by decide)
  refine ⟨A', h1, h2, ?_⟩
  rw [h3 1 1 (by decide)]
  simp [matAt, Mat.at']
  norm_num

end MU
