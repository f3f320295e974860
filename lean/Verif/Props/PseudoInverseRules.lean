import Verif.Props.SolversAgree
import Mathlib.LinearAlgebra.Lagrange
import Mathlib.Algebra.Polynomial.AlgebraMap

/-!
# C202: rules of the pseudo-inverse

The singular vectors that Eigen returns are not unique. The pseudo-inverse computed from them is: with every tolerance it depends on the matrix alone.
-/

set_option linter.unusedSectionVars false

namespace MU
open Spec Finset Matrix

section
variable {m n k : Nat}

/-- A factorisation of `A` with orthonormal columns in `U` and `V`. -/
structure IsSvd (A : Matrix (Fin m) (Fin n) ℝ) (U : Matrix (Fin m) (Fin k) ℝ) (s : Fin k → ℝ) (V : Matrix (Fin n) (Fin k) ℝ) : Prop where
  orthU : U.transpose * U = 1
  orthV : V.transpose * V = 1
  prod : A = U * diagonal s * V.transpose

theorem IsSvd.transpose {A : Matrix (Fin m) (Fin n) ℝ} {U : Matrix (Fin m) (Fin k) ℝ} {s : Fin k → ℝ} {V : Matrix (Fin n) (Fin k) ℝ} (h : IsSvd A U s V) :
    IsSvd A.transpose V s U := by
  refine ⟨h.orthV, h.orthU, ?_⟩
  rw [h.prod, transpose_mul, transpose_mul, transpose_transpose, diagonal_transpose, Matrix.mul_assoc]

theorem IsSvd.smul {A : Matrix (Fin m) (Fin n) ℝ} {U : Matrix (Fin m) (Fin k) ℝ} {s : Fin k → ℝ} {V : Matrix (Fin n) (Fin k) ℝ} (h : IsSvd A U s V) (c : ℝ) :
    IsSvd (c • A) U (fun i => c * s i) V := by
  refine ⟨h.orthU, h.orthV, ?_⟩
  rw [h.prod, show (fun i => c * s i) = c • s from rfl, Matrix.diagonal_smul, Matrix.mul_smul, Matrix.smul_mul]

/-- Sandwiches multiply. -/
theorem sandwich_mul {p q : Nat} {U : Matrix (Fin m) (Fin k) ℝ} (hU : U.transpose * U = 1) (W : Matrix (Fin p) (Fin k) ℝ) (Z : Matrix (Fin q) (Fin k) ℝ) (f g : Fin k → ℝ) :
    (W * diagonal f * U.transpose) * (U * diagonal g * Z.transpose) = W * diagonal (fun i => f i * g i) * Z.transpose := by
  calc _ = W * diagonal f * (U.transpose * U) * diagonal g * Z.transpose := by simp only [Matrix.mul_assoc]
    _ = W * (diagonal f * diagonal g) * Z.transpose := by rw [hU, Matrix.mul_one, Matrix.mul_assoc W]
    _ = _ := by rw [diagonal_mul_diagonal]

theorem gram_pow {A : Matrix (Fin m) (Fin n) ℝ} {U : Matrix (Fin m) (Fin k) ℝ} {s : Fin k → ℝ} {V : Matrix (Fin n) (Fin k) ℝ} (h : IsSvd A U s V) (r : Nat) :
    (A.transpose * A) ^ r * A.transpose = V * diagonal (fun i => (s i ^ 2) ^ r * s i) * U.transpose := by
  induction r with
  | zero =>
    rw [pow_zero, Matrix.one_mul, h.transpose.prod]
    simp
  | succ r ih =>
    rw [pow_succ', Matrix.mul_assoc, ih, h.transpose.prod, h.prod]
    rw [sandwich_mul h.orthU, sandwich_mul h.orthV]
    congr 2
    congr 1
    funext i
    ring

/-- A polynomial of `Aᵀ A`, times `Aᵀ`, acts on the singular values. -/
theorem gram_poly {A : Matrix (Fin m) (Fin n) ℝ} {U : Matrix (Fin m) (Fin k) ℝ} {s : Fin k → ℝ} {V : Matrix (Fin n) (Fin k) ℝ} (h : IsSvd A U s V) (p : Polynomial ℝ) :
    Polynomial.aeval (A.transpose * A) p * A.transpose = V * diagonal (fun i => p.eval (s i ^ 2) * s i) * U.transpose := by
  induction p using Polynomial.induction_on' with
  | add p q hp hq =>
    rw [map_add, Matrix.add_mul, hp, hq, ← Matrix.add_mul, ← Matrix.mul_add, diagonal_add]
    simp only [Polynomial.eval_add, add_mul]
  | monomial r c =>
    rw [Polynomial.aeval_monomial, ← Algebra.smul_def, Matrix.smul_mul, gram_pow h, ← Matrix.smul_mul, ← Matrix.mul_smul, ← diagonal_smul]
    congr 3
    funext i
    simp only [Polynomial.eval_monomial, Pi.smul_apply, smul_eq_mul]
    ring

/-- Functions of the singular values do not depend on the singular vectors. -/
theorem svd_function {k' : Nat} {A : Matrix (Fin m) (Fin n) ℝ} {U : Matrix (Fin m) (Fin k) ℝ} {s : Fin k → ℝ} {V : Matrix (Fin n) (Fin k) ℝ}
    {U' : Matrix (Fin m) (Fin k') ℝ} {s' : Fin k' → ℝ} {V' : Matrix (Fin n) (Fin k') ℝ} (h : IsSvd A U s V) (h' : IsSvd A U' s' V') (hs : ∀ i, 0 ≤ s i)
    (hs' : ∀ i, 0 ≤ s' i) (g : ℝ → ℝ) (g0 : g 0 = 0) : V * diagonal (fun i => g (s i)) * U.transpose = V' * diagonal (fun i => g (s' i)) * U'.transpose := by
  classical
  obtain ⟨p, hp⟩ : ∃ p : Polynomial ℝ, ∀ x ∈ (univ.image fun i => s i ^ 2) ∪ (univ.image fun i => s' i ^ 2), p.eval x = g (Real.sqrt x) / Real.sqrt x :=
    ⟨Lagrange.interpolate _ id fun x => g (Real.sqrt x) / Real.sqrt x, fun x hx => by
      have := Lagrange.eval_interpolate_at_node (s := (univ.image fun i => s i ^ 2) ∪ (univ.image fun i => s' i ^ 2)) (v := id)
        (fun x => g (Real.sqrt x) / Real.sqrt x) (Set.injOn_id _) hx
      exact this⟩
  have key : ∀ t : ℝ, 0 ≤ t → t ^ 2 ∈ (univ.image fun i => s i ^ 2) ∪ (univ.image fun i => s' i ^ 2) → p.eval (t ^ 2) * t = g t := by
    intro t ht hm
    rw [hp _ hm, Real.sqrt_sq ht]
    rcases ht.lt_or_eq with h | h
    · field_simp
    · rw [← h, g0]
      simp
  have e1 := gram_poly h p
  have e2 := gram_poly h' p
  rw [e1] at e2
  rw [show (fun i => g (s i)) = fun i => p.eval (s i ^ 2) * s i from funext fun i => (key _ (hs i) (by simp)).symm,
    show (fun i => g (s' i)) = fun i => p.eval (s' i ^ 2) * s' i from funext fun i => (key _ (hs' i) (by simp)).symm, e2]

end

/-- What the loop on the singular values does. -/
noncomputable def cutInverse (tol s : ℝ) : ℝ := if tol < s then 1 / s else 0

theorem cutInverse_zero {tol : ℝ} (ht : 0 ≤ tol) : cutInverse tol 0 = 0 := if_neg (not_lt.2 ht)

theorem svd_of_answer {m n : Nat} {A U S V : Mat ℝ} (h : SvdAnswer m n A U S V) :
    IsSvd (on A m n) (on U m (min m n)) (fun i : Fin (min m n) => S.entry i 0) (on V n (min m n)) := ⟨h.orthU, h.orthV, h.prod⟩

/-- The pseudo-inverse from any factorisation of the matrix. -/
theorem pinv_from (E : EigenLA) (hE : Documented E) (B : Build) {tol : ℝ} (ht : 0 ≤ tol) {m n k : Nat} {A : Mat ℝ} (hA : HasSize A m n)
    {U : Matrix (Fin m) (Fin k) ℝ} {s : Fin k → ℝ} {V : Matrix (Fin n) (Fin k) ℝ} (h : IsSvd (on A m n) U s V) (hs : ∀ i, 0 ≤ s i) :
    ∃ X, getPseudoInverse E B tol A = .ok X ∧ HasSize X n m ∧ on X n m = V * diagonal (fun i => cutInverse tol (s i)) * U.transpose := by
  obtain ⟨X, h1, h2, h3⟩ := C62_truncated E hE B tol ht m n A hA
  have ans := hE.svd m n A hA
  refine ⟨X, h1, h2, ?_⟩
  rw [← svd_function (svd_of_answer ans) h (fun i => ans.nonneg i i.2) hs (cutInverse tol) (cutInverse_zero ht)]
  refine moorePenrose_unique h3 (moorePenrose_of_svd _ _ _ _ ans.orthU ans.orthV (fun i => ?_) (fun i => ?_))
  all_goals
    unfold cutInverse
    by_cases hs : tol < (E.svd A).2.1.entry i 0
    · rw [if_pos hs, if_pos hs]
      have : (E.svd A).2.1.entry i 0 ≠ 0 := by linarith
      field_simp
    · rw [if_neg hs, if_neg hs]
      ring

/-- There is a factorisation. -/
theorem svd_exists {m n : Nat} {A : Mat ℝ} (hA : HasSize A m n) :
    ∃ (U : Matrix (Fin m) (Fin (min m n)) ℝ) (s : Fin (min m n) → ℝ) (V : Matrix (Fin n) (Fin (min m n)) ℝ), IsSvd (on A m n) U s V ∧ ∀ i, 0 ≤ s i := by
  obtain ⟨E, hE⟩ := documented_exists
  have ans := hE.svd m n A hA
  exact ⟨_, _, _, svd_of_answer ans, fun i => ans.nonneg i i.2⟩

/-- C202: with every tolerance, the pseudo-inverse depends on the matrix alone: every choice of singular vectors by Eigen, and both kinds of build, give the same one. -/
theorem C202_determined (E E' : EigenLA) (hE : Documented E) (hE' : Documented E') (B B' : Build) (tol : ℝ) (ht : 0 ≤ tol) (m n : Nat) (A : Mat ℝ) (hA : HasSize A m n) :
    ∃ X X', getPseudoInverse E B tol A = .ok X ∧ getPseudoInverse E' B' tol A = .ok X' ∧ Same X X' := by
  obtain ⟨U, s, V, h, hs⟩ := svd_exists hA
  obtain ⟨X, h1, h2, h3⟩ := pinv_from E hE B ht hA h hs
  obtain ⟨X', h1', h2', h3'⟩ := pinv_from E' hE' B' ht hA h hs
  exact ⟨X, X', h1, h1', same_of_on h2 h2' (h3.trans h3'.symm)⟩

/-- C202: the pseudo-inverse of the transpose is the transpose of the pseudo-inverse. -/
theorem C202_transpose (E : EigenLA) (hE : Documented E) (B : Build) (tol : ℝ) (ht : 0 ≤ tol) (m n : Nat) (A : Mat ℝ) (hA : HasSize A m n) :
    ∃ X Y, getPseudoInverse E B tol A = .ok X ∧ getPseudoInverse E B tol (transposeM A) = .ok Y ∧ Same Y (transposeM X) := by
  obtain ⟨U, s, V, h, hs⟩ := svd_exists hA
  obtain ⟨X, h1, h2, h3⟩ := pinv_from E hE B ht hA h hs
  have hT : HasSize (transposeM A) n m := ⟨hA.2, hA.1⟩
  obtain ⟨Y, h1', h2', h3'⟩ := pinv_from E hE B ht hT (show IsSvd (on (transposeM A) n m) V s U from h.transpose) hs
  refine ⟨X, Y, h1, h1', same_of_on h2' (⟨h2.2, h2.1⟩ : HasSize (transposeM X) m n) ?_⟩
  show on Y m n = (on X n m).transpose
  rw [h3, h3', transpose_mul, transpose_mul, transpose_transpose, diagonal_transpose, Matrix.mul_assoc]

/-- C202 (in part: the tolerance follows the units): the pseudo-inverse of `c A` is that of `A` divided by `c` when the tolerance is multiplied by `c` too. Missing: the same
tolerance, for instance the default one, see `C202_refuted`. -/
theorem C202_scaled_partial (E : EigenLA) (hE : Documented E) (B : Build) (tol : ℝ) (ht : 0 ≤ tol) (c : ℝ) (hc : 0 < c) (m n : Nat) (A : Mat ℝ) (hA : HasSize A m n) :
    ∃ X Y, getPseudoInverse E B tol A = .ok X ∧ getPseudoInverse E B (c * tol) (scaled c A) = .ok Y ∧ Same Y (scaled (1 / c) X) := by
  obtain ⟨U, s, V, h, hs⟩ := svd_exists hA
  obtain ⟨X, h1, h2, h3⟩ := pinv_from E hE B ht hA h hs
  have hT : HasSize (scaled c A) m n := ⟨hA.1, hA.2⟩
  obtain ⟨Y, h1', h2', h3'⟩ := pinv_from E hE B (mul_nonneg hc.le ht) hT (show IsSvd (on (scaled c A) m n) U _ V from h.smul c) (fun i => mul_nonneg hc.le (hs i))
  refine ⟨X, Y, h1, h1', same_of_on h2' (⟨h2.1, h2.2⟩ : HasSize (scaled (1 / c) X) n m) ?_⟩
  show on Y n m = (1 / c) • on X n m
  rw [h3, h3', ← Matrix.smul_mul, ← Matrix.mul_smul, ← diagonal_smul]
  congr 3
  funext i
  unfold cutInverse
  simp only [Pi.smul_apply, smul_eq_mul, mul_lt_mul_iff_right₀ hc]
  split
  · rw [one_div_mul_one_div]
  · rw [mul_zero]

/-- C202: the pseudo-inverse of `-A` is that of `A` with the other sign. -/
theorem C202_negated (E : EigenLA) (hE : Documented E) (B : Build) (tol : ℝ) (ht : 0 ≤ tol) (m n : Nat) (A : Mat ℝ) (hA : HasSize A m n) :
    ∃ X Y, getPseudoInverse E B tol A = .ok X ∧ getPseudoInverse E B tol (scaled (-1) A) = .ok Y ∧ Same Y (scaled (-1) X) := by
  obtain ⟨U, s, V, h, hs⟩ := svd_exists hA
  obtain ⟨X, h1, h2, h3⟩ := pinv_from E hE B ht hA h hs
  have hT : HasSize (scaled (-1) A) m n := ⟨hA.1, hA.2⟩
  have hsv : IsSvd (on (scaled (-1) A) m n) (-U) s V := by
    refine ⟨by rw [transpose_neg, Matrix.neg_mul, Matrix.mul_neg, neg_neg, h.orthU], h.orthV, ?_⟩
    show (-1 : ℝ) • on A m n = _
    rw [h.prod, neg_one_smul, Matrix.neg_mul, Matrix.neg_mul]
  obtain ⟨Y, h1', h2', h3'⟩ := pinv_from E hE B ht hT hsv hs
  refine ⟨X, Y, h1, h1', same_of_on h2' (⟨h2.1, h2.2⟩ : HasSize (scaled (-1) X) n m) ?_⟩
  show on Y n m = (-1 : ℝ) • on X n m
  rw [h3, h3', neg_one_smul, transpose_neg, Matrix.mul_neg]

/-- C202: turning or reflecting the space of the results, by an orthogonal matrix `Q`, turns the pseudo-inverse: that of `Q A` is that of `A` times the transpose of `Q`. -/
theorem C202_orthogonal (E : EigenLA) (hE : Documented E) (B : Build) (tol : ℝ) (ht : 0 ≤ tol) (m n : Nat) (A Q : Mat ℝ) (hA : HasSize A m n) (hQ : HasSize Q m m)
    (ho : (on Q m m).transpose * on Q m m = 1) :
    ∃ X QA Y Z, getPseudoInverse E B tol A = .ok X ∧ Q.mulM B A = .ok QA ∧ getPseudoInverse E B tol QA = .ok Y ∧ X.mulM B (transposeM Q) = .ok Z ∧ Same Y Z := by
  obtain ⟨U, s, V, h, hs⟩ := svd_exists hA
  obtain ⟨X, h1, h2, h3⟩ := pinv_from E hE B ht hA h hs
  obtain ⟨QA, q1, q2, q3⟩ := product_on (B := B) hQ hA
  have hsv : IsSvd (on QA m n) (on Q m m * U) s V := by
    refine ⟨?_, h.orthV, ?_⟩
    · rw [transpose_mul, Matrix.mul_assoc, ← Matrix.mul_assoc _ _ U, ho, Matrix.one_mul, h.orthU]
    · rw [q3, h.prod, Matrix.mul_assoc, Matrix.mul_assoc, Matrix.mul_assoc]
  obtain ⟨Y, h1', h2', h3'⟩ := pinv_from E hE B ht q2 hsv hs
  obtain ⟨Z, z1, z2, z3⟩ := product_on (B := B) h2 (⟨hQ.2, hQ.1⟩ : HasSize (transposeM Q) m m)
  refine ⟨X, QA, Y, Z, h1, q1, h1', z1, same_of_on h2' z2 ?_⟩
  rw [z3, h3, h3']
  rw [show on (transposeM Q) m m = (on Q m m).transpose from rfl, transpose_mul, Matrix.mul_assoc _ U.transpose]

/-- A reflection meets the hypothesis of `C202_orthogonal`. -/
example : (on ⟨2, 2, fun i j => if i = j then 0 else -1⟩ 2 2).transpose * on ⟨2, 2, fun i j => if i = j then 0 else -1⟩ 2 2 = 1 := by
  ext i j
  fin_cases i <;> fin_cases j <;> simp [Matrix.mul_apply, Fin.sum_univ_two, on]

/-- C202: the normal equations: the pseudo-inverse of `Aᵀ A`, with the square of the tolerance, times `Aᵀ` is the pseudo-inverse of `A`. -/
theorem C202_normal (E : EigenLA) (hE : Documented E) (B : Build) (tol : ℝ) (ht : 0 ≤ tol) (m n : Nat) (A : Mat ℝ) (hA : HasSize A m n) :
    ∃ X G Y Z, getPseudoInverse E B tol A = .ok X ∧ (transposeM A).mulM B A = .ok G ∧ getPseudoInverse E B (tol ^ 2) G = .ok Y ∧ Y.mulM B (transposeM A) = .ok Z ∧ Same Z X := by
  obtain ⟨U, s, V, h, hs⟩ := svd_exists hA
  obtain ⟨X, h1, h2, h3⟩ := pinv_from E hE B ht hA h hs
  have hT : HasSize (transposeM A) n m := ⟨hA.2, hA.1⟩
  have hTon : on (transposeM A) n m = (on A m n).transpose := rfl
  obtain ⟨G, g1, g2, g3⟩ := product_on (B := B) hT hA
  have hsv : IsSvd (on G n n) V (fun i => s i * s i) V := by
    refine ⟨h.orthV, h.orthV, ?_⟩
    rw [g3, hTon, h.transpose.prod, h.prod, sandwich_mul h.orthU]
  obtain ⟨Y, h1', h2', h3'⟩ := pinv_from E hE B (pow_nonneg ht 2) g2 hsv (fun i => mul_nonneg (hs i) (hs i))
  obtain ⟨Z, z1, z2, z3⟩ := product_on (B := B) h2' hT
  refine ⟨X, G, Y, Z, h1, g1, h1', z1, same_of_on z2 h2 ?_⟩
  rw [z3, h3, h3', hTon, h.transpose.prod, sandwich_mul h.orthV]
  congr 3
  funext i
  unfold cutInverse
  have : tol ^ 2 < s i * s i ↔ tol < s i := by rw [← sq]; exact pow_lt_pow_iff_left₀ ht (hs i) (by norm_num)
  rw [if_congr this rfl rfl]
  split
  · rename_i hlt
    have : s i ≠ 0 := by linarith
    field_simp
  · rw [zero_mul]

/-- C202 (in part: singular values neither small nor large): the pseudo-inverse of the pseudo-inverse is the matrix, when its singular values are zero or between the first
tolerance and the inverse of the second. Missing: other singular values, see `C202_refuted`. -/
theorem C202_twice_partial (E : EigenLA) (hE : Documented E) (B : Build) (tol tol' : ℝ) (ht : 0 ≤ tol) (ht' : 0 ≤ tol') (m n : Nat) (A : Mat ℝ) (hA : HasSize A m n)
    (hs : ∀ i, i < min m n → (E.svd A).2.1.entry i 0 = 0 ∨ tol < (E.svd A).2.1.entry i 0 ∧ tol' * (E.svd A).2.1.entry i 0 < 1) :
    ∃ X Y, getPseudoInverse E B tol A = .ok X ∧ getPseudoInverse E B tol' X = .ok Y ∧ Same Y A := by
  have ans := hE.svd m n A hA
  have h := svd_of_answer ans
  have hn : ∀ i : Fin (min m n), 0 ≤ (E.svd A).2.1.entry i 0 := fun i => ans.nonneg i i.2
  generalize on (E.svd A).1 m (min m n) = U at h
  generalize on (E.svd A).2.2 n (min m n) = V at h
  obtain ⟨X, h1, h2, h3⟩ := pinv_from E hE B ht hA h hn
  have hc : ∀ i : Fin (min m n), 0 ≤ cutInverse tol ((E.svd A).2.1.entry i 0) := by
    intro i
    unfold cutInverse
    split
    · exact one_div_nonneg.2 (hn i)
    · exact le_rfl
  obtain ⟨Y, h1', h2', h3'⟩ := pinv_from E hE B ht' h2 (⟨h.orthV, h.orthU, h3⟩ : IsSvd (on X n m) V _ U) hc
  refine ⟨X, Y, h1, h1', same_of_on h2' hA ?_⟩
  rw [h3', h.prod]
  congr 3
  funext i
  rcases hs i i.2 with h0 | ⟨h0, h0'⟩
  · rw [h0, cutInverse_zero ht, cutInverse_zero ht']
  · have hp : 0 < (E.svd A).2.1.entry i 0 := lt_of_le_of_lt ht h0
    unfold cutInverse
    rw [if_pos h0, if_pos ((lt_div_iff₀ hp).2 h0'), one_div_one_div]

/-- The matrix with one element. -/
def oneByOne (a : ℝ) : Mat ℝ := ⟨1, 1, fun _ _ => a⟩

theorem pinv_single (E : EigenLA) (hE : Documented E) (B : Build) {tol : ℝ} (ht : 0 ≤ tol) {a : ℝ} (ha : 0 ≤ a) :
    ∃ X, getPseudoInverse E B tol (oneByOne a) = .ok X ∧ Same X (oneByOne (if tol < a then 1 / a else 0)) := by
  have hs : IsSvd (on (oneByOne a) 1 1) (1 : Matrix (Fin 1) (Fin 1) ℝ) (fun _ => a) 1 := by
    refine ⟨by simp, by simp, ?_⟩
    ext i j
    rw [Subsingleton.elim i 0, Subsingleton.elim j 0]
    simp [on, oneByOne]
  obtain ⟨X, h1, h2, h3⟩ := pinv_from E hE B ht (⟨rfl, rfl⟩ : HasSize (oneByOne a) 1 1) hs (fun _ => ha)
  refine ⟨X, h1, same_of_on h2 ⟨rfl, rfl⟩ ?_⟩
  rw [h3]
  ext i j
  rw [Subsingleton.elim i 0, Subsingleton.elim j 0]
  simp [on, oneByOne, cutInverse]

/-- C202 is false with the default tolerance, `1e-6`: a matrix with one element 1, in units ten million times larger, has the pseudo-inverse zero, not ten million; and the
pseudo-inverse of the pseudo-inverse of ten million is zero. -/
theorem C202_refuted (E : EigenLA) (hE : Documented E) (B : Build) :
    (∃ X Y, getPseudoInverse E B (1 / 10 ^ 6) (oneByOne 1) = .ok X ∧ getPseudoInverse E B (1 / 10 ^ 6) (scaled (1 / 10 ^ 7) (oneByOne 1)) = .ok Y ∧
      Same X (oneByOne 1) ∧ Same Y (oneByOne 0) ∧ ¬ Same Y (scaled (10 ^ 7) X)) ∧
    ∃ X Y, getPseudoInverse E B (1 / 10 ^ 6) (oneByOne (10 ^ 7)) = .ok X ∧ getPseudoInverse E B (1 / 10 ^ 6) X = .ok Y ∧ Same Y (oneByOne 0) ∧ ¬ Same Y (oneByOne (10 ^ 7)) := by
  constructor
  · obtain ⟨X, h1, h2⟩ := pinv_single E hE B (tol := 1 / 10 ^ 6) (by norm_num) (a := 1) (by norm_num)
    obtain ⟨Y, h1', h2'⟩ := pinv_single E hE B (tol := 1 / 10 ^ 6) (by norm_num) (a := 1 / 10 ^ 7) (by norm_num)
    rw [if_pos (by norm_num)] at h2
    rw [if_neg (by norm_num)] at h2'
    have e : scaled (1 / 10 ^ 7) (oneByOne 1) = oneByOne (1 / 10 ^ 7) := by
      unfold scaled oneByOne
      simp
    refine ⟨X, Y, h1, e ▸ h1', by simpa using h2, h2', fun h => ?_⟩
    have a1 := h.2.2 0 0 (by rw [h2'.1]; exact Nat.one_pos) (by rw [h2'.2.1]; exact Nat.one_pos)
    have a2 := h2.2.2 0 0 (by rw [h2.1]; exact Nat.one_pos) (by rw [h2.2.1]; exact Nat.one_pos)
    have a3 := h2'.2.2 0 0 (by rw [h2'.1]; exact Nat.one_pos) (by rw [h2'.2.1]; exact Nat.one_pos)
    simp only [scaled, oneByOne] at a1 a2 a3
    rw [a3, a2] at a1
    norm_num at a1
  · obtain ⟨X, h1, h2⟩ := pinv_single E hE B (tol := 1 / 10 ^ 6) (by norm_num) (a := 10 ^ 7) (by norm_num)
    rw [if_pos (by norm_num)] at h2
    have hs : HasSize X 1 1 := ⟨h2.1, h2.2.1⟩
    have hsv : IsSvd (on X 1 1) (1 : Matrix (Fin 1) (Fin 1) ℝ) (fun _ => 1 / 10 ^ 7) 1 := by
      refine ⟨by simp, by simp, ?_⟩
      ext i j
      rw [Subsingleton.elim i 0, Subsingleton.elim j 0]
      have := h2.2.2 0 0 (by rw [h2.1]; exact Nat.one_pos) (by rw [h2.2.1]; exact Nat.one_pos)
      simpa [on, oneByOne] using this
    obtain ⟨Y, h1', h2', h3'⟩ := pinv_from E hE B (tol := 1 / 10 ^ 6) (by norm_num) hs hsv (fun _ => by norm_num)
    have h0 : Same Y (oneByOne 0) := by
      refine same_of_on h2' ⟨rfl, rfl⟩ ?_
      rw [h3']
      ext i j
      rw [Subsingleton.elim i 0, Subsingleton.elim j 0]
      simp [on, oneByOne, cutInverse]
      norm_num
    refine ⟨X, Y, h1, h1', h0, fun h => ?_⟩
    have a1 := h.2.2 0 0 (by rw [h2'.1]; exact Nat.one_pos) (by rw [h2'.2]; exact Nat.one_pos)
    have a3 := h0.2.2 0 0 (by rw [h2'.1]; exact Nat.one_pos) (by rw [h2'.2]; exact Nat.one_pos)
    rw [a3] at a1
    norm_num [oneByOne] at a1

/-- The hypotheses of `C202_twice_partial` are met for instance with the tolerance zero, by every matrix. -/
example (E : EigenLA) (hE : Documented E) (A : Mat ℝ) (hA : HasSize A 2 3) : ∃ X Y, getPseudoInverse E ⟨true⟩ 0 A = .ok X ∧ getPseudoInverse E ⟨true⟩ 0 X = .ok Y ∧ Same Y A :=
  C202_twice_partial E hE ⟨true⟩ 0 0 le_rfl le_rfl 2 3 A hA fun i hi => by
    rcases ((hE.svd 2 3 A hA).nonneg i hi).lt_or_eq with h | h
    · exact Or.inr ⟨h, by norm_num⟩
    · exact Or.inl h.symm

end MU
