import Verif.Props.SolversAgree
import Verif.Props.Matrix
import Verif.Props.MatrixOps
import Verif.Props.Documented
import Mathlib.Algebra.Polynomial.Roots

/-!
# C203: rules of inverses, solvers, Cholesky factors and eigenvalues
-/

set_option linter.unusedSectionVars false

namespace MU
open Spec Finset

/-! ## Inverse -/

/-- C203. The product of two invertible matrices has the product of their inverses, in the other order, as its inverse. -/
theorem C203_inverse_product (inverse : Mat ℝ → Mat ℝ) (hinv : IsInverse inverse) (B : Build) (n : Nat) (A C : Mat ℝ) (hA : HasSize A n n) (hC : HasSize C n n)
    (hdA : (on A n n).det ≠ 0) (hdC : (on C n n).det ≠ 0) :
    ∃ AC X Y Z YX, A.mulM B C = .ok AC ∧ getInverse inverse B A = .ok X ∧ getInverse inverse B C = .ok Y ∧ getInverse inverse B AC = .ok Z ∧
      Y.mulM B X = .ok YX ∧ Same Z YX := by
  obtain ⟨AC, e1, s1, o1⟩ := product_on (B := B) hA hC
  have hd : (on AC n n).det ≠ 0 := by rw [o1, Matrix.det_mul]; exact mul_ne_zero hdA hdC
  obtain ⟨X, e2, -, s2, -, r2, -⟩ := C96_inverse inverse hinv B n A hA hdA
  obtain ⟨Y, e3, -, s3, -, r3, -⟩ := C96_inverse inverse hinv B n C hC hdC
  obtain ⟨Z, e4, -, s4, -, -, u4⟩ := C96_inverse inverse hinv B n AC s1 hd
  obtain ⟨YX, e5, s5, o5⟩ := product_on (B := B) s3 s2
  refine ⟨AC, X, Y, Z, YX, e1, e2, e3, e4, e5, same_of_on s4 s5 ?_⟩
  rw [o5]
  refine (u4 _ (Or.inr ?_)).symm
  rw [o1, Matrix.mul_assoc, ← Matrix.mul_assoc (on C n n), r3, Matrix.one_mul, r2]

/-- C203. The inverse of the transpose is the transpose of the inverse. -/
theorem C203_inverse_transpose (inverse : Mat ℝ → Mat ℝ) (hinv : IsInverse inverse) (B : Build) (n : Nat) (A : Mat ℝ) (hA : HasSize A n n) (hdA : (on A n n).det ≠ 0) :
    ∃ X Z, getInverse inverse B A = .ok X ∧ getInverse inverse B (transposeM A) = .ok Z ∧ Same Z (transposeM X) := by
  obtain ⟨X, e2, -, s2, -, r2, -⟩ := C96_inverse inverse hinv B n A hA hdA
  have hT : on (transposeM A) n n = (on A n n).transpose := rfl
  obtain ⟨Z, e4, -, s4, -, -, u4⟩ := C96_inverse inverse hinv B n (transposeM A) ⟨hA.2, hA.1⟩ (by rw [hT, Matrix.det_transpose]; exact hdA)
  refine ⟨X, Z, e2, e4, same_of_on s4 ⟨s2.2, s2.1⟩ (u4 _ (Or.inl ?_)).symm⟩
  rw [hT, show on (transposeM X) n n = (on X n n).transpose from rfl, ← Matrix.transpose_mul, r2, Matrix.transpose_one]

theorem on_scaled (c : ℝ) (A : Mat ℝ) (m n : Nat) : on (scaled c A) m n = c • on A m n := by
  ext i j
  rfl

/-- C203. The inverse of `c A` is the inverse of `A`, divided by `c`. -/
theorem C203_inverse_scaled (inverse : Mat ℝ → Mat ℝ) (hinv : IsInverse inverse) (B : Build) (n : Nat) (A : Mat ℝ) (hA : HasSize A n n) (hdA : (on A n n).det ≠ 0)
    (c : ℝ) (hc : c ≠ 0) :
    ∃ X Z, getInverse inverse B A = .ok X ∧ getInverse inverse B (scaled c A) = .ok Z ∧ Same Z (scaled c⁻¹ X) := by
  obtain ⟨X, e2, -, s2, -, r2, -⟩ := C96_inverse inverse hinv B n A hA hdA
  obtain ⟨Z, e4, -, s4, -, -, u4⟩ := C96_inverse inverse hinv B n (scaled c A) hA
    (by rw [on_scaled, Matrix.det_smul]; exact mul_ne_zero (pow_ne_zero _ hc) hdA)
  refine ⟨X, Z, e2, e4, same_of_on s4 s2 (u4 _ (Or.inr ?_)).symm⟩
  rw [on_scaled, on_scaled, Matrix.smul_mul, Matrix.mul_smul, r2, smul_smul, mul_inv_cancel₀ hc, one_smul]

/-! ## Solvers -/

theorem solves_on {n c : Nat} {A x b : Mat ℝ} (hA : HasSize A n n) (hb : HasSize b n c) : Solves A x b ↔ on A n n * on x n c = on b n c := by
  obtain ⟨rfl, hc⟩ := hA
  obtain ⟨hr, rfl⟩ := hb
  constructor
  · intro h
    ext i j
    rw [Matrix.mul_apply]
    refine Eq.trans ?_ (h i j i.2 j.2)
    rw [sum_on, hc]
    rfl
  · intro h i j hi hj
    have := congrFun (congrFun h ⟨i, hi⟩) ⟨j, hj⟩
    rw [Matrix.mul_apply] at this
    rw [hc, sum_on]
    exact this

/-- What the exact solvers return, in matrices. -/
theorem exact_on (E : EigenLA) (hE : Documented E) (B : Build) {n c : Nat} {A b : Mat ℝ} (hA : HasSize A n n) (hb : HasSize b n c) (hdet : (on A n n).det ≠ 0) :
    ∃ x x', luSolver E B A b = .ok x ∧ qrSolver E B A b = .ok x' ∧ HasSize x n c ∧ Same x' x ∧ on A n n * on x n c = on b n c := by
  obtain ⟨x, x', h1, h2, h3, h4, h5, -⟩ := C86_exact E hE B n c A b hA hb hdet
  exact ⟨x, x', h1, h2, h3, h5, (solves_on hA hb).1 h4⟩

theorem mul_left_cancel_det {n c : Nat} {M : Matrix (Fin n) (Fin n) ℝ} (hd : M.det ≠ 0) {X Y : Matrix (Fin n) (Fin c) ℝ} (h : M * X = M * Y) : X = Y := by
  have := congrArg (M⁻¹ * ·) h
  simp only [← Matrix.mul_assoc, Matrix.nonsing_inv_mul _ (isUnit_iff_ne_zero.2 hd), Matrix.one_mul] at this
  exact this

/-- C203. Combining the equations with an invertible matrix `M` (exchanging them, multiplying them by numbers, adding them to each other) does not change the answer of
`LUSolver` or `QRSolver`. -/
theorem C203_equations (E : EigenLA) (hE : Documented E) (B : Build) (n c : Nat) (A b M : Mat ℝ) (hA : HasSize A n n) (hb : HasSize b n c) (hM : HasSize M n n)
    (hdA : (on A n n).det ≠ 0) (hdM : (on M n n).det ≠ 0) :
    ∃ MA Mb x y x' y', M.mulM B A = .ok MA ∧ M.mulM B b = .ok Mb ∧ luSolver E B A b = .ok x ∧ luSolver E B MA Mb = .ok y ∧ Same y x ∧
      qrSolver E B A b = .ok x' ∧ qrSolver E B MA Mb = .ok y' ∧ Same y' x' := by
  obtain ⟨MA, e1, s1, o1⟩ := product_on (B := B) hM hA
  obtain ⟨Mb, e2, s2, o2⟩ := product_on (B := B) hM hb
  obtain ⟨x, x', l1, q1, t1, w1, r1⟩ := exact_on E hE B hA hb hdA
  have hd : (on MA n n).det ≠ 0 := by rw [o1, Matrix.det_mul]; exact mul_ne_zero hdM hdA
  obtain ⟨y, y', l2, q2, t2, w2, r2⟩ := exact_on E hE B s1 s2 hd
  have key : Same y x := by
    refine same_of_on t2 t1 (mul_left_cancel_det hd ?_)
    rw [r2, o1, o2, Matrix.mul_assoc, r1]
  exact ⟨MA, Mb, x, y, x', y', e1, e2, l1, l2, key, q1, q2, same_trans w2 (same_trans key (same_symm w1))⟩

/-- C203. Superposition: with the same invertible matrix, `p b + q d` gives `p` times the answer for `b` plus `q` times the answer for `d`. -/
theorem C203_superposition (E : EigenLA) (hE : Documented E) (B : Build) (n c : Nat) (A b d : Mat ℝ) (hA : HasSize A n n) (hb : HasSize b n c) (hd : HasSize d n c)
    (hdA : (on A n n).det ≠ 0) (p q : ℝ) :
    ∃ s x y z xy, (scaled p b).addM B (scaled q d) = .ok s ∧ luSolver E B A b = .ok x ∧ luSolver E B A d = .ok y ∧ luSolver E B A s = .ok z ∧
      (scaled p x).addM B (scaled q y) = .ok xy ∧ Same z xy := by
  have add : ∀ (u v : Mat ℝ), HasSize u n c → HasSize v n c → ∃ s, (scaled p u).addM B (scaled q v) = .ok s ∧ HasSize s n c ∧ on s n c = p • on u n c + q • on v n c := by
    intro u v hu hv
    unfold Mat.addM
    rw [if_pos ⟨hu.1.trans hv.1.symm, hu.2.trans hv.2.symm⟩]
    exact ⟨_, rfl, hu, rfl⟩
  obtain ⟨s, e1, s1, o1⟩ := add b d hb hd
  obtain ⟨x, x', l1, q1, t1, w1, r1⟩ := exact_on E hE B hA hb hdA
  obtain ⟨y, y', l2, q2, t2, w2, r2⟩ := exact_on E hE B hA hd hdA
  obtain ⟨z, z', l3, q3, t3, w3, r3⟩ := exact_on E hE B hA s1 hdA
  obtain ⟨xy, e2, s2, o2⟩ := add x y t1 t2
  refine ⟨s, x, y, z, xy, e1, l1, l2, l3, e2, same_of_on t3 s2 (mul_left_cancel_det hdA ?_)⟩
  rw [r3, o1, o2, Matrix.mul_add, Matrix.mul_smul, Matrix.mul_smul, r1, r2]

/-- C203. The same for `LeastSquareSolver`, with independent columns. -/
theorem C203_least_squares_superposition (E : EigenLA) (hE : Documented E) (B : Build) (m n c : Nat) (A b d : Mat ℝ) (hA : HasSize A m n) (hb : HasSize b m c)
    (hd : HasSize d m c) (hcol : FullColumnRank A) (p q : ℝ) :
    ∃ s x y z xy, (scaled p b).addM B (scaled q d) = .ok s ∧ leastSquareSolver E B A b = .ok x ∧ leastSquareSolver E B A d = .ok y ∧
      leastSquareSolver E B A s = .ok z ∧ (scaled p x).addM B (scaled q y) = .ok xy ∧ Same z xy := by
  have add : ∀ (k : Nat) (u v : Mat ℝ), HasSize u k c → HasSize v k c → ∃ s, (scaled p u).addM B (scaled q v) = .ok s ∧ HasSize s k c ∧ on s k c = p • on u k c + q • on v k c := by
    intro k u v hu hv
    unfold Mat.addM
    rw [if_pos ⟨hu.1.trans hv.1.symm, hu.2.trans hv.2.symm⟩]
    exact ⟨_, rfl, hu, rfl⟩
  obtain ⟨s, e1, s1, o1⟩ := add m b d hb hd
  obtain ⟨x, l1, t1, r1⟩ := leastSquares_on E hE B hA hb
  obtain ⟨y, l2, t2, r2⟩ := leastSquares_on E hE B hA hd
  obtain ⟨z, l3, t3, r3⟩ := leastSquares_on E hE B hA s1
  obtain ⟨xy, e2, s2, o2⟩ := add n x y t1 t2
  refine ⟨s, x, y, z, xy, e1, l1, l2, l3, e2, same_of_on t3 s2 (normal_unique hA hcol r3 ?_)⟩
  rw [o1, o2, Matrix.mul_add, Matrix.mul_smul, Matrix.mul_smul, show p • (on A m n * on x n c) + q • (on A m n * on y n c) - (p • on b m c + q • on d m c) =
    p • (on A m n * on x n c - on b m c) + q • (on A m n * on y n c - on d m c) by rw [smul_sub, smul_sub]; abel, Matrix.mul_add, Matrix.mul_smul, Matrix.mul_smul, r1, r2,
    smul_zero, smul_zero, add_zero]

/-- C203. Combining the equations with an orthogonal matrix does not change the answer of `LeastSquareSolver`, with independent columns. -/
theorem C203_least_squares_orthogonal (E : EigenLA) (hE : Documented E) (B : Build) (m n c : Nat) (A b Q : Mat ℝ) (hA : HasSize A m n) (hb : HasSize b m c)
    (hQ : HasSize Q m m) (horth : (on Q m m).transpose * on Q m m = 1) (hcol : FullColumnRank A) :
    ∃ QA Qb x y, Q.mulM B A = .ok QA ∧ Q.mulM B b = .ok Qb ∧ leastSquareSolver E B A b = .ok x ∧ leastSquareSolver E B QA Qb = .ok y ∧ Same y x := by
  obtain ⟨QA, e1, s1, o1⟩ := product_on (B := B) hQ hA
  obtain ⟨Qb, e2, s2, o2⟩ := product_on (B := B) hQ hb
  obtain ⟨x, l1, t1, r1⟩ := leastSquares_on E hE B hA hb
  obtain ⟨y, l2, t2, r2⟩ := leastSquares_on E hE B s1 s2
  refine ⟨QA, Qb, x, y, e1, e2, l1, l2, same_of_on t2 t1 (normal_unique hA hcol ?_ r1)⟩
  rw [o1, o2, Matrix.transpose_mul, Matrix.mul_assoc (on Q m m), ← Matrix.mul_sub, Matrix.mul_assoc, ← Matrix.mul_assoc (on Q m m).transpose, horth, Matrix.one_mul] at r2
  exact r2

/-! ## Cholesky factors -/

/-- C203. The Cholesky factor of `c A` is that of `A`, times the square root of `c`. -/
theorem C203_cholesky_scaled (B : Build) (A : Mat ℝ) (h : Symmetric A) (hpos : PosDef A) (c : ℝ) (hc : 0 < c) :
    ∃ L M, getCholesky B A = .ok L ∧ getCholesky B (scaled c A) = .ok M ∧ Same M (scaled (Real.sqrt c) L) := by
  obtain ⟨L, hL⟩ := (C81_positive_definite B A h).1.2 hpos
  have f := C81_factor B A L h hL
  have hs : Symmetric (scaled c A) := ⟨h.1, fun i j hi hj => congrArg (c * ·) (h.2 i j hi hj)⟩
  have key : IsCholesky (scaled c A) (scaled (Real.sqrt c) L) := by
    refine ⟨f.size, fun i j hi hj hij => ?_, fun i hi => mul_pos (Real.sqrt_pos.2 hc) (f.diag i hi), fun i j hi hj => ?_⟩
    · show Real.sqrt c * L.entry i j = 0
      rw [f.lower i j hi hj hij, mul_zero]
    · show ∑ l ∈ range A.rows, Real.sqrt c * L.entry i l * (Real.sqrt c * L.entry j l) = c * A.entry i j
      rw [← f.prod i j hi hj, mul_sum]
      refine sum_congr rfl fun l _ => ?_
      calc _ = (Real.sqrt c * Real.sqrt c) * (L.entry i l * L.entry j l) := by ring
        _ = _ := by rw [Real.mul_self_sqrt hc.le]
  obtain ⟨M, h1, h2⟩ := C81_complete B _ _ hs key
  exact ⟨L, M, hL, h1, h2⟩

/-- C203. The factor of the block of the first `k` rows and columns is that block of the factor. -/
theorem C203_cholesky_leading (B : Build) (A : Mat ℝ) (h : Symmetric A) (hpos : PosDef A) (k : Nat) (hk : k ≤ A.rows) :
    ∃ L A1 L1 M, getCholesky B A = .ok L ∧ A.blockM B 0 0 k k = .ok A1 ∧ L.blockM B 0 0 k k = .ok L1 ∧ getCholesky B A1 = .ok M ∧ Same M L1 := by
  obtain ⟨L, hL⟩ := (C81_positive_definite B A h).1.2 hpos
  have f := C81_factor B A L h hL
  have block : ∀ C : Mat ℝ, k ≤ C.rows → k ≤ C.cols → C.blockM B 0 0 k k = .ok ⟨k, k, fun a b => C.entry (0 + a) (0 + b)⟩ := by
    intro C h1 h2
    unfold Mat.blockM
    rw [if_pos (by omega)]
  have hs : Symmetric ⟨k, k, fun a b => A.entry (0 + a) (0 + b)⟩ := ⟨rfl, fun i j hi hj => by
    have hi : i < k := hi
    have hj : j < k := hj
    exact h.2 _ _ (by omega) (by omega)⟩
  have key : IsCholesky ⟨k, k, fun a b => A.entry (0 + a) (0 + b)⟩ ⟨k, k, fun a b => L.entry (0 + a) (0 + b)⟩ := by
    refine ⟨⟨rfl, rfl⟩, fun i j hi hj hij => ?_, fun i hi => ?_, fun i j hi hj => ?_⟩
    · have hi : i < k := hi
      have hj : j < k := hj
      exact f.lower _ _ (by omega) (by omega) (by omega)
    · have hi : i < k := hi
      exact f.diag _ (by omega)
    · have hi : i < k := hi
      have hj : j < k := hj
      show ∑ l ∈ range k, L.entry (0 + i) (0 + l) * L.entry (0 + j) (0 + l) = A.entry (0 + i) (0 + j)
      simp only [Nat.zero_add]
      rw [← f.prod i j (by omega) (by omega)]
      refine sum_subset (fun l hl => mem_range.2 (by have := mem_range.1 hl; omega)) fun l hl hl' => ?_
      have h1 := mem_range.1 hl
      have h2 : k ≤ l := by rwa [mem_range, not_lt] at hl'
      rw [f.lower i l (by omega) h1 (by omega), zero_mul]
  obtain ⟨M, h1, h2⟩ := C81_complete B _ _ hs key
  exact ⟨L, _, _, M, hL, block A hk (by rw [← h.1]; exact hk), block L (by rw [f.size.1]; exact hk) (by rw [f.size.2]; exact hk), h1, h2⟩

/-! ## Eigenvalues -/

/-- The matrix with complex elements. -/
def complexOn (A : Mat ℝ) (n : Nat) : Matrix (Fin n) (Fin n) ℂ := (on A n n).map Complex.ofRealHom

theorem eigenvalues_roots (eigenvalues : Mat ℝ → List ℂ) (heig : AreEigenvalues eigenvalues) (B : Build) (n : Nat) (A : Mat ℝ) (hA : HasSize A n n) :
    ∃ l, getEigenvalues eigenvalues B A = .ok l ∧ (l : Multiset ℂ) = (complexOn A n).charpoly.roots := by
  obtain ⟨hr, hc⟩ := hA
  subst hr
  refine ⟨eigenvalues A, ?_, heig A hc.symm⟩
  unfold getEigenvalues
  rw [cassert_true _ _ (show getNbRows A = getNbCols A from hc.symm), Res.ok_bind, if_pos hc.symm]
  rfl

/-- C203. The transpose has the same eigenvalues, each as often. -/
theorem C203_eigenvalues_transpose (eigenvalues : Mat ℝ → List ℂ) (heig : AreEigenvalues eigenvalues) (B : Build) (n : Nat) (A : Mat ℝ) (hA : HasSize A n n) :
    ∃ l l', getEigenvalues eigenvalues B A = .ok l ∧ getEigenvalues eigenvalues B (transposeM A) = .ok l' ∧ l'.Perm l := by
  obtain ⟨l, e1, r1⟩ := eigenvalues_roots eigenvalues heig B n A hA
  obtain ⟨l', e2, r2⟩ := eigenvalues_roots eigenvalues heig B n (transposeM A) ⟨hA.2, hA.1⟩
  refine ⟨l, l', e1, e2, Multiset.coe_eq_coe.1 ?_⟩
  rw [r1, r2, show complexOn (transposeM A) n = (complexOn A n).transpose from rfl, Matrix.charpoly_transpose]

theorem complexOn_mul {B : Build} {n : Nat} {A C AC : Mat ℝ} (o : on AC n n = on A n n * on C n n) : complexOn AC n = complexOn A n * complexOn C n := by
  unfold complexOn
  rw [o, Matrix.map_mul]

/-- C203. `A C` and `C A` have the same eigenvalues, each as often. -/
theorem C203_eigenvalues_product (eigenvalues : Mat ℝ → List ℂ) (heig : AreEigenvalues eigenvalues) (B : Build) (n : Nat) (A C : Mat ℝ) (hA : HasSize A n n)
    (hC : HasSize C n n) :
    ∃ AC CA l l', A.mulM B C = .ok AC ∧ C.mulM B A = .ok CA ∧ getEigenvalues eigenvalues B AC = .ok l ∧ getEigenvalues eigenvalues B CA = .ok l' ∧ l'.Perm l := by
  obtain ⟨AC, e1, s1, o1⟩ := product_on (B := B) hA hC
  obtain ⟨CA, e2, s2, o2⟩ := product_on (B := B) hC hA
  obtain ⟨l, e3, r1⟩ := eigenvalues_roots eigenvalues heig B n AC s1
  obtain ⟨l', e4, r2⟩ := eigenvalues_roots eigenvalues heig B n CA s2
  refine ⟨AC, CA, l, l', e1, e2, e3, e4, Multiset.coe_eq_coe.1 ?_⟩
  rw [r1, r2, complexOn_mul (B := B) o1, complexOn_mul (B := B) o2, Matrix.charpoly_mul_comm]

/-- C203. In another basis: `P A P⁻¹`, with the inverse of `GetInverse`, has the eigenvalues of `A`, each as often. -/
theorem C203_eigenvalues_basis (eigenvalues : Mat ℝ → List ℂ) (heig : AreEigenvalues eigenvalues) (inverse : Mat ℝ → Mat ℝ) (hinv : IsInverse inverse) (B : Build)
    (n : Nat) (A P : Mat ℝ) (hA : HasSize A n n) (hP : HasSize P n n) (hdP : (on P n n).det ≠ 0) :
    ∃ PA X PAX l l', P.mulM B A = .ok PA ∧ getInverse inverse B P = .ok X ∧ PA.mulM B X = .ok PAX ∧ getEigenvalues eigenvalues B A = .ok l ∧
      getEigenvalues eigenvalues B PAX = .ok l' ∧ l'.Perm l := by
  obtain ⟨PA, e1, s1, o1⟩ := product_on (B := B) hP hA
  obtain ⟨X, e2, -, s2, r2, -, -⟩ := C96_inverse inverse hinv B n P hP hdP
  obtain ⟨PAX, e3, s3, o3⟩ := product_on (B := B) s1 s2
  obtain ⟨l, e4, q1⟩ := eigenvalues_roots eigenvalues heig B n A hA
  obtain ⟨l', e5, q2⟩ := eigenvalues_roots eigenvalues heig B n PAX s3
  refine ⟨PA, X, PAX, l, l', e1, e2, e3, e4, e5, Multiset.coe_eq_coe.1 ?_⟩
  have hX : complexOn X n * complexOn P n = 1 := by
    unfold complexOn
    rw [← Matrix.map_mul, r2]
    simp
  rw [q1, q2, complexOn_mul (B := B) o3, Matrix.charpoly_mul_comm, complexOn_mul (B := B) o1, ← Matrix.mul_assoc, hX, Matrix.one_mul]

/-- C203. Adding `c` times the identity adds `c` to every eigenvalue. -/
theorem C203_eigenvalues_shift (eigenvalues : Mat ℝ → List ℂ) (heig : AreEigenvalues eigenvalues) (B : Build) (n : Nat) (A : Mat ℝ) (hA : HasSize A n n) (c : ℝ) :
    ∃ S l l', A.addM B (scaled c (Mat.identityM n n)) = .ok S ∧ getEigenvalues eigenvalues B A = .ok l ∧ getEigenvalues eigenvalues B S = .ok l' ∧
      l'.Perm (l.map fun z => z + (c : ℂ)) := by
  have add : ∃ s, A.addM B (scaled c (Mat.identityM n n)) = .ok s ∧ HasSize s n n ∧ on s n n = on A n n + c • (1 : Matrix (Fin n) (Fin n) ℝ) := by
    unfold Mat.addM
    rw [if_pos ⟨hA.1, hA.2⟩]
    refine ⟨_, rfl, hA, ?_⟩
    ext i j
    simp only [on, scaled, Mat.identityM, Matrix.add_apply, Matrix.smul_apply, smul_eq_mul, Matrix.one_apply, Fin.ext_iff]
  obtain ⟨S, e1, s1, o1⟩ := add
  obtain ⟨l, e4, q1⟩ := eigenvalues_roots eigenvalues heig B n A hA
  obtain ⟨l', e5, q2⟩ := eigenvalues_roots eigenvalues heig B n S s1
  refine ⟨S, l, l', e1, e4, e5, Multiset.coe_eq_coe.1 ?_⟩
  have hS : complexOn A n = complexOn S n - Matrix.scalar (Fin n) (c : ℂ) := by
    ext i j
    unfold complexOn
    rw [o1]
    simp only [Matrix.map_apply, Matrix.add_apply, Matrix.smul_apply, Matrix.one_apply, Matrix.sub_apply, Matrix.scalar_apply, Matrix.diagonal_apply, smul_eq_mul]
    split <;> simp
  have := (complexOn S n).charpoly.map_roots_comp_C_mul_X_add_C 1 (c : ℂ) isUnit_one
  rw [map_one, one_mul, ← Matrix.charpoly_sub_scalar, ← hS, ← q1, ← q2] at this
  rw [← this, ← Multiset.map_coe]
  simp

/-- The characteristic polynomial of a multiple. -/
theorem charpoly_multiple {n : Nat} (M : Matrix (Fin n) (Fin n) ℂ) (c : ℂ) :
    (c • M).charpoly.comp (Polynomial.C c * Polynomial.X + Polynomial.C 0) = Polynomial.C (c ^ n) * M.charpoly := by
  have : (c • M).charmatrix.map (Polynomial.compRingHom (Polynomial.C c * Polynomial.X + Polynomial.C 0)) = Polynomial.C c • M.charmatrix := by
    ext1 i j
    by_cases hij : i = j
    · subst hij
      simp [Matrix.charmatrix_apply_eq, mul_sub]
    · simp [Matrix.charmatrix_apply_ne _ _ _ hij]
  have h := (Polynomial.compRingHom (Polynomial.C c * Polynomial.X + Polynomial.C 0)).map_det (c • M).charmatrix
  rw [RingHom.mapMatrix_apply, this, Matrix.det_smul, Fintype.card_fin, ← map_pow] at h
  exact h

/-- C203. The eigenvalues of `c A` are those of `A` times `c`. -/
theorem C203_eigenvalues_scaled (eigenvalues : Mat ℝ → List ℂ) (heig : AreEigenvalues eigenvalues) (B : Build) (n : Nat) (A : Mat ℝ) (hA : HasSize A n n) (c : ℝ) (hc : c ≠ 0) :
    ∃ l l', getEigenvalues eigenvalues B A = .ok l ∧ getEigenvalues eigenvalues B (scaled c A) = .ok l' ∧ l'.Perm (l.map fun z => (c : ℂ) * z) := by
  obtain ⟨l, e4, q1⟩ := eigenvalues_roots eigenvalues heig B n A hA
  obtain ⟨l', e5, q2⟩ := eigenvalues_roots eigenvalues heig B n (scaled c A) hA
  refine ⟨l, l', e4, e5, Multiset.coe_eq_coe.1 ?_⟩
  have hc' : (c : ℂ) ≠ 0 := Complex.ofReal_ne_zero.2 hc
  have hS : complexOn (scaled c A) n = (c : ℂ) • complexOn A n := by
    ext i j
    simp [complexOn, on, scaled]
  have := (complexOn (scaled c A) n).charpoly.map_roots_comp_C_mul_X_add_C (c : ℂ) 0 (isUnit_iff_ne_zero.2 hc')
  rw [hS, charpoly_multiple, Polynomial.roots_C_mul _ (pow_ne_zero n hc'), ← hS, ← q1, ← q2] at this
  rw [← this, ← Multiset.map_coe]
  simp

/-! ## The hypotheses are met -/

/-- The matrix `[[2, 1], [1, 1]]`. -/
def rulesExample : Mat ℝ := ⟨2, 2, fun i j => if i = 0 ∧ j = 0 then 2 else 1⟩

theorem rulesExample_det : (on rulesExample 2 2).det = 1 := by
  rw [Matrix.det_fin_two]
  simp [on, rulesExample]
  norm_num

/-- C203: inverses; the inverse of the square of `[[2, 1], [1, 1]]` is the square of the inverse. -/
example : ∃ inverse, IsInverse inverse ∧ ∃ AC X Z XX, rulesExample.mulM ⟨true⟩ rulesExample = .ok AC ∧ getInverse inverse ⟨true⟩ rulesExample = .ok X ∧
    getInverse inverse ⟨true⟩ AC = .ok Z ∧ X.mulM ⟨true⟩ X = .ok XX ∧ Same Z XX := by
  obtain ⟨inverse, h⟩ := isInverse_exists
  obtain ⟨AC, X, Y, Z, YX, e1, e2, e3, e4, e5, e6⟩ := C203_inverse_product inverse h ⟨true⟩ 2 rulesExample rulesExample ⟨rfl, rfl⟩ ⟨rfl, rfl⟩
    (by rw [rulesExample_det]; exact one_ne_zero) (by rw [rulesExample_det]; exact one_ne_zero)
  rw [e2] at e3
  cases e3
  exact ⟨inverse, h, AC, X, Z, YX, e1, e2, e4, e5, e6⟩

/-- C203: solvers. -/
example (b : Mat ℝ) (hb : HasSize b 2 3) : ∃ E, Documented E ∧ ∃ MA Mb x y, rulesExample.mulM ⟨true⟩ rulesExample = .ok MA ∧ rulesExample.mulM ⟨true⟩ b = .ok Mb ∧
    luSolver E ⟨true⟩ rulesExample b = .ok x ∧ luSolver E ⟨true⟩ MA Mb = .ok y ∧ Same y x := by
  obtain ⟨E, hE⟩ := documented_exists
  obtain ⟨MA, Mb, x, y, _, _, e1, e2, e3, e4, e5, _⟩ := C203_equations E hE ⟨true⟩ 2 3 rulesExample b rulesExample ⟨rfl, rfl⟩ hb ⟨rfl, rfl⟩
    (by rw [rulesExample_det]; exact one_ne_zero) (by rw [rulesExample_det]; exact one_ne_zero)
  exact ⟨E, hE, MA, Mb, x, y, e1, e2, e3, e4, e5⟩

/-- C203: an orthogonal matrix, the rotation by a quarter turn, and a matrix with independent columns. -/
example : (on ⟨2, 2, fun i j => if i = j then 0 else if i = 0 then -1 else 1⟩ 2 2).transpose * on ⟨2, 2, fun i j => if i = j then 0 else if i = 0 then -1 else 1⟩ 2 2 = 1 ∧
    FullColumnRank ⟨2, 1, fun i _ => (i : ℝ) + 1⟩ := by
  constructor
  · ext i j
    fin_cases i <;> fin_cases j <;> simp [on, Matrix.mul_apply, Fin.sum_univ_two]
  · intro v h j hj
    have h0 := h 0 (by norm_num)
    simp [sum_range_succ] at h0
    have hj : j < 1 := hj
    interval_cases j
    exact h0

/-- C203: Cholesky factors: `9 A` has the factor `3 L`. -/
example (B : Build) : ∃ L M, getCholesky B choleskyExample = .ok L ∧ getCholesky B (scaled 9 choleskyExample) = .ok M ∧ Same M (scaled (Real.sqrt 9) L) := by
  have hs : Symmetric choleskyExample := by
    refine ⟨rfl, fun i j hi hj => ?_⟩
    have hi : i < 2 := hi
    have hj : j < 2 := hj
    interval_cases i <;> interval_cases j <;> simp [choleskyExample]
  refine C203_cholesky_scaled B choleskyExample hs ?_ 9 (by norm_num)
  refine (C81_positive_definite B choleskyExample hs).1.1 ?_
  obtain ⟨L, hL, -⟩ := C81_complete B choleskyExample ⟨2, 2, fun i j => if i = 0 then (if j = 0 then 2 else 0) else (if j = 0 then 1 else 2)⟩ hs (by
    refine ⟨⟨rfl, rfl⟩, fun i j hi hj hij => ?_, fun i hi => ?_, fun i j hi hj => ?_⟩
    · have hi : i < 2 := hi
      have hj : j < 2 := hj
      interval_cases i <;> interval_cases j <;> simp_all
    · have hi : i < 2 := hi
      interval_cases i <;> simp
    · have hi : i < 2 := hi
      have hj : j < 2 := hj
      interval_cases i <;> interval_cases j <;> simp [choleskyExample, sum_range_succ] <;> norm_num)
  exact ⟨L, hL⟩

/-- C203: eigenvalues: `[[2, 1], [1, 1]]` minus the identity. -/
example : ∃ eigenvalues, AreEigenvalues eigenvalues ∧ ∃ S l l', rulesExample.addM ⟨true⟩ (scaled (-1) (Mat.identityM 2 2)) = .ok S ∧
    getEigenvalues eigenvalues ⟨true⟩ rulesExample = .ok l ∧ getEigenvalues eigenvalues ⟨true⟩ S = .ok l' ∧ l'.Perm (l.map fun z => z + ((-1 : ℝ) : ℂ)) :=
  ⟨fun A => (Matrix.of fun i j : Fin A.rows => (A.entry i j : ℂ)).charpoly.roots.toList, fun A _ => Multiset.coe_toList _,
    C203_eigenvalues_shift _ (fun A _ => Multiset.coe_toList _) ⟨true⟩ 2 rulesExample ⟨rfl, rfl⟩ (-1)⟩

end MU
