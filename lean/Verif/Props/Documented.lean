import Verif.Lemmas.Factorisations

/-!
# What is assumed of Eigen can be met

`Spec.Documented` collects what the theorems on `Matrix.h` assume of Eigen's decompositions. For every matrix there are answers that meet it.
-/

set_option linter.unusedSectionVars false

namespace MU

open Finset Matrix Spec

/-- A matrix of Mathlib as a `Mat`. -/
noncomputable def ofMatrix {m n : Nat} (M : Matrix (Fin m) (Fin n) ℝ) : Mat ℝ := ⟨m, n, fun i j => if h : i < m ∧ j < n then M ⟨i, h.1⟩ ⟨j, h.2⟩ else 0⟩

theorem ofMatrix_entry {m n : Nat} (M : Matrix (Fin m) (Fin n) ℝ) (i : Fin m) (j : Fin n) : (ofMatrix M).entry i j = M i j :=
  dif_pos ⟨i.2, j.2⟩

theorem on_ofMatrix {m n : Nat} (M : Matrix (Fin m) (Fin n) ℝ) : on (ofMatrix M) m n = M := by
  ext i j
  exact ofMatrix_entry M i j

theorem exists_qrAnswer (A : Mat ℝ) : ∃ QM : Mat ℝ × Mat ℝ, A.cols ≤ A.rows → QrAnswer A.rows A.cols A QM.1 QM.2 := by
  by_cases h : A.cols ≤ A.rows
  · obtain ⟨Q, R, hQ, hR, hA⟩ := exists_qr h (on A A.rows A.cols)
    refine ⟨(ofMatrix Q, ofMatrix R), fun _ => ⟨⟨rfl, rfl⟩, ⟨rfl, rfl⟩, by rw [on_ofMatrix, hQ], ?_⟩⟩
    rw [on_ofMatrix]
    have : on (ofMatrix R).upperM A.rows A.cols = R := by
      ext i j
      show (if (i : Nat) ≤ j then (ofMatrix R).entry i j else 0) = R i j
      rw [ofMatrix_entry]
      split
      · rfl
      · exact (hR i j (by omega)).symm
    rw [this]
    exact hA
  · exact ⟨(A, A), fun h' => absurd h' h⟩

theorem exists_luAnswer (A : Mat ℝ) : ∃ PM : Mat ℝ × Mat ℝ, A.cols = A.rows → LuAnswer A.rows A PM.1 PM.2 := by
  obtain ⟨σ, L, U, hL, hL1, hU, hLU⟩ := exists_lu A.rows (on A A.rows A.rows)
  refine ⟨(ofMatrix (σ.permMatrix ℝ), ofMatrix (Matrix.of fun i j => if j < i then L i j else U i j)), fun _ => ⟨⟨rfl, rfl⟩, ⟨rfl, rfl⟩, ⟨σ, on_ofMatrix _⟩, ?_⟩⟩
  rw [on_ofMatrix]
  ext i j
  rw [Matrix.mul_apply, Matrix.mul_apply]
  have e1 : ∑ l, σ.permMatrix ℝ i l * on A A.rows A.rows l j = on A A.rows A.rows (σ i) j := by
    rw [← Matrix.mul_apply, Equiv.Perm.permMatrix, PEquiv.toMatrix_toPEquiv_mul]
    rfl
  rw [e1, hLU i j]
  refine sum_congr rfl fun l _ => ?_
  simp only [Matrix.of_apply]
  rw [ofMatrix_entry, ofMatrix_entry, Matrix.of_apply, Matrix.of_apply]
  have hl : (if l < i then (if l < i then L i l else U i l) else if i = l then 1 else 0) = L i l := by
    by_cases h : l < i
    · rw [if_pos h, if_pos h]
    · rw [if_neg h]
      by_cases h' : i = l
      · subst h'
        rw [if_pos rfl, hL1]
      · rw [if_neg h', hL i l (lt_of_le_of_ne (not_lt.1 h) h')]
  have hu : (if l ≤ j then (if j < l then L l j else U l j) else 0) = U l j := by
    by_cases h : l ≤ j
    · rw [if_pos h, if_neg (not_lt.2 h)]
    · rw [if_neg h, hU l j (not_le.1 h)]
  rw [hl, hu]

theorem exists_svdAnswer (A : Mat ℝ) : ∃ USV : Mat ℝ × Mat ℝ × Mat ℝ, SvdAnswer A.rows A.cols A USV.1 USV.2.1 USV.2.2 := by
  obtain ⟨U, s, V, hU, hV, h0, hs, hA⟩ := exists_svd (on A A.rows A.cols)
  have hS : ∀ i : Fin (min A.rows A.cols), (ofMatrix (n := 1) (fun i _ => s i)).entry i 0 = s i := by
    intro i
    exact ofMatrix_entry (n := 1) (fun i _ => s i) i 0
  refine ⟨(ofMatrix U, ofMatrix (n := 1) (fun i _ => s i), ofMatrix V), ⟨rfl, rfl⟩, ⟨rfl, rfl⟩, ⟨rfl, rfl⟩, by rw [on_ofMatrix, hU], by rw [on_ofMatrix, hV], ?_, ?_, ?_⟩
  · intro i hi
    rw [hS ⟨i, hi⟩]
    exact h0 _
  · intro i j hij hj
    rw [hS ⟨i, lt_of_le_of_lt hij hj⟩, hS ⟨j, hj⟩]
    exact hs _ _ hij
  · rw [on_ofMatrix, on_ofMatrix]
    rw [show (fun i : Fin (min A.rows A.cols) => (ofMatrix (n := 1) (fun i _ => s i)).entry i 0) = s from funext hS]
    exact hA

theorem exists_solveAnswer (A b : Mat ℝ) : ∃ x, SolveAnswer A b x := by
  by_cases h : ∃ x', Solves A x' b
  · obtain ⟨x', hx'⟩ := h
    exact ⟨⟨A.cols, b.cols, x'.entry⟩, ⟨rfl, rfl⟩, fun _ => hx'⟩
  · exact ⟨⟨A.cols, b.cols, fun _ _ => 0⟩, ⟨rfl, rfl⟩, fun h' => absurd h' h⟩

theorem exists_leastSquaresAnswer (A b : Mat ℝ) : ∃ x, LeastSquaresAnswer A b x := by
  -- the pseudo-inverse
  obtain ⟨U, s, V, hU, hV, h0, hs, hA⟩ := exists_svd (on A A.rows A.cols)
  have hmp := moorePenrose_of_svd U V s (fun i => (s i)⁻¹) hU hV (fun i => by
    by_cases h : s i = 0
    · simp [h]
    · field_simp) (fun i => by
    by_cases h : s i = 0
    · simp [h]
    · field_simp)
  rw [← hA] at hmp
  generalize V * diagonal (fun i => (s i)⁻¹) * Uᵀ = X at hmp
  let a := on A A.rows A.cols
  let x : Mat ℝ := ofMatrix (X * on b A.rows b.cols)
  refine ⟨x, ⟨rfl, rfl⟩, fun x' c hc => ?_⟩
  -- residuals as vectors
  have hres : ∀ u : Mat ℝ, sqResidual A u b c = ∑ i : Fin A.rows, ((a.mulVec (fun j => u.entry j c)) i - b.entry i c) ^ 2 := by
    intro u
    unfold sqResidual
    rw [← Fin.sum_univ_eq_sum_range (fun i => (∑ j ∈ range A.cols, A.entry i j * u.entry j c - b.entry i c) ^ 2) A.rows]
    refine sum_congr rfl fun i _ => ?_
    rw [← Fin.sum_univ_eq_sum_range (fun j => A.entry i j * u.entry j c) A.cols]
    rfl
  have hx : (fun j : Fin A.cols => x.entry j c) = X.mulVec (fun i : Fin A.rows => b.entry i c) := by
    funext j
    have := ofMatrix_entry (X * on b A.rows b.cols) j ⟨c, hc⟩
    show (ofMatrix (X * on b A.rows b.cols)).entry j c = _
    rw [this, Matrix.mul_apply]
    rfl
  rw [hres, hres, hx]
  generalize (fun j : Fin A.cols => x'.entry j c) = u
  generalize hβ : (fun i : Fin A.rows => b.entry i c) = β
  have hβi : ∀ i : Fin A.rows, b.entry i c = β i := fun i => by rw [← hβ]
  simp only [hβi]
  -- `Aᵀ (A X β - β) = 0`
  have hn : aᵀ.mulVec (a.mulVec (X.mulVec β) - β) = 0 := by
    have e : aᵀ * (a * X) = aᵀ := by
      calc aᵀ * (a * X) = aᵀ * (a * X)ᵀ := by rw [hmp.ax]
        _ = (a * X * a)ᵀ := by rw [Matrix.transpose_mul (a * X)]
        _ = aᵀ := by rw [hmp.axa]
    rw [Matrix.mulVec_sub, Matrix.mulVec_mulVec, Matrix.mulVec_mulVec, Matrix.mul_assoc, e, sub_self]
  let r : Fin A.rows → ℝ := a.mulVec (X.mulVec β) - β
  let δ : Fin A.cols → ℝ := u - X.mulVec β
  have hdec : ∀ i, a.mulVec u i - β i = r i + a.mulVec δ i := by
    intro i
    have : a.mulVec δ = a.mulVec u - a.mulVec (X.mulVec β) := Matrix.mulVec_sub _ _ _
    rw [this]
    simp only [r, Pi.sub_apply]
    ring
  have hcross : ∑ i, r i * a.mulVec δ i = 0 := by
    have : r ⬝ᵥ a.mulVec δ = 0 := by
      rw [Matrix.dotProduct_mulVec, ← Matrix.mulVec_transpose, hn, zero_dotProduct]
    exact this
  calc ∑ i, (a.mulVec (X.mulVec β) i - β i) ^ 2 = ∑ i, r i ^ 2 := rfl
    _ ≤ ∑ i, r i ^ 2 + 2 * ∑ i, r i * a.mulVec δ i + ∑ i, a.mulVec δ i ^ 2 := by
        rw [hcross]
        have : 0 ≤ ∑ i, a.mulVec δ i ^ 2 := sum_nonneg fun i _ => sq_nonneg _
        linarith
    _ = ∑ i, (a.mulVec u i - β i) ^ 2 := by
        rw [mul_sum, ← sum_add_distrib, ← sum_add_distrib]
        refine sum_congr rfl fun i _ => ?_
        rw [hdec]
        ring

/-- There are answers that meet everything assumed of Eigen, for all matrices at once. -/
theorem documented_exists : ∃ E : EigenLA, Documented E := by
  choose qr hqr using exists_qrAnswer
  choose lu hlu using exists_luAnswer
  choose svd hsvd using exists_svdAnswer
  choose sol hsol using exists_solveAnswer
  choose ls hls using exists_leastSquaresAnswer
  refine ⟨⟨qr, lu, svd, sol, sol, ls⟩, ⟨?_, ?_, ?_, fun A b _ => hsol A b, fun A b _ => hsol A b, fun A b _ => hls A b⟩⟩
  · rintro m n A ⟨rfl, rfl⟩ h
    exact hqr A h
  · rintro n A ⟨rfl, hc⟩
    exact hlu A hc
  · rintro m n A ⟨rfl, rfl⟩
    exact hsvd A

end MU
