import Verif.Props.MatrixRules

/-!
# C210: rules of the least squares with constraints
-/

set_option linter.unusedSectionVars false

namespace MU
open Spec Finset Matrix

namespace Spec

/-- No non-zero vector is sent to zero by both matrices: the problem has at most one answer. -/
def Determined (A C : Mat ℝ) : Prop :=
  ∀ v : Nat → ℝ, (∀ i, i < A.rows → ∑ j ∈ range A.cols, A.entry i j * v j = 0) → (∀ i, i < C.rows → ∑ j ∈ range C.cols, C.entry i j * v j = 0) →
    ∀ j, j < A.cols → v j = 0

/-- The first column of a matrix, as a vector of Mathlib. -/
def col (x : Mat ℝ) (n : Nat) : Fin n → ℝ := fun j => x.entry j 0

/-- The vector satisfies the constraint and its residual is orthogonal to the effect of every move that respects the constraint. -/
def Stationary {m n p : Nat} (A : Matrix (Fin m) (Fin n) ℝ) (b : Fin m → ℝ) (C : Matrix (Fin p) (Fin n) ℝ) (d : Fin p → ℝ) (x : Fin n → ℝ) : Prop :=
  C *ᵥ x = d ∧ ∀ h, C *ᵥ h = 0 → (A *ᵥ x - b) ⬝ᵥ (A *ᵥ h) = 0

end Spec

variable {m n p : Nat}

theorem rowTimes_col {A x : Mat ℝ} (hA : HasSize A m n) (i : Nat) (hi : i < m) : ∑ j ∈ range A.cols, A.entry i j * x.entry j 0 = (on A m n *ᵥ col x n) ⟨i, hi⟩ := by
  rw [hA.2, Finset.sum_range (fun j => A.entry i j * x.entry j 0)]
  rfl

theorem solves_col {C x d : Mat ℝ} (hC : HasSize C p n) (hd : HasSize d p 1) : Solves C x d ↔ on C p n *ᵥ col x n = col d p := by
  constructor
  · intro h
    funext i
    rw [← rowTimes_col hC i.1 i.2]
    exact h i 0 (by rw [hC.1]; exact i.2) (by rw [hd.2]; exact Nat.one_pos)
  · intro h i c hi hc
    rw [hC.1] at hi
    rw [hd.2] at hc
    obtain rfl : c = 0 := by omega
    rw [rowTimes_col hC i hi, h]
    rfl

theorem residual_col {A x b : Mat ℝ} (hA : HasSize A m n) : sqResidual A x b 0 = (on A m n *ᵥ col x n - col b m) ⬝ᵥ (on A m n *ᵥ col x n - col b m) := by
  unfold sqResidual dotProduct
  rw [hA.1, Finset.sum_range]
  refine sum_congr rfl fun i _ => ?_
  rw [rowTimes_col hA i.1 i.2, sq]
  rfl

theorem determined_col {A C : Mat ℝ} (hA : HasSize A m n) (hC : HasSize C p n) (h : Determined A C) {v : Fin n → ℝ} (h1 : on A m n *ᵥ v = 0) (h2 : on C p n *ᵥ v = 0) : v = 0 := by
  have key : ∀ (D : Mat ℝ) (k i : Nat) (_ : HasSize D k n) (hi : i < k), ∑ j ∈ range D.cols, D.entry i j * (if hj : j < n then v ⟨j, hj⟩ else 0) = (on D k n *ᵥ v) ⟨i, hi⟩ := by
    intro D k i hD hi
    rw [hD.2, Finset.sum_range]
    refine sum_congr rfl fun j _ => ?_
    rw [dif_pos j.2]
    rfl
  have := h (fun j => if hj : j < n then v ⟨j, hj⟩ else 0) (fun i hi => by rw [key A m i hA (hA.1 ▸ hi), h1]; rfl) (fun i hi => by rw [key C p i hC (hC.1 ▸ hi), h2]; rfl)
  funext j
  have h3 := this j (by rw [hA.2]; exact j.2)
  rw [dif_pos j.2] at h3
  exact h3

/-- A quadratic without a value below zero has no linear part. -/
theorem linear_part_zero {g q : ℝ} (hq : 0 ≤ q) (h : ∀ t : ℝ, 0 ≤ 2 * t * g + t ^ 2 * q) : g = 0 := by
  have h1 := h (-g / (q + 1))
  have hq1 : q + 1 ≠ 0 := by positivity
  have e : 2 * (-g / (q + 1)) * g + (-g / (q + 1)) ^ 2 * q = -(g ^ 2 * (q + 2)) / (q + 1) ^ 2 := by
    field_simp
    ring
  rw [e] at h1
  have h2 : 0 ≤ -(g ^ 2 * (q + 2)) := by
    by_contra hc
    push Not at hc
    exact absurd h1 (not_le.2 (div_neg_of_neg_of_pos hc (by positivity)))
  have h3 : g ^ 2 * (q + 2) = 0 := le_antisymm (by linarith) (by positivity)
  rcases mul_eq_zero.1 h3 with h4 | h4
  · exact pow_eq_zero_iff two_ne_zero |>.1 h4
  · linarith

theorem dot_expand {k : Nat} (r v : Fin k → ℝ) (t : ℝ) : (r + t • v) ⬝ᵥ (r + t • v) = r ⬝ᵥ r + (2 * t * (r ⬝ᵥ v) + t ^ 2 * (v ⬝ᵥ v)) := by
  rw [add_dotProduct, dotProduct_add, dotProduct_add, smul_dotProduct, smul_dotProduct, dotProduct_smul, dotProduct_smul, dotProduct_comm v r]
  simp only [smul_eq_mul]
  ring

/-- C210: the answer satisfies the constraint, and its residual is orthogonal to `A h` for every `h` with `C h = 0`. -/
theorem C210_stationary (E : EigenLA) (hE : Documented E) (B : Build) (garbage : Nat → Nat → ℝ) (hpn : p < n) (hnm : n < m) (A b C d : Mat ℝ)
    (hA : HasSize A m n) (hb : HasSize b m 1) (hC : HasSize C p n) (hd : HasSize d p 1) (hrank : FullRowRank C) :
    ∃ x, leastSquareSolverConstraint E B garbage A b C d = .ok x ∧ HasSize x n 1 ∧ Stationary (on A m n) (col b m) (on C p n) (col d p) (col x n) := by
  obtain ⟨x, hx, hxs, hsol, hbest⟩ := C63_optimal E hE B garbage m n p hpn hnm A b C d hA hb hC hd hrank
  have hsol' := (solves_col hC hd).1 hsol
  refine ⟨x, hx, hxs, hsol', fun h hh => ?_⟩
  refine linear_part_zero (q := (on A m n *ᵥ h) ⬝ᵥ (on A m n *ᵥ h)) (sum_nonneg fun i _ => mul_self_nonneg _) fun t => ?_
  have hc : col (⟨n, 1, fun j _ => if hj : j < n then x.entry j 0 + t * h ⟨j, hj⟩ else 0⟩ : Mat ℝ) n = col x n + t • h := by
    funext j
    show (if hj : j.1 < n then x.entry j 0 + t * h ⟨j, hj⟩ else 0) = _
    rw [dif_pos j.2]
    rfl
  have := hbest ⟨n, 1, fun j _ => if hj : j < n then x.entry j 0 + t * h ⟨j, hj⟩ else 0⟩ ((solves_col hC hd).2 (by
    rw [hc, mulVec_add, mulVec_smul, hh, smul_zero, add_zero, hsol']))
  rw [residual_col hA, residual_col hA, hc, mulVec_add, mulVec_smul,
    show on A m n *ᵥ col x n + t • on A m n *ᵥ h - col b m = (on A m n *ᵥ col x n - col b m) + t • on A m n *ᵥ h by abel, dot_expand] at this
  linarith

theorem stationary_unique {A : Matrix (Fin m) (Fin n) ℝ} {b : Fin m → ℝ} {C : Matrix (Fin p) (Fin n) ℝ} {d : Fin p → ℝ} {x y : Fin n → ℝ}
    (hdet : ∀ v, A *ᵥ v = 0 → C *ᵥ v = 0 → v = 0) (hx : Stationary A b C d x) (hy : Stationary A b C d y) : x = y := by
  have hC : C *ᵥ (x - y) = 0 := by rw [mulVec_sub, hx.1, hy.1, sub_self]
  refine sub_eq_zero.1 (hdet _ ?_ hC)
  refine dotProduct_self_eq_zero.1 ?_
  have e : A *ᵥ (x - y) = (A *ᵥ x - b) - (A *ᵥ y - b) := by rw [mulVec_sub]; abel
  calc A *ᵥ (x - y) ⬝ᵥ A *ᵥ (x - y) = ((A *ᵥ x - b) - (A *ᵥ y - b)) ⬝ᵥ A *ᵥ (x - y) := by rw [← e]
    _ = 0 := by rw [sub_dotProduct, hx.2 _ hC, hy.2 _ hC, sub_self]

theorem same_of_col {x y : Mat ℝ} (hx : HasSize x n 1) (hy : HasSize y n 1) (h : col x n = col y n) : Same x y := by
  refine ⟨hx.1.trans hy.1.symm, hx.2.trans hy.2.symm, fun i j hi hj => ?_⟩
  rw [hx.1] at hi
  rw [hx.2] at hj
  obtain rfl : j = 0 := by omega
  exact congrFun h ⟨i, hi⟩

/-- C210: when the problem is determined, no other vector satisfies the constraint with a residual as small; so the answer does not depend on the decompositions used, nor on what the
storage held. -/
theorem C210_unique (E : EigenLA) (hE : Documented E) (B : Build) (garbage : Nat → Nat → ℝ) (hpn : p < n) (hnm : n < m) (A b C d : Mat ℝ)
    (hA : HasSize A m n) (hb : HasSize b m 1) (hC : HasSize C p n) (hd : HasSize d p 1) (hrank : FullRowRank C) (hdet : Determined A C) :
    ∃ x, leastSquareSolverConstraint E B garbage A b C d = .ok x ∧
      (∀ y, HasSize y n 1 → Solves C y d → sqResidual A y b 0 ≤ sqResidual A x b 0 → Same y x) ∧
      ∀ (E' : EigenLA) (_ : Documented E') (B' : Build) (garbage' : Nat → Nat → ℝ), ∃ x', leastSquareSolverConstraint E' B' garbage' A b C d = .ok x' ∧ Same x' x := by
  obtain ⟨x, hx, hxs, hst⟩ := C210_stationary E hE B garbage hpn hnm A b C d hA hb hC hd hrank
  refine ⟨x, hx, fun y hys hy hle => ?_, fun E' hE' B' garbage' => ?_⟩
  · refine same_of_col hys hxs (sub_eq_zero.1 (determined_col hA hC hdet ?_ ?_))
    · have hk : on C p n *ᵥ (col y n - col x n) = 0 := by rw [mulVec_sub, (solves_col hC hd).1 hy, hst.1, sub_self]
      have e := dot_expand (on A m n *ᵥ col x n - col b m) (on A m n *ᵥ (col y n - col x n)) 1
      rw [hst.2 _ hk, one_smul, show on A m n *ᵥ col x n - col b m + on A m n *ᵥ (col y n - col x n) = on A m n *ᵥ col y n - col b m by rw [mulVec_sub]; abel,
        ← residual_col hA, ← residual_col hA] at e
      have h0 : (0 : ℝ) ≤ on A m n *ᵥ (col y n - col x n) ⬝ᵥ on A m n *ᵥ (col y n - col x n) := sum_nonneg fun i _ => mul_self_nonneg _
      exact dotProduct_self_eq_zero.1 (le_antisymm (by linarith) h0)
    · rw [mulVec_sub, (solves_col hC hd).1 hy, hst.1, sub_self]
  · obtain ⟨x', hx', hxs', hst'⟩ := C210_stationary E' hE' B' garbage' hpn hnm A b C d hA hb hC hd hrank
    exact ⟨x', hx', same_of_col hxs' hxs (stationary_unique (fun v h1 h2 => determined_col hA hC hdet h1 h2) hst' hst)⟩

/-- C210: a vector that solves `A x = b` and `C x = d` exactly is given back. -/
theorem C210_given_back (E : EigenLA) (hE : Documented E) (B : Build) (garbage : Nat → Nat → ℝ) (hpn : p < n) (hnm : n < m) (A b C d x₀ : Mat ℝ)
    (hA : HasSize A m n) (hb : HasSize b m 1) (hC : HasSize C p n) (hd : HasSize d p 1) (hrank : FullRowRank C) (hdet : Determined A C) (h₀ : HasSize x₀ n 1)
    (h1 : Solves A x₀ b) (h2 : Solves C x₀ d) : ∃ x, leastSquareSolverConstraint E B garbage A b C d = .ok x ∧ Same x x₀ := by
  obtain ⟨x, hx, hxs, hst⟩ := C210_stationary E hE B garbage hpn hnm A b C d hA hb hC hd hrank
  refine ⟨x, hx, same_of_col hxs h₀ (stationary_unique (fun v h1 h2 => determined_col hA hC hdet h1 h2) hst ⟨(solves_col hC hd).1 h2, fun h _ => ?_⟩)⟩
  rw [(solves_col hA hb).1 h1, sub_self, zero_dotProduct]

/-- C210: superposition: `u b + v b'` with the constraint `u d + v d'` gives `u` times the first answer plus `v` times the second. -/
theorem C210_superposition (E : EigenLA) (hE : Documented E) (B : Build) (garbage : Nat → Nat → ℝ) (hpn : p < n) (hnm : n < m) (A b b' b'' C d d' d'' : Mat ℝ)
    (hA : HasSize A m n) (hb : HasSize b m 1) (hb' : HasSize b' m 1) (hb'' : HasSize b'' m 1) (hC : HasSize C p n) (hd : HasSize d p 1) (hd' : HasSize d' p 1) (hd'' : HasSize d'' p 1)
    (hrank : FullRowRank C) (hdet : Determined A C) (u v : ℝ) (eb : ∀ i, i < m → b''.entry i 0 = u * b.entry i 0 + v * b'.entry i 0)
    (ed : ∀ i, i < p → d''.entry i 0 = u * d.entry i 0 + v * d'.entry i 0) :
    ∃ x x' x'', leastSquareSolverConstraint E B garbage A b C d = .ok x ∧ leastSquareSolverConstraint E B garbage A b' C d' = .ok x' ∧
      leastSquareSolverConstraint E B garbage A b'' C d'' = .ok x'' ∧ ∀ j, j < n → x''.entry j 0 = u * x.entry j 0 + v * x'.entry j 0 := by
  obtain ⟨x, hx, hxs, hst⟩ := C210_stationary E hE B garbage hpn hnm A b C d hA hb hC hd hrank
  obtain ⟨x', hx', hxs', hst'⟩ := C210_stationary E hE B garbage hpn hnm A b' C d' hA hb' hC hd' hrank
  obtain ⟨x'', hx'', hxs'', hst''⟩ := C210_stationary E hE B garbage hpn hnm A b'' C d'' hA hb'' hC hd'' hrank
  have eb2 : col b'' m = u • col b m + v • col b' m := funext fun i => eb i i.2
  have ed2 : col d'' p = u • col d p + v • col d' p := funext fun i => ed i i.2
  have : col x'' n = u • col x n + v • col x' n := by
    refine stationary_unique (fun v h1 h2 => determined_col hA hC hdet h1 h2) hst'' ⟨?_, fun h hh => ?_⟩
    · rw [mulVec_add, mulVec_smul, mulVec_smul, hst.1, hst'.1, ed2]
    · rw [mulVec_add, mulVec_smul, mulVec_smul, eb2,
        show u • on A m n *ᵥ col x n + v • on A m n *ᵥ col x' n - (u • col b m + v • col b' m) = u • (on A m n *ᵥ col x n - col b m) + v • (on A m n *ᵥ col x' n - col b' m) by
          rw [smul_sub, smul_sub]; abel,
        add_dotProduct, smul_dotProduct, smul_dotProduct, hst.2 h hh, hst'.2 h hh, smul_zero, smul_zero, add_zero]
  exact ⟨x, x', x'', hx, hx', hx'', fun j hj => congrFun this ⟨j, hj⟩⟩

/-- C210: constraints combined with one another by an invertible matrix, equations turned by an orthogonal matrix (up to a factor), say the same: the answer does not change. -/
theorem C210_equivalent (E : EigenLA) (hE : Documented E) (B : Build) (garbage : Nat → Nat → ℝ) (hpn : p < n) (hnm : n < m) (A b C d A' b' C' d' : Mat ℝ)
    (hA : HasSize A m n) (hb : HasSize b m 1) (hC : HasSize C p n) (hd : HasSize d p 1) (hA' : HasSize A' m n) (hb' : HasSize b' m 1) (hC' : HasSize C' p n) (hd' : HasSize d' p 1)
    (hrank : FullRowRank C) (hrank' : FullRowRank C') (hdet : Determined A C) {Q : Matrix (Fin m) (Fin m) ℝ} {c : ℝ} (hQ : Qᵀ * Q = 1) {M : Matrix (Fin p) (Fin p) ℝ} (hM : M.det ≠ 0)
    (eA : on A' m n = c • (Q * on A m n)) (eb : col b' m = c • Q *ᵥ col b m) (hc : c ≠ 0) (eC : on C' p n = M * on C p n) (ed : col d' p = M *ᵥ col d p) :
    ∃ x x', leastSquareSolverConstraint E B garbage A b C d = .ok x ∧ leastSquareSolverConstraint E B garbage A' b' C' d' = .ok x' ∧ Same x' x := by
  obtain ⟨x, hx, hxs, hst⟩ := C210_stationary E hE B garbage hpn hnm A b C d hA hb hC hd hrank
  obtain ⟨x', hx', hxs', hst'⟩ := C210_stationary E hE B garbage hpn hnm A' b' C' d' hA' hb' hC' hd' hrank'
  refine ⟨x, x', hx, hx', same_of_col hxs' hxs (stationary_unique (fun v h1 h2 => determined_col hA hC hdet h1 h2) ?_ hst)⟩
  have hu : IsUnit M.det := isUnit_iff_ne_zero.2 hM
  have cancel : ∀ w w' : Fin p → ℝ, M *ᵥ w = M *ᵥ w' → w = w' := fun w w' h => by
    have := congrArg (fun z => M⁻¹ *ᵥ z) h
    simpa only [mulVec_mulVec, nonsing_inv_mul _ hu, one_mulVec] using this
  obtain ⟨s1, s2⟩ := hst'
  refine ⟨cancel _ _ ?_, fun h hh => ?_⟩
  · rw [mulVec_mulVec, ← eC, s1, ed]
  · have h3 := s2 h (by rw [eC, ← mulVec_mulVec, hh, mulVec_zero])
    have q : ∀ w z : Fin m → ℝ, Q *ᵥ w ⬝ᵥ Q *ᵥ z = w ⬝ᵥ z := fun w z => by
      rw [dotProduct_mulVec, vecMul_mulVec, hQ, vecMul_one]
    rw [eA, eb, smul_mulVec, smul_mulVec, ← smul_sub, ← mulVec_mulVec, ← mulVec_mulVec, ← mulVec_sub, smul_dotProduct, dotProduct_smul, q, smul_eq_mul, smul_eq_mul] at h3
    rcases mul_eq_zero.1 h3 with h4 | h4
    · exact absurd h4 hc
    · rcases mul_eq_zero.1 h4 with h5 | h5
      · exact absurd h5 hc
      · exact h5

/-- C210: other unknowns: with `A T` and `C T` in place of `A` and `C`, `T` invertible, the answer `z` gives the first answer as `T z`. -/
theorem C210_unknowns (E : EigenLA) (hE : Documented E) (B : Build) (garbage : Nat → Nat → ℝ) (hpn : p < n) (hnm : n < m) (A b C d A' C' : Mat ℝ)
    (hA : HasSize A m n) (hb : HasSize b m 1) (hC : HasSize C p n) (hd : HasSize d p 1) (hA' : HasSize A' m n) (hC' : HasSize C' p n)
    (hrank : FullRowRank C) (hrank' : FullRowRank C') (hdet : Determined A C) {T : Matrix (Fin n) (Fin n) ℝ} (hT : T.det ≠ 0)
    (eA : on A' m n = on A m n * T) (eC : on C' p n = on C p n * T) :
    ∃ x z, leastSquareSolverConstraint E B garbage A b C d = .ok x ∧ leastSquareSolverConstraint E B garbage A' b C' d = .ok z ∧ col x n = T *ᵥ col z n := by
  obtain ⟨x, hx, hxs, hst⟩ := C210_stationary E hE B garbage hpn hnm A b C d hA hb hC hd hrank
  obtain ⟨z, hz, hzs, s1, s2⟩ := C210_stationary E hE B garbage hpn hnm A' b C' d hA' hb hC' hd hrank'
  have hu : IsUnit T.det := isUnit_iff_ne_zero.2 hT
  have back : ∀ h, T *ᵥ (T⁻¹ *ᵥ h) = h := fun h => by rw [mulVec_mulVec, mul_nonsing_inv _ hu, one_mulVec]
  refine ⟨x, z, hx, hz, stationary_unique (fun v h1 h2 => determined_col hA hC hdet h1 h2) hst ⟨?_, fun h hh => ?_⟩⟩
  · rw [mulVec_mulVec, ← eC, s1]
  · have := s2 (T⁻¹ *ᵥ h) (by rw [eC, ← mulVec_mulVec, back, hh])
    rwa [eA, ← mulVec_mulVec, ← mulVec_mulVec, back] at this

/-- C210: fewer or weaker constraints cannot increase the residual. -/
theorem C210_weaker (E : EigenLA) (hE : Documented E) (B : Build) (garbage : Nat → Nat → ℝ) {q : Nat} (hpn : p < n) (hqn : q < n) (hnm : n < m) (A b C d C' d' : Mat ℝ)
    (hA : HasSize A m n) (hb : HasSize b m 1) (hC : HasSize C p n) (hd : HasSize d p 1) (hC' : HasSize C' q n) (hd' : HasSize d' q 1) (hrank : FullRowRank C) (hrank' : FullRowRank C')
    (himp : ∀ x, Solves C x d → Solves C' x d') :
    ∃ x x', leastSquareSolverConstraint E B garbage A b C d = .ok x ∧ leastSquareSolverConstraint E B garbage A b C' d' = .ok x' ∧ sqResidual A x' b 0 ≤ sqResidual A x b 0 := by
  obtain ⟨x, hx, _, hsol, _⟩ := C63_optimal E hE B garbage m n p hpn hnm A b C d hA hb hC hd hrank
  obtain ⟨x', hx', _, _, hbest⟩ := C63_optimal E hE B garbage m n q hqn hnm A b C' d' hA hb hC' hd' hrank'
  exact ⟨x, x', hx, hx', hbest x (himp x hsol)⟩

/-- The hypotheses are met together: three equations in two unknowns, `i (x₀ - x₁) = -i`, and the constraint `x₀ + 2 x₁ = 5`. The columns of `A` alone are not independent. -/
theorem constraintRules_met : FullRowRank ⟨1, 2, fun _ j => if j = 0 then 1 else 2⟩ ∧ Determined ⟨3, 2, fun i j => if j = 0 then (i : ℝ) else -i⟩ ⟨1, 2, fun _ j => if j = 0 then 1 else 2⟩ := by
  constructor
  · intro w hw i hi
    have h0 := hw 0 (by norm_num)
    have hi : i = 0 := by have : i < 1 := hi; omega
    subst hi
    simpa using h0
  · intro v h1 h2 j hj
    have a1 := h1 1 (by norm_num)
    have c1 := h2 0 (by norm_num)
    simp [sum_range_succ] at a1 c1
    have hv1 : v 1 = 0 := by linarith
    have hv0 : v 0 = 0 := by linarith
    have hj : j < 2 := hj
    interval_cases j <;> assumption

/-- There the answer is `(1, 2)`. -/
example (E : EigenLA) (hE : Documented E) (B : Build) (garbage : Nat → Nat → ℝ) :
    ∃ x, leastSquareSolverConstraint E B garbage ⟨3, 2, fun i j => if j = 0 then (i : ℝ) else -i⟩ ⟨3, 1, fun i _ => -i⟩ ⟨1, 2, fun _ j => if j = 0 then 1 else 2⟩ ⟨1, 1, fun _ _ => 5⟩ = .ok x ∧
      Same x ⟨2, 1, fun i _ => i + 1⟩ :=
  C210_given_back (m := 3) (n := 2) (p := 1) E hE B garbage (by norm_num) (by norm_num) _ _ _ _ _ ⟨rfl, rfl⟩ ⟨rfl, rfl⟩ ⟨rfl, rfl⟩ ⟨rfl, rfl⟩ constraintRules_met.1 constraintRules_met.2
    ⟨rfl, rfl⟩ (fun i c _ _ => by simp [sum_range_succ]; ring) (fun i c _ _ => by simp [sum_range_succ]; norm_num)

end MU
