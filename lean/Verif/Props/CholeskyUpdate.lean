import Verif.Spec.CholeskyUpdate
import Verif.Lemmas.CholeskyUpdate
import Verif.Props.Matrix

/-!
# C95: the update of a Cholesky decomposition
-/

set_option linter.unusedSectionVars false

namespace MU

open Spec Finset

theorem rankOne_symmetric {A v : Mat ℝ} {sigma : ℝ} (h : Symmetric A) : Symmetric (rankOne A v sigma) := by
  refine ⟨h.1, fun i j hi hj => ?_⟩
  show A.entry i j + _ = A.entry j i + _
  rw [h.2 i j hi hj]
  ring

theorem posDef_symLow {A : Mat ℝ} (h : Symmetric A) (hp : PosDef A) :
    ∀ v : Nat → ℝ, (∃ i < A.rows, v i ≠ 0) → 0 < ∑ i ∈ range A.rows, ∑ j ∈ range A.rows, v i * symLow A.entry i j * v j := by
  intro v hv
  rw [show ∑ i ∈ range A.rows, ∑ j ∈ range A.rows, v i * symLow A.entry i j * v j = ∑ i ∈ range A.rows, ∑ j ∈ range A.rows, v i * A.entry i j * v j from
    sum_congr rfl fun i hi => sum_congr rfl fun j hj => by rw [symLow_of_symmetric h (mem_range.1 hi) (mem_range.1 hj)]]
  exact hp v hv

/-- C95 (in part: of symmetric positive definite matrices, whose update stays positive definite). The matrix given is the Cholesky factor of `A + σ v vᵀ`: the one
`GetCholesky` computes from scratch. Missing: the refusal of the other matrices, see `C95_refuted` and `C95_refuted_downdate`. -/
theorem C95_update_partial (B : Build) (A v : Mat ℝ) (sigma : ℝ) (h : Symmetric A) (hA : PosDef A) (hv : HasSize v A.rows 1)
    (hp : PosDef (rankOne A v sigma)) :
    ∃ L, getCholeskyUpdate B A v sigma = .ok L ∧ IsCholesky (rankOne A v sigma) L ∧
      ∃ L', getCholesky B (rankOne A v sigma) = .ok L' ∧ Same L L' := by
  obtain ⟨c, hc⟩ := (llt_iff A.rows A.entry).2 (posDef_symLow h hA)
  have inv := lltN_inv A.rows le_rfl hc
  have hs' := rankOne_symmetric (v := v) (sigma := sigma) h
  obtain ⟨m, hm, pos, prod⟩ := rankUpdate_ok (v := fun r => v.entry r 0) (sigma := sigma) inv (posDef_symLow hs' hp)
  have inv' : LltInv A.rows (rankOne A v sigma).entry (fun i j => if j < A.rows then m i j else (rankOne A v sigma).entry i j) A.rows := by
    refine ⟨fun l hl => by simpa [hl] using pos l hl, fun i k hk hki hi => ?_, fun i k hk => if_neg (by omega)⟩
    refine Eq.trans (sum_congr rfl fun t ht => ?_) (prod i k hki hi)
    have := mem_range.1 ht
    rw [if_pos (by omega), if_pos (by omega)]
  have hch : IsCholesky (rankOne A v sigma) (lowerOf A.rows m) := by
    refine ⟨⟨rfl, rfl⟩, fun i j _ _ hij => if_neg (by omega), fun i hi => ?_, fun i j hi hj => ?_⟩
    · show 0 < if i ≤ i then m i i else 0
      rw [if_pos le_rfl]
      exact pos i hi
    · rw [← symLow_of_symmetric hs' hi hj, ← prod_sym inv' (m := A.rows) hi hj (Or.inl hi) (by have : i < A.rows := hi; omega)]
      refine sum_congr rfl fun t ht => ?_
      have := mem_range.1 ht
      have ht' : t < A.rows := this
      show (if t ≤ i then m i t else 0) * (if t ≤ j then m j t else 0) = _
      simp only [ht', if_true]
  refine ⟨_, ?_, hch, ?_⟩
  · unfold getCholeskyUpdate
    rw [if_pos ⟨h.1, hv.2, hv.1.trans h.1⟩, lltContent_of_some _ hc, hm]
    rfl
  · obtain ⟨L', e, hsame⟩ := C81_complete B _ _ hs' hch
    exact ⟨L', e, hsame.1.symm, hsame.2.1.symm, fun i j hi hj => (hsame.2.2 i j (by rw [hsame.1]; exact hi) (by rw [hsame.2.1]; exact hj)).symm⟩

/-- C95 (in part, as above). The update in place leaves the same matrix in the object. -/
theorem C95_inplace_partial (B : Build) (A v : Mat ℝ) (sigma : ℝ) (h : Symmetric A) (hA : PosDef A) (hv : HasSize v A.rows 1)
    (hp : PosDef (rankOne A v sigma)) : ∃ L, inPlaceCholeskyUpdate B A v sigma = .ok L ∧ IsCholesky (rankOne A v sigma) L := by
  obtain ⟨L, hL, hc, _⟩ := C95_update_partial B A v sigma h hA hv hp
  exact ⟨L, hL, hc⟩

theorem rankOne_quad (A v : Mat ℝ) (sigma : ℝ) (u : Nat → ℝ) (n : Nat) :
    ∑ i ∈ range n, ∑ j ∈ range n, u i * (rankOne A v sigma).entry i j * u j =
      ∑ i ∈ range n, ∑ j ∈ range n, u i * A.entry i j * u j + sigma * (∑ i ∈ range n, u i * v.entry i 0) ^ 2 := by
  rw [sq_sum, mul_sum, ← sum_add_distrib]
  refine sum_congr rfl fun i _ => ?_
  rw [mul_sum, ← sum_add_distrib]
  refine sum_congr rfl fun j _ => ?_
  show u i * (A.entry i j + sigma * (v.entry i 0 * v.entry j 0)) * u j = _
  ring

/-- C95 (in part: of positive definite matrices). An update with `σ ≥ 0` succeeds, whatever the vector. -/
theorem C95_nonneg_partial (B : Build) (A v : Mat ℝ) (sigma : ℝ) (h : Symmetric A) (hA : PosDef A) (hv : HasSize v A.rows 1) (hs : 0 ≤ sigma) :
    ∃ L, getCholeskyUpdate B A v sigma = .ok L ∧ IsCholesky (rankOne A v sigma) L := by
  have hp : PosDef (rankOne A v sigma) := by
    intro u hu
    show 0 < ∑ i ∈ range A.rows, ∑ j ∈ range A.rows, _
    rw [rankOne_quad]
    have := hA u hu
    positivity
  obtain ⟨L, hL, hc, _⟩ := C95_update_partial B A v sigma h hA hv hp
  exact ⟨L, hL, hc⟩

/-- C95 (in part: of positive definite matrices). Updating `A + σ v vᵀ` by `-σ` gives the factor of `A` back. -/
theorem C95_roundtrip_partial (B : Build) (A v : Mat ℝ) (sigma : ℝ) (h : Symmetric A) (hA : PosDef A) (hv : HasSize v A.rows 1)
    (hp : PosDef (rankOne A v sigma)) :
    ∃ L L0, getCholeskyUpdate B (rankOne A v sigma) v (-sigma) = .ok L ∧ getCholesky B A = .ok L0 ∧ Same L L0 := by
  have e : rankOne (rankOne A v sigma) v (-sigma) = A := by
    cases A
    unfold rankOne
    congr 1
    funext i j
    simp only
    ring
  obtain ⟨L, hL, _, L', h1, h2⟩ := C95_update_partial B (rankOne A v sigma) v (-sigma) (rankOne_symmetric h) hp hv (by rw [e]; exact hA)
  rw [e] at h1
  exact ⟨L, L', hL, h1, h2⟩

/-- C95. A matrix which is not square, or a `v` which is not a column of its size, is an assertion of Eigen's. -/
theorem C95_sizes (B : Build) (A v : Mat ℝ) (sigma : ℝ) (h : ¬ (A.rows = A.cols ∧ HasSize v A.rows 1)) :
    getCholeskyUpdate B A v sigma = eigenFail B ∧ inPlaceCholeskyUpdate B A v sigma = eigenFail B := by
  have hn : ¬ (A.rows = A.cols ∧ v.cols = 1 ∧ v.rows = A.cols) := fun hh => h ⟨hh.1, hh.2.2.trans hh.1.symm, hh.2.1⟩
  exact ⟨if_neg hn, if_neg hn⟩

/-- A matrix of one element. -/
def one1 (x : ℝ) : Mat ℝ := ⟨1, 1, fun _ _ => x⟩

theorem one1_symmetric (x : ℝ) : Symmetric (one1 x) := ⟨rfl, fun _ _ _ _ => rfl⟩

theorem one1_posDef (x : ℝ) : PosDef (one1 x) ↔ 0 < x := by
  constructor
  · intro h
    have := h (fun _ => 1) ⟨0, one_pos, one_ne_zero⟩
    simpa [one1] using this
  · rintro hx v ⟨i, hi, hv⟩
    have hi : i < 1 := hi
    have e : i = 0 := by omega
    subst e
    show 0 < ∑ i ∈ range 1, ∑ j ∈ range 1, v i * x * v j
    rw [sum_range_one, sum_range_one, show v 0 * x * v 0 = x * v 0 ^ 2 by ring]
    positivity

/-- C95 refuted: the factorisation of `A = (-4)` fails, which is not noticed: with `σ = 1` and `v = (3)` the matrix given is `(5)`, although `A + σ v vᵀ = (5)`
has the factor `(√5)`; `GetCholesky` refuses `A`. -/
theorem C95_refuted (B : Build) :
    ∃ A v L : Mat ℝ, Symmetric A ∧ HasSize v A.rows 1 ∧ getCholesky B A = .throws .runtimeError ∧ PosDef (rankOne A v 1) ∧
      getCholeskyUpdate B A v 1 = .ok L ∧ ¬ IsCholesky (rankOne A v 1) L := by
  have hstep : lltStep 1 0 (fun _ _ => (-4 : ℝ)) = none := by
    unfold lltStep
    simp only
    refine if_pos ?_
    norm_num
  have hc : (lltContent 1 (one1 (-4)).entry 1).1 = fun _ _ => (-4 : ℝ) := by
    simp [lltContent, one1, hstep]
  refine ⟨one1 (-4), one1 3, lowerOf 1 (updateLoop 1 1 ⟨fun _ _ => -4, fun r => Real.sqrt 1 * (one1 3).entry r 0, 1⟩).mat, one1_symmetric _, ⟨rfl, rfl⟩,
    (C81_positive_definite B _ (one1_symmetric _)).2 (by rw [one1_posDef]; norm_num), ?_, ?_, ?_⟩
  · have : rankOne (one1 (-4)) (one1 3) 1 = one1 5 := by
      unfold rankOne one1
      congr 1
      funext i j
      norm_num
    rw [this, one1_posDef]
    norm_num
  · unfold getCholeskyUpdate
    rw [if_pos ⟨rfl, rfl, rfl⟩]
    show (rankUpdate 1 (lltContent 1 (one1 (-4)).entry 1).1 _ 1 >>= _) = _
    rw [hc, rankUpdate, if_pos one_pos]
    rfl
  · intro hch
    have hp := hch.prod 0 0 one_pos one_pos
    have hr : Real.sqrt 25 = 5 := by
      rw [show (25 : ℝ) = 5 ^ 2 by norm_num, Real.sqrt_sq (by norm_num)]
    have e : (lowerOf 1 (updateLoop 1 1 ⟨fun _ _ => -4, fun r => Real.sqrt 1 * (one1 3).entry r 0, 1⟩).mat).entry 0 0 = 5 := by
      show (if 0 ≤ 0 then (updateLoop 1 1 ⟨fun _ _ => -4, fun r => Real.sqrt 1 * (one1 3).entry r 0, 1⟩).mat 0 0 else 0) = 5
      rw [if_pos le_rfl]
      simp only [updateLoop, updateStep, givens, one1, Real.sqrt_one, if_true]
      rw [if_neg (by norm_num)]
      simp only
      rw [show ((-4 : ℝ)) ^ 2 + (-(1 * 3)) ^ 2 = 25 by norm_num, hr]
    have hp : ∑ l ∈ range 1, (lowerOf 1 (updateLoop 1 1 ⟨fun _ _ => -4, fun r => Real.sqrt 1 * (one1 3).entry r 0, 1⟩).mat).entry 0 l *
      (lowerOf 1 (updateLoop 1 1 ⟨fun _ _ => -4, fun r => Real.sqrt 1 * (one1 3).entry r 0, 1⟩).mat).entry 0 l = (rankOne (one1 (-4)) (one1 3) 1).entry 0 0 := hp
    rw [sum_range_one, e] at hp
    norm_num [rankOne, one1] at hp

/-- C95 refuted: from `A = (1)`, `v = (2)` and `σ = -1`, `A + σ v vᵀ = (-3)` has no factor; `(1)`, the factor of `A`, is given without an error. -/
theorem C95_refuted_downdate (B : Build) :
    ∃ A v L : Mat ℝ, Symmetric A ∧ PosDef A ∧ HasSize v A.rows 1 ∧ getCholesky B (rankOne A v (-1)) = .throws .runtimeError ∧
      getCholeskyUpdate B A v (-1) = .ok L ∧ inPlaceCholeskyUpdate B A v (-1) = .ok L ∧ IsCholesky A L := by
  have hs := one1_symmetric 1
  have hpd : PosDef (one1 1) := (one1_posDef 1).2 one_pos
  obtain ⟨c, hc⟩ := (llt_iff (one1 1).rows (one1 1).entry).2 (posDef_symLow hs hpd)
  have inv := lltN_inv (one1 1).rows le_rfl hc
  have h00 : c 0 0 * c 0 0 = 1 := by
    have := inv.prod 0 0 one_pos le_rfl one_pos
    rwa [sum_range_one] at this
  have hpos : 0 < c 0 0 := inv.pos 0 one_pos
  have hd : downStep 1 (-1) 0 ⟨c, fun r => (one1 2).entry r 0, 1⟩ = .ok (⟨c, fun r => (one1 2).entry r 0, 1⟩, false) := by
    unfold downStep
    simp only [rdiv, one1, one_ne_zero, if_false, Res.ok_bind]
    rw [if_pos (by rw [sq, h00]; norm_num)]
    rfl
  have hupd : getCholeskyUpdate B (one1 1) (one1 2) (-1) = .ok (lowerOf 1 c) := by
    unfold getCholeskyUpdate
    rw [if_pos ⟨rfl, rfl, rfl⟩, lltContent_of_some _ hc, rankUpdate, if_neg (by norm_num)]
    show ((downLoop 1 (-1) 1 ⟨c, fun r => (one1 2).entry r 0, 1⟩ >>= _) >>= _) = _
    simp only [downLoop, Res.ok_bind, if_true, hd]
    rfl
  refine ⟨one1 1, one1 2, lowerOf 1 c, hs, hpd, ⟨rfl, rfl⟩, ?_, hupd, hupd, ?_⟩
  · refine (C81_positive_definite B _ (rankOne_symmetric hs)).2 ?_
    have : rankOne (one1 1) (one1 2) (-1) = one1 (-3) := by
      unfold rankOne one1
      congr 1
      funext i j
      norm_num
    rw [this, one1_posDef]
    norm_num
  · have hg : getCholesky B (one1 1) = .ok (lowerOf 1 c) := by
      rw [getCholesky_square B rfl, hc]
      rfl
    exact C81_factor B _ _ hs hg

theorem choleskyExample_symmetric : Symmetric choleskyExample := by
  refine ⟨rfl, fun i j hi hj => ?_⟩
  have hi : i < 2 := hi
  have hj : j < 2 := hj
  interval_cases i <;> interval_cases j <;> simp [choleskyExample]

theorem choleskyExample_posDef : PosDef choleskyExample := by
  rintro v ⟨i, hi, hv⟩
  have hi : i < 2 := hi
  have h : 0 < (2 * v 0 + v 1) ^ 2 + 4 * v 1 ^ 2 := by
    by_cases h1 : v 1 = 0
    · have : v 0 ≠ 0 := by interval_cases i <;> simp_all
      have h2 : 0 < v 0 ^ 2 := by positivity
      rw [h1]
      nlinarith
    · have h2 : 0 < v 1 ^ 2 := by positivity
      nlinarith [sq_nonneg (2 * v 0 + v 1)]
  show 0 < ∑ i ∈ range 2, ∑ j ∈ range 2, v i * choleskyExample.entry i j * v j
  simp only [sum_range_succ, sum_range_zero, choleskyExample]
  simp
  nlinarith

/-- The column `(1, 3)`. -/
def updateVector : Mat ℝ := ⟨2, 1, fun i _ => if i = 0 then 1 else 3⟩

theorem updateVector_size : HasSize updateVector choleskyExample.rows 1 := ⟨rfl, rfl⟩

/-- C95: the hypotheses are met by `[[4, 2], [2, 5]]` and `v = (1, 3)`, with `σ = 2`, and then with `σ = -2` from the matrix updated. -/
example (B : Build) : ∃ L L', getCholeskyUpdate B choleskyExample updateVector 2 = .ok L ∧
    getCholeskyUpdate B (rankOne choleskyExample updateVector 2) updateVector (-2) = .ok L' := by
  obtain ⟨L, hL, hc⟩ := C95_nonneg_partial B choleskyExample updateVector 2 choleskyExample_symmetric choleskyExample_posDef updateVector_size
    (by norm_num)
  have hp : PosDef (rankOne choleskyExample updateVector 2) := by
    obtain ⟨L1, h1, _⟩ := C81_complete B _ _ (rankOne_symmetric choleskyExample_symmetric) hc
    exact (C81_positive_definite B _ (rankOne_symmetric choleskyExample_symmetric)).1.1 ⟨L1, h1⟩
  obtain ⟨L', _, h', _⟩ := C95_roundtrip_partial B _ _ _ choleskyExample_symmetric choleskyExample_posDef updateVector_size hp
  exact ⟨L, L', hL, h'⟩

end MU
