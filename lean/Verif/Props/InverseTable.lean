import Verif.Props.ChangeOfUnits

/-!
# C209: a table read backwards

The interpolator of a table whose ordinates increase, with the two columns exchanged, is the inverse function of the interpolator.
-/

set_option linter.unusedSectionVars false

namespace MU

open Spec Interp1d

variable {K : Type} [Field K] [LinearOrder K] [IsStrictOrderedRing K]

theorem Spec.Table.exchange {xs ys : List K} (ht : Table xs ys) (hy : ys.Pairwise (· < ·)) : Table ys xs :=
  ⟨by have := ht.two; have := ht.sizes; omega, hy, ht.sizes.symm⟩

/-- The two lines through the same two points, one read as a function of the abscissa and the other of the ordinate. -/
theorem line_inverse {x0 x1 y0 y1 : K} (hx : x1 - x0 ≠ 0) (hy : y1 - y0 ≠ 0) (x : K) : line y0 x0 y1 x1 (line x0 y0 x1 y1 x) = x := by
  unfold line
  simp only [smul_eq_mul]
  field_simp
  ring

theorem line_strict {x0 x1 y0 y1 : K} (hx : x0 < x1) (hy : y0 < y1) {x x' : K} (h : x < x') : line x0 y0 x1 y1 x < line x0 y0 x1 y1 x' := by
  unfold line
  simp only [smul_eq_mul]
  have h1 : (x - x0) / (x1 - x0) < (x' - x0) / (x1 - x0) := by
    apply div_lt_div_of_pos_right _ (sub_pos.2 hx)
    linarith
  nlinarith [mul_lt_mul_of_pos_right h1 (sub_pos.2 hy)]

/-- C209: at a point of the range, the interpolator of the table with the columns exchanged gives the point back from the value. Method and build may differ. -/
theorem C209_inverse (B B' : Build) {m m' : InterpMethod} (hm : m ≠ .BSPLINE) (hm' : m' ≠ .BSPLINE) {xs ys : List K} (ht : Table xs ys) (hy : ys.Pairwise (· < ·)) {x : K}
    (h0 : xs[0]'(by have := ht.two; omega) ≤ x) (h1 : x ≤ xs[xs.length - 1]'(by have := ht.two; omega)) :
    ∃ v, interp1d B m xs ys x = .ok v ∧ interp1d B' m' ys xs v = .ok x := by
  have hs := ht.sizes
  obtain ⟨i, hi, c0, c1⟩ := C01_range_covered ht h0 h1
  have lx := List.pairwise_iff_getElem.1 ht.increasing i (i + 1) (by omega) hi (Nat.lt_succ_self i)
  have ly := List.pairwise_iff_getElem.1 hy i (i + 1) (by omega) (by omega) (Nat.lt_succ_self i)
  obtain ⟨b0, b1⟩ := line_bounds (y0 := ys[i]'(by omega)) (y1 := ys[i + 1]'(by omega)) lx c0 c1
  rw [min_eq_left ly.le] at b0
  rw [max_eq_right ly.le] at b1
  refine ⟨_, C01_piecewise_affine B hm ht hi (by omega) c0 c1, ?_⟩
  rw [C01_piecewise_affine B' hm' (ht.exchange hy) (i := i) (by omega) hi b0 b1, line_inverse (sub_pos.2 lx).ne' (sub_pos.2 ly).ne']

/-- C209: ... and every value between the ends is given back from the point the exchanged table finds for it. -/
theorem C209_inverse_value (B B' : Build) {m m' : InterpMethod} (hm : m ≠ .BSPLINE) (hm' : m' ≠ .BSPLINE) {xs ys : List K} (ht : Table xs ys) (hy : ys.Pairwise (· < ·)) {v : K}
    (h0 : ys[0]'(by have := ht.two; have := ht.sizes; omega) ≤ v) (h1 : v ≤ ys[ys.length - 1]'(by have := ht.two; have := ht.sizes; omega)) :
    ∃ x, interp1d B' m' ys xs v = .ok x ∧ interp1d B m xs ys x = .ok v :=
  C209_inverse B' B hm' hm (ht.exchange hy) ht.increasing h0 h1

/-- C209: with decreasing ordinates the columns are exchanged and both read backwards. -/
theorem C209_inverse_decreasing (B B' : Build) {m m' : InterpMethod} (hm : m ≠ .BSPLINE) (hm' : m' ≠ .BSPLINE) {xs ys : List K} (ht : Table xs ys) (hy : ys.Pairwise (· > ·)) {x : K}
    (h0 : xs[0]'(by have := ht.two; omega) ≤ x) (h1 : x ≤ xs[xs.length - 1]'(by have := ht.two; omega)) :
    ∃ v, interp1d B m xs ys x = .ok v ∧ interp1d B' m' ys.reverse xs.reverse v = .ok x := by
  have hs := ht.sizes
  have h2 := ht.two
  have ht' : Table ys.reverse xs.reverse := ⟨by simp; omega, by rw [List.pairwise_reverse]; exact hy, by simp [hs]⟩
  obtain ⟨i, hi, c0, c1⟩ := C01_range_covered ht h0 h1
  have lx := List.pairwise_iff_getElem.1 ht.increasing i (i + 1) (by omega) hi (Nat.lt_succ_self i)
  have ly := List.pairwise_iff_getElem.1 hy i (i + 1) (by omega) (by omega) (Nat.lt_succ_self i)
  obtain ⟨b0, b1⟩ := line_bounds (y0 := ys[i]'(by omega)) (y1 := ys[i + 1]'(by omega)) lx c0 c1
  rw [min_eq_right ly.le] at b0
  rw [max_eq_left ly.le] at b1
  refine ⟨_, C01_piecewise_affine B hm ht hi (by omega) c0 c1, ?_⟩
  have r0 : ys.reverse[ys.length - 2 - i]'(by simp; omega) = ys[i + 1]'(by omega) := by
    rw [List.getElem_reverse]
    congr 1
    omega
  have r1 : ys.reverse[ys.length - 2 - i + 1]'(by simp; omega) = ys[i]'(by omega) := by
    rw [List.getElem_reverse]
    congr 1
    omega
  have s0 : xs.reverse[ys.length - 2 - i]'(by simp; omega) = xs[i + 1]'(by omega) := by
    rw [List.getElem_reverse]
    congr 1
    omega
  have s1 : xs.reverse[ys.length - 2 - i + 1]'(by simp; omega) = xs[i]'(by omega) := by
    rw [List.getElem_reverse]
    congr 1
    omega
  rw [C01_piecewise_affine B' hm' ht' (i := ys.length - 2 - i) (by simp; omega) (by simp; omega) (by rw [r0]; exact b0) (by rw [r1]; exact b1), r0, r1, s0, s1,
    line_swap (sub_neg.2 ly).ne, line_inverse (sub_pos.2 lx).ne' (sub_neg.2 ly).ne]

/-- C209: different points have different values, in the order of the points. -/
theorem C209_strict (B : Build) {m : InterpMethod} (hm : m ≠ .BSPLINE) {xs ys : List K} (ht : Table xs ys) (hy : ys.Pairwise (· < ·)) {x x' : K}
    (h0 : xs[0]'(by have := ht.two; omega) ≤ x) (hxx : x < x') (h1 : x' ≤ xs[xs.length - 1]'(by have := ht.two; omega)) :
    ∃ v v', interp1d B m xs ys x = .ok v ∧ interp1d B m xs ys x' = .ok v' ∧ v < v' := by
  obtain ⟨v, v', e, e', hle⟩ := C02_monotone B hm ht (hy.imp le_of_lt) h0 hxx.le h1
  refine ⟨v, v', e, e', lt_of_le_of_ne hle fun hv => ?_⟩
  obtain ⟨w, f, g⟩ := C209_inverse B B hm hm ht hy h0 (hxx.le.trans h1)
  obtain ⟨w', f', g'⟩ := C209_inverse B B hm hm ht hy (h0.trans hxx.le) h1
  rw [e] at f
  rw [e'] at f'
  cases f
  cases f'
  subst hv
  rw [g] at g'
  exact hxx.ne (Res.ok.inj g')

/-- C209: with LINEAR_SATURATE on both sides, going and coming back brings every point to the nearest point of the range. -/
theorem C209_saturate (B B' : Build) {xs ys : List K} (ht : Table xs ys) (hy : ys.Pairwise (· < ·)) (x : K) :
    ∃ v, interp1d B .LINEAR_SATURATE xs ys x = .ok v ∧
      interp1d B' .LINEAR_SATURATE ys xs v = .ok (max (xs[0]'(by have := ht.two; omega)) (min x (xs[xs.length - 1]'(by have := ht.two; omega)))) := by
  have h2 := ht.two
  have hs := ht.sizes
  have hle : xs[0]'(by omega) ≤ xs[xs.length - 1]'(by omega) := getElem_le_of_pairwise ht.increasing (by omega) (by omega)
  have ht' := ht.exchange hy
  rcases lt_or_ge x (xs[0]'(by omega)) with h0 | h0
  · refine ⟨_, C03_saturate_left B ht (by omega) (by omega) h0.le, ?_⟩
    rw [C03_saturate_left B' ht' (by omega) (by omega) le_rfl, min_eq_left (h0.le.trans hle), max_eq_left h0.le]
  rcases lt_or_ge (xs[xs.length - 1]'(by omega)) x with h1 | h1
  · refine ⟨_, C03_saturate_right B ht (by omega) (by omega) h1.le, ?_⟩
    rw [C03_saturate_right B' ht' (by omega) (by omega) le_rfl, min_eq_right h1.le, max_eq_right hle]
  · rw [min_eq_left h1, max_eq_right h0]
    exact C209_inverse B B' (by simp) (by simp) ht hy h0 h1

/-- The hypotheses are met: `(0, 5), (1, 7), (3, 11)` at `2`, and the decreasing `(0, 5), (1, 4), (3, 1)`. -/
example : ∃ v, interp1d ⟨true⟩ .LINEAR ([0, 1, 3] : List ℚ) ([5, 7, 11] : List ℚ) 2 = .ok v ∧ interp1d ⟨false⟩ .LINEAR_EXTRAPOLATE ([5, 7, 11] : List ℚ) ([0, 1, 3] : List ℚ) v = .ok 2 :=
  C209_inverse ⟨true⟩ ⟨false⟩ (m := .LINEAR) (m' := .LINEAR_EXTRAPOLATE) (xs := [0, 1, 3]) (ys := [5, 7, 11]) (by simp) (by simp) ⟨by simp, by simp, rfl⟩ (by simp; norm_num)
    (by simp) (by simp; norm_num)

example : ∃ v, interp1d ⟨true⟩ .LINEAR ([0, 1, 3] : List ℚ) ([5, 4, 1] : List ℚ) 2 = .ok v ∧
    interp1d ⟨true⟩ .LINEAR ([5, 4, 1] : List ℚ).reverse ([0, 1, 3] : List ℚ).reverse v = .ok 2 :=
  C209_inverse_decreasing ⟨true⟩ ⟨true⟩ (m := .LINEAR) (m' := .LINEAR) (xs := [0, 1, 3]) (ys := [5, 4, 1]) (by simp) (by simp) ⟨by simp, by simp, rfl⟩ (by simp; norm_num)
    (by simp) (by simp; norm_num)

/-- With ordinates that increase but not strictly, two points have the same value. -/
example : interp1d ⟨true⟩ .LINEAR ([0, 1, 3] : List ℚ) ([5, 7, 7] : List ℚ) 1 = .ok 7 ∧ interp1d ⟨true⟩ .LINEAR ([0, 1, 3] : List ℚ) ([5, 7, 7] : List ℚ) 2 = .ok 7 := by
  constructor <;> decide +kernel

end MU
