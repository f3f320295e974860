import Verif.Lemmas.Interp2d
import Verif.Props.Interp1d

/-!
# C05 (2D part), C06 (2D part), C08-C10: Interp2d

`interp2d B m xs ys data x y` is the program "make a 2D interpolator of method `m`, initialise it with `(xs, ys, data)`, evaluate it at
`(x, y)`".
-/

set_option linter.unusedSectionVars false

namespace MU

open Spec Interp2d

variable {K : Type} [Field K] [LinearOrder K] [IsStrictOrderedRing K]

/-- A grid used to show that hypotheses can be met: 3 × 2 nodes. -/
theorem sampleGrid : Grid ([0, 1, 3] : List ℚ) ([0, 2] : List ℚ) ([1, 2, 3, 4, 5, 10] : List ℚ) :=
  ⟨by simp, by simp, by simp, by simp, rfl⟩

/-! ## C08 -/

/-- C08: in any cell containing the point the value is the bilinear interpolant of the corners of this cell. -/
theorem C08_bilinear (B : Build) {xs ys data : List K} (g : Grid xs ys data)
    {i j : Nat} (hi : i + 1 < xs.length) (hj : j + 1 < ys.length) {x y : K}
    (hx0 : xs[i] ≤ x) (hx1 : x ≤ xs[i + 1]) (hy0 : ys[j] ≤ y) (hy1 : y ≤ ys[j + 1]) :
    interp2d B .LINEAR xs ys data x y =
      .ok (bilinear xs[i] xs[i + 1] ys[j] ys[j + 1] (g.at i j (by omega) (by omega)) (g.at (i + 1) j hi (by omega))
        (g.at i (j + 1) (by omega) hj) (g.at (i + 1) (j + 1) hi hj) x y) := by
  rw [interp2d_eq B g]
  exact eval_range B g _ _ hi hj hx0 hx1 hy0 hy1

example : interp2d ⟨true⟩ .LINEAR ([0, 1, 3] : List ℚ) ([0, 2] : List ℚ) ([1, 2, 3, 4, 5, 10] : List ℚ) 2 1 = .ok (11 / 2) := by
  rw [C08_bilinear ⟨true⟩ sampleGrid (i := 1) (j := 0) (by simp) (by simp) (by norm_num) (by norm_num) (by norm_num) (by norm_num)]
  norm_num [bilinear, line, Grid.at]

/-- C08: every point of the range lies in some cell. -/
theorem C08_range_covered {xs ys data : List K} (g : Grid xs ys data) {x y : K}
    (hx0 : xs[0]'(by have := g.twox; omega) ≤ x) (hx1 : x ≤ xs[xs.length - 1]'(by have := g.twox; omega))
    (hy0 : ys[0]'(by have := g.twoy; omega) ≤ y) (hy1 : y ≤ ys[ys.length - 1]'(by have := g.twoy; omega)) :
    ∃ i j, ∃ hi : i + 1 < xs.length, ∃ hj : j + 1 < ys.length,
      xs[i] ≤ x ∧ x ≤ xs[i + 1] ∧ ys[j] ≤ y ∧ y ≤ ys[j + 1] := by
  obtain ⟨i, hi, h1, h2⟩ := Interp1d.exists_cell g.incx g.twox hx0 hx1
  obtain ⟨j, hj, h3, h4⟩ := Interp1d.exists_cell g.incy g.twoy hy0 hy1
  exact ⟨i, j, hi, hj, h1, h2, h3, h4⟩

/-- Every node is a corner of a cell. -/
theorem node_cell {xs : List K} (h2 : 2 ≤ xs.length) (hx : xs.Pairwise (· < ·)) {i : Nat} (hi : i < xs.length) :
    ∃ a, ∃ ha : a + 1 < xs.length, (a = i ∨ a + 1 = i) ∧ xs[a] ≤ xs[i] ∧ xs[i] ≤ xs[a + 1] := by
  rcases Nat.lt_or_ge (i + 1) xs.length with h | h
  · exact ⟨i, h, Or.inl rfl, le_refl _, getElem_le_of_pairwise hx (by omega) h⟩
  · obtain ⟨t, rfl⟩ : ∃ t, i = t + 1 := ⟨i - 1, by omega⟩
    exact ⟨t, hi, Or.inr rfl, getElem_le_of_pairwise hx (by omega) hi, le_refl _⟩

/-- C08: the datum is returned at each node. -/
theorem C08_node (B : Build) {xs ys data : List K} (g : Grid xs ys data) {i j : Nat} (hi : i < xs.length) (hj : j < ys.length) :
    interp2d B .LINEAR xs ys data xs[i] ys[j] = .ok (g.at i j hi hj) := by
  obtain ⟨a, ha, hca, a0, a1⟩ := node_cell g.twox g.incx hi
  obtain ⟨b, hb, hcb, b0, b1⟩ := node_cell g.twoy g.incy hj
  rw [C08_bilinear B g ha hb a0 a1 b0 b1]
  have hdx : xs[a + 1] - xs[a] ≠ 0 := sub_ne_zero.mpr (ne_of_gt (getElem_lt_of_pairwise g.incx (Nat.lt_succ_self a) ha))
  have hdy : ys[b + 1] - ys[b] ≠ 0 := sub_ne_zero.mpr (ne_of_gt (getElem_lt_of_pairwise g.incy (Nat.lt_succ_self b) hb))
  rcases hca with rfl | rfl <;> rcases hcb with rfl | rfl <;>
    simp only [bilinear_x0, bilinear_x1 hdx, Interp1d.line_left, Interp1d.line_right hdy]

example : interp2d ⟨true⟩ .LINEAR ([0, 1, 3] : List ℚ) ([0, 2] : List ℚ) ([1, 2, 3, 4, 5, 10] : List ℚ) 3 0 = .ok 5 :=
  C08_node ⟨true⟩ sampleGrid (i := 2) (j := 0) (by simp) (by simp)

/-! ## C09 -/

/-- C09: the value lies between the smallest and the largest corner of the cell. -/
theorem C09_between (B : Build) {xs ys data : List K} (g : Grid xs ys data)
    {i j : Nat} (hi : i + 1 < xs.length) (hj : j + 1 < ys.length) {x y : K}
    (hx0 : xs[i] ≤ x) (hx1 : x ≤ xs[i + 1]) (hy0 : ys[j] ≤ y) (hy1 : y ≤ ys[j + 1]) :
    ∃ v, interp2d B .LINEAR xs ys data x y = .ok v ∧
      min (min (g.at i j (by omega) (by omega)) (g.at (i + 1) j hi (by omega)))
        (min (g.at i (j + 1) (by omega) hj) (g.at (i + 1) (j + 1) hi hj)) ≤ v ∧
      v ≤ max (max (g.at i j (by omega) (by omega)) (g.at (i + 1) j hi (by omega)))
        (max (g.at i (j + 1) (by omega) hj) (g.at (i + 1) (j + 1) hi hj)) := by
  refine ⟨_, C08_bilinear B g hi hj hx0 hx1 hy0 hy1, ?_⟩
  have lx := getElem_lt_of_pairwise g.incx (Nat.lt_succ_self i) hi
  have ly := getElem_lt_of_pairwise g.incy (Nat.lt_succ_self j) hj
  have b0 := line_bounds (y0 := g.at i j (by omega) (by omega)) (y1 := g.at (i + 1) j hi (by omega)) lx hx0 hx1
  have b1 := line_bounds (y0 := g.at i (j + 1) (by omega) hj) (y1 := g.at (i + 1) (j + 1) hi hj) lx hx0 hx1
  have b2 := line_bounds (y0 := line xs[i] (g.at i j (by omega) (by omega)) xs[i + 1] (g.at (i + 1) j hi (by omega)) x)
    (y1 := line xs[i] (g.at i (j + 1) (by omega) hj) xs[i + 1] (g.at (i + 1) (j + 1) hi hj) x) ly hy0 hy1
  exact ⟨le_trans (min_le_min b0.1 b1.1) b2.1, le_trans b2.2 (max_le_max b0.2 b1.2)⟩

example : ∃ v, interp2d ⟨true⟩ .LINEAR ([0, 1, 3] : List ℚ) ([0, 2] : List ℚ) ([1, 2, 3, 4, 5, 10] : List ℚ) 2 1 = .ok v ∧
    3 ≤ v ∧ v ≤ 10 := by
  obtain ⟨v, h1, h2, h3⟩ := C09_between ⟨true⟩ sampleGrid (i := 1) (j := 0) (x := 2) (y := 1) (by simp) (by simp) (by norm_num)
    (by norm_num) (by norm_num) (by norm_num)
  simp only [Grid.at] at h2 h3
  norm_num [min_def, max_def] at h2 h3
  exact ⟨v, h1, by linarith, by linarith⟩

/-- C09: data sampled from `a + b x + c y + d x y` are reproduced everywhere in the range. -/
theorem C09_bilinear_exact (B : Build) {xs ys data : List K} (g : Grid xs ys data) (a b c d : K)
    (hdata : ∀ i j (hi : i < xs.length) (hj : j < ys.length), g.at i j hi hj = a + b * xs[i] + c * ys[j] + d * xs[i] * ys[j]) {x y : K}
    (hx0 : xs[0]'(by have := g.twox; omega) ≤ x) (hx1 : x ≤ xs[xs.length - 1]'(by have := g.twox; omega))
    (hy0 : ys[0]'(by have := g.twoy; omega) ≤ y) (hy1 : y ≤ ys[ys.length - 1]'(by have := g.twoy; omega)) :
    interp2d B .LINEAR xs ys data x y = .ok (a + b * x + c * y + d * x * y) := by
  obtain ⟨i, j, hi, hj, h1, h2, h3, h4⟩ := C08_range_covered g hx0 hx1 hy0 hy1
  rw [C08_bilinear B g hi hj h1 h2 h3 h4]
  have hdx : xs[i + 1] - xs[i] ≠ 0 := sub_ne_zero.mpr (ne_of_gt (getElem_lt_of_pairwise g.incx (Nat.lt_succ_self i) hi))
  have hdy : ys[j + 1] - ys[j] ≠ 0 := sub_ne_zero.mpr (ne_of_gt (getElem_lt_of_pairwise g.incy (Nat.lt_succ_self j) hj))
  simp only [bilinear, line, hdata, smul_eq_mul]
  congr 1
  field_simp
  ring

example : interp2d ⟨true⟩ .LINEAR ([0, 1, 3] : List ℚ) ([0, 2] : List ℚ) ([1, 3, 2, 6, 4, 12] : List ℚ) 2 1 = .ok 6 := by
  have g : Grid ([0, 1, 3] : List ℚ) ([0, 2] : List ℚ) ([1, 3, 2, 6, 4, 12] : List ℚ) := ⟨by simp, by simp, by simp, by simp, rfl⟩
  rw [C09_bilinear_exact ⟨true⟩ g 1 1 1 1]
  · norm_num
  · intro i j hi hj
    simp only [List.length_cons, List.length_nil] at hi hj
    have h3 : i = 0 ∨ i = 1 ∨ i = 2 := by omega
    have h2 : j = 0 ∨ j = 1 := by omega
    rcases h3 with rfl | rfl | rfl <;> rcases h2 with rfl | rfl <;> norm_num [Grid.at]
  all_goals norm_num

/-! ## C10 -/

/-- C10 (in range, both build modes): evaluation returns a value: no throw, no abort, no out-of-bounds access. -/
theorem C10_in_range_returns (B : Build) {xs ys data : List K} (g : Grid xs ys data) {x y : K}
    (hx0 : xs[0]'(by have := g.twox; omega) ≤ x) (hx1 : x ≤ xs[xs.length - 1]'(by have := g.twox; omega))
    (hy0 : ys[0]'(by have := g.twoy; omega) ≤ y) (hy1 : y ≤ ys[ys.length - 1]'(by have := g.twoy; omega)) :
    ∃ v, interp2d B .LINEAR xs ys data x y = .ok v := by
  obtain ⟨i, j, hi, hj, h1, h2, h3, h4⟩ := C08_range_covered g hx0 hx1 hy0 hy1
  exact ⟨_, C08_bilinear B g hi hj h1 h2 h3 h4⟩

/-- C10 (out of range, assertions on): the process aborts. -/
theorem C10_checked_aborts_partial {xs ys data : List K} (g : Grid xs ys data) {x y : K}
    (h : x < xs[0]'(by have := g.twox; omega) ∨ xs[xs.length - 1]'(by have := g.twox; omega) < x ∨
      y < ys[0]'(by have := g.twoy; omega) ∨ ys[ys.length - 1]'(by have := g.twoy; omega) < y) :
    interp2d ⟨true⟩ .LINEAR xs ys data x y = .aborts := by
  rw [interp2d_eq _ g]
  simp only [eval, evalAsserts, built, readVar_some, Res.ok_bind, if_true]
  by_cases hx : xs[0]'(by have := g.twox; omega) ≤ x ∧ x ≤ xs[xs.length - 1]'(by have := g.twox; omega)
  · have hy : ¬ (ys[0]'(by have := g.twoy; omega) ≤ y ∧ y ≤ ys[ys.length - 1]'(by have := g.twoy; omega)) := by
      rintro ⟨q1, q2⟩
      rcases h with h | h | h | h
      exacts [absurd hx.1 (not_le.mpr h), absurd hx.2 (not_le.mpr h), absurd q1 (not_le.mpr h), absurd q2 (not_le.mpr h)]
    rw [cassert_true _ _ hx, cassert_false _ hy]; rfl
  · rw [cassert_false _ hx]; rfl

example : interp2d ⟨true⟩ .LINEAR ([0, 1, 3] : List ℚ) ([0, 2] : List ℚ) ([1, 2, 3, 4, 5, 10] : List ℚ) 2 5 = .aborts :=
  C10_checked_aborts_partial sampleGrid (Or.inr (Or.inr (Or.inr (by norm_num))))

/-- With NDEBUG, a point above the last abscissa makes Eval throw `std::out_of_range` (for `y` in range or not). -/
theorem C10_ndebug_right_throws {xs ys data : List K} (g : Grid xs ys data) {x y : K}
    (h : xs[xs.length - 1]'(by have := g.twox; omega) < x) :
    interp2d ⟨false⟩ .LINEAR xs ys data x y = .throws .outOfRange := by
  have h2 := g.twox
  have h2y := g.twoy
  rw [interp2d_eq _ g]
  obtain ⟨p, hp, hpl, hsp⟩ := Interp1d.exists_lowerBound g.incx x
  obtain ⟨q, hq, hql, hsq⟩ := Interp1d.exists_lowerBound g.incy y
  have hpn : p = xs.length := by
    have := (hsp (xs.length - 1) (by omega)).mpr h
    omega
  subst hpn
  have e : (if xs.length = 0 then 1 else xs.length) - 1 = xs.length - 1 := by split <;> omega
  simp only [eval, evalAsserts, built, deref_some, Res.ok_bind, hp, hq, e, fresh, List.nil_append]
  rw [vAt_ge (by
    simp only [List.length_map, List.length_range]
    have : 1 ≤ (if q = 0 then 1 else q) := by split <;> omega
    omega)]
  rfl

/-- C10 is false with NDEBUG: for a point above the last ordinate `ymax` whose abscissa is not in the last column of cells, Eval returns
the (extrapolated) value of a cell of the next row of the grid. -/
theorem C10_ndebug_wrong_cell {xs ys data : List K} (g : Grid xs ys data) {i : Nat} (hi : i + 2 < xs.length) (hy1 : 1 < ys.length)
    {x y : K} (hx0 : xs[i] < x) (hx1 : x ≤ xs[i + 1]) (hy : ys[ys.length - 1] < y) :
    interp2d ⟨false⟩ .LINEAR xs ys data x y =
      .ok (bilinear xs[i + 1] xs[i + 2] ys[0] ys[1] (g.at (i + 1) 0 (by omega) (by omega)) (g.at (i + 2) 0 hi (by omega))
        (g.at (i + 1) 1 (by omega) hy1) (g.at (i + 2) 1 hi hy1) x y) := by
  have h2 := g.twox
  have h2y := g.twoy
  rw [interp2d_eq _ g]
  obtain ⟨p, hp, hpc⟩ := Interp1d.lowerBound_cell g.incx (i := i) (by omega) hx0.le hx1
  obtain ⟨q, hq, hql, hsq⟩ := Interp1d.exists_lowerBound g.incy y
  have hqn : q = ys.length := by
    have := (hsq (ys.length - 1) (by omega)).mpr hy
    omega
  have hpn : p = i + 1 := by
    rcases hpc with h | h
    · exact h
    · exact absurd h.2 (ne_of_gt hx0)
  subst hqn hpn
  have e : (ys.length - 1) + (i + 1 - 1) * (ys.length - 1) = (ys.length - 1) * (i + 1) := by
    rw [Nat.add_sub_cancel]; ring
  have hn : (ys.length - 1) + (i + 1 - 1) * (ys.length - 1) < (xs.length - 1) * (ys.length - 1) := by
    have := idx_lt (show i + 1 < xs.length - 1 by omega) (show 0 < ys.length - 1 by omega)
    rw [e]; exact this
  rw [eval_built ⟨false⟩ _ rfl rfl rfl rfl _ _ hp hq _ hn rfl, e]
  simp only [coefsAt, Nat.mul_div_cancel_left _ (show 0 < ys.length - 1 by omega), Nat.mul_mod_right]
  rw [coefs_eq g (i := i + 1) (j := 0) hi hy1]
  rfl

/-- The full statement of C10 is refuted: with NDEBUG a value is returned for a point out of range. -/
theorem C10_refuted : ¬ (∀ (B : Build) (xs ys data : List ℚ) (x y : ℚ) (g : Grid xs ys data),
    (x < xs[0]'(by have := g.twox; omega) ∨ xs[xs.length - 1]'(by have := g.twox; omega) < x ∨
      y < ys[0]'(by have := g.twoy; omega) ∨ ys[ys.length - 1]'(by have := g.twoy; omega) < y) →
    ∀ v, interp2d B .LINEAR xs ys data x y ≠ .ok v) := by
  intro h
  exact h ⟨false⟩ _ _ _ (1 / 2) 5 sampleGrid (Or.inr (Or.inr (Or.inr (by norm_num)))) _
    (C10_ndebug_wrong_cell sampleGrid (i := 0) (by simp) (by simp) (by norm_num) (by norm_num) (by norm_num))

/-! ## C05, 2D part -/

/-- C05 is false for the 2D interpolator too: re-initialised with other data, it still returns the old values. -/
theorem C05_refuted_2d : ¬ (∀ (hist : List (List ℚ × List ℚ × List ℚ)) (xs ys data : List ℚ) (g : Grid xs ys data) (i j : Nat)
    (hi : i < xs.length) (hj : j < ys.length), (∀ t ∈ hist, Grid t.1 t.2.1 t.2.2) →
    interp2dHist ⟨true⟩ .LINEAR (hist ++ [(xs, ys, data)]) xs[i] ys[j] = .ok (g.at i j hi hj)) := by
  intro h
  have g1 : Grid ([0, 1] : List ℚ) ([0, 1] : List ℚ) ([0, 0, 0, 0] : List ℚ) := ⟨by simp, by simp, by simp, by simp, rfl⟩
  have g2 : Grid ([0, 1] : List ℚ) ([0, 1] : List ℚ) ([7, 7, 7, 7] : List ℚ) := ⟨by simp, by simp, by simp, by simp, rfl⟩
  have h1 := h [([0, 1], [0, 1], [0, 0, 0, 0])] [0, 1] [0, 1] [7, 7, 7, 7] g2 0 0 (by simp) (by simp) (by simpa using g1)
  have hne : interp2dHist ⟨true⟩ .LINEAR ([([0, 1], [0, 1], [0, 0, 0, 0])] ++ [([0, 1], [0, 1], [7, 7, 7, 7])]) (0 : ℚ) 0 = .ok 0 := by
    simp only [interp2dHist, make, Res.ok_bind, List.cons_append, List.nil_append, initAll]
    rw [Act.run_bind_ok (run_init ⟨true⟩ (by simp) (by simp) g1.incx g1.incy g1.size _),
      Act.run_bind_ok (run_init ⟨true⟩ (by simp) (by simp) g2.incx g2.incy g2.size _)]
    simp only [Act.run_pure, Res.ok_bind]
    simp [eval, evalAsserts, built, cassert, lowerBound, partitionedLT, fresh, vAt, coefsAt, coefs, List.range_succ, not_lt.mpr (zero_le_one (α := ℚ))]
  rw [show ([0, 1] : List ℚ)[0] = 0 from rfl, hne] at h1
  simp [Grid.at] at h1

/-! ## C06, 2D part -/

/-- C06: if all points have two coordinates and all scalar evaluations return, the vector evaluation returns the vector of their
values. -/
theorem C06_elementwise_2d (B : Build) (s : Interp2d K) (vc : List (List K)) (zs : List K) (hl : vc.length = zs.length)
    (h : ∀ i (h1 : i < vc.length) (h2 : i < zs.length), ∃ x y rest, vc[i] = x :: y :: rest ∧ eval B s x y = .ok zs[i]) :
    evalVec B s vc = .ok zs := by
  have := forRange_ok (lo := 0) (hi := vc.length) (Nat.zero_le _) (fun i => zs.take i)
    (f := fun i out => do
      let c ← vIdx vc i
      let cx ← vIdx c 0
      let cy ← vIdx c 1
      let v ← eval B s cx cy
      return out ++ [v])
    (by
      intro i _ hi
      have hi' : i < zs.length := by omega
      obtain ⟨x, y, rest, hc, he⟩ := h i hi hi'
      simp only [vIdx_lt hi, Res.ok_bind, hc]
      rw [show vIdx (x :: y :: rest) 0 = .ok x from rfl, show vIdx (x :: y :: rest) 1 = .ok y from rfl]
      simp only [Res.ok_bind, he, Res.pure_eq]
      rw [List.take_add_one, List.getElem?_eq_getElem hi']; rfl)
  simp only [List.take_zero, hl, List.take_length] at this
  rw [evalVec, hl]
  exact this

end MU
