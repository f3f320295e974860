import Verif.Lemmas.Interp1d
import Mathlib.Data.Rat.Defs
import Mathlib.Algebra.Order.Ring.Rat
import Mathlib.Tactic.NormNum

/-!
# C01-C07: Interp1d

`interp1d B m xs ys x` is the program "make an interpolator of method `m`, initialise it with `(xs, ys)`, evaluate it at `x`", in build
mode `B`. `K` is any linearly ordered field and `Y` any vector space over it (real or complex ordinates).
-/

set_option linter.unusedSectionVars false

namespace MU

open Spec Interp1d

variable {K Y : Type} [Field K] [LinearOrder K] [IsStrictOrderedRing K] [AddCommGroup Y] [Module K Y]

/-- A table used to show that hypotheses can be met. -/
theorem sampleTable : Table ([0, 1, 3] : List ℚ) ([5, 7, 1] : List ℚ) := ⟨by simp, by simp, rfl⟩

/-! ## C01 -/

/-- C01: in a cell `[xs[i], xs[i+1]]` containing `x` the value is that of the straight line through the two nodes. -/
theorem C01_piecewise_affine (B : Build) {m : InterpMethod} (hm : m ≠ .BSPLINE) {xs : List K} {ys : List Y} (ht : Table xs ys)
    {i : Nat} (hi : i + 1 < xs.length) (hi' : i + 1 < ys.length) {x : K} (h0 : xs[i] ≤ x) (h1 : x ≤ xs[i + 1]) :
    interp1d B m xs ys x = .ok (line xs[i] ys[i] xs[i + 1] ys[i + 1] x) := by
  obtain ⟨kind, hk⟩ := make_ok hm
  have hr := range_of_cell ht.increasing hi h0 h1
  rw [interp1d_eq B hk ht, eval_range kind _ _ _ hr.1 hr.2]
  exact privEvalBase_range ht _ rfl rfl _ hi h0 h1

example : interp1d ⟨true⟩ .LINEAR ([0, 1, 3] : List ℚ) ([5, 7, 1] : List ℚ) 2 = .ok 4 := by
  rw [C01_piecewise_affine ⟨true⟩ (by simp) sampleTable (i := 1) (by simp) (by simp) (by norm_num) (by norm_num)]
  norm_num [line]

/-- C01: every point of the range lies in some cell, so that evaluation in the range always returns a value. -/
theorem C01_range_covered {xs : List K} {ys : List Y} (ht : Table xs ys) {x : K}
    (h0 : xs[0]'(by have := ht.two; omega) ≤ x) (h1 : x ≤ xs[xs.length - 1]'(by have := ht.two; omega)) :
    ∃ i, ∃ hi : i + 1 < xs.length, xs[i] ≤ x ∧ x ≤ xs[i + 1] :=
  exists_cell ht.increasing ht.two h0 h1

example : ∃ i, ∃ hi : i + 1 < ([0, 1, 3] : List ℚ).length, ([0, 1, 3] : List ℚ)[i] ≤ 2 ∧ 2 ≤ ([0, 1, 3] : List ℚ)[i + 1] :=
  C01_range_covered sampleTable (by norm_num) (by norm_num)

/-- C01: the ordinate is returned at each node. -/
theorem C01_node (B : Build) {m : InterpMethod} (hm : m ≠ .BSPLINE) {xs : List K} {ys : List Y} (ht : Table xs ys)
    {i : Nat} (hi : i < xs.length) (hi' : i < ys.length) : interp1d B m xs ys xs[i] = .ok ys[i] := by
  have h2 := ht.two
  have hs := ht.sizes
  rcases Nat.lt_or_ge (i + 1) xs.length with h | h
  · rw [C01_piecewise_affine B hm ht h (by omega) (le_refl _) (getElem_le_of_pairwise ht.increasing (by omega) h), line_left]
  · obtain ⟨j, rfl⟩ : ∃ j, i = j + 1 := ⟨i - 1, by omega⟩
    rw [C01_piecewise_affine B hm ht hi (by omega) (getElem_le_of_pairwise ht.increasing (by omega) hi) (le_refl _), line_right]
    exact sub_ne_zero.mpr (ne_of_gt (getElem_lt_of_pairwise ht.increasing (Nat.lt_succ_self j) hi))

example : interp1d ⟨true⟩ .LINEAR_EXTRAPOLATE ([0, 1, 3] : List ℚ) ([5, 7, 1] : List ℚ) 3 = .ok 1 :=
  C01_node ⟨true⟩ (by simp) sampleTable (i := 2) (by simp) (by simp)

/-! ## C02 -/

/-- The value of a line at a point of its segment lies between the ordinates of its ends. -/
theorem line_bounds {x0 x1 y0 y1 x : K} (h01 : x0 < x1) (h0 : x0 ≤ x) (h1 : x ≤ x1) :
    min y0 y1 ≤ line x0 y0 x1 y1 x ∧ line x0 y0 x1 y1 x ≤ max y0 y1 := by
  have hd : 0 < x1 - x0 := sub_pos.mpr h01
  have ht0 : 0 ≤ (x - x0) / (x1 - x0) := div_nonneg (by linarith) hd.le
  have ht1 : (x - x0) / (x1 - x0) ≤ 1 := (div_le_one hd).mpr (by linarith)
  simp only [line, smul_eq_mul]
  generalize (x - x0) / (x1 - x0) = t at *
  rcases le_total y0 y1 with h | h
  · rw [min_eq_left h, max_eq_right h]
    constructor <;> nlinarith [mul_nonneg ht0 (sub_nonneg.mpr h), mul_nonneg (sub_nonneg.mpr ht1) (sub_nonneg.mpr h)]
  · rw [min_eq_right h, max_eq_left h]
    constructor <;> nlinarith [mul_nonneg ht0 (sub_nonneg.mpr h), mul_nonneg (sub_nonneg.mpr ht1) (sub_nonneg.mpr h)]

/-- C02: no overshoot. -/
theorem C02_between (B : Build) {m : InterpMethod} (hm : m ≠ .BSPLINE) {xs ys : List K} (ht : Table xs ys)
    {i : Nat} (hi : i + 1 < xs.length) (hi' : i + 1 < ys.length) {x : K} (h0 : xs[i] ≤ x) (h1 : x ≤ xs[i + 1]) :
    ∃ v, interp1d B m xs ys x = .ok v ∧ min ys[i] ys[i + 1] ≤ v ∧ v ≤ max ys[i] ys[i + 1] :=
  ⟨_, C01_piecewise_affine B hm ht hi hi' h0 h1,
    line_bounds (getElem_lt_of_pairwise ht.increasing (Nat.lt_succ_self i) hi) h0 h1⟩

example : ∃ v, interp1d ⟨true⟩ .LINEAR ([0, 1, 3] : List ℚ) ([5, 7, 1] : List ℚ) 2 = .ok v ∧ 1 ≤ v ∧ v ≤ 7 := by
  have := C02_between ⟨true⟩ (m := .LINEAR) (by simp) sampleTable (i := 1) (x := 2) (by simp) (by simp) (by norm_num)
    (by norm_num)
  simpa using this

theorem line_mono {x0 x1 y0 y1 x x' : K} (h01 : x0 < x1) (hy : y0 ≤ y1) (h : x ≤ x') :
    line x0 y0 x1 y1 x ≤ line x0 y0 x1 y1 x' := by
  have hd : 0 < x1 - x0 := sub_pos.mpr h01
  have : (x - x0) / (x1 - x0) ≤ (x' - x0) / (x1 - x0) := div_le_div_of_nonneg_right (by linarith) hd.le
  simp only [line, smul_eq_mul]
  nlinarith [mul_le_mul_of_nonneg_right this (sub_nonneg.mpr hy)]

/-- C02: interpolation of non-decreasing ordinates is non-decreasing. -/
theorem C02_monotone (B : Build) {m : InterpMethod} (hm : m ≠ .BSPLINE) {xs ys : List K} (ht : Table xs ys)
    (hy : ys.Pairwise (· ≤ ·)) {x x' : K}
    (h0 : xs[0]'(by have := ht.two; omega) ≤ x) (hxx : x ≤ x') (h1 : x' ≤ xs[xs.length - 1]'(by have := ht.two; omega)) :
    ∃ v v', interp1d B m xs ys x = .ok v ∧ interp1d B m xs ys x' = .ok v' ∧ v ≤ v' := by
  have hs := ht.sizes
  have hx := ht.increasing
  obtain ⟨i, hi, hi0, hi1⟩ := C01_range_covered ht h0 (le_trans hxx h1)
  obtain ⟨j, hj, hj0, hj1⟩ := C01_range_covered ht (le_trans h0 hxx) h1
  have hyle : ∀ a b (hab : a ≤ b) (hb : b < ys.length), ys[a] ≤ ys[b] := fun a b hab hb => by
    rcases Nat.lt_or_eq_of_le hab with h | h
    · exact (List.pairwise_iff_getElem.mp hy) a b (by omega) hb h
    · subst h; exact le_refl _
  refine ⟨_, _, C01_piecewise_affine B hm ht hi (by omega) hi0 hi1,
    C01_piecewise_affine B hm ht hj (by omega) hj0 hj1, ?_⟩
  have li := getElem_lt_of_pairwise hx (Nat.lt_succ_self i) hi
  have lj := getElem_lt_of_pairwise hx (Nat.lt_succ_self j) hj
  rcases Nat.lt_trichotomy i j with h | h | h
  · have b1 := (line_bounds (y0 := ys[i]) (y1 := ys[i + 1]) li hi0 hi1).2
    have b2 := (line_bounds (y0 := ys[j]) (y1 := ys[j + 1]) lj hj0 hj1).1
    rw [max_eq_right (hyle i (i + 1) (by omega) (by omega))] at b1
    rw [min_eq_left (hyle j (j + 1) (by omega) (by omega))] at b2
    exact le_trans b1 (le_trans (hyle (i + 1) j (by omega) (by omega)) b2)
  · subst h
    exact line_mono li (hyle _ _ (by omega) (by omega)) hxx
  · -- the cell of `x'` is on the left of that of `x`: both points are the shared node
    have e1 : xs[j + 1] ≤ xs[i] := getElem_le_of_pairwise hx (by omega) (by omega)
    have ex : x = xs[i] := le_antisymm (le_trans hxx (le_trans hj1 e1)) hi0
    have ex' : x' = xs[j + 1] := le_antisymm hj1 (le_trans e1 (le_trans hi0 hxx))
    have hle : i ≤ j + 1 := by
      by_contra hc
      have := getElem_lt_of_pairwise hx (show j + 1 < i by omega) (by omega)
      rw [← ex, ← ex'] at this
      exact absurd this (not_lt.mpr hxx)
    have hij : i = j + 1 := by omega
    subst hij
    rw [ex, ex', line_left, line_right (sub_ne_zero.mpr (ne_of_gt lj))]

example : ∃ v v', interp1d ⟨true⟩ .LINEAR_SATURATE ([0, 1, 3] : List ℚ) ([1, 1, 7] : List ℚ) (1 / 2) = .ok v ∧
    interp1d ⟨true⟩ .LINEAR_SATURATE ([0, 1, 3] : List ℚ) ([1, 1, 7] : List ℚ) 2 = .ok v' ∧ v ≤ v' :=
  have t : Table ([0, 1, 3] : List ℚ) ([1, 1, 7] : List ℚ) := ⟨by simp, by simp, rfl⟩
  C02_monotone ⟨true⟩ (by simp) t (by simp) (by norm_num) (by norm_num) (by norm_num)

/-! ## C03 -/

/-- C03: LINEAR exits the process on both sides of the range. -/
theorem C03_linear_exits (B : Build) {xs : List K} {ys : List Y} (ht : Table xs ys) {x : K}
    (h : x < xs[0]'(by have := ht.two; omega) ∨ xs[xs.length - 1]'(by have := ht.two; omega) < x) :
    interp1d B .LINEAR xs ys x = .exits 1 := by
  rw [interp1d_eq B (kind := .linear) rfl ht]
  simp only [eval, privEvalLinear, built, readVar_some, Res.ok_bind]
  rcases h with h | h
  · rw [if_pos h]
  · split
    · rfl
    · rfl

example : interp1d ⟨true⟩ .LINEAR ([0, 1, 3] : List ℚ) ([5, 7, 1] : List ℚ) 4 = .exits 1 :=
  C03_linear_exits ⟨true⟩ sampleTable (Or.inr (by norm_num))

example : interp1d ⟨true⟩ .LINEAR ([0, 1, 3] : List ℚ) ([5, 7, 1] : List ℚ) (-1) = .exits 1 :=
  C03_linear_exits ⟨true⟩ sampleTable (Or.inl (by norm_num))

/-- C03: LINEAR_SATURATE is constant below the range. -/
theorem C03_saturate_left (B : Build) {xs : List K} {ys : List Y} (ht : Table xs ys) {x : K}
    (hx0 : 0 < xs.length) (hy0 : 0 < ys.length) (h : x ≤ xs[0]) : interp1d B .LINEAR_SATURATE xs ys x = .ok ys[0] := by
  rw [← C01_node B (m := .LINEAR_SATURATE) (by simp) ht hx0 hy0]
  simp only [interp1d_eq B (m := .LINEAR_SATURATE) (kind := .saturate) rfl ht]
  have h2 := ht.two
  have hle : xs[0] ≤ xs[xs.length - 1] := getElem_le_of_pairwise ht.increasing (by omega) (by omega)
  simp only [eval, privEvalSaturate, built, readVar_some, Res.ok_bind]
  congr 1
  rcases lt_or_eq_of_le h with h | h
  · simp [h, not_lt.mpr hle]
  · simp [h, not_lt.mpr hle]

/-- C03: LINEAR_SATURATE is constant above the range. -/
theorem C03_saturate_right (B : Build) {xs : List K} {ys : List Y} (ht : Table xs ys) {x : K}
    (hx0 : xs.length - 1 < xs.length) (hy0 : ys.length - 1 < ys.length) (h : xs[xs.length - 1] ≤ x) :
    interp1d B .LINEAR_SATURATE xs ys x = .ok ys[ys.length - 1] := by
  have h2 := ht.two
  have hs := ht.sizes
  have := C01_node B (m := .LINEAR_SATURATE) (by simp) ht (i := xs.length - 1) (by omega) (by omega)
  simp only [hs] at this
  rw [← this]
  simp only [interp1d_eq B (m := .LINEAR_SATURATE) (kind := .saturate) rfl ht]
  have hle : xs[0] < xs[xs.length - 1] := getElem_lt_of_pairwise ht.increasing (by omega) (by omega)
  simp only [eval, privEvalSaturate, built, readVar_some, Res.ok_bind]
  congr 1
  have hnl : ¬ x < xs[0] := not_lt.mpr (le_trans hle.le h)
  simp only [hs] at *
  rcases lt_or_eq_of_le h with h | h
  · simp [h, hnl, not_lt.mpr hle.le]
  · simp [← h, not_lt.mpr hle.le]

example : interp1d ⟨true⟩ .LINEAR_SATURATE ([0, 1, 3] : List ℚ) ([5, 7, 1] : List ℚ) (-8) = .ok 5 :=
  C03_saturate_left ⟨true⟩ sampleTable (by simp) (by simp) (by norm_num)

example : interp1d ⟨true⟩ .LINEAR_SATURATE ([0, 1, 3] : List ℚ) ([5, 7, 1] : List ℚ) 100 = .ok 1 :=
  C03_saturate_right ⟨true⟩ sampleTable (by simp) (by simp) (by norm_num)

/-- C03: LINEAR_SATURATE never fails. -/
theorem C03_saturate_total (B : Build) {xs : List K} {ys : List Y} (ht : Table xs ys) (x : K) :
    ∃ v, interp1d B .LINEAR_SATURATE xs ys x = .ok v := by
  have h2 := ht.two
  have hs := ht.sizes
  rcases le_total x (xs[0]'(by omega)) with h | h
  · exact ⟨_, C03_saturate_left B ht (by omega) (by omega) h⟩
  rcases le_total (xs[xs.length - 1]'(by omega)) x with h' | h'
  · exact ⟨_, C03_saturate_right B ht (by omega) (by omega) h'⟩
  obtain ⟨i, hi, hi0, hi1⟩ := C01_range_covered ht h h'
  exact ⟨_, C01_piecewise_affine B (by simp) ht hi (by omega) hi0 hi1⟩

/-! ## C04 -/

/-- C04 (left side only): LINEAR_EXTRAPOLATE extends the first segment. The right side is false, see below. -/
theorem C04_extrapolate_left_partial (B : Build) {xs : List K} {ys : List Y} (ht : Table xs ys) {x : K}
    (hx : 1 < xs.length) (hy : 1 < ys.length) (h : x < xs[0]) :
    interp1d B .LINEAR_EXTRAPOLATE xs ys x = .ok (line xs[0] ys[0] xs[1] ys[1] x) := by
  rw [interp1d_eq B (kind := .extrapolate) rfl ht]
  obtain ⟨k, hk, hkl, hsp⟩ := exists_lowerBound ht.increasing x
  have hk0 : k = 0 := by
    by_contra hc
    exact absurd ((hsp 0 (by omega)).mp (by omega)) (not_lt.mpr h.le)
  subst hk0
  simp only [eval, privEvalExtrapolate]
  rw [privEvalBase_built _ _ rfl rfl x 0 hk (by omega) (by omega)]
  rw [line_eq hx ht.sizes (sub_ne_zero.mpr (ne_of_gt (getElem_lt_of_pairwise ht.increasing (by omega) hx)))]

example : interp1d ⟨true⟩ .LINEAR_EXTRAPOLATE ([0, 1, 3] : List ℚ) ([5, 7, 1] : List ℚ) (-2) = .ok 1 := by
  rw [C04_extrapolate_left_partial ⟨true⟩ sampleTable (by simp) (by simp) (by norm_num)]
  norm_num [line]

/-- C04 is false on the right of the range: for every table and every `x > xmax`, LINEAR_EXTRAPOLATE throws `std::out_of_range`. -/
theorem C04_right_extrapolation_throws (B : Build) {xs : List K} {ys : List Y} (ht : Table xs ys) {x : K}
    (h : xs[xs.length - 1]'(by have := ht.two; omega) < x) :
    interp1d B .LINEAR_EXTRAPOLATE xs ys x = .throws .outOfRange := by
  have h2 := ht.two
  rw [interp1d_eq B (kind := .extrapolate) rfl ht]
  obtain ⟨k, hk, hkl, hsp⟩ := exists_lowerBound ht.increasing x
  have hk0 : k = xs.length := by
    have := (hsp (xs.length - 1) (by omega)).mpr h
    omega
  subst hk0
  have e : (if xs.length = 0 then 1 else xs.length) - 1 = xs.length - 1 := by split <;> omega
  simp only [eval, privEvalExtrapolate, privEvalBase, built, deref_some, Res.ok_bind, hk]
  rw [e, vAt_ge (by simp [fresh])]
  rfl

/-- The full statement of C04 is refuted. -/
theorem C04_refuted : ¬ (∀ (xs ys : List ℚ) (x : ℚ) (n : Nat) (_ : Table xs ys) (hx : n + 2 = xs.length) (hy : n + 2 = ys.length),
    xs[n + 1] < x →
    interp1d ⟨true⟩ .LINEAR_EXTRAPOLATE xs ys x = .ok (line xs[n] ys[n] xs[n + 1] ys[n + 1] x)) := by
  intro h
  have h1 := h [0, 1, 3] [5, 7, 1] 4 1 sampleTable rfl rfl (by norm_num)
  rw [C04_right_extrapolation_throws ⟨true⟩ sampleTable (by norm_num)] at h1
  cases h1

/-! ## C05 -/

/-- The coefficients of all tables given so far pile up in the object. -/
theorem run_initAll (B : Build) (hist : List (List K × List Y)) (hh : ∀ t ∈ hist, Table t.1 t.2) (s : Interp1d K Y)
    (xs : List K) (ys : List Y) (ht : Table xs ys) :
    ∃ sa sb, (initAll B (hist ++ [(xs, ys)])).run s =
      (.ok (), built ⟨none, none, 0, none, none, s.a ++ sa, s.b ++ sb⟩ xs ys (by have := ht.two; omega) (xs.length - 1)) ∧
      ∀ x1 y1 rest, hist = (x1, y1) :: rest → (∃ ra, sa = (List.range (x1.length - 1)).map (slope x1 y1) ++ ra) ∧
        ∃ rb, sb = (List.range (x1.length - 1)).map (icept x1 y1) ++ rb := by
  induction hist generalizing s with
  | nil =>
    refine ⟨[], [], ?_, by simp⟩
    simp only [List.nil_append, initAll]
    rw [Act.run_bind_ok (run_init B (by have := ht.two; omega) ht.sizes ht.increasing s)]
    simp [built]
  | cons t hist ih =>
    obtain ⟨x1, y1⟩ := t
    have ht1 : Table x1 y1 := hh (x1, y1) (by simp)
    obtain ⟨sa, sb, hrun, -⟩ := ih (fun t h => hh t (by simp [h]))
      (built s x1 y1 (by have := ht1.two; omega) (x1.length - 1))
    refine ⟨(List.range (x1.length - 1)).map (slope x1 y1) ++ sa, (List.range (x1.length - 1)).map (icept x1 y1) ++ sb, ?_, ?_⟩
    · simp only [List.cons_append, initAll]
      rw [Act.run_bind_ok (run_init B (by have := ht1.two; omega) ht1.sizes ht1.increasing s), hrun]
      simp [built]
    · intro x1' y1' rest he
      simp only [List.cons.injEq, Prod.mk.injEq] at he
      obtain ⟨⟨rfl, rfl⟩, -⟩ := he
      exact ⟨⟨sa, rfl⟩, ⟨sb, rfl⟩⟩

/-- What re-initialisation really does: as soon as the object has been initialised once with `(x1, y1)`, after any further
initialisations ending with `(xs, ys)`, evaluation at a point of cell `i` of the LAST table uses segment `i` of the FIRST one
(when it has such a segment). -/
theorem C05_first_table_survives (B : Build) {m : InterpMethod} (hm : m ≠ .BSPLINE) {x1 : List K} {y1 : List Y} (ht1 : Table x1 y1)
    (hist : List (List K × List Y)) (hh : ∀ t ∈ hist, Table t.1 t.2) {xs : List K} {ys : List Y} (ht : Table xs ys)
    {i : Nat} (hi : i + 1 < xs.length) (hi1 : i + 1 < x1.length) (hi2 : i + 1 < y1.length) {x : K}
    (h0 : xs[i] < x) (h1 : x ≤ xs[i + 1]) :
    interp1dHist B m ((x1, y1) :: hist ++ [(xs, ys)]) x = .ok (line x1[i] y1[i] x1[i + 1] y1[i + 1] x) := by
  obtain ⟨kind, hk⟩ := make_ok hm
  obtain ⟨sa, sb, hrun, hfirst⟩ := run_initAll B ((x1, y1) :: hist)
    (by intro t h; rcases List.mem_cons.mp h with h | h; exacts [h ▸ ht1, hh t h]) (fresh K Y) xs ys ht
  obtain ⟨⟨ra, rfl⟩, ⟨rb, rfl⟩⟩ := hfirst x1 y1 hist rfl
  have hr := range_of_cell ht.increasing hi h0.le h1
  simp only [interp1dHist, hk, Res.ok_bind, hrun]
  rw [eval_range kind _ _ _ hr.1 hr.2]
  obtain ⟨k, hk, hc⟩ := lowerBound_cell ht.increasing hi h0.le h1
  have hki : k = i + 1 := by
    rcases hc with h | h
    · exact h
    · exact absurd h.2 (ne_of_gt h0)
  subst hki
  simp only [privEvalBase, built, deref_some, Res.ok_bind, hk, fresh, List.nil_append]
  rw [vAt_lt (by simp; omega), vAt_lt (by simp; omega)]
  simp only [Res.ok_bind, Res.pure_eq]
  congr 1
  rw [← line_eq hi1 ht1.sizes (sub_ne_zero.mpr (ne_of_gt (getElem_lt_of_pairwise ht1.increasing (by omega) hi1)))]
  simp [show i < x1.length - 1 by omega]

/-- C05 (only for the same data): initialising any number of times with the same table is harmless. -/
theorem C05_same_data_partial (B : Build) {m : InterpMethod} (hm : m ≠ .BSPLINE) {xs : List K} {ys : List Y} (ht : Table xs ys)
    (n : Nat) {i : Nat} (hi : i + 1 < xs.length) (hi' : i + 1 < ys.length) {x : K} (h0 : xs[i] < x) (h1 : x ≤ xs[i + 1]) :
    interp1dHist B m (List.replicate (n + 2) (xs, ys)) x = .ok (line xs[i] ys[i] xs[i + 1] ys[i + 1] x) := by
  have := C05_first_table_survives B hm ht (List.replicate n (xs, ys))
    (by intro t h; rw [List.eq_of_mem_replicate h]; exact ht) ht hi hi hi' h0 h1
  rw [← this]
  congr 1
  rw [List.replicate_succ, List.replicate_succ', List.cons_append]

/-- C05 is false: an interpolator initialised again with other ordinates still returns the old ones. -/
theorem C05_refuted : ¬ (∀ (hist : List (List ℚ × List ℚ)) (xs ys : List ℚ) (i : Nat) (x : ℚ) (_ : Table xs ys)
    (hi : i + 1 < xs.length) (hi' : i + 1 < ys.length), (∀ t ∈ hist, Table t.1 t.2) → xs[i] ≤ x → x ≤ xs[i + 1] →
    interp1dHist ⟨true⟩ .LINEAR (hist ++ [(xs, ys)]) x = .ok (line xs[i] ys[i] xs[i + 1] ys[i + 1] x)) := by
  intro h
  have t1 : Table ([0, 1] : List ℚ) ([0, 0] : List ℚ) := ⟨by simp, by simp, rfl⟩
  have t2 : Table ([0, 1] : List ℚ) ([0, 1] : List ℚ) := ⟨by simp, by simp, rfl⟩
  have h1 := h [([0, 1], [0, 0])] [0, 1] [0, 1] 0 1 t2 (by simp) (by simp) (by simpa using t1) (by norm_num) (by norm_num)
  have h2 := C05_first_table_survives ⟨true⟩ (m := .LINEAR) (by simp) t1 [] (by simp) t2 (i := 0) (x := (1 : ℚ)) (by simp) (by simp)
    (by simp) (by norm_num) (by norm_num)
  rw [List.cons_append, List.nil_append] at h1 h2
  rw [h1] at h2
  norm_num [line] at h2

/-! ## C06 -/

/-- C06: if all scalar evaluations return, the vector evaluation returns the vector of their values, of the same length. -/
theorem C06_elementwise (kind : Interp1dKind) (s : Interp1d K Y) (xv : List K) (ys : List Y) (hl : xv.length = ys.length)
    (h : ∀ i (h1 : i < xv.length) (h2 : i < ys.length), eval kind s xv[i] = .ok ys[i]) :
    evalVec kind s xv = .ok ys := by
  have := forRange_ok (lo := 0) (hi := xv.length) (Nat.zero_le _) (fun i => ys.take i)
    (f := fun i out => do
      let xi ← vIdx xv i
      let y ← eval kind s xi
      return out ++ [y])
    (by
      intro i _ hi
      have hi' : i < ys.length := by omega
      simp only [vIdx_lt hi, Res.ok_bind, h i hi hi', Res.pure_eq]
      rw [List.take_add_one, List.getElem?_eq_getElem hi']; rfl)
  simp only [List.take_zero, hl, List.take_length] at this
  rw [evalVec, hl]
  exact this

/-- C06: the vector evaluation fails exactly as the first failing scalar evaluation. -/
theorem C06_first_failure (kind : Interp1dKind) (s : Interp1d K Y) (xv : List K) (n : Nat) (hn : n < xv.length)
    (hok : ∀ i (hi : i < n), (eval kind s xv[i]).isOk = true) (hf : (eval kind s xv[n]).isOk = false) :
    (eval kind s xv[n]).SameFailure (evalVec kind s xv) := by
  unfold evalVec forRange
  have key : ∀ (lo : Nat) (out : List Y), lo ≤ n → (eval kind s xv[n]).SameFailure
      (forN (xv.length - lo) lo (fun i out => do
        let xi ← vIdx xv i
        let y ← eval kind s xi
        return out ++ [y]) out) := by
    intro lo
    induction hd : n - lo generalizing lo with
    | zero =>
      intro out hlo
      have : lo = n := by omega
      subst this
      rw [show xv.length - lo = (xv.length - lo - 1) + 1 by omega, forN, vIdx_lt hn, Res.ok_bind, bind_assoc]
      exact Res.sameFailure_bind hf _
    | succ d ih =>
      intro out hlo
      have hlt : lo < n := by omega
      rw [show xv.length - lo = (xv.length - (lo + 1)) + 1 by omega, forN, vIdx_lt (by omega), Res.ok_bind]
      have hk := hok lo hlt
      cases hv : eval kind s xv[lo] with
      | ok v =>
        simp only [Res.ok_bind, Res.pure_eq]
        exact ih (lo + 1) (by omega) _ (by omega)
      | _ => rw [hv] at hk; simp [Res.isOk] at hk
  exact key 0 [] (Nat.zero_le _)

example : evalVec .saturate (built (fresh ℚ ℚ) [0, 1, 3] [5, 7, 1] (by simp) 2) [-1, 1, 9] = .ok [5, 7, 1] := by
  have hb := fun x => interp1d_eq ⟨true⟩ (m := .LINEAR_SATURATE) (kind := .saturate) rfl sampleTable x
  refine C06_elementwise _ _ _ _ rfl ?_
  intro i h1 h2
  match i, h1 with
  | 0, _ => exact (hb _).symm.trans (C03_saturate_left ⟨true⟩ sampleTable (by simp) (by simp) (by norm_num))
  | 1, _ => exact (hb _).symm.trans (C01_node ⟨true⟩ (by simp) sampleTable (i := 1) (by simp) (by simp))
  | 2, _ => exact (hb _).symm.trans (C03_saturate_right ⟨true⟩ sampleTable (by simp) (by simp) (by norm_num))

example : (Res.exits 1 : Res ℚ).SameFailure
    (evalVec .linear (built (fresh ℚ ℚ) [0, 1, 3] [5, 7, 1] (by simp) 2) [1, 9, 2]) := by
  have hb := fun x => interp1d_eq ⟨true⟩ (m := .LINEAR) (kind := .linear) rfl sampleTable x
  have e1 := (hb _).symm.trans (C01_node ⟨true⟩ (by simp) sampleTable (i := 1) (by simp) (by simp))
  have e2 := (hb 9).symm.trans (C03_linear_exits ⟨true⟩ sampleTable (Or.inr (by norm_num)))
  have := C06_first_failure .linear (built (fresh ℚ ℚ) [0, 1, 3] [5, 7, 1] (by simp) 2) [1, 9, 2] 1 (by simp)
    (by
      intro i hi
      obtain rfl : i = 0 := by omega
      exact congrArg Res.isOk e1)
    (congrArg Res.isOk e2)
  simp only [List.getElem_cons_succ, List.getElem_cons_zero] at this
  rwa [show eval .linear (built (fresh ℚ ℚ) [0, 1, 3] [5, 7, 1] (by simp) 2) 9 = .exits 1 from e2] at this

/-! ## C07 -/

/-- C07: interpolation is linear in the ordinates. -/
theorem C07_linear (B : Build) {m : InterpMethod} (hm : m ≠ .BSPLINE) {xs : List K} {ys zs : List Y} (hty : Table xs ys)
    (htz : Table xs zs) (a b : K) {x : K}
    (h0 : xs[0]'(by have := hty.two; omega) ≤ x) (h1 : x ≤ xs[xs.length - 1]'(by have := hty.two; omega)) :
    ∃ v w, interp1d B m xs ys x = .ok v ∧ interp1d B m xs zs x = .ok w ∧
      interp1d B m xs (List.zipWith (fun y z => a • y + b • z) ys zs) x = .ok (a • v + b • w) := by
  obtain ⟨i, hi, hi0, hi1⟩ := C01_range_covered hty h0 h1
  have hsy := hty.sizes
  have hsz := htz.sizes
  have htw : Table xs (List.zipWith (fun y z => a • y + b • z) ys zs) :=
    ⟨hty.two, hty.increasing, by simp; omega⟩
  refine ⟨_, _, C01_piecewise_affine B hm hty hi (by omega) hi0 hi1, C01_piecewise_affine B hm htz hi (by omega) hi0 hi1, ?_⟩
  rw [C01_piecewise_affine B hm htw hi (by simp; omega) hi0 hi1]
  simp only [List.getElem_zipWith, line]
  congr 1
  module

/-- C07: data sampled from an affine function `p + x • q` are reproduced exactly. -/
theorem C07_affine (B : Build) {m : InterpMethod} (hm : m ≠ .BSPLINE) {xs : List K} (h2 : 2 ≤ xs.length) (hx : xs.Pairwise (· < ·))
    (p q : Y) {x : K} (h0 : xs[0] ≤ x) (h1 : x ≤ xs[xs.length - 1]) :
    interp1d B m xs (xs.map (fun t => p + t • q)) x = .ok (p + x • q) := by
  have ht : Table xs (xs.map (fun t => p + t • q)) := ⟨h2, hx, by simp⟩
  obtain ⟨i, hi, hi0, hi1⟩ := C01_range_covered ht h0 h1
  rw [C01_piecewise_affine B hm ht hi (by simpa using hi) hi0 hi1]
  have hd : xs[i + 1] - xs[i] ≠ 0 := sub_ne_zero.mpr (ne_of_gt (getElem_lt_of_pairwise hx (Nat.lt_succ_self i) hi))
  simp only [List.getElem_map, line]
  congr 1
  match_scalars
  · ring
  · field_simp; ring

example : interp1d ⟨true⟩ .LINEAR ([0, 1, 3] : List ℚ) ([2, 5, 11] : List ℚ) (5 / 2) = .ok (19 / 2) := by
  have := C07_affine ⟨true⟩ (m := .LINEAR) (by simp) (xs := ([0, 1, 3] : List ℚ)) (by simp) (by simp) (2 : ℚ) 3
    (x := 5 / 2) (by norm_num) (by norm_num)
  norm_num at this
  exact this

end MU
