import Verif.Props.Agreement
import Mathlib.Analysis.Convex.SpecificFunctions.Basic
import Mathlib.Analysis.Convex.Continuous
import Mathlib.Tactic.IntervalCases

set_option linter.unusedSectionVars false

/-! C121: the interpolant and the trapezoid rule keep convexity. -/

namespace MU
open Spec

namespace Spec

/-- The slopes of the segments of a table do not decrease. -/
def ConvexData {K : Type} [Field K] [LinearOrder K] (xs ys : List K) : Prop :=
  ∀ i (hi : i + 2 < xs.length) (hi' : i + 2 < ys.length),
    (ys[i + 1] - ys[i]) / (xs[i + 1] - xs[i]) ≤ (ys[i + 2] - ys[i + 1]) / (xs[i + 2] - xs[i + 1])

/-- The slopes of the segments of a table do not increase. -/
def ConcaveData {K : Type} [Field K] [LinearOrder K] (xs ys : List K) : Prop :=
  ∀ i (hi : i + 2 < xs.length) (hi' : i + 2 < ys.length),
    (ys[i + 2] - ys[i + 1]) / (xs[i + 2] - xs[i + 1]) ≤ (ys[i + 1] - ys[i]) / (xs[i + 1] - xs[i])

end Spec

variable {K : Type} [Field K] [LinearOrder K] [IsStrictOrderedRing K]

theorem line_slope_left (a u b v t : K) : line a u b v t = u + (v - u) / (b - a) * (t - a) := by
  simp only [line, smul_eq_mul]
  ring

theorem line_slope_right {a b : K} (h : a < b) (u v t : K) : line a u b v t = v + (v - u) / (b - a) * (t - b) := by
  have : b - a ≠ 0 := by linarith
  simp only [line, smul_eq_mul]
  field_simp
  ring

/-- On convex data the line of a cell lies below the lines of the cells of the point, to the right. -/
theorem convex_line_right {xs ys : List K} (ht : Table xs ys) (hc : ConvexData xs ys) (j d : Nat) (hj : j + d + 1 < xs.length) (hj' : j + d + 1 < ys.length)
    {t : K} (h : xs[j + d] ≤ t) :
    line xs[j] ys[j] xs[j + 1] ys[j + 1] t ≤ line xs[j + d] ys[j + d] xs[j + d + 1] ys[j + d + 1] t := by
  induction d with
  | zero => exact le_refl _
  | succ d ih =>
    have hm : xs[j + d] ≤ xs[j + (d + 1)] := getElem_le_of_pairwise ht.increasing (by omega) (by omega)
    refine (ih (by omega) (by omega) (hm.trans h)).trans ?_
    have h1 : xs[j + d] < xs[j + d + 1] := getElem_lt_of_pairwise ht.increasing (by omega) (by omega)
    rw [line_slope_right h1]
    refine le_trans ?_ (line_slope_left _ _ _ _ _).ge
    have := mul_le_mul_of_nonneg_right (hc (j + d) (by omega) (by omega)) (sub_nonneg.2 h)
    exact add_le_add (le_refl _) this

theorem convex_line_left {xs ys : List K} (ht : Table xs ys) (hc : ConvexData xs ys) (j d : Nat) (hj : j + d + 1 < xs.length) (hj' : j + d + 1 < ys.length)
    {t : K} (h : t ≤ xs[j + 1]) :
    line xs[j + d] ys[j + d] xs[j + d + 1] ys[j + d + 1] t ≤ line xs[j] ys[j] xs[j + 1] ys[j + 1] t := by
  induction d with
  | zero => exact le_refl _
  | succ d ih =>
    refine le_trans ?_ (ih (by omega) (by omega) h)
    have hm : xs[j + 1] ≤ xs[j + d + 1] := getElem_le_of_pairwise ht.increasing (by omega) (by omega)
    have h1 : xs[j + d] < xs[j + d + 1] := getElem_lt_of_pairwise ht.increasing (by omega) (by omega)
    rw [line_slope_right h1]
    refine le_trans (line_slope_left _ _ _ _ _).le ?_
    have := mul_le_mul_of_nonpos_right (hc (j + d) (by omega) (by omega)) (sub_nonpos.2 (h.trans hm))
    exact add_le_add (le_refl _) this

/-- On convex data the line of every cell lies below the interpolant. -/
theorem convex_line {xs ys : List K} (ht : Table xs ys) (hc : ConvexData xs ys) {j k : Nat} (hj : j + 1 < xs.length) (hj' : j + 1 < ys.length)
    (hk : k + 1 < xs.length) (hk' : k + 1 < ys.length) {t : K} (h0 : xs[k] ≤ t) (h1 : t ≤ xs[k + 1]) :
    line xs[j] ys[j] xs[j + 1] ys[j + 1] t ≤ line xs[k] ys[k] xs[k + 1] ys[k + 1] t := by
  rcases le_total j k with h | h
  · obtain ⟨d, rfl⟩ := Nat.exists_eq_add_of_le h
    exact convex_line_right ht hc j d hk hk' h0
  · obtain ⟨d, rfl⟩ := Nat.exists_eq_add_of_le h
    exact convex_line_left ht hc k d hj hj' h1

theorem line_comb (a u b v s t l : K) : line a u b v ((1 - l) * s + l * t) = (1 - l) * line a u b v s + l * line a u b v t := by
  simp only [line, smul_eq_mul]
  ring

/-- C121: the interpolant of convex data is convex in the range. -/
theorem C121_convex (B : Build) {m : InterpMethod} (hm : m ≠ .BSPLINE) {xs ys : List K} (ht : Table xs ys) (hc : ConvexData xs ys) {s t l : K}
    (hs0 : xs[0]'(by have := ht.two; omega) ≤ s) (hs1 : s ≤ xs[xs.length - 1]'(by have := ht.two; omega))
    (ht0 : xs[0]'(by have := ht.two; omega) ≤ t) (ht1 : t ≤ xs[xs.length - 1]'(by have := ht.two; omega)) (hl0 : 0 ≤ l) (hl1 : l ≤ 1) :
    ∃ vs vt v, interp1d B m xs ys s = .ok vs ∧ interp1d B m xs ys t = .ok vt ∧ interp1d B m xs ys ((1 - l) * s + l * t) = .ok v ∧
      v ≤ (1 - l) * vs + l * vt := by
  have h2 := ht.two
  have hsz := ht.sizes
  have hl1' : 0 ≤ 1 - l := sub_nonneg.2 hl1
  obtain ⟨i, hi, ha, hb⟩ := Interp1d.exists_cell ht.increasing ht.two hs0 hs1
  obtain ⟨j, hj, hja, hjb⟩ := Interp1d.exists_cell ht.increasing ht.two ht0 ht1
  have hu0 : xs[0]'(by omega) ≤ (1 - l) * s + l * t := by
    have := add_le_add (mul_le_mul_of_nonneg_left hs0 hl1') (mul_le_mul_of_nonneg_left ht0 hl0)
    linarith
  have hu1 : (1 - l) * s + l * t ≤ xs[xs.length - 1]'(by omega) := by
    have := add_le_add (mul_le_mul_of_nonneg_left hs1 hl1') (mul_le_mul_of_nonneg_left ht1 hl0)
    linarith
  obtain ⟨k, hk, hka, hkb⟩ := Interp1d.exists_cell ht.increasing ht.two hu0 hu1
  refine ⟨_, _, _, C01_piecewise_affine B hm ht hi (by omega) ha hb, C01_piecewise_affine B hm ht hj (by omega) hja hjb,
    C01_piecewise_affine B hm ht hk (by omega) hka hkb, ?_⟩
  rw [line_comb]
  exact add_le_add (mul_le_mul_of_nonneg_left (convex_line ht hc hk (by omega) hi (by omega) ha hb) hl1')
    (mul_le_mul_of_nonneg_left (convex_line ht hc hk (by omega) hj (by omega) hja hjb) hl0)

/-- C121: the interpolant of concave data is concave in the range. -/
theorem C121_concave (B : Build) {m : InterpMethod} (hm : m ≠ .BSPLINE) {xs ys : List K} (ht : Table xs ys) (hc : ConcaveData xs ys) {s t l : K}
    (hs0 : xs[0]'(by have := ht.two; omega) ≤ s) (hs1 : s ≤ xs[xs.length - 1]'(by have := ht.two; omega))
    (ht0 : xs[0]'(by have := ht.two; omega) ≤ t) (ht1 : t ≤ xs[xs.length - 1]'(by have := ht.two; omega)) (hl0 : 0 ≤ l) (hl1 : l ≤ 1) :
    ∃ vs vt v, interp1d B m xs ys s = .ok vs ∧ interp1d B m xs ys t = .ok vt ∧ interp1d B m xs ys ((1 - l) * s + l * t) = .ok v ∧
      (1 - l) * vs + l * vt ≤ v := by
  have hn : Table xs (ys.map (fun y => -y)) := ⟨ht.two, ht.increasing, by simpa using ht.sizes⟩
  have hcn : ConvexData xs (ys.map (fun y => -y)) := fun i hi hi' => by
    simp only [List.length_map] at hi'
    have := hc i hi hi'
    simp only [List.getElem_map]
    rw [show -ys[i + 1] - -ys[i] = -(ys[i + 1] - ys[i]) by ring, show -ys[i + 2] - -ys[i + 1] = -(ys[i + 2] - ys[i + 1]) by ring, neg_div, neg_div]
    exact neg_le_neg this
  have hneg : ∀ {u w : K}, xs[0]'(by have := ht.two; omega) ≤ u → u ≤ xs[xs.length - 1]'(by have := ht.two; omega) →
      interp1d B m xs (ys.map (fun y => -y)) u = .ok w → interp1d B m xs ys u = .ok (-w) := fun {u w} h0 h1 hw => by
    obtain ⟨i, hi, ha, hb⟩ := Interp1d.exists_cell ht.increasing ht.two h0 h1
    have hsz := ht.sizes
    rw [C01_piecewise_affine B hm hn hi (by simp; omega) ha hb] at hw
    rw [C01_piecewise_affine B hm ht hi (by omega) ha hb, ← Res.ok.inj hw]
    congr 1
    simp only [line, smul_eq_mul, List.getElem_map]
    ring
  obtain ⟨vs, vt, v, h1, h2, h3, h4⟩ := C121_convex B hm hn hcn hs0 hs1 ht0 ht1 hl0 hl1
  have hl1' : 0 ≤ 1 - l := sub_nonneg.2 hl1
  refine ⟨_, _, _, hneg hs0 hs1 h1, hneg ht0 ht1 h2, hneg ?_ ?_ h3, by linarith⟩
  · have := add_le_add (mul_le_mul_of_nonneg_left hs0 hl1') (mul_le_mul_of_nonneg_left ht0 hl0)
    linarith
  · have := add_le_add (mul_le_mul_of_nonneg_left hs1 hl1') (mul_le_mul_of_nonneg_left ht1 hl0)
    linarith

/-- The samples of a convex function are convex data. -/
theorem C121_samples {xs : List ℝ} (h2 : 2 ≤ xs.length) (hx : xs.Pairwise (· < ·)) {f : ℝ → ℝ}
    (hf : ConvexOn ℝ (Set.Icc (xs[0]'(by omega)) (xs[xs.length - 1]'(by omega))) f) : ConvexData xs (xs.map f) := by
  intro i hi hi'
  simp only [List.getElem_map]
  have hm : ∀ k (hk : k < xs.length), xs[k] ∈ Set.Icc (xs[0]'(by omega)) (xs[xs.length - 1]'(by omega)) := fun k hk =>
    ⟨getElem_le_of_pairwise hx (by omega) hk, getElem_le_of_pairwise hx (by omega) (by omega)⟩
  exact hf.slope_mono_adjacent (hm i (by omega)) (hm (i + 2) hi) (getElem_lt_of_pairwise hx (by omega) (by omega))
    (getElem_lt_of_pairwise hx (by omega) (by omega))

/-- C121: the interpolant of a convex function lies above it. -/
theorem C121_above (B : Build) {m : InterpMethod} (hm : m ≠ .BSPLINE) {xs : List ℝ} (h2 : 2 ≤ xs.length) (hx : xs.Pairwise (· < ·)) {f : ℝ → ℝ}
    (hf : ConvexOn ℝ (Set.Icc (xs[0]'(by omega)) (xs[xs.length - 1]'(by omega))) f) {x : ℝ} (h0 : xs[0]'(by omega) ≤ x)
    (h1 : x ≤ xs[xs.length - 1]'(by omega)) : ∃ v, interp1d B m xs (xs.map f) x = .ok v ∧ f x ≤ v := by
  have ht : Table xs (xs.map f) := ⟨h2, hx, by simp⟩
  obtain ⟨i, hi, ha, hb⟩ := Interp1d.exists_cell hx h2 h0 h1
  refine ⟨_, C01_piecewise_affine B hm ht hi (by simpa using hi) ha hb, ?_⟩
  simp only [List.getElem_map]
  refine le_line_of_convexOn (getElem_lt_of_pairwise hx (by omega) (by omega)) (hf.subset (Set.Icc_subset_Icc ?_ ?_) (convex_Icc _ _)) ha hb
  · exact getElem_le_of_pairwise hx (by omega) (by omega)
  · exact getElem_le_of_pairwise hx (by omega) (by omega)

/-- A convex function on a segment is integrable, although it may jump at the ends. -/
theorem convexOn_intervalIntegrable {f : ℝ → ℝ} {a b : ℝ} (hab : a < b) (hf : ConvexOn ℝ (Set.Icc a b) f) :
    IntervalIntegrable f MeasureTheory.volume a b := by
  rw [intervalIntegrable_iff_integrableOn_Ioo_of_le hab.le]
  have ha : a ∈ Set.Icc a b := ⟨le_rfl, hab.le⟩
  have hb : b ∈ Set.Icc a b := ⟨hab.le, le_rfl⟩
  have hup : ∀ t ∈ Set.Icc a b, f t ≤ max (f a) (f b) := fun t ht => hf.le_max_of_mem_Icc ha hb ht
  have hlo : ∀ t ∈ Set.Icc a b, 2 * f ((a + b) / 2) - max (f a) (f b) ≤ f t := fun t ht => by
    have ht' : a + b - t ∈ Set.Icc a b := ⟨by linarith [ht.2], by linarith [ht.1]⟩
    have h1 := hf.2 ht ht' (show (0 : ℝ) ≤ 1 / 2 by norm_num) (show (0 : ℝ) ≤ 1 / 2 by norm_num) (by norm_num)
    have e : (1 / 2 : ℝ) • t + (1 / 2 : ℝ) • (a + b - t) = (a + b) / 2 := by simp only [smul_eq_mul]; ring
    rw [e] at h1
    simp only [smul_eq_mul] at h1
    have h2 := hup _ ht'
    linarith
  have hc : ContinuousOn f (Set.Ioo a b) := by
    have := hf.continuousOn_interior
    rwa [interior_Icc] at this
  refine ⟨hc.aestronglyMeasurable measurableSet_Ioo,
    .restrict_of_bounded (C := |max (f a) (f b)| + |2 * f ((a + b) / 2) - max (f a) (f b)|) (by simp) ?_⟩
  refine (MeasureTheory.ae_restrict_iff' measurableSet_Ioo).2 (Filter.Eventually.of_forall fun t ht => ?_)
  have ht : t ∈ Set.Icc a b := Set.Ioo_subset_Icc_self ht
  have h1 := hup t ht
  have h2 := hlo t ht
  rw [Real.norm_eq_abs, abs_le]
  exact ⟨by linarith [neg_abs_le (2 * f ((a + b) / 2) - max (f a) (f b)), abs_nonneg (max (f a) (f b))],
    by linarith [le_abs_self (max (f a) (f b)), abs_nonneg (2 * f ((a + b) / 2) - max (f a) (f b))]⟩

theorem panels_convex {f : ℝ → ℝ} (x : Nat → ℝ) (n : Nat) (hx : ∀ i, i < n → x i < x (i + 1)) (hf : ∀ i, i < n → ConvexOn ℝ (Set.Icc (x i) (x (i + 1))) f) :
    ∫ t in x 0..x n, f t ≤ panels n x (fun i => f (x i)) := by
  have hint : ∀ i, i < n → IntervalIntegrable f MeasureTheory.volume (x i) (x (i + 1)) := fun i hi =>
    convexOn_intervalIntegrable (hx i hi) (hf i hi)
  rw [← intervalIntegral.sum_integral_adjacent_intervals hint, panels]
  refine Finset.sum_le_sum (fun i hi => ?_)
  have hi := Finset.mem_range.1 hi
  rw [show (x (i + 1) - x i) * (f (x i) + f (x (i + 1))) / 2 = ∫ t in x i..x (i + 1), line (x i) (f (x i)) (x (i + 1)) (f (x (i + 1))) t from
    (integral_line (hx i hi)).symm]
  exact intervalIntegral.integral_mono_on (hx i hi).le (hint i hi) (continuous_line.intervalIntegrable _ _)
    (fun t ht => le_line_of_convexOn (hx i hi) (hf i hi) ht.1 ht.2)

/-- C121: the trapezoid rule does not underestimate the integral of a convex function. -/
theorem C121_trapz (B : Build) {xs : List ℝ} (h2 : 2 ≤ xs.length) (h64 : xs.length < 2 ^ 64) (hx : xs.Pairwise (· < ·)) {f : ℝ → ℝ}
    (hf : ConvexOn ℝ (Set.Icc (xs[0]'(by omega)) (xs[xs.length - 1]'(by omega))) f) :
    ∃ v, trapz B xs (xs.map f) = .ok v ∧ ∫ t in (xs[0]'(by omega))..(xs[xs.length - 1]'(by omega)), f t ≤ v := by
  have e : ∀ i (hi : i < xs.length), xs.getD i 0 = xs[i] := fun i hi => by simp [List.getD, List.getElem?_eq_getElem hi]
  refine ⟨_, trapz_ok B (by simpa using h2) (by simpa using h64) (by simp), ?_⟩
  rw [List.length_map, panels_congr (x' := fun i => xs.getD i 0) (y' := fun i => f (xs.getD i 0)) (fun i _ => rfl) (fun i hi => by
    have hi : i < xs.length := by omega
    simp [List.getD, List.getElem?_eq_getElem hi])]
  rw [← e 0 (by omega), ← e (xs.length - 1) (by omega)]
  have hsub : ∀ i, i < xs.length - 1 → Set.Icc (xs.getD i 0) (xs.getD (i + 1) 0) ⊆ Set.Icc (xs[0]'(by omega)) (xs[xs.length - 1]'(by omega)) := fun i hi => by
    rw [e i (by omega), e (i + 1) (by omega)]
    exact Set.Icc_subset_Icc (getElem_le_of_pairwise hx (by omega) (by omega)) (getElem_le_of_pairwise hx (by omega) (by omega))
  refine panels_convex (fun i => xs.getD i 0) (xs.length - 1) (fun i hi => ?_) (fun i hi => hf.subset (hsub i hi) (convex_Icc _ _))
  rw [e i (by omega), e (i + 1) (by omega)]
  exact getElem_lt_of_pairwise hx (by omega) (by omega)

/-! ## Examples -/

theorem convexTable : Table [(0 : ℚ), 1, 3] [(5 : ℚ), 4, 8] := ⟨by simp, by norm_num, rfl⟩

example : ∃ vs vt v, interp1d ⟨true⟩ .LINEAR [(0 : ℚ), 1, 3] [(5 : ℚ), 4, 8] 0 = .ok vs ∧ interp1d ⟨true⟩ .LINEAR [(0 : ℚ), 1, 3] [(5 : ℚ), 4, 8] 2 = .ok vt ∧
    interp1d ⟨true⟩ .LINEAR [(0 : ℚ), 1, 3] [(5 : ℚ), 4, 8] ((1 - 1 / 4) * 0 + 1 / 4 * 2) = .ok v ∧ v ≤ (1 - 1 / 4) * vs + 1 / 4 * vt :=
  C121_convex ⟨true⟩ (by decide) convexTable (fun i hi _ => by
    have hi : i < 1 := by simp at hi; omega
    interval_cases i
    norm_num) (by norm_num) (by norm_num) (by norm_num) (by norm_num) (by norm_num) (by norm_num)

example : ∃ vs vt v, interp1d ⟨true⟩ .LINEAR [(0 : ℚ), 1, 3] [(5 : ℚ), 7, 1] 0 = .ok vs ∧ interp1d ⟨true⟩ .LINEAR [(0 : ℚ), 1, 3] [(5 : ℚ), 7, 1] 2 = .ok vt ∧
    interp1d ⟨true⟩ .LINEAR [(0 : ℚ), 1, 3] [(5 : ℚ), 7, 1] ((1 - 1 / 4) * 0 + 1 / 4 * 2) = .ok v ∧ (1 - 1 / 4) * vs + 1 / 4 * vt ≤ v :=
  C121_concave ⟨true⟩ (m := .LINEAR) (by decide) (xs := [0, 1, 3]) (ys := [5, 7, 1]) (s := 0) (t := 2) (l := 1 / 4) ⟨by simp, by norm_num, rfl⟩ (fun i hi _ => by
    have hi : i < 1 := by simp at hi; omega
    interval_cases i
    norm_num) (by norm_num) (by norm_num) (by norm_num) (by norm_num) (by norm_num) (by norm_num)

example : ∃ v, interp1d ⟨true⟩ .LINEAR [(0 : ℝ), 1 / 4, 1] ([(0 : ℝ), 1 / 4, 1].map Real.exp) (1 / 3) = .ok v ∧ Real.exp (1 / 3) ≤ v :=
  C121_above ⟨true⟩ (by decide) (by simp) (by norm_num) (convexOn_exp.subset (Set.subset_univ _) (convex_Icc _ _)) (by norm_num) (by norm_num)

example : ∃ v, trapz ⟨true⟩ [(0 : ℝ), 1 / 4, 1] ([(0 : ℝ), 1 / 4, 1].map Real.exp) = .ok v ∧ ∫ t in (0 : ℝ)..1, Real.exp t ≤ v :=
  C121_trapz ⟨true⟩ (by simp) (by simp) (by norm_num) (convexOn_exp.subset (Set.subset_univ _) (convex_Icc _ _))

end MU
