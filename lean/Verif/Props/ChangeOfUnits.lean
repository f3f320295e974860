import Verif.Props.Interp1d
import Verif.Props.Interp2d
import Verif.Props.Integration1d
import Verif.Props.Chebyshev

/-!
# C199: change of units, of direction and of order of the axes

The same data in other units (`x` becomes `a x + b`), read in the other direction (`x` becomes `-x`), or with the axes exchanged, give the
same values.
-/

set_option linter.unusedSectionVars false

namespace MU

open Spec Interp1d Finset

section one
variable {K Y : Type} [Field K] [LinearOrder K] [IsStrictOrderedRing K] [AddCommGroup Y] [Module K Y]

theorem Spec.Table.units {xs : List K} {ys : List Y} (ht : Table xs ys) {a : K} (ha : 0 < a) (b : K) : Table (xs.map fun t => a * t + b) ys :=
  ⟨by simpa using ht.two, ht.increasing.map _ (fun u v h => by nlinarith [mul_lt_mul_of_pos_left h ha]), by simpa using ht.sizes⟩

theorem Spec.Table.mirror {xs : List K} {ys : List Y} (ht : Table xs ys) : Table (xs.map fun t => -t).reverse ys.reverse :=
  ⟨by simpa using ht.two, by
    rw [List.pairwise_reverse]
    exact ht.increasing.map _ (fun u v h => by simpa using h), by simpa using ht.sizes⟩

theorem line_units {a : K} (ha : a ≠ 0) (b x0 x1 : K) (y0 y1 : Y) (x : K) :
    line (a * x0 + b) y0 (a * x1 + b) y1 (a * x + b) = line x0 y0 x1 y1 x := by
  unfold line
  rw [show a * x + b - (a * x0 + b) = a * (x - x0) by ring, show a * x1 + b - (a * x0 + b) = a * (x1 - x0) by ring,
    mul_div_mul_left _ _ ha]

theorem line_swap {x0 x1 : K} (h : x1 - x0 ≠ 0) (y0 y1 : Y) (x : K) : line x1 y1 x0 y0 x = line x0 y0 x1 y1 x := by
  unfold line
  have h' : x0 - x1 ≠ 0 := by rw [← neg_sub]; exact neg_ne_zero.2 h
  have : (x - x1) / (x0 - x1) = 1 - (x - x0) / (x1 - x0) := by
    field_simp
    ring
  rw [this]
  module

/-- C199: an interpolator of the same data in other units of the abscissa gives at the converted point what the first gives: the same value, or the same
refusal, at every point, whatever the method. -/
theorem C199_interp1d_units (B : Build) {m : InterpMethod} (hm : m ≠ .BSPLINE) {xs : List K} {ys : List Y} (ht : Table xs ys) {a : K} (ha : 0 < a) (b x : K) :
    interp1d B m (xs.map fun t => a * t + b) ys (a * x + b) = interp1d B m xs ys x := by
  have h2 := ht.two
  have hs := ht.sizes
  have hu := ht.units ha b
  have mono : ∀ {u v : K}, u < v → a * u + b < a * v + b := fun h => by nlinarith [mul_lt_mul_of_pos_left h ha]
  have mono' : ∀ {u v : K}, u ≤ v → a * u + b ≤ a * v + b := fun h => by nlinarith [mul_le_mul_of_nonneg_left h ha.le]
  rcases lt_or_ge x (xs[0]'(by omega)) with h0 | h0
  · cases m with
    | LINEAR =>
      rw [C03_linear_exits B ht (Or.inl h0), C03_linear_exits B hu (Or.inl (by simpa using mono h0))]
    | LINEAR_SATURATE =>
      rw [C03_saturate_left B ht (by omega) (by omega) h0.le, C03_saturate_left B hu (by simp; omega) (by omega) (by simpa using mono' h0.le)]
    | LINEAR_EXTRAPOLATE =>
      rw [C04_extrapolate_left_partial B ht (by omega) (by omega) h0,
        C04_extrapolate_left_partial B hu (by simp; omega) (by omega) (by simpa using mono h0)]
      simp only [List.getElem_map, line_units ha.ne']
    | BSPLINE => exact absurd rfl hm
  rcases lt_or_ge (xs[xs.length - 1]'(by omega)) x with h1 | h1
  · cases m with
    | LINEAR =>
      rw [C03_linear_exits B ht (Or.inr h1), C03_linear_exits B hu (Or.inr (by simpa using mono h1))]
    | LINEAR_SATURATE =>
      rw [C03_saturate_right B ht (by omega) (by omega) h1.le, C03_saturate_right B hu (by simp; omega) (by omega) (by simpa using mono' h1.le)]
    | LINEAR_EXTRAPOLATE =>
      rw [C04_right_extrapolation_throws B ht h1, C04_right_extrapolation_throws B hu (by simpa using mono h1)]
    | BSPLINE => exact absurd rfl hm
  obtain ⟨i, hi, c0, c1⟩ := C01_range_covered ht h0 h1
  rw [C01_piecewise_affine B hm ht hi (by omega) c0 c1,
    C01_piecewise_affine B hm hu (i := i) (by simpa using hi) (by omega) (by simpa using mono' c0) (by simpa using mono' c1)]
  simp only [List.getElem_map, line_units ha.ne']

example : interp1d ⟨true⟩ .LINEAR_SATURATE (([0, 1, 3] : List ℚ).map fun t => 2 * t + 7) ([5, 7, 1] : List ℚ) (2 * 2 + 7) = .ok 4 := by
  rw [C199_interp1d_units _ (by simp) sampleTable (by norm_num)]
  decide +kernel

/-- C199: ... and so does an interpolator of the same data read in the other direction, in the range; with LINEAR and LINEAR_SATURATE at every point. -/
theorem C199_interp1d_mirror_partial (B : Build) {m : InterpMethod} (hm : m ≠ .BSPLINE) {xs : List K} {ys : List Y} (ht : Table xs ys) (x : K)
    (hx : m ≠ .LINEAR_EXTRAPOLATE ∨ xs[0]'(by have := ht.two; omega) ≤ x ∧ x ≤ xs[xs.length - 1]'(by have := ht.two; omega)) :
    interp1d B m (xs.map fun t => -t).reverse ys.reverse (-x) = interp1d B m xs ys x := by
  have h2 := ht.two
  have hs := ht.sizes
  have hu := ht.mirror
  have hl : (xs.map fun t => -t).reverse.length = xs.length := by simp
  rcases lt_or_ge x (xs[0]'(by omega)) with h0 | h0
  · cases m with
    | LINEAR =>
      rw [C03_linear_exits B ht (Or.inl h0), C03_linear_exits B hu (Or.inr ?_)]
      simpa [List.getElem_reverse] using h0
    | LINEAR_SATURATE =>
      rw [C03_saturate_left B ht (by omega) (by omega) h0.le, C03_saturate_right B hu (by simp; omega) (by simp; omega) ?_]
      · simp [List.getElem_reverse]
      · simpa [List.getElem_reverse] using h0.le
    | LINEAR_EXTRAPOLATE =>
      rcases hx with hx | hx
      · exact absurd rfl hx
      · exact absurd hx.1 (not_le.2 h0)
    | BSPLINE => exact absurd rfl hm
  rcases lt_or_ge (xs[xs.length - 1]'(by omega)) x with h1 | h1
  · cases m with
    | LINEAR =>
      rw [C03_linear_exits B ht (Or.inr h1), C03_linear_exits B hu (Or.inl ?_)]
      simpa [List.getElem_reverse] using h1
    | LINEAR_SATURATE =>
      rw [C03_saturate_right B ht (by omega) (by omega) h1.le, C03_saturate_left B hu (by simp; omega) (by simp; omega) ?_]
      · simp [List.getElem_reverse]
      · simpa [List.getElem_reverse] using h1.le
    | LINEAR_EXTRAPOLATE =>
      rcases hx with hx | hx
      · exact absurd rfl hx
      · exact absurd hx.2 (not_le.2 h1)
    | BSPLINE => exact absurd rfl hm
  obtain ⟨i, hi, c0, c1⟩ := C01_range_covered ht h0 h1
  have hlt := getElem_lt_of_pairwise ht.increasing (Nat.lt_succ_self i) hi
  rw [C01_piecewise_affine B hm ht hi (by omega) c0 c1,
    C01_piecewise_affine B hm hu (i := xs.length - 2 - i) (by simp; omega) (by simp; omega) ?_ ?_]
  · have e1 : xs.length - 1 - (xs.length - 2 - i) = i + 1 := by omega
    have e2 : xs.length - 1 - (xs.length - 2 - i + 1) = i := by omega
    have e3 : ys.length - 1 - (xs.length - 2 - i) = i + 1 := by omega
    have e4 : ys.length - 1 - (xs.length - 2 - i + 1) = i := by omega
    simp only [List.getElem_reverse, List.getElem_map, List.length_map, e1, e2, e3, e4]
    have := line_units (a := (-1 : K)) (by simp) 0 xs[i + 1] xs[i] (ys[i + 1]'(by omega)) (ys[i]'(by omega)) x
    simp only [neg_mul, one_mul, add_zero] at this
    rw [this, line_swap (sub_pos.2 hlt).ne']
  · have e1 : xs.length - 1 - (xs.length - 2 - i) = i + 1 := by omega
    simpa only [List.getElem_reverse, List.getElem_map, List.length_map, e1, neg_le_neg_iff] using c1
  · have e2 : xs.length - 1 - (xs.length - 2 - i + 1) = i := by omega
    simpa only [List.getElem_reverse, List.getElem_map, List.length_map, e2, neg_le_neg_iff] using c0

example : interp1d ⟨true⟩ .LINEAR (([0, 1, 3] : List ℚ).map fun t => -t).reverse ([5, 7, 1] : List ℚ).reverse (-2) = .ok 4 := by
  rw [C199_interp1d_mirror_partial _ (by simp) sampleTable _ (Or.inl (by simp))]
  decide +kernel

/-- C199 does not hold for LINEAR_EXTRAPOLATE out of the range: at the left of a table there is a value, at the same place of the mirrored table an exception. -/
theorem C199_refuted : ∃ (xs ys : List ℚ) (x : ℚ), Table xs ys ∧ interp1d ⟨true⟩ .LINEAR_EXTRAPOLATE xs ys x = .ok 3 ∧
    interp1d ⟨true⟩ .LINEAR_EXTRAPOLATE (xs.map fun t => -t).reverse ys.reverse (-x) = .throws .outOfRange :=
  ⟨[0, 1, 3], [5, 7, 1], -1, sampleTable, by decide +kernel, by decide +kernel⟩

end one

/-! ## Integrals -/

section integrals
variable {K : Type} [Field K] [LinearOrder K] [IsStrictOrderedRing K]

/-- C199: the trapezoidal sum in other units of the abscissa and of the ordinate is that of the first table, converted. The factors may have any sign. -/
theorem C199_trapz_units (B : Build) (x y : List K) (h2 : 2 ≤ y.length) (h64 : y.length < 2 ^ 64) (hl : x.length = y.length) (a b c dx : K) :
    (∃ s, trapz B x y = .ok s ∧ trapz B (x.map fun t => a * t + b) (y.map fun t => c * t) = .ok (a * c * s)) ∧
    ∃ s, trapzUniform y dx = .ok s ∧ trapzUniform (y.map fun t => c * t) (a * dx) = .ok (a * c * s) := by
  have ex : ∀ i, i < x.length → (x.map fun t => a * t + b).getD i 0 = a * x.getD i 0 + b := fun i hi => by simp [hi]
  have ey : ∀ i, i < y.length → (y.map fun t => c * t).getD i 0 = c * y.getD i 0 := fun i hi => by simp [hi]
  constructor
  · refine ⟨_, trapz_ok B h2 h64 hl, ?_⟩
    rw [trapz_ok B (by simpa) (by simpa) (by simpa), panels, panels, mul_sum, List.length_map]
    congr 1
    refine sum_congr rfl (fun i hi => ?_)
    have := mem_range.mp hi
    rw [ex i (by omega), ex (i + 1) (by omega), ey i (by omega), ey (i + 1) (by omega)]
    ring
  · refine ⟨_, trapzUniform_ok h2 h64 dx, ?_⟩
    rw [trapzUniform_ok (by simpa) (by simpa), panels, panels, mul_sum, List.length_map]
    congr 1
    refine sum_congr rfl (fun i hi => ?_)
    have := mem_range.mp hi
    rw [ey i (by omega), ey (i + 1) (by omega)]
    push_cast
    ring

example : trapz ⟨true⟩ (([0, 1, 3] : List ℚ).map fun t => 2 * t + 7) (([5, 7, 1] : List ℚ).map fun t => 10 * t) = .ok (2 * 10 * 14) := by
  obtain ⟨⟨s, h1, h2⟩, -⟩ := C199_trapz_units ⟨true⟩ ([0, 1, 3] : List ℚ) [5, 7, 1] (by simp) (by simp) rfl 2 7 10 1
  rw [h2]
  have : trapz ⟨true⟩ ([0, 1, 3] : List ℚ) [5, 7, 1] = .ok 14 := by decide +kernel
  rw [h1] at this
  injection this with this
  rw [this]

/-- The panels from right to left. -/
theorem panels_flip (n : Nat) (x y : Nat → K) : panels n (fun i => x (n - i)) (fun i => y (n - i)) = - panels n x y := by
  unfold panels
  rw [← sum_range_reflect, ← sum_neg_distrib]
  refine sum_congr rfl (fun i hi => ?_)
  have := mem_range.mp hi
  simp only [show n - (n - 1 - i + 1) = i by omega, show n - (n - 1 - i) = i + 1 by omega]
  ring

/-- C199: the trapezoidal sum of a table read backwards is the opposite; of the mirrored table, the same; with equal steps, the same. -/
theorem C199_trapz_mirror (B : Build) (x y : List K) (h2 : 2 ≤ y.length) (h64 : y.length < 2 ^ 64) (hl : x.length = y.length) (dx : K) :
    (∃ s, trapz B x y = .ok s ∧ trapz B x.reverse y.reverse = .ok (-s) ∧ trapz B (x.map fun t => -t).reverse y.reverse = .ok s) ∧
    trapzUniform y.reverse dx = trapzUniform y dx := by
  have er : ∀ (l : List K), l.length = y.length → ∀ i, i ≤ y.length - 1 → l.reverse.getD i 0 = l.getD (y.length - 1 - i) 0 := by
    intro l hl' i hi
    have h1 : i < l.length := by omega
    have h2 : y.length - 1 - i < l.length := by omega
    rw [List.getD_eq_getElem?_getD, List.getD_eq_getElem?_getD, List.getElem?_reverse h1, hl']
  have rev : ∀ (l : List K), l.length = y.length → trapz B l.reverse y.reverse = .ok (- panels (y.length - 1) (fun i => l.getD i 0) (fun i => y.getD i 0)) := by
    intro l hl'
    rw [trapz_ok B (by simpa) (by simpa) (by simpa), ← panels_flip, List.length_reverse]
    congr 1
    refine sum_congr rfl (fun i hi => ?_)
    have := mem_range.mp hi
    simp only []
    rw [er l hl' i (by omega), er l hl' (i + 1) (by omega), er y rfl i (by omega), er y rfl (i + 1) (by omega)]
  refine ⟨⟨_, trapz_ok B h2 h64 hl, rev x hl, ?_⟩, ?_⟩
  · rw [rev _ (by simpa), panels, panels, ← sum_neg_distrib]
    congr 1
    refine sum_congr rfl (fun i hi => ?_)
    have := mem_range.mp hi
    have h1 : i < x.length := by omega
    have h2 : i + 1 < x.length := by omega
    simp only [List.getD_eq_getElem?_getD, List.getElem?_map, List.getElem?_eq_getElem h1, List.getElem?_eq_getElem h2, Option.map_some, Option.getD_some]
    ring
  · rw [trapzUniform_ok (by simpa), trapzUniform_ok h2 h64, List.length_reverse]
    · congr 1
      have h := panels_flip (y.length - 1) (fun i => (i : K) * dx) (fun i => y.getD i 0)
      have h3 : panels (y.length - 1) (fun i => (i : K) * dx) (fun i => y.reverse.getD i 0) =
          - panels (y.length - 1) (fun i => ((y.length - 1 - i : Nat) : K) * dx) (fun i => y.getD (y.length - 1 - i) 0) := by
        unfold panels
        rw [← sum_neg_distrib]
        refine sum_congr rfl (fun i hi => ?_)
        have := mem_range.mp hi
        simp only []
        rw [er y rfl i (by omega), er y rfl (i + 1) (by omega), Nat.cast_sub (m := i) (n := y.length - 1) (by omega),
          Nat.cast_sub (m := i + 1) (n := y.length - 1) (by omega)]
        push_cast
        ring
      rw [h3, h, neg_neg]
    · simpa

example : trapz ⟨true⟩ ([0, 1, 3] : List ℚ).reverse ([5, 7, 1] : List ℚ).reverse = .ok (-14) := by decide +kernel

/-- C199: the change of variable in an integral of a function, with a factor of any sign: the integral from `a p + b` to `a q + b` of `F` is `a` times that from `p` to `q` of
`F (a t + b)`, with the same number of points; in particular exchanging the bounds changes the sign (below). -/
theorem C199_integrate_units (F : K → K) (a b p q : K) (n : Nat) (h2 : 2 ≤ n) (h32 : n < 2 ^ 32) :
    ∃ s, (Integrate1d.get.run (Integrate1d.ofFunction (fun t => F (a * t + b)) p q n)).1 = .ok s ∧
      (Integrate1d.get.run (Integrate1d.ofFunction F (a * p + b) (a * q + b) n)).1 = .ok (a * s) := by
  rw [(C43_function _ p q n h2 h32).1, (C43_function F _ _ n h2 h32).1]
  refine ⟨_, trapzUniform_ok (by simpa) (by simp; omega) _, ?_⟩
  rw [trapzUniform_ok (by simpa) (by simp; omega), panels, panels, mul_sum]
  simp only [List.length_map, List.length_range]
  congr 1
  refine sum_congr rfl (fun i hi => ?_)
  have := mem_range.mp hi
  have h1 : i < n := by omega
  have h3 : i + 1 < n := by omega
  simp only [List.getD_eq_getElem?_getD, List.getElem?_map, List.getElem?_range h1, List.getElem?_range h3, Option.map_some, Option.getD_some]
  have e : ∀ k : Nat, a * p + b + k * ((a * q + b - (a * p + b)) / ((n : K) - 1)) = a * (p + k * ((q - p) / ((n : K) - 1))) + b := fun k => by ring
  rw [e, e]
  push_cast
  ring

/-- C199: exchanging the bounds changes the sign. -/
theorem C199_integrate_swap (F : K → K) (p q : K) (n : Nat) (h2 : 2 ≤ n) (h32 : n < 2 ^ 32) :
    ∃ s, (Integrate1d.get.run (Integrate1d.ofFunction F p q n)).1 = .ok s ∧ (Integrate1d.get.run (Integrate1d.ofFunction F q p n)).1 = .ok (-s) := by
  rw [(C43_function _ p q n h2 h32).1, (C43_function F _ _ n h2 h32).1]
  set Y := (List.range n).map fun i : Nat => F (p + i * ((q - p) / ((n : K) - 1))) with hY
  have hn : (n : K) - 1 ≠ 0 := by
    have : (2 : K) ≤ n := by exact_mod_cast h2
    linarith
  have hr : ((List.range n).map fun i : Nat => F (q + i * ((p - q) / ((n : K) - 1)))) = Y.reverse := by
    refine List.ext_getElem (by simp [hY]) (fun i h3 h4 => ?_)
    simp only [hY, List.getElem_reverse, List.getElem_map, List.getElem_range, List.length_map, List.length_range]
    simp only [List.length_map, List.length_range] at h3
    congr 1
    have hc : (((n - 1 - i : Nat)) : K) = (n : K) - 1 - i := by
      rw [Nat.cast_sub (by omega), Nat.cast_sub (by omega), Nat.cast_one]
    rw [hc]
    field_simp
    ring
  have hlen : Y.length = n := by simp [hY]
  rw [hr, (C199_trapz_mirror ⟨true⟩ Y Y (by omega) (by omega) rfl _).2]
  obtain ⟨s, h3, h4⟩ := (C199_trapz_units ⟨true⟩ Y Y (by omega) (by omega) rfl (-1) 0 1 ((q - p) / ((n : K) - 1))).2
  refine ⟨s, h3, ?_⟩
  have e0 : (p - q) / ((n : K) - 1) = -1 * ((q - p) / ((n : K) - 1)) := by ring
  rw [e0]
  have e : (Y.map fun t => 1 * t) = Y := by simp
  rw [e] at h4
  rw [h4, show -1 * 1 * s = -s by ring]

example : ∃ s, (Integrate1d.get.run (Integrate1d.ofFunction (fun t : ℚ => t * t) 3 1 5)).1 = .ok (-s) ∧
    (Integrate1d.get.run (Integrate1d.ofFunction (fun t : ℚ => t * t) 1 3 5)).1 = .ok s := by
  obtain ⟨s, h1, h2⟩ := C199_integrate_swap (fun t : ℚ => t * t) 1 3 5 (by norm_num) (by norm_num)
  exact ⟨s, h2, h1⟩

end integrals

/-! ## Two variables -/

section two
variable {K : Type} [Field K] [LinearOrder K] [IsStrictOrderedRing K]

theorem bilinear_transpose {x0 x1 y0 y1 : K} (f00 f10 f01 f11 x y : K) :
    bilinear y0 y1 x0 x1 f00 f01 f10 f11 y x = bilinear x0 x1 y0 y1 f00 f10 f01 f11 x y := by
  unfold bilinear line
  simp only [smul_eq_mul]
  ring

/-- C199: with the two axes exchanged (and the data stored accordingly) `Interp2d` gives the same value at every point of the box; with assertions it gives the same
outcome everywhere. -/
theorem C199_interp2d_transpose (B : Build) {xs ys data data' : List K} (g : Grid xs ys data) (g' : Grid ys xs data')
    (hd : ∀ i j (hi : i < xs.length) (hj : j < ys.length), g'.at j i hj hi = g.at i j hi hj) (x y : K)
    (h : B = ⟨true⟩ ∨ xs[0]'(by have := g.twox; omega) ≤ x ∧ x ≤ xs[xs.length - 1]'(by have := g.twox; omega) ∧
      ys[0]'(by have := g.twoy; omega) ≤ y ∧ y ≤ ys[ys.length - 1]'(by have := g.twoy; omega)) :
    interp2d B .LINEAR ys xs data' y x = interp2d B .LINEAR xs ys data x y := by
  have h2 := g.twox
  have h2' := g.twoy
  by_cases hb : xs[0]'(by omega) ≤ x ∧ x ≤ xs[xs.length - 1]'(by omega) ∧ ys[0]'(by omega) ≤ y ∧ y ≤ ys[ys.length - 1]'(by omega)
  · obtain ⟨a0, a1, b0, b1⟩ := hb
    obtain ⟨i, j, hi, hj, c0, c1, d0, d1⟩ := C08_range_covered g a0 a1 b0 b1
    rw [C08_bilinear B g hi hj c0 c1 d0 d1, C08_bilinear B g' hj hi d0 d1 c0 c1, hd, hd, hd, hd, bilinear_transpose]
  · rcases h with rfl | h
    · rw [C10_checked_aborts_partial g (by
        by_contra hc
        push Not at hc
        exact hb ⟨hc.1, hc.2.1, hc.2.2.1, hc.2.2.2⟩), C10_checked_aborts_partial g' (by
        by_contra hc
        push Not at hc
        exact hb ⟨hc.2.2.1, hc.2.2.2, hc.1, hc.2.1⟩)]
    · exact absurd h hb

theorem Spec.Grid.units {xs ys data : List K} (g : Grid xs ys data) {a c : K} (ha : 0 < a) (hc : 0 < c) (b d : K) :
    Grid (xs.map fun t => a * t + b) (ys.map fun t => c * t + d) data :=
  ⟨by simpa using g.twox, by simpa using g.twoy, g.incx.map _ (fun u v h => by nlinarith [mul_lt_mul_of_pos_left h ha]),
    g.incy.map _ (fun u v h => by nlinarith [mul_lt_mul_of_pos_left h hc]), by simpa using g.size⟩

/-- C199: ... and with other units on both axes. -/
theorem C199_interp2d_units (B : Build) {xs ys data : List K} (g : Grid xs ys data) {a c : K} (ha : 0 < a) (hc : 0 < c) (b d x y : K)
    (h : B = ⟨true⟩ ∨ xs[0]'(by have := g.twox; omega) ≤ x ∧ x ≤ xs[xs.length - 1]'(by have := g.twox; omega) ∧
      ys[0]'(by have := g.twoy; omega) ≤ y ∧ y ≤ ys[ys.length - 1]'(by have := g.twoy; omega)) :
    interp2d B .LINEAR (xs.map fun t => a * t + b) (ys.map fun t => c * t + d) data (a * x + b) (c * y + d) = interp2d B .LINEAR xs ys data x y := by
  have h2 := g.twox
  have h2' := g.twoy
  have g' := g.units ha hc b d
  have iff : ∀ {a : K} (_ : 0 < a) (b u v : K), a * u + b ≤ a * v + b ↔ u ≤ v := fun ha b u v => by
    rw [add_le_add_iff_right, mul_le_mul_iff_right₀ ha]
  have ilt : ∀ {a : K} (_ : 0 < a) (b u v : K), a * u + b < a * v + b ↔ u < v := fun ha b u v => by
    rw [add_lt_add_iff_right, mul_lt_mul_iff_right₀ ha]
  by_cases hb : xs[0]'(by omega) ≤ x ∧ x ≤ xs[xs.length - 1]'(by omega) ∧ ys[0]'(by omega) ≤ y ∧ y ≤ ys[ys.length - 1]'(by omega)
  · obtain ⟨a0, a1, b0, b1⟩ := hb
    obtain ⟨i, j, hi, hj, c0, c1, d0, d1⟩ := C08_range_covered g a0 a1 b0 b1
    rw [C08_bilinear B g hi hj c0 c1 d0 d1, C08_bilinear B g' (i := i) (j := j) (by simpa) (by simpa) (by simpa [iff ha] using c0) (by simpa [iff ha] using c1)
      (by simpa [iff hc] using d0) (by simpa [iff hc] using d1)]
    simp only [bilinear, List.getElem_map, line_units ha.ne', line_units hc.ne', Spec.Grid.at, List.length_map]
  · rcases h with rfl | h
    · have hout : x < xs[0]'(by omega) ∨ xs[xs.length - 1]'(by omega) < x ∨ y < ys[0]'(by omega) ∨ ys[ys.length - 1]'(by omega) < y := by
        by_contra hc
        push Not at hc
        exact hb ⟨hc.1, hc.2.1, hc.2.2.1, hc.2.2.2⟩
      rw [C10_checked_aborts_partial g hout, C10_checked_aborts_partial g' (by simpa [ilt ha, ilt hc] using hout)]
    · exact absurd h hb

example : interp2d ⟨true⟩ .LINEAR ([0, 2] : List ℚ) [0, 1, 3] [1, 2, 3, 4, 5, 6] 1 2 = interp2d ⟨true⟩ .LINEAR ([0, 1, 3] : List ℚ) [0, 2] [1, 4, 2, 5, 3, 6] 2 1 := by
  refine C199_interp2d_transpose _ ⟨by simp, by simp, by simp, by simp, rfl⟩ ⟨by simp, by simp, by simp, by simp, rfl⟩ ?_ _ _ (Or.inl rfl)
  intro i j hi hj
  simp at hi hj
  interval_cases i <;> interval_cases j <;> rfl

end two

end MU
