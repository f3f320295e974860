import Verif.Lemmas.SimplexThreshold
import Verif.Props.Lipschitz
import Verif.Props.Simplex

set_option linter.unusedSectionVars false

/-!
# C164, C165: interpolation on grids follows the trend of the data and varies no faster
-/

namespace MU
open Spec NDInterp MeasureTheory intervalIntegral

/-! ## C164 -/

section multilinear
variable {K : Type} [Field K] [LinearOrder K] [IsStrictOrderedRing K]

/-- C164, regular grids: when the data do not decrease from node to node in the directions allowed (some coordinates up, some down, the others fixed), neither do the values
from point to point, inside or outside the box. -/
theorem C164_grid {dim : Nat} {grids : List (List K)} {F : List Nat → K} {s : RGI K} (h : Loaded dim grids F s) {ds : List Trend}
    (hF : FollowsTrend grids ds F) {x x' : List K} (hx : x.length = dim) (hx' : x'.length = dim) (hm : MovesAlong ds x x') :
    ∃ v v', RGI.interpolate s x false = .ok v ∧ RGI.interpolate s x' false = .ok v' ∧ v ≤ v' := by
  obtain ⟨hg, hd, _, hH, _⟩ := RGI.Loaded.fields h
  obtain ⟨cs, ys, ws, hr, he⟩ := interp_cube hg hH (hx.trans hd.symm)
  obtain ⟨cs', ys', ws', hr', he'⟩ := interp_cube hg hH (hx'.trans hd.symm)
  exact ⟨_, _, by rw [RGI.interpolate_loaded h, he], by rw [RGI.interpolate_loaded h, he'], cube_trend hg.increasing hr hr' hF hm⟩

/-- C164, tables of two variables: directions `dx` of the first variable and `dy` of the second. -/
theorem C164_interp2d (B : Build) {xs ys data : List K} (g : Grid xs ys data) {dx dy : Trend}
    (hF : ∀ i j i' j' (hi : i < xs.length) (hj : j < ys.length) (hi' : i' < xs.length) (hj' : j' < ys.length),
      dx.Moves xs[i] xs[i'] → dy.Moves ys[j] ys[j'] → g.at i j hi hj ≤ g.at i' j' hi' hj') {x y x' y' : K}
    (hx0 : xs[0]'(by have := g.twox; omega) ≤ x) (hx1 : x ≤ xs[xs.length - 1]'(by have := g.twox; omega))
    (hy0 : ys[0]'(by have := g.twoy; omega) ≤ y) (hy1 : y ≤ ys[ys.length - 1]'(by have := g.twoy; omega))
    (hx0' : xs[0]'(by have := g.twox; omega) ≤ x') (hx1' : x' ≤ xs[xs.length - 1]'(by have := g.twox; omega))
    (hy0' : ys[0]'(by have := g.twoy; omega) ≤ y') (hy1' : y' ≤ ys[ys.length - 1]'(by have := g.twoy; omega))
    (hx : dx.Moves x x') (hy : dy.Moves y y') :
    ∃ v v', interp2d B .LINEAR xs ys data x y = .ok v ∧ interp2d B .LINEAR xs ys data x' y' = .ok v' ∧ v ≤ v' := by
  obtain ⟨cs, fs, ws, hr⟩ := Grid.axes_exist g x y
  obtain ⟨cs', fs', ws', hr'⟩ := Grid.axes_exist g x' y'
  refine ⟨_, _, interp2d_axes B g hx0 hx1 hy0 hy1 hr, interp2d_axes B g hx0' hx1' hy0' hy1' hr', ?_⟩
  refine cube_trend (by simpa using ⟨g.incy, g.incx⟩) hr hr' (ds := [dy, dx]) ?_ ⟨hy, hx, trivial⟩
  intro k p k' p' h1 h2 hm
  cases h1 with
  | @cons _ _ j is b ps hj h1 =>
  cases h1 with
  | @cons _ _ i is a ps hi h1 =>
  cases h1
  cases h2 with
  | @cons _ _ j' is b' ps hj' h2 =>
  cases h2 with
  | @cons _ _ i' is a' ps hi' h2 =>
  cases h2
  obtain ⟨hi1, rfl⟩ := List.getElem?_eq_some_iff.mp hi
  obtain ⟨hj1, rfl⟩ := List.getElem?_eq_some_iff.mp hj
  obtain ⟨hi1', rfl⟩ := List.getElem?_eq_some_iff.mp hi'
  obtain ⟨hj1', rfl⟩ := List.getElem?_eq_some_iff.mp hj'
  rw [gridData2_eq g hi1 hj1, gridData2_eq g hi1' hj1']
  exact hF i j i' j' hi1 hj1 hi1' hj1' hm.2.1 hm.1

end multilinear

/-- C164, simplex interpolation, whatever the order given to equal fractions. -/
theorem C164_simplex {grids : List (List ℝ)} {values : List ℝ} {F : List Nat → ℝ} (hg : Axes grids)
    (hF : Holds (grids.map List.length) values F) {t : NDInterp ℝ} (ht : NDInterp.new grids values = .ok t)
    {sort sort' : List (ℝ × Nat) → List (ℝ × Nat)} (hsort : IsSort sort) (hsort' : IsSort sort') {ds : List Trend} (hT : FollowsTrend grids ds F)
    {x x' : List ℝ} (hx : x.length = grids.length) (hx' : x'.length = grids.length) (hm : MovesAlong ds x x') :
    ∃ v v', interpSimplex sort t x = .ok v ∧ interpSimplex sort' t x' = .ok v' ∧ v ≤ v' := by
  have ht' : t = ⟨grids, values⟩ := by
    unfold NDInterp.new at ht
    rw [if_neg (by simpa using hF.size)] at ht
    cases ht; rfl
  subst ht'
  obtain ⟨cs, ys, ws, hr, hi, he⟩ := simplex_integral hg hF hsort hx
  obtain ⟨cs', ys', ws', hr', hi', he'⟩ := simplex_integral hg hF hsort' hx'
  refine ⟨_, _, he, he', integral_mono_on zero_le_one hi hi' (fun t _ => ?_)⟩
  exact hT _ _ _ _ (thr_isNode hr t) (thr_isNode hr' t) (thr_moves hg.increasing hr hr' hm t)

/-! ## C165 -/

/-- C165: when along each axis the data of neighbouring nodes differ by at most the rate of this axis times their distance, the values of simplex interpolation at any two
points, inside or outside the box, differ by at most the sum over the axes of the rate times the difference of the coordinates. -/
theorem C165_lipschitz {grids : List (List ℝ)} {values : List ℝ} {F : List Nat → ℝ} (hg : Axes grids)
    (hF : Holds (grids.map List.length) values F) {t : NDInterp ℝ} (ht : NDInterp.new grids values = .ok t)
    {sort sort' : List (ℝ × Nat) → List (ℝ × Nat)} (hsort : IsSort sort) (hsort' : IsSort sort') {Ls : List ℝ} (hL : LipschitzData grids Ls F)
    {x x' : List ℝ} (hx : x.length = grids.length) (hx' : x'.length = grids.length) :
    ∃ v v', interpSimplex sort t x = .ok v ∧ interpSimplex sort' t x' = .ok v' ∧ |v - v'| ≤ weightedDistance Ls x x' := by
  have ht' : t = ⟨grids, values⟩ := by
    unfold NDInterp.new at ht
    rw [if_neg (by simpa using hF.size)] at ht
    cases ht; rfl
  subst ht'
  obtain ⟨cs, ys, ws, hr, hi, he⟩ := simplex_integral hg hF hsort hx
  obtain ⟨cs', ys', ws', hr', hi', he'⟩ := simplex_integral hg hF hsort' hx'
  obtain ⟨hL0, hLp⟩ := lipschitzData_pairs hg.nonempty hg.increasing hL
  obtain ⟨d1, d2⟩ := thr_distance hg.nonempty hg.increasing hr hr' hL0
  refine ⟨_, _, he, he', ?_⟩
  rw [← integral_sub hi hi']
  refine (abs_integral_le_integral_abs zero_le_one).trans (le_trans ?_ d2)
  exact integral_mono_on zero_le_one (hi.sub hi').abs d1 (fun t _ => hLp _ _ _ _ (thr_isNode hr t) (thr_isNode hr' t))

/-- C165: two objects on the same axes with data that differ by at most `ε` give values that differ by at most `ε`. -/
theorem C165_data {grids : List (List ℝ)} {values values' : List ℝ} {F G : List Nat → ℝ} (hg : Axes grids)
    (hF : Holds (grids.map List.length) values F) (hG : Holds (grids.map List.length) values' G) {t t' : NDInterp ℝ}
    (ht : NDInterp.new grids values = .ok t) (ht' : NDInterp.new grids values' = .ok t')
    {sort sort' : List (ℝ × Nat) → List (ℝ × Nat)} (hsort : IsSort sort) (hsort' : IsSort sort') {ε : ℝ}
    (hε : ∀ i, Inside i (grids.map List.length) → |F i - G i| ≤ ε) {x : List ℝ} (hx : x.length = grids.length) :
    ∃ v v', interpSimplex sort t x = .ok v ∧ interpSimplex sort' t' x = .ok v' ∧ |v - v'| ≤ ε := by
  have e : t = ⟨grids, values⟩ := by
    unfold NDInterp.new at ht
    rw [if_neg (by simpa using hF.size)] at ht
    cases ht; rfl
  have e' : t' = ⟨grids, values'⟩ := by
    unfold NDInterp.new at ht'
    rw [if_neg (by simpa using hG.size)] at ht'
    cases ht'; rfl
  subst e e'
  obtain ⟨cs, ys, ws, hr, hi, he⟩ := simplex_integral hg hF hsort hx
  obtain ⟨cs', ys', ws', hr', hi', he'⟩ := simplex_integral hg hG hsort' hx
  obtain rfl : ws = ws' := hr.det hg.increasing hr'
  refine ⟨_, _, he, he', ?_⟩
  rw [← integral_sub hi hi']
  refine (abs_integral_le_integral_abs zero_le_one).trans ?_
  refine (integral_mono_on zero_le_one (hi.sub hi').abs (g := fun _ => ε) (by simp) (fun t _ => hε _ (isNode_inside (thr_isNode hr t)))).trans ?_
  simp

theorem gaps_exist {K : Type} [Field K] [LinearOrder K] [IsStrictOrderedRing K] (g : List K) (hinc : g.Pairwise (· < ·)) :
    ∃ h : K, 0 < h ∧ ∀ i a b, g[i]? = some a → g[i + 1]? = some b → h ≤ b - a := by
  induction g with
  | nil => exact ⟨1, one_pos, by simp⟩
  | cons c g ih =>
    rw [List.pairwise_cons] at hinc
    obtain ⟨h, h0, h1⟩ := ih hinc.2
    cases g with
    | nil => exact ⟨1, one_pos, by simp⟩
    | cons d g =>
      have hd := sub_pos.2 (hinc.1 d (by simp))
      refine ⟨min h (d - c), lt_min h0 hd, ?_⟩
      intro i a b ha hb
      cases i with
      | zero =>
        simp at ha hb
        subst ha hb
        exact min_le_right _ _
      | succ i => exact (min_le_left _ _).trans (h1 i a b (by simpa using ha) (by simpa using hb))

theorem gaps_exist_all {K : Type} [Field K] [LinearOrder K] [IsStrictOrderedRing K] (grids : List (List K)) (hinc : ∀ g ∈ grids, g.Pairwise (· < ·)) :
    ∃ h : K, 0 < h ∧ ∀ g ∈ grids, ∀ i a b, g[i]? = some a → g[i + 1]? = some b → h ≤ b - a := by
  induction grids with
  | nil => exact ⟨1, one_pos, by simp⟩
  | cons g gs ih =>
    obtain ⟨h, h0, h1⟩ := ih (fun g hg => hinc g (by simp [hg]))
    obtain ⟨k, k0, k1⟩ := gaps_exist g (hinc g (by simp))
    refine ⟨min h k, lt_min h0 k0, ?_⟩
    intro g' hg'
    rcases List.mem_cons.1 hg' with rfl | hg'
    · exact fun i a b ha hb => (min_le_right _ _).trans (k1 i a b ha hb)
    · exact fun i a b ha hb => (min_le_left _ _).trans (h1 g' hg' i a b ha hb)

/-- Data on a finite grid always have a rate. -/
theorem lipschitzData_exists {K : Type} [Field K] [LinearOrder K] [IsStrictOrderedRing K] {grids : List (List K)} {h M : K} (h0 : 0 < h) (hM : 0 ≤ M)
    (hgap : ∀ g ∈ grids, ∀ i a b, g[i]? = some a → g[i + 1]? = some b → h ≤ b - a) {F : List Nat → K}
    (hF : ∀ i, Inside i (grids.map List.length) → |F i| ≤ M) : LipschitzData grids (List.replicate grids.length (2 * M / h)) F := by
  induction grids generalizing F with
  | nil => trivial
  | cons g gs ih =>
    refine ⟨div_nonneg (by linarith) h0.le, ?_, ?_⟩
    · intro i a b ha hb is his
      have e1 := hF (i :: is) (.cons (List.getElem?_eq_some_iff.mp ha).1 his)
      have e2 := hF ((i + 1) :: is) (.cons (List.getElem?_eq_some_iff.mp hb).1 his)
      have e3 := hgap g (by simp) i a b ha hb
      have e4 : 2 * M ≤ 2 * M / h * (b - a) := by
        rw [div_mul_eq_mul_div, le_div_iff₀ h0]
        exact mul_le_mul_of_nonneg_left e3 (by linarith)
      refine le_trans ?_ e4
      rw [abs_le] at *
      constructor <;> linarith
    · intro i hi
      exact ih (fun g hg => hgap g (by simp [hg])) (fun is his => hF _ (.cons hi his))

theorem weightedDistance_uniform {L δ : ℝ} (hL : 0 ≤ L) {x x' : List ℝ} (h : List.Forall₂ (fun a b => |a - b| ≤ δ) x x') :
    weightedDistance (List.replicate x.length L) x x' ≤ x.length * L * δ := by
  induction h with
  | nil => simp [weightedDistance]
  | cons h1 _ ih =>
    simp only [List.length_cons, List.replicate_succ, weightedDistance]
    have := mul_le_mul_of_nonneg_left h1 hL
    push_cast
    linarith

/-- C165: the value is a continuous function of the point. -/
theorem C165_continuous {grids : List (List ℝ)} {values : List ℝ} {F : List Nat → ℝ} (hg : Axes grids)
    (hF : Holds (grids.map List.length) values F) {t : NDInterp ℝ} (ht : NDInterp.new grids values = .ok t)
    {sort : List (ℝ × Nat) → List (ℝ × Nat)} (hsort : IsSort sort) :
    ∃ f : (Fin grids.length → ℝ) → ℝ, Continuous f ∧ ∀ x, interpSimplex sort t (List.ofFn x) = .ok (f x) := by
  obtain ⟨h, h0, hgap⟩ := gaps_exist_all grids hg.increasing
  have hM : ∀ i, Inside i (grids.map List.length) → |F i| ≤ (values.map abs).sum := by
    intro i hi
    have := hF.elem i hi
    exact List.single_le_sum (by simp) _ (List.mem_map_of_mem (List.mem_of_getElem? this))
  have hM0 : 0 ≤ (values.map abs).sum := List.sum_nonneg (by simp)
  have hL := lipschitzData_exists h0 hM0 hgap hM
  set L := 2 * (values.map abs).sum / h with hLdef
  have hL0 : 0 ≤ L := div_nonneg (by linarith) h0.le
  have hex : ∀ x : Fin grids.length → ℝ, ∃ v, interpSimplex sort t (List.ofFn x) = .ok v := fun x => by
    obtain ⟨v, _, h1, _⟩ := C165_lipschitz hg hF ht hsort hsort hL (x := List.ofFn x) (x' := List.ofFn x) (by simp) (by simp)
    exact ⟨v, h1⟩
  choose f hf using hex
  refine ⟨f, ?_, hf⟩
  refine (LipschitzWith.of_dist_le_mul (K := ⟨grids.length * L, by positivity⟩) (fun x x' => ?_)).continuous
  obtain ⟨v, v', h1, h2, h3⟩ := C165_lipschitz hg hF ht hsort hsort hL (x := List.ofFn x) (x' := List.ofFn x') (by simp) (by simp)
  rw [hf x] at h1
  rw [hf x'] at h2
  cases h1; cases h2
  rw [Real.dist_eq]
  refine h3.trans ?_
  have := weightedDistance_uniform hL0 (x := List.ofFn x) (x' := List.ofFn x') (δ := dist x x') (by
    rw [List.forall₂_iff_get]
    refine ⟨by simp, ?_⟩
    intro i h1 h2
    simp only [List.get_eq_getElem, List.getElem_ofFn]
    rw [← Real.dist_eq]
    exact dist_le_pi_dist x x' _)
  rw [List.length_ofFn] at this
  exact this

/-! ## Examples -/

theorem square_holds (a b c d : ℝ) : Holds (([[0, 1], [0, 2]] : List (List ℝ)).map List.length) [a, b, c, d] (fun idx => [a, b, c, d].getD (pos [2, 2] idx) 0) := by
  refine ⟨rfl, ?_⟩
  intro idx h
  cases h with
  | @cons i _ is _ hi h =>
    cases h with
    | @cons j _ js _ hj h =>
      cases h
      match i, hi with
      | 0, _ => match j, hj with
        | 0, _ => rfl
        | 1, _ => rfl
      | 1, _ => match j, hj with
        | 0, _ => rfl
        | 1, _ => rfl

theorem exists_sort_real : ∃ sort : List (ℝ × Nat) → List (ℝ × Nat), IsSort sort :=
  ⟨fun l => l.insertionSort (fun a b => a.1 ≤ b.1), fun l => by
    haveI : Std.Total (fun a b : ℝ × Nat => a.1 ≤ b.1) := ⟨fun a b => le_total a.1 b.1⟩
    haveI : IsTrans (ℝ × Nat) (fun a b => a.1 ≤ b.1) := ⟨fun a b c h1 h2 => le_trans h1 h2⟩
    exact ⟨List.perm_insertionSort _ l, List.pairwise_insertionSort _ l⟩⟩

/-- C164 and C165 are about something for simplex interpolation. -/
example : ∃ sort : List (ℝ × Nat) → List (ℝ × Nat), IsSort sort ∧
    (∃ v v', interpSimplex sort ⟨[[0, 1], [0, 2]], [1, 2, 3, 5]⟩ [1 / 3, 1] = .ok v ∧ interpSimplex sort ⟨[[0, 1], [0, 2]], [1, 2, 3, 5]⟩ [1 / 2, 7] = .ok v' ∧ v ≤ v') ∧
    (∃ v v', interpSimplex sort ⟨[[0, 1], [0, 2]], [1, 2, 3, 5]⟩ [1 / 3, 1] = .ok v ∧ interpSimplex sort ⟨[[0, 1], [0, 2]], [1, 2, 3, 5]⟩ [1 / 2, 0] = .ok v' ∧
      |v - v'| ≤ 3 * |1 / 3 - 1 / 2| + (1 * |1 - 0| + 0)) := by
  obtain ⟨sort, hs⟩ := exists_sort_real
  have hg : Axes ([[0, 1], [0, 2]] : List (List ℝ)) := ⟨by simp, by simp, by simp⟩
  refine ⟨sort, hs, ?_, ?_⟩
  · refine C164_simplex hg (square_holds 1 2 3 5) (by simp [NDInterp.new]) hs hs (ds := [.up, .up]) ?_ rfl rfl
      ⟨by norm_num [Trend.Moves], by norm_num [Trend.Moves], trivial⟩
    intro i p i' p' h1 h2 hm
    cases h1 with
    | @cons _ _ i is a ps hi h1 =>
    cases h1 with
    | @cons _ _ j is b ps hj h1 =>
    cases h1
    cases h2 with
    | @cons _ _ i' is a' ps hi' h2 =>
    cases h2 with
    | @cons _ _ j' is b' ps hj' h2 =>
    cases h2
    have l1 := (List.getElem?_eq_some_iff.mp hi).1
    have l2 := (List.getElem?_eq_some_iff.mp hi').1
    have l3 := (List.getElem?_eq_some_iff.mp hj).1
    have l4 := (List.getElem?_eq_some_iff.mp hj').1
    simp only [List.length_cons, List.length_nil, Nat.zero_add] at l1 l2 l3 l4
    obtain ⟨m1, m2, _⟩ := hm
    simp only [Trend.Moves] at m1 m2
    interval_cases i <;> interval_cases i' <;> interval_cases j <;> interval_cases j' <;> simp at hi hi' hj hj' <;> subst hi hi' hj hj' <;> norm_num [pos] at *
  · refine C165_lipschitz hg (square_holds 1 2 3 5) (by simp [NDInterp.new]) hs hs (Ls := [3, 1]) ?_ rfl rfl
    refine ⟨by norm_num, ?_, ?_⟩
    · intro i a b ha hb is his
      cases his with
      | @cons j _ js _ hj h =>
        cases h
        have hi := (List.getElem?_eq_some_iff.mp hb).1
        simp only [List.length_cons, List.length_nil, Nat.zero_add] at hi hj
        have hi : i < 1 := by omega
        interval_cases i <;> interval_cases j <;> simp at ha hb <;> subst ha hb <;> norm_num [pos]
    · intro i hi
      refine ⟨by norm_num, ?_, fun _ _ => trivial⟩
      intro j a b ha hb is his
      cases his
      have hj := (List.getElem?_eq_some_iff.mp hb).1
      simp only [List.length_cons, List.length_nil, Nat.zero_add] at hi hj
      have hj : j < 1 := by omega
      interval_cases i <;> interval_cases j <;> simp at ha hb <;> subst ha hb <;> norm_num [pos]

example : ∃ s, Loaded 2 [[0, 1, 3], [10, 20]] gridF s ∧ ∃ v v', RGI.interpolate s [2, 15] false = .ok v ∧ RGI.interpolate s [7 / 3, 15] false = .ok v' ∧ v ≤ v' := by
  obtain ⟨s, hs⟩ := gridLoaded
  refine ⟨s, hs, C164_grid hs (ds := [.up, .same]) ?_ rfl rfl ⟨by norm_num [Trend.Moves], rfl, trivial⟩⟩
  intro i p i' p' h1 h2 hm
  cases h1 with
  | @cons _ _ i is a ps hi h1 =>
  cases h1 with
  | @cons _ _ j is b ps hj h1 =>
  cases h1
  cases h2 with
  | @cons _ _ i' is a' ps hi' h2 =>
  cases h2 with
  | @cons _ _ j' is b' ps hj' h2 =>
  cases h2
  have l1 := (List.getElem?_eq_some_iff.mp hi).1
  have l2 := (List.getElem?_eq_some_iff.mp hi').1
  have l3 := (List.getElem?_eq_some_iff.mp hj).1
  have l4 := (List.getElem?_eq_some_iff.mp hj').1
  simp only [List.length_cons, List.length_nil, Nat.zero_add] at l1 l2 l3 l4
  obtain ⟨m1, m2, _⟩ := hm
  simp only [Trend.Moves] at m1 m2
  interval_cases i <;> interval_cases i' <;> interval_cases j <;> interval_cases j' <;> simp at hi hi' hj hj' <;> subst hi hi' hj hj' <;> norm_num [gridF] at *

/-- C164 is about something for tables: up in the first variable, down in the second. -/
example : ∃ v v', interp2d ⟨true⟩ .LINEAR [(0 : ℚ), 1, 3] [(10 : ℚ), 20] [2, 1, 4, 3, 6, 5] (1 / 2) 20 = .ok v ∧
    interp2d ⟨true⟩ .LINEAR [(0 : ℚ), 1, 3] [(10 : ℚ), 20] [2, 1, 4, 3, 6, 5] 2 15 = .ok v' ∧ v ≤ v' := by
  have g : Grid [(0 : ℚ), 1, 3] [(10 : ℚ), 20] [2, 1, 4, 3, 6, 5] := ⟨by simp, by simp, by norm_num, by norm_num, by simp⟩
  refine C164_interp2d ⟨true⟩ g (dx := .up) (dy := .down) ?_ (by norm_num) (by norm_num) (by norm_num) (by norm_num) (by norm_num) (by norm_num) (by norm_num)
    (by norm_num) (by norm_num [Trend.Moves]) (by norm_num [Trend.Moves])
  intro i j i' j' hi hj hi' hj' h1 h2
  simp only [Trend.Moves] at h1 h2
  simp only [List.length_cons, List.length_nil, Nat.zero_add] at hi hj hi' hj'
  interval_cases i <;> interval_cases i' <;> interval_cases j <;> interval_cases j' <;> norm_num [Grid.at] at *

end MU
