import Verif.Lemmas.Lipschitz
import Verif.Props.Interp1d
import Verif.Props.Interp2d
import Verif.Props.RegularGrid
import Mathlib.Tactic.IntervalCases

/-!
# C117: the interpolants vary no faster than the data, and follow small changes of the data
-/

set_option linter.unusedSectionVars false

namespace MU
open Spec NDInterp

variable {K : Type} [Field K] [LinearOrder K] [IsStrictOrderedRing K]

/-! ## One variable -/

theorem interp1d_axis (B : Build) {m : InterpMethod} (hm : m ≠ .BSPLINE) {xs ys : List K} (ht : Table xs ys) {x : K}
    (h0 : xs[0]'(by have := ht.two; omega) ≤ x) (h1 : x ≤ xs[xs.length - 1]'(by have := ht.two; omega)) {c : Int} {y : K} {lo hi : Nat}
    (h : AxisRes xs x c y lo hi) : interp1d B m xs ys x = .ok (ys.getD lo 0 + y * (ys.getD hi 0 - ys.getD lo 0)) := by
  have hs := ht.sizes
  obtain ⟨i, hi, ha, hb⟩ := Interp1d.exists_cell ht.increasing ht.two h0 h1
  rw [C01_piecewise_affine B hm ht hi (by omega) ha hb,
    h.bracket ht.increasing (List.getElem?_eq_getElem (show i < xs.length by omega)) (List.getElem?_eq_getElem hi) ha hb (fun j => ys.getD j 0)]
  simp only [List.getD_eq_getElem?_getD, List.getElem?_eq_getElem (show i < ys.length by omega), List.getElem?_eq_getElem (show i + 1 < ys.length by omega),
    Option.getD_some]

theorem saturate_axis (B : Build) {xs ys : List K} (ht : Table xs ys) {x : K} {c : Int} {y : K} {lo hi : Nat}
    (h : AxisRes xs x c y lo hi) : interp1d B .LINEAR_SATURATE xs ys x = .ok (ys.getD lo 0 + y * (ys.getD hi 0 - ys.getD lo 0)) := by
  have hs := ht.sizes
  have h2 := ht.two
  cases h with
  | below a h0 h1 =>
    obtain ⟨hl, rfl⟩ := List.getElem?_eq_some_iff.mp h0
    rw [C03_saturate_left B ht hl (by omega) h1.le]
    simp [List.getElem?_eq_getElem (show 0 < ys.length by omega)]
  | above b h0 h1 =>
    obtain ⟨hl, rfl⟩ := List.getElem?_eq_some_iff.mp h0
    rw [C03_saturate_right B ht hl (by omega) h1]
    simp [List.getElem?_eq_getElem (show ys.length - 1 < ys.length by omega), hs]
  | inside lo a b h0 h1 ha hb =>
    obtain ⟨hl, rfl⟩ := List.getElem?_eq_some_iff.mp h0
    obtain ⟨hl1, rfl⟩ := List.getElem?_eq_some_iff.mp h1
    exact interp1d_axis B (by simp) ht ((getElem_le_of_pairwise ht.increasing (Nat.zero_le _) hl).trans ha)
      (hb.le.trans (getElem_le_of_pairwise ht.increasing (show lo + 1 ≤ xs.length - 1 by omega) (by omega))) (.inside lo _ _ h0 h1 ha hb)

theorem slopes_getD {xs ys : List K} (ht : Table xs ys) {L : K}
    (hL : ∀ i (hi : i + 1 < xs.length) (hi' : i + 1 < ys.length), |ys[i + 1] - ys[i]| ≤ L * (xs[i + 1] - xs[i])) :
    0 ≤ L ∧ ∀ i a b, xs[i]? = some a → xs[i + 1]? = some b → |ys.getD (i + 1) 0 - ys.getD i 0| ≤ L * (b - a) := by
  have hs := ht.sizes
  have h2 := ht.two
  refine ⟨?_, ?_⟩
  · have h := (abs_nonneg _).trans (hL 0 (by omega) (by omega))
    have hp : xs[0] < xs[0 + 1] := getElem_lt_of_pairwise ht.increasing (by omega) (by omega)
    exact nonneg_of_mul_nonneg_left h (sub_pos.2 hp)
  · intro i a b ha hb
    obtain ⟨hl, rfl⟩ := List.getElem?_eq_some_iff.mp ha
    obtain ⟨hl1, rfl⟩ := List.getElem?_eq_some_iff.mp hb
    simpa [List.getElem?_eq_getElem (show i < ys.length by omega), List.getElem?_eq_getElem (show i + 1 < ys.length by omega)] using
      hL i hl1 (by omega)

/-- C117: when the segments of the table have slopes of at most `L` in magnitude, two points of the range `d` apart have values at most `L d` apart. -/
theorem C117_interp1d (B : Build) {m : InterpMethod} (hm : m ≠ .BSPLINE) {xs ys : List K} (ht : Table xs ys) {L : K}
    (hL : ∀ i (hi : i + 1 < xs.length) (hi' : i + 1 < ys.length), |ys[i + 1] - ys[i]| ≤ L * (xs[i + 1] - xs[i])) {x x' : K}
    (h0 : xs[0]'(by have := ht.two; omega) ≤ x) (h1 : x ≤ xs[xs.length - 1]'(by have := ht.two; omega))
    (h0' : xs[0]'(by have := ht.two; omega) ≤ x') (h1' : x' ≤ xs[xs.length - 1]'(by have := ht.two; omega)) :
    ∃ v v', interp1d B m xs ys x = .ok v ∧ interp1d B m xs ys x' = .ok v' ∧ |v - v'| ≤ L * |x - x'| := by
  have hne : xs ≠ [] := by intro h; have := ht.two; simp [h] at this
  obtain ⟨c, y, lo, hi, -, hr⟩ := axis_res hne ht.increasing x
  obtain ⟨c', y', lo', hi', -, hr'⟩ := axis_res hne ht.increasing x'
  obtain ⟨hL0, hp⟩ := slopes_getD ht hL
  exact ⟨_, _, interp1d_axis B hm ht h0 h1 hr, interp1d_axis B hm ht h0' h1' hr', hr.lipschitz ht.increasing hr' (p := fun j => ys.getD j 0) hL0 hp⟩

/-- C117 for LINEAR_SATURATE: the same bound holds for all points, inside and outside the range. -/
theorem C117_saturate (B : Build) {xs ys : List K} (ht : Table xs ys) {L : K}
    (hL : ∀ i (hi : i + 1 < xs.length) (hi' : i + 1 < ys.length), |ys[i + 1] - ys[i]| ≤ L * (xs[i + 1] - xs[i])) (x x' : K) :
    ∃ v v', interp1d B .LINEAR_SATURATE xs ys x = .ok v ∧ interp1d B .LINEAR_SATURATE xs ys x' = .ok v' ∧ |v - v'| ≤ L * |x - x'| := by
  have hne : xs ≠ [] := by intro h; have := ht.two; simp [h] at this
  obtain ⟨c, y, lo, hi, -, hr⟩ := axis_res hne ht.increasing x
  obtain ⟨c', y', lo', hi', -, hr'⟩ := axis_res hne ht.increasing x'
  obtain ⟨hL0, hp⟩ := slopes_getD ht hL
  exact ⟨_, _, saturate_axis B ht hr, saturate_axis B ht hr', hr.lipschitz ht.increasing hr' (p := fun j => ys.getD j 0) hL0 hp⟩

/-- C117, changes of the data: two tables on the same abscissae whose ordinates differ by at most `ε` give values that differ by at most `ε`. -/
theorem C117_interp1d_data (B : Build) {m : InterpMethod} (hm : m ≠ .BSPLINE) {xs ys zs : List K} (hty : Table xs ys) (htz : Table xs zs) {ε : K}
    (hε : ∀ i (hi : i < ys.length) (hi' : i < zs.length), |ys[i] - zs[i]| ≤ ε) {x : K}
    (h0 : xs[0]'(by have := hty.two; omega) ≤ x) (h1 : x ≤ xs[xs.length - 1]'(by have := hty.two; omega)) :
    ∃ v w, interp1d B m xs ys x = .ok v ∧ interp1d B m xs zs x = .ok w ∧ |v - w| ≤ ε := by
  have hne : xs ≠ [] := by intro h; have := hty.two; simp [h] at this
  obtain ⟨c, y, lo, hi, -, hr⟩ := axis_res hne hty.increasing x
  refine ⟨_, _, interp1d_axis B hm hty h0 h1 hr, interp1d_axis B hm htz h0 h1 hr, ?_⟩
  have hd : ∀ i, i < xs.length → |ys.getD i 0 - zs.getD i 0| ≤ ε := fun i hi => by
    have hy : i < ys.length := by rw [← hty.sizes]; exact hi
    have hz : i < zs.length := by rw [← htz.sizes]; exact hi
    simpa [List.getElem?_eq_getElem hy, List.getElem?_eq_getElem hz] using hε i hy hz
  have := abs_convex_le hr.frac.1 hr.frac.2 (hd lo hr.lo_lt) (hd hi hr.hi_lt)
  refine le_of_eq_of_le (congrArg abs ?_) this
  ring

example : ∃ v v', interp1d ⟨true⟩ .LINEAR_SATURATE [(0 : ℚ), 1, 3] [(5 : ℚ), 7, 1] (1 / 2) = .ok v ∧
    interp1d ⟨true⟩ .LINEAR_SATURATE [(0 : ℚ), 1, 3] [(5 : ℚ), 7, 1] 4 = .ok v' ∧ |v - v'| ≤ 3 * |1 / 2 - 4| :=
  C117_saturate ⟨true⟩ (xs := [(0 : ℚ), 1, 3]) (ys := [(5 : ℚ), 7, 1]) ⟨by simp, by norm_num, by simp⟩ (fun i hi _ => by
    have hi : i < 2 := by simp at hi; omega
    interval_cases i <;> norm_num [abs_of_neg, abs_of_pos]) _ _

/-! ## Any number of variables -/

/-- C117 on grids of any dimension: when along each axis the data of neighbouring nodes differ by at most the rate of this axis times their distance, the
values at any two points, inside or outside the box, differ by at most the sum over the axes of the rate times the difference of the coordinates. -/
theorem C117_grid {dim : Nat} {grids : List (List K)} {F : List Nat → K} {s : RGI K} (h : Loaded dim grids F s) {Ls : List K}
    (hF : LipschitzData grids Ls F) {x x' : List K} (hx : x.length = dim) (hx' : x'.length = dim) :
    ∃ v v', RGI.interpolate s x false = .ok v ∧ RGI.interpolate s x' false = .ok v' ∧ |v - v'| ≤ weightedDistance Ls x x' := by
  obtain ⟨hg, hd, _, hH, _⟩ := RGI.Loaded.fields h
  obtain ⟨cs, ys, ws, hr, he⟩ := interp_cube hg hH (hx.trans hd.symm)
  obtain ⟨cs', ys', ws', hr', he'⟩ := interp_cube hg hH (hx'.trans hd.symm)
  exact ⟨_, _, by rw [RGI.interpolate_loaded h, he], by rw [RGI.interpolate_loaded h, he'], cube_lipschitz hg.increasing hr hr' hF⟩

/-- C117, changes of the data: two objects loaded on the same axes with data that differ by at most `ε` give values that differ by at most `ε`. -/
theorem C117_grid_data {dim : Nat} {grids : List (List K)} {F G : List Nat → K} {s t : RGI K} (hs : Loaded dim grids F s)
    (ht : Loaded dim grids G t) {ε : K} (hε : ∀ idx, Inside idx (grids.map List.length) → |F idx - G idx| ≤ ε) {x : List K} (hx : x.length = dim) :
    ∃ v w, RGI.interpolate s x false = .ok v ∧ RGI.interpolate t x false = .ok w ∧ |v - w| ≤ ε := by
  obtain ⟨hg, hd, _, hH, _⟩ := RGI.Loaded.fields hs
  obtain ⟨_, _, _, hH', _⟩ := RGI.Loaded.fields ht
  obtain ⟨cs, ys, ws, hr, he⟩ := interp_cube hg hH (hx.trans hd.symm)
  obtain ⟨cs', ys', ws', hr', he'⟩ := interp_cube hg hH' (hx.trans hd.symm)
  have hw : ws = ws' := hr.det hg.increasing hr'
  exact ⟨_, _, by rw [RGI.interpolate_loaded hs, he], by rw [RGI.interpolate_loaded ht, he', ← hw], cube_stable hr hε⟩

theorem gridF_lipschitz : LipschitzData [[0, 1, 3], [10, 20]] [2, 1 / 10] gridF := by
  refine ⟨by norm_num, ?_, ?_⟩
  · intro i a b ha hb is his
    cases his with
    | @cons j _ js _ hj h =>
      cases h
      have hi := (List.getElem?_eq_some_iff.mp hb).1
      simp only [List.length_cons, List.length_nil, Nat.zero_add] at hi hj
      have hi : i < 2 := by omega
      interval_cases i <;> interval_cases j <;> simp at ha hb <;> subst ha hb <;> norm_num [gridF]
  · intro i hi
    refine ⟨by norm_num, ?_, fun _ _ => trivial⟩
    intro j a b ha hb is his
    cases his
    have hj := (List.getElem?_eq_some_iff.mp hb).1
    simp only [List.length_cons, List.length_nil, Nat.zero_add] at hi hj
    have hj : j < 1 := by omega
    interval_cases i <;> interval_cases j <;> simp at ha hb <;> subst ha hb <;> norm_num [gridF]

example : ∃ s, Loaded 2 [[0, 1, 3], [10, 20]] gridF s ∧ ∃ v v', RGI.interpolate s [2, 15] false = .ok v ∧ RGI.interpolate s [-1, 17] false = .ok v' ∧
    |v - v'| ≤ 2 * |2 - -1| + (1 / 10 * |15 - 17| + 0) := by
  obtain ⟨s, hs⟩ := gridLoaded
  exact ⟨s, hs, C117_grid hs gridF_lipschitz rfl rfl⟩

example : ∃ s, Loaded 2 [[0, 1, 3], [10, 20]] gridF s ∧ ∃ v w, RGI.interpolate s [2, 15] false = .ok v ∧ RGI.interpolate s [2, 15] false = .ok w ∧
    |v - w| ≤ 0 := by
  obtain ⟨s, hs⟩ := gridLoaded
  exact ⟨s, hs, C117_grid_data hs hs (fun _ _ => by simp) rfl⟩

/-! ## Two variables -/

/-- The datum of node `(i, j)` as a function of the list `[j, i]`. -/
def gridData2 {xs ys data : List K} (_ : Grid xs ys data) : List Nat → K
  | [j, i] => data.getD (i * ys.length + j) 0
  | _ => 0

theorem gridData2_eq {xs ys data : List K} (g : Grid xs ys data) {i j : Nat} (hi : i < xs.length) (hj : j < ys.length) :
    gridData2 g [j, i] = g.at i j hi hj := by
  simp [gridData2, Grid.at, List.getElem?_eq_getElem (g.idx_lt hi hj)]

theorem interp2d_axes (B : Build) {xs ys data : List K} (g : Grid xs ys data) {x y : K}
    (hx0 : xs[0]'(by have := g.twox; omega) ≤ x) (hx1 : x ≤ xs[xs.length - 1]'(by have := g.twox; omega))
    (hy0 : ys[0]'(by have := g.twoy; omega) ≤ y) (hy1 : y ≤ ys[ys.length - 1]'(by have := g.twoy; omega)) {cs : List Int} {fs : List K}
    {ws : List (Nat × Nat × K)} (h : AxesRes [ys, xs] [y, x] cs fs ws) : interp2d B .LINEAR xs ys data x y = .ok (cube ws (gridData2 g)) := by
  obtain ⟨i, j, hi, hj, hxa, hxb, hya, hyb⟩ := C08_range_covered g hx0 hx1 hy0 hy1
  have hb : Brackets [ys, xs] [(j, ys[j], ys[j + 1]), (i, xs[i], xs[i + 1])] [y, x] :=
    .cons (List.getElem?_eq_getElem _) (List.getElem?_eq_getElem _) hya hyb
      (.cons (List.getElem?_eq_getElem _) (List.getElem?_eq_getElem _) hxa hxb .nil)
  rw [C08_bilinear B g hi hj hxa hxb hya hyb, cube_tensor (by simpa using ⟨g.incy, g.incx⟩) h hb]
  simp only [tensor, bilinear, gridData2_eq g (show i < xs.length by omega) (show j < ys.length by omega), gridData2_eq g hi hj,
    gridData2_eq g (show i < xs.length by omega) hj, gridData2_eq g hi (show j < ys.length by omega)]

theorem axes_exist {grids : List (List K)} (hne : ∀ g ∈ grids, g ≠ []) (hinc : ∀ g ∈ grids, g.Pairwise (· < ·)) {x : List K}
    (hx : x.length = grids.length) : ∃ cs ys ws, AxesRes grids x cs ys ws := by
  obtain ⟨cs, ys, ws, -, h⟩ := axes_res hne hinc hx
  exact ⟨cs, ys, ws, h⟩

theorem Grid.axes_exist {xs ys data : List K} (g : Grid xs ys data) (x y : K) : ∃ cs fs ws, AxesRes [ys, xs] [y, x] cs fs ws := by
  refine MU.axes_exist ?_ (by simpa using ⟨g.incy, g.incx⟩) rfl
  have h1 := g.twox
  have h2 := g.twoy
  intro g' hg' h
  subst h
  simp only [List.mem_cons, List.not_mem_nil, or_false] at hg'
  rcases hg' with rfl | rfl
  · simp at h2
  · simp at h1

/-- C117, two variables: when the data of neighbouring nodes differ by at most `Lx` (`Ly`) times their distance, the values at two points of the
rectangle differ by at most `Lx |x - x'| + Ly |y - y'|`. -/
theorem C117_interp2d (B : Build) {xs ys data : List K} (g : Grid xs ys data) {Lx Ly : K}
    (hLx : ∀ i j (hi : i + 1 < xs.length) (hj : j < ys.length), |g.at (i + 1) j hi hj - g.at i j (by omega) hj| ≤ Lx * (xs[i + 1] - xs[i]))
    (hLy : ∀ i j (hi : i < xs.length) (hj : j + 1 < ys.length), |g.at i (j + 1) hi hj - g.at i j hi (by omega)| ≤ Ly * (ys[j + 1] - ys[j]))
    {x y x' y' : K}
    (hx0 : xs[0]'(by have := g.twox; omega) ≤ x) (hx1 : x ≤ xs[xs.length - 1]'(by have := g.twox; omega))
    (hy0 : ys[0]'(by have := g.twoy; omega) ≤ y) (hy1 : y ≤ ys[ys.length - 1]'(by have := g.twoy; omega))
    (hx0' : xs[0]'(by have := g.twox; omega) ≤ x') (hx1' : x' ≤ xs[xs.length - 1]'(by have := g.twox; omega))
    (hy0' : ys[0]'(by have := g.twoy; omega) ≤ y') (hy1' : y' ≤ ys[ys.length - 1]'(by have := g.twoy; omega)) :
    ∃ v v', interp2d B .LINEAR xs ys data x y = .ok v ∧ interp2d B .LINEAR xs ys data x' y' = .ok v' ∧
      |v - v'| ≤ Lx * |x - x'| + Ly * |y - y'| := by
  have h2x := g.twox
  have h2y := g.twoy
  obtain ⟨cs, fs, ws, hr⟩ := Grid.axes_exist g x y
  obtain ⟨cs', fs', ws', hr'⟩ := Grid.axes_exist g x' y'
  refine ⟨_, _, interp2d_axes B g hx0 hx1 hy0 hy1 hr, interp2d_axes B g hx0' hx1' hy0' hy1' hr', ?_⟩
  have hLx0 : 0 ≤ Lx := nonneg_of_mul_nonneg_left ((abs_nonneg _).trans (hLx 0 0 (by omega) (by omega)))
    (sub_pos.2 (getElem_lt_of_pairwise g.incx (by omega) (by omega)))
  have hLy0 : 0 ≤ Ly := nonneg_of_mul_nonneg_left ((abs_nonneg _).trans (hLy 0 0 (by omega) (by omega)))
    (sub_pos.2 (getElem_lt_of_pairwise g.incy (by omega) (by omega)))
  have hF : LipschitzData [ys, xs] [Ly, Lx] (gridData2 g) := by
    refine ⟨hLy0, ?_, ?_⟩
    · intro j a b ha hb is his
      cases his with
      | @cons i _ is _ hi h =>
        cases h
        obtain ⟨_, rfl⟩ := List.getElem?_eq_some_iff.mp ha
        obtain ⟨hj, rfl⟩ := List.getElem?_eq_some_iff.mp hb
        rw [gridData2_eq g hi hj, gridData2_eq g hi (show j < ys.length by omega)]
        exact hLy i j hi hj
    · intro j hj
      refine ⟨hLx0, ?_, fun _ _ => trivial⟩
      intro i a b ha hb is his
      cases his
      obtain ⟨_, rfl⟩ := List.getElem?_eq_some_iff.mp ha
      obtain ⟨hi, rfl⟩ := List.getElem?_eq_some_iff.mp hb
      show |gridData2 g [j, i + 1] - gridData2 g [j, i]| ≤ _
      rw [gridData2_eq g hi hj, gridData2_eq g (show i < xs.length by omega) hj]
      exact hLx i j hi hj
  have := cube_lipschitz (by simpa using ⟨g.incy, g.incx⟩) hr hr' hF
  simp only [weightedDistance, add_zero] at this
  rwa [add_comm]

/-- C117, two variables, changes of the data. -/
theorem C117_interp2d_data (B : Build) {xs ys d d' : List K} (g : Grid xs ys d) (g' : Grid xs ys d') {ε : K}
    (hε : ∀ i j (hi : i < xs.length) (hj : j < ys.length), |g.at i j hi hj - g'.at i j hi hj| ≤ ε) {x y : K}
    (hx0 : xs[0]'(by have := g.twox; omega) ≤ x) (hx1 : x ≤ xs[xs.length - 1]'(by have := g.twox; omega))
    (hy0 : ys[0]'(by have := g.twoy; omega) ≤ y) (hy1 : y ≤ ys[ys.length - 1]'(by have := g.twoy; omega)) :
    ∃ v w, interp2d B .LINEAR xs ys d x y = .ok v ∧ interp2d B .LINEAR xs ys d' x y = .ok w ∧ |v - w| ≤ ε := by
  obtain ⟨cs, fs, ws, hr⟩ := Grid.axes_exist g x y
  refine ⟨_, _, interp2d_axes B g hx0 hx1 hy0 hy1 hr, interp2d_axes B g' hx0 hx1 hy0 hy1 hr, cube_stable hr ?_⟩
  intro idx hidx
  cases hidx with
  | @cons j _ js _ hj h =>
    cases h with
    | @cons i _ is _ hi h =>
      cases h
      rw [gridData2_eq g hi hj, gridData2_eq g' hi hj]
      exact hε i j hi hj

theorem sampleGrid117 : Grid [(0 : ℚ), 1, 3] [(10 : ℚ), 20] [1, 2, 3, 4, 5, 6] := ⟨by simp, by simp, by norm_num, by norm_num, by simp⟩

example : ∃ v v', interp2d ⟨true⟩ .LINEAR [(0 : ℚ), 1, 3] [(10 : ℚ), 20] [1, 2, 3, 4, 5, 6] 2 15 = .ok v ∧
    interp2d ⟨true⟩ .LINEAR [(0 : ℚ), 1, 3] [(10 : ℚ), 20] [1, 2, 3, 4, 5, 6] (1 / 2) 20 = .ok v' ∧
    |v - v'| ≤ 2 * |2 - 1 / 2| + 1 / 10 * |15 - 20| :=
  C117_interp2d ⟨true⟩ sampleGrid117 (fun i j hi hj => by
      simp at hi hj
      have hi : i < 2 := by omega
      interval_cases i <;> interval_cases j <;> norm_num [Grid.at]) (fun i j hi hj => by
      simp at hi hj
      have hj : j = 0 := by omega
      subst hj
      interval_cases i <;> norm_num [Grid.at])
    (by norm_num) (by norm_num) (by norm_num) (by norm_num) (by norm_num) (by norm_num) (by norm_num) (by norm_num)

end MU
