import Verif.Props.Agreement
import Verif.Props.ChebyshevAlgebra
import Verif.Props.PowerSeries
import Verif.Lemmas.Lipschitz
import Verif.Lemmas.LoadGrid

/-!
# C226: several variables, a few at a time

Interpolating in some of the variables at each node of the others, and then in the others, gives the interpolation in all of them. Sections, sums and products of data follow.
-/

set_option linter.unusedSectionVars false

namespace MU
open Spec Finset NDInterp

/-! ## Regular grids -/

section grids
variable {K : Type} [Field K] [LinearOrder K] [IsStrictOrderedRing K]

theorem NDInterp.AxesRes.join {gB gA : List (List K)} {xb xa : List K} {cs cs' : List Int} {ys ys' : List K} {ws ws' : List (Nat × Nat × K)} (h : AxesRes gB xb cs ys ws)
    (h' : AxesRes gA xa cs' ys' ws') : AxesRes (gB ++ gA) (xb ++ xa) (cs ++ cs') (ys ++ ys') (ws ++ ws') := by
  induction h with
  | nil => exact h'
  | cons h1 _ ih => exact .cons h1 ih

theorem cube_append (ws ws' : List (Nat × Nat × K)) (F : List Nat → K) : cube (ws ++ ws') F = cube ws (fun i => cube ws' (fun j => F (i ++ j))) := by
  induction ws generalizing F with
  | nil => rfl
  | cons w ws ih =>
    obtain ⟨lo, hi, y⟩ := w
    simp only [List.cons_append, cube, ih]

theorem cube_inside {grids : List (List K)} {x : List K} {cs : List Int} {ys : List K} {ws : List (Nat × Nat × K)} (h : AxesRes grids x cs ys ws)
    {F G : List Nat → K} (hFG : ∀ i, Inside i (grids.map List.length) → F i = G i) : cube ws F = cube ws G := by
  induction h generalizing F G with
  | nil => exact hFG [] .nil
  | cons h1 _ ih =>
    simp only [cube]
    rw [ih (fun i hi => hFG _ (.cons h1.lo_lt hi)), ih (fun i hi => hFG _ (.cons h1.hi_lt hi))]

theorem cube_mul_right (ws : List (Nat × Nat × K)) (F : List Nat → K) (c : K) : cube ws (fun i => F i * c) = cube ws F * c := by
  induction ws generalizing F with
  | nil => rfl
  | cons w ws ih => obtain ⟨lo, hi, y⟩ := w; simp only [cube, ih]; ring

theorem cube_mul_left (ws : List (Nat × Nat × K)) (F : List Nat → K) (c : K) : cube ws (fun i => c * F i) = c * cube ws F := by
  simp only [mul_comm c]
  exact cube_mul_right ws F c

theorem cube_plus (ws : List (Nat × Nat × K)) (F G : List Nat → K) : cube ws (fun i => F i + G i) = cube ws F + cube ws G := by
  induction ws generalizing F G with
  | nil => rfl
  | cons w ws ih => obtain ⟨lo, hi, y⟩ := w; simp only [cube, ih]; ring

theorem cube_same (ws : List (Nat × Nat × K)) (c : K) : cube ws (fun _ => c) = c := by
  induction ws with
  | nil => rfl
  | cons w ws ih => obtain ⟨lo, hi, y⟩ := w; simp only [cube, ih]; ring

theorem Loaded_cube {dim : Nat} {grids : List (List K)} {F : List Nat → K} {s : RGI K} (h : Loaded dim grids F s) {x : List K} (hx : x.length = dim) :
    ∃ cs ys ws, AxesRes grids x cs ys ws ∧ RGI.interpolate s x false = .ok (cube ws F) := by
  obtain ⟨hg, hd, _, hF, _⟩ := RGI.Loaded.fields h
  obtain ⟨cs, ys, ws, hr, he⟩ := interp_cube hg hF (hx.trans hd.symm)
  exact ⟨cs, ys, ws, hr, by rw [RGI.interpolate_loaded h, he]⟩

theorem Loaded_cube_of {dim : Nat} {grids : List (List K)} {F : List Nat → K} {s : RGI K} (h : Loaded dim grids F s) {x : List K} (hx : x.length = dim)
    {cs : List Int} {ys : List K} {ws : List (Nat × Nat × K)} (hr : AxesRes grids x cs ys ws) : RGI.interpolate s x false = .ok (cube ws F) := by
  obtain ⟨_, _, ws', hr', he⟩ := Loaded_cube h hx
  rw [he, AxesRes.det (RGI.Loaded.fields h).1.increasing hr' hr]

theorem inside_append {i j m n : List Nat} (hi : Inside i m) (hj : Inside j n) : Inside (i ++ j) (m ++ n) := List.rel_append hi hj

/-- C226: interpolating in the last variables at each node of the first ones, then in the first ones the values obtained, is interpolating in all variables: at every point,
inside the grid or not. -/
theorem C226_grid {d d' : Nat} {gB gA : List (List K)} {F V : List Nat → K} {s u : RGI K} (hs : Loaded (d + d') (gB ++ gA) F s) (hu : Loaded d gB V u)
    {xb xa : List K} (hb : xb.length = d) (ha : xa.length = d')
    (hV : ∀ i, Inside i (gB.map List.length) → ∃ t, Loaded d' gA (fun j => F (i ++ j)) t ∧ RGI.interpolate t xa false = .ok (V i)) :
    ∃ v, RGI.interpolate s (xb ++ xa) false = .ok v ∧ RGI.interpolate u xb false = .ok v := by
  obtain ⟨cs, ys, ws, hr, he⟩ := Loaded_cube hu hb
  obtain ⟨hg, hd, -⟩ := RGI.Loaded.fields hs
  have hdB := (RGI.Loaded.fields hu).2.1
  have hlA : gA.length = d' := by
    rw [List.length_append] at hd
    omega
  obtain ⟨cs', ys', ws', -, hr'⟩ := axes_res (fun g h => hg.nonempty g (by simp [h])) (fun g h => hg.increasing g (by simp [h])) (ha.trans hlA.symm)
  refine ⟨_, ?_, he⟩
  rw [Loaded_cube_of hs (by simp [hb, ha]) (hr.join hr'), cube_append]
  congr 1
  refine cube_inside hr fun i hi => ?_
  obtain ⟨t, ht, htv⟩ := hV i hi
  rw [Loaded_cube_of ht ha hr'] at htv
  exact Res.ok.inj htv

/-- C226, sections: with the first coordinates those of a node, the value is that of the grid of the other axes with the data of this node. -/
theorem C226_section {d d' : Nat} {gB gA : List (List K)} {F : List Nat → K} {s t : RGI K} (hs : Loaded (d + d') (gB ++ gA) F s) {i : List Nat} {xb xa : List K}
    (hb : IsNode gB i xb) (hl : gB.length = d) (ht : Loaded d' gA (fun j => F (i ++ j)) t) (ha : xa.length = d') :
    ∃ v, RGI.interpolate s (xb ++ xa) false = .ok v ∧ RGI.interpolate t xa false = .ok v := by
  obtain ⟨hg, hd, -⟩ := RGI.Loaded.fields hs
  have hxb := RGI.IsNode.len hb
  obtain ⟨cs', ys', ws', hr', he⟩ := Loaded_cube ht ha
  obtain ⟨cs, ys, ws, -, hr⟩ := axes_res (fun g h => hg.nonempty g (by simp [h])) (fun g h => hg.increasing g (by simp [h])) (x := xb) (grids := gB) (by omega)
  refine ⟨_, ?_, he⟩
  rw [Loaded_cube_of hs (by simp [ha]; omega) (hr.join hr'), cube_append, cube_node (fun g h => hg.increasing g (by simp [h])) hr hb]

/-- C226, products: data that are a product of data of the first axes and data of the others are interpolated by the product of the interpolations. -/
theorem C226_product {d d' : Nat} {gB gA : List (List K)} {F G H : List Nat → K} {s u t : RGI K} (hs : Loaded (d + d') (gB ++ gA) F s) (hu : Loaded d gB G u)
    (ht : Loaded d' gA H t) (hF : ∀ i j, Inside i (gB.map List.length) → Inside j (gA.map List.length) → F (i ++ j) = G i * H j) {xb xa : List K}
    (hb : xb.length = d) (ha : xa.length = d') :
    ∃ p q, RGI.interpolate u xb false = .ok p ∧ RGI.interpolate t xa false = .ok q ∧ RGI.interpolate s (xb ++ xa) false = .ok (p * q) := by
  obtain ⟨cs, ys, ws, hr, he⟩ := Loaded_cube hu hb
  obtain ⟨cs', ys', ws', hr', he'⟩ := Loaded_cube ht ha
  refine ⟨_, _, he, he', ?_⟩
  rw [Loaded_cube_of hs (by simp [hb, ha]) (hr.join hr'), cube_append, cube_inside hr (G := fun i => G i * cube ws' H), cube_mul_right]
  intro i hi
  rw [cube_inside hr' (G := fun j => G i * H j) (fun j hj => hF i j hi hj), cube_mul_left]

/-- C226, sums. -/
theorem C226_sum {d d' : Nat} {gB gA : List (List K)} {F G H : List Nat → K} {s u t : RGI K} (hs : Loaded (d + d') (gB ++ gA) F s) (hu : Loaded d gB G u)
    (ht : Loaded d' gA H t) (hF : ∀ i j, Inside i (gB.map List.length) → Inside j (gA.map List.length) → F (i ++ j) = G i + H j) {xb xa : List K}
    (hb : xb.length = d) (ha : xa.length = d') :
    ∃ p q, RGI.interpolate u xb false = .ok p ∧ RGI.interpolate t xa false = .ok q ∧ RGI.interpolate s (xb ++ xa) false = .ok (p + q) := by
  obtain ⟨cs, ys, ws, hr, he⟩ := Loaded_cube hu hb
  obtain ⟨cs', ys', ws', hr', he'⟩ := Loaded_cube ht ha
  refine ⟨_, _, he, he', ?_⟩
  rw [Loaded_cube_of hs (by simp [hb, ha]) (hr.join hr'), cube_append, cube_inside hr (G := fun i => G i + cube ws' H), cube_plus, cube_same]
  intro i hi
  rw [cube_inside hr' (G := fun j => G i + H j) (fun j hj => hF i j hi hj), cube_plus, cube_same]

/-- C226: a variable on which the data do not depend has no effect. -/
theorem C226_unused {d d' : Nat} {gB gA : List (List K)} {F H : List Nat → K} {s t : RGI K} (hs : Loaded (d + d') (gB ++ gA) F s) (hl : gB.length = d)
    (ht : Loaded d' gA H t) (hF : ∀ i j, Inside i (gB.map List.length) → Inside j (gA.map List.length) → F (i ++ j) = H j) {xb xa : List K}
    (hb : xb.length = d) (ha : xa.length = d') :
    ∃ v, RGI.interpolate s (xb ++ xa) false = .ok v ∧ RGI.interpolate t xa false = .ok v := by
  obtain ⟨hg, hd, -⟩ := RGI.Loaded.fields hs
  obtain ⟨cs', ys', ws', hr', he⟩ := Loaded_cube ht ha
  obtain ⟨cs, ys, ws, -, hr⟩ := axes_res (fun g h => hg.nonempty g (by simp [h])) (fun g h => hg.increasing g (by simp [h])) (x := xb) (grids := gB) (by omega)
  refine ⟨_, ?_, he⟩
  rw [Loaded_cube_of hs (by simp [hb, ha]) (hr.join hr'), cube_append, cube_inside hr (G := fun _ => cube ws' H), cube_same]
  exact fun i hi => cube_inside hr' fun j hj => hF i j hi hj

end grids

/-- The hypotheses are met: a grid of two axes whose data are a sum, and the two grids of one axis. -/
example : ∃ s u t, Loaded (1 + 1) ([[(0 : ℚ), 1, 3]] ++ [[10, 20]]) gridF s ∧ Loaded 1 [[(0 : ℚ), 1, 3]] (fun i => 2 * (i.getD 0 0 : ℚ)) u ∧
    Loaded 1 [[(10 : ℚ), 20]] (fun j => (j.getD 0 0 : ℚ) + 1) t ∧ ∃ p q, RGI.interpolate u [5] false = .ok p ∧ RGI.interpolate t [13] false = .ok q ∧
      RGI.interpolate s [5, 13] false = .ok (p + q) := by
  obtain ⟨s, hs⟩ := gridLoaded
  obtain ⟨u, hu⟩ := exists_loaded (grids := [[(0 : ℚ), 1, 3]]) ⟨by simp, by simp, by simp⟩ (fun i => 2 * (i.getD 0 0 : ℚ))
  obtain ⟨t, ht⟩ := exists_loaded (grids := [[(10 : ℚ), 20]]) ⟨by simp, by simp, by simp; norm_num⟩ (fun j => (j.getD 0 0 : ℚ) + 1)
  refine ⟨s, u, t, hs, hu, ht, C226_sum hs hu ht (fun i j hi hj => ?_) rfl rfl⟩
  obtain ⟨i, _, hi0, h0, rfl⟩ := List.forall₂_cons_right_iff.1 hi
  obtain ⟨j, _, hj0, h1, rfl⟩ := List.forall₂_cons_right_iff.1 hj
  rw [List.map_nil, List.forall₂_nil_right_iff] at h0 h1
  subst h0 h1
  change i < 3 at hi0
  change j < 2 at hj0
  interval_cases i <;> interval_cases j <;> norm_num [gridF, List.getD]

section tables
variable {K : Type} [Field K] [LinearOrder K] [IsStrictOrderedRing K]

/-! ## Tables of two variables -/

/-- C226: interpolating each row in the second variable, then the values obtained in the first one, is interpolating in both. -/
theorem C226_interp2d (B : Build) {xs ys data : List K} (g : Grid xs ys data) {x y : K}
    (hx0 : xs[0]'(by have := g.twox; omega) ≤ x) (hx1 : x ≤ xs[xs.length - 1]'(by have := g.twox; omega))
    (hy0 : ys[0]'(by have := g.twoy; omega) ≤ y) (hy1 : y ≤ ys[ys.length - 1]'(by have := g.twoy; omega)) {V : List K} (hl : V.length = xs.length)
    (hV : ∀ i, i < xs.length → ∀ hi' : i < V.length,
      interp1d B .LINEAR ys ((List.range ys.length).map fun j => data.getD (i * ys.length + j) 0) y = .ok V[i]) :
    ∃ v, interp2d B .LINEAR xs ys data x y = .ok v ∧ interp1d B .LINEAR xs V x = .ok v := by
  obtain ⟨i, j, hi, hj, h1, h2, h3, h4⟩ := C08_range_covered g hx0 hx1 hy0 hy1
  have htV : Table xs V := ⟨g.twox, g.incx, hl.symm⟩
  have hd : ∀ i j, (hi : i < xs.length) → (hj : j < ys.length) → data.getD (i * ys.length + j) 0 = g.at i j hi hj := fun i j hi hj => by
    simp [Grid.at, List.getElem?_eq_getElem (g.idx_lt hi hj)]
  have row : ∀ i (hi : i < xs.length) (hi' : i < V.length), V[i] = line ys[j] (g.at i j hi (by omega)) ys[j + 1] (g.at i (j + 1) hi hj) y := by
    intro i hi hi'
    have ht : Table ys ((List.range ys.length).map fun j => data.getD (i * ys.length + j) 0) := ⟨g.twoy, g.incy, by simp⟩
    have := hV i hi hi'
    rw [C01_piecewise_affine B (by decide) ht hj (by simpa using hj) h3 h4] at this
    rw [← Res.ok.inj this]
    simp only [List.getElem_map, List.getElem_range, hd i j hi (by omega), hd i (j + 1) hi hj]
  refine ⟨_, C08_bilinear B g hi hj h1 h2 h3 h4, ?_⟩
  rw [C01_piecewise_affine B (by decide) htV hi (by omega) h1 h2, row i (by omega) (by omega), row (i + 1) hi (by omega)]
  have hx : xs[i + 1] - xs[i] ≠ 0 := (sub_pos.2 (getElem_lt_of_pairwise g.incx (by omega) hi)).ne'
  have hy : ys[j + 1] - ys[j] ≠ 0 := (sub_pos.2 (getElem_lt_of_pairwise g.incy (by omega) hj)).ne'
  congr 1
  simp only [bilinear, line]
  field_simp
  ring

end tables

/-- Rows `1 2`, `3 4`, `5 10` at `y = 1`: `3/2`, `7/2`, `15/2`; these at `x = 2`: `11/2`. -/
example : interp1d ⟨true⟩ .LINEAR ([0, 2] : List ℚ) ([5, 10] : List ℚ) 1 = .ok (15 / 2) ∧ interp1d ⟨true⟩ .LINEAR ([0, 1, 3] : List ℚ) ([3 / 2, 7 / 2, 15 / 2] : List ℚ) 2 = .ok (11 / 2) := by
  constructor
  · rw [C01_piecewise_affine ⟨true⟩ (by decide) (⟨by simp, by simp, rfl⟩ : Table ([0, 2] : List ℚ) ([5, 10] : List ℚ)) (i := 0) (by simp) (by simp) (by norm_num) (by norm_num)]
    norm_num [line]
  · rw [C01_piecewise_affine ⟨true⟩ (by decide) (⟨by simp, by norm_num, rfl⟩ : Table ([0, 1, 3] : List ℚ) ([3 / 2, 7 / 2, 15 / 2] : List ℚ)) (i := 1) (by simp) (by simp)
      (by norm_num) (by norm_num)]
    norm_num [line]

/-! ## Series -/

/-- C226: the series in `x` of the series in `y` is the series in both variables. -/
theorem C226_chebyshev_2d (B : Build) {F : ℝ → ℝ → ℝ} {n m : Nat} {X Y : Domain ℝ} {s : CS2 ℝ} (hs : Fresh2 F n m s X Y) {y : ℝ} (hy : Y.Defined y)
    {g : ℝ → ℝ} (hg : ∀ x, ∃ t t', Fresh1 (F x) m t Y ∧ t.computeAi B = .ok t' ∧ t'.evaluate B y = .ok (g x)) {u : CS1 ℝ} (hu : Fresh1 g n u X) :
    ∃ s' u', s.computeAij B = .ok s' ∧ u.computeAi B = .ok u' ∧ ∀ x, X.Defined x → ∃ v, s'.evaluate B x y = .ok v ∧ u'.evaluate B x = .ok v := by
  obtain ⟨s', h1, h2⟩ := hs.series B
  obtain ⟨u', h3, h4⟩ := hu.series B
  refine ⟨s', u', h1, h3, fun x hx => ⟨_, h2 x y hx hy, ?_⟩⟩
  rw [h4 x hx]
  congr 1
  refine chebInterp_congr n (fun r _ => ?_) _
  obtain ⟨t, t', ht, hc, he⟩ := hg (X.node n r)
  obtain ⟨t'', h5, h6⟩ := ht.series B
  rw [hc] at h5
  cases h5
  rw [h6 y hy] at he
  exact (Res.ok.inj he).symm

/-- The hypothesis on `g` is met by the values of the series of the sections. -/
example (B : Build) (F : ℝ → ℝ → ℝ) (m : Nat) {y : ℝ} (hy : (Domain.segment (0 : ℝ) 1).Defined y) :
    ∃ g : ℝ → ℝ, ∀ x, ∃ t t', Fresh1 (F x) m t (.segment 0 1) ∧ t.computeAi B = .ok t' ∧ t'.evaluate B y = .ok (g x) := by
  refine ⟨fun x => chebInterp m (fun r => F x ((Domain.segment (0 : ℝ) 1).node m r)) ((Domain.segment (0 : ℝ) 1).unit y), fun x => ?_⟩
  have hf : Fresh1 (F x) m (CS1.closed (F x) 0 1 m) (.segment 0 1) := .closed 0 1
  obtain ⟨t', h1, h2⟩ := hf.series B
  exact ⟨_, t', hf, h1, h2 y hy⟩

/-- C226: the power series in `x` whose coefficients are the values at `y` of the series of the rows. -/
theorem C226_power_2d {K : Type} [Field K] [DecidableEq K] [NeZero (2 : K)] (B : Build) {b : Mat K} (hr : b.rows ≠ 0) (hc : b.cols ≠ 0) {s : PS2 K} {X Y : Domain K}
    (hs : Built2 b s X Y) {x y : K} (hx : X.Defined x) (hy : Y.Defined y) {c : List K} (hl : c.length = b.rows)
    (hrow : ∀ i (hi : i < c.length), ∃ t, Built1 ((List.range b.cols).map (b.entry i)) t Y ∧ t.evaluate B y = .ok c[i]) {u : PS1 K} (hu : Built1 c u X) :
    ∃ v, s.evaluate B x y = .ok v ∧ u.evaluate B x = .ok v := by
  have hc0 : c ≠ [] := List.ne_nil_of_length_pos (by omega)
  refine ⟨_, C29_evaluate_2d B hr hc hs hx hy, ?_⟩
  rw [C29_evaluate_1d B hc0 hu hx, hl]
  congr 1
  unfold poly1 poly2
  refine sum_congr rfl fun i hi => ?_
  have hi' : i < c.length := by rw [hl]; exact mem_range.1 hi
  obtain ⟨t, ht, he⟩ := hrow i hi'
  rw [C29_evaluate_1d B (List.ne_nil_of_length_pos (by simp; omega)) ht hy] at he
  rw [show (fun i => c.getD i 0) i = c[i] by simp [List.getElem?_eq_getElem hi'], ← Res.ok.inj he, poly1, sum_mul, List.length_map, List.length_range]
  refine sum_congr rfl fun j hj => ?_
  rw [show ((List.range b.cols).map (b.entry i)).getD j 0 = b.entry i j by simp [mem_range.1 hj]]
  ring

/-- `1 + 2 v + 3 u + 4 u v`: the coefficients of the rows at the upper end of the second domain are `3` and `7`. -/
def rowsB : Mat ℚ := ⟨2, 2, fun i j => if i = 0 then (if j = 0 then 1 else 2) else if j = 0 then 3 else 4⟩

example : Built2 rowsB (PS2.closed rowsB 0 1 0 1) (.segment 0 1) (.segment 0 1) ∧ Built1 [(3 : ℚ), 7] (PS1.closed [3, 7] 0 1) (.segment 0 1) ∧
    Built1 ((List.range rowsB.cols).map (rowsB.entry 1)) (PS1.closed [3, 4] 0 1) (.segment 0 1) := ⟨.closed 0 1 0 1, .closed 0 1, .closed 0 1⟩

/-! ## Series of three variables -/

/-- C226: the Chebyshev series of three variables is, for `x` and `y` fixed, the series in `z` of the values of the series of two variables of the sections. -/
theorem C226_chebyshev_3d (B : Build) {F : ℝ → ℝ → ℝ → ℝ} {n m l : Nat} {X Y Z : Domain ℝ} {s : CS3 ℝ} (hs : Fresh3 F n m l s X Y Z) {x y : ℝ} (hx : X.Defined x)
    (hy : Y.Defined y) {g : ℝ → ℝ}
    (hg : ∀ z, ∃ t t', Fresh2 (fun x y => F x y z) n m t X Y ∧ t.computeAij B = .ok t' ∧ t'.evaluate B x y = .ok (g z)) {u : CS1 ℝ} (hu : Fresh1 g l u Z) :
    ∃ s' u', s.computeAijk B = .ok s' ∧ u.computeAi B = .ok u' ∧ ∀ z, Z.Defined z → ∃ v, s'.evaluate B x y z = .ok v ∧ u'.evaluate B z = .ok v := by
  obtain ⟨s', h1, h2⟩ := hs.series B
  obtain ⟨u', h3, h4⟩ := hu.series B
  refine ⟨s', u', h1, h3, fun z hz => ⟨_, h2 x y z hx hy hz, ?_⟩⟩
  rw [h4 z hz]
  congr 1
  refine chebInterp_congr l (fun r _ => ?_) _
  obtain ⟨t, t', ht, hc, he⟩ := hg (Z.node l r)
  obtain ⟨t'', h5, h6⟩ := ht.series B
  rw [hc] at h5
  cases h5
  rw [h6 x y hx hy] at he
  exact (Res.ok.inj he).symm

/-- The hypothesis on `g` is met by the values of the series of the sections. -/
example (B : Build) (F : ℝ → ℝ → ℝ → ℝ) (n m : Nat) {x y : ℝ} (hx : (Domain.segment (0 : ℝ) 1).Defined x) (hy : (Domain.segment (0 : ℝ) 2).Defined y) :
    ∃ g : ℝ → ℝ, ∀ z, ∃ t t', Fresh2 (fun x y => F x y z) n m t (.segment 0 1) (.segment 0 2) ∧ t.computeAij B = .ok t' ∧ t'.evaluate B x y = .ok (g z) := by
  have h : ∀ z, ∃ v t t', Fresh2 (fun x y => F x y z) n m t (.segment 0 1) (.segment 0 2) ∧ t.computeAij B = .ok t' ∧ t'.evaluate B x y = .ok v := by
    intro z
    have hf : Fresh2 (fun x y => F x y z) n m (CS2.closed (fun x y => F x y z) 0 1 0 2 n m) (.segment 0 1) (.segment 0 2) := .closed 0 1 0 2
    obtain ⟨t', h1, h2⟩ := hf.series B
    exact ⟨_, _, t', hf, h1, h2 x y hx hy⟩
  choose g hg using h
  exact ⟨g, hg⟩

/-- C226: the power series in `z` whose coefficients are the values at `x` and `y` of the series of the matrices. -/
theorem C226_power_3d {K : Type} [Field K] [DecidableEq K] [NeZero (2 : K)] (B : Build) {b : List (Mat K)} {n m l : Nat} {e : Nat → Nat → Nat → K} (hb : Cube b n m l e)
    {s : PS3 K} {X Y Z : Domain K} (hs : Built3 b s X Y Z) {x y z : K} (hx : X.Defined x) (hy : Y.Defined y) (hz : Z.Defined z) {c : List K} (hl : c.length = b.length)
    (hmat : ∀ k (hk : k < c.length), ∃ t, Built2 (b[k]'(hl ▸ hk)) t X Y ∧ t.evaluate B x y = .ok c[k]) {u : PS1 K} (hu : Built1 c u Z) :
    ∃ v, s.evaluate B x y z = .ok v ∧ u.evaluate B z = .ok v := by
  have hc0 : c ≠ [] := List.ne_nil_of_length_pos (by rw [hl, hb.len]; exact Nat.pos_of_ne_zero hb.hl)
  refine ⟨_, C29_evaluate_3d B hb hs hx hy hz, ?_⟩
  rw [C29_evaluate_1d B hc0 hu hz, hl, hb.len]
  congr 1
  have hval : ∀ k ∈ range l, c.getD k 0 = ∑ i ∈ range n, ∑ j ∈ range m, e i j k * X.unit x ^ i * Y.unit y ^ j := by
    intro k hk
    have hk' : k < c.length := by rw [hl, hb.len]; exact mem_range.1 hk
    obtain ⟨t, ht, he⟩ := hmat k hk'
    obtain ⟨r1, r2, r3⟩ := hb.mats k _ (List.getElem?_eq_getElem (hl ▸ hk'))
    rw [C29_evaluate_2d B (by rw [r1]; exact hb.hn) (by rw [r2]; exact hb.hm) ht hx hy] at he
    rw [show c.getD k 0 = c[k] by simp [List.getElem?_eq_getElem hk'], ← Res.ok.inj he, poly2, r1, r2]
    exact sum_congr rfl fun i hi => sum_congr rfl fun j hj => by rw [r3 i j (mem_range.1 hi) (mem_range.1 hj)]
  unfold poly1 poly3
  calc ∑ k ∈ range l, (fun i => c.getD i 0) k * Z.unit z ^ k
      = ∑ k ∈ range l, ∑ i ∈ range n, ∑ j ∈ range m, e i j k * X.unit x ^ i * Y.unit y ^ j * Z.unit z ^ k :=
        sum_congr rfl fun k hk => by
          show c.getD k 0 * _ = _
          rw [hval k hk, sum_mul]
          exact sum_congr rfl fun i _ => sum_mul _ _ _
    _ = ∑ i ∈ range n, ∑ k ∈ range l, ∑ j ∈ range m, e i j k * X.unit x ^ i * Y.unit y ^ j * Z.unit z ^ k := sum_comm
    _ = _ := sum_congr rfl fun i _ => sum_comm

/-- `1 + 2 v + 3 w + 4 v w` on closed segments. -/
example : Cube seriesB 1 2 2 (fun _ j k => if k = 0 then (if j = 0 then 1 else 2) else (if j = 0 then 3 else 4)) ∧
    (∃ s, Built3 seriesB s (.segment 0 1) (.segment 0 1) (.segment 0 1)) ∧ Built1 [(3 : ℝ), 7] (PS1.closed [3, 7] 0 1) (.segment 0 1) ∧
    ∃ t, Built2 (seriesB[1]) t (.segment 0 1) (.segment 0 1) :=
  ⟨seriesCube, (C29_constructors_3d seriesCube 0 1 0 1 0 1).1, .closed 0 1, _, .closed 0 1 0 1⟩

end MU
