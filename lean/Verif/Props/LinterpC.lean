import Verif.Model.LinterpC
import Verif.Props.Simplex
import Mathlib.Data.Rat.Defs

set_option linter.unusedSectionVars false

/-!
# C161: interpolation of many points through the C interface

`linterpSimplex sort grids lens pF n xi res h` is `linterp_simplex_N(grids, lens, pF, n, xi, res)` run on the memory `h`.
-/

namespace MU
open Spec NDInterp LinterpC

variable {K : Type} [Field K] [LinearOrder K] [IsStrictOrderedRing K]

/-- The arguments of a call describe the grid `grids` with the data `F` and `n` query points: the pointers to the axes and to the data point to their elements, each
coordinate array and the result array have room for `n` numbers, and the result array is none of the axes nor the data. It may be one of the coordinate arrays. -/
structure Call (h : Heap K) (ps lens : List Nat) (pF n : Nat) (xi : List Nat) (res : Nat) (grids : List (List K)) (F : List Nat → K) : Prop where
  axes : List.Forall₂ (fun p g => g <+: h p) ps grids
  lengths : lens = grids.map List.length
  data : ∃ values, values <+: h pF ∧ Holds (grids.map List.length) values F
  dims : xi.length = grids.length
  coords : ∀ p ∈ xi, n ≤ (h p).length
  room : n ≤ (h res).length
  apart : res ∉ ps ∧ res ≠ pF

namespace LinterpC

theorem view_prefix {h : Heap K} {p : Nat} {l : List K} (hp : l <+: h p) : view h p l.length = .ok l := by
  unfold view
  rw [if_pos hp.length_le, ← List.prefix_iff_eq_take.1 hp]

theorem views_prefix {h : Heap K} {ps : List Nat} {grids : List (List K)} (hp : List.Forall₂ (fun p g => g <+: h p) ps grids) :
    views h ps (grids.map List.length) = .ok grids := by
  induction hp with
  | nil => rfl
  | cons h1 _ ih => simp [views, view_prefix h1, ih]

theorem point_ok {h : Heap K} {i : Nat} {xi : List Nat} {x : List K} (hx : List.Forall₂ (fun p c => (h p)[i]? = some c) xi x) : point h i xi = .ok x := by
  induction hx with
  | nil => rfl
  | @cons p c _ _ h1 _ ih => simp [point, vIdx, h1, ih]

theorem exists_point {h : Heap K} {i : Nat} {xi : List Nat} (hx : ∀ p ∈ xi, i < (h p).length) : ∃ x, List.Forall₂ (fun p c => (h p)[i]? = some c) xi x := by
  induction xi with
  | nil => exact ⟨[], .nil⟩
  | cons p ps ih =>
    obtain ⟨x, hx'⟩ := ih (fun q hq => hx q (by simp [hq]))
    exact ⟨_, .cons (List.getElem?_eq_getElem (hx p (by simp))) hx'⟩

/-- The memory after `i` points. -/
def after (h : Heap K) (res : Nat) (Y : Nat → K) (i : Nat) : Heap K := fun p =>
  if p = res then (h res).mapIdx (fun j c => if j < i then Y j else c) else h p

theorem after_zero (h : Heap K) (res : Nat) (Y : Nat → K) : after h res Y 0 = h := by
  funext p
  unfold after
  split_ifs with hp
  · subst hp
    apply List.ext_getElem <;> simp
  · rfl

theorem after_get (h : Heap K) (res : Nat) (Y : Nat → K) (i : Nat) (p : Nat) : (after h res Y i p)[i]? = (h p)[i]? := by
  unfold after
  split_ifs with hp
  · subst hp
    rw [List.getElem?_mapIdx]
    cases (h p)[i]? <;> simp
  · rfl

theorem after_store {h : Heap K} {res : Nat} {Y : Nat → K} {i : Nat} (hi : i < (h res).length) : store (after h res Y i) res i (Y i) = .ok (after h res Y (i + 1)) := by
  unfold store
  rw [if_pos (by simpa [after] using hi)]
  congr 1
  funext p
  by_cases hp : p = res
  · subst hp
    rw [if_pos rfl]
    unfold after
    simp only [if_true]
    apply List.ext_getElem
    · simp
    · intro j h1 h2
      rw [List.getElem_set]
      simp only [List.getElem_mapIdx]
      by_cases hj : i = j
      · subst hj; simp
      · rw [if_neg hj]
        have : j < i + 1 ↔ j < i := by omega
        simp [this]
  · simp [after, hp]

theorem after_axes {h : Heap K} {res : Nat} {Y : Nat → K} {i : Nat} {ps : List Nat} {grids : List (List K)}
    (hp : List.Forall₂ (fun p g => g <+: h p) ps grids) (hr : res ∉ ps) : List.Forall₂ (fun p g => g <+: after h res Y i p) ps grids := by
  induction hp with
  | nil => exact .nil
  | @cons p g _ _ h1 _ ih =>
    simp only [List.mem_cons, not_or] at hr
    exact .cons (by simpa [after, Ne.symm hr.1] using h1) (ih hr.2)

theorem point_unique {h : Heap K} {i : Nat} {xi : List Nat} {x x' : List K} (hx : List.Forall₂ (fun p c => (h p)[i]? = some c) xi x)
    (hx' : List.Forall₂ (fun p c => (h p)[i]? = some c) xi x') : x = x' := by
  have := (point_ok hx).symm.trans (point_ok hx')
  simpa using this

theorem interpVec_ok {one : NDInterp K → List K → Res K} {h : Heap K} {ps lens : List Nat} {pF n : Nat} {xi : List Nat} {res : Nat} {grids : List (List K)}
    {F : List Nat → K} {values : List K} (hc : Call h ps lens pF n xi res grids F) (hv : values <+: h pF) (hl : values.length = lens.prod)
    {Y : Nat → K} (hY : ∀ i < n, ∀ x, List.Forall₂ (fun p c => (h p)[i]? = some c) xi x → one ⟨grids, values⟩ x = .ok (Y i)) :
    interpVec one ps lens pF n xi res h = .ok (after h res Y n) := by
  unfold interpVec
  rw [Int.toNat_natCast]
  have := forRange_ok (lo := 0) (hi := n) (Nat.zero_le n) (after h res Y)
    (f := fun i h => do
      let g ← views h ps lens
      let f ← view h pF lens.prod
      let x ← point h i xi
      let y ← one ⟨g, f⟩ x
      store h res i y) (fun i _ hi => ?_)
  · rwa [after_zero] at this
  · have e1 : views (after h res Y i) ps lens = .ok grids := by
      rw [hc.lengths]
      refine views_prefix ?_
      exact after_axes hc.axes hc.apart.1
    have e2 : view (after h res Y i) pF lens.prod = .ok values := by
      rw [← hl]
      refine view_prefix ?_
      simpa [after, hc.apart.2.symm] using hv
    obtain ⟨x, hx⟩ := exists_point (h := h) (i := i) (xi := xi) (fun p hp => lt_of_lt_of_le hi (hc.coords p hp))
    have e3 : point (after h res Y i) i xi = .ok x := point_ok (hx.imp fun p c hpc => by rw [after_get]; exact hpc)
    simp only [e1, e2, e3, Res.ok_bind, hY i hi x hx]
    exact after_store (lt_of_lt_of_le hi hc.room)

end LinterpC

/-- C161: the call returns; every result is what `InterpSimplex::interp` gives for the point that the coordinate arrays held before the call, in order, also when
the results overwrite one of these arrays; nothing else changes, and the exception `f has wrong size` cannot occur. -/
theorem C161_pointwise {sort : List (K × Nat) → List (K × Nat)} (hsort : IsSort sort) {h : Heap K} {ps lens : List Nat} {pF n : Nat} {xi : List Nat} {res : Nat}
    {grids : List (List K)} {F : List Nat → K} (hg : Axes grids) (hc : Call h ps lens pF n xi res grids F) :
    ∃ h' values t, linterpSimplex sort ps lens pF n xi res h = .ok h' ∧ Holds (grids.map List.length) values F ∧ NDInterp.new grids values = .ok t ∧
      (∀ p, p ≠ res → h' p = h p) ∧ (h' res).length = (h res).length ∧ (∀ i, n ≤ i → (h' res)[i]? = (h res)[i]?) ∧
      ∀ i < n, ∀ x, List.Forall₂ (fun p c => (h p)[i]? = some c) xi x → ∃ y, interpSimplex sort t x = .ok y ∧ (h' res)[i]? = some y := by
  obtain ⟨values, hv, hF⟩ := hc.data
  have hnew : NDInterp.new grids values = .ok ⟨grids, values⟩ := by
    unfold NDInterp.new
    rw [if_neg (by simpa using hF.size)]
  have hl : values.length = lens.prod := by rw [hc.lengths]; exact hF.size
  have hex : ∀ i < n, ∃ y, ∀ x, List.Forall₂ (fun p c => (h p)[i]? = some c) xi x → interpSimplex sort ⟨grids, values⟩ x = .ok y := by
    intro i hi
    obtain ⟨x, hx⟩ := exists_point (h := h) (i := i) (xi := xi) (fun p hp => lt_of_lt_of_le hi (hc.coords p hp))
    obtain ⟨_, _, _, _, _, _, he⟩ := simplex_terms hg hF hsort (x := x) (by rw [← hc.dims]; exact hx.length_eq.symm)
    exact ⟨_, fun x' hx' => by rw [← point_unique hx hx']; exact he⟩
  choose! Y hY using hex
  refine ⟨after h res Y n, values, _, ?_, hF, hnew, fun p hp => by simp [after, hp], by simp [after], fun i hi => ?_, fun i hi x hx => ⟨Y i, hY i hi x hx, ?_⟩⟩
  · unfold linterpSimplex
    have e2 : view h pF lens.prod = .ok values := by rw [← hl]; exact view_prefix hv
    have e1 : views h ps lens = .ok grids := by rw [hc.lengths]; exact views_prefix hc.axes
    simp only [e1, e2, hnew, Res.ok_bind]
    exact interpVec_ok hc hv hl hY
  · simp only [after, if_true, List.getElem?_mapIdx]
    cases (h res)[i]? <;> simp [not_lt.2 hi]
  · simp only [after, if_true, List.getElem?_mapIdx]
    rw [List.getElem?_eq_getElem (lt_of_lt_of_le hi hc.room)]
    simp [hi]

/-- C161, in terms of the data: the result of a point that is a node is the datum of the node; that of a point of the box is a convex combination of the data of
vertices of a cell around the point which gives the point; that of any point is between the bounds of the data. -/
theorem C161_values {sort : List (K × Nat) → List (K × Nat)} (hsort : IsSort sort) {h : Heap K} {ps lens : List Nat} {pF n : Nat} {xi : List Nat} {res : Nat}
    {grids : List (List K)} {F : List Nat → K} (hg : Axes grids) (hc : Call h ps lens pF n xi res grids F) :
    ∃ h', linterpSimplex sort ps lens pF n xi res h = .ok h' ∧ ∀ i < n, ∀ x, List.Forall₂ (fun p c => (h p)[i]? = some c) xi x → ∃ y, (h' res)[i]? = some y ∧
      (∀ idx, IsNode grids idx x → y = F idx) ∧
      ((∀ g ∈ grids, 2 ≤ g.length) → InBox grids x → ∃ cell, Brackets grids cell x ∧ ConvexCombination grids cell F x y) ∧
      ∀ m M, (∀ idx, Inside idx (grids.map List.length) → m ≤ F idx ∧ F idx ≤ M) → m ≤ y ∧ y ≤ M := by
  obtain ⟨h', values, t, he, hF, ht, _, _, _, hy⟩ := C161_pointwise hsort hg hc
  refine ⟨h', he, fun i hi x hx => ?_⟩
  obtain ⟨y, h1, h2⟩ := hy i hi x hx
  have hlen : x.length = grids.length := by rw [← hc.dims]; exact hx.length_eq.symm
  refine ⟨y, h2, fun idx hn => ?_, fun h2' hb => ?_, fun m M hm => ?_⟩
  · have := C23_node_reproduction hg hF ht hsort hn
    rw [h1] at this
    exact Res.ok.inj this
  · obtain ⟨r, cell, e, b, c⟩ := C23_convex_combination hg h2' hF ht hsort hb
    rw [h1] at e
    cases e
    exact ⟨cell, b, c⟩
  · obtain ⟨r, e, b⟩ := C23_within_data_bounds hg hF ht hsort hlen hm
    rw [h1] at e
    cases e
    exact b

/-- C161, for `InterpMultilinear::interp_vec`: the result of each point in a cell is the multilinear interpolation of the data of its vertices, that of a node is its
datum; nothing else changes. -/
theorem C161_multilinear {h : Heap K} {ps lens : List Nat} {pF n : Nat} {xi : List Nat} {res : Nat} {grids : List (List K)} {F : List Nat → K} (hg : Axes grids)
    (hc : Call h ps lens pF n xi res grids F) :
    ∃ h', interpVec interpMultilinear ps lens pF n xi res h = .ok h' ∧ (∀ p, p ≠ res → h' p = h p) ∧ (h' res).length = (h res).length ∧
      (∀ i, n ≤ i → (h' res)[i]? = (h res)[i]?) ∧
      ∀ i < n, ∀ x, List.Forall₂ (fun p c => (h p)[i]? = some c) xi x → ∃ y, (h' res)[i]? = some y ∧
        (∀ idx, IsNode grids idx x → y = F idx) ∧ ∀ cell, Brackets grids cell x → y = tensor cell F x := by
  obtain ⟨values, hv, hF⟩ := hc.data
  have hl : values.length = lens.prod := by rw [hc.lengths]; exact hF.size
  have hex : ∀ i < n, ∃ y, ∀ x, List.Forall₂ (fun p c => (h p)[i]? = some c) xi x → interpMultilinear ⟨grids, values⟩ x = .ok y := by
    intro i hi
    obtain ⟨x, hx⟩ := exists_point (h := h) (i := i) (xi := xi) (fun p hp => lt_of_lt_of_le hi (hc.coords p hp))
    obtain ⟨_, _, _, _, he⟩ := interp_cube hg hF (x := x) (by rw [← hc.dims]; exact hx.length_eq.symm)
    exact ⟨_, fun x' hx' => by rw [← point_unique hx hx']; exact he⟩
  choose! Y hY using hex
  refine ⟨after h res Y n, interpVec_ok hc hv hl hY, fun p hp => by simp [after, hp], by simp [after], fun i hi => ?_, fun i hi x hx => ⟨Y i, ?_, ?_, ?_⟩⟩
  · simp only [after, if_true, List.getElem?_mapIdx]
    cases (h res)[i]? <;> simp [not_lt.2 hi]
  · simp only [after, if_true, List.getElem?_mapIdx]
    rw [List.getElem?_eq_getElem (lt_of_lt_of_le hi hc.room)]
    simp [hi]
  · intro idx hn
    obtain ⟨_, _, _, hr, he⟩ := interp_cube hg hF (x := x) (by rw [← hc.dims]; exact hx.length_eq.symm)
    rw [hY i hi x hx, cube_node hg.increasing hr hn] at he
    exact Res.ok.inj he
  · intro cell hb
    obtain ⟨_, _, _, hr, he⟩ := interp_cube hg hF (x := x) (by rw [← hc.dims]; exact hx.length_eq.symm)
    rw [hY i hi x hx, cube_tensor hg.increasing hr hb] at he
    exact Res.ok.inj he

/-- C161: no points, or a negative number of points, change nothing. -/
theorem C161_no_points {sort : List (K × Nat) → List (K × Nat)} {h : Heap K} {ps lens : List Nat} {pF : Nat} {xi : List Nat} {res : Nat}
    {grids : List (List K)} {F : List Nat → K} (hc : Call h ps lens pF 0 xi res grids F) {n : Int} (hn : n ≤ 0) :
    linterpSimplex sort ps lens pF n xi res h = .ok h := by
  obtain ⟨values, hv, hF⟩ := hc.data
  have hnew : NDInterp.new grids values = .ok ⟨grids, values⟩ := by
    unfold NDInterp.new
    rw [if_neg (by simpa using hF.size)]
  have hl : values.length = lens.prod := by rw [hc.lengths]; exact hF.size
  unfold linterpSimplex
  have e2 : view h pF lens.prod = .ok values := by rw [← hl]; exact view_prefix hv
  have e1 : views h ps lens = .ok grids := by rw [hc.lengths]; exact views_prefix hc.axes
  simp only [e1, e2, hnew, Res.ok_bind]
  unfold interpVec
  rw [Int.toNat_of_nonpos hn]
  rfl

/-- C161 is about something: a grid of two by two nodes in the blocks 0, 1 and 2, three points in the blocks 3 and 4, the results written over the first coordinates. -/
example : ∃ (h : Heap ℚ) (F : List Nat → ℚ), Axes [[0, 1], [0, (2 : ℚ)]] ∧ Call h [0, 1] [2, 2] 2 3 [3, 4] 3 [[0, 1], [0, 2]] F ∧ h 3 = [1, 1 / 2, 7] := by
  refine ⟨fun p => ([[0, 1], [0, 2], [1, 2, 3, 5], [1, 1 / 2, 7], [0, 1, -1]] : List (List ℚ)).getD p [], _, simplexGrid, ⟨?_, rfl, ⟨_, ?_, simplexHolds⟩, rfl, ?_, ?_, ?_⟩, rfl⟩
  · exact .cons (List.prefix_refl _) (.cons (List.prefix_refl _) .nil)
  · exact List.prefix_refl _
  · simp
  · simp
  · simp

/-- C161: the result array must not be the data: here the first result replaces the datum of the second point. -/
theorem C161_over_data {sort : List (ℚ × Nat) → List (ℚ × Nat)} (hsort : IsSort sort) :
    ∃ h h' : Heap ℚ, h 0 = [0, 1] ∧ h 1 = [3, 10] ∧ h 2 = [1, 0] ∧ linterpSimplex sort [0] [2] 1 2 [2] 1 h = .ok h' ∧ h' 1 = [10, 10] := by
  have hg : Axes [[0, (1 : ℚ)]] := ⟨by simp, by simp, by simp⟩
  have hH : ∀ a b : ℚ, Holds ([[0, (1 : ℚ)]].map List.length) [a, b] (fun idx => ([a, b] : List ℚ).getD (pos [2] idx) 0) := by
    intro a b
    refine ⟨rfl, fun idx hi => ?_⟩
    cases hi with
    | @cons i _ is _ h1 h2 =>
      cases h2
      match i, h1 with
      | 0, _ => rfl
      | 1, _ => rfl
  have hnew : ∀ a b : ℚ, NDInterp.new [[0, (1 : ℚ)]] [a, b] = .ok ⟨[[0, 1]], [a, b]⟩ := fun a b => by simp [NDInterp.new]
  have e1 := C23_node_reproduction hg (hH 3 10) (hnew 3 10) hsort (idx := [1]) (x := [1]) (.cons rfl .nil)
  have e2 := C23_node_reproduction hg (hH 10 10) (hnew 10 10) hsort (idx := [0]) (x := [0]) (.cons rfl .nil)
  simp [pos] at e1 e2
  have key : ∃ h', linterpSimplex sort [0] [2] 1 2 [2] 1 (fun p => ([[0, 1], [3, 10], [1, 0]] : List (List ℚ)).getD p []) = .ok h' ∧ h' 1 = [10, 10] := by
    unfold linterpSimplex interpVec
    simp [views, view, hnew, forRange, forN, point, vIdx, e1, e2, store]
  obtain ⟨h', k1, k2⟩ := key
  exact ⟨_, h', rfl, rfl, rfl, k1, k2⟩

end MU
