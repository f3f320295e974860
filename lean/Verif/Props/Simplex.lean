import Verif.Lemmas.Simplex
import Mathlib.Algebra.Order.Ring.Rat
import Mathlib.Algebra.BigOperators.Group.Finset.Basic
import Mathlib.Algebra.BigOperators.Ring.Finset
import Mathlib.Data.List.Sort
import Mathlib.Tactic.NormNum

set_option linter.unusedSectionVars false

/-!
# C23: simplex interpolation

`NDInterp.interpSimplex sort t x` is `InterpSimplex::interp(x)`; the theorems hold for every sorting function, in particular whatever the
order given to equal fractions.
-/

namespace MU
open Spec NDInterp

variable {K : Type} [Field K] [LinearOrder K] [IsStrictOrderedRing K]

/-- C23: inside the box, the value is a convex combination of the data of vertices of a cell containing the point, and the point is the same
combination of the positions of these vertices. -/
theorem C23_convex_combination {grids : List (List K)} {values : List K} {F : List Nat → K} (hg : Axes grids)
    (h2 : ∀ g ∈ grids, 2 ≤ g.length) (hF : Holds (grids.map List.length) values F) {t : NDInterp K} (ht : NDInterp.new grids values = .ok t)
    {sort : List (K × Nat) → List (K × Nat)} (hsort : IsSort sort) {x : List K} (hx : InBox grids x) :
    ∃ r cell, interpSimplex sort t x = .ok r ∧ Brackets grids cell x ∧ ConvexCombination grids cell F x r := by
  have hlen := inBox_len hx
  have ht' : t = ⟨grids, values⟩ := by
    unfold NDInterp.new at ht
    rw [if_neg (by simpa using hF.size)] at ht
    cases ht; rfl
  subst ht'
  obtain ⟨cs, ys, ws, hr, hw, hpos, he⟩ := simplex_terms hg hF hsort hlen
  obtain ⟨cell, hb, hv⟩ := exists_cell hg.increasing h2 hr hx
  refine ⟨_, cell, he, hb, (walkTerms (sort ys.zipIdx) 0 (List.replicate grids.length 1)).map
    (fun w => (w.1, sel ws w.2, coords grids (sel ws w.2))), ?_, ?_, ?_, ?_⟩
  · intro t ht
    obtain ⟨w, hwm, rfl⟩ := List.mem_map.mp ht
    exact ⟨(hw w hwm).1, hv _ (hw w hwm).2, sel_isNode hr (hw w hwm).2⟩
  · rw [List.map_map]
    simpa [Function.comp_def] using walkTerms_sum (sort ys.zipIdx) 0 (List.replicate grids.length 1)
  · rw [List.map_map]; rfl
  · intro d hd
    obtain ⟨A, B, ξ, e1, e2, e3⟩ := coord_affine hr hx d hd
    rw [List.map_map, ← e2, ← hpos d ξ e1]
    have hs := walkTerms_sum (sort ys.zipIdx) 0 (List.replicate grids.length 1)
    have : ∀ L : List (K × List Int), (∀ w ∈ L, Bits grids.length w.2) →
        (L.map ((fun t : K × List Nat × List K => t.1 * t.2.2.getD d 0) ∘
          (fun w : K × List Int => (w.1, sel ws w.2, coords grids (sel ws w.2))))).sum =
        A * (L.map (fun w => w.1)).sum + (L.map (fun w => w.1 * ((w.2.getD d 0 : Int) : K))).sum * B := by
      intro L
      induction L with
      | nil => simp
      | cons w L ih =>
        intro hL
        have ih := ih (fun w hw => hL w (by simp [hw]))
        simp only [List.map_cons, List.sum_cons, ih, Function.comp_apply]
        rw [e3 _ (hL w (by simp))]; ring
    rw [this _ (fun w hwm => (hw w hwm).2), hs]; ring

/-- C23: at every point (inside or outside the box) the value lies between any bounds of the data. -/
theorem C23_within_data_bounds {grids : List (List K)} {values : List K} {F : List Nat → K} (hg : Axes grids)
    (hF : Holds (grids.map List.length) values F) {t : NDInterp K} (ht : NDInterp.new grids values = .ok t)
    {sort : List (K × Nat) → List (K × Nat)} (hsort : IsSort sort) {x : List K} (hx : x.length = grids.length) {m M : K}
    (hm : ∀ idx, Inside idx (grids.map List.length) → m ≤ F idx ∧ F idx ≤ M) :
    ∃ r, interpSimplex sort t x = .ok r ∧ m ≤ r ∧ r ≤ M := by
  have ht' : t = ⟨grids, values⟩ := by
    unfold NDInterp.new at ht
    rw [if_neg (by simpa using hF.size)] at ht
    cases ht; rfl
  subst ht'
  obtain ⟨cs, ys, ws, hr, hw, _, he⟩ := simplex_terms hg hF hsort hx
  have hs := walkTerms_sum (sort ys.zipIdx) 0 (List.replicate grids.length 1)
  have : ∀ L : List (K × List Int), (∀ w ∈ L, 0 ≤ w.1 ∧ Bits grids.length w.2) →
      m * (L.map (fun w => w.1)).sum ≤ (L.map (fun w => w.1 * F (sel ws w.2))).sum ∧
      (L.map (fun w => w.1 * F (sel ws w.2))).sum ≤ M * (L.map (fun w => w.1)).sum := by
    intro L
    induction L with
    | nil => simp
    | cons w L ih =>
      intro hL
      obtain ⟨i1, i2⟩ := ih (fun w hw => hL w (by simp [hw]))
      obtain ⟨w0, wb⟩ := hL w (by simp)
      obtain ⟨b1, b2⟩ := hm _ (isNode_inside (sel_isNode hr wb))
      simp only [List.map_cons, List.sum_cons]
      have := mul_le_mul_of_nonneg_left b1 w0
      have := mul_le_mul_of_nonneg_left b2 w0
      constructor <;> nlinarith
  obtain ⟨h1, h2⟩ := this _ hw
  rw [hs] at h1 h2
  exact ⟨_, he, by simpa using h1, by simpa using h2⟩

theorem zipWith_sum_eq (β p : List K) {n : Nat} (hn : p.length = n) :
    (List.zipWith (· * ·) β p).sum = ∑ d ∈ Finset.range n, β.getD d 0 * p.getD d 0 := by
  induction p generalizing β n with
  | nil => subst hn; simp
  | cons a p ih =>
    subst hn
    cases β with
    | nil => simp
    | cons b β =>
      rw [List.length_cons, Finset.sum_range_succ', List.zipWith_cons_cons, List.sum_cons, ih β rfl]
      simp [add_comm]

/-- C23: data sampled from an affine function are reproduced inside the box. -/
theorem C23_exact_on_affine {grids : List (List K)} {values : List K} {F : List Nat → K} (hg : Axes grids)
    (h2 : ∀ g ∈ grids, 2 ≤ g.length) (hF : Holds (grids.map List.length) values F) {t : NDInterp K} (ht : NDInterp.new grids values = .ok t)
    {sort : List (K × Nat) → List (K × Nat)} (hsort : IsSort sort) {α : K} {β : List K}
    (hf : ∀ idx p, IsNode grids idx p → F idx = affine α β p) {x : List K} (hx : InBox grids x) :
    interpSimplex sort t x = .ok (affine α β x) := by
  obtain ⟨r, cell, he, _, terms, h1, h2, h3, h4⟩ := C23_convex_combination hg h2 hF ht hsort hx
  rw [he, ← h3]
  congr 1
  have hxl := inBox_len hx
  have hpl : ∀ t ∈ terms, t.2.2.length = grids.length := fun t ht => isNode_len (h1 t ht).2.2
  have key : ∀ L : List (K × List Nat × List K), (∀ t ∈ L, IsNode grids t.2.1 t.2.2 ∧ t.2.2.length = grids.length) →
      (L.map (fun t => t.1 * F t.2.1)).sum = α * (L.map (fun t => t.1)).sum +
        ∑ d ∈ Finset.range grids.length, β.getD d 0 * (L.map (fun t => t.1 * t.2.2.getD d 0)).sum := by
    intro L
    induction L with
    | nil => simp
    | cons t L ih =>
      intro hL
      have ih := ih (fun t ht => hL t (by simp [ht]))
      obtain ⟨n1, n2⟩ := hL t (by simp)
      simp only [List.map_cons, List.sum_cons, ih, mul_add, Finset.sum_add_distrib]
      rw [hf _ _ n1, affine, zipWith_sum_eq β _ n2, mul_add, Finset.mul_sum]
      have : ∀ d ∈ Finset.range grids.length, t.1 * (β.getD d 0 * t.2.2.getD d 0) = β.getD d 0 * (t.1 * t.2.2.getD d 0) := by
        intro d _; ring
      rw [Finset.sum_congr rfl this]; ring
  rw [key terms (fun t ht => ⟨(h1 t ht).2.2, hpl t ht⟩), h2, affine, zipWith_sum_eq β x hxl, mul_one]
  congr 1
  apply Finset.sum_congr rfl
  intro d hd
  rw [Finset.mem_range, ← hxl] at hd
  rw [h4 d hd]
  simp [List.getD, List.getElem?_eq_getElem hd]

/-- C23: at every node the value is the datum of the node. -/
theorem C23_node_reproduction {grids : List (List K)} {values : List K} {F : List Nat → K} (hg : Axes grids)
    (hF : Holds (grids.map List.length) values F) {t : NDInterp K} (ht : NDInterp.new grids values = .ok t)
    {sort : List (K × Nat) → List (K × Nat)} (hsort : IsSort sort) {idx : List Nat} {x : List K} (hx : IsNode grids idx x) :
    interpSimplex sort t x = .ok (F idx) := by
  have hxl := isNode_len hx
  have ht' : t = ⟨grids, values⟩ := by
    unfold NDInterp.new at ht
    rw [if_neg (by simpa using hF.size)] at ht
    cases ht; rfl
  subst ht'
  obtain ⟨cs, ys, ws, hr, hw, hpos, he⟩ := simplex_terms hg hF hsort hxl
  -- all fractions vanish, and the lower vertex is the node
  have hzero : (∀ y ∈ ys, y = 0) ∧ ∀ u, Bits grids.length u → (∀ v ∈ u, v = 0) → sel ws u = idx := by
    have hinc := hg.increasing
    clear hw hpos he hF ht hg hxl
    induction hr generalizing idx with
    | nil =>
      cases hx
      exact ⟨by simp, fun u hu _ => by cases u <;> rfl⟩
    | @cons g gs x xs c cs y ys lo hi ws h1 h2 ih =>
      cases hx with
      | @cons _ _ i is _ _ hi hx =>
        obtain ⟨i1, i2⟩ := ih hx (fun g' h' => hinc g' (by simp [h']))
        have hg := hinc g (by simp)
        have hy : y = 0 ∧ lo = i := by
          have hil := (List.getElem?_eq_some_iff.mp hi).1
          cases h1 with
          | below a h0 hx => exact absurd (getElem?_le hg h0 hi (Nat.zero_le _)) (not_le.mpr hx)
          | above b h0 hx =>
            refine ⟨rfl, ?_⟩
            by_contra hc
            exact absurd (getElem?_lt hg hi h0 (by omega)) (not_lt.mpr hx)
          | inside k a b h0 h1 ha hb =>
            have h2 : i ≤ lo := by
              by_contra hc
              exact absurd (getElem?_le hg h1 hi (by omega)) (not_le.mpr hb)
            have h3 : i = lo := by
              by_contra hc
              exact absurd (getElem?_lt hg hi h0 (by omega)) (not_lt.mpr ha)
            subst h3
            rw [h0] at hi
            cases hi
            simp
        refine ⟨?_, ?_⟩
        · intro z hz
          rcases List.mem_cons.mp hz with rfl | hz
          · exact hy.1
          · exact i1 z hz
        · intro u hu hz
          cases u with
          | nil => simp [Bits] at hu
          | cons v u =>
            have hv := hz v (by simp)
            simp only [sel, hv, if_true, hy.2]
            rw [i2 u hu.cons.2 (fun v hv => hz v (by simp [hv]))]
  -- a term of positive weight is at the lower vertex
  have hterm : ∀ w ∈ walkTerms (sort ys.zipIdx) 0 (List.replicate grids.length 1), w.1 * F (sel ws w.2) = w.1 * F idx := by
    intro w hwm
    by_cases hw0 : w.1 = 0
    · simp [hw0]
    · have hu := (hw w hwm).2
      rw [hzero.2 w.2 hu]
      intro v hv
      obtain ⟨d, hd, rfl⟩ := List.getElem_of_mem hv
      have hdy : d < ys.length := by
        rw [hr.length.2, List.length_map, hr.length.1, ← hu.1]; exact hd
      have h0 := hpos d ys[d] (List.getElem?_eq_getElem _)
      rw [hzero.1 _ (List.getElem_mem _)] at h0
      have hnn : ∀ z ∈ (walkTerms (sort ys.zipIdx) 0 (List.replicate grids.length 1)).map
          (fun w => w.1 * ((w.2.getD d 0 : Int) : K)), 0 ≤ z := by
        intro z hz
        obtain ⟨w', hw', rfl⟩ := List.mem_map.mp hz
        refine mul_nonneg (hw w' hw').1 ?_
        have hd' : d < w'.2.length := by rw [(hw w' hw').2.1, ← hu.1]; exact hd
        rw [List.getD, List.getElem?_eq_getElem hd', Option.getD_some]
        rcases (hw w' hw').2.2 _ (List.getElem_mem hd') with h | h <;> simp [h]
      have hle := List.single_le_sum hnn _ (List.mem_map_of_mem (f := fun w => w.1 * ((w.2.getD d 0 : Int) : K)) hwm)
      rw [h0] at hle
      have hge := hnn _ (List.mem_map_of_mem (f := fun w => w.1 * ((w.2.getD d 0 : Int) : K)) hwm)
      have hz := le_antisymm hle hge
      rcases mul_eq_zero.mp hz with h | h
      · exact absurd h hw0
      · rw [List.getD, List.getElem?_eq_getElem hd, Option.getD_some] at h
        exact_mod_cast h
  rw [he, List.map_congr_left hterm, List.sum_map_mul_right, walkTerms_sum]
  simp

/-! ## Non-vacuity -/

/-- A sorting function. -/
theorem exists_sort : ∃ sort : List (ℚ × Nat) → List (ℚ × Nat), IsSort sort :=
  ⟨fun l => l.insertionSort (fun a b => a.1 ≤ b.1), fun l => by
    haveI : Std.Total (fun a b : ℚ × Nat => a.1 ≤ b.1) := ⟨fun a b => le_total a.1 b.1⟩
    haveI : IsTrans (ℚ × Nat) (fun a b => a.1 ≤ b.1) := ⟨fun a b c h1 h2 => le_trans h1 h2⟩
    exact ⟨List.perm_insertionSort _ l, List.pairwise_insertionSort _ l⟩⟩

theorem simplexGrid : Axes ([[0, 1], [0, 2]] : List (List ℚ)) where
  dims := by simp
  nonempty := by simp
  increasing := by simp

theorem simplexHolds : Holds (([[0, 1], [0, 2]] : List (List ℚ)).map List.length) ([1, 2, 3, 5] : List ℚ)
    (fun idx => ([1, 2, 3, 5] : List ℚ).getD (pos [2, 2] idx) 0) where
  size := rfl
  elem := by
    intro idx h
    cases h with
    | @cons i _ is _ hi h =>
      cases h with
      | @cons j _ js _ hj h =>
        cases h
        match i, hi with
        | 0, _ => match j, hj with
          | 0, _ => rfl
          | 1, _ => rfl
        | 1, _ => match j, hj with
          | 0, _ => rfl
          | 1, _ => rfl

example : ∃ sort : List (ℚ × Nat) → List (ℚ × Nat), IsSort sort ∧
    ∃ r cell, interpSimplex sort ⟨[[0, 1], [0, 2]], [1, 2, 3, 5]⟩ [1 / 2, 1] = .ok r ∧
      Brackets [[0, 1], [0, 2]] cell [1 / 2, 1] ∧
      ConvexCombination [[0, 1], [0, 2]] cell (fun idx => ([1, 2, 3, 5] : List ℚ).getD (pos [2, 2] idx) 0) [1 / 2, 1] r := by
  obtain ⟨sort, hs⟩ := exists_sort
  refine ⟨sort, hs, C23_convex_combination simplexGrid (by simp) simplexHolds (by simp [NDInterp.new]) hs ?_⟩
  exact .cons (a := 0) (b := 1) rfl rfl (by norm_num) (by norm_num)
    (.cons (a := 0) (b := 2) rfl rfl (by norm_num) (by norm_num) .nil)

end MU
