import Verif.Model.RoundedSimplex
import Verif.Lemmas.RoundedGrid
import Verif.Lemmas.SimplexLipschitz
import Verif.Props.RoundedGrid

set_option linter.unusedSectionVars false

/-!
# C163: simplex interpolation in double arithmetic

`NDInterp.interpSimplexR rnd sort t x` is `InterpSimplex::interp(x)` with every operation rounded to nearest; `interpSimplex sort t x` is the exact one, of C23 and C159.
-/

namespace MU
open Spec NDInterp

variable {rnd : ℝ → ℝ}

namespace NDInterp

theorem foldl_bits {N : Nat} {ds : List Nat} {v : List Int} (hv : Bits N v) (hone : ∀ d ∈ ds, v[d]? = some 1) (hnd : ds.Nodup) :
    Bits N (ds.foldl (fun v d => v.modify d (· - 1)) v) := by
  induction ds generalizing v with
  | nil => exact hv
  | cons d ds ih =>
    rw [List.nodup_cons] at hnd
    rw [List.foldl_cons]
    refine ih ⟨by simpa using hv.1, fun z hz => ?_⟩ ?_ hnd.2
    · obtain ⟨i, hi, rfl⟩ := List.getElem_of_mem hz
      rw [List.getElem_modify]
      have hi' : i < v.length := by simpa using hi
      split_ifs with hdi
      · have := hone d (by simp)
        rw [hdi, List.getElem?_eq_getElem hi'] at this
        left; simp at this; omega
      · exact hv.2 _ (List.getElem_mem _)
    · intro e he
      have hne : d ≠ e := by rintro rfl; exact hnd.1 he
      rw [List.getElem?_modify]
      simp [hone e (by simp [he]), hne]

/-- The facts about the order of the walk. -/
theorem order_facts {N : Nat} {ys : List ℝ} (hlen : ys.length = N) {sort : List (ℝ × Nat) → List (ℝ × Nat)} (hsort : IsSort sort) :
    ((sort ys.zipIdx).map (·.2)).Nodup ∧ (∀ o ∈ sort ys.zipIdx, (List.replicate N (1 : Int))[o.2]? = some 1 ∧ o.1 ∈ ys) ∧ (sort ys.zipIdx).length = N := by
  obtain ⟨hperm, _⟩ := hsort ys.zipIdx
  refine ⟨?_, ?_, ?_⟩
  · rw [(hperm.map _).nodup_iff]
    have : ys.zipIdx.map (·.2) = List.range ys.length := by simp [List.range_eq_range']
    rw [this]; exact List.nodup_range
  · intro o ho
    have := List.mem_zipIdx_iff_getElem?.mp (hperm.mem_iff.mp ho)
    rw [List.getElem?_replicate, if_pos (hlen ▸ (List.getElem?_eq_some_iff.mp this).1)]
    exact ⟨rfl, List.mem_of_getElem? this⟩
  · rw [hperm.length_eq, List.length_zipIdx, hlen]

theorem lower_bits {N : Nat} {ys : List ℝ} (hlen : ys.length = N) {sort : List (ℝ × Nat) → List (ℝ × Nat)} (hsort : IsSort sort) (t : ℝ) :
    Bits N (lower (sort ys.zipIdx) t (List.replicate N 1)) := by
  obtain ⟨hnd, hone, _⟩ := order_facts hlen hsort
  refine foldl_bits ⟨by simp, fun v hv => .inr (List.eq_of_mem_replicate hv)⟩ ?_ ?_
  · intro d hd
    obtain ⟨o, ho, rfl⟩ := List.mem_map.1 hd
    exact (hone o (List.mem_of_mem_filter ho)).1
  · exact hnd.sublist (List.filter_sublist.map _)

theorem AxesResR.fracs (hr : ToNearest rnd) {grids : List (List ℝ)} {x : List ℝ} {cs : List Int} {ys : List ℝ} {ws ws' : List (Nat × Nat × ℝ)}
    (h : AxesResR rnd grids x cs ys ws ws') :
    (∀ y ∈ ys, 0 ≤ y ∧ y ≤ 1) ∧ fracDist ys (ws.map (·.2.2)) ≤ grids.length * gam 4 := by
  induction h with
  | nil => simp [fracDist]
  | @cons g gs x xs c cs y y' ys lo hi ws ws' h1 h2 ih =>
    refine ⟨?_, ?_⟩
    · intro z hz
      rcases List.mem_cons.1 hz with rfl | hz
      · cases h1 with
        | below a h0 hx => simp
        | above b h0 hx => simp
        | inside c a b h0 h1 ha hb => exact (frac_range hr (sub_nonneg.2 ha) (by linarith) (by linarith)).2
      · exact ih.1 z hz
    · have hn := (h1.near hr).err
      obtain ⟨f0, f1⟩ := h1.toExact.frac
      have := mul_le_mul_of_nonneg_left (abs_le.2 ⟨by linarith, f1⟩ : |y| ≤ 1) (gam_nonneg 4)
      have h3 := ih.2
      simp only [List.map_cons, fracDist, List.length_cons]
      push_cast
      linarith

/-- The rounded walk stays near the exact walk with the same fractions. -/
theorem walkR_near (hr : ToNearest rnd) (t : NDInterp ℝ) (cells : List Int) {N : Nat} {G : List Int → ℝ} {D : ℝ}
    (hG : ∀ u, Bits N u → getFVal t cells u = .ok (G u)) (hD : ∀ u u', Bits N u → Bits N u' → |G u - G u'| ≤ D)
    {order : List (ℝ × Nat)} {v : List Int} (hv : Bits N v) (hone : ∀ o ∈ order, v[o.2]? = some 1) (hnd : (order.map (·.2)).Nodup)
    (hf : ∀ o ∈ order, 0 ≤ o.1 ∧ o.1 ≤ 1) {k : ℕ} (hk : 3 ≤ k) {Q P y : ℝ} (hy : Near k Q P y) :
    ∃ r P', simplexWalkR rnd t cells order v (G v) y = .ok r ∧ simplexWalk t cells order v (G v) P = .ok P' ∧
      Near (k + order.length) (Q + order.length * D) P' r := by
  induction order generalizing v k Q P y with
  | nil => exact ⟨y, P, rfl, rfl, by simpa using hy⟩
  | cons o rest ih =>
    obtain ⟨ξ, d⟩ := o
    rw [List.map_cons, List.nodup_cons] at hnd
    have hv' : Bits N (v.modify d (· - 1)) := by
      have := foldl_bits (ds := [d]) hv (by simpa using hone (ξ, d) (by simp)) (by simp)
      simpa using this
    have hone' : ∀ o ∈ rest, (v.modify d (· - 1))[o.2]? = some 1 := by
      intro o ho
      have hne : d ≠ o.2 := by
        rintro rfl
        exact hnd.1 (List.mem_map_of_mem (f := (·.2)) ho)
      rw [List.getElem?_modify]
      simp [hone o (by simp [ho]), hne]
    obtain ⟨f0, f1⟩ := hf (ξ, d) (by simp)
    have hd := hD _ _ hv' hv
    have ht : Near k D ((1 - ξ) * (G (v.modify d (· - 1)) - G v)) (rnd (rnd (1 - ξ) * rnd (G (v.modify d (· - 1)) - G v))) := by
      refine ((((Near.exact (1 - ξ)).round hr).mul ((Near.exact (G (v.modify d (· - 1)) - G v)).round hr)).round hr).mono hk ?_
      rw [abs_of_nonneg (by simpa using f1)]
      have := mul_le_mul_of_nonneg_right (show 1 - ξ ≤ 1 by simpa using f0) (abs_nonneg (G (v.modify d (· - 1)) - G v))
      linarith
    have hs := (hy.add ht).round hr
    obtain ⟨r, P', e1, e2, e3⟩ := ih hv' hone' hnd.2 (fun o ho => hf o (by simp [ho])) (by omega) hs
    refine ⟨r, P', ?_, ?_, ?_⟩
    · simp only [simplexWalkR, hG _ hv', Res.ok_bind]
      exact e1
    · simp only [simplexWalk, hG _ hv', Res.ok_bind]
      exact e2
    · refine e3.mono (by simp; omega) (le_of_eq ?_)
      rw [List.length_cons]
      push_cast
      ring

theorem walkR_const (hr : ToNearest rnd) (t : NDInterp ℝ) (cells : List Int) {N : Nat} {k : ℝ} (hk : Double k)
    (hG : ∀ u, Bits N u → getFVal t cells u = .ok k)
    {order : List (ℝ × Nat)} {v : List Int} (hv : Bits N v) (hone : ∀ o ∈ order, v[o.2]? = some 1) (hnd : (order.map (·.2)).Nodup) :
    simplexWalkR rnd t cells order v k k = .ok k := by
  induction order generalizing v with
  | nil => rfl
  | cons o rest ih =>
    obtain ⟨ξ, d⟩ := o
    rw [List.map_cons, List.nodup_cons] at hnd
    have hv' : Bits N (v.modify d (· - 1)) := by
      have := foldl_bits (ds := [d]) hv (by simpa using hone (ξ, d) (by simp)) (by simp)
      simpa using this
    simp only [simplexWalkR, hG _ hv', Res.ok_bind]
    rw [sub_self, rnd_zero hr, mul_zero, rnd_zero hr, add_zero, toNearest_double hr hk]
    refine ih hv' ?_ hnd.2
    intro o ho
    have hne : d ≠ o.2 := by
      rintro rfl
      exact hnd.1 (List.mem_map_of_mem (f := (·.2)) ho)
    rw [List.getElem?_modify]
    simp [hone o (by simp [ho]), hne]

end NDInterp

/-- C163: at every point, inside or outside the box, the answer is the exact one up to an error linear in the number of dimensions; `M` bounds the data in absolute value and
`D` bounds their differences. -/
theorem C163_error (hr : ToNearest rnd) {grids : List (List ℝ)} {values : List ℝ} {F : List Nat → ℝ} (hg : Axes grids) (hN : grids.length ≤ 2 ^ 25)
    (hF : Holds (grids.map List.length) values F) {t : NDInterp ℝ} (ht : NDInterp.new grids values = .ok t)
    {sort : List (ℝ × Nat) → List (ℝ × Nat)} (hsort : IsSort sort) {M D : ℝ} (hM : ∀ i, Inside i (grids.map List.length) → |F i| ≤ M)
    (hD : ∀ i j, Inside i (grids.map List.length) → Inside j (grids.map List.length) → |F i - F j| ≤ D) {x : List ℝ} (hx : x.length = grids.length) :
    ∃ v w, interpSimplexR rnd sort t x = .ok v ∧ interpSimplex sort t x = .ok w ∧
      |v - w| ≤ ((grids.length + 4) * (M + grids.length * D) + 5 * (grids.length * D)) / 2 ^ 53 := by
  have ht' : t = ⟨grids, values⟩ := by
    unfold NDInterp.new at ht
    rw [if_neg (by simpa using hF.size)] at ht
    cases ht; rfl
  subst ht'
  obtain ⟨cs, ys, ws, ws', he, hR⟩ := axes_resR hr hg.nonempty hg.increasing hx
  obtain ⟨cs1, ys1, ws1, hr1, hw1, _, he1⟩ := simplex_terms hg hF hsort hx
  have hws : ws1 = ws := hr1.det hg.increasing hR.toExact
  subst hws
  have hys1 : ys1 = ws1.map (·.2.2) := hr1.length.2
  have hlen1 : ys1.length = grids.length := by rw [hr1.length.2, List.length_map, hr1.length.1]
  have hlen : ys.length = grids.length := by rw [hR.same.2.1, List.length_map, hR.same.1]
  obtain ⟨hfr, hfd⟩ := hR.fracs hr
  have hones : Bits grids.length (List.replicate grids.length 1) := ⟨by simp, fun v hv => .inr (List.eq_of_mem_replicate hv)⟩
  have hG : ∀ u, Bits grids.length u → getFVal ⟨grids, values⟩ cs u = .ok (F (sel ws1 u)) := by
    intro u hu
    unfold getFVal
    simp only
    rw [fIndex_sel hR.toExact hu, mdRead_eq hF (isNode_inside (sel_isNode hR.toExact hu))]
  have hin : ∀ u, Bits grids.length u → Inside (sel ws1 u) (grids.map List.length) := fun u hu => isNode_inside (sel_isNode hR.toExact hu)
  have hGD : ∀ u u', Bits grids.length u → Bits grids.length u' → |F (sel ws1 u) - F (sel ws1 u')| ≤ D := fun u u' hu hu' => hD _ _ (hin u hu) (hin u' hu')
  have hD0 : 0 ≤ D := (abs_nonneg _).trans (hGD _ _ hones hones)
  have hM0 : 0 ≤ M := (abs_nonneg _).trans (hM _ (hin _ hones))
  obtain ⟨hnd, hone, hol⟩ := order_facts hlen hsort
  obtain ⟨r, P', e1, e2, e3⟩ := walkR_near hr ⟨grids, values⟩ cs (G := fun u => F (sel ws1 u)) hG hGD hones (fun o ho => (hone o ho).1) hnd
    (fun o ho => hfr _ (hone o ho).2) le_rfl ((Near.exact (F (sel ws1 (List.replicate grids.length 1)))).upto (l := 3) (by omega))
  have e4 := walk_eq ⟨grids, values⟩ cs (fun u => F (sel ws1 u)) (sort ys.zipIdx) 0 0 (List.replicate grids.length 1)
    (fun w hw => hG _ (walkTerms_bits hones (fun o ho => (hone o ho).1) hnd w hw))
  simp only [zero_add, sub_zero, one_mul] at e4
  rw [e2] at e4
  have e5 := Res.ok.inj e4
  refine ⟨r, _, ?_, he1, ?_⟩
  · unfold interpSimplexR
    simp only [he, Res.ok_bind, hG _ hones]
    exact e1
  · have hL := walk_lipschitz (fun u => F (sel ws1 u)) (hlen.trans hlen1.symm) (hsort ys.zipIdx).1 (hsort ys1.zipIdx).1 (hsort ys.zipIdx).2 (hsort ys1.zipIdx).2
      hfr hr1.frac (List.replicate grids.length 1) (D := D) (fun t t' => hGD _ _ (lower_bits hlen hsort t) (lower_bits hlen1 hsort t'))
    rw [← e5] at hL
    rw [← hys1] at hfd
    have h1 := e3.err
    rw [hol] at h1
    have h2 : gam (3 + grids.length) ≤ (grids.length + 4) * uround := by
      have := gam_le (k := 3 + grids.length) (by omega)
      push_cast at this
      linarith
    have h3 : gam 4 ≤ 5 * uround := by
      have := gam_le (k := 4) (by norm_num)
      push_cast at this
      linarith
    have hn0 : (0 : ℝ) ≤ grids.length := Nat.cast_nonneg _
    have h4 : gam (3 + grids.length) * (|F (sel ws1 (List.replicate grids.length 1))| + grids.length * D) ≤
        (grids.length + 4) * uround * (M + grids.length * D) := by
      refine mul_le_mul h2 ?_ (by positivity) (mul_nonneg (by linarith) uround_nonneg)
      have := hM _ (hin _ hones)
      linarith
    have h5 : D * fracDist ys ys1 ≤ D * (grids.length * (5 * uround)) :=
      mul_le_mul_of_nonneg_left (hfd.trans (mul_le_mul_of_nonneg_left h3 hn0)) hD0
    rw [show ((grids.length + 4) * (M + grids.length * D) + 5 * (grids.length * D)) / 2 ^ 53 =
      (grids.length + 4) * uround * (M + grids.length * D) + D * (grids.length * (5 * uround)) by unfold uround; ring]
    refine (abs_sub_le _ P' _).trans ?_
    linarith

/-- C163: constant data are reproduced without any error. -/
theorem C163_constant (hr : ToNearest rnd) {grids : List (List ℝ)} {values : List ℝ} {F : List Nat → ℝ} (hg : Axes grids)
    (hF : Holds (grids.map List.length) values F) {t : NDInterp ℝ} (ht : NDInterp.new grids values = .ok t)
    {sort : List (ℝ × Nat) → List (ℝ × Nat)} (hsort : IsSort sort) {k : ℝ} (hk : Double k) (hc : ∀ i, Inside i (grids.map List.length) → F i = k)
    {x : List ℝ} (hx : x.length = grids.length) : interpSimplexR rnd sort t x = .ok k := by
  have ht' : t = ⟨grids, values⟩ := by
    unfold NDInterp.new at ht
    rw [if_neg (by simpa using hF.size)] at ht
    cases ht; rfl
  subst ht'
  obtain ⟨cs, ys, ws, ws', he, hR⟩ := axes_resR hr hg.nonempty hg.increasing hx
  have hlen : ys.length = grids.length := by rw [hR.same.2.1, List.length_map, hR.same.1]
  have hones : Bits grids.length (List.replicate grids.length 1) := ⟨by simp, fun v hv => .inr (List.eq_of_mem_replicate hv)⟩
  have hG : ∀ u, Bits grids.length u → getFVal ⟨grids, values⟩ cs u = .ok k := by
    intro u hu
    unfold getFVal
    simp only
    rw [fIndex_sel hR.toExact hu, mdRead_eq hF (isNode_inside (sel_isNode hR.toExact hu)), hc _ (isNode_inside (sel_isNode hR.toExact hu))]
  obtain ⟨hnd, hone, hol⟩ := order_facts hlen hsort
  unfold interpSimplexR
  simp only [he, Res.ok_bind, hG _ hones]
  exact walkR_const hr _ cs hk hG hones (fun o ho => (hone o ho).1) hnd

/-- C163: unlike multilinear interpolation (C119), the value at a node need not be the datum of the node, and the value outside the box need not be the value at the nearest
point of the box: with the data 1 and 3·2^60 at 0 and 1 the answer at 0 is 0, and at -1 it is 1. -/
theorem C163_node_inexact (hr : ToNearest rnd) {sort : List (ℝ × Nat) → List (ℝ × Nat)} (hsort : IsSort sort) :
    ∃ t, NDInterp.new [[0, 1]] [1, 3 * 2 ^ 60] = .ok t ∧ interpSimplexR rnd sort t [0] = .ok 0 ∧ interpSimplexR rnd sort t [-1] = .ok 1 := by
  have hs : ∀ a : ℝ × Nat, sort [a] = [a] := fun a => List.perm_singleton.1 (hsort [a]).1
  have h1 : rnd 1 = 1 := toNearest_double hr double_one
  have h0 : rnd 0 = 0 := rnd_zero hr
  have hb : rnd (1 - 3 * 2 ^ 60) = -(3 * 2 ^ 60) := by
    have := toNearest_eq hr (x := 1 - 3 * 2 ^ 60) (-(3 * 2 ^ 51)) 9 (by norm_num) (by norm_num) (by norm_num)
    rw [this]
    norm_num
  have hb' : rnd (-(3 * 2 ^ 60)) = -(3 * 2 ^ 60) := by
    have := (hr (1 - 3 * 2 ^ 60)).1
    rw [hb] at this
    exact toNearest_double hr this
  refine ⟨⟨[[0, 1]], [1, 3 * 2 ^ 60]⟩, by simp [NDInterp.new], ?_, ?_⟩
  · have ha : axisR rnd [0, 1] 0 = .ok (0, 0) := by
      have hn : ¬ ((1 : ℝ) ≤ 0) := by norm_num
      have hp : upperBound [0, 1] (0 : ℝ) = .ok 1 := by simp [upperBound, partitionedLE, hn]
      simp [axisR, findCell, vIdx, hp, fdiv, h0, h1, hn]
    simp only [interpSimplexR, axesR, ha, Res.ok_bind, Res.pure_eq, List.zipIdx_cons, List.zipIdx_nil, hs]
    simp [getFVal, fIndex, simplexWalkR, mdRead, mdOffset, vIdx]
    rw [hb, h1, one_mul, hb', add_neg_cancel, h0]
  · have ha : axisR rnd [0, 1] (-1) = .ok (-1, 1) := by
      simp [axisR, findCell, vIdx]
    simp only [interpSimplexR, axesR, ha, Res.ok_bind, Res.pure_eq, List.zipIdx_cons, List.zipIdx_nil, hs]
    simp [getFVal, fIndex, simplexWalkR, mdRead, mdOffset, vIdx, h0, h1]

/-- C163 is about something: four data on a cell, at a point where the fractions are not doubles. -/
example : ∃ sort : List (ℝ × Nat) → List (ℝ × Nat), IsSort sort ∧ ∃ rnd, ToNearest rnd ∧
    (∃ v w, interpSimplexR rnd sort ⟨[[0, 3], [0, 7]], [1, 2, 3, 5]⟩ [1, 1] = .ok v ∧ interpSimplex sort ⟨[[0, 3], [0, 7]], [1, 2, 3, 5]⟩ [1, 1] = .ok w ∧
      |v - w| ≤ 1 / 2 ^ 46) ∧ interpSimplexR rnd sort ⟨[[0, 3], [0, 7]], [2, 2, 2, 2]⟩ [1, 9] = .ok 2 := by
  have hsort : IsSort (fun l : List (ℝ × Nat) => l.insertionSort (fun a b => a.1 ≤ b.1)) := fun l => by
    haveI : Std.Total (fun a b : ℝ × Nat => a.1 ≤ b.1) := ⟨fun a b => le_total a.1 b.1⟩
    haveI : IsTrans (ℝ × Nat) (fun a b => a.1 ≤ b.1) := ⟨fun a b c h1 h2 => le_trans h1 h2⟩
    exact ⟨List.perm_insertionSort _ l, List.pairwise_insertionSort _ l⟩
  have hg : Axes ([[0, 3], [0, 7]] : List (List ℝ)) := ⟨by simp, by simp, by simp⟩
  have hH : ∀ a b c d : ℝ, Holds (([[0, 3], [0, 7]] : List (List ℝ)).map List.length) [a, b, c, d]
      (fun idx => [a, b, c, d].getD (pos [2, 2] idx) 0) := by
    intro a b c d
    refine ⟨rfl, ?_⟩
    intro idx h
    cases h with
    | @cons i _ is _ hi h =>
      cases h with
      | @cons j _ js _ hj h =>
        cases h
        match i, hi with
        | 0, _ => match j, hj with
          | 0, _ => rfl
          | 1, _ => rfl
        | 1, _ => match j, hj with
          | 0, _ => rfl
          | 1, _ => rfl
  have hv : ∀ a b c d : ℝ, ∀ idx, Inside idx (([[0, 3], [0, 7]] : List (List ℝ)).map List.length) → [a, b, c, d].getD (pos [2, 2] idx) 0 ∈ [a, b, c, d] := by
    intro a b c d idx h
    cases h with
    | @cons i _ is _ hi h =>
      cases h with
      | @cons j _ js _ hj h =>
        cases h
        match i, hi with
        | 0, _ => match j, hj with
          | 0, _ => simp [pos]
          | 1, _ => simp [pos]
        | 1, _ => match j, hj with
          | 0, _ => simp [pos]
          | 1, _ => simp [pos]
  have hb : ∀ r ∈ ([1, 2, 3, 5] : List ℝ), 1 ≤ r ∧ r ≤ 5 := by
    intro r hr
    simp only [List.mem_cons, List.not_mem_nil, or_false] at hr
    rcases hr with rfl | rfl | rfl | rfl <;> norm_num
  refine ⟨_, hsort, _, roundNearest_toNearest, ?_, ?_⟩
  · obtain ⟨v, w, h1, h2, h3⟩ := C163_error roundNearest_toNearest hg (by simp) (hH 1 2 3 5) (t := ⟨[[0, 3], [0, 7]], [1, 2, 3, 5]⟩) (by simp [NDInterp.new]) hsort
      (M := 5) (D := 4) (fun i hi => by
        obtain ⟨p, q⟩ := hb _ (hv 1 2 3 5 i hi)
        exact abs_le.2 ⟨by linarith, q⟩)
      (fun i j hi hj => by
        obtain ⟨p, q⟩ := hb _ (hv 1 2 3 5 i hi)
        obtain ⟨p', q'⟩ := hb _ (hv 1 2 3 5 j hj)
        exact abs_le.2 ⟨by linarith, by linarith⟩) (x := [1, 1]) rfl
    refine ⟨v, w, h1, h2, h3.trans ?_⟩
    norm_num
  · refine C163_constant roundNearest_toNearest hg (hH 2 2 2 2) (by simp [NDInterp.new]) hsort ⟨2, 0, by norm_num, by norm_num⟩ (fun i hi => ?_) rfl
    have := hv 2 2 2 2 i hi
    simpa using this

end MU
