import Verif.Lemmas.SimplexLipschitz
import Verif.Lemmas.GridCoupling

set_option linter.unusedSectionVars false
set_option linter.unusedSimpArgs false

/-! Simplex interpolation as the mean over thresholds of the data at the node found by comparing the fraction of every axis with the threshold. -/

namespace MU.NDInterp
open Spec MeasureTheory intervalIntegral

/-- The node of the threshold `t`. -/
noncomputable def thr (ws : List (Nat × Nat × ℝ)) (t : ℝ) : List Nat := ws.map (fun w => if w.2.2 < t then w.1 else w.2.1)

theorem modify_at_length (pre r : List Int) : (pre ++ 1 :: r).modify pre.length (· - 1) = pre ++ 0 :: r := by
  induction pre with
  | nil => simp
  | cons a pre ih => simpa using ih

theorem lower_zipIdx (ys : List ℝ) (t : ℝ) (pre : List Int) :
    (((ys.zipIdx pre.length).filter (fun o => o.1 < t)).map Prod.snd).foldl (fun v d => v.modify d (· - 1)) (pre ++ List.replicate ys.length 1) =
      pre ++ ys.map (fun y => if y < t then 0 else 1) := by
  induction ys generalizing pre with
  | nil => simp
  | cons y ys ih =>
    simp only [List.zipIdx_cons]
    by_cases hy : y < t
    · rw [List.filter_cons_of_pos (by simpa using hy)]
      have := ih (pre ++ [0])
      simp only [List.length_append, List.length_cons, List.length_nil, List.append_assoc, List.cons_append, List.nil_append, Nat.zero_add] at this
      simp only [List.map_cons, List.foldl_cons, List.length_cons, List.replicate_succ]
      rw [modify_at_length, this]
      simp [hy]
    · rw [List.filter_cons_of_neg (by simpa using hy)]
      have := ih (pre ++ [1])
      simp only [List.length_append, List.length_cons, List.length_nil, List.append_assoc, List.cons_append, List.nil_append, Nat.zero_add] at this
      simp only [List.map_cons, List.length_cons, List.replicate_succ]
      rw [this]
      simp [hy]

theorem sel_thr (ws : List (Nat × Nat × ℝ)) (t : ℝ) : sel ws ((ws.map (·.2.2)).map (fun y => if y < t then 0 else 1)) = thr ws t := by
  induction ws with
  | nil => rfl
  | cons w ws ih =>
    simp only [List.map_cons, sel, ih, thr]
    by_cases h : w.2.2 < t <;> simp [h]

/-- The value is the integral over the thresholds. -/
theorem simplex_integral {grids : List (List ℝ)} {values : List ℝ} {F : List Nat → ℝ} (hg : Axes grids)
    (hF : Holds (grids.map List.length) values F) {sort : List (ℝ × Nat) → List (ℝ × Nat)} (hsort : IsSort sort) {x : List ℝ}
    (hx : x.length = grids.length) :
    ∃ cs ys ws, AxesRes grids x cs ys ws ∧ IntervalIntegrable (fun t => F (thr ws t)) volume 0 1 ∧
      interpSimplex sort ⟨grids, values⟩ x = .ok (∫ t in (0 : ℝ)..1, F (thr ws t)) := by
  obtain ⟨cs, ys, ws, hr, _, _, he⟩ := simplex_terms hg hF hsort hx
  have hys : ys = ws.map (·.2.2) := hr.length.2
  have hlen : ys.length = grids.length := by rw [hr.length.2, List.length_map, hr.length.1]
  obtain ⟨hp, hs⟩ := hsort ys.zipIdx
  have hfr := hr.frac
  have hm : ∀ o ∈ sort ys.zipIdx, 0 ≤ o.1 ∧ o.1 ≤ 1 := by
    intro o ho
    have := List.mem_zipIdx_iff_getElem?.1 (hp.mem_iff.1 ho)
    exact hfr _ (List.mem_of_getElem? this)
  obtain ⟨i1, i2⟩ := walk_integral (fun u => F (sel ws u)) (List.replicate grids.length 1) zero_le_one hm hs
  have e : (fun t => F (sel ws (lower (sort ys.zipIdx) t (List.replicate grids.length 1)))) = fun t => F (thr ws t) := by
    funext t
    have : lower (sort ys.zipIdx) t (List.replicate grids.length 1) = ys.map (fun y => if y < t then 0 else 1) := by
      unfold lower
      rw [modify_perm ((hp.filter _).map _), ← hlen]
      exact lower_zipIdx ys t []
    rw [this, hys, sel_thr]
  refine ⟨cs, ys, ws, hr, ?_, ?_⟩
  · rw [← e]; exact i1
  · rw [he, ← i2]
    congr 1
    exact congrArg (fun f : ℝ → ℝ => ∫ t in (0 : ℝ)..1, f t) e

theorem thr_isNode {grids : List (List ℝ)} {x : List ℝ} {cs : List Int} {ys : List ℝ} {ws : List (Nat × Nat × ℝ)}
    (h : AxesRes grids x cs ys ws) (t : ℝ) : IsNode grids (thr ws t) (coords grids (thr ws t)) := by
  rw [← sel_thr]
  refine sel_isNode h ⟨by simp [h.length.1], ?_⟩
  intro v hv
  simp only [List.mem_map] at hv
  obtain ⟨y, _, rfl⟩ := hv
  by_cases hy : y < t <;> simp [hy]

/-- The node of a threshold along an axis follows the coordinate. -/
theorem AxisRes.thr_le {g : List ℝ} (hinc : g.Pairwise (· < ·)) {x x' y y' : ℝ} {c c' : Int} {lo hi lo' hi' : Nat} (hxx : x ≤ x')
    (h : AxisRes g x c y lo hi) (h' : AxisRes g x' c' y' lo' hi') (t : ℝ) :
    g.getD (if y < t then lo else hi) 0 ≤ g.getD (if y' < t then lo' else hi') 0 := by
  have hle : (if y < t then lo else hi) ≤ (if y' < t then lo' else hi') := by
    have h1 := h.order
    have h2 := h'.order
    rcases h.cells hinc hxx h' with ⟨rfl, rfl, hy⟩ | hc
    · split_ifs with a b b
      · exact le_rfl
      · exact h1
      · exact absurd (lt_of_le_of_lt hy b) a
      · exact le_rfl
    · split_ifs <;> omega
  have hl : (if y' < t then lo' else hi') < g.length := by
    have h1 := h'.lo_lt
    have h2 := h'.hi_lt
    split_ifs <;> omega
  have g1 : g[if y < t then lo else hi]? = some (g[if y < t then lo else hi]'(by omega)) := List.getElem?_eq_getElem _
  have g2 : g[if y' < t then lo' else hi']? = some (g[if y' < t then lo' else hi']'hl) := List.getElem?_eq_getElem _
  have := getElem?_le hinc g1 g2 hle
  simp only [List.getD, g1, g2, Option.getD_some]
  exact this

theorem thr_moves {grids : List (List ℝ)} (hinc : ∀ g ∈ grids, g.Pairwise (· < ·)) {x x' : List ℝ} {cs cs' : List Int} {ys ys' : List ℝ}
    {ws ws' : List (Nat × Nat × ℝ)} (h : AxesRes grids x cs ys ws) (h' : AxesRes grids x' cs' ys' ws') {ds : List Trend} (hx : MovesAlong ds x x') (t : ℝ) :
    MovesAlong ds (coords grids (thr ws t)) (coords grids (thr ws' t)) := by
  induction h generalizing x' cs' ys' ws' ds with
  | nil =>
    cases h'
    cases ds with
    | nil => exact trivial
    | cons d ds => exact hx.elim
  | @cons g gs x xs c cs y ys lo hi ws h1 h2 ih =>
    cases h' with
    | @cons _ _ x' xs' c' cs' y' ys' lo' hi' ws' h1' h2' =>
      cases ds with
      | nil => exact hx.elim
      | cons d ds =>
        refine ⟨?_, ih (fun g h => hinc g (by simp [h])) h2' hx.2⟩
        have hg := hinc g (by simp)
        have hd := hx.1
        cases d with
        | up => exact h1.thr_le hg hd h1' t
        | down => exact h1'.thr_le hg hd h1 t
        | same =>
          obtain rfl : x = x' := hd
          obtain ⟨rfl, rfl, rfl⟩ := h1.det hg h1'
          rfl

theorem thr_coord_integral {g : List ℝ} {x y : ℝ} {c : Int} {lo hi : Nat} (h : AxisRes g x c y lo hi) :
    IntervalIntegrable (fun t => g.getD (if y < t then lo else hi) 0) volume 0 1 ∧
      ∫ t in (0 : ℝ)..1, g.getD (if y < t then lo else hi) 0 = lerp y lo hi (fun i => g.getD i 0) := by
  obtain ⟨y0, y1⟩ := h.frac
  obtain ⟨s1, s2⟩ := step_integral y0 y1
  have e : (fun t => g.getD (if y < t then lo else hi) 0) = fun t => g.getD hi 0 + (g.getD lo 0 - g.getD hi 0) * step y t := by
    funext t
    by_cases ht : y < t <;> simp [step, ht]
  rw [e]
  refine ⟨intervalIntegrable_const.add (s1.const_mul _), ?_⟩
  rw [integral_add intervalIntegrable_const (s1.const_mul _), intervalIntegral.integral_const_mul, s2]
  simp [lerp]
  ring

/-- Along an axis, the mean distance of the nodes of the thresholds is at most the distance of the coordinates. -/
theorem thr_axis {g : List ℝ} (hne : g ≠ []) (hinc : g.Pairwise (· < ·)) {x x' y y' : ℝ} {c c' : Int} {lo hi lo' hi' : Nat}
    (h : AxisRes g x c y lo hi) (h' : AxisRes g x' c' y' lo' hi') :
    IntervalIntegrable (fun t => |g.getD (if y < t then lo else hi) 0 - g.getD (if y' < t then lo' else hi') 0|) volume 0 1 ∧
      ∫ t in (0 : ℝ)..1, |g.getD (if y < t then lo else hi) 0 - g.getD (if y' < t then lo' else hi') 0| ≤ |x - x'| := by
  have hl : 0 < g.length := List.length_pos_of_ne_nil hne
  have ha0 : g[0]? = some g[0] := List.getElem?_eq_getElem _
  have hb0 : g[g.length - 1]? = some (g[g.length - 1]'(by omega)) := List.getElem?_eq_getElem _
  have key : ∀ {x x' y y' : ℝ} {c c' : Int} {lo hi lo' hi' : Nat} (_ : x ≤ x') (_ : AxisRes g x c y lo hi) (_ : AxisRes g x' c' y' lo' hi'),
      ∫ t in (0 : ℝ)..1, |g.getD (if y < t then lo else hi) 0 - g.getD (if y' < t then lo' else hi') 0| ≤ |x - x'| := by
    intro x x' y y' c c' lo hi lo' hi' hxx h h'
    obtain ⟨a1, a2⟩ := thr_coord_integral h
    obtain ⟨b1, b2⟩ := thr_coord_integral h'
    have e : (fun t => |g.getD (if y < t then lo else hi) 0 - g.getD (if y' < t then lo' else hi') 0|) =
        fun t => g.getD (if y' < t then lo' else hi') 0 - g.getD (if y < t then lo else hi) 0 := by
      funext t
      rw [abs_sub_comm, abs_of_nonneg (sub_nonneg.2 (h.thr_le hinc hxx h' t))]
    rw [e, integral_sub b1 a1, a2, b2, h.coord_bounds hinc ha0 hb0, h'.coord_bounds hinc ha0 hb0, abs_sub_comm, abs_of_nonneg (sub_nonneg.2 hxx)]
    refine (le_abs_self _).trans ((abs_max_sub_max_le_max _ _ _ _).trans ?_)
    rw [sub_self, abs_zero, max_eq_right (abs_nonneg _)]
    refine (abs_min_sub_min_le_max _ _ _ _).trans ?_
    rw [sub_self, abs_zero, max_eq_left (abs_nonneg _), abs_of_nonneg (sub_nonneg.2 hxx)]
  refine ⟨((thr_coord_integral h).1.sub (thr_coord_integral h').1).abs, ?_⟩
  rcases le_total x x' with hxx | hxx
  · exact key hxx h h'
  · have := key hxx h' h
    rw [abs_sub_comm x x']
    refine le_of_eq_of_le ?_ this
    congr 1
    funext t
    exact abs_sub_comm _ _

theorem thr_distance {grids : List (List ℝ)} (hne : ∀ g ∈ grids, g ≠ []) (hinc : ∀ g ∈ grids, g.Pairwise (· < ·)) {x x' : List ℝ} {cs cs' : List Int}
    {ys ys' : List ℝ} {ws ws' : List (Nat × Nat × ℝ)} (h : AxesRes grids x cs ys ws) (h' : AxesRes grids x' cs' ys' ws') {Ls : List ℝ} (hL : ∀ L ∈ Ls, 0 ≤ L) :
    IntervalIntegrable (fun t => weightedDistance Ls (coords grids (thr ws t)) (coords grids (thr ws' t))) volume 0 1 ∧
      ∫ t in (0 : ℝ)..1, weightedDistance Ls (coords grids (thr ws t)) (coords grids (thr ws' t)) ≤ weightedDistance Ls x x' := by
  induction h generalizing x' cs' ys' ws' Ls with
  | nil =>
    cases h'
    have : ∀ Ls : List ℝ, weightedDistance Ls [] [] = 0 := fun Ls => by cases Ls <;> rfl
    simp [coords, thr, this]
  | @cons g gs x xs c cs y ys lo hi ws h1 h2 ih =>
    cases h' with
    | @cons _ _ x' xs' c' cs' y' ys' lo' hi' ws' h1' h2' =>
      cases Ls with
      | nil => simp [weightedDistance]
      | cons L Ls =>
        obtain ⟨i1, i2⟩ := ih (fun g h => hne g (by simp [h])) (fun g h => hinc g (by simp [h])) h2' (Ls := Ls) (fun L h => hL L (by simp [h]))
        obtain ⟨a1, a2⟩ := thr_axis (hne g (by simp)) (hinc g (by simp)) h1 h1'
        have e : (fun t => weightedDistance (L :: Ls) (coords (g :: gs) (thr ((lo, hi, y) :: ws) t)) (coords (g :: gs) (thr ((lo', hi', y') :: ws') t))) =
            fun t => L * |g.getD (if y < t then lo else hi) 0 - g.getD (if y' < t then lo' else hi') 0| +
              weightedDistance Ls (coords gs (thr ws t)) (coords gs (thr ws' t)) := rfl
        rw [e]
        refine ⟨(a1.const_mul L).add i1, ?_⟩
        rw [integral_add (a1.const_mul L) i1, intervalIntegral.integral_const_mul]
        exact add_le_add (mul_le_mul_of_nonneg_left a2 (hL L (by simp))) i2

/-- Data of neighbouring nodes that differ little: all nodes. -/
theorem lipschitzData_pairs {K : Type} [Field K] [LinearOrder K] [IsStrictOrderedRing K] {grids : List (List K)} (hne : ∀ g ∈ grids, g ≠ [])
    (hinc : ∀ g ∈ grids, g.Pairwise (· < ·)) {Ls : List K} {F : List Nat → K} (h : LipschitzData grids Ls F) :
    (∀ L ∈ Ls, 0 ≤ L) ∧ ∀ i p i' p', IsNode grids i p → IsNode grids i' p' → |F i - F i'| ≤ weightedDistance Ls p p' := by
  induction grids generalizing Ls F with
  | nil =>
    cases Ls with
    | nil =>
      refine ⟨by simp, ?_⟩
      intro i p i' p' h1 h2
      cases h1; cases h2
      simp [weightedDistance]
    | cons L Ls => exact h.elim
  | cons g gs ih =>
    cases Ls with
    | nil => exact h.elim
    | cons L Ls =>
      obtain ⟨hL, hF1, hF2⟩ := h
      have hneed : ∀ i a, g[i]? = some a → _ := fun i a hi => ih (fun g h => hne g (by simp [h])) (fun g h => hinc g (by simp [h])) (hF2 i (List.getElem?_eq_some_iff.mp hi).1)
      refine ⟨?_, ?_⟩
      · intro L' hL'
        rcases List.mem_cons.1 hL' with rfl | hL'
        · exact hL
        · exact (hneed 0 _ (List.getElem?_eq_getElem (List.length_pos_of_ne_nil (hne g (by simp))))).1 L' hL'
      · intro i p i' p' h1 h2
        cases h1 with
        | @cons _ _ i is a p hi h1 =>
        cases h2 with
        | @cons _ _ i' is' a' p' hi' h2 =>
        have e1 := (hneed i' a' hi').2 is p is' p' h1 h2
        have e2 : |F (i :: is) - F (i' :: is)| ≤ L * |a - a'| := by
          have hin := isNode_inside h1
          rcases le_total i i' with hii | hii
          · have := nodes_lipschitz' (p := fun j => F (j :: is)) (fun j a b ha hb => hF1 j a b ha hb is hin) hii hi hi'
            rw [abs_sub_comm, abs_sub_comm a, abs_of_nonneg (sub_nonneg.2 (getElem?_le (hinc g (by simp)) hi hi' hii))]
            exact this
          · have := nodes_lipschitz' (p := fun j => F (j :: is)) (fun j a b ha hb => hF1 j a b ha hb is hin) hii hi' hi
            rw [abs_of_nonneg (a := a - a') (sub_nonneg.2 (getElem?_le (hinc g (by simp)) hi' hi hii))]
            exact this
        simp only [weightedDistance]
        exact (abs_sub_le _ (F (i' :: is)) _).trans (add_le_add e2 e1)

end MU.NDInterp
