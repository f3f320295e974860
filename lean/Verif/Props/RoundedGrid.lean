import Verif.Lemmas.RoundedGrid
import Verif.Props.AccuracyChebyshev
import Verif.Props.Angles
import Verif.Props.RegularGrid
import Verif.Lemmas.Lipschitz

set_option linter.unusedSectionVars false

/-! C119: `RegularGridInterpolator<double>` in double arithmetic. -/

namespace MU
open Spec RGI

variable {rnd : ℝ → ℝ}

/-- C119: at a node the answer is exactly the datum of the node, with or without bound check. -/
theorem C119_node (hr : ToNearest rnd) {dim : Nat} {grids : List (List ℝ)} {F : List Nat → ℝ} {s : RGI ℝ} (h : Loaded dim grids F s)
    (hF : ∀ idx, Inside idx (grids.map List.length) → Double (F idx)) {idx : List Nat} {x : List ℝ} (hx : IsNode grids idx x) (bound_check : Bool) :
    interpolateR rnd s x bound_check = .ok (F idx) := by
  obtain ⟨hg, hd, _, hH, _⟩ := Loaded.fields h
  have hlen := IsNode.len hx
  have hbox := IsNode.inBox hx hg.increasing
  have hf : interpolateR rnd s x false = .ok (F idx) := by
    rw [interpolateR_loaded h]
    obtain ⟨cs, ys, ws, ws', hR, he⟩ := NDInterp.interp_cubeR hr hg hH hlen
    rw [he, NDInterp.cubeR_node hr hg.increasing hR hx hF]
  cases bound_check with
  | false => exact hf
  | true => rw [(interpolateR_checked h (by omega)).1 hbox, hf]

/-- C119: on data that are all the same number the answer is exactly this number, at every point. -/
theorem C119_constant (hr : ToNearest rnd) {dim : Nat} {grids : List (List ℝ)} {F : List Nat → ℝ} {s : RGI ℝ} (h : Loaded dim grids F s) {k : ℝ}
    (hk : Double k) (hF : ∀ idx, Inside idx (grids.map List.length) → F idx = k) {x : List ℝ} (hx : x.length = dim) :
    interpolateR rnd s x false = .ok k := by
  obtain ⟨hg, hd, _, hH, _⟩ := Loaded.fields h
  rw [interpolateR_loaded h]
  obtain ⟨cs, ys, ws, ws', hR, he⟩ := NDInterp.interp_cubeR hr hg hH (hx.trans hd.symm)
  rw [he, NDInterp.cubeR_const hr hk hR hF]

/-- C119: without bound check a point outside the box has exactly the value of the nearest point of the box. -/
theorem C119_clamping (hr : ToNearest rnd) {dim : Nat} {grids : List (List ℝ)} {F : List Nat → ℝ} {s : RGI ℝ} (h : Loaded dim grids F s)
    (hF : ∀ idx, Inside idx (grids.map List.length) → Double (F idx)) {x x' : List ℝ} (hc : Clamped grids x x') :
    ∃ v, interpolateR rnd s x false = .ok v ∧ interpolateR rnd s x' false = .ok v := by
  obtain ⟨hg, hd, _, hH, _⟩ := Loaded.fields h
  have hlen := Clamped.len hc
  obtain ⟨cs, ys, ws, wt, hR, he⟩ := NDInterp.interp_cubeR hr hg hH hlen.1
  obtain ⟨cs', ys', ws', wt', hR', he'⟩ := NDInterp.interp_cubeR hr hg hH hlen.2
  refine ⟨NDInterp.cubeR rnd wt F, ?_, ?_⟩
  · rw [interpolateR_loaded h, he]
  · rw [interpolateR_loaded h, he', NDInterp.cubeR_clamp hr hg.increasing hR hR' hc hF]

/-- C119: with bound check the call throws `runtime_error` exactly for the points outside the box, and otherwise returns what it returns without. -/
theorem C119_bound_check (hr : ToNearest rnd) {dim : Nat} {grids : List (List ℝ)} {F : List Nat → ℝ} {s : RGI ℝ} (h : Loaded dim grids F s)
    {x : List ℝ} (hx : x.length = dim) :
    (interpolateR rnd s x true = .throws .runtimeError ↔ ¬ InBox grids x) ∧
    (InBox grids x → ∃ v, interpolateR rnd s x true = .ok v ∧ interpolateR rnd s x false = .ok v) := by
  obtain ⟨hg, hd, _, hH, _⟩ := Loaded.fields h
  obtain ⟨cs, ys, ws, ws', hR, he⟩ := NDInterp.interp_cubeR hr hg hH (hx.trans hd.symm)
  obtain ⟨h1, h2⟩ := interpolateR_checked (rnd := rnd) h hx
  have hin : InBox grids x → ∃ v, interpolateR rnd s x true = .ok v ∧ interpolateR rnd s x false = .ok v := fun hb =>
    ⟨_, by rw [h1 hb, interpolateR_loaded h, he], by rw [interpolateR_loaded h, he]⟩
  refine ⟨⟨fun ht hb => ?_, h2⟩, hin⟩
  obtain ⟨v, hv, _⟩ := hin hb
  rw [hv] at ht; cases ht

/-- C119: at every point the answer is the exact interpolant (the `w` of C16 to C18) up to `M ((1 + 16u)^dim - 1)`, where `M` bounds the data and `u = 2^-53`. -/
theorem C119_error (hr : ToNearest rnd) {dim : Nat} {grids : List (List ℝ)} {F : List Nat → ℝ} {s : RGI ℝ} (h : Loaded dim grids F s) {M : ℝ}
    (hF : ∀ idx, Inside idx (grids.map List.length) → |F idx| ≤ M) {x : List ℝ} (hx : x.length = dim) :
    ∃ v w, interpolateR rnd s x false = .ok v ∧ interpolate s x false = .ok w ∧ |v - w| ≤ M * ((1 + 16 / 2 ^ 53) ^ dim - 1) := by
  obtain ⟨hg, hd, _, hH, _⟩ := Loaded.fields h
  obtain ⟨cs, ys, ws, ws', hR, he⟩ := NDInterp.interp_cubeR hr hg hH (hx.trans hd.symm)
  obtain ⟨cs1, ys1, ws1, hR1, he1⟩ := NDInterp.interp_cube hg hH (hx.trans hd.symm)
  have hw : ws1 = ws := hR1.det hg.increasing hR.toExact
  refine ⟨_, _, by rw [interpolateR_loaded h, he], by rw [interpolate_loaded h, he1, hw], ?_⟩
  have := (NDInterp.cubeR_err hr hR hF).2
  rw [hd] at this
  refine this.trans (le_of_eq ?_)
  unfold uround
  ring

theorem realGridF_data {idx : List Nat} (h : Inside idx [3, 2]) : Double (realGridF idx) ∧ |realGridF idx| ≤ 29 := by
  have hn : ∀ n : ℤ, |n| < 2 ^ 53 → Double (n : ℝ) := fun n hn => ⟨n, 0, hn, by simp⟩
  cases h with
  | @cons i _ is _ hi h =>
    cases h with
    | @cons j _ js _ hj h =>
      cases h
      interval_cases i <;> interval_cases j <;> refine ⟨?_, by norm_num [realGridF]⟩
      · simpa [realGridF] using hn 10 (by norm_num)
      · simpa [realGridF] using hn 20 (by norm_num)
      · simpa [realGridF] using hn 11 (by norm_num)
      · simpa [realGridF] using hn 21 (by norm_num)
      · simpa [realGridF] using hn 19 (by norm_num)
      · simpa [realGridF] using hn 29 (by norm_num)

example : ∃ rnd, ToNearest rnd ∧ ∃ s, interpolateR rnd s [3, 10] true = .ok 19 ∧ interpolateR rnd s [5, 13] true = .throws .runtimeError ∧
    (∃ v, interpolateR rnd s [5, 13] false = .ok v ∧ interpolateR rnd s [3, 13] false = .ok v) ∧
    ∃ v w, interpolateR rnd s [2, 13] false = .ok v ∧ interpolate s [2, 13] false = .ok w ∧ |v - w| ≤ 1 / 2 ^ 43 := by
  obtain ⟨s, hs⟩ := realGridLoaded
  have hr := roundNearest_toNearest
  refine ⟨_, hr, s, ?_, ?_, ?_, ?_⟩
  · have := C119_node hr hs (fun idx h => (realGridF_data h).1) (idx := [2, 0]) (x := [3, 10]) (.cons rfl (.cons rfl .nil)) true
    simpa [realGridF] using this
  · refine (C119_bound_check hr hs rfl).1.2 ?_
    intro hb
    cases hb with
    | cons ha hb h1 h2 _ =>
      simp at ha hb
      subst ha hb
      norm_num at h2
  · refine C119_clamping hr hs (fun idx h => (realGridF_data h).1) ?_
    have : Clamped [[(0 : ℝ), 1, 3], [10, 20]] [5, 13] [max 0 (min 5 3), max 10 (min 13 20)] := .cons rfl rfl (.cons rfl rfl .nil)
    rw [show max (0 : ℝ) (min 5 3) = 3 by norm_num, show max (10 : ℝ) (min 13 20) = 13 by norm_num] at this
    exact this
  · obtain ⟨v, w, h1, h2, h3⟩ := C119_error hr hs (fun idx h => (realGridF_data h).2) (x := [2, 13]) rfl
    exact ⟨v, w, h1, h2, h3.trans (by norm_num)⟩

theorem constGridLoaded : ∃ s, Loaded 1 [[(0 : ℝ), 1]] (fun _ => 7) s := by
  have hp : ([0, 1] : List ℝ).Pairwise (· < ·) := by norm_num
  have h1 : RGI.increasing ([0, 1] : List ℝ) = true := (RGI.increasing_iff _).2 hp
  refine ⟨((RGI.addVar 1 ⟨[2], [7, 7]⟩).run (RGI.execAll 1 [.addCoord [0, 1]] (RGI.new ℝ 1)).2).2, by norm_num, [.addCoord [0, 1]],
    (RGI.execAll 1 [.addCoord [0, 1]] (RGI.new ℝ 1)).1, (RGI.execAll 1 [.addCoord [0, 1]] (RGI.new ℝ 1)).2, ⟨[2], [7, 7]⟩, rfl, ?_, ?_, ?_, ⟨?_, ?_⟩, ?_⟩
  · simp [RGI.execAll, RGI.exec, RGI.addCoord, RGI.new, h1, Alive]
  · simp only [acceptedAxes, List.filterMap_cons, axisArg, List.filterMap_nil, List.filter_cons, hp, decide_true, if_true, List.filter_nil]
  · rfl
  · rfl
  · intro idx h
    cases h with
    | @cons i _ is _ hi h =>
      cases h
      match i, hi with
      | 0, _ => rfl
      | 1, _ => rfl
  · refine Prod.ext ?_ rfl
    simp [RGI.execAll, RGI.exec, RGI.addCoord, RGI.addVar, RGI.new, h1, RGI.build, RGI.computeLimits, vIdx, NDInterp.new]

example : ∃ rnd, ToNearest rnd ∧ ∃ s, interpolateR rnd s [1 / 3] false = .ok 7 := by
  obtain ⟨s, hs⟩ := constGridLoaded
  exact ⟨_, roundNearest_toNearest, s, C119_constant roundNearest_toNearest hs ⟨7, 0, by norm_num, by norm_num⟩ (fun _ _ => rfl) rfl⟩

end MU
