import Verif.Lemmas.RegularGridHistory
import Mathlib.Algebra.Order.Ring.Rat
import Mathlib.Tactic.NormNum

set_option linter.unusedSectionVars false

/-!
# C16–C22, C69: RegularGridInterpolator

`Spec.Loaded dim grids F s`: the object `s` is the result of any history of calls, with a last `AddVar` that succeeded, on the axes `grids`
with the datum `F idx` for node `idx`. `RGI.interpolate s x bound_check` is `Interp(x, bound_check)`.
-/

namespace MU
open Spec RGI

variable {K : Type} [Field K] [LinearOrder K] [IsStrictOrderedRing K]

/-! ## A sample object for the non-vacuity examples -/

/-- A 3 × 2 grid loaded after a rejected axis and a failed `AddVar`. -/
def gridOps : List (RGI.Op ℚ) :=
  [.addCoord [0, 1, 3], .addCoord [2, 2], .addCoord [10, 20], .addVar ⟨[1, 2], [7, 7]⟩]

def gridF : List Nat → ℚ := fun idx => match idx with
  | [i, j] => ([1, 2, 3, 4, 5, 6] : List ℚ).getD (i * 2 + j) 0
  | _ => 0

theorem gridOps_outcomes : (execAll 2 gridOps (RGI.new ℚ 2)).1 =
    [.ok (), .throws .runtimeError, .ok (), .throws .invalidArgument] := by
  simp [gridOps, execAll, exec, addCoord, addVar, RGI.new, increasing, build, computeLimits, vIdx, NDInterp.new,
    show (10 : ℚ) < 20 by norm_num]

theorem gridLoaded : ∃ s, Loaded 2 [[0, 1, 3], [10, 20]] gridF s := by
  refine ⟨((addVar 2 ⟨[3, 2], [1, 2, 3, 4, 5, 6]⟩).run (execAll 2 gridOps (RGI.new ℚ 2)).2).2, by norm_num, gridOps,
    (execAll 2 gridOps (RGI.new ℚ 2)).1, (execAll 2 gridOps (RGI.new ℚ 2)).2, ⟨[3, 2], [1, 2, 3, 4, 5, 6]⟩, rfl, ?_, ?_, ?_,
    ⟨?_, ?_⟩, ?_⟩
  · rw [gridOps_outcomes]
    simp [Alive]
  · simp [gridOps, acceptedAxes, axisArg, List.filter_cons, show (10 : ℚ) < 20 by norm_num]
  · rfl
  · rfl
  · intro idx h
    cases h with
    | @cons i _ is _ hi h =>
      cases h with
      | @cons j _ js _ hj h =>
        cases h
        match i, hi with
        | 0, _ => match j, hj with
          | 0, _ => rfl
          | 1, _ => rfl
        | 1, _ => match j, hj with
          | 0, _ => rfl
          | 1, _ => rfl
        | 2, _ => match j, hj with
          | 0, _ => rfl
          | 1, _ => rfl
  · refine Prod.ext ?_ rfl
    simp [gridOps, execAll, exec, addCoord, addVar, RGI.new, increasing, build, computeLimits, vIdx, NDInterp.new,
    show (10 : ℚ) < 20 by norm_num]

/-! ## C16 -/

/-- C16: at every grid node `Interp` returns the datum of the node, with or without bound check. -/
theorem C16_node_reproduction {dim : Nat} {grids : List (List K)} {F : List Nat → K} {s : RGI K} (h : Loaded dim grids F s)
    {idx : List Nat} {x : List K} (hx : IsNode grids idx x) (bound_check : Bool) :
    interpolate s x bound_check = .ok (F idx) := by
  obtain ⟨hg, hd, _, hF, _⟩ := Loaded.fields h
  have hlen := IsNode.len hx
  have hbox := IsNode.inBox hx hg.increasing
  have hf : interpolate s x false = .ok (F idx) := by
    rw [interpolate_loaded h]
    obtain ⟨cs, ys, ws, hr, he⟩ := NDInterp.interp_cube hg hF hlen
    rw [he, NDInterp.cube_node hg.increasing hr hx]
  cases bound_check with
  | false => exact hf
  | true => rw [(interpolate_checked h (by omega)).1 hbox, hf]

example : ∃ s, Loaded 2 [[0, 1, 3], [10, 20]] gridF s ∧ interpolate s [3, 20] true = .ok 6 := by
  obtain ⟨s, hs⟩ := gridLoaded
  exact ⟨s, hs, C16_node_reproduction hs (idx := [2, 1]) (.cons rfl (.cons rfl .nil)) true⟩

/-! ## C17 -/

/-- C17: without bound check the value at any point is the value at the clamped point (and it is a number). -/
theorem C17_clamping {dim : Nat} {grids : List (List K)} {F : List Nat → K} {s : RGI K} (h : Loaded dim grids F s)
    {x x' : List K} (hc : Clamped grids x x') :
    ∃ y, interpolate s x false = .ok y ∧ interpolate s x' false = .ok y := by
  obtain ⟨hg, hd, _, hF, _⟩ := Loaded.fields h
  have hlen := Clamped.len hc
  obtain ⟨cs, ys, ws, hr, he⟩ := NDInterp.interp_cube hg hF hlen.1
  obtain ⟨cs', ys', ws', hr', he'⟩ := NDInterp.interp_cube hg hF hlen.2
  refine ⟨NDInterp.cube ws F, ?_, ?_⟩
  · rw [interpolate_loaded h, he]
  · rw [interpolate_loaded h, he', NDInterp.cube_clamp hg.increasing hr hr' hc]

/-- C17: every point with the right number of coordinates has a clamped point, which is in the box. -/
theorem C17_clamped_exists {dim : Nat} {grids : List (List K)} {F : List Nat → K} {s : RGI K} (h : Loaded dim grids F s)
    {x : List K} (hx : x.length = dim) : ∃ x', Clamped grids x x' ∧ InBox grids x' := by
  obtain ⟨hg, hd, _⟩ := Loaded.fields h
  exact exists_clamped hg.nonempty hg.increasing (hx.trans hd.symm)

example : ∃ s, Loaded 2 [[0, 1, 3], [10, 20]] gridF s ∧ ∃ y, interpolate s [5, 13] false = .ok y ∧
    interpolate s [3, 13] false = .ok y := by
  obtain ⟨s, hs⟩ := gridLoaded
  refine ⟨s, hs, C17_clamping hs (x := [5, 13]) (x' := [3, 13]) ?_⟩
  have := Clamped.cons (g := ([0, 1, 3] : List ℚ)) (x := 5) rfl rfl (Clamped.cons (g := ([10, 20] : List ℚ)) (x := 13) rfl rfl .nil)
  norm_num at this
  exact this

/-! ## C18 -/

/-- C18: for a point of a cell `Interp` is the tensor-product linear interpolant of the cell. Points on the common face of two cells are
covered for both cells. -/
theorem C18_tensor_product {dim : Nat} {grids : List (List K)} {F : List Nat → K} {s : RGI K} (h : Loaded dim grids F s)
    {cell : List (Nat × K × K)} {x : List K} (hx : Brackets grids cell x) :
    interpolate s x false = .ok (tensor cell F x) := by
  obtain ⟨hg, hd, _, hF, _⟩ := Loaded.fields h
  have hlen := Brackets.len hx
  obtain ⟨cs, ys, ws, hr, he⟩ := NDInterp.interp_cube hg hF hlen
  rw [interpolate_loaded h, he, NDInterp.cube_tensor hg.increasing hr hx]

/-- C18: when each axis has two nodes or more, each point of the box is in a cell. -/
theorem C18_cell_exists {dim : Nat} {grids : List (List K)} {F : List Nat → K} {s : RGI K} (h : Loaded dim grids F s)
    (h2 : ∀ g ∈ grids, 2 ≤ g.length) {x : List K} (hx : InBox grids x) : ∃ cell, Brackets grids cell x :=
  NDInterp.exists_brackets (Loaded.fields h).1.increasing h2 hx

/-- C18: at any point, the value lies between any bounds of the data, in particular between their minimum and maximum. -/
theorem C18_within_data_bounds {dim : Nat} {grids : List (List K)} {F : List Nat → K} {s : RGI K} (h : Loaded dim grids F s)
    {x : List K} (hx : x.length = dim) {m M : K} (hm : ∀ idx, Inside idx (grids.map List.length) → m ≤ F idx ∧ F idx ≤ M) :
    ∃ y, interpolate s x false = .ok y ∧ m ≤ y ∧ y ≤ M := by
  obtain ⟨hg, hd, _, hF, _⟩ := Loaded.fields h
  obtain ⟨cs, ys, ws, hr, he⟩ := NDInterp.interp_cube hg hF (hx.trans hd.symm)
  exact ⟨_, by rw [interpolate_loaded h, he], NDInterp.cube_bounds hr F (fun i hi => (hm i hi).1) (fun i hi => (hm i hi).2)⟩

/-- C18: data sampled from a function affine in each coordinate separately are reproduced in the whole box. -/
theorem C18_exact_on_separately_affine {dim : Nat} {grids : List (List K)} {F : List Nat → K} {s : RGI K}
    (h : Loaded dim grids F s) {f : List K → K} (hf : SeparatelyAffine f)
    (hF : ∀ idx p, IsNode grids idx p → F idx = f p) {x : List K} (hx : InBox grids x) :
    interpolate s x false = .ok (f x) := by
  obtain ⟨hg, hd, _, hF', _⟩ := Loaded.fields h
  have hlen := InBox.len hx
  obtain ⟨cs, ys, ws, hr, he⟩ := NDInterp.interp_cube hg hF' hlen
  rw [interpolate_loaded h, he, NDInterp.cube_affine hr hx f hf [] F (by simpa using hF), List.nil_append]

example : ∃ s, Loaded 2 [[0, 1, 3], [10, 20]] gridF s ∧
    interpolate s [2, 15] false = .ok (tensor [(1, 1, 3), (0, 10, 20)] gridF [2, 15]) ∧
    tensor [(1, 1, 3), (0, 10, 20)] gridF [2, 15] = 9 / 2 := by
  obtain ⟨s, hs⟩ := gridLoaded
  refine ⟨s, hs, C18_tensor_product hs ?_, ?_⟩
  · exact .cons rfl rfl (by norm_num) (by norm_num) (.cons rfl rfl (by norm_num) (by norm_num) .nil)
  · simp [tensor, line, gridF]; norm_num

/-- The product of the coordinates of a point is affine in each of them: the hypothesis of exactness is not restricted to affine functions. -/
example : SeparatelyAffine (fun x : List ℚ => x.prod) := by
  intro b a x0 x1 t
  simp only [List.prod_append, List.prod_cons]
  ring

/-! ## C19 -/

/-- C19: with bound check `Interp` throws `runtime_error` exactly for points outside the box; otherwise it returns the same as without
the check. -/
theorem C19_bound_check {dim : Nat} {grids : List (List K)} {F : List Nat → K} {s : RGI K} (h : Loaded dim grids F s)
    {x : List K} (hx : x.length = dim) :
    (interpolate s x true = .throws .runtimeError ↔ ¬ InBox grids x) ∧
    (InBox grids x → ∃ y, interpolate s x true = .ok y ∧ interpolate s x false = .ok y) := by
  obtain ⟨hg, hd, _, hF, _⟩ := Loaded.fields h
  obtain ⟨cs, ys, ws, hr, he⟩ := NDInterp.interp_cube hg hF (hx.trans hd.symm)
  obtain ⟨h1, h2⟩ := interpolate_checked h hx
  have hin : InBox grids x → ∃ y, interpolate s x true = .ok y ∧ interpolate s x false = .ok y := by
    intro hb
    exact ⟨_, by rw [h1 hb, interpolate_loaded h, he], by rw [interpolate_loaded h, he]⟩
  refine ⟨⟨fun ht hb => ?_, h2⟩, hin⟩
  obtain ⟨y, hy, _⟩ := hin hb
  rw [hy] at ht; cases ht

example : ∃ s, Loaded 2 [[0, 1, 3], [10, 20]] gridF s ∧ interpolate s [5, 13] true = .throws .runtimeError := by
  obtain ⟨s, hs⟩ := gridLoaded
  refine ⟨s, hs, (C19_bound_check hs rfl).1.mpr ?_⟩
  intro hb
  cases hb with
  | cons ha hb h1 h2 _ =>
    simp at ha hb
    subst ha hb
    norm_num at h2

/-! ## C20 -/

/-- C20: after any history that the program survived, `AddCoord` accepts an axis exactly when fewer than `dim` axes have been accepted and it
is strictly increasing; it then becomes the next axis. A strictly decreasing step or a repeated value makes it throw and leaves the object as
it was; with a full grid it exits the process. -/
theorem C20_add_coord {dim : Nat} {ops : List (RGI.Op K)} {outs : List (Res Unit)} {s : RGI K}
    (h : execAll dim ops (RGI.new K dim) = (outs, s)) (ha : Alive outs) (v : List K) :
    ((acceptedAxes ops).length ≠ dim → v.Pairwise (· < ·) →
      ∃ s', (addCoord dim v).run s = (.ok (), s') ∧ s'.grid_list = acceptedAxes ops ++ [v] ∧
        s' = { s with grid_list := s'.grid_list }) ∧
    ((acceptedAxes ops).length ≠ dim → ¬ v.Pairwise (· < ·) → (addCoord dim v).run s = (.throws .runtimeError, s)) ∧
    ((acceptedAxes ops).length = dim → (addCoord dim v).run s = (.exits 1, s)) := by
  have hs : s.grid_list = acceptedAxes ops := by rw [execAll_grid h ha]; simp [RGI.new]
  rw [← hs]
  refine ⟨fun h1 h2 => ⟨_, addCoord_ok h1 h2, rfl, rfl⟩, fun h1 h2 => addCoord_bad h1 h2, fun h1 => addCoord_full h1⟩

/-- C20: the number of axes accepted by a history never exceeds the dimension. -/
theorem C20_axes_at_most_dim {dim : Nat} {ops : List (RGI.Op K)} {outs : List (Res Unit)} {s : RGI K}
    (h : execAll dim ops (RGI.new K dim) = (outs, s)) (ha : Alive outs) : (acceptedAxes ops).length ≤ dim := by
  have hs : s.grid_list = acceptedAxes ops := by rw [execAll_grid h ha]; simp [RGI.new]
  rw [← hs]
  have key : ∀ (ops : List (RGI.Op K)) (s0 : RGI K) (outs : List (Res Unit)) (s : RGI K), s0.grid_list.length ≤ dim →
      execAll dim ops s0 = (outs, s) → Alive outs → s.grid_list.length ≤ dim := by
    intro ops
    induction ops with
    | nil => intro s0 outs s h0 h _; cases h; exact h0
    | cons op ops ih =>
      intro s0 outs s h0 h ha
      obtain ⟨r, s1, outs', h1, hr, h2, rfl, ha'⟩ := execAll_cons_alive h ha
      refine ih s1 outs' s ?_ h2 ha'
      cases op with
      | addVar a =>
        have : acceptedAxes [RGI.Op.addVar a] = [] := rfl
        rw [exec_grid h1 hr, this, List.append_nil]; exact h0
      | addCoord v =>
        simp only [exec] at h1
        by_cases hd : s0.grid_list.length = dim
        · rw [addCoord_full hd] at h1; cases h1; simp at hr
        · by_cases hv : v.Pairwise (· < ·)
          · rw [addCoord_ok hd hv] at h1; cases h1; simp; omega
          · rw [addCoord_bad hd hv] at h1; cases h1; exact h0
  exact key ops _ outs s (by simp [RGI.new]) h ha

/-- C20: after any history that the program survived, `IsValid` is true exactly when some `AddVar` of the history succeeded. -/
theorem C20_valid_iff_some_add_var_succeeded {dim : Nat} {ops : List (RGI.Op K)} {outs : List (Res Unit)} {s : RGI K}
    (h : execAll dim ops (RGI.new K dim) = (outs, s)) (ha : Alive outs) :
    isValid s = true ↔ ∃ (i : Nat) (a : NDArray K), ops[i]? = some (.addVar a) ∧ outs[i]? = some (.ok ()) := by
  rw [execAll_valid h ha]
  simp [RGI.new, isValid]

/-- C20: `AddVar` before the grid is complete exits the process; in particular it builds nothing. -/
theorem C20_add_var_incomplete {dim : Nat} {ops : List (RGI.Op K)} {outs : List (Res Unit)} {s : RGI K}
    (h : execAll dim ops (RGI.new K dim) = (outs, s)) (ha : Alive outs) (hd : (acceptedAxes ops).length ≠ dim) (a : NDArray K) :
    (addVar dim a).run s = (.exits 1, s) ∧ isValid s = false := by
  have hs : s.grid_list = acceptedAxes ops := by rw [execAll_grid h ha]; simp [RGI.new]
  refine ⟨addVar_incomplete (hs ▸ hd), ?_⟩
  rw [Bool.eq_false_iff]
  intro hv
  -- an AddVar that succeeded in the past needed a complete grid, and axes are never removed
  have key : ∀ (ops : List (RGI.Op K)) (s0 : RGI K) (outs : List (Res Unit)) (s : RGI K),
      (isValid s0 = true → s0.grid_list.length = dim) → execAll dim ops s0 = (outs, s) → Alive outs →
      isValid s = true → s.grid_list.length = dim := by
    intro ops
    induction ops with
    | nil => intro s0 outs s h0 h _; cases h; exact h0
    | cons op ops ih =>
      intro s0 outs s h0 h ha
      obtain ⟨r, s1, outs', h1, hr, h2, rfl, ha'⟩ := execAll_cons_alive h ha
      refine ih s1 outs' s ?_ h2 ha'
      intro hv1
      cases op with
      | addVar a =>
        simp only [exec] at h1
        rcases hr with rfl | ⟨e, rfl⟩
        · obtain ⟨h3, _, _, l, _, rfl⟩ := addVar_ok_inv h1; exact h3
        · obtain ⟨h3, _, _, l, _, rfl⟩ := addVar_throws_inv h1; exact h3
      | addCoord v =>
        simp only [exec] at h1
        by_cases hd : s0.grid_list.length = dim
        · rw [addCoord_full hd] at h1; cases h1; simp at hr
        · by_cases hv : v.Pairwise (· < ·)
          · rw [addCoord_ok hd hv] at h1; cases h1
            exact absurd (h0 hv1) hd
          · rw [addCoord_bad hd hv] at h1; cases h1; exact h0 hv1
  exact hd (hs ▸ key ops _ outs s (by simp [RGI.new, isValid]) h ha hv)

/-- C20: on a complete grid with no empty axis, `AddVar` succeeds exactly when the array has as many elements as the grid has nodes, and
otherwise throws `invalid_argument`. -/
theorem C20_add_var_complete {dim : Nat} {ops : List (RGI.Op K)} {outs : List (Res Unit)} {s : RGI K}
    (h : execAll dim ops (RGI.new K dim) = (outs, s)) (ha : Alive outs) (hd : (acceptedAxes ops).length = dim)
    (hne : ∀ g ∈ acceptedAxes ops, g ≠ []) (a : NDArray K) :
    (a.elems.length = ((acceptedAxes ops).map List.length).prod → ((addVar dim a).run s).1 = .ok ()) ∧
    (a.elems.length ≠ ((acceptedAxes ops).map List.length).prod → ((addVar dim a).run s).1 = .throws .invalidArgument) := by
  have hs : s.grid_list = acceptedAxes ops := by rw [execAll_grid h ha]; simp [RGI.new]
  rw [← hs] at hd hne ⊢
  rw [addVar_complete hd]
  obtain ⟨l, hl, _⟩ := computeLimits_ok hd hne
  refine ⟨fun h1 => ?_, fun h1 => ?_⟩
  · rw [build_ok (s := { s with data := a, gen := s.gen + 1 }) (l := l) hl h1]
  · rw [build_throws (s := { s with data := a, gen := s.gen + 1 }) (l := l) hl h1]

/-- A history with a rejected axis and a failed `AddVar` that the program survives. -/
theorem gridOps_alive : ∃ s, execAll 2 gridOps (RGI.new ℚ 2) =
    ([.ok (), .throws .runtimeError, .ok (), .throws .invalidArgument], s) ∧
    Alive [.ok (), .throws .runtimeError, .ok (), .throws .invalidArgument] :=
  ⟨_, Prod.ext gridOps_outcomes rfl, by simp [Alive]⟩

example : ∃ s, execAll 2 gridOps (RGI.new ℚ 2) = ([.ok (), .throws .runtimeError, .ok (), .throws .invalidArgument], s) ∧
    isValid s = false ∧ (acceptedAxes gridOps).length = 2 := by
  obtain ⟨s, hs, ha⟩ := gridOps_alive
  refine ⟨s, hs, ?_, by simp [gridOps, acceptedAxes, axisArg, List.filter_cons, show (10 : ℚ) < 20 by norm_num]⟩
  rw [Bool.eq_false_iff, Ne, C20_valid_iff_some_add_var_succeeded hs ha]
  rintro ⟨i, a, h1, h2⟩
  match i with
  | 0 => simp [gridOps] at h1
  | 1 => simp [gridOps] at h1
  | 2 => simp [gridOps] at h1
  | 3 => simp at h2
  | n + 4 => simp at h2

/-! ## C21 -/

/-- C21 is false: on a 2 × 3 grid an array of shape 3 × 2 is accepted, and `Interp` at the node `(1, 0)` returns the array's element
`(1, 1)`, not `(1, 0)`. -/
theorem C21_refuted : ∃ (s s' : RGI ℚ) (a : NDArray ℚ),
    execAll 2 [.addCoord [0, 1], .addCoord [0, 1, 2]] (RGI.new ℚ 2) = ([.ok (), .ok ()], s) ∧
    (addVar 2 a).run s = (.ok (), s') ∧ a.shape = [3, 2] ∧
    interpolate s' [1, 0] true = .ok 11 ∧ evalAtIndice s' [1, 0] = .ok 10 ∧ evalAtIndice s' [1, 1] = .ok 11 := by
  refine ⟨(execAll 2 [.addCoord [0, 1], .addCoord [0, 1, 2]] (RGI.new ℚ 2)).2,
    ((addVar 2 ⟨[3, 2], [0, 1, 10, 11, 20, 21]⟩).run (execAll 2 [.addCoord [0, 1], .addCoord [0, 1, 2]] (RGI.new ℚ 2)).2).2,
    ⟨[3, 2], [0, 1, 10, 11, 20, 21]⟩, Prod.ext ?_ rfl, Prod.ext ?_ rfl, rfl, ?_, ?_, ?_⟩
  all_goals decide +kernel

/-- C21, the part that holds: an accepted array has as many elements as the grid has nodes (but possibly another shape); if its shape is the
shape of the grid, `Interp` at node `idx` and `EvalAtIndice(idx)` are both the array's element `idx`. Missing: arrays of another shape with
the same number of elements should be refused. -/
theorem C21_shape_partial {dim : Nat} {ops : List (RGI.Op K)} {outs : List (Res Unit)} {s s' : RGI K} {a : NDArray K}
    (hdim : 0 < dim) (h : execAll dim ops (RGI.new K dim) = (outs, s)) (ha : Alive outs)
    (hv : (addVar dim a).run s = (.ok (), s')) :
    a.elems.length = ((acceptedAxes ops).map List.length).prod ∧
    (a.shape = (acceptedAxes ops).map List.length → ∀ F, Holds a.shape a.elems F → ∀ idx x, IsNode (acceptedAxes ops) idx x →
      interpolate s' x true = .ok (F idx) ∧ evalAtIndice s' idx = .ok (F idx)) := by
  have hs : s.grid_list = acceptedAxes ops := by rw [execAll_grid h ha]; simp [RGI.new]
  obtain ⟨h1, h2, h3, _⟩ := addVar_ok_inv hv
  refine ⟨hs ▸ h3, fun hsh F hF idx x hx => ?_⟩
  have hL : Loaded dim (acceptedAxes ops) F s' := ⟨hdim, ops, outs, s, a, h, ha, rfl, hsh, hF, hv⟩
  refine ⟨C16_node_reproduction hL hx true, ?_⟩
  obtain ⟨hg, hd, _, hF', hsh', _⟩ := Loaded.fields hL
  unfold evalAtIndice
  rw [hsh']
  exact NDInterp.mdRead_eq hF' (IsNode.inside hx)

theorem forall2_prod_le {gs sh : List Nat} (h : Inside (gs.map (· - 1)) sh) (hp : ∀ g ∈ gs, 0 < g) : gs.prod ≤ sh.prod ∧ (sh.prod = gs.prod → sh = gs) := by
  induction gs generalizing sh with
  | nil => cases h; exact ⟨le_rfl, fun _ => rfl⟩
  | cons g gs ih =>
    cases h with
    | @cons _ n _ ns h1 h2 =>
      obtain ⟨i1, i2⟩ := ih h2 (fun g' hg' => hp g' (by simp [hg']))
      have h0 := hp g (by simp)
      have hle : g ≤ n := by simp only at h1; omega
      have hpos : 0 < gs.prod := List.prod_pos fun x hx => hp x (by simp [hx])
      refine ⟨by simpa using Nat.mul_le_mul hle i1, fun he => ?_⟩
      simp only [List.prod_cons] at he
      have e1 : n = g := by
        by_contra hne
        have hlt : g < n := by omega
        have : g * gs.prod < n * gs.prod := Nat.mul_lt_mul_of_pos_right hlt hpos
        have : n * gs.prod ≤ n * ns.prod := Nat.mul_le_mul_left n i1
        omega
      subst e1
      rw [i2 (Nat.eq_of_mul_eq_mul_left h0 he)]

theorem mdOffset_inside {sh idx : List Nat} {acc o : Nat} (h : mdOffset sh (idx.map (fun (n : Nat) => (n : Int))) acc = .ok o) : Inside idx sh := by
  induction sh generalizing idx acc with
  | nil => cases idx with
    | nil => exact .nil
    | cons i is => simp [mdOffset] at h
  | cons n ns ih => cases idx with
    | nil => simp [mdOffset] at h
    | cons i is =>
      simp only [List.map_cons, mdOffset] at h
      split_ifs at h with hc
      exact .cons (by omega) (ih h)

theorem exists_last_node {grids : List (List K)} (hne : ∀ g ∈ grids, g ≠ []) : ∃ x, IsNode grids ((grids.map List.length).map (· - 1)) x := by
  induction grids with
  | nil => exact ⟨[], .nil⟩
  | cons g gs ih =>
    obtain ⟨x, hx⟩ := ih (fun g' hg' => hne g' (by simp [hg']))
    have := List.length_pos_of_ne_nil (hne g (by simp))
    exact ⟨g[g.length - 1] :: x, .cons (List.getElem?_eq_getElem (by simp only; omega)) hx⟩

theorem inside_pos_lt {sizes idx : List Nat} (h : Inside idx sizes) : pos sizes idx < sizes.prod := by
  induction h with
  | nil => simp [pos]
  | @cons i n is ns hin _ ih =>
    simp only [pos, List.prod_cons]
    have : (i + 1) * ns.prod ≤ n * ns.prod := Nat.mul_le_mul_right _ hin
    rw [add_mul, one_mul] at this
    omega

theorem exists_holds {sizes : List Nat} {values : List K} (h : values.length = sizes.prod) : ∃ F, Holds sizes values F :=
  ⟨fun idx => values.getD (pos sizes idx) 0, h, fun idx hi => by
    have := inside_pos_lt hi
    rw [List.getD_eq_getElem?_getD, List.getElem?_eq_getElem (by omega)]
    rfl⟩

/-- C21, what an accepted array of any shape means: `Interp` at node `idx` reads the elements in C order with the shape of the grid, whatever the shape of the
array; `EvalAtIndice(idx)` reads them with the shape of the array. The two agree at every node exactly when the shapes are the same. -/
theorem C21_iff_partial {dim : Nat} {ops : List (RGI.Op K)} {outs : List (Res Unit)} {s s' : RGI K} {a : NDArray K}
    (hdim : 0 < dim) (h : execAll dim ops (RGI.new K dim) = (outs, s)) (ha : Alive outs)
    (hv : (addVar dim a).run s = (.ok (), s')) :
    (∀ F, Holds ((acceptedAxes ops).map List.length) a.elems F → ∀ idx x, IsNode (acceptedAxes ops) idx x → interpolate s' x true = .ok (F idx)) ∧
    (∀ G, Holds a.shape a.elems G → ∀ idx, Inside idx a.shape → evalAtIndice s' idx = .ok (G idx)) ∧
    (a.elems.length = a.shape.prod → ((∀ idx x, IsNode (acceptedAxes ops) idx x → evalAtIndice s' idx = interpolate s' x true) ↔
      a.shape = (acceptedAxes ops).map List.length)) := by
  have hs : s.grid_list = acceptedAxes ops := by rw [execAll_grid h ha]; simp [RGI.new]
  obtain ⟨h1, h2, h3, l, hl, hs'⟩ := addVar_ok_inv hv
  have key : ∀ F, Holds ((acceptedAxes ops).map List.length) a.elems F → ∀ idx x, IsNode (acceptedAxes ops) idx x → interpolate s' x true = .ok (F idx) := by
    intro F hF idx x hx
    have hcl := computeLimits_ok h1 h2
    obtain ⟨l', hl', hL'⟩ := hcl
    have hv' := addVar_complete (dim := dim) (a := ⟨(acceptedAxes ops).map List.length, a.elems⟩) (s := s) h1
    rw [build_ok (s := { s with data := ⟨(acceptedAxes ops).map List.length, a.elems⟩, gen := s.gen + 1 }) (l := l') hl' h3] at hv'
    have hL : Loaded dim (acceptedAxes ops) F _ := ⟨hdim, ops, outs, s, _, h, ha, rfl, rfl, hF, hv'⟩
    have := C16_node_reproduction hL hx true
    rw [← this, hs', Limits.unique hl hL']
    rfl
  refine ⟨key, fun G hG idx hi => ?_, fun hlen => ⟨fun hall => ?_, fun hsh idx x hx => ?_⟩⟩
  · unfold evalAtIndice
    rw [hs']
    exact NDInterp.mdRead_eq hG hi
  · rw [hs] at h2 h3
    obtain ⟨x, hx⟩ := exists_last_node h2
    obtain ⟨F, hF⟩ := exists_holds (values := a.elems) (sizes := (acceptedAxes ops).map List.length) h3
    have e1 := hall _ x hx
    rw [key F hF _ x hx] at e1
    unfold evalAtIndice mdRead at e1
    rw [hs'] at e1
    obtain ⟨o, ho, -⟩ := Res.bind_eq_ok.1 e1
    refine (forall2_prod_le (mdOffset_inside ho) ?_).2 (hlen ▸ h3)
    intro n hn
    obtain ⟨g, hg, rfl⟩ := List.mem_map.1 hn
    exact List.length_pos_of_ne_nil (h2 g hg)
  · obtain ⟨F, hF⟩ := exists_holds (values := a.elems) (sizes := a.shape) hlen
    have := (C21_shape_partial hdim h ha hv).2 hsh F hF idx x hx
    rw [this.1, this.2]

/-! ## C22 -/

/-- C22 is false: after a failed `AddVar` the object still says it is valid, but it points to the storage that `AddVar` has released: `Interp`
is undefined behaviour. -/
theorem C22_refuted : ∃ (s s' : RGI ℚ) (a : NDArray ℚ), Loaded 2 [[0, 1, 3], [10, 20]] gridF s ∧
    (addVar 2 a).run s = (.throws .invalidArgument, s') ∧ isValid s' = true ∧
    interpolate s [1, 10] true = .ok 3 ∧ interpolate s' [1, 10] true = .ub := by
  obtain ⟨s, hs⟩ := gridLoaded
  obtain ⟨hg, hd, hgl, hF, hsh, hi, l, hl, hL⟩ := Loaded.fields hs
  obtain ⟨l', hl', hL'⟩ := computeLimits_ok (dim := 2) (grids := s.grid_list) (by rw [hgl]; rfl) (by rw [hgl]; exact hg.nonempty)
  refine ⟨s, { s with data := ⟨[1, 1], [0]⟩, gen := s.gen + 1, limits := some l' }, ⟨[1, 1], [0]⟩, hs, ?_, ?_, C16_node_reproduction hs (idx := [1, 0]) (.cons rfl (.cons rfl .nil)) true, ?_⟩
  · rw [addVar_complete (by rw [hgl]; rfl)]
    rw [build_throws (s := { s with data := ⟨[1, 1], [0]⟩, gen := s.gen + 1 }) (l := l') hl' (by simp [hgl])]
  · simp [isValid, hi]
  · have hb : boundCheck l' [1, 10] = .ok () := (boundCheck_eq hL' (by rw [hgl]; rfl)).1 (by
      rw [hgl]
      exact .cons (a := 0) (b := 3) rfl rfl (by norm_num) (by norm_num)
        (.cons (a := 10) (b := 20) rfl rfl (by norm_num) (by norm_num) .nil))
    simp [interpolate, hb, hi]

/-- C22, exactly what a failed `AddVar` leaves, for every loaded object and every query: the object still says it is valid, every query inside the grid (and
every query without bound check) is undefined behaviour, every query outside is still refused, and `EvalAtIndice` reads the array that was refused. -/
theorem C22_after_failure {dim : Nat} {grids : List (List K)} {F : List Nat → K} {s s' : RGI K} (h : Loaded dim grids F s) {a : NDArray K} {e : Exn}
    (hf : (addVar dim a).run s = (.throws e, s')) :
    isValid s' = true ∧ (∀ x, interpolate s' x false = .ub) ∧
    (∀ x, x.length = dim → (InBox grids x → interpolate s' x true = .ub) ∧ (¬ InBox grids x → interpolate s' x true = .throws .runtimeError)) ∧
    ∀ G, Holds a.shape a.elems G → ∀ idx, Inside idx a.shape → evalAtIndice s' idx = .ok (G idx) := by
  obtain ⟨hg, hd, hgl, _, _, hi, -⟩ := Loaded.fields h
  obtain ⟨_, _, _, l, hL, hs'⟩ := addVar_throws_inv hf
  rw [hgl] at hL
  subst hs'
  refine ⟨by simp [isValid, hi], fun x => by simp [interpolate, hi], fun x hx => ?_, fun G hG idx hin => NDInterp.mdRead_eq hG hin⟩
  have hb := boundCheck_eq hL (x := x) (by omega)
  exact ⟨fun hin => by simp [interpolate, hi, hb.1 hin], fun hout => by simp [interpolate, hb.2 hout]⟩

/-- C22, the part that holds: a failed `AddVar` leaves the axes, and a later successful `AddVar` makes the object work with the new data,
whatever failed in between. Missing: the previous data are lost, and until that later call `Interp` is undefined. -/
theorem C22_recovers_partial {dim : Nat} {grids : List (List K)} {F G : List Nat → K} {s s' : RGI K} (h : Loaded dim grids F s)
    {a b : NDArray K} {e : Exn} (hf : (addVar dim a).run s = (.throws e, s')) (hb : b.shape = grids.map List.length)
    (hG : Holds b.shape b.elems G) :
    ∃ s'', (addVar dim b).run s' = (.ok (), s'') ∧ ∀ idx x, IsNode grids idx x → interpolate s'' x true = .ok (G idx) := by
  obtain ⟨hg, hd, hgl, _⟩ := Loaded.fields h
  obtain ⟨_, _, _, l, hL, hs'⟩ := addVar_throws_inv hf
  have hgl' : s'.grid_list = grids := by rw [hs']; exact hgl
  obtain ⟨l', hl', _⟩ := computeLimits_ok (dim := dim) (grids := s'.grid_list) (by rw [hgl']; exact hd)
    (by rw [hgl']; exact hg.nonempty)
  have hv := addVar_complete (dim := dim) (a := b) (s := s') (by rw [hgl']; exact hd)
  rw [build_ok (s := { s' with data := b, gen := s'.gen + 1 }) (l := l') hl' (by
    rw [hG.size, hb]; simp [hgl'])] at hv
  refine ⟨_, hv, fun idx x hx => ?_⟩
  obtain ⟨hdim, ops, outs, s0, a0, he, hal, hacc, hsh, hF, hv0⟩ := h
  -- the history, the successful AddVar and the failed one form a longer history
  have hhist : ∀ (ops : List (RGI.Op K)) (t t' : RGI K) (outs : List (Res Unit)), execAll dim ops t = (outs, t') → Alive outs →
      ∀ ops', execAll dim (ops ++ ops') t = (outs ++ (execAll dim ops' t').1, (execAll dim ops' t').2) := by
    intro ops
    induction ops with
    | nil => intro t t' outs h _ ops'; cases h; simp
    | cons op ops ih =>
      intro t t' outs h ha ops'
      obtain ⟨r, s1, outs', h1, hr, h2, rfl, ha'⟩ := execAll_cons_alive h ha
      rw [List.cons_append, execAll, h1]
      rcases hr with rfl | ⟨e, rfl⟩
      · simp [ih s1 t' outs' h2 ha' ops']
      · simp [ih s1 t' outs' h2 ha' ops']
  have h2 := hhist ops _ _ outs he hal [.addVar a0, .addVar a]
  have h3 : execAll dim [.addVar a0, .addVar a] s0 = ([.ok (), .throws e], s') := by
    simp [execAll, exec, hv0, hf]
  rw [h3] at h2
  refine C16_node_reproduction (dim := dim) (grids := grids) (F := G)
    ⟨hdim, ops ++ [.addVar a0, .addVar a], _, s', b, h2, ?_, ?_, hb, hG, hv⟩ hx true
  · intro r hr
    rcases List.mem_append.mp hr with hr | hr
    · exact hal r hr
    · simp at hr
      rcases hr with rfl | rfl
      · exact .inl rfl
      · exact .inr ⟨e, rfl⟩
  · rw [← hacc]; simp [acceptedAxes, axisArg]

example : ∃ (s s' : RGI ℚ) (a : NDArray ℚ), Loaded 2 [[0, 1, 3], [10, 20]] gridF s ∧
    (addVar 2 a).run s = (.throws .invalidArgument, s') := by
  obtain ⟨s, s', a, h1, h2, _⟩ := C22_refuted
  exact ⟨s, s', a, h1, h2⟩

/-! ## C69 -/

/-- C69: copying a loaded object (or assigning it to any other object) succeeds, and the copy answers as the original on every point, with
and without bound check. -/
theorem C69_copy_of_loaded_partial {dim : Nat} {grids : List (List K)} {F : List Nat → K} {s : RGI K} (h : Loaded dim grids F s)
    (target : RGI K) :
    ∃ t, (assign dim s).run target = (.ok (), t) ∧ isValid t = true ∧
      (∀ x, x.length = dim → ∀ b, interpolate t x b = interpolate s x b) ∧ ∀ idx, evalAtIndice t idx = evalAtIndice s idx := by
  obtain ⟨hg, hd, hgl, hF, hsh, hi, l, hl, hL⟩ := Loaded.fields h
  obtain ⟨l', hl', hL'⟩ := computeLimits_ok (dim := dim) (grids := grids) hd hg.nonempty
  have hb := build_ok (s := { target with grid_list := grids, data := s.data, gen := target.gen + 1 }) (l := l') hl' hF.size
  have hll : l' = l := Limits.unique hL hL'
  subst hll
  have hrun : (assign dim s).run target =
      (build dim).run { target with grid_list := grids, data := s.data, gen := target.gen + 1 } := by
    unfold assign
    simp only [Act.run_update_bind, hgl]
  rw [hb] at hrun
  refine ⟨_, hrun, rfl, fun x hx b => ?_, fun idx => rfl⟩
  cases b <;> simp [interpolate, hl, hi]

/-- C69 is false for an object without axes: copying a default-constructed object is undefined behaviour. -/
theorem C69_refuted : (copy 2 (RGI.new ℚ 2)).1 = .ub := by
  simp [copy, assign, RGI.new, build, computeLimits]

theorem computeLimits_short {dim : Nat} {grids : List (List K)} (h : grids.length < dim) : computeLimits dim grids = .ub := by
  induction grids generalizing dim with
  | nil => cases dim with
    | zero => simp at h
    | succ d => rfl
  | cons g gs ih =>
    cases dim with
    | zero => simp at h
    | succ d =>
      have := ih (dim := d) (by simpa using h)
      cases g <;> simp [computeLimits, vIdx, this]

/-- C69, the sources that are not loaded: with too few axes the copy is undefined behaviour; with all the axes but an array that does not have as many elements
as the grid has nodes (none given yet, or the last `AddVar` refused) the copy throws, and the assigned object is left with the axes and the array of the source
and its own previous interpolator, so that every query in the grid is undefined behaviour. -/
theorem C69_unloaded_source {dim : Nat} {ops : List (RGI.Op K)} {outs : List (Res Unit)} {s : RGI K} (h : execAll dim ops (RGI.new K dim) = (outs, s))
    (ha : Alive outs) (target : RGI K) :
    ((acceptedAxes ops).length < dim → ((assign dim s).run target).1 = .ub) ∧
    ((acceptedAxes ops).length = dim → (∀ g ∈ acceptedAxes ops, g ≠ []) → s.data.elems.length ≠ ((acceptedAxes ops).map List.length).prod →
      ∃ t, (assign dim s).run target = (.throws .invalidArgument, t) ∧ t.grid_list = acceptedAxes ops ∧ t.data = s.data ∧
        isValid t = isValid target ∧ ∀ u, target.interp = some (u, target.gen) → ∀ x, interpolate t x false = .ub) := by
  have hs : s.grid_list = acceptedAxes ops := by rw [execAll_grid h ha]; simp [RGI.new]
  have hrun : (assign dim s).run target =
      (build dim).run { target with grid_list := acceptedAxes ops, data := s.data, gen := target.gen + 1 } := by
    unfold assign
    simp only [Act.run_update_bind, hs]
  refine ⟨fun hlt => ?_, fun hd hne hlen => ?_⟩
  · rw [hrun]
    simp [build, computeLimits_short hlt]
  · obtain ⟨l, hl, -⟩ := computeLimits_ok hd hne
    rw [build_throws (s := { target with grid_list := acceptedAxes ops, data := s.data, gen := target.gen + 1 }) (l := l) hl hlen] at hrun
    refine ⟨_, hrun, rfl, rfl, rfl, fun u hu x => ?_⟩
    simp [interpolate, hu]

/-- C69 is about something: sources that are not loaded. -/
example : ∃ outs s, execAll 1 [.addCoord [0, 1, (3 : ℚ)]] (RGI.new ℚ 1) = (outs, s) ∧ Alive outs ∧
    acceptedAxes [RGI.Op.addCoord [0, 1, (3 : ℚ)]] = [[0, 1, 3]] ∧ s.data.elems.length ≠ 3 := by
  refine ⟨_, _, rfl, ?_, ?_, ?_⟩
  · intro r hr
    simp [execAll] at hr
    exact .inl hr
  · decide
  · decide

example : ∃ s, Loaded 2 [[0, 1, 3], [10, 20]] gridF s ∧ (copy 2 s).1 = .ok () := by
  obtain ⟨s, hs⟩ := gridLoaded
  obtain ⟨t, ht, _⟩ := C69_copy_of_loaded_partial hs (RGI.new ℚ 2)
  exact ⟨s, hs, by rw [copy, ht]⟩

end MU
