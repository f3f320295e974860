import Verif.Model.OutOfMemoryGrid
import Verif.Props.RegularGrid

/-!
# C148: regular grids when memory is exhausted
-/

set_option linter.unusedSectionVars false

namespace MU

open Spec RGI

theorem run_gridAlloc_bind {σ α : Type} (fail : GridSite → Bool) (p : GridSite) (f : Unit → Act σ α) (s : σ) :
    (gridAlloc fail p >>= f).run s = if fail p then (.throws .badAlloc, s) else (f ()).run s := by
  rw [Act.run_bind]
  unfold gridAlloc
  rw [Act.run_lift]
  cases fail p <;> rfl

variable {K : Type} [Field K] [LinearOrder K] [IsStrictOrderedRing K]

/-- C148, `AddCoord` of a `RegularGridInterpolator`: memory exhaustion has no effect on the object. -/
theorem C148_add_coord (fail : GridSite → Bool) (dim : Nat) (v : List K) (s : RGI K) :
    (addCoordF fail dim v).run s = (addCoord dim v).run s ∨ (addCoordF fail dim v).run s = (.throws .badAlloc, s) := by
  unfold addCoordF addCoord
  rw [Act.run_bind_ok (Act.run_get _), Act.run_bind_ok (Act.run_get _)]
  split
  · exact Or.inl rfl
  · split
    · rw [run_gridAlloc_bind]
      split
      · exact Or.inr rfl
      · exact Or.inl rfl
    · exact Or.inl rfl

theorem run_buildF (fail : GridSite → Bool) {dim : Nat} {s : RGI K} {l : List (K × K)} (hl : computeLimits dim s.grid_list = .ok l) :
    (buildF fail dim).run s = (build dim).run s ∨
    ((buildF fail dim).run s = (.throws .badAlloc, { s with limits := some l })) ∨
    ∃ d, (buildF fail dim).run s = (.throws .badAlloc, { s with limits := s.limits.map (fun old => l.take d ++ old.drop d) }) := by
  unfold buildF
  rw [Act.run_bind_ok (Act.run_get _), Act.run_bind_ok (by rw [Act.run_lift, hl])]
  cases hd : (List.range dim).find? (fun d => fail (.copyAxis d)) with
  | some d => exact Or.inr (Or.inr ⟨d, rfl⟩)
  | none =>
    simp only
    rw [Act.run_bind_ok (Act.run_update _ _), run_gridAlloc_bind]
    split
    · exact Or.inr (Or.inl rfl)
    rw [run_gridAlloc_bind]
    split
    · exact Or.inr (Or.inl rfl)
    rw [run_gridAlloc_bind]
    split
    · exact Or.inr (Or.inl rfl)
    by_cases hs : s.data.elems.length = (s.grid_list.map List.length).prod
    · have hn : NDInterp.new s.grid_list s.data.elems = .ok ⟨s.grid_list, s.data.elems⟩ := by simp [NDInterp.new, hs]
      rw [hn, Act.run_lift_ok_bind, run_gridAlloc_bind]
      split
      · exact Or.inr (Or.inl rfl)
      · left
        rw [build_ok hl hs]
        rfl
    · left
      rw [build_throws hl hs]
      have hn : NDInterp.new s.grid_list s.data.elems = .throws .invalidArgument := by simp [NDInterp.new, hs]
      rw [hn]
      rfl

/-- The model with failures, when nothing fails, is the model of C15-C25. -/
theorem C148_no_failure (dim : Nat) (v : List K) (a : NDArray K) (s : RGI K) :
    (addCoordF (fun _ => false) dim v).run s = (addCoord dim v).run s ∧ (addVarF (fun _ => false) dim a).run s = (addVar dim a).run s := by
  refine ⟨?_, ?_⟩
  · rcases C148_add_coord (fun _ => false) dim v s with h | h
    · exact h
    · exfalso
      unfold addCoordF at h
      rw [Act.run_bind_ok (Act.run_get _)] at h
      split at h
      · simp [Act.run_lift] at h
      · split at h
        · rw [run_gridAlloc_bind, if_neg (by simp), Act.run_update] at h
          simp at h
        · simp [Act.run_lift] at h
  · unfold addVarF addVar
    rw [Act.run_bind_ok (Act.run_get _), Act.run_bind_ok (Act.run_get _)]
    split
    · rfl
    · rw [run_gridAlloc_bind, if_neg (by simp), run_gridAlloc_bind, if_neg (by simp), Act.run_bind_ok (Act.run_update _ _),
        Act.run_bind_ok (Act.run_update _ _)]
      generalize ({ s with data := a, gen := s.gen + 1 } : RGI K) = t
      unfold buildF build
      rw [Act.run_bind_ok (Act.run_get _), Act.run_bind_ok (Act.run_get _), Act.run_bind, Act.run_bind, Act.run_lift]
      cases computeLimits dim t.grid_list with
      | ok l =>
        simp only
        rw [show (List.range dim).find? (fun d => (fun _ : GridSite => false) (.copyAxis d)) = none by simp]
        simp only
        rw [Act.run_bind_ok (Act.run_update _ _), run_gridAlloc_bind, if_neg (by simp), run_gridAlloc_bind, if_neg (by simp),
          run_gridAlloc_bind, if_neg (by simp), Act.run_bind_ok (Act.run_update _ _)]
        rfl
      | _ => rfl

/-- C148 (only for the first allocations): when the new block of values cannot be allocated, `std::bad_alloc` leaves `AddVar` and the object is exactly as
before: its previous values are still there. -/
theorem C148_early_failure_partial {fail : GridSite → Bool} {dim : Nat} {s : RGI K} (a : NDArray K) (hdim : s.grid_list.length = dim)
    (hf : fail .extents = true ∨ fail .resize = true) : (addVarF fail dim a).run s = (.throws .badAlloc, s) := by
  unfold addVarF
  rw [Act.run_bind_ok (Act.run_get _)]
  simp only [hdim, ne_eq, not_true, if_false]
  rw [run_gridAlloc_bind, run_gridAlloc_bind]
  rcases hf with h | h
  · simp [h]
  · cases fail .extents <;> simp [h]

/-- The object after a call of `AddVar` that failed at a later allocation. -/
theorem addVarF_late {fail : GridSite → Bool} {dim : Nat} {grids : List (List K)} {F : List Nat → K} {s s' : RGI K} (h : Loaded dim grids F s)
    {a : NDArray K} (hlate : fail .extents = false ∧ fail .resize = false) (hf : (addVarF fail dim a).run s = (.throws .badAlloc, s')) :
    ∃ l, s' = { s with data := a, gen := s.gen + 1, limits := some l } := by
  obtain ⟨hg, hd, hgl, hF, hsh, hi, l0, hl0, hL0⟩ := Loaded.fields h
  obtain ⟨l, hl, -⟩ := computeLimits_ok (dim := dim) (grids := s.grid_list) (by rw [hgl]; exact hd) (by rw [hgl]; exact hg.nonempty)
  unfold addVarF at hf
  rw [Act.run_bind_ok (Act.run_get _)] at hf
  simp only [hgl, hd, ne_eq, not_true, if_false] at hf
  rw [run_gridAlloc_bind, hlate.1, if_neg (by simp), run_gridAlloc_bind, hlate.2, if_neg (by simp),
    Act.run_bind_ok (Act.run_update _ _)] at hf
  rcases run_buildF fail (s := { s with data := a, gen := s.gen + 1 }) (l := l) hl with e | e | ⟨d, e⟩
  · rw [e] at hf
    by_cases hs : a.elems.length = (s.grid_list.map List.length).prod
    · rw [build_ok (s := { s with data := a, gen := s.gen + 1 }) hl hs] at hf
      simp at hf
    · rw [build_throws (s := { s with data := a, gen := s.gen + 1 }) hl hs] at hf
      simp at hf
  · rw [e] at hf
    simp only [Prod.mk.injEq, true_and] at hf
    exact ⟨l, hf.symm⟩
  · rw [e] at hf
    simp only [Prod.mk.injEq, true_and, hl0, Option.map_some] at hf
    exact ⟨_, hf.symm⟩

/-- What really happens when a later allocation fails: the object says that it is valid, but it points to the block of values that was given back, and `Interp`
is undefined behaviour at every point. -/
theorem C148_late_failure {fail : GridSite → Bool} {dim : Nat} {grids : List (List K)} {F : List Nat → K} {s s' : RGI K} (h : Loaded dim grids F s)
    {a : NDArray K} (hlate : fail .extents = false ∧ fail .resize = false) (hf : (addVarF fail dim a).run s = (.throws .badAlloc, s')) :
    isValid s' = true ∧ ∀ x, interpolate s' x false = .ub := by
  obtain ⟨l, rfl⟩ := addVarF_late h hlate hf
  obtain ⟨-, -, -, -, -, hi, -⟩ := Loaded.fields h
  refine ⟨by simp [isValid, hi], fun x => ?_⟩
  simp [interpolate, hi]

/-- C148 (only that the object can be loaded again): after any call of `AddVar` that ran out of memory, `AddVar` with enough memory has the same outcome as on the object
before, and if it succeeds the object interpolates, checks bounds and gives its values exactly as if the failed call had not been made. -/
theorem C148_recovers_partial {fail : GridSite → Bool} {dim : Nat} {grids : List (List K)} {F : List Nat → K} {s s' : RGI K} (h : Loaded dim grids F s)
    {a : NDArray K} (hf : (addVarF fail dim a).run s = (.throws .badAlloc, s')) (b : NDArray K) :
    ((addVar dim b).run s').1 = ((addVar dim b).run s).1 ∧
    (((addVar dim b).run s').1 = .ok () →
      (∀ x c, interpolate ((addVar dim b).run s').2 x c = interpolate ((addVar dim b).run s).2 x c) ∧
      (∀ i, evalAtIndice ((addVar dim b).run s').2 i = evalAtIndice ((addVar dim b).run s).2 i) ∧
      (∀ i, getCoord dim ((addVar dim b).run s').2 i = getCoord dim ((addVar dim b).run s).2 i ∧
        getCoordMinVal dim ((addVar dim b).run s').2 i = getCoordMinVal dim ((addVar dim b).run s).2 i ∧
        getCoordMaxVal dim ((addVar dim b).run s').2 i = getCoordMaxVal dim ((addVar dim b).run s).2 i)) := by
  obtain ⟨hg, hd, hgl, -⟩ := Loaded.fields h
  by_cases hlate : fail .extents = false ∧ fail .resize = false
  · obtain ⟨l, rfl⟩ := addVarF_late h hlate hf
    obtain ⟨l', hl, -⟩ := computeLimits_ok (dim := dim) (grids := s.grid_list) (by rw [hgl]; exact hd) (by rw [hgl]; exact hg.nonempty)
    rw [addVar_complete (s := s) (by rw [hgl]; exact hd), addVar_complete (s := { s with data := a, gen := s.gen + 1, limits := some l })
      (by simp only [hgl]; exact hd)]
    by_cases hs : b.elems.length = (s.grid_list.map List.length).prod
    · rw [build_ok (s := { s with data := b, gen := s.gen + 1 }) hl hs,
        build_ok (s := { s with data := b, gen := s.gen + 1 + 1, limits := some l }) hl hs]
      refine ⟨rfl, fun _ => ⟨fun x c => ?_, fun i => rfl, fun i => ⟨rfl, rfl, rfl⟩⟩⟩
      simp [interpolate]
    · rw [build_throws (s := { s with data := b, gen := s.gen + 1 }) hl hs,
        build_throws (s := { s with data := b, gen := s.gen + 1 + 1, limits := some l }) hl hs]
      exact ⟨rfl, fun hc => by simp at hc⟩
  · rw [C148_early_failure_partial a (by rw [hgl]; exact hd) (by
      by_cases h1 : fail .extents = true
      · exact Or.inl h1
      · right
        simp only [Bool.not_eq_true] at h1
        simpa [h1] using hlate)] at hf
    simp only [Prod.mk.injEq, true_and] at hf
    subst hf
    exact ⟨rfl, fun _ => ⟨fun _ _ => rfl, fun _ => rfl, fun _ => ⟨rfl, rfl, rfl⟩⟩⟩

/-- C148 is refuted: a loaded 3 × 2 grid, on which `AddVar` (with values of the right shape) runs out of memory when the interpolator is allocated: reading a node,
which gave 3 before, is undefined afterwards. -/
theorem C148_refuted : ∃ (s s' : RGI ℚ), Loaded 2 [[0, 1, 3], [10, 20]] gridF s ∧
    (addVarF (fun p => decide (p = .object)) 2 ⟨[3, 2], [1, 2, 3, 4, 5, 6]⟩).run s = (.throws .badAlloc, s') ∧
    interpolate s [1, 10] false = .ok 3 ∧ interpolate s' [1, 10] false = .ub := by
  obtain ⟨s, hs⟩ := gridLoaded
  obtain ⟨hg, hd, hgl, -⟩ := Loaded.fields hs
  obtain ⟨l, hl, -⟩ := computeLimits_ok (dim := 2) (grids := s.grid_list) (by rw [hgl]; rfl) (by rw [hgl]; exact hg.nonempty)
  have hf : (addVarF (fun p => decide (p = .object)) 2 ⟨[3, 2], [1, 2, 3, 4, 5, 6]⟩).run s =
      (.throws .badAlloc, { s with data := ⟨[3, 2], [1, 2, 3, 4, 5, 6]⟩, gen := s.gen + 1, limits := some l }) := by
    unfold addVarF
    rw [Act.run_bind_ok (Act.run_get _)]
    simp only [hgl, hd, ne_eq, not_true, if_false]
    rw [run_gridAlloc_bind, if_neg (by simp), run_gridAlloc_bind, if_neg (by simp), Act.run_bind_ok (Act.run_update _ _)]
    unfold buildF
    rw [Act.run_bind_ok (Act.run_get _), Act.run_bind_ok (by rw [Act.run_lift, show computeLimits 2 _ = _ from hl])]
    rw [show (List.range 2).find? (fun d => decide (GridSite.copyAxis d = .object)) = none by simp]
    simp only
    rw [Act.run_bind_ok (Act.run_update _ _), run_gridAlloc_bind, if_neg (by simp), run_gridAlloc_bind, if_pos (by simp)]
    simp only [hgl]
  refine ⟨s, _, hs, hf, C16_node_reproduction hs (idx := [1, 0]) (.cons rfl (.cons rfl .nil)) false, ?_⟩
  exact (C148_late_failure hs (by simp) hf).2 _

/-- Non-vacuity: the object of `C148_refuted` meets the hypotheses of `C148_late_failure` and of `C148_recovers_partial`; it can be loaded again. -/
example : ∃ (s s' : RGI ℚ), Loaded 2 [[0, 1, 3], [10, 20]] gridF s ∧
    (addVarF (fun p => decide (p = .object)) 2 ⟨[3, 2], [1, 2, 3, 4, 5, 6]⟩).run s = (.throws .badAlloc, s') ∧ isValid s' = true ∧
    ((addVar 2 ⟨[3, 2], [1, 2, 3, 4, 5, 6]⟩).run s').1 = .ok () := by
  obtain ⟨s, s', hs, hf, -, -⟩ := C148_refuted
  refine ⟨s, s', hs, hf, (C148_late_failure hs (by simp) hf).1, ?_⟩
  rw [(C148_recovers_partial hs hf _).1]
  obtain ⟨hg, hd, hgl, -⟩ := Loaded.fields hs
  obtain ⟨l, hl, -⟩ := computeLimits_ok (dim := 2) (grids := s.grid_list) (by rw [hgl]; rfl) (by rw [hgl]; exact hg.nonempty)
  rw [addVar_complete (s := s) (by rw [hgl]; rfl), build_ok (s := { s with data := ⟨[3, 2], [1, 2, 3, 4, 5, 6]⟩, gen := s.gen + 1 }) hl
    (by rw [hgl]; rfl)]

/-! ## Assignment and copy of a RegularGridInterpolator -/

theorem assignF_cases (fail : GridSite → Bool) (left : List (List K)) {dim : Nat} {grids : List (List K)} {F : List Nat → K} {s : RGI K} (h : Loaded dim grids F s)
    (target : RGI K) :
    (∃ t, (assignF fail left dim s).run target = (.ok (), t) ∧ isValid t = true ∧
      (∀ x, x.length = dim → ∀ b, interpolate t x b = interpolate s x b) ∧ ∀ idx, evalAtIndice t idx = evalAtIndice s idx) ∨
    ∃ t, (assignF fail left dim s).run target = (.throws .badAlloc, t) := by
  unfold assignF
  cases hfa : fail .axes with
  | true => exact Or.inr ⟨_, rfl⟩
  | false =>
    simp only [Bool.false_eq_true, if_false]
    rw [Act.run_bind_ok (Act.run_update _ _), run_gridAlloc_bind]
    split
    · exact Or.inr ⟨_, rfl⟩
    rw [run_gridAlloc_bind]
    split
    · exact Or.inr ⟨_, rfl⟩
    rw [Act.run_bind_ok (Act.run_update _ _)]
    obtain ⟨hg, hd, hgl, -⟩ := Loaded.fields h
    obtain ⟨l, hl, -⟩ := computeLimits_ok (dim := dim) (grids := grids) hd hg.nonempty
    rcases run_buildF fail (dim := dim) (s := { target with grid_list := s.grid_list, data := s.data, gen := target.gen + 1 }) (l := l)
      (by simp only [hgl]; exact hl) with e | e | ⟨d, e⟩
    · left
      obtain ⟨t, h1, h2⟩ := C69_copy_of_loaded_partial h target
      refine ⟨t, ?_, h2⟩
      rw [← h1]
      refine e.trans ?_
      unfold assign
      simp only [Act.run_update_bind]
    · exact Or.inr ⟨_, e⟩
    · exact Or.inr ⟨_, e⟩

/-- C148, copying a loaded `RegularGridInterpolator`: whatever allocations fail, either the copy answers as the original, or `std::bad_alloc` leaves the constructor and
there is no object. -/
theorem C148_copy (fail : GridSite → Bool) (left : List (List K)) {dim : Nat} {grids : List (List K)} {F : List Nat → K} {s : RGI K} (h : Loaded dim grids F s) :
    (∃ t, copyF fail left dim s = .ok t ∧ isValid t = true ∧ (∀ x, x.length = dim → ∀ b, interpolate t x b = interpolate s x b) ∧
      ∀ idx, evalAtIndice t idx = evalAtIndice s idx) ∨ copyF fail left dim s = .throws .badAlloc := by
  unfold copyF
  rcases assignF_cases fail left h (new K dim) with ⟨t, e, h1⟩ | ⟨t, e⟩
  · rw [e]
    exact Or.inl ⟨t, rfl, h1⟩
  · rw [e]
    exact Or.inr rfl

/-- C148, assignment of a loaded `RegularGridInterpolator` to any object (only that it can be done again): whatever allocations fail, either the object answers as the
original, or `std::bad_alloc` leaves the call, and then the assignment with enough memory gives an object that answers as the original. -/
theorem C148_assign_partial (fail : GridSite → Bool) (left : List (List K)) {dim : Nat} {grids : List (List K)} {F : List Nat → K} {s : RGI K}
    (h : Loaded dim grids F s) (target : RGI K) :
    ∃ t, ((assignF fail left dim s).run target = (.ok (), t) ∨
        ∃ bad, (assignF fail left dim s).run target = (.throws .badAlloc, bad) ∧ (assign dim s).run bad = (.ok (), t)) ∧
      isValid t = true ∧ (∀ x, x.length = dim → ∀ b, interpolate t x b = interpolate s x b) ∧ ∀ idx, evalAtIndice t idx = evalAtIndice s idx := by
  rcases assignF_cases fail left h target with ⟨t, e, h1⟩ | ⟨bad, e⟩
  · exact ⟨t, Or.inl e, h1⟩
  · obtain ⟨t, e2, h1⟩ := C69_copy_of_loaded_partial h bad
    exact ⟨t, Or.inr ⟨bad, e, e2⟩, h1⟩

/-- C148, assignment (only for the first allocations): when the axes or the new block of values cannot be allocated, `Interp` and `EvalAtIndice` still answer as before. -/
theorem C148_assign_early_partial {fail : GridSite → Bool} (left : List (List K)) (dim : Nat) (other target : RGI K)
    (hf : fail .axes = true ∨ fail .extents = true ∨ fail .resize = true) :
    ∃ t, (assignF fail left dim other).run target = (.throws .badAlloc, t) ∧ (∀ x b, interpolate t x b = interpolate target x b) ∧
      ∀ idx, evalAtIndice t idx = evalAtIndice target idx := by
  unfold assignF
  cases h1 : fail .axes with
  | true => exact ⟨_, rfl, fun _ _ => rfl, fun _ => rfl⟩
  | false =>
    simp only [Bool.false_eq_true, if_false]
    rw [Act.run_bind_ok (Act.run_update _ _), run_gridAlloc_bind]
    split
    · exact ⟨_, rfl, fun _ _ => rfl, fun _ => rfl⟩
    rw [run_gridAlloc_bind]
    split
    · exact ⟨_, rfl, fun _ _ => rfl, fun _ => rfl⟩
    · rename_i h2 h3
      rw [h1] at hf
      simp [h2, h3] at hf

/-- The assignment is refuted: a loaded 3 × 2 grid is assigned from one with longer axes. When memory runs out as the values are resized the object has the new axes, but
interpolates on the old ones. When it runs out as the new interpolator is allocated, the old one refers to the block of values that was given back, the object
says that it is valid, and `Interp` is undefined. -/
theorem C148_assign_refuted : ∃ s s1 s2 other : RGI ℚ, Loaded 2 [[0, 1, 3], [10, 20]] gridF s ∧ other.grid_list = [[0, 1, 3, 4], [10, 20, 30]] ∧
    ((assign 2 other).run s).1 = .ok () ∧ interpolate s [1, 10] false = .ok 3 ∧
    ((assignF (fun p => decide (p = .resize)) [] 2 other).run s = (.throws .badAlloc, s1) ∧ getCoord 2 s1 0 = .ok [0, 1, 3, 4] ∧
      interpolate s1 [1, 10] false = .ok 3 ∧ evalAtIndice s1 [3, 2] = .ub) ∧
    (assignF (fun p => decide (p = .object)) [] 2 other).run s = (.throws .badAlloc, s2) ∧ isValid s2 = true ∧ interpolate s2 [1, 10] false = .ub := by
  obtain ⟨s, hs⟩ := gridLoaded
  obtain ⟨-, -, -, -, hsh, hi, -⟩ := Loaded.fields hs
  have h3 := C16_node_reproduction hs (idx := [1, 0]) (.cons rfl (.cons rfl .nil)) false
  refine ⟨s, { s with grid_list := [[0, 1, 3, 4], [10, 20, 30]] },
    { s with grid_list := [[0, 1, 3, 4], [10, 20, 30]], data := ⟨[4, 3], List.replicate 12 0⟩, gen := s.gen + 1, limits := some [(0, 4), (10, 30)] },
    ⟨[[0, 1, 3, 4], [10, 20, 30]], ⟨[4, 3], List.replicate 12 0⟩, 0, none, none⟩, hs, rfl, ?_, h3, ⟨rfl, rfl, h3, ?_⟩, ?_, ?_, ?_⟩
  · unfold assign
    simp only [Act.run_update_bind]
    rw [build_ok (l := [(0, 4), (10, 30)]) rfl rfl]
  · have h : s.data.shape = [3, 2] := hsh
    simp [evalAtIndice, mdRead, h, mdOffset]
  · rfl
  · simp [isValid, hi]
  · simp [interpolate, hi]

/-- C148: the loaded 3 × 2 grid is copied, and the copy fails or answers as the original. -/
example : ∃ s : RGI ℚ, Loaded 2 [[0, 1, 3], [10, 20]] gridF s ∧ (∃ t, copyF (fun _ => false) [] 2 s = .ok t ∧ interpolate t [1, 10] false = .ok 3) ∧
    copyF (fun p => decide (p = .arrayRef)) [] 2 s = .throws .badAlloc := by
  obtain ⟨s, hs⟩ := gridLoaded
  obtain ⟨hg, hd, hgl, hF, -, hi, -⟩ := Loaded.fields hs
  obtain ⟨l, hl, -⟩ := computeLimits_ok (dim := 2) (grids := s.grid_list) (by rw [hgl]; rfl) (by rw [hgl]; exact hg.nonempty)
  have hn : NDInterp.new s.grid_list s.data.elems = .ok ⟨s.grid_list, s.data.elems⟩ := by
    rw [hgl]
    have := hF.size
    simp [NDInterp.new, this]
  have hok : ∃ t, copyF (fun _ => false) [] 2 s = .ok t := by
    unfold copyF assignF buildF
    simp only [Bool.false_eq_true, if_false]
    rw [Act.run_bind_ok (Act.run_update _ _), run_gridAlloc_bind, if_neg (by simp), run_gridAlloc_bind, if_neg (by simp), Act.run_bind_ok (Act.run_update _ _),
      Act.run_bind_ok (Act.run_get _), Act.run_bind_ok (by rw [Act.run_lift, show computeLimits 2 _ = _ from hl])]
    rw [show (List.range 2).find? (fun _ => false) = none by simp]
    simp only
    rw [Act.run_bind_ok (Act.run_update _ _), run_gridAlloc_bind, if_neg (by simp), run_gridAlloc_bind, if_neg (by simp), run_gridAlloc_bind, if_neg (by simp),
      hn, Act.run_lift_ok_bind, run_gridAlloc_bind, if_neg (by simp)]
    exact ⟨_, rfl⟩
  refine ⟨s, hs, ?_, ?_⟩
  · obtain ⟨t, ht⟩ := hok
    rcases C148_copy (fun _ => false) [] hs with ⟨t', e, -, h1, -⟩ | e
    · exact ⟨t', e, (h1 [1, 10] rfl false).trans (C16_node_reproduction hs (idx := [1, 0]) (.cons rfl (.cons rfl .nil)) false)⟩
    · rw [ht] at e
      cases e
  · unfold copyF assignF buildF
    simp only [reduceCtorEq, decide_false, Bool.false_eq_true, if_false]
    rw [Act.run_bind_ok (Act.run_update _ _), run_gridAlloc_bind, if_neg (by simp), run_gridAlloc_bind, if_neg (by simp), Act.run_bind_ok (Act.run_update _ _),
      Act.run_bind_ok (Act.run_get _), Act.run_bind_ok (by rw [Act.run_lift, show computeLimits 2 _ = _ from hl])]
    rw [show (List.range 2).find? (fun _ => false) = none by simp]
    simp only
    rw [Act.run_bind_ok (Act.run_update _ _), run_gridAlloc_bind, if_neg (by simp), run_gridAlloc_bind, if_neg (by simp), run_gridAlloc_bind, if_neg (by simp),
      hn, Act.run_lift_ok_bind, run_gridAlloc_bind, if_pos (by simp)]

/-! ## RegularGridNearest -/

variable {D : Type}

/-- C148, `AddCoord` and `AddVar` of a `RegularGridNearest`: memory exhaustion has no effect on the object. -/
theorem C148_nearest (fail : GridSite → Bool) (dim : Nat) (v : List K) (a : NDArray D) (s : RGN K D) :
    ((RGN.addCoordF fail dim v).run s = (RGN.addCoord dim v).run s ∨ (RGN.addCoordF fail dim v).run s = (.throws .badAlloc, s)) ∧
    ((RGN.addVarF fail dim a).run s = (RGN.addVar dim a).run s ∨ (RGN.addVarF fail dim a).run s = (.throws .badAlloc, s)) := by
  constructor
  · unfold RGN.addCoordF RGN.addCoord
    rw [Act.run_bind_ok (Act.run_get _), Act.run_bind_ok (Act.run_get _)]
    split
    · exact Or.inl rfl
    · rw [run_gridAlloc_bind]
      split
      · exact Or.inr rfl
      · exact Or.inl rfl
  · unfold RGN.addVarF RGN.addVar
    rw [Act.run_bind_ok (Act.run_get _), Act.run_bind_ok (Act.run_get _)]
    split
    · exact Or.inl rfl
    · rw [run_gridAlloc_bind]
      split
      · exact Or.inr rfl
      · rw [run_gridAlloc_bind]
        split
        · exact Or.inr rfl
        · exact Or.inl rfl

/-- C148, assignment of a `RegularGridNearest` (only that it can be done again): after an assignment that ran out of memory, anywhere, the same assignment with enough memory
gives the object that it would have given. -/
theorem C148_nearest_assign_partial (fail : GridSite → Bool) (left : List (List K)) (other s s' : RGN K D) (r : Res Unit)
    (_hf : (RGN.assignF fail left other).run s = (r, s')) : (RGN.assign other).run s' = (RGN.assign other).run s := rfl

/-- The assignment of a `RegularGridNearest` that runs out of memory when the values are resized leaves the new axes with the old values: one axis `0, 1` with
values 10, 20 is assigned from an object with axis `0, 1, 2`; `Nearest(2)`, which gave 20 before, is then undefined. -/
theorem C148_nearest_refuted : ∃ (s s' other : RGN ℚ ℚ), RGN.make 1 [[0, 1]] ⟨[2], [10, 20]⟩ = (.ok (), s) ∧
    RGN.make 1 [[0, 1, 2]] ⟨[3], [30, 40, 50]⟩ = (.ok (), other) ∧
    (RGN.assignF (fun p => decide (p = .resize)) [] other).run s = (.throws .badAlloc, s') ∧
    (RGN.nearest s [2]).isOk = true ∧ RGN.nearest s' [2] = .ub := by
  refine ⟨⟨[[0, 1]], ⟨[2], [10, 20]⟩⟩, ⟨[[0, 1, 2]], ⟨[2], [10, 20]⟩⟩, ⟨[[0, 1, 2]], ⟨[3], [30, 40, 50]⟩⟩, ?_, ?_, ?_, ?_, ?_⟩
  · rfl
  · rfl
  · rfl
  · decide +kernel
  · have : ∀ r : Res (GridNode ℚ ℚ), (match r with | .ub => true | _ => false) = true → r = .ub := by
      intro r h; cases r <;> simp at h; rfl
    exact this _ (by decide +kernel)

end MU
