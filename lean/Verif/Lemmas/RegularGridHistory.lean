import Verif.Lemmas.RegularGrid
import Verif.Spec.RegularGrid

set_option linter.unusedSectionVars false
set_option linter.unusedSimpArgs false

/-! Histories of calls to the regular grid interpolator. -/

namespace MU.RGI
open Spec

variable {K : Type} [Field K] [LinearOrder K] [IsStrictOrderedRing K]

theorem acceptedAxes_cons (op : Op K) (ops : List (Op K)) :
    acceptedAxes (op :: ops) = acceptedAxes [op] ++ acceptedAxes ops := by
  simp only [acceptedAxes]
  rw [← List.filter_append, ← List.filterMap_append]
  rfl

/-- A call that returns or throws keeps the axes and appends the accepted one. -/
theorem exec_grid {dim : Nat} {op : Op K} {s s' : RGI K} {r : Res Unit} (h : (exec dim op).run s = (r, s'))
    (hr : r = .ok () ∨ ∃ e, r = .throws e) : s'.grid_list = s.grid_list ++ acceptedAxes [op] := by
  cases op with
  | addCoord v =>
    simp only [exec] at h
    by_cases hd : s.grid_list.length = dim
    · rw [addCoord_full hd] at h
      cases h; simp at hr
    · by_cases hv : v.Pairwise (· < ·)
      · rw [addCoord_ok hd hv] at h
        cases h; simp [acceptedAxes, axisArg, hv]
      · rw [addCoord_bad hd hv] at h
        cases h; simp [acceptedAxes, axisArg, hv]
  | addVar a =>
    simp only [exec] at h
    rcases hr with rfl | ⟨e, rfl⟩
    · obtain ⟨_, _, _, l, _, rfl⟩ := addVar_ok_inv h
      simp [acceptedAxes, axisArg]
    · obtain ⟨_, _, _, l, _, rfl⟩ := addVar_throws_inv h
      simp [acceptedAxes, axisArg]

theorem execAll_cons_alive {dim : Nat} {op : Op K} {ops : List (Op K)} {s s' : RGI K} {outs : List (Res Unit)}
    (h : execAll dim (op :: ops) s = (outs, s')) (ha : Alive outs) :
    ∃ r s1 outs', (exec dim op).run s = (r, s1) ∧ (r = .ok () ∨ ∃ e, r = .throws e) ∧ execAll dim ops s1 = (outs', s') ∧
      outs = r :: outs' ∧ Alive outs' := by
  rw [execAll] at h
  rcases hx : (exec dim op).run s with ⟨r, s1⟩
  rw [hx] at h
  cases r with
  | ok a =>
    cases h
    exact ⟨_, _, _, rfl, .inl rfl, rfl, rfl, fun r hr => ha r (by simp [hr])⟩
  | throws e =>
    cases h
    exact ⟨_, _, _, rfl, .inr ⟨e, rfl⟩, rfl, rfl, fun r hr => ha r (by simp [hr])⟩
  | exits c => cases h; have := ha _ (List.mem_singleton.mpr rfl); simp at this
  | aborts => cases h; have := ha _ (List.mem_singleton.mpr rfl); simp at this
  | ub => cases h; have := ha _ (List.mem_singleton.mpr rfl); simp at this
  | nonfinite => cases h; have := ha _ (List.mem_singleton.mpr rfl); simp at this

theorem execAll_grid {dim : Nat} {ops : List (Op K)} {s s' : RGI K} {outs : List (Res Unit)}
    (h : execAll dim ops s = (outs, s')) (ha : Alive outs) : s'.grid_list = s.grid_list ++ acceptedAxes ops := by
  induction ops generalizing s outs with
  | nil => cases h; simp [acceptedAxes]
  | cons op ops ih =>
    obtain ⟨r, s1, outs', h1, hr, h2, rfl, ha'⟩ := execAll_cons_alive h ha
    rw [ih h2 ha', exec_grid h1 hr, acceptedAxes_cons op ops, List.append_assoc]

theorem execAll_valid {dim : Nat} {ops : List (Op K)} {s s' : RGI K} {outs : List (Res Unit)}
    (h : execAll dim ops s = (outs, s')) (ha : Alive outs) :
    isValid s' = true ↔ isValid s = true ∨ ∃ (i : Nat) (a : NDArray K), ops[i]? = some (.addVar a) ∧ outs[i]? = some (.ok ()) := by
  induction ops generalizing s outs with
  | nil => cases h; simp
  | cons op ops ih =>
    obtain ⟨r, s1, outs', h1, hr, h2, rfl, ha'⟩ := execAll_cons_alive h ha
    rw [ih h2 ha']
    have step : isValid s1 = true ↔ isValid s = true ∨ (∃ a, op = .addVar a) ∧ r = .ok () := by
      cases op with
      | addCoord v =>
        simp only [exec] at h1
        by_cases hd : s.grid_list.length = dim
        · rw [addCoord_full hd] at h1
          cases h1; simp
        · by_cases hv : v.Pairwise (· < ·)
          · rw [addCoord_ok hd hv] at h1
            cases h1; simp [isValid]
          · rw [addCoord_bad hd hv] at h1
            cases h1; simp
      | addVar a =>
        simp only [exec] at h1
        rcases hr with rfl | ⟨e, rfl⟩
        · obtain ⟨_, _, _, l, _, rfl⟩ := addVar_ok_inv h1
          simp [isValid]
        · obtain ⟨_, _, _, l, _, rfl⟩ := addVar_throws_inv h1
          simp [isValid]
    rw [step, or_assoc]
    apply or_congr_right
    constructor
    · rintro (⟨⟨a, rfl⟩, rfl⟩ | ⟨i, a, h3, h4⟩)
      · exact ⟨0, a, rfl, rfl⟩
      · exact ⟨i + 1, a, by simpa using h3, by simpa using h4⟩
    · rintro ⟨i, a, h3, h4⟩
      cases i with
      | zero => left; simp at h3 h4; exact ⟨⟨a, h3⟩, h4⟩
      | succ i => right; exact ⟨i, a, by simpa using h3, by simpa using h4⟩

/-- The fields of a loaded object. -/
theorem Loaded.fields {dim : Nat} {grids : List (List K)} {F : List Nat → K} {s : RGI K} (h : Loaded dim grids F s) :
    Axes grids ∧ grids.length = dim ∧ s.grid_list = grids ∧ Holds (grids.map List.length) s.data.elems F ∧
    s.data.shape = grids.map List.length ∧
    s.interp = some (⟨grids, s.data.elems⟩, s.gen) ∧ ∃ l, s.limits = some l ∧ Limits grids l := by
  obtain ⟨hd, ops, outs, s0, a, he, ha, hg, hsh, hF, hv⟩ := h
  have h0 := execAll_grid he ha
  have h0 : s0.grid_list = grids := by rw [h0, hg]; simp [RGI.new]
  obtain ⟨h1, h2, h3, l, hl, rfl⟩ := addVar_ok_inv hv
  rw [h0] at h1 h2 h3 hl
  refine ⟨⟨?_, h2, ?_⟩, h1, h0, hsh ▸ hF, hsh, by simp [h0], l, rfl, hl⟩
  · rintro rfl; simp at h1; omega
  · intro g hgm
    rw [← hg] at hgm
    simpa using (List.mem_filter.mp hgm).2

theorem interpolate_loaded {dim : Nat} {grids : List (List K)} {F : List Nat → K} {s : RGI K} (h : Loaded dim grids F s)
    (x : List K) : interpolate s x false = NDInterp.interpMultilinear ⟨grids, s.data.elems⟩ x := by
  obtain ⟨_, _, _, _, _, hi, _⟩ := Loaded.fields h
  simp [interpolate, hi]

theorem interpolate_checked {dim : Nat} {grids : List (List K)} {F : List Nat → K} {s : RGI K} (h : Loaded dim grids F s)
    {x : List K} (hx : x.length = dim) :
    (InBox grids x → interpolate s x true = interpolate s x false) ∧
    (¬ InBox grids x → interpolate s x true = .throws .runtimeError) := by
  obtain ⟨_, hd, _, _, _, hi, l, hl, hL⟩ := Loaded.fields h
  obtain ⟨h1, h2⟩ := boundCheck_eq hL (x := x) (by omega)
  refine ⟨fun hb => ?_, fun hb => ?_⟩
  · simp [interpolate, hl, h1 hb]
  · simp [interpolate, hl, h2 hb]

theorem IsNode.len {grids : List (List K)} {idx : List Nat} {x : List K} (h : IsNode grids idx x) : x.length = grids.length := by
  induction h with
  | nil => rfl
  | cons _ _ ih => simp [ih]

theorem IsNode.inside {grids : List (List K)} {idx : List Nat} {x : List K} (h : IsNode grids idx x) :
    Inside idx (grids.map List.length) := by
  induction h with
  | nil => exact .nil
  | cons hi _ ih => exact .cons (List.getElem?_eq_some_iff.mp hi).1 ih

theorem IsNode.inBox {grids : List (List K)} {idx : List Nat} {x : List K} (h : IsNode grids idx x)
    (hinc : ∀ g ∈ grids, g.Pairwise (· < ·)) : InBox grids x := by
  induction h with
  | nil => exact .nil
  | @cons g gs i is x xs hi _ ih =>
    have hl := (List.getElem?_eq_some_iff.mp hi).1
    refine .cons (a := g[0]) (b := g[g.length - 1]) ?_ ?_ ?_ ?_ (ih (fun g' h' => hinc g' (by simp [h'])))
    · rw [List.head?_eq_getElem?]; exact List.getElem?_eq_getElem _
    · rw [List.getLast?_eq_getElem?]; exact List.getElem?_eq_getElem _
    · exact NDInterp.getElem?_le (hinc g (by simp)) (List.getElem?_eq_getElem _) hi (Nat.zero_le _)
    · exact NDInterp.getElem?_le (hinc g (by simp)) hi (List.getElem?_eq_getElem _) (by omega)

theorem InBox.len {grids : List (List K)} {x : List K} (h : InBox grids x) : x.length = grids.length := by
  induction h with
  | nil => rfl
  | cons _ _ _ _ _ ih => simp [ih]

theorem Brackets.len {grids : List (List K)} {cell : List (Nat × K × K)} {x : List K} (h : Brackets grids cell x) :
    x.length = grids.length := by
  induction h with
  | nil => rfl
  | cons _ _ _ _ _ ih => simp [ih]

theorem Clamped.len {grids : List (List K)} {x x' : List K} (h : Clamped grids x x') :
    x.length = grids.length ∧ x'.length = grids.length := by
  induction h with
  | nil => exact ⟨rfl, rfl⟩
  | cons _ _ _ ih => simp [ih.1, ih.2]

theorem exists_clamped {grids : List (List K)} (hne : ∀ g ∈ grids, g ≠ []) (hinc : ∀ g ∈ grids, g.Pairwise (· < ·)) {x : List K}
    (hx : x.length = grids.length) : ∃ x', Clamped grids x x' ∧ InBox grids x' := by
  induction grids generalizing x with
  | nil => exact ⟨[], by rw [List.length_eq_zero_iff.mp hx]; exact .nil, .nil⟩
  | cons g gs ih =>
    cases x with
    | nil => simp at hx
    | cons x xs =>
      obtain ⟨xs', h1, h2⟩ := ih (x := xs) (fun g' h' => hne g' (by simp [h'])) (fun g' h' => hinc g' (by simp [h']))
        (by simpa using hx)
      have hp := List.length_pos_of_ne_nil (hne g (by simp))
      have ha : g.head? = some g[0] := by rw [List.head?_eq_getElem?]; exact List.getElem?_eq_getElem _
      have hb : g.getLast? = some g[g.length - 1] := by rw [List.getLast?_eq_getElem?]; exact List.getElem?_eq_getElem _
      have hab : g[0] ≤ g[g.length - 1] := getElem_le_of_pairwise (hinc g (by simp)) (Nat.zero_le _) (by omega)
      exact ⟨_, .cons ha hb h1, .cons ha hb (le_max_left _ _) (max_le hab (min_le_right _ _)) h2⟩

theorem Limits.unique {grids : List (List K)} {l l' : List (K × K)} (h : Limits grids l) (h' : Limits grids l') : l' = l := by
  induction h generalizing l' with
  | nil => cases h'; rfl
  | cons h1 h2 _ ih =>
    cases h' with
    | cons h3 h4 h5 => rw [h1] at h3; rw [h2] at h4; cases h3; cases h4; rw [ih h5]

end MU.RGI
