import Verif.Lemmas.RegularGridHistory
import Verif.Spec.RegularGrid

set_option linter.unusedSectionVars false

/-!
# Every increasing grid can be loaded with every array
-/

namespace MU
open Spec

variable {K : Type} [Field K] [LinearOrder K] [IsStrictOrderedRing K]

/-- The elements `F idx` in C order. -/
def tabulate : (sizes : List Nat) → (F : List Nat → K) → List K
  | [], F => [F []]
  | n :: ns, F => (List.range n).flatMap fun i => tabulate ns fun is => F (i :: is)

theorem length_tabulate (sizes : List Nat) : ∀ F : List Nat → K, (tabulate sizes F).length = sizes.prod := by
  induction sizes with
  | nil => intro F; simp [tabulate]
  | cons n ns ih => intro F; simp [tabulate, List.length_flatMap, ih]

theorem getElem?_flatMap_const {α β : Type} {m : Nat} (f : α → List β) (l : List α) (hf : ∀ a ∈ l, (f a).length = m) {i j : Nat} (hj : j < m) :
    (l.flatMap f)[i * m + j]? = (l[i]?).bind fun a => (f a)[j]? := by
  induction l generalizing i with
  | nil => simp
  | cons a l ih =>
    rw [List.flatMap_cons]
    have ha := hf a List.mem_cons_self
    cases i with
    | zero => simp [List.getElem?_append_left (by omega : j < (f a).length)]
    | succ i =>
      rw [List.getElem?_append_right (by rw [ha]; nlinarith), show (i + 1) * m + j - (f a).length = i * m + j by rw [ha, Nat.succ_mul]; omega,
        ih (fun b hb => hf b (List.mem_cons_of_mem _ hb))]
      simp

theorem getElem?_tabulate (sizes : List Nat) : ∀ (F : List Nat → K) (idx : List Nat), Inside idx sizes → (tabulate sizes F)[pos sizes idx]? = some (F idx) := by
  induction sizes with
  | nil => intro F idx h; cases h; simp [tabulate, pos]
  | cons n ns ih =>
    intro F idx h
    cases h with
    | @cons i _ is _ hi h =>
      have hlt : pos ns is < ns.prod := by
        have := ih (fun _ => (0 : K)) is h
        have := (List.getElem?_eq_some_iff.1 this).1
        rwa [length_tabulate] at this
      rw [tabulate, pos, getElem?_flatMap_const _ _ (fun a _ => length_tabulate ns _) hlt]
      simp [List.getElem?_range hi, ih _ is h]

theorem holds_tabulate (sizes : List Nat) (F : List Nat → K) : Holds sizes (tabulate sizes F) F :=
  ⟨length_tabulate sizes F, getElem?_tabulate sizes F⟩

namespace RGI

theorem execAll_addCoords {dim : Nat} (gs : List (List K)) : ∀ s : RGI K, s.grid_list.length + gs.length ≤ dim → (∀ g ∈ gs, g.Pairwise (· < ·)) →
    execAll dim (gs.map Op.addCoord) s = (List.replicate gs.length (.ok ()), { s with grid_list := s.grid_list ++ gs }) := by
  induction gs with
  | nil => intro s _ _; simp [execAll]
  | cons g gs ih =>
    intro s hd hg
    simp only [List.length_cons] at hd
    rw [List.map_cons, execAll, exec, addCoord_ok (by omega) (hg g List.mem_cons_self)]
    simp only
    rw [ih _ (by simp; omega) (fun g h => hg g (List.mem_cons_of_mem _ h))]
    simp [List.replicate_succ]

theorem computeLimits_exists (gs : List (List K)) (hne : ∀ g ∈ gs, g ≠ []) : ∃ l, computeLimits gs.length gs = .ok l := by
  induction gs with
  | nil => exact ⟨[], rfl⟩
  | cons g gs ih =>
    obtain ⟨l, hl⟩ := ih (fun g h => hne g (List.mem_cons_of_mem _ h))
    have : 0 < g.length := List.length_pos_iff.2 (hne g List.mem_cons_self)
    apply Exists.intro
    rw [List.length_cons, computeLimits, vIdx_lt this, Res.ok_bind, vIdx_lt (by omega), Res.ok_bind, hl, Res.ok_bind]
    rfl

end RGI

/-- An object can be loaded with any data on any grid with strictly increasing, non-empty axes. -/
theorem exists_loaded {grids : List (List K)} (h : Axes grids) (F : List Nat → K) : ∃ s, Loaded grids.length grids F s := by
  obtain ⟨l, hl⟩ := RGI.computeLimits_exists grids h.nonempty
  have hex := RGI.execAll_addCoords (dim := grids.length) grids (RGI.new K grids.length) (by simp [RGI.new]) h.increasing
  have hacc : acceptedAxes (grids.map RGI.Op.addCoord) = grids := by
    unfold acceptedAxes
    have : (grids.map RGI.Op.addCoord).filterMap axisArg = grids := by
      rw [List.filterMap_map]
      conv_rhs => rw [← List.filterMap_some (l := grids)]
      rfl
    rw [this, List.filter_eq_self]
    intro g hg
    simpa using h.increasing g hg
  have hadd : ∃ s, (RGI.addVar grids.length ⟨grids.map List.length, tabulate (grids.map List.length) F⟩).run
      { RGI.new K grids.length with grid_list := (RGI.new K grids.length).grid_list ++ grids } = (.ok (), s) := by
    rw [RGI.addVar_complete (by simp [RGI.new])]
    apply Exists.intro
    apply RGI.build_ok (l := l)
    · simpa [RGI.new] using hl
    · simp [length_tabulate, RGI.new]
  obtain ⟨s, hs⟩ := hadd
  refine ⟨s, List.length_pos_iff.2 h.dims, _, _, _, ⟨grids.map List.length, tabulate (grids.map List.length) F⟩, hex, fun r hr => ?_, hacc, rfl,
    holds_tabulate _ F, hs⟩
  exact .inl (List.eq_of_mem_replicate hr)

end MU
