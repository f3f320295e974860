import Verif.Model.RegularGridInterpolator
import Verif.Lemmas.LinterpCube

set_option linter.unusedSectionVars false
set_option linter.unusedSimpArgs false

/-! Life cycle of the regular grid interpolator. -/

namespace MU.RGI
open Spec

variable {K : Type} [Field K] [LinearOrder K] [IsStrictOrderedRing K]

theorem increasing_iff (l : List K) : increasing l = true ↔ l.Pairwise (· < ·) := by
  induction l with
  | nil => simp [increasing]
  | cons a l ih =>
    cases l with
    | nil => simp [increasing]
    | cons b l =>
      rw [increasing, List.pairwise_cons]
      simp only [Bool.and_eq_true, Bool.not_eq_true', decide_eq_false_iff_not, not_le, ih]
      constructor
      · rintro ⟨h1, h2⟩
        refine ⟨fun c hc => ?_, h2⟩
        rcases List.mem_cons.mp hc with rfl | hc
        · exact h1
        · exact lt_trans h1 ((List.pairwise_cons.mp h2).1 c hc)
      · rintro ⟨h1, h2⟩
        exact ⟨h1 b (by simp), h2⟩

theorem addCoord_full {dim : Nat} {v : List K} {s : RGI K} (h : s.grid_list.length = dim) :
    (addCoord dim v).run s = (.exits 1, s) := by
  simp [addCoord, h]

theorem addCoord_ok {dim : Nat} {v : List K} {s : RGI K} (h : s.grid_list.length ≠ dim) (hv : v.Pairwise (· < ·)) :
    (addCoord dim v).run s = (.ok (), { s with grid_list := s.grid_list ++ [v] }) := by
  simp [addCoord, h, (increasing_iff v).mpr hv]

theorem addCoord_bad {dim : Nat} {v : List K} {s : RGI K} (h : s.grid_list.length ≠ dim) (hv : ¬ v.Pairwise (· < ·)) :
    (addCoord dim v).run s = (.throws .runtimeError, s) := by
  have : increasing v = false := by
    rw [← Bool.not_eq_true, increasing_iff]; exact hv
  simp [addCoord, h, this]

/-- First and last elements of an axis. -/
inductive Limits : List (List K) → List (K × K) → Prop
  | nil : Limits [] []
  | cons {g gs a b ls} : g.head? = some a → g.getLast? = some b → Limits gs ls → Limits (g :: gs) ((a, b) :: ls)

theorem computeLimits_ok {dim : Nat} {grids : List (List K)} (hd : grids.length = dim) (hne : ∀ g ∈ grids, g ≠ []) :
    ∃ l, computeLimits dim grids = .ok l ∧ Limits grids l := by
  induction grids generalizing dim with
  | nil => subst hd; exact ⟨[], rfl, .nil⟩
  | cons g gs ih =>
    subst hd
    obtain ⟨l, hl, hL⟩ := ih rfl (fun g' h' => hne g' (by simp [h']))
    have hg := hne g (by simp)
    have hp := List.length_pos_of_ne_nil hg
    refine ⟨(g[0], g[g.length - 1]) :: l, ?_, .cons ?_ ?_ hL⟩
    · rw [List.length_cons, computeLimits, vIdx_lt hp, vIdx_lt (show g.length - 1 < g.length by omega)]
      simp [hl]
    · rw [List.head?_eq_getElem?]; exact List.getElem?_eq_getElem _
    · rw [List.getLast?_eq_getElem?]; exact List.getElem?_eq_getElem _

theorem computeLimits_some {dim : Nat} {grids : List (List K)} (hd : grids.length = dim) {l : List (K × K)}
    (h : computeLimits dim grids = .ok l) : (∀ g ∈ grids, g ≠ []) ∧ Limits grids l := by
  have hne : ∀ g ∈ grids, g ≠ [] := by
    induction grids generalizing dim l with
    | nil => simp
    | cons g gs ih =>
      subst hd
      intro g' hg'
      rw [List.length_cons, computeLimits] at h
      obtain ⟨a, ha, h⟩ := Res.bind_eq_ok.mp h
      obtain ⟨b, hb, h⟩ := Res.bind_eq_ok.mp h
      obtain ⟨r, hr, h⟩ := Res.bind_eq_ok.mp h
      rcases List.mem_cons.mp hg' with rfl | hg'
      · rintro rfl; simp [vIdx] at ha
      · exact ih rfl hr g' hg'
  refine ⟨hne, ?_⟩
  obtain ⟨l', hl', hL⟩ := computeLimits_ok hd hne
  rw [hl'] at h; cases h; exact hL

theorem build_ok {dim : Nat} {s : RGI K} {l : List (K × K)} (hl : computeLimits dim s.grid_list = .ok l)
    (hs : s.data.elems.length = (s.grid_list.map List.length).prod) :
    (build dim).run s = (.ok (), { s with limits := some l, interp := some (⟨s.grid_list, s.data.elems⟩, s.gen) }) := by
  simp [build, hl, NDInterp.new, hs]

theorem build_throws {dim : Nat} {s : RGI K} {l : List (K × K)} (hl : computeLimits dim s.grid_list = .ok l)
    (hs : s.data.elems.length ≠ (s.grid_list.map List.length).prod) :
    (build dim).run s = (.throws .invalidArgument, { s with limits := some l }) := by
  simp [build, hl, NDInterp.new, hs]

theorem computeLimits_cases (dim : Nat) (grids : List (List K)) :
    (∃ l, computeLimits dim grids = .ok l) ∨ computeLimits dim grids = .ub := by
  induction dim generalizing grids with
  | zero => exact .inl ⟨[], rfl⟩
  | succ d ih =>
    cases grids with
    | nil => exact .inr rfl
    | cons g gs =>
      cases g with
      | nil => right; simp [computeLimits, vIdx]
      | cons a t =>
        rw [computeLimits, vIdx_lt (show 0 < (a :: t).length by simp), vIdx_lt (show (a :: t).length - 1 < (a :: t).length by simp)]
        rcases ih gs with ⟨l, hl⟩ | hl
        · left; simp [hl]
        · right; simp [hl]

theorem build_ub {dim : Nat} {s : RGI K} (hl : computeLimits dim s.grid_list = .ub) :
    (build dim).run s = (.ub, s) := by
  simp [build, hl]

theorem addVar_incomplete {dim : Nat} {a : NDArray K} {s : RGI K} (h : s.grid_list.length ≠ dim) :
    (addVar dim a).run s = (.exits 1, s) := by
  simp [addVar, h]

theorem addVar_complete {dim : Nat} {a : NDArray K} {s : RGI K} (h : s.grid_list.length = dim) :
    (addVar dim a).run s = (build dim).run { s with data := a, gen := s.gen + 1 } := by
  simp [addVar, h]

/-- What a successful `AddVar` leaves. -/
theorem addVar_ok_inv {dim : Nat} {a : NDArray K} {s s' : RGI K} (h : (addVar dim a).run s = (.ok (), s')) :
    s.grid_list.length = dim ∧ (∀ g ∈ s.grid_list, g ≠ []) ∧ a.elems.length = (s.grid_list.map List.length).prod ∧
    ∃ l, Limits s.grid_list l ∧ s' = { s with
      data := a, gen := s.gen + 1, limits := some l, interp := some (⟨s.grid_list, a.elems⟩, s.gen + 1) } := by
  by_cases hd : s.grid_list.length = dim
  · rw [addVar_complete hd] at h
    rcases computeLimits_cases dim s.grid_list with ⟨l, hl⟩ | hl
    · obtain ⟨hne, hL⟩ := computeLimits_some hd hl
      by_cases hs : a.elems.length = (s.grid_list.map List.length).prod
      · rw [build_ok (s := { s with data := a, gen := s.gen + 1 }) (l := l) hl hs] at h
        cases h
        exact ⟨hd, hne, hs, l, hL, rfl⟩
      · rw [build_throws (s := { s with data := a, gen := s.gen + 1 }) (l := l) hl hs] at h
        cases h
    · rw [build_ub (s := { s with data := a, gen := s.gen + 1 }) hl] at h; cases h
  · rw [addVar_incomplete hd] at h; cases h

theorem addVar_throws_inv {dim : Nat} {a : NDArray K} {s s' : RGI K} {e : Exn} (h : (addVar dim a).run s = (.throws e, s')) :
    s.grid_list.length = dim ∧ (∀ g ∈ s.grid_list, g ≠ []) ∧ a.elems.length ≠ (s.grid_list.map List.length).prod ∧
    ∃ l, Limits s.grid_list l ∧ s' = { s with data := a, gen := s.gen + 1, limits := some l } := by
  by_cases hd : s.grid_list.length = dim
  · rw [addVar_complete hd] at h
    rcases computeLimits_cases dim s.grid_list with ⟨l, hl⟩ | hl
    · obtain ⟨hne, hL⟩ := computeLimits_some hd hl
      by_cases hs : a.elems.length = (s.grid_list.map List.length).prod
      · rw [build_ok (s := { s with data := a, gen := s.gen + 1 }) (l := l) hl hs] at h
        cases h
      · rw [build_throws (s := { s with data := a, gen := s.gen + 1 }) (l := l) hl hs] at h
        cases h
        exact ⟨hd, hne, hs, l, hL, rfl⟩
    · rw [build_ub (s := { s with data := a, gen := s.gen + 1 }) hl] at h; cases h
  · rw [addVar_incomplete hd] at h; cases h

theorem boundCheck_eq {grids : List (List K)} {l : List (K × K)} (hl : Limits grids l) {x : List K}
    (hx : x.length = grids.length) :
    (InBox grids x → boundCheck l x = .ok ()) ∧ (¬ InBox grids x → boundCheck l x = .throws .runtimeError) := by
  induction hl generalizing x with
  | nil => cases x <;> simp_all [boundCheck, InBox.nil]
  | @cons g gs a b ls ha hb _ ih =>
    cases x with
    | nil => simp at hx
    | cons x xs =>
      have ih := ih (x := xs) (by simpa using hx)
      simp only [boundCheck]
      by_cases hin : x < a ∨ b < x
      · refine ⟨fun h => ?_, fun _ => by simp [hin]⟩
        cases h with
        | cons ha' hb' h1 h2 _ =>
          rw [ha] at ha'; rw [hb] at hb'; cases ha'; cases hb'
          rcases hin with h | h
          · exact absurd h1 (not_le.mpr h)
          · exact absurd h2 (not_le.mpr h)
      · rw [if_neg hin]
        push Not at hin
        refine ⟨fun h => ?_, fun h => ?_⟩
        · cases h with
          | cons _ _ _ _ h => exact ih.1 h
        · exact ih.2 (fun h' => h (.cons ha hb hin.1 hin.2 h'))

end MU.RGI
