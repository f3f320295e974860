import Verif.Props.Nearest

set_option linter.unusedSectionVars false

/-!
# C101: the life of a RegularGridNearest object

`RGN.make dim grids a` is the program that constructs an object, adds the axes one by one and then the array.
-/

namespace MU
open Spec NDInterp

variable {K D : Type} [Field K] [LinearOrder K] [IsStrictOrderedRing K]

omit [Field K] [LinearOrder K] [IsStrictOrderedRing K] in
theorem addCoords_too_many {dim : Nat} (grids : List (List K)) (s : RGN K D) (h1 : s.grid_list.length ≤ dim) (h2 : dim < s.grid_list.length + grids.length) :
    ((RGN.addCoords dim grids).run s).1 = .exits 1 := by
  induction grids generalizing s with
  | nil => simp at h2; omega
  | cons g gs ih =>
    rw [RGN.addCoords]
    by_cases e : s.grid_list.length = dim
    · simp [RGN.addCoord, Act.run_bind, e]
    · rw [Act.run_bind_ok (s' := { s with grid_list := s.grid_list ++ [g] }) (a := ()) (by simp [RGN.addCoord, e])]
      apply ih
      · simp; omega
      · simp at h2 ⊢; omega

omit [Field K] [LinearOrder K] [IsStrictOrderedRing K] in
/-- C101. Exactly `dim` axes, then the array: otherwise the program ends with the exit code 1. -/
theorem C101_axes (dim : Nat) (grids : List (List K)) (a : NDArray D) :
    (grids.length = dim → (RGN.make dim grids a).1 = .ok ()) ∧ (grids.length ≠ dim → (RGN.make dim grids a).1 = .exits 1) := by
  constructor
  · intro h
    rw [RGN.make_run h a]
  · intro h
    unfold RGN.make
    rcases Nat.lt_or_gt_of_ne h with h | h
    · rw [Act.run_bind_ok (RGN.addCoords_run grids (RGN.new K D dim) (by simp [RGN.new]; omega))]
      simp [RGN.addVar, RGN.new, h.ne]
    · have := addCoords_too_many grids (RGN.new K D dim) (by simp [RGN.new]) (by simp [RGN.new]; omega)
      rw [Act.run_bind]
      generalize (RGN.addCoords dim grids).run (RGN.new K D dim) = r at this
      obtain ⟨r1, r2⟩ := r
      subst this
      rfl

/-- C101. A copy, and an object another one has been assigned to, whatever it contained, answer every question as the original; the original is not changed. -/
theorem C101_copy (dim : Nat) (s target : RGN K D) :
    ∃ t t', RGN.copy dim s = (.ok (), t) ∧ (RGN.assign s).run target = (.ok (), t') ∧
      (∀ x, RGN.nearest t x = RGN.nearest s x ∧ RGN.nearest t' x = RGN.nearest s x) ∧
      (∀ x, RGN.surrounding t x = RGN.surrounding s x ∧ RGN.surrounding t' x = RGN.surrounding s x) ∧
      (∀ idx, RGN.getCoord dim t idx = RGN.getCoord dim s idx ∧ RGN.getCoord dim t' idx = RGN.getCoord dim s idx) ∧
      (∀ idx, RGN.getCoordMinVal dim t idx = RGN.getCoordMinVal dim s idx ∧ RGN.getCoordMinVal dim t' idx = RGN.getCoordMinVal dim s idx) ∧
      (∀ idx, RGN.getCoordMaxVal dim t idx = RGN.getCoordMaxVal dim s idx ∧ RGN.getCoordMaxVal dim t' idx = RGN.getCoordMaxVal dim s idx) := by
  have h : ∀ u : RGN K D, (RGN.assign s).run u = (.ok (), s) := fun u => by
    simp [RGN.assign]
  exact ⟨s, s, h _, h _, fun _ => ⟨rfl, rfl⟩, fun _ => ⟨rfl, rfl⟩, fun _ => ⟨rfl, rfl⟩, fun _ => ⟨rfl, rfl⟩, fun _ => ⟨rfl, rfl⟩⟩

omit [Field K] [IsStrictOrderedRing K] in
theorem foldl_min_spec (l : List K) (a : K) :
    l.foldl (fun m x => if x < m then x else m) a ∈ a :: l ∧ ∀ x ∈ a :: l, l.foldl (fun m x => if x < m then x else m) a ≤ x := by
  induction l generalizing a with
  | nil => simp
  | cons b l ih =>
    rw [List.foldl_cons]
    obtain ⟨h1, h2⟩ := ih (if b < a then b else a)
    have hle : (if b < a then b else a) ≤ a ∧ (if b < a then b else a) ≤ b := by
      split_ifs with h
      · exact ⟨h.le, le_rfl⟩
      · exact ⟨le_rfl, not_lt.1 h⟩
    have h3 := h2 _ (List.mem_cons_self ..)
    refine ⟨?_, fun x hx => ?_⟩
    · rcases List.mem_cons.1 h1 with h | h
      · rw [h]
        split_ifs <;> simp
      · simp [h]
    · rcases List.mem_cons.1 hx with rfl | hx
      · exact h3.trans hle.1
      · rcases List.mem_cons.1 hx with rfl | hx
        · exact h3.trans hle.2
        · exact h2 x (List.mem_cons_of_mem _ hx)

omit [Field K] [IsStrictOrderedRing K] in
theorem foldl_max_spec (l : List K) (a : K) :
    l.foldl (fun m x => if m < x then x else m) a ∈ a :: l ∧ ∀ x ∈ a :: l, x ≤ l.foldl (fun m x => if m < x then x else m) a :=
  foldl_min_spec (K := Kᵒᵈ) l a

/-- C101. After the axes have been added in order, `GetCoord(idx)` is the axis number `idx`, and `GetCoordMinVal` and `GetCoordMaxVal` are its least and largest
elements; an index that is not less than the dimension ends the program with the exit code 1. -/
theorem C101_coordinates {dim : Nat} {grids : List (List K)} {a : NDArray D} {s : RGN K D} (hs : RGN.make dim grids a = (.ok (), s)) (hd : grids.length = dim)
    (hne : ∀ g ∈ grids, g ≠ []) (idx : Nat) :
    RGN.getDimension dim = dim ∧
    (∀ g, grids[idx]? = some g → RGN.getCoord dim s idx = .ok g ∧
      (∃ m, RGN.getCoordMinVal dim s idx = .ok m ∧ m ∈ g ∧ ∀ x ∈ g, m ≤ x) ∧ ∃ m, RGN.getCoordMaxVal dim s idx = .ok m ∧ m ∈ g ∧ ∀ x ∈ g, x ≤ m) ∧
    (dim ≤ idx → RGN.getCoord dim s idx = .exits 1 ∧ RGN.getCoordMinVal dim s idx = .exits 1 ∧ RGN.getCoordMaxVal dim s idx = .exits 1) := by
  rw [RGN.make_run hd a] at hs
  cases hs
  refine ⟨rfl, fun g hg => ?_, fun h => ⟨if_pos h, if_pos h, if_pos h⟩⟩
  obtain ⟨hi, he⟩ := List.getElem?_eq_some_iff.1 hg
  have hn : ¬ dim ≤ idx := by omega
  have hv : vIdx grids idx = .ok g := by rw [vIdx, hg]
  cases g with
  | nil => exact absurd rfl (hne _ (List.mem_of_getElem? hg))
  | cons b l =>
    refine ⟨by rw [RGN.getCoord, if_neg hn, hv], ⟨_, ?_, (foldl_min_spec l b).1, (foldl_min_spec l b).2⟩, ⟨_, ?_, (foldl_max_spec l b).1, (foldl_max_spec l b).2⟩⟩
    · rw [RGN.getCoordMinVal, if_neg hn]
      simp only [hv, Res.ok_bind]
      rfl
    · rw [RGN.getCoordMaxVal, if_neg hn]
      simp only [hv, Res.ok_bind]
      rfl

/-- C101 (in part: the answer `true` of `IsValid` is right for an object that has its axes and its array). Missing: the answer `false` for the others, see
`C101_refuted`. -/
theorem C101_valid_partial {dim : Nat} {grids : List (List K)} (hg : Axes grids) {a : NDArray D} {F : List Nat → D}
    (hsh : a.shape = grids.map List.length) (hF : Holds a.shape a.elems F) {s : RGN K D} (hs : RGN.make dim grids a = (.ok (), s))
    (hd : grids.length = dim) : RGN.isValid s = true ∧ ∀ x : List K, x.length = dim → ∃ n, RGN.nearest s x = .ok n := by
  refine ⟨rfl, fun x hx => ?_⟩
  obtain ⟨n, h, _⟩ := C24_nearest hg hsh hF hs hd hx
  exact ⟨n, h⟩

/-- C101 refuted: `IsValid` is true of an object just constructed, on which `Nearest` is undefined at every point, in any dimension from 1; and `GetData` is
undefined on every object. -/
theorem C101_refuted (dim : Nat) (hd : 0 < dim) :
    RGN.isValid (RGN.new K D dim) = true ∧ (∀ x : List K, x.length = dim → RGN.nearest (RGN.new K D dim) x = .ub) ∧
    ∀ (s : RGN K D) (x : List K), RGN.getData s x = .ub := by
  refine ⟨rfl, fun x hx => ?_, fun _ _ => rfl⟩
  cases x with
  | nil => simp at hx; omega
  | cons a l => simp [RGN.nearest, RGN.new, RGN.nearestLoop]

/-- C101: the hypotheses are met by a grid with three and two nodes. -/
example : ∃ s : RGN ℚ ℚ, RGN.make 2 [[0, 1, 3], [10, 20]] ⟨[3, 2], [0, 1, 2, 3, 4, 5]⟩ = (.ok (), s) ∧ RGN.getCoord 2 s 1 = .ok [10, 20] ∧
    (RGN.make 2 [[0, 1, 3]] (⟨[3, 2], [0, 1, 2, 3, 4, 5]⟩ : NDArray ℚ)).1 = .exits 1 := by
  refine ⟨_, RGN.make_run (dim := 2) (grids := [[0, 1, 3], [10, 20]]) rfl _, ?_, (C101_axes 2 _ _).2 (by decide)⟩
  exact ((C101_coordinates (dim := 2) (grids := [[(0 : ℚ), 1, 3], [10, 20]]) (a := (⟨[3, 2], [0, 1, 2, 3, 4, 5]⟩ : NDArray ℚ)) (RGN.make_run (dim := 2) rfl _) rfl
    (by simp) 1).2.1 _ rfl).1

end MU
