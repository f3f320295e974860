import Verif.Props.OutOfMemory
import Verif.Props.OutOfMemoryGrid

/-!
# Memory exhaustion is reported, and what it leaves (C145, C146, C148)
-/

set_option linter.unusedSectionVars false

namespace MU

open Spec

/-- C145: adding a valid series under a new name allocates at these places. If memory is exhausted at one of them, `std::bad_alloc` leaves `AddY`: a failed allocation is never
hidden. If it is exhausted at none of them `AddY` returns `true`. -/
theorem C145_reported {K Y : Type} [Field K] [LinearOrder K] [IsStrictOrderedRing K] [AddCommGroup Y] [Module K Y] (fail : AllocSite → Bool) (B : Build) {m : InterpMethod}
    (hm : m ≠ .BSPLINE) {s : LookupTable1D K Y} (hmeth : s.interp_method = some m) {name : String} (hnew : s.assoc.lookup name = none) {xs : List K} {ys : List Y}
    (hX : s.Xcoords = some xs) (h : Table xs ys) (n : Nat) :
    ((LookupTable1D.addYF fail B name ys).run (s, n)).1 =
      if [AllocSite.arguments, .pair, .node, .makeShared, .pushData, .newInterp, .reserve 1, .reserve 2, .pushInterp].any fail then .throws .badAlloc else .ok true := by
  obtain ⟨kind, hkind⟩ := Interp1d.make_ok hm
  have h0 : 0 < xs.length := by have := h.two; omega
  have hi : ∀ s, ((Interp1d.initF fail B (some xs) (some ys)).run s).1 = if fail (.reserve 1) || fail (.reserve 2) then .throws .badAlloc else .ok () := by
    intro s
    have e := Interp1d.run_init B h0 h.sizes h.increasing s
    have e' := Interp1d.run_initializeBase B h0 h.sizes (pairwise_lt_le h.increasing) s
    unfold Interp1d.init at e
    unfold Interp1d.initF
    rw [Act.run_bind_ok e'] at e ⊢
    rw [run_alloc_bind]
    cases h1 : fail (.reserve 1)
    · simp only [Bool.false_eq_true, if_false, Bool.false_or]
      rw [run_alloc_bind]
      cases h2 : fail (.reserve 2)
      · simp only [Bool.false_eq_true, if_false]
        rw [e]
      · rfl
    · rfl
  rw [LookupTable1D.run_addYF, if_pos hnew]
  simp only [List.any_cons, List.any_nil, Bool.or_false]
  cases fail .arguments <;> cases fail .pair <;> cases fail .node <;> simp only [Bool.false_or, Bool.true_or, Bool.or_true, Bool.or_false, if_true, Bool.false_eq_true, if_false]
  cases fail .makeShared <;> cases fail .pushData <;> simp only [Bool.false_or, Bool.true_or, Bool.or_true, Bool.or_false, if_true, Bool.false_eq_true, if_false]
  simp only [LookupTable1D.tailF, hmeth, hX, readVar_some]
  rw [Act.run_lift_ok_bind, hkind, Act.run_lift_ok_bind, run_alloc_bind]
  cases fail .newInterp <;> simp only [Bool.false_or, Bool.true_or, if_true, Bool.false_eq_true, if_false]
  rw [Act.run_bind_ok (Act.run_update _ _), hi]
  cases fail (.reserve 1) <;> cases fail (.reserve 2) <;> simp only [Bool.false_or, Bool.true_or, if_true, Bool.false_eq_true, if_false] <;> try rfl
  rw [Act.run_lift_ok_bind, run_alloc_bind]
  cases fail .pushInterp <;> rfl

/-- C146: adding valid data under a new name allocates at these places. If memory is exhausted at one of them, `std::bad_alloc` leaves `AddData`: a failed allocation is never
hidden. If it is exhausted at none of them `AddData` returns `true`. -/
theorem C146_reported {K : Type} [Field K] [LinearOrder K] [IsStrictOrderedRing K] (fail : AllocSite → Bool) (B : Build) {s : LookupTable2d K}
    (hmeth : s.interp_method = .LINEAR) {name : String} (hnew : s.assoc.lookup name = none) {xs ys data : List K}
    (hX : s.Xcoords = some xs) (hY : s.Ycoords = some ys) (g : Grid xs ys data) (n : Nat) :
    ((LookupTable2d.addDataF fail B name data).run (s, n)).1 =
      if [AllocSite.arguments, .pair, .node, .makeShared, .pushData, .newInterp, .reserve 1, .reserve 2, .reserve 3, .reserve 4, .pushInterp].any fail then .throws .badAlloc
      else .ok true := by
  have hx : 0 < xs.length := by have := g.twox; omega
  have hy : 0 < ys.length := by have := g.twoy; omega
  have hi : ∀ s, ((Interp2d.initF fail B (some xs) (some ys) (some data)).run s).1 =
      if fail (.reserve 1) || (fail (.reserve 2) || (fail (.reserve 3) || fail (.reserve 4))) then .throws .badAlloc else .ok () := by
    intro s
    have e := Interp2d.run_init B hx hy g.incx g.incy g.size s
    have e' := Interp2d.run_initializeBase B hx hy (d := data) (pairwise_lt_le g.incx) (pairwise_lt_le g.incy) s
    unfold Interp2d.init at e
    unfold Interp2d.initF
    rw [Act.run_bind_ok e'] at e ⊢
    rw [run_alloc_bind]
    cases h1 : fail (.reserve 1) <;> simp only [Bool.false_eq_true, if_false, Bool.false_or, Bool.true_or, if_true]
    rw [run_alloc_bind]
    cases h2 : fail (.reserve 2) <;> simp only [Bool.false_eq_true, if_false, Bool.false_or, Bool.true_or, if_true]
    rw [run_alloc_bind]
    cases h3 : fail (.reserve 3) <;> simp only [Bool.false_eq_true, if_false, Bool.false_or, Bool.true_or, if_true]
    rw [run_alloc_bind]
    cases h4 : fail (.reserve 4) <;> simp only [Bool.false_eq_true, if_false, if_true]
    rw [e]
  rw [LookupTable2d.run_addDataF, if_pos hnew]
  simp only [List.any_cons, List.any_nil, Bool.or_false]
  cases fail .arguments <;> cases fail .pair <;> cases fail .node <;> simp only [Bool.false_or, Bool.true_or, Bool.or_true, Bool.or_false, if_true, Bool.false_eq_true, if_false]
  cases fail .makeShared <;> cases fail .pushData <;> simp only [Bool.false_or, Bool.true_or, Bool.or_true, Bool.or_false, if_true, Bool.false_eq_true, if_false]
  simp only [LookupTable2d.tailF, hmeth, hX, hY]
  rw [Interp2d.make, Act.run_lift_ok_bind, run_alloc_bind]
  cases fail .newInterp <;> simp only [Bool.false_or, Bool.true_or, if_true, Bool.false_eq_true, if_false]
  rw [Act.run_bind_ok (Act.run_update _ _), hi]
  cases fail (.reserve 1) <;> cases fail (.reserve 2) <;> cases fail (.reserve 3) <;> cases fail (.reserve 4) <;>
    simp only [Bool.false_or, Bool.true_or, if_true, Bool.false_eq_true, if_false] <;> try rfl
  rw [Act.run_lift_ok_bind, run_alloc_bind]
  cases fail .pushInterp <;> rfl

/-- What the assignment of a `RegularGridNearest` leaves. If the axes cannot be copied they are in the state `left` in which the library leaves them, and the values are the old
ones. If the values cannot be resized the object has the new axes and the old values. Otherwise it is the other object. -/
theorem C148_nearest_states {K D : Type} [Field K] [LinearOrder K] (fail : GridSite → Bool) (left : List (List K)) (other s : RGN K D) :
    (fail .axes = true → (RGN.assignF fail left other).run s = (.throws .badAlloc, ⟨left, s.data⟩)) ∧
    (fail .axes = false → fail .extents = true ∨ fail .resize = true → (RGN.assignF fail left other).run s = (.throws .badAlloc, ⟨other.grid_list, s.data⟩)) ∧
    (fail .axes = false → fail .extents = false → fail .resize = false → (RGN.assignF fail left other).run s = (.ok (), other)) := by
  unfold RGN.assignF
  refine ⟨fun h => ?_, fun h h' => ?_, fun h h1 h2 => ?_⟩
  · rw [if_pos h]; rfl
  · rw [if_neg (by simp [h]), Act.run_bind_ok (Act.run_update _ _), run_gridAlloc_bind]
    rcases h' with h' | h'
    · rw [if_pos h']
    · split
      · rfl
      · rw [run_gridAlloc_bind, if_pos h']
  · rw [if_neg (by simp [h]), Act.run_bind_ok (Act.run_update _ _), run_gridAlloc_bind, if_neg (by simp [h1]), run_gridAlloc_bind, if_neg (by simp [h2])]
    rfl

/-- What the assignment of a `RegularGridInterpolator` leaves when the axes or the block of values cannot be allocated: the axes are in the state `left`, or the new ones; the
values, the interpolator and the limits are the old ones. -/
theorem C148_assign_states {K : Type} [Field K] [LinearOrder K] (fail : GridSite → Bool) (left : List (List K)) (dim : Nat) (other s : RGI K) :
    (fail .axes = true → (RGI.assignF fail left dim other).run s = (.throws .badAlloc, { s with grid_list := left })) ∧
    (fail .axes = false → fail .extents = true ∨ fail .resize = true →
      (RGI.assignF fail left dim other).run s = (.throws .badAlloc, { s with grid_list := other.grid_list })) := by
  unfold RGI.assignF
  refine ⟨fun h => ?_, fun h h' => ?_⟩
  · rw [if_pos h]; rfl
  · rw [if_neg (by simp [h]), Act.run_bind_ok (Act.run_update _ _), run_gridAlloc_bind]
    rcases h' with h' | h'
    · rw [if_pos h']
    · split
      · rfl
      · rw [run_gridAlloc_bind, if_pos h']

/-! ## The hypotheses are met -/

/-- Abscissae 0, 1, no series yet; the second vector of coefficients cannot be allocated. -/
example : ((LookupTable1D.addYF (failAt (.reserve 2)) ⟨true⟩ "a" ([3, 4] : List ℚ)).run ({ LookupTable1D.new ℚ ℚ .LINEAR with Xcoords := some [0, 1] }, 0)).1 =
    .throws .badAlloc :=
  (C145_reported (failAt (.reserve 2)) ⟨true⟩ (m := .LINEAR) (s := { LookupTable1D.new ℚ ℚ .LINEAR with Xcoords := some [0, 1] }) (by simp) (by simp [LookupTable1D.new])
    (by simp [LookupTable1D.new]) (name := "a") (xs := [0, 1]) (ys := [3, 4]) rfl ⟨by simp, by simp, rfl⟩ 0).trans (by simp [failAt])

/-- Coordinates 0, 1 and 0, 1, no series yet; the last vector of coefficients cannot be allocated. -/
example : ((LookupTable2d.addDataF (failAt (.reserve 4)) ⟨true⟩ "a" ([1, 2, 3, 4] : List ℚ)).run
    ({ LookupTable2d.new ℚ with Xcoords := some [0, 1], Ycoords := some [0, 1] }, 0)).1 = .throws .badAlloc := by
  rw [C146_reported _ ⟨true⟩ (by simp [LookupTable2d.new]) (by simp [LookupTable2d.new]) (xs := [0, 1]) (ys := [0, 1]) rfl rfl ⟨by simp, by simp, by simp, by simp, rfl⟩]
  simp [failAt]

/-- With enough memory it returns `true`. -/
example : ((LookupTable2d.addDataF noFailure ⟨true⟩ "a" ([1, 2, 3, 4] : List ℚ)).run
    ({ LookupTable2d.new ℚ with Xcoords := some [0, 1], Ycoords := some [0, 1] }, 0)).1 = .ok true := by
  rw [C146_reported _ ⟨true⟩ (by simp [LookupTable2d.new]) (by simp [LookupTable2d.new]) (xs := [0, 1]) (ys := [0, 1]) rfl rfl ⟨by simp, by simp, by simp, by simp, rfl⟩]
  simp

/-- One axis `0, 1` with values 10, 20: the axes cannot be copied. -/
example : (RGN.assignF (fun p => decide (p = .axes)) [[5]] ⟨[[0, 1, 2]], ⟨[3], [30, 40, 50]⟩⟩).run (⟨[[0, 1]], ⟨[2], [10, 20]⟩⟩ : RGN ℚ ℚ) =
    (.throws .badAlloc, ⟨[[5]], ⟨[2], [10, 20]⟩⟩) :=
  (C148_nearest_states _ _ _ _).1 (by decide)

end MU
