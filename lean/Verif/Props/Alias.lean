import Verif.Model.Alias
import Verif.Lemmas.Interp2d

/-!
# C116: the caller's vectors

Full statement: once initialised an interpolator answers for the data it was initialised with, whatever the caller does later with their
vectors. True as long as the abscissas are left alone (`_partial`): the ordinates may change. False otherwise: the abscissas are searched again in
each call, in the caller's vector, whereas the coefficients are those of the old ones.
-/

set_option linter.unusedSectionVars false

namespace MU

open MU.Spec

variable {K : Type} [Field K] [LinearOrder K] [IsStrictOrderedRing K]

theorem Interp1dShared.make_view (B : Build) {m : InterpMethod} {kind : Interp1dKind} {mem : Memory K} {px py : Nat} {s : Interp1dShared K}
    (hs : Interp1dShared.make B m mem px py = .ok (kind, s)) (ht : Table (mem px) (mem py)) {mem' : Memory K} (hx : mem' px = mem px) :
    Interp1d.make m = .ok kind ∧ s.view mem' =
      { Interp1d.built (Interp1d.fresh K K) (mem px) (mem py) (by have := ht.two; omega) ((mem px).length - 1) with yval := some (mem' py) } := by
  cases hm : Interp1d.make m with
  | ok k =>
    simp only [Interp1dShared.make, hm, Res.ok_bind,
      Interp1d.run_init B (show 0 < (mem px).length by have := ht.two; omega) ht.sizes ht.increasing, Res.pure_eq] at hs
    injection hs with hs
    cases hs
    refine ⟨rfl, ?_⟩
    simp only [Interp1dShared.view, Interp1d.built, hx]
  | _ => simp [Interp1dShared.make, hm] at hs

/-- C116 for tables of one variable: as long as the vector of abscissas is as it was at `Initialize`, `Eval` gives the value of the interpolator made from
the ordinates of that time, whatever all other vectors hold now, that of the ordinates included. -/
theorem C116_interp1d_partial (B : Build) {m : InterpMethod} {kind : Interp1dKind} {mem : Memory K} {px py : Nat} {s : Interp1dShared K}
    (hs : Interp1dShared.make B m mem px py = .ok (kind, s)) (ht : Table (mem px) (mem py)) {mem' : Memory K} (hx : mem' px = mem px) (x : K) :
    s.eval kind mem' x = interp1d B m (mem px) (mem py) x := by
  obtain ⟨hk, hv⟩ := Interp1dShared.make_view B hs ht hx
  rw [Interp1dShared.eval, hv, Interp1d.interp1d_eq B hk ht]
  cases kind <;> rfl

/-- C116 for grids of two variables: the data may change, not the two vectors of coordinates. -/
theorem C116_interp2d_partial (B : Build) {mem : Memory K} {px py pd : Nat} {s : Interp2dShared K}
    (hs : Interp2dShared.make B mem px py pd = .ok s) (hg : Grid (mem px) (mem py) (mem pd)) {mem' : Memory K} (hx : mem' px = mem px)
    (hy : mem' py = mem py) (x y : K) : s.eval B mem' x y = interp2d B .LINEAR (mem px) (mem py) (mem pd) x y := by
  simp only [Interp2dShared.make, Interp2d.make, Res.ok_bind,
    Interp2d.run_init B (show 0 < (mem px).length by have := hg.twox; omega) (show 0 < (mem py).length by have := hg.twoy; omega) hg.incx hg.incy hg.size,
    Res.pure_eq] at hs
  injection hs with hs
  subst hs
  rw [Interp2d.interp2d_eq B hg]
  simp only [Interp2dShared.eval, Interp2dShared.view, hx, hy]
  rfl

/-- The vectors of the example: abscissas 0, 1, 2 at address 0, ordinates 0, 10, 0 at address 1. -/
def memBefore : Memory ℚ := fun p => if p = 0 then [0, 1, 2] else [0, 10, 0]

/-- The caller has moved the abscissa 1 to 3/2. -/
def memAfter : Memory ℚ := fun p => if p = 0 then [0, 3 / 2, 2] else [0, 10, 0]

/-- The caller has overwritten the ordinates. -/
def memOrdinates : Memory ℚ := fun p => if p = 0 then [0, 1, 2] else [7, 7, 7]

theorem memBefore_table : Table (memBefore 0) (memBefore 1) := ⟨by simp [memBefore], by simp [memBefore, List.pairwise_cons], by simp [memBefore]⟩

theorem memAfter_table : Table (memAfter 0) (memAfter 1) := ⟨by simp [memAfter], by simp [memAfter, List.pairwise_cons]; norm_num, by simp [memAfter]⟩

theorem memBefore_made (B : Build) : ∃ s, Interp1dShared.make B .LINEAR memBefore 0 1 = .ok (.linear, s) := by
  refine ⟨⟨0, 1, Interp1d.built (Interp1d.fresh ℚ ℚ) (memBefore 0) (memBefore 1) (by simp [memBefore]) ((memBefore 0).length - 1)⟩, ?_⟩
  rw [Interp1dShared.make, show Interp1d.make .LINEAR = .ok .linear from rfl, Res.ok_bind,
    Interp1d.run_init B (show 0 < (memBefore 0).length by simp [memBefore]) memBefore_table.sizes memBefore_table.increasing]
  rfl

example (B : Build) : ∃ s, Interp1dShared.make B .LINEAR memBefore 0 1 = .ok (.linear, s) ∧
    s.eval .linear memOrdinates (6 / 5) = interp1d B .LINEAR [(0 : ℚ), 1, 2] [(0 : ℚ), 10, 0] (6 / 5) := by
  obtain ⟨s, hs⟩ := memBefore_made B
  exact ⟨s, hs, C116_interp1d_partial B hs memBefore_table (mem' := memOrdinates) rfl _⟩

/-- C116 refuted: at 6/5 the interpolator answers 8; after the caller has moved an abscissa of their vector it answers 12, which is neither the value for
the old table nor that for the new one (again 8), nor between the ordinates. -/
theorem C116_refuted (B : Build) : ∃ s, Interp1dShared.make B .LINEAR memBefore 0 1 = .ok (.linear, s) ∧
    s.eval .linear memBefore (6 / 5) = .ok 8 ∧ s.eval .linear memAfter (6 / 5) = .ok 12 ∧
    interp1d B .LINEAR (memAfter 0) (memAfter 1) (6 / 5) = .ok 8 := by
  obtain ⟨s, hs⟩ := memBefore_made B
  have hv := (Interp1dShared.make_view B hs memBefore_table (mem' := memBefore) rfl).2
  have ha : s.view memAfter = { s.view memBefore with xcoord := some (memAfter s.px), yval := some (memAfter s.py) } := rfl
  have hp : s.px = 0 := by
    have := hs
    rw [Interp1dShared.make, show Interp1d.make .LINEAR = .ok .linear from rfl, Res.ok_bind,
      Interp1d.run_init B (show 0 < (memBefore 0).length by simp [memBefore]) memBefore_table.sizes memBefore_table.increasing] at this
    cases this
    rfl
  refine ⟨s, hs, ?_, ?_, ?_⟩
  · rw [Interp1dShared.eval, hv]
    decide +kernel
  · rw [Interp1dShared.eval, ha, hv, hp]
    simp only [Interp1d.eval, Interp1d.privEvalLinear, Interp1d.privEvalBase, Interp1d.built, readVar_some, deref_some, Res.ok_bind]
    decide +kernel
  · rw [Interp1d.interp1d_eq B rfl memAfter_table]
    decide +kernel

end MU
