import Verif.Props.LookupTable
import Verif.Props.RegularGrid

set_option linter.unusedSectionVars false

/-!
# C71, C72: what interpolators accept, and the ranges they report
-/

namespace MU
open Spec

section interp1d
variable {K Y : Type} [Field K] [LinearOrder K] [IsStrictOrderedRing K] [AddCommGroup Y] [Module K Y]

namespace Interp1d

/-- One iteration of `Initialize` changes only the two coefficient vectors, and is never undefined. -/
theorem initializeStep_frame {xs : List K} {ys : List Y} (i : Nat) {s : Interp1d K Y} (hx : s.xcoord = some xs) (hy : s.yval = some ys) :
    ((initializeStep i).run s).1 ≠ .ub ∧ ∃ a b, ((initializeStep i).run s).2 = { s with a := a, b := b } := by
  obtain ⟨xc, yv, nd, mn, mx, a0, b0⟩ := s
  simp only at hx hy
  subst hx hy
  simp only [initializeStep, Act.run_bind, Act.run_get, Act.run_lift, deref_some]
  have hv : ∀ {α : Type} (l : List α) (j : Nat), (∃ v, vAt l j = .ok v) ∨ vAt l j = .throws .outOfRange := by
    intro α l j
    rcases Nat.lt_or_ge j l.length with h | h
    · exact .inl ⟨_, vAt_lt h⟩
    · exact .inr (by simp [vAt, List.getElem?_eq_none h])
  have hd : ∀ (v : Y) (c : K), (∃ w, sdiv v c = .ok w) ∨ sdiv v c = .nonfinite := by
    intro v c
    by_cases hc : c = 0
    · exact .inr (by simp [sdiv, hc])
    · exact .inl ⟨_, sdiv_ok hc⟩
  rcases hv xs (i - 1) with ⟨v1, h1⟩ | h1
  · rcases hv xs i with ⟨v2, h2⟩ | h2
    · rcases hv ys (i - 1) with ⟨w1, h3⟩ | h3
      · rcases hv ys i with ⟨w2, h4⟩ | h4
        · simp only [h1, h2, h3, h4]
          rcases hd (w2 - w1) (v2 - v1) with ⟨u, h5⟩ | h5
          · simp only [h5, Act.run_update]
            rcases hd (v2 • w1 - v1 • w2) (v2 - v1) with ⟨u', h6⟩ | h6
            · simp only [h6]
              exact ⟨by simp, _, _, rfl⟩
            · simp only [h6]
              exact ⟨by simp, _, _, rfl⟩
          · simp only [h5]
            exact ⟨by simp, a0, b0, rfl⟩
        · simp only [h1, h2, h3, h4]
          exact ⟨by simp, a0, b0, rfl⟩
      · simp only [h1, h2, h3]
        exact ⟨by simp, a0, b0, rfl⟩
    · simp only [h1, h2]
      exact ⟨by simp, a0, b0, rfl⟩
  · simp only [h1]
    exact ⟨by simp, a0, b0, rfl⟩

theorem loopN_frame {xs : List K} {ys : List Y} (n lo : Nat) {s : Interp1d K Y} (hx : s.xcoord = some xs) (hy : s.yval = some ys) :
    ((Act.loopN n lo initializeStep).run s).1 ≠ .ub ∧ ∃ a b, ((Act.loopN n lo initializeStep).run s).2 = { s with a := a, b := b } := by
  induction n generalizing lo s with
  | zero => exact ⟨by simp [Act.loopN], s.a, s.b, rfl⟩
  | succ n ih =>
    obtain ⟨h1, a, b, h2⟩ := initializeStep_frame lo hx hy
    simp only [Act.loopN, Act.run_bind]
    rcases hr : (initializeStep lo).run s with ⟨r, s'⟩
    rw [hr] at h1 h2
    simp only at h1 h2
    subst h2
    cases r with
    | ok u =>
      obtain ⟨h3, a', b', h4⟩ := ih (lo + 1) (s := { s with a := a, b := b }) hx hy
      exact ⟨h3, a', b', h4⟩
    | ub => exact absurd rfl h1
    | _ => exact ⟨by simp, a, b, rfl⟩

end Interp1d

/-- C71, acceptance: non-empty vectors of equal sizes with strictly increasing abscissae are accepted, in every build and by every object. -/
theorem C71_accepts (B : Build) (x : List K) (y : List Y) (h0 : x ≠ []) (hs : x.length = y.length) (hx : x.Pairwise (· < ·)) (s : Interp1d K Y) :
    ((Interp1d.init B (some x) (some y)).run s).1 = .ok () := by
  rw [Interp1d.run_init B (List.length_pos_of_ne_nil h0) hs hx]

/-- C71, refusal: with assertions enabled, vectors of different sizes and abscissae which are not in increasing order stop the program, before any
field is written. -/
theorem C71_refuses (x : List K) (y : List Y) (h : x.length ≠ y.length ∨ ¬ x.Pairwise (· ≤ ·)) (s : Interp1d K Y) :
    (Interp1d.init ⟨true⟩ (some x) (some y)).run s = (.aborts, s) := by
  by_cases hs : x.length = y.length
  · have hx : ¬ x.Pairwise (· ≤ ·) := h.resolve_left (fun h => h hs)
    simp [Interp1d.init, Interp1d.initializeBase, Act.run_bind, cassert_true _ _ hs, cassert_false _ hx]
  · simp [Interp1d.init, Interp1d.initializeBase, Act.run_bind, cassert_false _ hs]

/-- C71, empty vectors: `std::out_of_range`, in every build. -/
theorem C71_empty (B : Build) (s : Interp1d K Y) :
    ((Interp1d.init B (some ([] : List K)) (some ([] : List Y))).run s).1 = .throws .outOfRange := by
  have : cassert B (([] : List K).length = ([] : List Y).length) = .ok () := cassert_true B _ rfl
  have h2 : cassert B (([] : List K).Pairwise (· ≤ ·)) = .ok () := cassert_true B _ List.Pairwise.nil
  simp only [Interp1d.init, Interp1d.initializeBase, Act.run_bind, Act.run_lift, deref_some, this, h2, Act.run_update]
  rfl

/-- C71, safety: whatever the two vectors, with or without assertions, `Initialize` never reads outside them. -/
theorem C71_never_undefined (B : Build) (x : List K) (y : List Y) (s : Interp1d K Y) :
    ((Interp1d.init B (some x) (some y)).run s).1 ≠ .ub := by
  have hc : ∀ (c : Prop) [Decidable c], cassert B c = .ok () ∨ cassert B c = .aborts := by
    intro c _
    by_cases h : c
    · exact .inl (cassert_true B _ h)
    · cases B with
      | mk b => cases b with
        | true => exact .inr (cassert_false _ h)
        | false => exact .inl (cassert_ndebug _)
  rcases hc (x.length = y.length) with h1 | h1
  · rcases hc (x.Pairwise (· ≤ ·)) with h2 | h2
    · cases x with
      | nil =>
        simp only [Interp1d.init, Interp1d.initializeBase, Act.run_bind, Act.run_lift, deref_some, h1, h2, Act.run_update]
        simp [vAt]
      | cons a l =>
        have h3 : vAt (a :: l) 0 = .ok a := rfl
        have h4 := vAt_lt (l := a :: l) (i := (a :: l).length - 1) (by simp)
        simp only [Interp1d.init, Interp1d.initializeBase, Act.run_bind, Act.run_lift, deref_some, h1, h2, h3, h4, Act.run_update, Act.run_get]
        exact (Interp1d.loopN_frame (xs := a :: l) (ys := y) _ _ rfl rfl).1
    · simp [Interp1d.init, Interp1d.initializeBase, Act.run_bind, h1, h2]
  · simp [Interp1d.init, Interp1d.initializeBase, Act.run_bind, h1]

example : ((Interp1d.init ⟨false⟩ (some [(2 : ℚ), 1, 5]) (some [(1 : ℚ)])).run (Interp1d.fresh ℚ ℚ)).1 = .throws .outOfRange ∧
    ((Interp1d.init ⟨true⟩ (some [(2 : ℚ), 1, 5]) (some [(1 : ℚ), 2, 3])).run (Interp1d.fresh ℚ ℚ)).1 = .aborts ∧
    ((Interp1d.init ⟨true⟩ (some [(0 : ℚ), 1, 5]) (some [(1 : ℚ), 2, 3])).run (Interp1d.fresh ℚ ℚ)).1 = .ok () := by
  refine ⟨by decide +kernel, by decide +kernel, by decide +kernel⟩

/-- A successful `Initialize` records the first and the last abscissae. -/
theorem Interp1d.init_range {B : Build} {x : List K} {y : List Y} {s : Interp1d K Y} (h : ((Interp1d.init B (some x) (some y)).run s).1 = .ok ()) :
    ∃ a b, x.head? = some a ∧ x.getLast? = some b ∧ ((Interp1d.init B (some x) (some y)).run s).2.xmin = some a ∧
      ((Interp1d.init B (some x) (some y)).run s).2.xmax = some b := by
  have h1 : cassert B (x.length = y.length) = .ok () := by
    cases hc : cassert B (x.length = y.length) <;> simp [Interp1d.init, Interp1d.initializeBase, Act.run_bind, hc] at h ⊢
  have h2 : cassert B (x.Pairwise (· ≤ ·)) = .ok () := by
    cases hc : cassert B (x.Pairwise (· ≤ ·)) <;> simp [Interp1d.init, Interp1d.initializeBase, Act.run_bind, h1, hc] at h ⊢
  cases x with
  | nil => 
    exfalso
    simp only [Interp1d.init, Interp1d.initializeBase, Act.run_bind, Act.run_lift, deref_some, h1, h2, Act.run_update] at h
    simp [vAt] at h
  | cons a l =>
    have h3 : vAt (a :: l) 0 = .ok a := rfl
    have h4 := vAt_lt (l := a :: l) (i := (a :: l).length - 1) (by simp)
    refine ⟨a, (a :: l)[(a :: l).length - 1], rfl, by rw [List.getLast?_eq_getElem?, List.getElem?_eq_getElem], ?_⟩
    simp only [Interp1d.init, Interp1d.initializeBase, Act.run_bind, Act.run_lift, deref_some, h1, h2, h3, h4, Act.run_update, Act.run_get]
    obtain ⟨-, a', b', h5⟩ := Interp1d.loopN_frame (xs := a :: l) (ys := y) ((a :: l).length - 1) 1
      (s := { s with ndata := (a :: l).length, xmin := some a, xmax := some ((a :: l)[(a :: l).length - 1]), xcoord := some (a :: l), yval := some y })
      rfl rfl
    unfold Act.loop
    rw [h5]
    exact ⟨rfl, rfl⟩

/-- C72, 1D tables: after any successful history, `GetXmin(name)` and `GetXmax(name)` on a registered series are the first and the last of the
abscissae that were set when it was registered; on another name they throw `std::out_of_range`. -/
theorem C72_table_range (B : Build) (m : InterpMethod) (ops : List (LookupTable1D.Op K Y)) {s : LookupTable1D K Y}
    (hrun : (LookupTable1D.execAll B ops).run (LookupTable1D.new K Y m) = (.ok (), s)) (name : String) :
    (∀ X Yv, (Lut1.after ops).series.lookup name = some (X, Yv) →
      ∃ a b, X.head? = some a ∧ X.getLast? = some b ∧ s.getXmin name = .ok a ∧ s.getXmax name = .ok b) ∧
    ((Lut1.after ops).series.lookup name = none → s.getXmin name = .throws .outOfRange ∧ s.getXmax name = .throws .outOfRange) := by
  have h := (LookupTable1D.Rep.new (K := K) (Y := Y) B m).execAll hrun
  rw [show ops.foldl Lut1.step Lut1.empty = Lut1.after ops from rfl] at h
  constructor
  · intro X Yv hl
    obtain ⟨kind, i, hk, h1, h2, h3⟩ := h.eval_some hl
    obtain ⟨a, b, ha, hb, h4, h5⟩ := Interp1d.init_range h3
    refine ⟨a, b, ha, hb, ?_, ?_⟩
    · simp only [LookupTable1D.getXmin, LookupTable1D.getIndex, assocAt, h1, Res.ok_bind, vAt, h2]
      simp only [LookupTable1D.buildRun, h4]
      rfl
    · simp only [LookupTable1D.getXmax, LookupTable1D.getIndex, assocAt, h1, Res.ok_bind, vAt, h2]
      simp only [LookupTable1D.buildRun, h5]
      rfl
  · intro hl
    have : s.assoc.lookup name = none := by rw [h.assoc]; exact (indexMap_lookup_none _ _ 0).mpr hl
    simp [LookupTable1D.getXmin, LookupTable1D.getXmax, LookupTable1D.getIndex, assocAt, this]

example : ∃ s, (LookupTable1D.execAll ⟨true⟩ sampleOps).run (LookupTable1D.new ℚ ℚ .LINEAR) = (.ok (), s) ∧
    s.getXmin "a" = .ok 0 ∧ s.getXmax "a" = .ok 3 ∧ s.getXmax "b" = .ok 2 ∧ s.getXmax "c" = .throws .outOfRange := by
  obtain ⟨s, hs⟩ := sampleOps_run
  obtain ⟨a, b, ha, hb, h1, h2⟩ := (C72_table_range ⟨true⟩ .LINEAR sampleOps hs "a").1 [0, 1, 3] [5, 7, 1] rfl
  obtain ⟨a', b', ha', hb', h1', h2'⟩ := (C72_table_range ⟨true⟩ .LINEAR sampleOps hs "b").1 [0, 2] [1, 2] rfl
  cases ha; cases hb; cases ha'; cases hb'
  exact ⟨s, hs, h1, h2, h2', ((C72_table_range ⟨true⟩ .LINEAR sampleOps hs "c").2 rfl).2⟩

/-- C68, part: moving between two tables of the same interpolation method transfers everything: the destination then is the source, so that every
later history of calls and every evaluation gives what it would have given on the source. Missing: tables of different methods, and move
construction, see `C68_refuted`. -/
theorem C68_same_method_partial (B : Build) (m : InterpMethod) (ops₁ ops₂ : List (LookupTable1D.Op K Y)) {dst src : LookupTable1D K Y}
    (h₁ : (LookupTable1D.execAll B ops₁).run (LookupTable1D.new K Y m) = (.ok (), dst))
    (h₂ : (LookupTable1D.execAll B ops₂).run (LookupTable1D.new K Y m) = (.ok (), src)) (ops : List (LookupTable1D.Op K Y)) :
    (LookupTable1D.execAll B ops).run (LookupTable1D.moveAssign dst src) = (LookupTable1D.execAll B ops).run src ∧
    (LookupTable1D.moveAssign dst src).getX = src.getX ∧ (LookupTable1D.moveAssign dst src).getNbSample = src.getNbSample ∧
    ∀ name x, (LookupTable1D.moveAssign dst src).eval name x = src.eval name x := by
  have e : LookupTable1D.moveAssign dst src = src := by
    have r1 := ((LookupTable1D.Rep.new (K := K) (Y := Y) B m).execAll h₁).method
    have r2 := ((LookupTable1D.Rep.new (K := K) (Y := Y) B m).execAll h₂).method
    cases src
    simp only [LookupTable1D.moveAssign]
    simp only at r2
    rw [r1, r2]
  rw [e]
  exact ⟨rfl, rfl, rfl, fun _ _ => rfl⟩

example : ∃ s, (LookupTable1D.execAll ⟨true⟩ sampleOps).run (LookupTable1D.new ℚ ℚ .LINEAR) = (.ok (), s) ∧
    (LookupTable1D.moveAssign (LookupTable1D.new ℚ ℚ .LINEAR) s).getX = .ok [0, 2] := by
  obtain ⟨s, hs⟩ := sampleOps_run
  refine ⟨s, hs, ?_⟩
  rw [(C68_same_method_partial ⟨true⟩ .LINEAR [] sampleOps rfl hs []).2.1, LookupTable1D.getX, (C11_refines_map ⟨true⟩ .LINEAR sampleOps hs).2.2]
  rfl

end interp1d

section grid
variable {K : Type} [Field K] [LinearOrder K] [IsStrictOrderedRing K]
open RGI

theorem limits_get {grids : List (List K)} {l : List (K × K)} (h : Limits grids l) {i : Nat} (hi : i < grids.length) :
    ∃ a b, grids[i].head? = some a ∧ grids[i].getLast? = some b ∧ l[i]? = some (a, b) := by
  induction h generalizing i with
  | nil => simp at hi
  | cons h1 h2 h3 ih =>
    cases i with
    | zero => exact ⟨_, _, h1, h2, rfl⟩
    | succ i => exact ih (by simpa using hi)

/-- C72, grids: on a loaded interpolator `GetCoord(i)` is the `i`-th axis accepted, `GetCoordMinVal(i)` its first value, `GetCoordMaxVal(i)` its last; an
index not below the dimension exits the process with status 1. -/
theorem C72_grid_range {dim : Nat} {grids : List (List K)} {F : List Nat → K} {s : RGI K} (h : Loaded dim grids F s) (i : Nat) :
    (∀ hi : i < grids.length, getCoord dim s i = .ok grids[i] ∧ ∃ a b, grids[i].head? = some a ∧ grids[i].getLast? = some b ∧
      getCoordMinVal dim s i = .ok a ∧ getCoordMaxVal dim s i = .ok b) ∧
    (dim ≤ i → getCoord dim s i = .exits 1 ∧ getCoordMinVal dim s i = .exits 1 ∧ getCoordMaxVal dim s i = .exits 1) ∧
    grids.length = dim := by
  obtain ⟨hg, hd, hgl, _, _, _, l, hl, hL⟩ := Loaded.fields h
  refine ⟨fun hi => ⟨?_, ?_⟩, fun hi => ?_, hd⟩
  · rw [getCoord, if_neg (by omega), hgl, vIdx_lt hi]
  · obtain ⟨a, b, ha, hb, hab⟩ := limits_get hL hi
    refine ⟨a, b, ha, hb, ?_, ?_⟩
    · rw [getCoordMinVal, if_neg (by omega), hl]
      simp [readVar, vIdx, hab]
    · rw [getCoordMaxVal, if_neg (by omega), hl]
      simp [readVar, vIdx, hab]
  · simp [getCoord, getCoordMinVal, getCoordMaxVal, hi]

example : ∃ s, Loaded 2 [[0, 1, 3], [10, 20]] gridF s ∧ getCoord 2 s 0 = .ok [0, 1, 3] ∧ getCoordMaxVal 2 s 0 = .ok 3 ∧
    getCoordMinVal 2 s 1 = .ok 10 ∧ getCoord 2 s 2 = .exits 1 := by
  obtain ⟨s, hs⟩ := gridLoaded
  obtain ⟨h1, a, b, ha, hb, h2, h3⟩ := (C72_grid_range hs 0).1 (by simp)
  obtain ⟨h4, c, d, hc, hd, h5, h6⟩ := (C72_grid_range hs 1).1 (by simp)
  cases ha; cases hb; cases hc; cases hd
  exact ⟨s, hs, h1, h3, h5, ((C72_grid_range hs 2).2.1 le_rfl).1⟩

end grid

end MU
