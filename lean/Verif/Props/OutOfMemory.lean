import Verif.Lemmas.OutOfMemory
import Verif.Props.LookupTable

/-!
# C145-C147: lookup tables when memory is exhausted
-/

set_option linter.unusedSectionVars false

namespace MU

open Spec

section oneD
variable {K Y : Type} [Field K] [LinearOrder K] [AddCommGroup Y] [Module K Y]

/-- Memory is never exhausted. -/
abbrev Spec.noFailure : AllocSite → Bool := fun _ => false

theorem Interp1d.initF_noFailure (B : Build) (x : Option (List K)) (y : Option (List Y)) (s : Interp1d K Y) :
    (Interp1d.initF noFailure B x y).run s = (Interp1d.init B x y).run s := by
  unfold initF init
  rw [Act.run_bind, Act.run_bind]
  cases (initializeBase B x y).run s with
  | mk r s1 => cases r <;> rfl

/-- The model with failing allocations is the model of the other properties when no allocation fails. -/
theorem C145_no_failure (B : Build) (name : String) (Yv : List Y) (s : LookupTable1D K Y) (n : Nat) :
    (((LookupTable1D.addYF noFailure B name Yv).run (s, n)).1 = ((LookupTable1D.addY B name Yv).run s).1) ∧
    (((LookupTable1D.addYF noFailure B name Yv).run (s, n)).2.1 = ((LookupTable1D.addY B name Yv).run s).2) := by
  rw [LookupTable1D.run_addYF]
  simp only [noFailure, Bool.or_self, Bool.false_eq_true, if_false]
  cases hl : s.assoc.lookup name with
  | some i => rw [LookupTable1D.run_addY_dup B s hl]; simp
  | none =>
    rw [LookupTable1D.run_addY_new B s hl]
    simp only [if_true, LookupTable1D.tailF]
    rw [Act.run_bind, Act.run_lift, Act.run_bind, Act.run_lift]
    cases s.interp_method with
    | none => simp
    | some m =>
      simp only [readVar_some]
      rw [Act.run_bind, Act.run_lift, Act.run_bind, Act.run_lift]
      cases Interp1d.make m with
      | ok kind =>
        simp only
        rw [run_alloc_bind]
        simp only [Bool.false_eq_true, if_false, Interp1d.initF_noFailure]
        rw [Act.run_bind_ok (Act.run_update _ _), Act.run_bind, Act.run_lift, Act.run_bind, Act.run_lift]
        cases ((Interp1d.init B s.Xcoords (some Yv)).run (Interp1d.fresh K Y)).1 with
        | ok u =>
          simp only
          rw [run_alloc_bind]
          exact ⟨rfl, rfl⟩
        | _ => exact ⟨rfl, rfl⟩
      | _ => exact ⟨rfl, rfl⟩

/-- C145, setting the abscissae: either `SetX` returns and the abscissae are the new ones, or `std::bad_alloc` leaves it and the table is as
before. -/
theorem C145_set_x (fail : AllocSite → Bool) (X : List K) (s : LookupTable1D K Y) (n : Nat) :
    (LookupTable1D.setXF fail X).run (s, n) = (.ok (), ({ s with Xcoords := some X }, n)) ∨
    (LookupTable1D.setXF fail X).run (s, n) = (.throws .badAlloc, (s, n)) := by
  rw [LookupTable1D.run_setXF]
  split
  · exact Or.inr rfl
  · exact Or.inl rfl

/-- C145 (only for the values already available): whatever calls are made on a table and whatever allocations fail in them, if the client catches the
exceptions, a value that the table gave before is still given after. -/
theorem C145_values_stay_partial (B : Build) (calls : List (LookupTable1D.Op K Y × (AllocSite → Bool))) {s s' : LookupTable1D K Y} {n n' : Nat}
    (hrun : (LookupTable1D.execAllF B calls).run (s, n) = (.ok (), (s', n'))) {name : String} {x : K} {v : Y}
    (hv : s.eval name x = .ok v) : s'.eval name x = .ok v := by
  obtain ⟨⟨t, ht⟩, ⟨l, hl⟩, -⟩ := LookupTable1D.execAllF_grows hrun
  simp only [LookupTable1D.eval, LookupTable1D.getIndex, assocAt] at hv ⊢
  cases hlk : s.assoc.lookup name with
  | none => rw [hlk] at hv; simp at hv
  | some i =>
    rw [hlk] at hv
    rw [ht, lookup_append_some hlk]
    simp only [Res.ok_bind] at hv ⊢
    cases ho : s.interpolators[i]? with
    | none => simp [vAt, ho] at hv
    | some o =>
      have : i < s.interpolators.length := by
        by_contra hc; rw [List.getElem?_eq_none (by omega)] at ho; simp at ho
      simp only [vAt, ho, Res.ok_bind] at hv
      simp only [vAt, hl, List.getElem?_append_left this, ho, Res.ok_bind, hv]

/-- C145 (only for the series loaded before): a table loaded without failure, then any calls in which any allocations fail. Each series loaded before still is
its own interpolation, at every point, outside of the range too. -/
theorem C145_loaded_partial (B : Build) (m : InterpMethod) (ops : List (LookupTable1D.Op K Y)) {s s' : LookupTable1D K Y}
    (hload : (LookupTable1D.execAll B ops).run (LookupTable1D.new K Y m) = (.ok (), s))
    (calls : List (LookupTable1D.Op K Y × (AllocSite → Bool))) {n n' : Nat}
    (hrun : (LookupTable1D.execAllF B calls).run (s, n) = (.ok (), (s', n'))) {name : String} {X : List K} {Yv : List Y}
    (hreg : (Lut1.after ops).series.lookup name = some (X, Yv)) (x : K) : s'.eval name x = interp1d B m X Yv x := by
  have h := (LookupTable1D.Rep.new (K := K) (Y := Y) B m).execAll hload
  rw [show ops.foldl Lut1.step Lut1.empty = Lut1.after ops from rfl] at h
  obtain ⟨⟨t, ht⟩, ⟨l, hl⟩, -⟩ := LookupTable1D.execAllF_grows hrun
  obtain ⟨kind, i, hk, h1, h2, h3⟩ := h.eval_some hreg
  have : i < s.interpolators.length := by
    by_contra hc; rw [List.getElem?_eq_none (by omega)] at h2; simp at h2
  simp only [LookupTable1D.buildRun] at h2 h3
  simp only [LookupTable1D.eval, LookupTable1D.getIndex, assocAt, ht, lookup_append_some h1, Res.ok_bind, vAt, hl,
    List.getElem?_append_left this, h2, interp1d, hk, h3]

/-- C145 (only for the first allocations): when the arguments, the pair or the map entry cannot be allocated, `std::bad_alloc` leaves `AddY` and the table is
exactly as before. -/
theorem C145_early_failure_partial (fail : AllocSite → Bool) (B : Build) (name : String) (Yv : List Y) (s : LookupTable1D K Y) (n : Nat)
    (hf : fail .arguments = true ∨ fail .pair = true ∨ fail .node = true) :
    (LookupTable1D.addYF fail B name Yv).run (s, n) = (.throws .badAlloc, (s, n)) := by
  rw [LookupTable1D.run_addYF, if_pos]
  rcases hf with h | h | h <;> simp [h]

/-- What really happens when a later allocation fails (1): the name is taken although there are no data for it. Trying again, with enough memory, returns `false` and
adds nothing. -/
theorem C145_retry_is_refused (fail : AllocSite → Bool) (B : Build) {name : String} {Yv : List Y} {s s1 : LookupTable1D K Y} {n n1 : Nat} {e : Exn}
    (hearly : fail .arguments = false ∧ fail .pair = false ∧ fail .node = false)
    (hfail : (LookupTable1D.addYF fail B name Yv).run (s, n) = (.throws e, (s1, n1))) (Y2 : List Y) :
    (LookupTable1D.addYF noFailure B name Y2).run (s1, n1) = (.ok false, (s1, n1)) := by
  have hreg : s1.assoc.lookup name ≠ none := by
    rw [LookupTable1D.run_addYF, if_neg (by simp [hearly])] at hfail
    split at hfail
    · rename_i hl
      split at hfail
      · simp only [Prod.mk.injEq] at hfail
        rw [← hfail.2.1]
        simp only
        rw [lookup_append_same hl]; simp
      · rcases LookupTable1D.run_tailF hfail with ⟨m, kind, -, -, h, -⟩ | ⟨-, rfl, -⟩
        · simp at h
        · simp only
          rw [lookup_append_same hl]; simp
    · simp at hfail
  rw [LookupTable1D.run_addYF]
  simp [hreg]

/-- What really happens when a later allocation fails (2): when the copy of the data cannot be allocated, the name of the series that failed evaluates, after the
next series has been added, to the values of this other series. -/
theorem C145_alias {fail : AllocSite → Bool} (B : Build) {m : InterpMethod} (ops : List (LookupTable1D.Op K Y)) {s s1 s2 : LookupTable1D K Y} {n n1 n2 : Nat}
    (hload : (LookupTable1D.execAll B ops).run (LookupTable1D.new K Y m) = (.ok (), s)) {name name2 : String} {Yv Y2 : List Y}
    (hearly : fail .arguments = false ∧ fail .pair = false ∧ fail .node = false) (hlate : fail .makeShared = true ∨ fail .pushData = true)
    (hnew : (Lut1.after ops).series.lookup name = none)
    (hfail : (LookupTable1D.addYF fail B name Yv).run (s, n) = (.throws .badAlloc, (s1, n1)))
    (hok : (LookupTable1D.addYF noFailure B name2 Y2).run (s1, n1) = (.ok true, (s2, n2))) (x : K) :
    s2.eval name x = s2.eval name2 x ∧ ∃ X, (Lut1.after ops).X = some X ∧ s2.eval name x = interp1d B m X Y2 x := by
  have h := (LookupTable1D.Rep.new (K := K) (Y := Y) B m).execAll hload
  rw [show ops.foldl Lut1.step Lut1.empty = Lut1.after ops from rfl] at h
  have hl : s.assoc.lookup name = none := by rw [h.assoc, indexMap_lookup_none]; exact hnew
  have hlen : s.Ydata.length = s.interpolators.length := by
    obtain ⟨kind, -, ho⟩ := h.objs
    rw [h.ydata, ho]; simp
  have hs1 : s1 = { s with assoc := s.assoc ++ [(name, s.Ydata.length)] } := by
    rw [LookupTable1D.run_addYF, if_neg (by simp [hearly]), if_pos hl, if_pos (by rcases hlate with h | h <;> simp [h])] at hfail
    simp only [Prod.mk.injEq] at hfail
    exact hfail.2.1.symm
  rw [LookupTable1D.run_addYF] at hok
  simp only [noFailure, Bool.or_self, Bool.false_eq_true, if_false] at hok
  split at hok
  · rename_i hl2
    rcases LookupTable1D.run_tailF hok with ⟨m', kind, hm, hk, -, -, hi, hs2⟩ | ⟨hc, -⟩
    · rw [Interp1d.initF_noFailure] at hi hs2
      have hm' : m' = m := by
        rw [hs1] at hm; simp only [h.method, Option.some.injEq] at hm; exact hm.symm
      subst hm'
      have hX : ∃ X, (Lut1.after ops).X = some X := by
        cases hX : (Lut1.after ops).X with
        | some X => exact ⟨X, rfl⟩
        | none =>
          rw [hs1] at hi
          simp [h.X, hX, Interp1d.init, Interp1d.initializeBase, Act.run_bind] at hi
      obtain ⟨X, hX⟩ := hX
      have e0 : s1.Xcoords = some X := by rw [hs1]; simp only [h.X, hX]
      rw [e0] at hi hs2
      have e1 : s2.interpolators = s.interpolators ++
          [(kind, ((Interp1d.init B (some X) (some Y2)).run (Interp1d.fresh K Y)).2)] := by rw [hs2, hs1]
      have e2 : s2.assoc = (s.assoc ++ [(name, s.Ydata.length)]) ++ [(name2, s.Ydata.length)] := by rw [hs2, hs1]
      have f1 : s2.assoc.lookup name = some s.Ydata.length := by rw [e2, lookup_append_some (lookup_append_same hl)]
      have f2 : s2.assoc.lookup name2 = some s.Ydata.length := by
        rw [e2, lookup_append_same (by rw [hs1] at hl2; exact hl2)]
      have g : s2.interpolators[s.Ydata.length]? =
          some (kind, ((Interp1d.init B (some X) (some Y2)).run (Interp1d.fresh K Y)).2) := by
        rw [e1, hlen, List.getElem?_append_right (le_refl _)]; simp
      refine ⟨by simp only [LookupTable1D.eval, LookupTable1D.getIndex, assocAt, f1, f2], X, hX, ?_⟩
      simp only [LookupTable1D.eval, LookupTable1D.getIndex, assocAt, f1, Res.ok_bind, vAt, g, interp1d, hk, hi]
    · simp [Res.isOk] at hc
  · simp at hok

/-- What really happens when a later allocation fails (3): when the interpolator cannot be allocated, or its coefficients, or its place in the table, then, after the
next series has been added, the name of the series that failed evaluates to the values of this other series, and the name of this other series is out of
range. -/
theorem C145_shift {fail : AllocSite → Bool} (B : Build) {m : InterpMethod} (ops : List (LookupTable1D.Op K Y)) {s s1 s2 : LookupTable1D K Y} {n n1 n2 : Nat}
    (hload : (LookupTable1D.execAll B ops).run (LookupTable1D.new K Y m) = (.ok (), s)) {name name2 : String} {Yv Y2 : List Y}
    (hearly : fail .arguments = false ∧ fail .pair = false ∧ fail .node = false) (hlate : fail .makeShared = false ∧ fail .pushData = false)
    (hnew : (Lut1.after ops).series.lookup name = none)
    (hfail : (LookupTable1D.addYF fail B name Yv).run (s, n) = (.throws .badAlloc, (s1, n1)))
    (hok : (LookupTable1D.addYF noFailure B name2 Y2).run (s1, n1) = (.ok true, (s2, n2))) (x : K) :
    s2.eval name2 x = .throws .outOfRange ∧ ∃ X, (Lut1.after ops).X = some X ∧ s2.eval name x = interp1d B m X Y2 x := by
  have h := (LookupTable1D.Rep.new (K := K) (Y := Y) B m).execAll hload
  rw [show ops.foldl Lut1.step Lut1.empty = Lut1.after ops from rfl] at h
  have hl : s.assoc.lookup name = none := by rw [h.assoc, indexMap_lookup_none]; exact hnew
  have hlen : s.Ydata.length = s.interpolators.length := by
    obtain ⟨kind, -, ho⟩ := h.objs
    rw [h.ydata, ho]; simp
  have hs1 : s1 = { s with assoc := s.assoc ++ [(name, s.Ydata.length)], Ydata := s.Ydata ++ [Yv] } := by
    rw [LookupTable1D.run_addYF, if_neg (by simp [hearly]), if_pos hl, if_neg (by simp [hlate])] at hfail
    rcases LookupTable1D.run_tailF hfail with ⟨m, kind, -, -, h, -⟩ | ⟨-, h, -⟩
    · simp at h
    · exact h
  rw [LookupTable1D.run_addYF] at hok
  simp only [noFailure, Bool.or_self, Bool.false_eq_true, if_false] at hok
  split at hok
  · rename_i hl2
    rcases LookupTable1D.run_tailF hok with ⟨m', kind, hm, hk, -, -, hi, hs2⟩ | ⟨hc, -⟩
    · rw [Interp1d.initF_noFailure] at hi hs2
      have hm' : m' = m := by
        rw [hs1] at hm; simp only [h.method, Option.some.injEq] at hm; exact hm.symm
      subst hm'
      have hX : ∃ X, (Lut1.after ops).X = some X := by
        cases hX : (Lut1.after ops).X with
        | some X => exact ⟨X, rfl⟩
        | none =>
          rw [hs1] at hi
          simp [h.X, hX, Interp1d.init, Interp1d.initializeBase, Act.run_bind] at hi
      obtain ⟨X, hX⟩ := hX
      have e0 : s1.Xcoords = some X := by rw [hs1]; simp only [h.X, hX]
      rw [e0] at hi hs2
      have e1 : s2.interpolators = s.interpolators ++
          [(kind, ((Interp1d.init B (some X) (some Y2)).run (Interp1d.fresh K Y)).2)] := by rw [hs2, hs1]
      have e2 : s2.assoc = (s.assoc ++ [(name, s.Ydata.length)]) ++ [(name2, s.Ydata.length + 1)] := by rw [hs2, hs1]; simp
      have f1 : s2.assoc.lookup name = some s.Ydata.length := by rw [e2, lookup_append_some (lookup_append_same hl)]
      have f2 : s2.assoc.lookup name2 = some (s.Ydata.length + 1) := by
        rw [e2, lookup_append_same (by rw [hs1] at hl2; exact hl2)]
      have g : s2.interpolators[s.Ydata.length]? =
          some (kind, ((Interp1d.init B (some X) (some Y2)).run (Interp1d.fresh K Y)).2) := by
        rw [e1, hlen, List.getElem?_append_right (le_refl _)]; simp
      refine ⟨?_, X, hX, ?_⟩
      · simp only [LookupTable1D.eval, LookupTable1D.getIndex, assocAt, f2, Res.ok_bind]
        rw [vAt_ge (by rw [e1]; simp [hlen])]
        rfl
      simp only [LookupTable1D.eval, LookupTable1D.getIndex, assocAt, f1, Res.ok_bind, vAt, g, interp1d, hk, hi]
    · simp [Res.isOk] at hc
  · simp at hok

/-- The table after a call of `AddY` that failed at a later allocation. -/
theorem late_failure {fail : AllocSite → Bool} {B : Build} {name : String} {Yv : List Y} {s s1 : LookupTable1D K Y} {n n1 : Nat} {e : Exn}
    (hearly : fail .arguments = false ∧ fail .pair = false ∧ fail .node = false)
    (hfail : (LookupTable1D.addYF fail B name Yv).run (s, n) = (.throws e, (s1, n1))) :
    s.assoc.lookup name = none ∧ s1.assoc = s.assoc ++ [(name, s.Ydata.length)] ∧ s1.interpolators = s.interpolators := by
  rw [LookupTable1D.run_addYF, if_neg (by simp [hearly])] at hfail
  split at hfail
  · rename_i hl
    refine ⟨hl, ?_⟩
    split at hfail
    · simp only [Prod.mk.injEq] at hfail
      rw [← hfail.2.1]
      exact ⟨rfl, rfl⟩
    · rcases LookupTable1D.run_tailF hfail with ⟨m, kind, -, -, h, -⟩ | ⟨-, rfl, -⟩
      · simp at h
      · exact ⟨rfl, rfl⟩
  · simp at hfail

theorem evalAll_ub {s : LookupTable1D K Y} {x : K} {order : List (String × Nat)}
    (hall : ∀ e ∈ order, s.interpolators.length ≤ e.2 ∨ ∃ o v, s.interpolators[e.2]? = some o ∧ Interp1d.eval o.1 o.2 x = .ok v)
    (hbad : ∃ e ∈ order, s.interpolators.length ≤ e.2) : s.evalAll x order = .ub := by
  induction order with
  | nil => simp at hbad
  | cons e rest ih =>
    obtain ⟨nm, idx⟩ := e
    rw [LookupTable1D.evalAll]
    rcases hall (nm, idx) (by simp) with hge | ⟨o, v, ho, hv⟩
    · rw [vIdx_ge hge]; rfl
    · have hlt : idx < s.interpolators.length := by
        by_contra hc; rw [List.getElem?_eq_none (by simpa using hc)] at ho; simp at ho
      have hrest : ∃ e ∈ rest, s.interpolators.length ≤ e.2 := by
        obtain ⟨e, he, hle⟩ := hbad
        rcases List.mem_cons.mp he with rfl | he
        · simp only at hle; omega
        · exact ⟨e, he, hle⟩
      have hv' : vIdx s.interpolators idx = .ok o := by simp only [vIdx, ho]
      rw [hv', Res.ok_bind, hv, Res.ok_bind, ih (fun e he => hall e (List.mem_cons_of_mem _ he)) hrest]
      rfl

/-- What really happens when a later allocation fails (4): evaluating all the series of the table afterwards, which works before the failed call, is
undefined behaviour: the entry of the failed series refers to an interpolator that does not exist. -/
theorem C145_eval_all_undefined [IsStrictOrderedRing K] {fail : AllocSite → Bool} (B : Build) {m : InterpMethod} (ops : List (LookupTable1D.Op K Y))
    {s s1 : LookupTable1D K Y} {n n1 : Nat} (hload : (LookupTable1D.execAll B ops).run (LookupTable1D.new K Y m) = (.ok (), s))
    {name : String} {Yv : List Y} {e : Exn}
    (hearly : fail .arguments = false ∧ fail .pair = false ∧ fail .node = false)
    (hfail : (LookupTable1D.addYF fail B name Yv).run (s, n) = (.throws e, (s1, n1))) (x : K)
    (hok : ∀ name', (Lut1.after ops).series.lookup name' ≠ none → (s.eval name' x).isOk = true)
    (order : List (String × Nat)) (hord : order.Perm s1.assoc) : s1.evalAll x order = .ub := by
  have h := (LookupTable1D.Rep.new (K := K) (Y := Y) B m).execAll hload
  rw [show ops.foldl Lut1.step Lut1.empty = Lut1.after ops from rfl] at h
  obtain ⟨hl, ha, hi⟩ := late_failure hearly hfail
  have hlen : s.Ydata.length = s.interpolators.length := by
    obtain ⟨kind, -, ho⟩ := h.objs
    rw [h.ydata, ho]; simp
  have hnd : (s.assoc.map Prod.fst).Nodup := by rw [h.assoc, indexMap_fst]; exact Lut1.names_nodup ops
  refine evalAll_ub ?_ ⟨(name, s.Ydata.length), hord.mem_iff.mpr (by rw [ha]; simp), by rw [hi, hlen]⟩
  intro e he
  obtain ⟨nm, idx⟩ := e
  have he := hord.mem_iff.mp he
  rw [ha] at he
  rcases List.mem_append.mp he with he | he
  · right
    have hlk := lookup_nodup_mem hnd he
    have hreg : (Lut1.after ops).series.lookup nm ≠ none := by
      intro hc
      rw [← indexMap_lookup_none _ _ 0, ← h.assoc, hlk] at hc
      simp at hc
    have hv := hok nm hreg
    simp only [LookupTable1D.eval, LookupTable1D.getIndex, assocAt, hlk, Res.ok_bind] at hv
    rw [hi]
    cases ho : s.interpolators[idx]? with
    | none => simp [vAt, ho, Res.isOk] at hv
    | some o =>
      simp only [vAt, ho, Res.ok_bind] at hv
      cases hr : Interp1d.eval o.1 o.2 x with
      | ok v => exact ⟨o, v, rfl, hr⟩
      | _ => rw [hr] at hv; simp [Res.isOk] at hv
  · left
    simp only [List.mem_singleton, Prod.mk.injEq] at he
    rw [hi, he.2, hlen]

/-- Memory is exhausted at one allocation, and only there. -/
abbrev Spec.failAt (site : AllocSite) : AllocSite → Bool := fun p => decide (p = site)

/-- C145 is refuted: a call of `AddY` that runs out of memory does change the table. When the copy of the data cannot be allocated, the name is known
afterwards, which shows in the result of the next call. -/
theorem C145_refuted : ¬ (∀ (s s1 : LookupTable1D ℚ ℚ) (n n1 : Nat) (name : String) (Yv : List ℚ) (fail : AllocSite → Bool),
    (LookupTable1D.execAll ⟨true⟩ [.setX [0, 1]]).run (LookupTable1D.new ℚ ℚ .LINEAR) = (.ok (), s) →
    (LookupTable1D.addYF fail ⟨true⟩ name Yv).run (s, n) = (.throws .badAlloc, (s1, n1)) →
    ((LookupTable1D.addYF noFailure ⟨true⟩ name Yv).run (s1, n1)).1 = ((LookupTable1D.addYF noFailure ⟨true⟩ name Yv).run (s, n)).1) := by
  intro h
  have hf : (LookupTable1D.addYF (failAt .makeShared) ⟨true⟩ "a" [3, 4]).run
      ({ LookupTable1D.new ℚ ℚ .LINEAR with Xcoords := some [0, 1] }, 0) =
      (.throws .badAlloc, ({ LookupTable1D.new ℚ ℚ .LINEAR with Xcoords := some [0, 1], assoc := [("a", 0)] }, 0)) := by
    rw [LookupTable1D.run_addYF]
    simp [LookupTable1D.new, failAt]
  have h1 := h _ _ 0 0 "a" [3, 4] (failAt .makeShared) rfl hf
  rw [C145_retry_is_refused (failAt .makeShared) ⟨true⟩ (by simp [failAt]) hf [3, 4], (C145_no_failure _ _ _ _ _).1,
    LookupTable1D.run_addY_new _ _ (by simp [LookupTable1D.new])] at h1
  have i2 := Interp1d.run_init ⟨true⟩ (xs := ([0, 1] : List ℚ)) (ys := ([3, 4] : List ℚ)) (by simp) rfl (by simp)
    (Interp1d.fresh ℚ ℚ)
  simp [LookupTable1D.new, Interp1d.make, i2, Act.run_bind] at h1

/-- A table with one series, on which `AddY("b", …)` runs out of memory at the copy of the data, then `AddY("c", …)` succeeds: `"a"` is intact, `"b"` is `"c"`. -/
example : ∃ s s1 s2 : LookupTable1D ℚ ℚ,
    (LookupTable1D.execAll ⟨true⟩ [.setX [0, 1], .addY "a" [3, 4]]).run (LookupTable1D.new ℚ ℚ .LINEAR) = (.ok (), s) ∧
    (LookupTable1D.addYF (failAt .makeShared) ⟨true⟩ "b" [5, 6]).run (s, 0) = (.throws .badAlloc, (s1, 0)) ∧
    (LookupTable1D.addYF noFailure ⟨true⟩ "c" [7, 8]).run (s1, 0) = (.ok true, (s2, 0)) ∧
    s2.eval "a" 1 = .ok 4 ∧ s2.eval "b" 1 = .ok 8 ∧ s2.eval "c" 1 = .ok 8 := by
  have i1 := Interp1d.run_init ⟨true⟩ (xs := ([0, 1] : List ℚ)) (ys := ([3, 4] : List ℚ)) (by simp) rfl (by simp)
    (Interp1d.fresh ℚ ℚ)
  have i2 := Interp1d.run_init ⟨true⟩ (xs := ([0, 1] : List ℚ)) (ys := ([7, 8] : List ℚ)) (by simp) rfl (by simp)
    (Interp1d.fresh ℚ ℚ)
  obtain ⟨s, hs⟩ : ∃ s, (LookupTable1D.execAll ⟨true⟩ [.setX [0, 1], .addY "a" [3, 4]]).run (LookupTable1D.new ℚ ℚ .LINEAR) = (.ok (), s) := by
    refine Act.run_exists ?_
    simp [LookupTable1D.execAll, LookupTable1D.exec, LookupTable1D.setX, LookupTable1D.addY, LookupTable1D.new, Act.run_bind,
      assocInsert, Interp1d.make, i1, LookupTable1D.getNbSeries]
  have h : LookupTable1D.Rep ⟨true⟩ .LINEAR s (Lut1.after [.setX [0, 1], .addY "a" [3, 4]] : Lut1 ℚ ℚ) :=
    (LookupTable1D.Rep.new (K := ℚ) (Y := ℚ) ⟨true⟩ .LINEAR).execAll hs
  have hser : (Lut1.after [.setX [0, 1], .addY "a" [3, 4]] : Lut1 ℚ ℚ).series = [("a", ([0, 1], [3, 4]))] := by
    simp [Lut1.after, Lut1.step, Lut1.empty]
  have hX : (Lut1.after [.setX [0, 1], .addY "a" [3, 4]] : Lut1 ℚ ℚ).X = some [0, 1] := by
    simp [Lut1.after, Lut1.step, Lut1.empty]
  have hb : s.assoc.lookup "b" = none := by
    rw [h.assoc, indexMap_lookup_none, hser]; decide
  have hf : (LookupTable1D.addYF (failAt .makeShared) ⟨true⟩ "b" [5, 6]).run (s, 0) =
      (.throws .badAlloc, ({ s with assoc := s.assoc ++ [("b", s.Ydata.length)] }, 0)) := by
    rw [LookupTable1D.run_addYF, if_pos hb]
    simp [failAt]
  have hc : (s.assoc ++ [("b", s.Ydata.length)]).lookup "c" = none := by
    rw [lookup_append_other (by decide), h.assoc, indexMap_lookup_none, hser]; decide
  obtain ⟨s2, h2⟩ : ∃ s2, (LookupTable1D.addYF noFailure ⟨true⟩ "c" [7, 8]).run
      ({ s with assoc := s.assoc ++ [("b", s.Ydata.length)] }, 0) = (.ok true, (s2, 0)) := by
    rw [LookupTable1D.run_addYF]
    simp only [noFailure, Bool.or_self, Bool.false_eq_true, if_false, hc, if_true, LookupTable1D.tailF, h.method, readVar_some]
    rw [Act.run_lift_ok_bind, Interp1d.make, Act.run_lift_ok_bind, run_alloc_bind]
    simp only [Bool.false_eq_true, if_false, Interp1d.initF_noFailure, h.X, hX, i2]
    rw [Act.run_bind_ok (Act.run_update _ _), Act.run_lift_ok_bind, run_alloc_bind]
    exact ⟨_, rfl⟩
  have t1 : Table ([0, 1] : List ℚ) ([3, 4] : List ℚ) := ⟨by simp, by simp, rfl⟩
  have t2 : Table ([0, 1] : List ℚ) ([7, 8] : List ℚ) := ⟨by simp, by simp, rfl⟩
  have v1 := C01_node ⟨true⟩ (m := .LINEAR) (by simp) t1 (i := 1) (by simp) (by simp)
  have v2 := C01_node ⟨true⟩ (m := .LINEAR) (by simp) t2 (i := 1) (by simp) (by simp)
  obtain ⟨e1, X, hX', e2⟩ := C145_alias ⟨true⟩ _ hs (by simp [failAt]) (by simp [failAt]) (by rw [hser]; decide) hf h2 1
  rw [hX] at hX'
  simp only [Option.some.injEq] at hX'
  subst hX'
  have ea := C145_loaded_partial ⟨true⟩ .LINEAR _ hs [(.addY "b" [5, 6], failAt .makeShared), (.addY "c" [7, 8], noFailure)]
    (n := 0) (n' := 0) (s' := s2) (by
      rw [LookupTable1D.execAllF, Act.run_bind_ok (run_caught_of_throws (by
        simp only [LookupTable1D.execF, Act.run_bind, hf]; rfl)), LookupTable1D.execAllF, Act.run_bind_ok (run_caught_of_ok (by
        simp only [LookupTable1D.execF, Act.run_bind, h2]; rfl))]
      rfl) (name := "a") (X := [0, 1]) (Yv := [3, 4]) (by rw [hser]; decide) 1
  refine ⟨s, _, s2, hs, hf, h2, ?_, ?_, ?_⟩
  · rw [ea]; simpa using v1
  · rw [e2]; simpa using v2
  · rw [← e1, e2]; simpa using v2

end oneD

section twoD
variable {K : Type} [Field K] [LinearOrder K]

/-- A successful `Initialize` had coordinates. -/
theorem coords_of_init {B : Build} {x y d : Option (List K)} {s : Interp2d K} (h : ((Interp2d.init B x y d).run s).1 = .ok ()) :
    ∃ X Y, x = some X ∧ y = some Y := by
  cases x with
  | none => simp [Interp2d.init, Interp2d.initializeBase, Act.run_bind] at h
  | some X =>
    cases y with
    | some Y => exact ⟨X, Y, rfl, rfl⟩
    | none =>
      by_cases hXs : (B.checked = true → X.Pairwise (· ≤ ·))
      · simp [Interp2d.init, Interp2d.initializeBase, Act.run_bind, cassert_eq_ok.mpr hXs] at h
      · have : cassert B (X.Pairwise (· ≤ ·)) = .aborts := by
          unfold cassert; rw [if_pos]; simpa using hXs
        simp [Interp2d.init, Interp2d.initializeBase, Act.run_bind, this] at h

theorem Interp2d.initF_noFailure (B : Build) (x y d : Option (List K)) (s : Interp2d K) :
    (Interp2d.initF noFailure B x y d).run s = (Interp2d.init B x y d).run s := by
  unfold initF init
  rw [Act.run_bind, Act.run_bind]
  cases (initializeBase B x y d).run s with
  | mk r s1 => cases r <;> rfl

/-- The model with failing allocations is the model of the other properties when no allocation fails. -/
theorem C146_no_failure (B : Build) (name : String) (d : List K) (s : LookupTable2d K) (n : Nat) :
    (((LookupTable2d.addDataF noFailure B name d).run (s, n)).1 = ((LookupTable2d.addData B name d).run s).1) ∧
    (((LookupTable2d.addDataF noFailure B name d).run (s, n)).2.1 = ((LookupTable2d.addData B name d).run s).2) := by
  rw [LookupTable2d.run_addDataF]
  simp only [noFailure, Bool.or_self, Bool.false_eq_true, if_false]
  cases hl : s.assoc.lookup name with
  | some i => rw [LookupTable2d.run_addData_dup B s hl]; simp
  | none =>
    rw [LookupTable2d.run_addData_new B s hl]
    simp only [if_true, LookupTable2d.tailF]
    rw [Act.run_bind, Act.run_lift, Act.run_bind, Act.run_lift]
    cases hk : Interp2d.make K s.interp_method with
    | ok o =>
      simp only
      rw [run_alloc_bind]
      simp only [Bool.false_eq_true, if_false, Interp2d.initF_noFailure]
      rw [Act.run_bind_ok (Act.run_update _ _), Act.run_bind, Act.run_lift, Act.run_bind, Act.run_lift]
      cases ((Interp2d.init B s.Xcoords s.Ycoords (some d)).run o).1 with
      | ok u =>
        simp only
        rw [run_alloc_bind]
        exact ⟨rfl, rfl⟩
      | _ => exact ⟨rfl, rfl⟩
    | _ => exact ⟨rfl, rfl⟩

/-- C146, setting the abscissae: either `SetX` returns and the abscissae are the new ones, or `std::bad_alloc` leaves it and the table is as
before. -/
theorem C146_set_x (fail : AllocSite → Bool) (X : List K) (s : LookupTable2d K) (n : Nat) :
    (LookupTable2d.setXF fail X).run (s, n) = (.ok (), ({ s with Xcoords := some X }, n)) ∨
    (LookupTable2d.setXF fail X).run (s, n) = (.throws .badAlloc, (s, n)) := by
  rw [LookupTable2d.run_setXF]
  split
  · exact Or.inr rfl
  · exact Or.inl rfl

/-- C146, setting the ordinates: either `SetY` returns and they are the new ones, or `std::bad_alloc` leaves it and the table is as
before. -/
theorem C146_set_y (fail : AllocSite → Bool) (Y : List K) (s : LookupTable2d K) (n : Nat) :
    (LookupTable2d.setYF fail Y).run (s, n) = (.ok (), ({ s with Ycoords := some Y }, n)) ∨
    (LookupTable2d.setYF fail Y).run (s, n) = (.throws .badAlloc, (s, n)) := by
  rw [LookupTable2d.run_setYF]
  split
  · exact Or.inr rfl
  · exact Or.inl rfl

/-- C146 (only for the values already available): whatever calls are made on a table and whatever allocations fail in them, if the client catches the
exceptions, a value that the table gave before is still given after. -/
theorem C146_values_stay_partial (B : Build) (calls : List (LookupTable2d.Op K × (AllocSite → Bool))) {s s' : LookupTable2d K} {n n' : Nat}
    (hrun : (LookupTable2d.execAllF B calls).run (s, n) = (.ok (), (s', n'))) {name : String} {x y v : K}
    (hv : s.eval B name x y = .ok v) : s'.eval B name x y = .ok v := by
  obtain ⟨⟨t, ht⟩, ⟨l, hl⟩⟩ := LookupTable2d.execAllF_grows hrun
  simp only [LookupTable2d.eval, LookupTable2d.getIndex, assocAt] at hv ⊢
  cases hlk : s.assoc.lookup name with
  | none => rw [hlk] at hv; simp at hv
  | some i =>
    rw [hlk] at hv
    rw [ht, lookup_append_some hlk]
    simp only [Res.ok_bind] at hv ⊢
    cases ho : s.interpolators[i]? with
    | none => simp [vAt, ho] at hv
    | some o =>
      have : i < s.interpolators.length := by
        by_contra hc; rw [List.getElem?_eq_none (by omega)] at ho; simp at ho
      simp only [vAt, ho, Res.ok_bind] at hv
      simp only [vAt, hl, List.getElem?_append_left this, ho, Res.ok_bind, hv]

/-- C146 (only for the series loaded before): a table loaded without failure, then any calls in which any allocations fail. Each series loaded before still is
its own interpolation, at every point, outside of the range too. -/
theorem C146_loaded_partial (B : Build) (ops : List (LookupTable2d.Op K)) {s s' : LookupTable2d K}
    (hload : (LookupTable2d.execAll B ops).run (LookupTable2d.new K) = (.ok (), s))
    (calls : List (LookupTable2d.Op K × (AllocSite → Bool))) {n n' : Nat}
    (hrun : (LookupTable2d.execAllF B calls).run (s, n) = (.ok (), (s', n'))) {name : String} {X Y d : List K}
    (hreg : (Lut2.after ops).series.lookup name = some (X, Y, d)) (x y : K) : s'.eval B name x y = interp2d B .LINEAR X Y d x y := by
  have h := (LookupTable2d.Rep.new (K := K) B).execAll hload
  rw [show ops.foldl Lut2.step Lut2.empty = Lut2.after ops from rfl] at h
  obtain ⟨⟨t, ht⟩, ⟨l, hl⟩⟩ := LookupTable2d.execAllF_grows hrun
  obtain ⟨i, h1, h2, h3⟩ := h.eval_some hreg
  have : i < s.interpolators.length := by
    by_contra hc; rw [List.getElem?_eq_none (by omega)] at h2; simp at h2
  simp only [LookupTable2d.buildRun] at h2 h3
  simp only [LookupTable2d.eval, LookupTable2d.getIndex, assocAt, ht, lookup_append_some h1, Res.ok_bind, vAt, hl,
    List.getElem?_append_left this, h2, interp2d, Interp2d.make, h3]

/-- C146 (only for the first allocations): when the arguments, the pair or the map entry cannot be allocated, `std::bad_alloc` leaves `AddData` and the table is
exactly as before. -/
theorem C146_early_failure_partial (fail : AllocSite → Bool) (B : Build) (name : String) (d : List K) (s : LookupTable2d K) (n : Nat)
    (hf : fail .arguments = true ∨ fail .pair = true ∨ fail .node = true) :
    (LookupTable2d.addDataF fail B name d).run (s, n) = (.throws .badAlloc, (s, n)) := by
  rw [LookupTable2d.run_addDataF, if_pos]
  rcases hf with h | h | h <;> simp [h]

/-- What really happens when a later allocation fails (1): the name is taken although there are no data for it. Trying again, with enough memory, returns `false` and
adds nothing. -/
theorem C146_retry_is_refused (fail : AllocSite → Bool) (B : Build) {name : String} {d : List K} {s s1 : LookupTable2d K} {n n1 : Nat} {e : Exn}
    (hearly : fail .arguments = false ∧ fail .pair = false ∧ fail .node = false)
    (hfail : (LookupTable2d.addDataF fail B name d).run (s, n) = (.throws e, (s1, n1))) (d2 : List K) :
    (LookupTable2d.addDataF noFailure B name d2).run (s1, n1) = (.ok false, (s1, n1)) := by
  have hreg : s1.assoc.lookup name ≠ none := by
    rw [LookupTable2d.run_addDataF, if_neg (by simp [hearly])] at hfail
    split at hfail
    · rename_i hl
      split at hfail
      · simp only [Prod.mk.injEq] at hfail
        rw [← hfail.2.1]
        simp only
        rw [lookup_append_same hl]; simp
      · rcases LookupTable2d.run_tailF hfail with ⟨-, h, -⟩ | ⟨-, rfl, -⟩
        · simp at h
        · simp only
          rw [lookup_append_same hl]; simp
    · simp at hfail
  rw [LookupTable2d.run_addDataF]
  simp [hreg]

/-- What really happens when a later allocation fails (2): when the copy of the data cannot be allocated, the name of the series that failed evaluates, after the
next series has been added, to the values of this other series. -/
theorem C146_alias {fail : AllocSite → Bool} (B : Build) (ops : List (LookupTable2d.Op K)) {s s1 s2 : LookupTable2d K} {n n1 n2 : Nat}
    (hload : (LookupTable2d.execAll B ops).run (LookupTable2d.new K) = (.ok (), s)) {name name2 : String} {d d2 : List K}
    (hearly : fail .arguments = false ∧ fail .pair = false ∧ fail .node = false) (hlate : fail .makeShared = true ∨ fail .pushData = true)
    (hnew : (Lut2.after ops).series.lookup name = none)
    (hfail : (LookupTable2d.addDataF fail B name d).run (s, n) = (.throws .badAlloc, (s1, n1)))
    (hok : (LookupTable2d.addDataF noFailure B name2 d2).run (s1, n1) = (.ok true, (s2, n2))) (x y : K) :
    s2.eval B name x y = s2.eval B name2 x y ∧ ∃ X Y, (Lut2.after ops).X = some X ∧ (Lut2.after ops).Y = some Y ∧
      s2.eval B name x y = interp2d B .LINEAR X Y d2 x y := by
  have h := (LookupTable2d.Rep.new (K := K) B).execAll hload
  rw [show ops.foldl Lut2.step Lut2.empty = Lut2.after ops from rfl] at h
  have hl : s.assoc.lookup name = none := by rw [h.assoc, indexMap_lookup_none]; exact hnew
  have hlen : s.MData.length = s.interpolators.length := by
    rw [h.mdata, h.objs]; simp
  have hs1 : s1 = { s with assoc := s.assoc ++ [(name, s.MData.length)] } := by
    rw [LookupTable2d.run_addDataF, if_neg (by simp [hearly]), if_pos hl, if_pos (by rcases hlate with h | h <;> simp [h])] at hfail
    simp only [Prod.mk.injEq] at hfail
    exact hfail.2.1.symm
  rw [LookupTable2d.run_addDataF] at hok
  simp only [noFailure, Bool.or_self, Bool.false_eq_true, if_false] at hok
  split at hok
  · rename_i hl2
    rcases LookupTable2d.run_tailF hok with ⟨-, -, -, hi, hs2⟩ | ⟨hc, -⟩
    · rw [Interp2d.initF_noFailure] at hi hs2
      obtain ⟨X, Y, hX, hY⟩ := coords_of_init (by rw [show s1.Xcoords = s.Xcoords by rw [hs1], show s1.Ycoords = s.Ycoords by rw [hs1]] at hi; exact hi)
      rw [h.X] at hX
      rw [h.Y] at hY
      have e0 : s1.Xcoords = some X := by rw [hs1]; simp only [h.X, hX]
      have e0' : s1.Ycoords = some Y := by rw [hs1]; simp only [h.Y, hY]
      rw [e0, e0'] at hi hs2
      have e1 : s2.interpolators = s.interpolators ++
          [((Interp2d.init B (some X) (some Y) (some d2)).run (Interp2d.fresh K)).2] := by rw [hs2, hs1]
      have e2 : s2.assoc = (s.assoc ++ [(name, s.MData.length)]) ++ [(name2, s.MData.length)] := by rw [hs2, hs1]
      have f1 : s2.assoc.lookup name = some s.MData.length := by rw [e2, lookup_append_some (lookup_append_same hl)]
      have f2 : s2.assoc.lookup name2 = some s.MData.length := by
        rw [e2, lookup_append_same (by rw [hs1] at hl2; exact hl2)]
      have g : s2.interpolators[s.MData.length]? =
          some ((Interp2d.init B (some X) (some Y) (some d2)).run (Interp2d.fresh K)).2 := by
        rw [e1, hlen, List.getElem?_append_right (le_refl _)]; simp
      refine ⟨by simp only [LookupTable2d.eval, LookupTable2d.getIndex, assocAt, f1, f2], X, Y, hX, hY, ?_⟩
      simp only [LookupTable2d.eval, LookupTable2d.getIndex, assocAt, f1, Res.ok_bind, vAt, g, interp2d, Interp2d.make, hi]
    · simp [Res.isOk] at hc
  · simp at hok

/-- What really happens when a later allocation fails (3): when the interpolator cannot be allocated, or its coefficients, or its place in the table, then, after the
next series has been added, the name of the series that failed evaluates to the values of this other series, and the name of this other series is out of
range. -/
theorem C146_shift {fail : AllocSite → Bool} (B : Build) (ops : List (LookupTable2d.Op K)) {s s1 s2 : LookupTable2d K} {n n1 n2 : Nat}
    (hload : (LookupTable2d.execAll B ops).run (LookupTable2d.new K) = (.ok (), s)) {name name2 : String} {d d2 : List K}
    (hearly : fail .arguments = false ∧ fail .pair = false ∧ fail .node = false) (hlate : fail .makeShared = false ∧ fail .pushData = false)
    (hnew : (Lut2.after ops).series.lookup name = none)
    (hfail : (LookupTable2d.addDataF fail B name d).run (s, n) = (.throws .badAlloc, (s1, n1)))
    (hok : (LookupTable2d.addDataF noFailure B name2 d2).run (s1, n1) = (.ok true, (s2, n2))) (x y : K) :
    s2.eval B name2 x y = .throws .outOfRange ∧ ∃ X Y, (Lut2.after ops).X = some X ∧ (Lut2.after ops).Y = some Y ∧
      s2.eval B name x y = interp2d B .LINEAR X Y d2 x y := by
  have h := (LookupTable2d.Rep.new (K := K) B).execAll hload
  rw [show ops.foldl Lut2.step Lut2.empty = Lut2.after ops from rfl] at h
  have hl : s.assoc.lookup name = none := by rw [h.assoc, indexMap_lookup_none]; exact hnew
  have hlen : s.MData.length = s.interpolators.length := by
    rw [h.mdata, h.objs]; simp
  have hs1 : s1 = { s with assoc := s.assoc ++ [(name, s.MData.length)], MData := s.MData ++ [d] } := by
    rw [LookupTable2d.run_addDataF, if_neg (by simp [hearly]), if_pos hl, if_neg (by simp [hlate])] at hfail
    rcases LookupTable2d.run_tailF hfail with ⟨-, h, -⟩ | ⟨-, h, -⟩
    · simp at h
    · exact h
  rw [LookupTable2d.run_addDataF] at hok
  simp only [noFailure, Bool.or_self, Bool.false_eq_true, if_false] at hok
  split at hok
  · rename_i hl2
    rcases LookupTable2d.run_tailF hok with ⟨-, -, -, hi, hs2⟩ | ⟨hc, -⟩
    · rw [Interp2d.initF_noFailure] at hi hs2
      obtain ⟨X, Y, hX, hY⟩ := coords_of_init (by rw [show s1.Xcoords = s.Xcoords by rw [hs1], show s1.Ycoords = s.Ycoords by rw [hs1]] at hi; exact hi)
      rw [h.X] at hX
      rw [h.Y] at hY
      have e0 : s1.Xcoords = some X := by rw [hs1]; simp only [h.X, hX]
      have e0' : s1.Ycoords = some Y := by rw [hs1]; simp only [h.Y, hY]
      rw [e0, e0'] at hi hs2
      have e1 : s2.interpolators = s.interpolators ++
          [((Interp2d.init B (some X) (some Y) (some d2)).run (Interp2d.fresh K)).2] := by rw [hs2, hs1]
      have e2 : s2.assoc = (s.assoc ++ [(name, s.MData.length)]) ++ [(name2, s.MData.length + 1)] := by rw [hs2, hs1]; simp
      have f1 : s2.assoc.lookup name = some s.MData.length := by rw [e2, lookup_append_some (lookup_append_same hl)]
      have f2 : s2.assoc.lookup name2 = some (s.MData.length + 1) := by
        rw [e2, lookup_append_same (by rw [hs1] at hl2; exact hl2)]
      have g : s2.interpolators[s.MData.length]? =
          some ((Interp2d.init B (some X) (some Y) (some d2)).run (Interp2d.fresh K)).2 := by
        rw [e1, hlen, List.getElem?_append_right (le_refl _)]; simp
      refine ⟨?_, X, Y, hX, hY, ?_⟩
      · simp only [LookupTable2d.eval, LookupTable2d.getIndex, assocAt, f2, Res.ok_bind]
        rw [vAt_ge (by rw [e1]; simp [hlen])]
        rfl
      simp only [LookupTable2d.eval, LookupTable2d.getIndex, assocAt, f1, Res.ok_bind, vAt, g, interp2d, Interp2d.make, hi]
    · simp [Res.isOk] at hc
  · simp at hok

/-- C146 is refuted: a call of `AddData` that runs out of memory does change the table: `HasSerie` finds the series afterwards. -/
theorem C146_refuted : ¬ (∀ (s s1 : LookupTable2d ℚ) (n n1 : Nat) (name : String) (d : List ℚ) (fail : AllocSite → Bool),
    (LookupTable2d.execAll ⟨true⟩ [.setX [0, 1], .setY [0, 1]]).run (LookupTable2d.new ℚ) = (.ok (), s) →
    (LookupTable2d.addDataF fail ⟨true⟩ name d).run (s, n) = (.throws .badAlloc, (s1, n1)) →
    s1.hasSerie name = s.hasSerie name) := by
  intro h
  have hf : (LookupTable2d.addDataF (failAt .makeShared) ⟨true⟩ "a" [1, 2, 3, 4]).run
      ({ LookupTable2d.new ℚ with Xcoords := some [0, 1], Ycoords := some [0, 1] }, 0) =
      (.throws .badAlloc, ({ LookupTable2d.new ℚ with Xcoords := some [0, 1], Ycoords := some [0, 1], assoc := [("a", 0)] }, 0)) := by
    rw [LookupTable2d.run_addDataF]
    simp [LookupTable2d.new, failAt]
  have h1 := h _ _ 0 0 "a" [1, 2, 3, 4] (failAt .makeShared) rfl hf
  simp [LookupTable2d.hasSerie, LookupTable2d.new] at h1

/-- A 2D table with one series, on which `AddData("b", …)` runs out of memory at the copy of the data, then `AddData("c", …)` succeeds: `"a"` is intact, `"b"` is
`"c"`. -/
example : ∃ s s1 s2 : LookupTable2d ℚ,
    (LookupTable2d.execAll ⟨true⟩ [.setX [0, 1], .setY [0, 1], .addData "a" [1, 2, 3, 4]]).run (LookupTable2d.new ℚ) = (.ok (), s) ∧
    (LookupTable2d.addDataF (failAt .makeShared) ⟨true⟩ "b" [5, 6, 7, 8]).run (s, 0) = (.throws .badAlloc, (s1, 0)) ∧
    (LookupTable2d.addDataF noFailure ⟨true⟩ "c" [9, 10, 11, 12]).run (s1, 0) = (.ok true, (s2, 0)) ∧
    (∀ x y, s2.eval ⟨true⟩ "a" x y = interp2d ⟨true⟩ .LINEAR [0, 1] [0, 1] [1, 2, 3, 4] x y) ∧
    (∀ x y, s2.eval ⟨true⟩ "b" x y = interp2d ⟨true⟩ .LINEAR [0, 1] [0, 1] [9, 10, 11, 12] x y) := by
  have i1 := Interp2d.run_init ⟨true⟩ (xs := ([0, 1] : List ℚ)) (ys := ([0, 1] : List ℚ)) (d := ([1, 2, 3, 4] : List ℚ)) (by simp) (by simp)
    (by simp) (by simp) rfl (Interp2d.fresh ℚ)
  have i2 := Interp2d.run_init ⟨true⟩ (xs := ([0, 1] : List ℚ)) (ys := ([0, 1] : List ℚ)) (d := ([9, 10, 11, 12] : List ℚ)) (by simp) (by simp)
    (by simp) (by simp) rfl (Interp2d.fresh ℚ)
  obtain ⟨s, hs⟩ : ∃ s, (LookupTable2d.execAll ⟨true⟩ [.setX [0, 1], .setY [0, 1], .addData "a" [1, 2, 3, 4]]).run (LookupTable2d.new ℚ) =
      (.ok (), s) := by
    refine Act.run_exists ?_
    simp [LookupTable2d.execAll, LookupTable2d.exec, LookupTable2d.setX, LookupTable2d.setY, LookupTable2d.addData, LookupTable2d.new, Act.run_bind,
      assocInsert, Interp2d.make, i1, LookupTable2d.getNbSeries]
  have h : LookupTable2d.Rep ⟨true⟩ s (Lut2.after [.setX [0, 1], .setY [0, 1], .addData "a" [1, 2, 3, 4]] : Lut2 ℚ) :=
    (LookupTable2d.Rep.new (K := ℚ) ⟨true⟩).execAll hs
  have hser : (Lut2.after [.setX [0, 1], .setY [0, 1], .addData "a" [1, 2, 3, 4]] : Lut2 ℚ).series = [("a", ([0, 1], [0, 1], [1, 2, 3, 4]))] := by
    simp [Lut2.after, Lut2.step, Lut2.empty]
  have hX : (Lut2.after [.setX [0, 1], .setY [0, 1], .addData "a" [1, 2, 3, 4]] : Lut2 ℚ).X = some [0, 1] := by
    simp [Lut2.after, Lut2.step, Lut2.empty]
  have hY : (Lut2.after [.setX [0, 1], .setY [0, 1], .addData "a" [1, 2, 3, 4]] : Lut2 ℚ).Y = some [0, 1] := by
    simp [Lut2.after, Lut2.step, Lut2.empty]
  have hm : s.interp_method = .LINEAR := by
    have := hs
    simp [LookupTable2d.execAll, LookupTable2d.exec, LookupTable2d.setX, LookupTable2d.setY, LookupTable2d.addData, LookupTable2d.new, Act.run_bind,
      assocInsert, Interp2d.make, i1, LookupTable2d.getNbSeries] at this
    rw [← this]
  have hb : s.assoc.lookup "b" = none := by
    rw [h.assoc, indexMap_lookup_none, hser]; decide
  have hf : (LookupTable2d.addDataF (failAt .makeShared) ⟨true⟩ "b" [5, 6, 7, 8]).run (s, 0) =
      (.throws .badAlloc, ({ s with assoc := s.assoc ++ [("b", s.MData.length)] }, 0)) := by
    rw [LookupTable2d.run_addDataF, if_pos hb]
    simp [failAt]
  have hc : (s.assoc ++ [("b", s.MData.length)]).lookup "c" = none := by
    rw [lookup_append_other (by decide), h.assoc, indexMap_lookup_none, hser]; decide
  obtain ⟨s2, h2⟩ : ∃ s2, (LookupTable2d.addDataF noFailure ⟨true⟩ "c" [9, 10, 11, 12]).run
      ({ s with assoc := s.assoc ++ [("b", s.MData.length)] }, 0) = (.ok true, (s2, 0)) := by
    rw [LookupTable2d.run_addDataF]
    simp only [noFailure, Bool.or_self, Bool.false_eq_true, if_false, hc, if_true, LookupTable2d.tailF, hm]
    rw [Interp2d.make, Act.run_lift_ok_bind, run_alloc_bind]
    simp only [Bool.false_eq_true, if_false, Interp2d.initF_noFailure, h.X, hX, h.Y, hY, i2]
    rw [Act.run_bind_ok (Act.run_update _ _), Act.run_lift_ok_bind, run_alloc_bind]
    exact ⟨_, rfl⟩
  refine ⟨s, _, s2, hs, hf, h2, ?_, ?_⟩
  · exact C146_loaded_partial ⟨true⟩ _ hs [(.addData "b" [5, 6, 7, 8], failAt .makeShared), (.addData "c" [9, 10, 11, 12], noFailure)]
      (n := 0) (n' := 0) (by
        rw [LookupTable2d.execAllF, Act.run_bind_ok (run_caught_of_throws (by
          simp only [LookupTable2d.execF, Act.run_bind, hf]; rfl)), LookupTable2d.execAllF, Act.run_bind_ok (run_caught_of_ok (by
          simp only [LookupTable2d.execF, Act.run_bind, h2]; rfl))]
        rfl) (by rw [hser]; decide)
  · intro x y
    obtain ⟨-, X, Y, hX', hY', e⟩ := C146_alias ⟨true⟩ _ hs (by simp [failAt]) (by simp [failAt]) (by rw [hser]; decide) hf h2 x y
    rw [hX] at hX'
    rw [hY] at hY'
    simp only [Option.some.injEq] at hX' hY'
    subst hX'
    subst hY'
    exact e

end twoD

/-! ## C147: memory that is never given back -/

section leak
variable {K Y : Type} [Field K] [LinearOrder K] [AddCommGroup Y] [Module K Y]

/-- C147 (only for calls that return): a call of `SetX` or `AddY` that returns loses no object, whatever the table. -/
theorem C147_returns_1d_partial (B : Build) (c : LookupTable1D.Op K Y × (AllocSite → Bool)) {s s' : LookupTable1D K Y} {n n' : Nat}
    (h : (LookupTable1D.execF B c).run (s, n) = (.ok (), (s', n'))) : n' = n := by
  rcases (LookupTable1D.execF_grows h).2.2.2 with h | ⟨-, h⟩
  · exact h
  · simp [Res.isOk] at h

/-- C147 (only for calls that return), 2D tables. -/
theorem C147_returns_2d_partial (B : Build) (c : LookupTable2d.Op K × (AllocSite → Bool)) {s s' : LookupTable2d K} {n n' : Nat}
    (h : (LookupTable2d.execF B c).run (s, n) = (.ok (), (s', n'))) : n' = n := by
  rcases (LookupTable2d.execF_grows h).2.2 with h | ⟨-, h⟩
  · exact h
  · simp [Res.isOk] at h

/-- C147 (only a bound): a program loses at most one object per call. -/
theorem C147_bound_1d_partial (B : Build) (calls : List (LookupTable1D.Op K Y × (AllocSite → Bool))) {s s' : LookupTable1D K Y} {n n' : Nat}
    (h : (LookupTable1D.execAllF B calls).run (s, n) = (.ok (), (s', n'))) : n ≤ n' ∧ n' ≤ n + calls.length := by
  induction calls generalizing s n with
  | nil =>
    simp only [LookupTable1D.execAllF, Act.run_pure, Prod.mk.injEq, true_and] at h
    simp [h.2]
  | cons c rest ih =>
    simp only [LookupTable1D.execAllF, Act.run_bind] at h
    cases hc : (caught (LookupTable1D.execF B c)).run (s, n) with
    | mk r p =>
      obtain ⟨s1, n1⟩ := p
      rw [hc] at h
      cases r with
      | ok u =>
        obtain ⟨r', hr', -⟩ := run_caught_ok hc
        have h1 := (LookupTable1D.execF_grows hr').2.2.2
        have h2 := ih h
        simp only [List.length_cons]
        omega
      | _ => simp at h

/-- C147 (only a bound), 2D tables. -/
theorem C147_bound_2d_partial (B : Build) (calls : List (LookupTable2d.Op K × (AllocSite → Bool))) {s s' : LookupTable2d K} {n n' : Nat}
    (h : (LookupTable2d.execAllF B calls).run (s, n) = (.ok (), (s', n'))) : n ≤ n' ∧ n' ≤ n + calls.length := by
  induction calls generalizing s n with
  | nil =>
    simp only [LookupTable2d.execAllF, Act.run_pure, Prod.mk.injEq, true_and] at h
    simp [h.2]
  | cons c rest ih =>
    simp only [LookupTable2d.execAllF, Act.run_bind] at h
    cases hc : (caught (LookupTable2d.execF B c)).run (s, n) with
    | mk r p =>
      obtain ⟨s1, n1⟩ := p
      rw [hc] at h
      cases r with
      | ok u =>
        obtain ⟨r', hr', -⟩ := run_caught_ok hc
        have h1 := (LookupTable2d.execF_grows hr').2.2
        have h2 := ih h
        simp only [List.length_cons]
        omega
      | _ => simp at h

/-- What really happens: each call of `AddY` of which the interpolator is created but cannot be initialised loses this object. Here, because the vector of
coefficients cannot be allocated. -/
theorem C147_lost [IsStrictOrderedRing K] (B : Build) {m : InterpMethod} (hm : m ≠ .BSPLINE) {s : LookupTable1D K Y} (hmeth : s.interp_method = some m) {name : String}
    (hnew : s.assoc.lookup name = none) {xs : List K} {ys : List Y} (hX : s.Xcoords = some xs) (h0 : 0 < xs.length)
    (hlen : xs.length = ys.length) (hsort : xs.Pairwise (· ≤ ·)) (k : Nat) (hk : k = 1 ∨ k = 2) (n : Nat) :
    ∃ s', (LookupTable1D.addYF (failAt (.reserve k)) B name ys).run (s, n) = (.throws .badAlloc, (s', n + 1)) := by
  obtain ⟨kind, hkind⟩ := Interp1d.make_ok hm
  have hi : ((Interp1d.initF (failAt (.reserve k)) B (some xs) (some ys)).run (Interp1d.fresh K Y)).1 = .throws .badAlloc := by
    unfold Interp1d.initF
    rw [Act.run_bind_ok (Interp1d.run_initializeBase B h0 hlen hsort _), run_alloc_bind]
    rcases hk with rfl | rfl
    · simp [failAt]
    · rw [if_neg (by simp [failAt]), run_alloc_bind, if_pos (by simp [failAt])]
  refine ⟨{ s with assoc := s.assoc ++ [(name, s.Ydata.length)], Ydata := s.Ydata ++ [ys] }, ?_⟩
  rw [LookupTable1D.run_addYF, if_neg (by simp [failAt]), if_pos hnew, if_neg (by simp [failAt])]
  simp only [LookupTable1D.tailF, hmeth, hX, readVar_some]
  rw [Act.run_lift_ok_bind, hkind, Act.run_lift_ok_bind, run_alloc_bind, if_neg (by simp [failAt]), Act.run_bind_ok (Act.run_update _ _), hi]
  simp [Res.isOk]

/-- C147 is refuted, even with enough memory: adding a series to a table without abscissae (an empty vector) throws `std::out_of_range`, and the interpolator
object created is never given back. -/
theorem C147_refuted : ¬ (∀ (s s1 : LookupTable1D ℚ ℚ) (n n1 : Nat) (name : String) (Yv : List ℚ) (r : Res Bool),
    (LookupTable1D.execAll ⟨true⟩ [.setX []]).run (LookupTable1D.new ℚ ℚ .LINEAR) = (.ok (), s) →
    (LookupTable1D.addYF noFailure ⟨true⟩ name Yv).run (s, n) = (r, (s1, n1)) → n1 = n) := by
  intro h
  have hf : ∃ s1, (LookupTable1D.addYF noFailure ⟨true⟩ "a" []).run ({ LookupTable1D.new ℚ ℚ .LINEAR with Xcoords := some [] }, 0) =
      (.throws .outOfRange, (s1, 1)) := by
    rw [LookupTable1D.run_addYF]
    simp only [noFailure, Bool.or_self, Bool.false_eq_true, if_false, LookupTable1D.new, List.lookup_nil, if_true, LookupTable1D.tailF,
      readVar_some]
    rw [Act.run_lift_ok_bind, Interp1d.make, Act.run_lift_ok_bind, run_alloc_bind]
    simp only [Bool.false_eq_true, if_false, Interp1d.initF_noFailure]
    rw [Act.run_bind_ok (Act.run_update _ _)]
    simp [Interp1d.init, Interp1d.initializeBase, Act.run_bind, vAt, cassert, Res.isOk]
  obtain ⟨s1, hf⟩ := hf
  have := h _ s1 0 1 "a" [] _ rfl hf
  omega

/-- The hypotheses of `C147_lost` hold for a table with abscissae 0, 1. -/
example : ∃ s', (LookupTable1D.addYF (failAt (.reserve 2)) ⟨true⟩ "a" ([3, 4] : List ℚ)).run
    ({ LookupTable1D.new ℚ ℚ .LINEAR with Xcoords := some [0, 1] }, 0) = (.throws .badAlloc, (s', 1)) :=
  C147_lost ⟨true⟩ (m := .LINEAR) (s := { LookupTable1D.new ℚ ℚ .LINEAR with Xcoords := some [0, 1] }) (by simp) (by simp [LookupTable1D.new])
    (by simp [LookupTable1D.new]) (xs := [0, 1]) (by simp) (by simp) (by simp) (by simp) 2 (Or.inr rfl) 0

end leak
end MU
