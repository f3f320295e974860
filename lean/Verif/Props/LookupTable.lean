import Verif.Lemmas.LookupTable
import Verif.Props.Interp2d

/-!
# C11-C15, C68: lookup tables
-/

set_option linter.unusedSectionVars false

namespace MU

open Spec

variable {K Y : Type} [Field K] [LinearOrder K] [IsStrictOrderedRing K] [AddCommGroup Y] [Module K Y]

/-! ## C11 -/

/-- C11: after any successful history, `Eval(name, x)` on a registered series is what a fresh interpolator of the table's method,
initialised with the data of the first registration of this name, returns at `x`; on another name it throws `std::out_of_range`;
`GetNbSeries` is the number of registered series and `GetX` the last abscissae set. -/
theorem C11_refines_map (B : Build) (m : InterpMethod) (ops : List (LookupTable1D.Op K Y)) {s : LookupTable1D K Y}
    (hrun : (LookupTable1D.execAll B ops).run (LookupTable1D.new K Y m) = (.ok (), s)) :
    (∀ name x, s.eval name x =
      match (Lut1.after ops).series.lookup name with
      | some (X, Yv) => interp1d B m X Yv x
      | none => .throws .outOfRange) ∧
    s.getNbSeries = (Lut1.after ops).series.length ∧
    s.Xcoords = (Lut1.after ops).X := by
  have h := (LookupTable1D.Rep.new (K := K) (Y := Y) B m).execAll hrun
  rw [show ops.foldl Lut1.step Lut1.empty = Lut1.after ops from rfl] at h
  refine ⟨?_, ?_, h.X⟩
  · intro name x
    cases hl : (Lut1.after ops).series.lookup name with
    | none =>
      simp [LookupTable1D.eval, LookupTable1D.getIndex, assocAt, h.assoc, (indexMap_lookup_none _ _ 0).mpr hl]
    | some e =>
      obtain ⟨X, Yv⟩ := e
      obtain ⟨kind, i, hk, h1, h2, h3⟩ := h.eval_some hl
      simp only [LookupTable1D.eval, LookupTable1D.getIndex, assocAt, h1, Res.ok_bind, vAt, h2]
      simp only [interp1d, hk, Res.ok_bind]
      simp only [LookupTable1D.buildRun] at h3 ⊢
      rw [h3]
      rfl
  · simp [LookupTable1D.getNbSeries, h.ydata]

/-- C11: the vector evaluation of a series is element-wise (for every state of a table). -/
theorem C11_eval_vector (s : LookupTable1D K Y) (name : String) (xv : List K)
    (ys : List Y) (hl : xv.length = ys.length)
    (h : ∀ i (h1 : i < xv.length) (h2 : i < ys.length), s.eval name xv[i] = .ok ys[i]) (hne : xv ≠ []) :
    s.evalVec name xv = .ok ys := by
  have h0 := h 0 (List.length_pos_iff.mpr hne) (by rw [← hl]; exact List.length_pos_iff.mpr hne)
  simp only [LookupTable1D.eval] at h0
  obtain ⟨i, hi, h0⟩ := Res.bind_eq_ok.mp h0
  obtain ⟨o, ho, h0⟩ := Res.bind_eq_ok.mp h0
  simp only [LookupTable1D.evalVec, hi, ho, Res.ok_bind]
  refine C06_elementwise _ _ _ _ hl ?_
  intro j h1 h2
  have := h j h1 h2
  simpa only [LookupTable1D.eval, hi, ho, Res.ok_bind] using this

/-- C11: `AddY` returns true exactly when the name was not registered. -/
theorem C11_addY_result (B : Build) (m : InterpMethod) (ops : List (LookupTable1D.Op K Y)) {s s' : LookupTable1D K Y}
    (hrun : (LookupTable1D.execAll B ops).run (LookupTable1D.new K Y m) = (.ok (), s)) {name : String} {Yv : List Y} {b : Bool}
    (ha : (LookupTable1D.addY B name Yv).run s = (.ok b, s')) :
    b = true ↔ (Lut1.after ops).series.lookup name = none :=
  (((LookupTable1D.Rep.new (K := K) (Y := Y) B m).execAll hrun).addY ha).2

theorem lookup_nodup_mem {V : Type} {L : List (String × V)} (hn : (L.map Prod.fst).Nodup) {a : String} {v : V} (h : (a, v) ∈ L) :
    L.lookup a = some v := by
  induction L with
  | nil => simp at h
  | cons e L ih =>
    obtain ⟨b, w⟩ := e
    simp only [List.map_cons, List.nodup_cons] at hn
    rcases List.mem_cons.mp h with h | h
    · simp only [Prod.mk.injEq] at h
      obtain ⟨rfl, rfl⟩ := h
      simp
    · have hL : (a, v) ∈ L := h
      have hne : (a == b) = false := by
        simp only [beq_eq_false_iff_ne, ne_eq]
        rintro rfl
        exact hn.1 (List.mem_map.mpr ⟨(a, v), hL, rfl⟩)
      simp [List.lookup_cons, hne, ih hn.2 hL]

theorem mem_of_lookup {V : Type} {L : List (String × V)} {a : String} {v : V} (h : L.lookup a = some v) : (a, v) ∈ L := by
  induction L with
  | nil => simp at h
  | cons e L ih =>
    obtain ⟨b, w⟩ := e
    simp only [List.lookup_cons] at h
    by_cases hab : a == b
    · simp only [hab, Option.some.injEq] at h
      have : a = b := by simpa using hab
      subst this; subst h
      simp
    · simp only [hab] at h
      exact List.mem_cons_of_mem _ (ih h)

theorem mem_map_fst_of_lookup {V : Type} {L : List (String × V)} {a : String} : a ∈ L.map Prod.fst → L.lookup a ≠ none := by
  induction L with
  | nil => simp
  | cons e L ih =>
    obtain ⟨b, w⟩ := e
    intro h
    simp only [List.map_cons, List.mem_cons] at h
    simp only [List.lookup_cons]
    by_cases hab : a == b
    · simp [hab]
    · simp only [hab]
      rcases h with h | h
      · simp [h] at hab
      · exact ih h

theorem indexMap_fst {V : Type} (L : List (String × V)) (n : Nat) : (indexMap L n).map Prod.fst = L.map Prod.fst := by
  induction L generalizing n with
  | nil => rfl
  | cons e L ih => obtain ⟨b, w⟩ := e; simp [indexMap, ih]

/-- No name is registered twice. -/
theorem Lut1.names_nodup (ops : List (LookupTable1D.Op K Y)) : ((Lut1.after ops).series.map Prod.fst).Nodup := by
  have key : ∀ (ops : List (LookupTable1D.Op K Y)) (t : Lut1 K Y), (t.series.map Prod.fst).Nodup →
      ((ops.foldl Lut1.step t).series.map Prod.fst).Nodup := by
    intro ops
    induction ops with
    | nil => intro t h; exact h
    | cons op ops ih =>
      intro t h
      refine ih _ ?_
      cases op with
      | setX X => exact h
      | addY name Yv =>
        simp only [Lut1.step]
        split
        · rename_i X hX hl
          simp only [List.map_append, List.map_cons, List.map_nil]
          rw [List.nodup_append]
          refine ⟨h, by simp, ?_⟩
          intro a ha b hb hab
          simp only [List.mem_singleton] at hb
          subst hb; subst hab
          exact mem_map_fst_of_lookup ha hl
        · exact h
  exact key ops _ (by simp [Lut1.empty])

/-- C11: `Eval(x)` on all series, whatever the iteration order of the hash map: if every registered series evaluates, the result
associates to each registered name the value `Eval(name, x)` returns, and nothing else. -/
theorem C11_eval_all (B : Build) (m : InterpMethod) (ops : List (LookupTable1D.Op K Y)) {s : LookupTable1D K Y}
    (hrun : (LookupTable1D.execAll B ops).run (LookupTable1D.new K Y m) = (.ok (), s)) (x : K)
    (hok : ∀ name, (Lut1.after ops).series.lookup name ≠ none → (s.eval name x).isOk = true)
    (order : List (String × Nat)) (hord : order.Perm s.assoc) :
    ∃ out, s.evalAll x order = .ok out ∧ ∀ name v, out.lookup name = some v ↔ s.eval name x = .ok v := by
  have h := (LookupTable1D.Rep.new (K := K) (Y := Y) B m).execAll hrun
  rw [show ops.foldl Lut1.step Lut1.empty = Lut1.after ops from rfl] at h
  have hnd : (s.assoc.map Prod.fst).Nodup := by rw [h.assoc, indexMap_fst]; exact Lut1.names_nodup ops
  have hnd' : (order.map Prod.fst).Nodup := (hord.map Prod.fst).nodup_iff.mpr hnd
  -- evaluation of an entry of the map
  have hent : ∀ name idx, (name, idx) ∈ s.assoc → ∃ o v, vIdx s.interpolators idx = .ok o ∧ Interp1d.eval o.1 o.2 x = .ok v ∧
      s.eval name x = .ok v := by
    intro name idx hmem
    have hlook := lookup_nodup_mem hnd hmem
    have hne : (Lut1.after ops).series.lookup name ≠ none := by
      intro hc
      rw [h.assoc, (indexMap_lookup_none _ _ 0).mpr hc] at hlook
      simp at hlook
    cases hl : (Lut1.after ops).series.lookup name with
    | none => exact absurd hl hne
    | some e =>
      obtain ⟨X, Yv⟩ := e
      obtain ⟨kind, i, hk, h1, h2, h3⟩ := h.eval_some hl
      rw [hlook] at h1
      simp only [Option.some.injEq] at h1
      subst h1
      have hev := hok name hne
      cases hv : s.eval name x with
      | ok v =>
        refine ⟨(kind, (LookupTable1D.buildRun B (X, Yv)).2), v, by simp only [vIdx, h2], ?_, rfl⟩
        simpa only [LookupTable1D.eval, LookupTable1D.getIndex, assocAt, hlook, Res.ok_bind, vAt, h2] using hv
      | _ => rw [hv] at hev; simp [Res.isOk] at hev
  have key : ∀ (l : List (String × Nat)), (∀ e ∈ l, e ∈ s.assoc) → (l.map Prod.fst).Nodup →
      ∃ out, s.evalAll x l = .ok out ∧ ∀ name v, out.lookup name = some v ↔ (name ∈ l.map Prod.fst ∧ s.eval name x = .ok v) := by
    intro l
    induction l with
    | nil => intro _ _; exact ⟨[], rfl, by simp⟩
    | cons e l ih =>
      obtain ⟨name, idx⟩ := e
      intro hsub hn
      simp only [List.map_cons, List.nodup_cons] at hn
      obtain ⟨out, ho, hspec⟩ := ih (fun e he => hsub e (List.mem_cons_of_mem _ he)) hn.2
      obtain ⟨o, v, h1, h2, h3⟩ := hent name idx (hsub _ (List.mem_cons_self))
      refine ⟨(name, v) :: out, by simp [LookupTable1D.evalAll, h1, h2, ho], ?_⟩
      intro n w
      simp only [List.lookup_cons, List.map_cons, List.mem_cons]
      by_cases hnn : n = name
      · subst hnn
        simp [h3]
      · have hb : (n == name) = false := by simpa using hnn
        simp only [hb, hspec, hnn, false_or]
  obtain ⟨out, ho, hspec⟩ := key order (fun e he => hord.mem_iff.mp he) hnd'
  refine ⟨out, ho, ?_⟩
  intro name v
  rw [hspec]
  refine ⟨fun hh => hh.2, fun hh => ⟨?_, hh⟩⟩
  rw [(hord.map Prod.fst).mem_iff]
  simp only [LookupTable1D.eval, LookupTable1D.getIndex] at hh
  obtain ⟨i, hi, -⟩ := Res.bind_eq_ok.mp hh
  unfold assocAt at hi
  cases hl : s.assoc.lookup name with
  | none => rw [hl] at hi; simp at hi
  | some j => exact List.mem_map.mpr ⟨_, mem_of_lookup hl, rfl⟩

section sample

/-- A history used to show that hypotheses can be met. -/
def sampleOps : List (LookupTable1D.Op ℚ ℚ) :=
  [.setX [0, 1, 3], .addY "a" [5, 7, 1], .setX [0, 2], .addY "b" [1, 2], .addY "a" [0, 0]]

theorem sampleOps_run : ∃ s, (LookupTable1D.execAll ⟨true⟩ sampleOps).run (LookupTable1D.new ℚ ℚ .LINEAR) = (.ok (), s) := by
  have t2 : Table ([0, 2] : List ℚ) ([1, 2] : List ℚ) := ⟨by simp, by simp, rfl⟩
  have i1 := Interp1d.run_init ⟨true⟩ (xs := ([0, 1, 3] : List ℚ)) (ys := ([5, 7, 1] : List ℚ)) (by simp) rfl sampleTable.increasing
    (Interp1d.fresh ℚ ℚ)
  have i2 := Interp1d.run_init ⟨true⟩ (xs := ([0, 2] : List ℚ)) (ys := ([1, 2] : List ℚ)) (by simp) rfl t2.increasing
    (Interp1d.fresh ℚ ℚ)
  refine Act.run_exists ?_
  simp [sampleOps, LookupTable1D.execAll, LookupTable1D.exec, LookupTable1D.setX, LookupTable1D.addY, LookupTable1D.new, Act.run_bind,
    assocInsert, Interp1d.make, i1, i2, LookupTable1D.getNbSeries, List.lookup]

/-- The theorems on histories apply: the second registration of "a" is ignored, "b" uses its own abscissae. -/
example : ∃ s, (LookupTable1D.execAll ⟨true⟩ sampleOps).run (LookupTable1D.new ℚ ℚ .LINEAR) = (.ok (), s) ∧
    s.eval "a" 3 = .ok 1 ∧ s.eval "b" 2 = .ok 2 ∧ s.eval "c" 2 = .throws .outOfRange ∧ s.getNbSeries = 2 := by
  obtain ⟨s, hs⟩ := sampleOps_run
  obtain ⟨h1, h2, -⟩ := C11_refines_map ⟨true⟩ .LINEAR sampleOps hs
  have t2 : Table ([0, 2] : List ℚ) ([1, 2] : List ℚ) := ⟨by simp, by simp, rfl⟩
  refine ⟨s, hs, ?_, ?_, ?_, ?_⟩
  · rw [h1]; exact C01_node ⟨true⟩ (by simp) sampleTable (i := 2) (by simp) (by simp)
  · rw [h1]; exact C01_node ⟨true⟩ (by simp) t2 (i := 1) (by simp) (by simp)
  · rw [h1]; rfl
  · rw [h2]; rfl

end sample

/-! ## C12 -/

/-- C12 (1D): adding a registered name returns false and changes nothing in the table. -/
theorem C12_duplicate_1d (B : Build) (m : InterpMethod) (ops : List (LookupTable1D.Op K Y)) {s : LookupTable1D K Y}
    (hrun : (LookupTable1D.execAll B ops).run (LookupTable1D.new K Y m) = (.ok (), s)) {name : String}
    (hreg : (Lut1.after ops).series.lookup name ≠ none) (Yv : List Y) :
    (LookupTable1D.addY B name Yv).run s = (.ok false, s) := by
  have h := (LookupTable1D.Rep.new (K := K) (Y := Y) B m).execAll hrun
  cases hl : s.assoc.lookup name with
  | some i => exact LookupTable1D.run_addY_dup B s hl
  | none =>
    rw [h.assoc, indexMap_lookup_none] at hl
    exact absurd hl hreg

/-- C12 (2D): adding a registered name returns false and changes nothing in the table. -/
theorem C12_duplicate_2d {K : Type} [Field K] [LinearOrder K] (B : Build) (ops : List (LookupTable2d.Op K)) {s : LookupTable2d K}
    (hrun : (LookupTable2d.execAll B ops).run (LookupTable2d.new K) = (.ok (), s)) {name : String}
    (hreg : (Lut2.after ops).series.lookup name ≠ none) (d : List K) :
    (LookupTable2d.addData B name d).run s = (.ok false, s) := by
  have h := (LookupTable2d.Rep.new (K := K) B).execAll hrun
  cases hl : s.assoc.lookup name with
  | some i => exact LookupTable2d.run_addData_dup B s hl
  | none =>
    rw [h.assoc, indexMap_lookup_none] at hl
    exact absurd hl hreg

example : ∃ s, (LookupTable1D.execAll ⟨true⟩ sampleOps).run (LookupTable1D.new ℚ ℚ .LINEAR) = (.ok (), s) ∧
    (LookupTable1D.addY ⟨true⟩ "b" [8, 9]).run s = (.ok false, s) := by
  obtain ⟨s, hs⟩ := sampleOps_run
  exact ⟨s, hs, C12_duplicate_1d ⟨true⟩ .LINEAR sampleOps hs (by simp [sampleOps, Lut1.after, Lut1.step, Lut1.empty, List.lookup]) _⟩

/-! ## C13 -/

/-- C13 (only for the series registered before): a failing `AddY` does not change what the series registered before evaluate to. -/
theorem C13_earlier_series_partial (B : Build) (m : InterpMethod) (ops : List (LookupTable1D.Op K Y)) {s s1 : LookupTable1D K Y}
    (hrun : (LookupTable1D.execAll B ops).run (LookupTable1D.new K Y m) = (.ok (), s)) {name : String} {Yv : List Y} {e : Exn}
    (hfail : (LookupTable1D.addY B name Yv).run s = (.throws e, s1)) {name' : String}
    (hreg : (Lut1.after ops).series.lookup name' ≠ none) (x : K) : s1.eval name' x = s.eval name' x := by
  have h := (LookupTable1D.Rep.new (K := K) (Y := Y) B m).execAll hrun
  rw [show ops.foldl Lut1.step Lut1.empty = Lut1.after ops from rfl] at h
  cases hl : s.assoc.lookup name with
  | some i => rw [LookupTable1D.run_addY_dup B s hl] at hfail; simp at hfail
  | none =>
    rw [LookupTable1D.run_addY_new B s hl] at hfail
    have hs1 : s1.assoc = s.assoc ++ [(name, s.Ydata.length)] ∧ s1.interpolators = s.interpolators := by
      cases hk : Interp1d.make m with
      | ok kind =>
        cases hr : ((Interp1d.init B s.Xcoords (some Yv)).run (Interp1d.fresh K Y)).1 with
        | throws e' =>
          simp only [h.method, readVar_some, Act.run_lift_ok_bind, hk, hr, Act.run_lift_throws_bind, Prod.mk.injEq] at hfail
          rw [← hfail.2]; exact ⟨rfl, rfl⟩
        | _ => simp [h.method, hk, hr] at hfail
      | throws e' =>
        simp only [h.method, readVar_some, Act.run_lift_ok_bind, hk, Act.run_lift_throws_bind, Prod.mk.injEq] at hfail
        rw [← hfail.2]; exact ⟨rfl, rfl⟩
      | _ => simp [h.method, hk] at hfail
    cases hl' : (Lut1.after ops).series.lookup name' with
    | none => exact absurd hl' hreg
    | some e' =>
      obtain ⟨X, Yv'⟩ := e'
      obtain ⟨kind, i, hk, h1, h2, h3⟩ := h.eval_some hl'
      simp only [LookupTable1D.eval, LookupTable1D.getIndex, assocAt, hs1.1, hs1.2, lookup_append_some h1, h1]

/-- What a failing `AddY` really does: the failed name is registered, and after the next successful `AddY` of another series, the failed
name evaluates to THIS series while the new series itself cannot be evaluated. -/
theorem C13_failure_shifts_names (B : Build) {m : InterpMethod} (hm : m ≠ .BSPLINE) (ops : List (LookupTable1D.Op K Y)) {s s1 : LookupTable1D K Y}
    (hrun : (LookupTable1D.execAll B ops).run (LookupTable1D.new K Y m) = (.ok (), s)) {name : String} {Yv : List Y} {e : Exn}
    (hfail : (LookupTable1D.addY B name Yv).run s = (.throws e, s1))
    {name2 : String} (hnew : (Lut1.after ops).series.lookup name2 = none) (hne : name2 ≠ name)
    (X2 : List K) (Y2 : List Y) {s2 : LookupTable1D K Y}
    (hok : (LookupTable1D.execAll B [.setX X2, .addY name2 Y2]).run s1 = (.ok (), s2)) (x : K) :
    s2.eval name x = interp1d B m X2 Y2 x ∧ s2.eval name2 x = .throws .outOfRange := by
  have h := (LookupTable1D.Rep.new (K := K) (Y := Y) B m).execAll hrun
  rw [show ops.foldl Lut1.step Lut1.empty = Lut1.after ops from rfl] at h
  obtain ⟨kind0, hk0⟩ := Interp1d.make_ok hm
  cases hl : s.assoc.lookup name with
  | some i => rw [LookupTable1D.run_addY_dup B s hl] at hfail; simp at hfail
  | none =>
    rw [LookupTable1D.run_addY_new B s hl] at hfail
    have hs1 : s1 = { s with assoc := s.assoc ++ [(name, s.Ydata.length)], Ydata := s.Ydata ++ [Yv] } := by
      cases hr : ((Interp1d.init B s.Xcoords (some Yv)).run (Interp1d.fresh K Y)).1 with
      | throws e' =>
        simp only [h.method, readVar_some, Act.run_lift_ok_bind, hk0, hr, Act.run_lift_throws_bind, Prod.mk.injEq] at hfail
        rw [← hfail.2, h.method]
      | _ => simp [h.method, hk0, hr] at hfail
    have hl2 : s1.assoc.lookup name2 = none := by
      rw [hs1]
      simp only
      rw [lookup_append_other hne, h.assoc, indexMap_lookup_none]
      exact hnew
    have hlen : s.Ydata.length = s.interpolators.length := by
      obtain ⟨kind, -, ho⟩ := h.objs
      rw [h.ydata, ho]; simp
    simp only [LookupTable1D.execAll, LookupTable1D.exec] at hok
    rw [Act.run_bind_ok (LookupTable1D.run_setX X2 s1)] at hok
    simp only [Act.run_bind] at hok
    rw [LookupTable1D.run_addY_new (s := { s1 with Xcoords := some X2 }) B (by exact hl2)] at hok
    have hmeth : s1.interp_method = some m := by rw [hs1]; exact h.method
    simp only [hmeth, readVar_some, Act.run_bind, Act.run_lift, hk0] at hok
    cases hr : ((Interp1d.init B (some X2) (some Y2)).run (Interp1d.fresh K Y)).1 with
    | ok u =>
      rw [hr] at hok
      simp only [Act.run_update, Act.run_pure, Prod.mk.injEq, true_and] at hok
      have e1 : s2.interpolators = s.interpolators ++
          [(kind0, ((Interp1d.init B (some X2) (some Y2)).run (Interp1d.fresh K Y)).2)] := by rw [← hok, hs1]
      have e2 : s2.assoc = (s.assoc ++ [(name, s.Ydata.length)]) ++ [(name2, s.Ydata.length + 1)] := by
        rw [← hok, hs1]; simp
      constructor
      · simp only [LookupTable1D.eval, LookupTable1D.getIndex, assocAt, e1, e2,
          lookup_append_some (lookup_append_same hl), Res.ok_bind, vAt]
        rw [hlen, List.getElem?_append_right (le_refl _)]
        simp only [Nat.sub_self, List.getElem?_cons_zero, Res.ok_bind, interp1d, hk0, hr]
      · simp only [LookupTable1D.eval, LookupTable1D.getIndex, assocAt, e1, e2]
        rw [lookup_append_same (by rw [lookup_append_other hne, h.assoc, indexMap_lookup_none]; exact hnew)]
        simp only [Res.ok_bind]
        rw [vAt_ge (by simp [hlen])]
        rfl
    | _ => rw [hr] at hok; simp at hok

/-- C13 is refuted: a failed `AddY` changes the later behaviour of the table. -/
theorem C13_refuted : ¬ (∀ (ops ops2 : List (LookupTable1D.Op ℚ ℚ)) (name : String) (Yv : List ℚ) (e : Exn)
    (s s1 s2 s2' : LookupTable1D ℚ ℚ),
    (LookupTable1D.execAll ⟨true⟩ ops).run (LookupTable1D.new ℚ ℚ .LINEAR) = (.ok (), s) →
    (LookupTable1D.addY ⟨true⟩ name Yv).run s = (.throws e, s1) →
    (LookupTable1D.execAll ⟨true⟩ ops2).run s1 = (.ok (), s2) → (LookupTable1D.execAll ⟨true⟩ ops2).run s = (.ok (), s2') →
    ∀ n x, s2.eval n x = s2'.eval n x) := by
  intro h
  have t2 : Table ([0, 2] : List ℚ) ([1, 2] : List ℚ) := ⟨by simp, by simp, rfl⟩
  have i2 := Interp1d.run_init ⟨true⟩ (xs := ([0, 2] : List ℚ)) (ys := ([1, 2] : List ℚ)) (by simp) rfl t2.increasing
    (Interp1d.fresh ℚ ℚ)
  have r1 : (LookupTable1D.execAll ⟨true⟩ [.setX []]).run (LookupTable1D.new ℚ ℚ .LINEAR) =
      (.ok (), { LookupTable1D.new ℚ ℚ .LINEAR with Xcoords := some [] }) := rfl
  have r2 : (LookupTable1D.addY ⟨true⟩ "a" []).run { LookupTable1D.new ℚ ℚ .LINEAR with Xcoords := some [] } =
      (.throws .outOfRange, { LookupTable1D.new ℚ ℚ .LINEAR with Xcoords := some [], assoc := [("a", 0)], Ydata := [[]] }) := by
    simp [LookupTable1D.addY, LookupTable1D.new, Act.run_bind, assocInsert, LookupTable1D.getNbSeries, Interp1d.make, Interp1d.init,
      Interp1d.initializeBase, vAt, cassert]
  have r3 : ∃ s2, (LookupTable1D.execAll ⟨true⟩ [.setX [0, 2], .addY "b" [1, 2]]).run
      { LookupTable1D.new ℚ ℚ .LINEAR with Xcoords := some [], assoc := [("a", 0)], Ydata := [[]] } = (.ok (), s2) := by
    refine Act.run_exists ?_
    simp [LookupTable1D.execAll, LookupTable1D.exec, LookupTable1D.setX, LookupTable1D.addY, LookupTable1D.new, Act.run_bind,
      assocInsert, Interp1d.make, i2, LookupTable1D.getNbSeries, List.lookup]
  have r4 : ∃ s2, (LookupTable1D.execAll ⟨true⟩ [.setX [0, 2], .addY "b" [1, 2]]).run
      { LookupTable1D.new ℚ ℚ .LINEAR with Xcoords := some [] } = (.ok (), s2) := by
    refine Act.run_exists ?_
    simp [LookupTable1D.execAll, LookupTable1D.exec, LookupTable1D.setX, LookupTable1D.addY, LookupTable1D.new, Act.run_bind,
      assocInsert, Interp1d.make, i2, LookupTable1D.getNbSeries, List.lookup]
  obtain ⟨s2, r3⟩ := r3
  obtain ⟨s2', r4⟩ := r4
  have e := h [.setX []] [.setX [0, 2], .addY "b" [1, 2]] "a" [] .outOfRange _ _ s2 s2' r1 r2 r3 r4 "b" 2
  have bad := (C13_failure_shifts_names ⟨true⟩ (m := .LINEAR) (by simp) [.setX []] r1 r2 (name2 := "b")
    (by simp [Lut1.after, Lut1.step, Lut1.empty]) (by decide) [0, 2] [1, 2] r3 2).2
  have r5 : (LookupTable1D.execAll ⟨true⟩ [.setX [], .setX [0, 2], .addY "b" [1, 2]]).run (LookupTable1D.new ℚ ℚ .LINEAR) =
      (.ok (), s2') := by
    exact (Act.run_bind_ok (LookupTable1D.run_setX [] _)).trans r4
  have good := (C11_refines_map ⟨true⟩ .LINEAR _ r5).1 "b" 2
  rw [e, good] at bad
  have v := C01_node ⟨true⟩ (m := .LINEAR) (by simp) t2 (i := 1) (by simp) (by simp)
  simp only [Lut1.after, List.foldl, Lut1.step, Lut1.empty, List.lookup, List.nil_append] at bad
  have e2 : (("b" : String) == "b") = true := by decide
  rw [e2] at bad
  simp only at bad
  rw [show ([0, 2] : List ℚ)[1] = 2 from rfl] at v
  rw [v] at bad
  cases bad

/-! ## C14 -/

/-- C14: after any successful history, `Eval(name, x, y)` on a registered series is what a fresh 2D interpolator initialised with the
data of the first registration of this name returns; on another name it throws `std::out_of_range`; `HasSerie` tells the registered
names; `GetNbSeries` is their number and `GetNbSample` the product of the sizes of the current coordinates. -/
theorem C14_refines_map {K : Type} [Field K] [LinearOrder K] (B : Build) (ops : List (LookupTable2d.Op K)) {s : LookupTable2d K}
    (hrun : (LookupTable2d.execAll B ops).run (LookupTable2d.new K) = (.ok (), s)) :
    (∀ name x y, s.eval B name x y =
      match (Lut2.after ops).series.lookup name with
      | some (X, Y, d) => interp2d B .LINEAR X Y d x y
      | none => .throws .outOfRange) ∧
    (∀ name, s.hasSerie name = true ↔ (Lut2.after ops).series.lookup name ≠ none) ∧
    s.getNbSeries = (Lut2.after ops).series.length ∧
    (∀ X Y, (Lut2.after ops).X = some X → (Lut2.after ops).Y = some Y → s.getNbSample = .ok (X.length * Y.length)) := by
  have h := (LookupTable2d.Rep.new (K := K) B).execAll hrun
  rw [show ops.foldl Lut2.step Lut2.empty = Lut2.after ops from rfl] at h
  refine ⟨?_, ?_, ?_, ?_⟩
  · intro name x y
    cases hl : (Lut2.after ops).series.lookup name with
    | none =>
      simp [LookupTable2d.eval, LookupTable2d.getIndex, assocAt, h.assoc, (indexMap_lookup_none _ _ 0).mpr hl]
    | some e =>
      obtain ⟨X, Y, d⟩ := e
      obtain ⟨i, h1, h2, h3⟩ := h.eval_some hl
      simp only [LookupTable2d.eval, LookupTable2d.getIndex, assocAt, h1, Res.ok_bind, vAt, h2]
      simp only [interp2d, Interp2d.make, Res.ok_bind]
      simp only [LookupTable2d.buildRun] at h3 ⊢
      rw [h3]
      rfl
  · intro name
    unfold LookupTable2d.hasSerie
    rw [h.assoc]
    cases hl : (indexMap (Lut2.after ops).series 0).lookup name with
    | none => simp [(indexMap_lookup_none _ _ 0).mp hl]
    | some i =>
      simp only [ne_eq, true_iff]
      intro hc
      rw [(indexMap_lookup_none _ _ 0).mpr hc] at hl
      simp at hl
  · simp [LookupTable2d.getNbSeries, h.mdata]
  · intro X Y hX hY
    simp [LookupTable2d.getNbSample, h.X, h.Y, hX, hY]

/-- A 2D history used to show that hypotheses can be met. -/
def sampleOps2 : List (LookupTable2d.Op ℚ) :=
  [.setX [0, 1, 3], .setY [0, 2], .addData "a" [1, 2, 3, 4, 5, 10], .setMethod .BSPLINE, .setX [0, 1]]

theorem sampleOps2_run : ∃ s, (LookupTable2d.execAll ⟨true⟩ sampleOps2).run (LookupTable2d.new ℚ) = (.ok (), s) := by
  have i1 := Interp2d.run_init ⟨true⟩ (by simp) (by simp) sampleGrid.incx sampleGrid.incy sampleGrid.size (Interp2d.fresh ℚ)
  refine Act.run_exists ?_
  simp [sampleOps2, LookupTable2d.execAll, LookupTable2d.exec, LookupTable2d.setX, LookupTable2d.setY,
    LookupTable2d.setInterpolationMethod, LookupTable2d.addData, LookupTable2d.new, Act.run_bind,
    assocInsert, Interp2d.make, i1, LookupTable2d.getNbSeries]

example : ∃ s, (LookupTable2d.execAll ⟨true⟩ sampleOps2).run (LookupTable2d.new ℚ) = (.ok (), s) ∧
    s.eval ⟨true⟩ "a" 3 0 = .ok 5 ∧ s.hasSerie "a" = true ∧ s.hasSerie "b" ≠ true ∧ s.getNbSample = .ok 4 := by
  obtain ⟨s, hs⟩ := sampleOps2_run
  obtain ⟨h1, h2, h3, h4⟩ := C14_refines_map ⟨true⟩ sampleOps2 hs
  refine ⟨s, hs, ?_, ?_, ?_, ?_⟩
  · rw [h1]; exact C08_node ⟨true⟩ sampleGrid (i := 2) (j := 0) (by simp) (by simp)
  · rw [h2]; decide
  · rw [ne_eq, h2]; decide
  · exact h4 [0, 1] [0, 2] rfl rfl

/-! ## C15 -/

/-- State after a failing `AddData`. -/
theorem addData_fail_state {K : Type} [Field K] [LinearOrder K] {B : Build} {s s1 : LookupTable2d K} {name : String} {d : List K} {e : Exn}
    (hfail : (LookupTable2d.addData B name d).run s = (.throws e, s1)) :
    s.assoc.lookup name = none ∧ s1 = { s with assoc := s.assoc ++ [(name, s.MData.length)], MData := s.MData ++ [d] } := by
  cases hl : s.assoc.lookup name with
  | some i => rw [LookupTable2d.run_addData_dup B s hl] at hfail; simp at hfail
  | none =>
    refine ⟨rfl, ?_⟩
    rw [LookupTable2d.run_addData_new B s hl] at hfail
    cases hk : Interp2d.make K s.interp_method with
    | ok o =>
      cases hr : ((Interp2d.init B s.Xcoords s.Ycoords (some d)).run o).1 with
      | throws e' =>
        simp only [hk, hr, Act.run_lift_ok_bind, Act.run_lift_throws_bind, Prod.mk.injEq] at hfail
        exact hfail.2.symm
      | _ => simp [hk, hr] at hfail
    | throws e' =>
      simp only [hk, Act.run_lift_throws_bind, Prod.mk.injEq] at hfail
      exact hfail.2.symm
    | _ => simp [hk] at hfail

/-- C15 (only for the series registered before): a failing `AddData` does not change what the series registered before evaluate to. -/
theorem C15_earlier_series_partial {K : Type} [Field K] [LinearOrder K] (B : Build) (ops : List (LookupTable2d.Op K)) {s s1 : LookupTable2d K}
    (hrun : (LookupTable2d.execAll B ops).run (LookupTable2d.new K) = (.ok (), s)) {name : String} {d : List K} {e : Exn}
    (hfail : (LookupTable2d.addData B name d).run s = (.throws e, s1)) {name' : String}
    (hreg : (Lut2.after ops).series.lookup name' ≠ none) (x y : K) : s1.eval B name' x y = s.eval B name' x y := by
  have h := (LookupTable2d.Rep.new (K := K) B).execAll hrun
  rw [show ops.foldl Lut2.step Lut2.empty = Lut2.after ops from rfl] at h
  obtain ⟨hl, rfl⟩ := addData_fail_state hfail
  cases hl' : (Lut2.after ops).series.lookup name' with
  | none => exact absurd hl' hreg
  | some e' =>
    obtain ⟨X, Y, d'⟩ := e'
    obtain ⟨i, h1, h2, h3⟩ := h.eval_some hl'
    simp only [LookupTable2d.eval, LookupTable2d.getIndex, assocAt, lookup_append_some h1, h1]

/-- C15 is false for every failure: `HasSerie` reports the failed name as registered afterwards. -/
theorem C15_failed_name_registered {K : Type} [Field K] [LinearOrder K] {B : Build} {s s1 : LookupTable2d K} {name : String} {d : List K}
    {e : Exn} (hfail : (LookupTable2d.addData B name d).run s = (.throws e, s1)) :
    s.hasSerie name = false ∧ s1.hasSerie name = true := by
  obtain ⟨hl, rfl⟩ := addData_fail_state hfail
  simp [LookupTable2d.hasSerie, hl, lookup_append_same hl]

/-- Such a failure is reachable: an unsupported method. So C15 is refuted. -/
theorem C15_refuted : ¬ (∀ (ops : List (LookupTable2d.Op ℚ)) (name : String) (d : List ℚ) (e : Exn) (s s1 : LookupTable2d ℚ),
    (LookupTable2d.execAll ⟨true⟩ ops).run (LookupTable2d.new ℚ) = (.ok (), s) →
    (LookupTable2d.addData ⟨true⟩ name d).run s = (.throws e, s1) →
    ∀ n, s1.hasSerie n = s.hasSerie n) := by
  intro h
  obtain ⟨s, hs⟩ : ∃ s, (LookupTable2d.execAll ⟨true⟩ [.setMethod .BSPLINE]).run (LookupTable2d.new ℚ) = (.ok (), s) := ⟨_, rfl⟩
  have hs' := hs
  simp only [LookupTable2d.execAll, LookupTable2d.exec, LookupTable2d.setInterpolationMethod, Act.run_bind, Act.run_update,
    Act.run_pure, Prod.mk.injEq, true_and] at hs'
  obtain ⟨s1, hf⟩ : ∃ s1, (LookupTable2d.addData ⟨true⟩ "a" []).run s = (.throws .cstring, s1) := by
    refine Act.run_exists ?_
    rw [← hs']
    simp [LookupTable2d.addData, LookupTable2d.new, assocInsert, Interp2d.make, LookupTable2d.getNbSeries]
  have e1 := h _ _ _ _ _ _ hs hf "a"
  have e2 := C15_failed_name_registered hf
  rw [e2.1, e2.2] at e1
  cases e1

/-! ## C68 -/

/-- C68 (evaluation only): a table moved into another one, by assignment or construction, evaluates every name as the source did. -/
theorem C68_move_eval_partial (dst src : LookupTable1D K Y) (name : String) (x : K) :
    (LookupTable1D.moveAssign dst src).eval name x = src.eval name x ∧
    (LookupTable1D.moveConstruct src).eval name x = src.eval name x ∧
    (LookupTable1D.moveAssign dst src).getNbSeries = src.getNbSeries ∧
    (LookupTable1D.moveConstruct src).getNbSeries = src.getNbSeries :=
  ⟨rfl, rfl, rfl, rfl⟩

/-- After a move construction, adding a series reads an uninitialised interpolation method: undefined behaviour, whatever the source. -/
theorem C68_addY_after_move_construct (B : Build) (src : LookupTable1D K Y) {name : String} (h : src.assoc.lookup name = none)
    (Yv : List Y) : ((LookupTable1D.addY B name Yv).run (LookupTable1D.moveConstruct src)).1 = .ub := by
  rw [LookupTable1D.run_addY_new B _ (by exact h)]
  simp [LookupTable1D.moveConstruct, Act.run_bind]

/-- C68 is refuted: a table made by moving a freshly made table does not behave like it. -/
theorem C68_refuted : ¬ (∀ (ops ops2 : List (LookupTable1D.Op ℚ ℚ)) (s : LookupTable1D ℚ ℚ),
    (LookupTable1D.execAll ⟨true⟩ ops).run (LookupTable1D.new ℚ ℚ .LINEAR) = (.ok (), s) →
    ((LookupTable1D.execAll ⟨true⟩ ops2).run (LookupTable1D.moveConstruct s)).1 = ((LookupTable1D.execAll ⟨true⟩ ops2).run s).1) := by
  intro h
  have h1 := h [] sampleOps _ rfl
  obtain ⟨s, hs⟩ := sampleOps_run
  rw [hs] at h1
  have : ((LookupTable1D.execAll ⟨true⟩ sampleOps).run (LookupTable1D.moveConstruct (LookupTable1D.new ℚ ℚ .LINEAR))).1 = .ub := by
    simp [sampleOps, LookupTable1D.execAll, LookupTable1D.exec, LookupTable1D.setX, LookupTable1D.addY, LookupTable1D.new, Act.run_bind,
      assocInsert, LookupTable1D.getNbSeries, LookupTable1D.moveConstruct]
  rw [this] at h1
  cases h1

end MU
