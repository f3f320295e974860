import Verif.Spec.LookupTable
import Verif.Lemmas.Interp1d
import Verif.Lemmas.Interp2d

/-! Lookup tables as refinements of the specification. -/

set_option linter.unusedSectionVars false

namespace MU

open Spec

section assoc
variable {V : Type}

/-- Names of a list of series with their positions, from `n`. -/
def indexMap : List (String × V) → Nat → List (String × Nat)
  | [], _ => []
  | (a, _) :: l, n => (a, n) :: indexMap l (n + 1)

theorem indexMap_append (L : List (String × V)) (a : String) (v : V) (n : Nat) :
    indexMap (L ++ [(a, v)]) n = indexMap L n ++ [(a, n + L.length)] := by
  induction L generalizing n with
  | nil => simp [indexMap]
  | cons e L ih =>
    obtain ⟨b, w⟩ := e
    simp only [List.cons_append, indexMap, ih, List.length_cons]
    rw [show n + 1 + L.length = n + (L.length + 1) by omega]

theorem indexMap_lookup_none (L : List (String × V)) (a : String) (n : Nat) :
    (indexMap L n).lookup a = none ↔ L.lookup a = none := by
  induction L generalizing n with
  | nil => simp [indexMap]
  | cons e L ih =>
    obtain ⟨b, w⟩ := e
    simp only [indexMap, List.lookup_cons]
    cases a == b <;> simp [ih]

theorem indexMap_lookup_some (L : List (String × V)) (a : String) (v : V) (n : Nat) (h : L.lookup a = some v) :
    ∃ i, (indexMap L n).lookup a = some (n + i) ∧ i < L.length ∧ L[i]? = some (a, v) := by
  induction L generalizing n with
  | nil => simp at h
  | cons e L ih =>
    obtain ⟨b, w⟩ := e
    simp only [indexMap, List.lookup_cons] at h ⊢
    by_cases hab : a == b
    · simp only [hab, if_true, Option.some.injEq] at h ⊢
      have : a = b := by simpa using hab
      subst this
      subst h
      exact ⟨0, by simp⟩
    · simp only [hab] at h ⊢
      obtain ⟨i, h1, h2, h3⟩ := ih (n + 1) h
      exact ⟨i + 1, by rw [h1]; congr 1; omega, by simpa using h2, by simpa using h3⟩

theorem lookup_append_other {L : List (String × V)} {a b : String} {v : V} (h : a ≠ b) :
    (L ++ [(b, v)]).lookup a = L.lookup a := by
  induction L with
  | nil => simp [h]
  | cons e L ih =>
    obtain ⟨c, w⟩ := e
    simp only [List.cons_append, List.lookup_cons, ih]

theorem lookup_append_same {L : List (String × V)} {b : String} {v : V} (h : L.lookup b = none) :
    (L ++ [(b, v)]).lookup b = some v := by
  induction L with
  | nil => simp
  | cons e L ih =>
    obtain ⟨c, w⟩ := e
    simp only [List.lookup_cons] at h
    by_cases hbc : b == c
    · simp [hbc] at h
    · simp only [hbc] at h
      simp only [List.cons_append, List.lookup_cons, hbc, ih h]

theorem lookup_append_some {L M : List (String × V)} {a : String} {v : V} (h : L.lookup a = some v) :
    (L ++ M).lookup a = some v := by
  induction L with
  | nil => simp at h
  | cons e L ih =>
    obtain ⟨c, w⟩ := e
    simp only [List.cons_append, List.lookup_cons] at h ⊢
    by_cases hbc : a == c
    · simpa [hbc] using h
    · simp only [hbc] at h ⊢; exact ih h

end assoc

namespace LookupTable1D

variable {K Y : Type} [Field K] [LinearOrder K] [AddCommGroup Y] [Module K Y]

/-- The object built by `AddY`. -/
def buildRun (B : Build) (e : List K × List Y) : Res Unit × Interp1d K Y :=
  (Interp1d.init B (some e.1) (some e.2)).run (Interp1d.fresh K Y)

/-- The table represents the specification state. -/
structure Rep (B : Build) (m : InterpMethod) (s : LookupTable1D K Y) (t : Lut1 K Y) : Prop where
  method : s.interp_method = some m
  X : s.Xcoords = t.X
  assoc : s.assoc = indexMap t.series 0
  ydata : s.Ydata = t.series.map (fun e => e.2.2)
  objs : ∃ kind, (t.series ≠ [] → Interp1d.make m = .ok kind) ∧
    s.interpolators = t.series.map (fun e => (kind, (buildRun B e.2).2))
  built : ∀ e ∈ t.series, (buildRun B e.2).1 = .ok ()

theorem Rep.new (B : Build) (m : InterpMethod) : Rep B m (LookupTable1D.new K Y m) Lut1.empty :=
  ⟨rfl, rfl, rfl, rfl, ⟨.linear, by simp [Lut1.empty], rfl⟩, by simp [Lut1.empty]⟩

theorem run_setX (X : List K) (s : LookupTable1D K Y) : (setX X).run s = (.ok (), { s with Xcoords := some X }) := rfl

/-- `AddY` with a name already in the map. -/
theorem run_addY_dup (B : Build) (s : LookupTable1D K Y) {name : String} {Yv : List Y} {i : Nat}
    (h : s.assoc.lookup name = some i) : (addY B name Yv).run s = (.ok false, s) := by
  simp [addY, Act.run_bind, assocInsert, h]

/-- `AddY` with a new name: all cases. -/
theorem run_addY_new (B : Build) (s : LookupTable1D K Y) {name : String} {Yv : List Y} (h : s.assoc.lookup name = none) :
    (addY B name Yv).run s =
      (Act.lift (readVar s.interp_method) >>= fun m => Act.lift (Interp1d.make m) >>= fun kind =>
        Act.lift ((Interp1d.init B s.Xcoords (some Yv)).run (Interp1d.fresh K Y)).1 >>= fun _ =>
        Act.update (fun s' => { s' with interpolators := s'.interpolators ++
          [(kind, ((Interp1d.init B s.Xcoords (some Yv)).run (Interp1d.fresh K Y)).2)] }) >>= fun _ => pure true).run
      { s with assoc := s.assoc ++ [(name, s.Ydata.length)], Ydata := s.Ydata ++ [Yv] } := by
  simp [addY, Act.run_bind, assocInsert, h, getNbSeries]

theorem Rep.addY {B : Build} {m : InterpMethod} {s s' : LookupTable1D K Y} {t : Lut1 K Y} (h : Rep B m s t) {name : String}
    {Yv : List Y} {b : Bool} (hr : (LookupTable1D.addY B name Yv).run s = (.ok b, s')) :
    Rep B m s' (t.step (.addY name Yv)) ∧ (b = true ↔ t.series.lookup name = none) := by
  cases hl : s.assoc.lookup name with
  | some i =>
    rw [run_addY_dup B s hl] at hr
    simp only [Prod.mk.injEq, Res.ok.injEq] at hr
    obtain ⟨rfl, rfl⟩ := hr
    have hs : t.series.lookup name ≠ none := by
      rw [h.assoc] at hl
      intro hc
      rw [(indexMap_lookup_none _ _ _).mpr hc] at hl
      simp at hl
    refine ⟨?_, by simp [hs]⟩
    have : t.step (.addY name Yv) = t := by
      simp only [Lut1.step]
      split
      · simp_all
      · rfl
    rw [this]
    exact h
  | none =>
    have hs : t.series.lookup name = none := (indexMap_lookup_none _ _ 0).mp (by rw [← h.assoc]; exact hl)
    rw [run_addY_new B s hl] at hr
    simp only [h.method, readVar_some] at hr
    cases hk : Interp1d.make m with
    | ok kind =>
      rw [Act.run_bind_ok (Act.run_lift _ _), hk, Act.run_bind_ok (Act.run_lift _ _)] at hr
      cases hX : s.Xcoords with
      | none =>
        rw [hX] at hr
        simp [Interp1d.init, Interp1d.initializeBase, Act.run_bind] at hr
      | some X =>
        rw [hX] at hr
        cases hi : (buildRun B (X, Yv)).1 with
        | ok u =>
          cases u
          have hi' := hi
          simp only [buildRun] at hi'
          rw [hi', Act.run_bind_ok (Act.run_lift _ _), Act.run_bind_ok (Act.run_update _ _), Act.run_pure] at hr
          simp only [Prod.mk.injEq, Res.ok.injEq] at hr
          obtain ⟨rfl, rfl⟩ := hr
          refine ⟨?_, by simp [hs]⟩
          have hstep : t.step (.addY name Yv) = { t with series := t.series ++ [(name, (X, Yv))] } := by
            simp only [Lut1.step, ← h.X, hX, hs]
          rw [hstep]
          obtain ⟨kind', hk', hobj⟩ := h.objs
          refine ⟨rfl, by simp [← h.X, hX], ?_, ?_, ⟨kind, fun _ => hk, ?_⟩, ?_⟩
          · simp only [h.assoc, h.ydata, indexMap_append]; simp
          · simp [h.ydata]
          · have e : t.series.map (fun e => (kind', (buildRun B e.2).2)) = t.series.map (fun e => (kind, (buildRun B e.2).2)) := by
              by_cases he : t.series = []
              · simp [he]
              · have := hk' he
                rw [hk] at this
                simp only [Res.ok.injEq] at this
                rw [this]
            simp only [hobj, e, List.map_append]
            rfl
          · intro e he
            simp only [List.mem_append, List.mem_singleton] at he
            rcases he with he | rfl
            · exact h.built e he
            · exact hi
        | _ =>
          simp only [buildRun] at hi
          rw [hi] at hr
          simp [Act.run_bind] at hr
    | _ => simp [Act.run_bind, hk] at hr

theorem Rep.exec {B : Build} {m : InterpMethod} {s s' : LookupTable1D K Y} {t : Lut1 K Y} (h : Rep B m s t) {op : Op K Y}
    (hr : (LookupTable1D.exec B op).run s = (.ok (), s')) : Rep B m s' (t.step op) := by
  cases op with
  | setX X =>
    simp only [LookupTable1D.exec, run_setX, Prod.mk.injEq, true_and] at hr
    subst hr
    exact ⟨h.method, rfl, h.assoc, h.ydata, h.objs, h.built⟩
  | addY name Yv =>
    simp only [LookupTable1D.exec, Act.run_bind] at hr
    cases ha : (LookupTable1D.addY B name Yv).run s with
    | mk r s1 =>
      rw [ha] at hr
      cases r with
      | ok b =>
        simp only [Act.run_pure, Prod.mk.injEq, true_and] at hr
        subst hr
        exact (h.addY ha).1
      | _ => simp at hr

theorem Rep.execAll {B : Build} {m : InterpMethod} {ops : List (Op K Y)} {s s' : LookupTable1D K Y} {t : Lut1 K Y} (h : Rep B m s t)
    (hr : (LookupTable1D.execAll B ops).run s = (.ok (), s')) : Rep B m s' (ops.foldl Lut1.step t) := by
  induction ops generalizing s t with
  | nil =>
    simp only [LookupTable1D.execAll, Act.run_pure, Prod.mk.injEq, true_and] at hr
    subst hr
    exact h
  | cons op ops ih =>
    simp only [LookupTable1D.execAll, Act.run_bind] at hr
    cases ha : (LookupTable1D.exec B op).run s with
    | mk r s1 =>
      rw [ha] at hr
      cases r with
      | ok u => exact ih (h.exec ha) hr
      | _ => simp at hr

theorem Rep.eval_some {B : Build} {m : InterpMethod} {s : LookupTable1D K Y} {t : Lut1 K Y} (h : Rep B m s t) {name : String}
    {X : List K} {Yv : List Y} (hl : t.series.lookup name = some (X, Yv)) :
    ∃ kind i, Interp1d.make m = .ok kind ∧ s.assoc.lookup name = some i ∧
      s.interpolators[i]? = some (kind, (buildRun B (X, Yv)).2) ∧ (buildRun B (X, Yv)).1 = .ok () := by
  obtain ⟨kind, hk, hobj⟩ := h.objs
  obtain ⟨i, h1, h2, h3⟩ := indexMap_lookup_some t.series name (X, Yv) 0 hl
  have hne : t.series ≠ [] := by intro hc; rw [hc] at h2; simp at h2
  refine ⟨kind, i, hk hne, by rw [h.assoc, h1]; simp, by rw [hobj]; simp [h3], ?_⟩
  exact h.built (name, (X, Yv)) (List.mem_of_getElem? h3)

end LookupTable1D

namespace LookupTable2d

variable {K : Type} [Field K] [LinearOrder K]

/-- The object built by `AddData`. -/
def buildRun (B : Build) (e : List K × List K × List K) : Res Unit × Interp2d K :=
  (Interp2d.init B (some e.1) (some e.2.1) (some e.2.2)).run (Interp2d.fresh K)

/-- The table represents the specification state. -/
structure Rep (B : Build) (s : LookupTable2d K) (t : Lut2 K) : Prop where
  X : s.Xcoords = t.X
  Y : s.Ycoords = t.Y
  assoc : s.assoc = indexMap t.series 0
  mdata : s.MData = t.series.map (fun e => e.2.2.2)
  objs : s.interpolators = t.series.map (fun e => (buildRun B e.2).2)
  built : ∀ e ∈ t.series, (buildRun B e.2).1 = .ok ()

theorem Rep.new (B : Build) : Rep B (LookupTable2d.new K) Lut2.empty :=
  ⟨rfl, rfl, rfl, rfl, rfl, by simp [Lut2.empty]⟩

/-- `AddData` with a name already in the map. -/
theorem run_addData_dup (B : Build) (s : LookupTable2d K) {name : String} {d : List K} {i : Nat}
    (h : s.assoc.lookup name = some i) : (addData B name d).run s = (.ok false, s) := by
  simp [addData, Act.run_bind, assocInsert, h]

/-- `AddData` with a new name: all cases. -/
theorem run_addData_new (B : Build) (s : LookupTable2d K) {name : String} {d : List K} (h : s.assoc.lookup name = none) :
    (addData B name d).run s =
      (Act.lift (Interp2d.make K s.interp_method) >>= fun o =>
        Act.lift ((Interp2d.init B s.Xcoords s.Ycoords (some d)).run o).1 >>= fun _ =>
        Act.update (fun s' => { s' with interpolators := s'.interpolators ++
          [((Interp2d.init B s.Xcoords s.Ycoords (some d)).run o).2] }) >>= fun _ => pure true).run
      { s with assoc := s.assoc ++ [(name, s.MData.length)], MData := s.MData ++ [d] } := by
  simp [addData, Act.run_bind, assocInsert, h, getNbSeries]

theorem make_eq {m : InterpMethod} {o : Interp2d K} (h : Interp2d.make K m = .ok o) : o = Interp2d.fresh K := by
  cases m <;> simp [Interp2d.make] at h
  exact h.symm

theorem Rep.addData {B : Build} {s s' : LookupTable2d K} {t : Lut2 K} (h : Rep B s t) {name : String}
    {d : List K} {b : Bool} (hr : (LookupTable2d.addData B name d).run s = (.ok b, s')) :
    Rep B s' (t.step (.addData name d)) ∧ (b = true ↔ t.series.lookup name = none) := by
  cases hl : s.assoc.lookup name with
  | some i =>
    rw [run_addData_dup B s hl] at hr
    simp only [Prod.mk.injEq, Res.ok.injEq] at hr
    obtain ⟨rfl, rfl⟩ := hr
    have hs : t.series.lookup name ≠ none := by
      rw [h.assoc] at hl
      intro hc
      rw [(indexMap_lookup_none _ _ _).mpr hc] at hl
      simp at hl
    refine ⟨?_, by simp [hs]⟩
    have : t.step (.addData name d) = t := by
      simp only [Lut2.step]
      split
      · simp_all
      · rfl
    rw [this]
    exact h
  | none =>
    have hs : t.series.lookup name = none := (indexMap_lookup_none _ _ 0).mp (by rw [← h.assoc]; exact hl)
    rw [run_addData_new B s hl] at hr
    cases hk : Interp2d.make K s.interp_method with
    | ok o =>
      obtain rfl := make_eq hk
      rw [hk, Act.run_bind_ok (Act.run_lift _ _)] at hr
      cases hX : s.Xcoords with
      | none =>
        rw [hX] at hr
        simp [Interp2d.init, Interp2d.initializeBase, Act.run_bind] at hr
      | some X =>
      cases hY : s.Ycoords with
      | none =>
        rw [hX, hY] at hr
        by_cases hXs : (B.checked = true → X.Pairwise (· ≤ ·))
        · simp [Interp2d.init, Interp2d.initializeBase, Act.run_bind, cassert_eq_ok.mpr hXs] at hr
        · have : cassert B (X.Pairwise (· ≤ ·)) = .aborts := by
            unfold cassert; rw [if_pos]; simpa using hXs
          simp [Interp2d.init, Interp2d.initializeBase, Act.run_bind, this] at hr
      | some Y =>
        rw [hX, hY] at hr
        cases hi : (buildRun B (X, Y, d)).1 with
        | ok u =>
          cases u
          have hi' := hi
          simp only [buildRun] at hi'
          rw [hi', Act.run_bind_ok (Act.run_lift _ _), Act.run_bind_ok (Act.run_update _ _), Act.run_pure] at hr
          simp only [Prod.mk.injEq, Res.ok.injEq] at hr
          obtain ⟨rfl, rfl⟩ := hr
          refine ⟨?_, by simp [hs]⟩
          have hstep : t.step (.addData name d) = { t with series := t.series ++ [(name, (X, Y, d))] } := by
            simp only [Lut2.step, ← h.X, ← h.Y, hX, hY, hs]
          rw [hstep]
          refine ⟨by simp [← h.X, hX], by simp [← h.Y, hY], ?_, ?_, ?_, ?_⟩
          · simp only [h.assoc, h.mdata, indexMap_append]; simp
          · simp [h.mdata]
          · simp only [h.objs, List.map_append]
            rfl
          · intro e he
            simp only [List.mem_append, List.mem_singleton] at he
            rcases he with he | rfl
            · exact h.built e he
            · exact hi
        | _ =>
          simp only [buildRun] at hi
          rw [hi] at hr
          simp [Act.run_bind] at hr
    | _ => simp [Act.run_bind, hk] at hr

theorem Rep.exec {B : Build} {s s' : LookupTable2d K} {t : Lut2 K} (h : Rep B s t) {op : Op K}
    (hr : (LookupTable2d.exec B op).run s = (.ok (), s')) : Rep B s' (t.step op) := by
  cases op with
  | setX X =>
    simp only [LookupTable2d.exec, setX, Act.run_update, Prod.mk.injEq, true_and] at hr
    subst hr
    exact ⟨rfl, h.Y, h.assoc, h.mdata, h.objs, h.built⟩
  | setY X =>
    simp only [LookupTable2d.exec, setY, Act.run_update, Prod.mk.injEq, true_and] at hr
    subst hr
    exact ⟨h.X, rfl, h.assoc, h.mdata, h.objs, h.built⟩
  | setMethod m =>
    simp only [LookupTable2d.exec, setInterpolationMethod, Act.run_update, Prod.mk.injEq, true_and] at hr
    subst hr
    exact ⟨h.X, h.Y, h.assoc, h.mdata, h.objs, h.built⟩
  | addData name d =>
    simp only [LookupTable2d.exec, Act.run_bind] at hr
    cases ha : (LookupTable2d.addData B name d).run s with
    | mk r s1 =>
      rw [ha] at hr
      cases r with
      | ok b =>
        simp only [Act.run_pure, Prod.mk.injEq, true_and] at hr
        subst hr
        exact (h.addData ha).1
      | _ => simp at hr

theorem Rep.execAll {B : Build} {ops : List (Op K)} {s s' : LookupTable2d K} {t : Lut2 K} (h : Rep B s t)
    (hr : (LookupTable2d.execAll B ops).run s = (.ok (), s')) : Rep B s' (ops.foldl Lut2.step t) := by
  induction ops generalizing s t with
  | nil =>
    simp only [LookupTable2d.execAll, Act.run_pure, Prod.mk.injEq, true_and] at hr
    subst hr
    exact h
  | cons op ops ih =>
    simp only [LookupTable2d.execAll, Act.run_bind] at hr
    cases ha : (LookupTable2d.exec B op).run s with
    | mk r s1 =>
      rw [ha] at hr
      cases r with
      | ok u => exact ih (h.exec ha) hr
      | _ => simp at hr

theorem Rep.eval_some {B : Build} {s : LookupTable2d K} {t : Lut2 K} (h : Rep B s t) {name : String}
    {X Y d : List K} (hl : t.series.lookup name = some (X, Y, d)) :
    ∃ i, s.assoc.lookup name = some i ∧ s.interpolators[i]? = some (buildRun B (X, Y, d)).2 ∧
      (buildRun B (X, Y, d)).1 = .ok () := by
  obtain ⟨i, h1, h2, h3⟩ := indexMap_lookup_some t.series name (X, Y, d) 0 hl
  refine ⟨i, by rw [h.assoc, h1]; simp, by rw [h.objs]; simp [h3], ?_⟩
  exact h.built (name, (X, Y, d)) (List.mem_of_getElem? h3)

end LookupTable2d
end MU
