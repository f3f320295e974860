import Verif.Props.LookupTable

/-!
# C220: the order, the names and the choice of the series of a lookup table
-/

set_option linter.unusedSectionVars false

namespace MU

open Spec

/-- The calls that load only the series chosen by `keep`, under the names given by `rename`. -/
def Spec.part1 {K Y : Type} (keep : String → Bool) (rename : String → String) : List (LookupTable1D.Op K Y) → List (LookupTable1D.Op K Y)
  | [] => []
  | .setX X :: ops => .setX X :: part1 keep rename ops
  | .addY name Yv :: ops => if keep name then .addY (rename name) Yv :: part1 keep rename ops else part1 keep rename ops

/-- The calls that load only the series chosen by `keep`, under the names given by `rename`. -/
def Spec.part2 {K : Type} (keep : String → Bool) (rename : String → String) : List (LookupTable2d.Op K) → List (LookupTable2d.Op K)
  | [] => []
  | .setX X :: ops => .setX X :: part2 keep rename ops
  | .setY Y :: ops => .setY Y :: part2 keep rename ops
  | .setMethod m :: ops => .setMethod m :: part2 keep rename ops
  | .addData name d :: ops => if keep name then .addData (rename name) d :: part2 keep rename ops else part2 keep rename ops

section lists
variable {V : Type}

theorem lookup_perm {L M : List (String × V)} (hp : L.Perm M) (hn : (L.map Prod.fst).Nodup) (a : String) : L.lookup a = M.lookup a := by
  have hm : (M.map Prod.fst).Nodup := (hp.map Prod.fst).nodup_iff.1 hn
  cases h : L.lookup a with
  | some v => exact (lookup_nodup_mem hm (hp.mem_iff.1 (mem_of_lookup h))).symm
  | none =>
    cases h' : M.lookup a with
    | none => rfl
    | some v =>
      rw [lookup_nodup_mem hn (hp.mem_iff.2 (mem_of_lookup h'))] at h
      simp at h

end lists

namespace LookupTable1D
variable {K Y : Type} [Field K] [LinearOrder K] [AddCommGroup Y] [Module K Y]

/-- The calls succeed on a table in state `t`. -/
def Loads (B : Build) (m : InterpMethod) : Lut1 K Y → List (Op K Y) → Prop
  | _, [] => True
  | t, .setX X :: ops => Loads B m (t.step (.setX X)) ops
  | t, .addY name Yv :: ops => (t.series.lookup name = none → (∃ kind, Interp1d.make m = .ok kind) ∧ ∃ X, t.X = some X ∧ (buildRun B (X, Yv)).1 = .ok ()) ∧
      Loads B m (t.step (.addY name Yv)) ops

theorem step_dup {t : Lut1 K Y} {name : String} {Yv : List Y} (h : t.series.lookup name ≠ none) : t.step (.addY name Yv) = t := by
  simp only [Lut1.step]
  split
  · simp_all
  · rfl

theorem step_new {t : Lut1 K Y} {name : String} {Yv : List Y} {X : List K} (hX : t.X = some X) (h : t.series.lookup name = none) :
    t.step (.addY name Yv) = { t with series := t.series ++ [(name, (X, Yv))] } := by
  simp only [Lut1.step, hX, h]

theorem addY_ok_iff {B : Build} {m : InterpMethod} {s : LookupTable1D K Y} {t : Lut1 K Y} (h : Rep B m s t) (name : String) (Yv : List Y) :
    (∃ b s', (addY B name Yv).run s = (.ok b, s')) ↔
      (t.series.lookup name = none → (∃ kind, Interp1d.make m = .ok kind) ∧ ∃ X, t.X = some X ∧ (buildRun B (X, Yv)).1 = .ok ()) := by
  cases hl : s.assoc.lookup name with
  | some i =>
    have hs : t.series.lookup name ≠ none := by
      rw [h.assoc] at hl
      intro hc
      rw [(indexMap_lookup_none _ _ _).mpr hc] at hl
      simp at hl
    simp [run_addY_dup B s hl, hs]
  | none =>
    have hs : t.series.lookup name = none := (indexMap_lookup_none _ _ 0).mp (by rw [← h.assoc]; exact hl)
    rw [run_addY_new B s hl]
    simp only [h.method, readVar_some, hs, forall_const, ← h.X]
    rw [Act.run_bind_ok (Act.run_lift _ _)]
    cases hk : Interp1d.make m with
    | ok kind =>
      rw [Act.run_bind_ok (Act.run_lift _ _)]
      cases hX : s.Xcoords with
      | none => simp [Interp1d.init, Interp1d.initializeBase, Act.run_bind]
      | some X =>
        cases hi : (buildRun B (X, Yv)).1 with
        | ok u =>
          have hi' := hi
          simp only [buildRun] at hi'
          rw [hi', Act.run_bind_ok (Act.run_lift _ _), Act.run_bind_ok (Act.run_update _ _), Act.run_pure]
          simp [hi]
        | _ =>
          have hi' := hi
          simp only [buildRun] at hi'
          rw [hi']
          simp [Act.run_bind, hi]
    | _ => simp [Act.run_bind]

theorem execAll_ok_iff {B : Build} {m : InterpMethod} (ops : List (Op K Y)) {s : LookupTable1D K Y} {t : Lut1 K Y} (h : Rep B m s t) :
    (∃ s', (execAll B ops).run s = (.ok (), s')) ↔ Loads B m t ops := by
  induction ops generalizing s t with
  | nil => simp [execAll, Loads]
  | cons op ops ih =>
    cases op with
    | setX X =>
      rw [execAll, exec, Act.run_bind_ok (run_setX X s), Loads]
      exact ih (h.exec (op := .setX X) rfl)
    | addY name Yv =>
      rw [Loads, ← addY_ok_iff h]
      constructor
      · rintro ⟨s', e⟩
        rw [execAll, exec, Act.run_bind, Act.run_bind] at e
        cases ha : (addY B name Yv).run s with
        | mk r s1 =>
          rw [ha] at e
          cases r with
          | ok b => exact ⟨⟨b, s1, rfl⟩, (ih (h.addY ha).1).1 ⟨s', e⟩⟩
          | _ => simp at e
      · rintro ⟨⟨b, s1, ha⟩, hr⟩
        obtain ⟨s', e⟩ := (ih (h.addY ha).1).2 hr
        refine ⟨s', ?_⟩
        rw [execAll, exec, Act.run_bind, Act.run_bind, ha]
        exact e

/-- The chosen series are in both states, and no others in the second one. -/
structure Matches (keep : String → Bool) (rename : String → String) (t t' : Lut1 K Y) : Prop where
  X : t'.X = t.X
  kept : ∀ n, keep n = true → t'.series.lookup (rename n) = t.series.lookup n
  only : ∀ a, (∀ n, keep n = true → rename n ≠ a) → t'.series.lookup a = none

theorem Matches.loads {B : Build} {m : InterpMethod} {keep : String → Bool} {rename : String → String} (hi : ∀ a b, keep a = true → keep b = true → rename a = rename b → a = b)
    (ops : List (Op K Y)) {t t' : Lut1 K Y} (h : Matches keep rename t t') (hl : Loads B m t ops) :
    Loads B m t' (part1 keep rename ops) ∧ Matches keep rename (ops.foldl Lut1.step t) ((part1 keep rename ops).foldl Lut1.step t') := by
  induction ops generalizing t t' with
  | nil => exact ⟨trivial, h⟩
  | cons op ops ih =>
    cases op with
    | setX X => exact ih (t' := t'.step (.setX X)) ⟨rfl, h.kept, h.only⟩ hl
    | addY name Yv =>
      obtain ⟨h1, h2⟩ := hl
      rw [part1]
      by_cases hk : keep name = true
      · rw [if_pos hk]
        have hn := h.kept name hk
        by_cases hs : t.series.lookup name = none
        · obtain ⟨hm, X, hX, hb⟩ := h1 hs
          have hX' := h.X.trans hX
          have hs' := hn.trans hs
          have := ih (t := t.step (.addY name Yv)) (t' := t'.step (.addY (rename name) Yv)) ⟨by
              rw [step_new hX hs, step_new hX' hs']; exact h.X, fun n kn => by
              rw [step_new hX hs, step_new hX' hs']
              by_cases e : n = name
              · subst e
                rw [lookup_append_same hs, lookup_append_same hs']
              · rw [lookup_append_other e, lookup_append_other (fun c => e (hi n name kn hk c)), h.kept n kn], fun a ha => by
              rw [step_new hX' hs', lookup_append_other (fun c => ha name hk c.symm)]
              exact h.only a ha⟩ h2
          exact ⟨⟨fun _ => ⟨hm, X, hX', hb⟩, this.1⟩, this.2⟩
        · have hs' : t'.series.lookup (rename name) ≠ none := by rwa [hn]
          rw [step_dup hs] at h2
          obtain ⟨l1, l2⟩ := ih h h2
          refine ⟨⟨fun c => absurd c hs', by rwa [step_dup hs']⟩, ?_⟩
          rw [List.foldl_cons, List.foldl_cons, step_dup hs, step_dup hs']
          exact l2
      · rw [if_neg hk, List.foldl_cons]
        refine ih ?_ h2
        by_cases hs : t.series.lookup name = none
        · obtain ⟨-, X, hX, -⟩ := h1 hs
          rw [step_new hX hs]
          refine ⟨h.X, fun n kn => ?_, h.only⟩
          rw [lookup_append_other (by rintro rfl; exact hk kn), h.kept n kn]
        · rw [step_dup hs]
          exact h

end LookupTable1D

namespace LookupTable2d
variable {K : Type} [Field K] [LinearOrder K]

/-- The calls succeed on a table in state `t` with method `m`. -/
def Loads (B : Build) : Lut2 K → InterpMethod → List (Op K) → Prop
  | _, _, [] => True
  | t, m, .setX X :: ops => Loads B (t.step (.setX X)) m ops
  | t, m, .setY Y :: ops => Loads B (t.step (.setY Y)) m ops
  | t, _, .setMethod m :: ops => Loads B t m ops
  | t, m, .addData name d :: ops => (t.series.lookup name = none → m = .LINEAR ∧ ∃ X Y, t.X = some X ∧ t.Y = some Y ∧ (buildRun B (X, Y, d)).1 = .ok ()) ∧
      Loads B (t.step (.addData name d)) m ops

theorem step_dup {t : Lut2 K} {name : String} {d : List K} (h : t.series.lookup name ≠ none) : t.step (.addData name d) = t := by
  simp only [Lut2.step]
  split
  · simp_all
  · rfl

theorem step_new {t : Lut2 K} {name : String} {d X Y : List K} (hX : t.X = some X) (hY : t.Y = some Y) (h : t.series.lookup name = none) :
    t.step (.addData name d) = { t with series := t.series ++ [(name, (X, Y, d))] } := by
  simp only [Lut2.step, hX, hY, h]

theorem method_addData {B : Build} {s s' : LookupTable2d K} {name : String} {d : List K} {b : Bool} (h : (addData B name d).run s = (.ok b, s')) :
    s'.interp_method = s.interp_method := by
  cases hl : s.assoc.lookup name with
  | some i =>
    rw [run_addData_dup B s hl] at h
    simp only [Prod.mk.injEq] at h
    rw [← h.2]
  | none =>
    rw [run_addData_new B s hl] at h
    cases hk : Interp2d.make K s.interp_method with
    | ok o =>
      rw [hk, Act.run_bind_ok (Act.run_lift _ _)] at h
      cases hi : ((Interp2d.init B s.Xcoords s.Ycoords (some d)).run o).1 with
      | ok u =>
        rw [hi, Act.run_bind_ok (Act.run_lift _ _), Act.run_bind_ok (Act.run_update _ _), Act.run_pure] at h
        simp only [Prod.mk.injEq] at h
        rw [← h.2]
      | _ =>
        rw [hi] at h
        simp [Act.run_bind] at h
    | _ => simp [Act.run_bind, hk] at h

theorem addData_ok_iff {B : Build} {s : LookupTable2d K} {t : Lut2 K} (h : Rep B s t) (name : String) (d : List K) :
    (∃ b s', (addData B name d).run s = (.ok b, s')) ↔
      (t.series.lookup name = none → s.interp_method = .LINEAR ∧ ∃ X Y, t.X = some X ∧ t.Y = some Y ∧ (buildRun B (X, Y, d)).1 = .ok ()) := by
  cases hl : s.assoc.lookup name with
  | some i =>
    have hs : t.series.lookup name ≠ none := by
      rw [h.assoc] at hl
      intro hc
      rw [(indexMap_lookup_none _ _ _).mpr hc] at hl
      simp at hl
    simp [run_addData_dup B s hl, hs]
  | none =>
    have hs : t.series.lookup name = none := (indexMap_lookup_none _ _ 0).mp (by rw [← h.assoc]; exact hl)
    rw [run_addData_new B s hl]
    simp only [hs, forall_const, ← h.X, ← h.Y]
    by_cases hm : s.interp_method = .LINEAR
    · rw [hm, Interp2d.make, Act.run_bind_ok (Act.run_lift _ _)]
      cases hX : s.Xcoords with
      | none => simp [Interp2d.init, Interp2d.initializeBase, Act.run_bind]
      | some X =>
        cases hY : s.Ycoords with
        | none =>
          by_cases hXs : (B.checked = true → X.Pairwise (· ≤ ·))
          · simp [Interp2d.init, Interp2d.initializeBase, Act.run_bind, cassert_eq_ok.mpr hXs]
          · have : cassert B (X.Pairwise (· ≤ ·)) = .aborts := by
              unfold cassert; rw [if_pos]; simpa using hXs
            simp [Interp2d.init, Interp2d.initializeBase, Act.run_bind, this]
        | some Y =>
          cases hi : (buildRun B (X, Y, d)).1 with
          | ok u =>
            have hi' := hi
            simp only [buildRun] at hi'
            rw [hi', Act.run_bind_ok (Act.run_lift _ _), Act.run_bind_ok (Act.run_update _ _), Act.run_pure]
            simp [hi]
          | _ =>
            have hi' := hi
            simp only [buildRun] at hi'
            rw [hi']
            simp [Act.run_bind, hi]
    · have : ∃ e, Interp2d.make K s.interp_method = .throws e := by
        cases hk : s.interp_method <;> simp [Interp2d.make, hk] at hm ⊢
      obtain ⟨e, he⟩ := this
      simp [he, hm, Act.run_bind]

theorem execAll_ok_iff {B : Build} (ops : List (Op K)) {s : LookupTable2d K} {t : Lut2 K} (h : Rep B s t) :
    (∃ s', (execAll B ops).run s = (.ok (), s')) ↔ Loads B t s.interp_method ops := by
  induction ops generalizing s t with
  | nil => simp [execAll, Loads]
  | cons op ops ih =>
    cases op with
    | setX X => exact ih (s := { s with Xcoords := some X }) (h.exec (op := .setX X) rfl)
    | setY X => exact ih (s := { s with Ycoords := some X }) (h.exec (op := .setY X) rfl)
    | setMethod m => exact ih (s := { s with interp_method := m }) (h.exec (op := .setMethod m) rfl)
    | addData name d =>
      rw [Loads, ← addData_ok_iff h]
      constructor
      · rintro ⟨s', e⟩
        rw [execAll, exec, Act.run_bind, Act.run_bind] at e
        cases ha : (addData B name d).run s with
        | mk r s1 =>
          rw [ha] at e
          cases r with
          | ok b => exact ⟨⟨b, s1, rfl⟩, method_addData ha ▸ (ih (h.addData ha).1).1 ⟨s', e⟩⟩
          | _ => simp at e
      · rintro ⟨⟨b, s1, ha⟩, hr⟩
        obtain ⟨s', e⟩ := (ih (h.addData ha).1).2 (by rw [method_addData ha]; exact hr)
        refine ⟨s', ?_⟩
        rw [execAll, exec, Act.run_bind, Act.run_bind, ha]
        exact e

/-- The chosen series are in both states, and no others in the second one. -/
structure Matches (keep : String → Bool) (rename : String → String) (t t' : Lut2 K) : Prop where
  X : t'.X = t.X
  Y : t'.Y = t.Y
  kept : ∀ n, keep n = true → t'.series.lookup (rename n) = t.series.lookup n
  only : ∀ a, (∀ n, keep n = true → rename n ≠ a) → t'.series.lookup a = none

theorem Matches.loads {B : Build} {keep : String → Bool} {rename : String → String} (hi : ∀ a b, keep a = true → keep b = true → rename a = rename b → a = b)
    (ops : List (Op K)) {t t' : Lut2 K} {m : InterpMethod} (h : Matches keep rename t t') (hl : Loads B t m ops) :
    Loads B t' m (part2 keep rename ops) ∧ Matches keep rename (ops.foldl Lut2.step t) ((part2 keep rename ops).foldl Lut2.step t') := by
  induction ops generalizing t t' m with
  | nil => exact ⟨trivial, h⟩
  | cons op ops ih =>
    cases op with
    | setX X => exact ih (t' := t'.step (.setX X)) ⟨rfl, h.Y, h.kept, h.only⟩ hl
    | setY X => exact ih (t' := t'.step (.setY X)) ⟨h.X, rfl, h.kept, h.only⟩ hl
    | setMethod m' => exact ih (t' := t') h hl
    | addData name d =>
      obtain ⟨h1, h2⟩ := hl
      rw [part2]
      by_cases hk : keep name = true
      · rw [if_pos hk]
        have hn := h.kept name hk
        by_cases hs : t.series.lookup name = none
        · obtain ⟨hm, X, Y, hX, hY, hb⟩ := h1 hs
          have hX' := h.X.trans hX
          have hY' := h.Y.trans hY
          have hs' := hn.trans hs
          have := ih (t := t.step (.addData name d)) (t' := t'.step (.addData (rename name) d)) ⟨by
              rw [step_new hX hY hs, step_new hX' hY' hs']; exact h.X, by
              rw [step_new hX hY hs, step_new hX' hY' hs']; exact h.Y, fun n kn => by
              rw [step_new hX hY hs, step_new hX' hY' hs']
              by_cases e : n = name
              · subst e
                rw [lookup_append_same hs, lookup_append_same hs']
              · rw [lookup_append_other e, lookup_append_other (fun c => e (hi n name kn hk c)), h.kept n kn], fun a ha => by
              rw [step_new hX' hY' hs', lookup_append_other (fun c => ha name hk c.symm)]
              exact h.only a ha⟩ h2
          exact ⟨⟨fun _ => ⟨hm, X, Y, hX', hY', hb⟩, this.1⟩, this.2⟩
        · have hs' : t'.series.lookup (rename name) ≠ none := by rwa [hn]
          rw [step_dup hs] at h2
          obtain ⟨l1, l2⟩ := ih h h2
          refine ⟨⟨fun c => absurd c hs', by rwa [step_dup hs']⟩, ?_⟩
          rw [List.foldl_cons, List.foldl_cons, step_dup hs, step_dup hs']
          exact l2
      · rw [if_neg hk, List.foldl_cons]
        refine ih ?_ h2
        by_cases hs : t.series.lookup name = none
        · obtain ⟨-, X, Y, hX, hY, -⟩ := h1 hs
          rw [step_new hX hY hs]
          refine ⟨h.X, h.Y, fun n kn => ?_, h.only⟩
          rw [lookup_append_other (by rintro rfl; exact hk kn), h.kept n kn]
        · rw [step_dup hs]
          exact h

end LookupTable2d

section oneD
variable {K Y : Type} [Field K] [LinearOrder K] [IsStrictOrderedRing K] [AddCommGroup Y] [Module K Y]

/-- C220, one variable: load only some of the series of a successful program, under other names (different ones for different series). The shorter program succeeds too, every
series kept has the same values (or refusals) under its new name, and no other name is known. In particular a series does not depend on the others. -/
theorem C220_part_1d (B : Build) (m : InterpMethod) (ops : List (LookupTable1D.Op K Y)) {s : LookupTable1D K Y}
    (hrun : (LookupTable1D.execAll B ops).run (LookupTable1D.new K Y m) = (.ok (), s)) (keep : String → Bool) (rename : String → String)
    (hi : ∀ a b, keep a = true → keep b = true → rename a = rename b → a = b) :
    ∃ s', (LookupTable1D.execAll B (part1 keep rename ops)).run (LookupTable1D.new K Y m) = (.ok (), s') ∧
      (∀ n x, keep n = true → s'.eval (rename n) x = s.eval n x) ∧
      ∀ a x, (∀ n, keep n = true → rename n ≠ a) → s'.eval a x = .throws .outOfRange := by
  have hr := LookupTable1D.Rep.new (K := K) (Y := Y) B m
  have hl := (LookupTable1D.execAll_ok_iff ops hr).1 ⟨s, hrun⟩
  obtain ⟨h1, h2⟩ := LookupTable1D.Matches.loads hi ops (t' := Lut1.empty) ⟨rfl, fun _ _ => rfl, fun _ _ => rfl⟩ hl
  obtain ⟨s', e⟩ := (LookupTable1D.execAll_ok_iff (part1 keep rename ops) hr).2 h1
  have e1 := (C11_refines_map B m _ hrun).1
  have e2 := (C11_refines_map B m _ e).1
  refine ⟨s', e, fun n x hn => ?_, fun a x ha => ?_⟩
  · rw [e1, e2, Lut1.after, Lut1.after, h2.kept n hn]
  · rw [e2, Lut1.after, h2.only a ha]

theorem loads_adds_1d (B : Build) (m : InterpMethod) (X : List K) (adds : List (String × List Y)) (t : Lut1 K Y) (hX : t.X = some X)
    (hn : (t.series.map Prod.fst ++ adds.map Prod.fst).Nodup) :
    (LookupTable1D.Loads B m t (adds.map fun e => .addY e.1 e.2) ↔
      ∀ e ∈ adds, (∃ kind, Interp1d.make m = .ok kind) ∧ (LookupTable1D.buildRun B (X, e.2)).1 = .ok ()) ∧
    (LookupTable1D.Loads B m t (adds.map fun e => .addY e.1 e.2) →
      (adds.map fun e => LookupTable1D.Op.addY e.1 e.2).foldl Lut1.step t = { t with series := t.series ++ adds.map fun e => (e.1, (X, e.2)) }) := by
  induction adds generalizing t with
  | nil => simp [LookupTable1D.Loads]
  | cons e adds ih =>
    have hnew : t.series.lookup e.1 = none := by
      cases h : t.series.lookup e.1 with
      | none => rfl
      | some v =>
        exfalso
        have := (List.nodup_append.1 hn).2.2 e.1 (List.mem_map.2 ⟨_, mem_of_lookup h, rfl⟩) e.1 (by simp)
        exact this rfl
    have hst := LookupTable1D.step_new (Yv := e.2) hX hnew
    have := ih (t.step (.addY e.1 e.2)) (by rw [hst]; exact hX) (by
      rw [hst]
      simpa [List.append_assoc] using hn)
    rw [List.map_cons, LookupTable1D.Loads]
    refine ⟨⟨fun h => ?_, fun h => ?_⟩, fun h => ?_⟩
    · obtain ⟨h1, X', hX', hb⟩ := h.1 hnew
      rw [hX] at hX'
      obtain rfl := Option.some.inj hX'
      intro e' he'
      rcases List.mem_cons.1 he' with rfl | he'
      · exact ⟨h1, hb⟩
      · exact this.1.1 h.2 e' he'
    · exact ⟨fun _ => ⟨(h e (by simp)).1, X, hX, (h e (by simp)).2⟩, this.1.2 (fun e' he' => h e' (List.mem_cons_of_mem _ he'))⟩
    · rw [List.foldl_cons, this.2 h.2, hst]
      simp

/-- C220, one variable: series of different names may be added in any order. If one order succeeds so does the other, and the two tables have the same values. -/
theorem C220_order_1d (B : Build) (m : InterpMethod) (X : List K) {adds adds' : List (String × List Y)} (hp : adds.Perm adds') (hn : (adds.map Prod.fst).Nodup)
    {s : LookupTable1D K Y} (hrun : (LookupTable1D.execAll B (.setX X :: adds.map fun e => .addY e.1 e.2)).run (LookupTable1D.new K Y m) = (.ok (), s)) :
    ∃ s', (LookupTable1D.execAll B (.setX X :: adds'.map fun e => .addY e.1 e.2)).run (LookupTable1D.new K Y m) = (.ok (), s') ∧
      (∀ n x, s'.eval n x = s.eval n x) ∧ s'.getNbSeries = s.getNbSeries := by
  have hr := LookupTable1D.Rep.new (K := K) (Y := Y) B m
  have hn' : (adds'.map Prod.fst).Nodup := (hp.map Prod.fst).nodup_iff.1 hn
  have l1 := loads_adds_1d B m X adds ((Lut1.empty : Lut1 K Y).step (.setX X)) rfl (by simpa [Lut1.step, Lut1.empty] using hn)
  have l2 := loads_adds_1d B m X adds' ((Lut1.empty : Lut1 K Y).step (.setX X)) rfl (by simpa [Lut1.step, Lut1.empty] using hn')
  have hl := (LookupTable1D.execAll_ok_iff _ hr).1 ⟨s, hrun⟩
  rw [LookupTable1D.Loads] at hl
  have hl' := l2.1.2 (fun e he => l1.1.1 hl e (hp.mem_iff.2 he))
  obtain ⟨s', e⟩ := (LookupTable1D.execAll_ok_iff (.setX X :: adds'.map fun e => .addY e.1 e.2) hr).2 (by rw [LookupTable1D.Loads]; exact hl')
  have e1 := C11_refines_map B m _ hrun
  have e2 := C11_refines_map B m _ e
  have a1 : (Lut1.after (.setX X :: adds.map fun e => .addY e.1 e.2) : Lut1 K Y).series = adds.map fun e => (e.1, (X, e.2)) := by
    rw [Lut1.after, List.foldl_cons, l1.2 hl]
    simp [Lut1.step, Lut1.empty]
  have a2 : (Lut1.after (.setX X :: adds'.map fun e => .addY e.1 e.2) : Lut1 K Y).series = adds'.map fun e => (e.1, (X, e.2)) := by
    rw [Lut1.after, List.foldl_cons, l2.2 hl']
    simp [Lut1.step, Lut1.empty]
  refine ⟨s', e, fun n x => ?_, ?_⟩
  · rw [e1.1, e2.1, a1, a2, lookup_perm (hp.map fun e => (e.1, (X, e.2))) (by simpa [List.map_map, Function.comp_def] using hn)]
  · rw [e1.2.1, e2.2.1, a1, a2, List.length_map, List.length_map, hp.length_eq]

end oneD

section twoD
variable {K : Type} [Field K] [LinearOrder K]

/-- C220, two variables: load only some of the series of a successful program, under other names (different ones for different series). The shorter program succeeds too, every
series kept has the same values (or refusals) under its new name, and no other name is known. -/
theorem C220_part_2d (B : Build) (ops : List (LookupTable2d.Op K)) {s : LookupTable2d K}
    (hrun : (LookupTable2d.execAll B ops).run (LookupTable2d.new K) = (.ok (), s)) (keep : String → Bool) (rename : String → String)
    (hi : ∀ a b, keep a = true → keep b = true → rename a = rename b → a = b) :
    ∃ s', (LookupTable2d.execAll B (part2 keep rename ops)).run (LookupTable2d.new K) = (.ok (), s') ∧
      (∀ n x y, keep n = true → s'.eval B (rename n) x y = s.eval B n x y) ∧
      (∀ n, keep n = true → s'.hasSerie (rename n) = s.hasSerie n) ∧
      ∀ a x y, (∀ n, keep n = true → rename n ≠ a) → s'.eval B a x y = .throws .outOfRange ∧ s'.hasSerie a = false := by
  have hr := LookupTable2d.Rep.new (K := K) B
  have hl := (LookupTable2d.execAll_ok_iff ops hr).1 ⟨s, hrun⟩
  obtain ⟨h1, h2⟩ := LookupTable2d.Matches.loads hi ops (t' := Lut2.empty) ⟨rfl, rfl, fun _ _ => rfl, fun _ _ => rfl⟩ hl
  obtain ⟨s', e⟩ := (LookupTable2d.execAll_ok_iff (part2 keep rename ops) hr).2 h1
  have e1 := C14_refines_map B _ hrun
  have e2 := C14_refines_map B _ e
  refine ⟨s', e, fun n x y hn => ?_, fun n hn => ?_, fun a x y ha => ⟨?_, ?_⟩⟩
  · rw [e1.1, e2.1, Lut2.after, Lut2.after, h2.kept n hn]
  · rw [Bool.eq_iff_iff, e1.2.1, e2.2.1, Lut2.after, Lut2.after, h2.kept n hn]
  · rw [e2.1, Lut2.after, h2.only a ha]
  · rw [← Bool.not_eq_true, e2.2.1, Lut2.after, h2.only a ha]
    simp

theorem loads_adds_2d (B : Build) (X Y : List K) (adds : List (String × List K)) (t : Lut2 K) (m : InterpMethod) (hX : t.X = some X) (hY : t.Y = some Y)
    (hn : (t.series.map Prod.fst ++ adds.map Prod.fst).Nodup) :
    (LookupTable2d.Loads B t m (adds.map fun e => .addData e.1 e.2) ↔ ∀ e ∈ adds, m = .LINEAR ∧ (LookupTable2d.buildRun B (X, Y, e.2)).1 = .ok ()) ∧
    (LookupTable2d.Loads B t m (adds.map fun e => .addData e.1 e.2) →
      (adds.map fun e => LookupTable2d.Op.addData e.1 e.2).foldl Lut2.step t = { t with series := t.series ++ adds.map fun e => (e.1, (X, Y, e.2)) }) := by
  induction adds generalizing t with
  | nil => simp [LookupTable2d.Loads]
  | cons e adds ih =>
    have hnew : t.series.lookup e.1 = none := by
      cases h : t.series.lookup e.1 with
      | none => rfl
      | some v =>
        exfalso
        have := (List.nodup_append.1 hn).2.2 e.1 (List.mem_map.2 ⟨_, mem_of_lookup h, rfl⟩) e.1 (by simp)
        exact this rfl
    have hst := LookupTable2d.step_new (d := e.2) hX hY hnew
    have := ih (t.step (.addData e.1 e.2)) (by rw [hst]; exact hX) (by rw [hst]; exact hY) (by
      rw [hst]
      simpa [List.append_assoc] using hn)
    rw [List.map_cons, LookupTable2d.Loads]
    refine ⟨⟨fun h => ?_, fun h => ?_⟩, fun h => ?_⟩
    · obtain ⟨h1, X', Y', hX', hY', hb⟩ := h.1 hnew
      rw [hX] at hX'
      rw [hY] at hY'
      obtain rfl := Option.some.inj hX'
      obtain rfl := Option.some.inj hY'
      intro e' he'
      rcases List.mem_cons.1 he' with rfl | he'
      · exact ⟨h1, hb⟩
      · exact this.1.1 h.2 e' he'
    · exact ⟨fun _ => ⟨(h e (by simp)).1, X, Y, hX, hY, (h e (by simp)).2⟩, this.1.2 (fun e' he' => h e' (List.mem_cons_of_mem _ he'))⟩
    · rw [List.foldl_cons, this.2 h.2, hst]
      simp

/-- C220, two variables: series of different names may be added in any order. If one order succeeds so does the other, and the two tables have the same values. -/
theorem C220_order_2d (B : Build) (X Y : List K) {adds adds' : List (String × List K)} (hp : adds.Perm adds') (hn : (adds.map Prod.fst).Nodup)
    {s : LookupTable2d K} (hrun : (LookupTable2d.execAll B (.setX X :: .setY Y :: adds.map fun e => .addData e.1 e.2)).run (LookupTable2d.new K) = (.ok (), s)) :
    ∃ s', (LookupTable2d.execAll B (.setX X :: .setY Y :: adds'.map fun e => .addData e.1 e.2)).run (LookupTable2d.new K) = (.ok (), s') ∧
      (∀ n x y, s'.eval B n x y = s.eval B n x y) ∧ (∀ n, s'.hasSerie n = s.hasSerie n) ∧ s'.getNbSeries = s.getNbSeries := by
  have hr := LookupTable2d.Rep.new (K := K) B
  have hn' : (adds'.map Prod.fst).Nodup := (hp.map Prod.fst).nodup_iff.1 hn
  have l1 := loads_adds_2d B X Y adds (((Lut2.empty : Lut2 K).step (.setX X)).step (.setY Y)) (LookupTable2d.new K).interp_method rfl rfl (by
    simpa [Lut2.step, Lut2.empty] using hn)
  have l2 := loads_adds_2d B X Y adds' (((Lut2.empty : Lut2 K).step (.setX X)).step (.setY Y)) (LookupTable2d.new K).interp_method rfl rfl (by
    simpa [Lut2.step, Lut2.empty] using hn')
  have hl := (LookupTable2d.execAll_ok_iff _ hr).1 ⟨s, hrun⟩
  rw [LookupTable2d.Loads, LookupTable2d.Loads] at hl
  have hl' := l2.1.2 (fun e he => l1.1.1 hl e (hp.mem_iff.2 he))
  obtain ⟨s', e⟩ := (LookupTable2d.execAll_ok_iff (.setX X :: .setY Y :: adds'.map fun e => .addData e.1 e.2) hr).2 (by
    rw [LookupTable2d.Loads, LookupTable2d.Loads]; exact hl')
  have e1 := C14_refines_map B _ hrun
  have e2 := C14_refines_map B _ e
  have a1 : (Lut2.after (.setX X :: .setY Y :: adds.map fun e => .addData e.1 e.2) : Lut2 K).series = adds.map fun e => (e.1, (X, Y, e.2)) := by
    rw [Lut2.after, List.foldl_cons, List.foldl_cons, l1.2 hl]
    simp [Lut2.step, Lut2.empty]
  have a2 : (Lut2.after (.setX X :: .setY Y :: adds'.map fun e => .addData e.1 e.2) : Lut2 K).series = adds'.map fun e => (e.1, (X, Y, e.2)) := by
    rw [Lut2.after, List.foldl_cons, List.foldl_cons, l2.2 hl']
    simp [Lut2.step, Lut2.empty]
  have hlk : ∀ n, (adds.map fun e => (e.1, (X, Y, e.2))).lookup n = (adds'.map fun e => (e.1, (X, Y, e.2))).lookup n :=
    lookup_perm (hp.map fun e => (e.1, (X, Y, e.2))) (by simpa [List.map_map, Function.comp_def] using hn)
  refine ⟨s', e, fun n x y => ?_, fun n => ?_, ?_⟩
  · rw [e1.1, e2.1, a1, a2, hlk]
  · rw [Bool.eq_iff_iff, e1.2.1, e2.2.1, a1, a2, hlk]
  · rw [e1.2.2.1, e2.2.2.1, a1, a2, List.length_map, List.length_map, hp.length_eq]

end twoD

/-! ## The hypotheses are met -/

/-- Two series added in the two orders; the second one alone, under another name. -/
example : ∃ s s' s'' : LookupTable1D ℚ ℚ,
    (LookupTable1D.execAll ⟨true⟩ [.setX [0, 1], .addY "a" [3, 4], .addY "b" [5, 7]]).run (LookupTable1D.new ℚ ℚ .LINEAR) = (.ok (), s) ∧
    (LookupTable1D.execAll ⟨true⟩ [.setX [0, 1], .addY "b" [5, 7], .addY "a" [3, 4]]).run (LookupTable1D.new ℚ ℚ .LINEAR) = (.ok (), s') ∧
    (LookupTable1D.execAll ⟨true⟩ [.setX [0, 1], .addY "c" [5, 7]]).run (LookupTable1D.new ℚ ℚ .LINEAR) = (.ok (), s'') ∧
    (∀ n x, s'.eval n x = s.eval n x) ∧ (∀ x, s''.eval "c" x = s.eval "b" x) ∧ ∀ x, s''.eval "a" x = .throws .outOfRange := by
  have i1 := Interp1d.run_init ⟨true⟩ (xs := ([0, 1] : List ℚ)) (ys := ([3, 4] : List ℚ)) (by simp) rfl (by simp) (Interp1d.fresh ℚ ℚ)
  have i2 := Interp1d.run_init ⟨true⟩ (xs := ([0, 1] : List ℚ)) (ys := ([5, 7] : List ℚ)) (by simp) rfl (by simp) (Interp1d.fresh ℚ ℚ)
  obtain ⟨s, hs⟩ := (LookupTable1D.execAll_ok_iff [.setX [0, 1], .addY "a" [3, 4], .addY "b" [5, 7]] (LookupTable1D.Rep.new (K := ℚ) (Y := ℚ) ⟨true⟩ .LINEAR)).2 (by
    refine ⟨fun _ => ⟨⟨_, rfl⟩, _, rfl, ?_⟩, fun _ => ⟨⟨_, rfl⟩, _, rfl, ?_⟩, trivial⟩
    · rw [LookupTable1D.buildRun, i1]
    · rw [LookupTable1D.buildRun, i2])
  obtain ⟨s', h1, h2, -⟩ := C220_order_1d ⟨true⟩ .LINEAR [0, 1] (adds := [("a", [3, 4]), ("b", [5, 7])]) (adds' := [("b", [5, 7]), ("a", [3, 4])]) (List.Perm.swap _ _ _)
    (by simp) hs
  obtain ⟨s'', h3, h4, h5⟩ := C220_part_1d ⟨true⟩ .LINEAR _ hs (fun n => n == "b") (fun _ => "c") (by simp)
  exact ⟨s, s', s'', hs, h1, h3, h2, fun x => h4 "b" x (by simp), fun x => h5 "a" x (by simp)⟩

/-- Two series on a table of two variables, in the two orders. -/
example : ∃ s s' : LookupTable2d ℚ,
    (LookupTable2d.execAll ⟨true⟩ [.setX [0, 1], .setY [0, 1], .addData "a" [1, 2, 3, 4], .addData "b" [5, 6, 7, 8]]).run (LookupTable2d.new ℚ) = (.ok (), s) ∧
    (LookupTable2d.execAll ⟨true⟩ [.setX [0, 1], .setY [0, 1], .addData "b" [5, 6, 7, 8], .addData "a" [1, 2, 3, 4]]).run (LookupTable2d.new ℚ) = (.ok (), s') ∧
    ∀ n x y, s'.eval ⟨true⟩ n x y = s.eval ⟨true⟩ n x y := by
  have i : ∀ d : List ℚ, d.length = 4 → (LookupTable2d.buildRun ⟨true⟩ ([0, 1], [0, 1], d)).1 = .ok () := fun d hd => by
    rw [LookupTable2d.buildRun, Interp2d.run_init ⟨true⟩ (xs := ([0, 1] : List ℚ)) (ys := [0, 1]) (by simp) (by simp) (by simp) (by simp) (by simp [hd])]
  obtain ⟨s, hs⟩ := (LookupTable2d.execAll_ok_iff [.setX [0, 1], .setY [0, 1], .addData "a" [1, 2, 3, 4], .addData "b" [5, 6, 7, 8]]
    (LookupTable2d.Rep.new (K := ℚ) ⟨true⟩)).2 ⟨fun _ => ⟨rfl, _, _, rfl, rfl, i _ rfl⟩, fun _ => ⟨rfl, _, _, rfl, rfl, i _ rfl⟩, trivial⟩
  obtain ⟨s', h1, h2, -⟩ := C220_order_2d ⟨true⟩ [0, 1] [0, 1] (adds := [("a", [1, 2, 3, 4]), ("b", [5, 6, 7, 8])])
    (adds' := [("b", [5, 6, 7, 8]), ("a", [1, 2, 3, 4])]) (List.Perm.swap _ _ _) (by simp) hs
  exact ⟨s, s', hs, h1, h2⟩

end MU
