import Verif.Model.OutOfMemory
import Verif.Lemmas.LookupTable

/-! Lookup tables when memory is exhausted: what each call does to the fields, whatever fails. -/

set_option linter.unusedSectionVars false

namespace MU

open Spec

theorem run_alloc {σ : Type} (fail : AllocSite → Bool) (p : AllocSite) (s : σ) :
    (alloc fail p : Act σ Unit).run s = (if fail p then .throws .badAlloc else .ok (), s) := rfl

theorem run_alloc_bind {σ α : Type} (fail : AllocSite → Bool) (p : AllocSite) (f : Unit → Act σ α) (s : σ) :
    (alloc fail p >>= f).run s = if fail p then (.throws .badAlloc, s) else (f ()).run s := by
  rw [Act.run_bind, run_alloc]
  cases fail p <;> rfl

theorem run_caught_ok {σ α : Type} {m : Act σ α} {s s' : σ} (h : (caught m).run s = (.ok (), s')) :
    ∃ r, m.run s = (r, s') ∧ ((∃ a, r = .ok a) ∨ ∃ e, r = .throws e) := by
  simp only [Act.run, caught] at h ⊢
  cases hm : m s with
  | mk r s1 =>
    rw [hm] at h
    cases r <;> simp at h
    · exact ⟨_, by rw [h], Or.inl ⟨_, rfl⟩⟩
    · exact ⟨_, by rw [h], Or.inr ⟨_, rfl⟩⟩

theorem run_caught_of_ok {σ α : Type} {m : Act σ α} {s s' : σ} {a : α} (h : m.run s = (.ok a, s')) : (caught m).run s = (.ok (), s') := by
  simp only [Act.run] at h
  simp only [Act.run, caught, h]

theorem run_caught_of_throws {σ α : Type} {m : Act σ α} {s s' : σ} {e : Exn} (h : m.run s = (.throws e, s')) :
    (caught m).run s = (.ok (), s') := by
  simp only [Act.run] at h
  simp only [Act.run, caught, h]

namespace LookupTable1D
variable {K Y : Type} [Field K] [LinearOrder K] [AddCommGroup Y] [Module K Y]

/-- The part of `AddY` after the insertion of the name, `s` being the table before the call. -/
def tailF (fail : AllocSite → Bool) (B : Build) (s : LookupTable1D K Y) (Yv : List Y) : Act (LookupTable1D K Y × Nat) Bool := do
  let m ← Act.lift (readVar s.interp_method)
  let kind ← Act.lift (Interp1d.make m)
  alloc fail .newInterp
  let r := (Interp1d.initF fail B s.Xcoords (some Yv)).run (Interp1d.fresh K Y)
  Act.update fun p => (p.1, p.2 + if r.1.isOk then 0 else 1)
  Act.lift r.1
  alloc fail .pushInterp
  Act.update fun p => ({ p.1 with interpolators := p.1.interpolators ++ [(kind, r.2)] }, p.2)
  return true

theorem run_addYF (fail : AllocSite → Bool) (B : Build) (name : String) (Yv : List Y) (s : LookupTable1D K Y) (n : Nat) :
    (addYF fail B name Yv).run (s, n) =
      if fail .arguments || fail .pair || fail .node then (.throws .badAlloc, (s, n))
      else if s.assoc.lookup name = none then
        if fail .makeShared || fail .pushData then
          (.throws .badAlloc, ({ s with assoc := s.assoc ++ [(name, s.Ydata.length)] }, n))
        else (tailF fail B s Yv).run ({ s with assoc := s.assoc ++ [(name, s.Ydata.length)], Ydata := s.Ydata ++ [Yv] }, n)
      else (.ok false, (s, n)) := by
  unfold addYF
  rw [run_alloc_bind]
  cases h1 : fail .arguments
  · simp only [Bool.false_eq_true, if_false, Bool.false_or]
    rw [Act.run_bind_ok (Act.run_get _)]
    simp only
    rw [run_alloc_bind]
    cases h2 : fail .pair
    · simp only [Bool.false_eq_true, if_false, Bool.false_or]
      rw [run_alloc_bind]
      cases h3 : fail .node
      · simp only [Bool.false_eq_true, if_false]
        cases hl : s.assoc.lookup name with
        | some i =>
          simp only [assocInsert, hl]
          rw [Act.run_bind_ok (Act.run_update _ _)]
          simp
        | none =>
          simp only [assocInsert, hl]
          rw [Act.run_bind_ok (Act.run_update _ _)]
          simp only [if_true]
          rw [run_alloc_bind]
          cases h4 : fail .makeShared
          · simp only [Bool.false_eq_true, if_false, Bool.false_or]
            rw [run_alloc_bind]
            cases h5 : fail .pushData
            · simp only [Bool.false_eq_true, if_false]
              rw [Act.run_bind_ok (Act.run_update _ _)]
              rfl
            · rfl
          · rfl
      · rfl
    · rfl
  · rfl

/-- What the tail of `AddY` does: it either adds an interpolator, or leaves the table alone; an object is lost only when the call fails. -/
theorem run_tailF {fail : AllocSite → Bool} {B : Build} {s : LookupTable1D K Y} {Yv : List Y} {t t' : LookupTable1D K Y} {n n' : Nat}
    {r : Res Bool} (h : (tailF fail B s Yv).run (t, n) = (r, (t', n'))) :
    (∃ m kind, s.interp_method = some m ∧ Interp1d.make m = .ok kind ∧ r = .ok true ∧ n' = n ∧
      ((Interp1d.initF fail B s.Xcoords (some Yv)).run (Interp1d.fresh K Y)).1 = .ok () ∧
      t' = { t with interpolators := t.interpolators ++
        [(kind, ((Interp1d.initF fail B s.Xcoords (some Yv)).run (Interp1d.fresh K Y)).2)] }) ∨
    (r.isOk = false ∧ t' = t ∧
      (n' = n ∨ (fail .newInterp = false ∧ n' = n + 1 ∧
        ((Interp1d.initF fail B s.Xcoords (some Yv)).run (Interp1d.fresh K Y)).1.isOk = false))) := by
  unfold tailF at h
  rw [Act.run_bind, Act.run_lift] at h
  cases hm : s.interp_method with
  | none => rw [hm] at h; simp at h; obtain ⟨rfl, rfl, rfl⟩ := h; right; simp [Res.isOk]
  | some m =>
    rw [hm] at h
    simp only [readVar_some] at h
    rw [Act.run_bind, Act.run_lift] at h
    cases hk : Interp1d.make m with
    | ok kind =>
      rw [hk] at h
      simp only at h
      rw [run_alloc_bind] at h
      cases h1 : fail .newInterp with
      | true => rw [h1] at h; simp at h; obtain ⟨rfl, rfl, rfl⟩ := h; right; simp [Res.isOk]
      | false =>
        rw [h1] at h
        simp only [Bool.false_eq_true, if_false] at h
        rw [Act.run_bind_ok (Act.run_update _ _), Act.run_bind, Act.run_lift] at h
        cases hi : ((Interp1d.initF fail B s.Xcoords (some Yv)).run (Interp1d.fresh K Y)).1 with
        | ok u =>
          rw [hi] at h
          simp only at h
          rw [run_alloc_bind] at h
          cases h2 : fail .pushInterp with
          | true => rw [h2] at h; simp at h; obtain ⟨rfl, rfl, rfl⟩ := h; right; simp [Res.isOk]
          | false =>
            rw [h2] at h
            simp only [Bool.false_eq_true, if_false] at h
            rw [Act.run_bind_ok (Act.run_update _ _)] at h
            simp only [Act.run_pure, Res.isOk_ok, if_true, Nat.add_zero, Prod.mk.injEq] at h
            obtain ⟨rfl, rfl, rfl⟩ := h
            left
            exact ⟨m, kind, rfl, hk, rfl, rfl, rfl, rfl⟩
        | _ =>
          rw [hi] at h
          simp [Res.isOk] at h
          obtain ⟨rfl, rfl, rfl⟩ := h
          right
          simp [Res.isOk]
    | _ =>
      rw [hk] at h
      simp at h
      obtain ⟨rfl, rfl, rfl⟩ := h
      right
      simp [Res.isOk]

/-- Whatever fails, `AddY` only adds at the end: to the map a name that was not there, to the interpolators a new one. -/
theorem addYF_grows {fail : AllocSite → Bool} {B : Build} {name : String} {Yv : List Y} {s s' : LookupTable1D K Y} {n n' : Nat} {r : Res Bool}
    (h : (addYF fail B name Yv).run (s, n) = (r, (s', n'))) :
    (∃ t, s'.assoc = s.assoc ++ t) ∧ (∃ l, s'.interpolators = s.interpolators ++ l) ∧ s'.Xcoords = s.Xcoords ∧
      s'.interp_method = s.interp_method ∧ (n' = n ∨ (n' = n + 1 ∧ r.isOk = false)) := by
  rw [run_addYF] at h
  split at h
  · simp only [Prod.mk.injEq] at h
    obtain ⟨rfl, rfl, rfl⟩ := h
    exact ⟨⟨[], by simp⟩, ⟨[], by simp⟩, rfl, rfl, Or.inl rfl⟩
  · split at h
    · split at h
      · simp only [Prod.mk.injEq] at h
        obtain ⟨rfl, rfl, rfl⟩ := h
        exact ⟨⟨_, rfl⟩, ⟨[], by simp⟩, rfl, rfl, Or.inl rfl⟩
      · rcases run_tailF h with ⟨m, kind, -, -, rfl, rfl, -, rfl⟩ | ⟨hr, rfl, hn⟩
        · exact ⟨⟨_, rfl⟩, ⟨_, rfl⟩, rfl, rfl, Or.inl rfl⟩
        · refine ⟨⟨_, rfl⟩, ⟨[], by simp⟩, rfl, rfl, ?_⟩
          rcases hn with hn | ⟨-, hn, -⟩
          · exact Or.inl hn
          · exact Or.inr ⟨hn, hr⟩
    · simp only [Prod.mk.injEq] at h
      obtain ⟨rfl, rfl, rfl⟩ := h
      exact ⟨⟨[], by simp⟩, ⟨[], by simp⟩, rfl, rfl, Or.inl rfl⟩

theorem run_setXF (fail : AllocSite → Bool) (X : List K) (s : LookupTable1D K Y) (n : Nat) :
    (setXF fail X).run (s, n) =
      if fail .arguments || fail .makeShared then (.throws .badAlloc, (s, n)) else (.ok (), ({ s with Xcoords := some X }, n)) := by
  unfold setXF
  rw [run_alloc_bind]
  cases fail .arguments
  · simp only [Bool.false_eq_true, if_false, Bool.false_or]
    rw [run_alloc_bind]
    cases fail .makeShared <;> rfl
  · rfl

theorem execF_grows {B : Build} {c : Op K Y × (AllocSite → Bool)} {s s' : LookupTable1D K Y} {n n' : Nat} {r : Res Unit}
    (h : (execF B c).run (s, n) = (r, (s', n'))) :
    (∃ t, s'.assoc = s.assoc ++ t) ∧ (∃ l, s'.interpolators = s.interpolators ++ l) ∧
      s'.interp_method = s.interp_method ∧ (n' = n ∨ (n' = n + 1 ∧ r.isOk = false)) := by
  obtain ⟨op, fail⟩ := c
  cases op with
  | setX X =>
    simp only [execF, run_setXF] at h
    split at h <;> (simp only [Prod.mk.injEq] at h; obtain ⟨rfl, rfl, rfl⟩ := h)
    · exact ⟨⟨[], by simp⟩, ⟨[], by simp⟩, rfl, Or.inl rfl⟩
    · exact ⟨⟨[], by simp⟩, ⟨[], by simp⟩, rfl, Or.inl rfl⟩
  | addY name Yv =>
    simp only [execF, Act.run_bind] at h
    cases ha : (addYF fail B name Yv).run (s, n) with
    | mk r1 p =>
      obtain ⟨s1, n1⟩ := p
      have hg := addYF_grows ha
      rw [ha] at h
      cases r1 <;> simp [Act.run_pure] at h <;> obtain ⟨rfl, rfl, rfl⟩ := h <;>
        exact ⟨hg.1, hg.2.1, hg.2.2.2.1, by simpa [Res.isOk] using hg.2.2.2.2⟩

theorem execAllF_grows {B : Build} {calls : List (Op K Y × (AllocSite → Bool))} {s s' : LookupTable1D K Y} {n n' : Nat}
    (h : (execAllF B calls).run (s, n) = (.ok (), (s', n'))) :
    (∃ t, s'.assoc = s.assoc ++ t) ∧ (∃ l, s'.interpolators = s.interpolators ++ l) ∧ s'.interp_method = s.interp_method := by
  induction calls generalizing s n with
  | nil =>
    simp only [execAllF, Act.run_pure, Prod.mk.injEq, true_and] at h
    obtain ⟨rfl, rfl⟩ := h
    exact ⟨⟨[], by simp⟩, ⟨[], by simp⟩, rfl⟩
  | cons c rest ih =>
    simp only [execAllF, Act.run_bind] at h
    cases hc : (caught (execF B c)).run (s, n) with
    | mk r p =>
      obtain ⟨s1, n1⟩ := p
      rw [hc] at h
      cases r with
      | ok u =>
        obtain ⟨r', hr', -⟩ := run_caught_ok hc
        obtain ⟨⟨t1, e1⟩, ⟨l1, e2⟩, e3, -⟩ := execF_grows hr'
        obtain ⟨⟨t2, f1⟩, ⟨l2, f2⟩, f3⟩ := ih h
        exact ⟨⟨t1 ++ t2, by rw [f1, e1, List.append_assoc]⟩, ⟨l1 ++ l2, by rw [f2, e2, List.append_assoc]⟩, f3.trans e3⟩
      | _ => simp at h

end LookupTable1D

namespace LookupTable2d
variable {K : Type} [Field K] [LinearOrder K]

/-- The part of `AddData` after the insertion of the name, `s` being the table before the call. -/
def tailF (fail : AllocSite → Bool) (B : Build) (s : LookupTable2d K) (d : List K) : Act (LookupTable2d K × Nat) Bool := do
  let o ← Act.lift (Interp2d.make K s.interp_method)
  alloc fail .newInterp
  let r := (Interp2d.initF fail B s.Xcoords s.Ycoords (some d)).run o
  Act.update fun p => (p.1, p.2 + if r.1.isOk then 0 else 1)
  Act.lift r.1
  alloc fail .pushInterp
  Act.update fun p => ({ p.1 with interpolators := p.1.interpolators ++ [r.2] }, p.2)
  return true

theorem run_addDataF (fail : AllocSite → Bool) (B : Build) (name : String) (d : List K) (s : LookupTable2d K) (n : Nat) :
    (addDataF fail B name d).run (s, n) =
      if fail .arguments || fail .pair || fail .node then (.throws .badAlloc, (s, n))
      else if s.assoc.lookup name = none then
        if fail .makeShared || fail .pushData then
          (.throws .badAlloc, ({ s with assoc := s.assoc ++ [(name, s.MData.length)] }, n))
        else (tailF fail B s d).run ({ s with assoc := s.assoc ++ [(name, s.MData.length)], MData := s.MData ++ [d] }, n)
      else (.ok false, (s, n)) := by
  unfold addDataF
  rw [run_alloc_bind]
  cases h1 : fail .arguments
  · simp only [Bool.false_eq_true, if_false, Bool.false_or]
    rw [Act.run_bind_ok (Act.run_get _)]
    simp only
    rw [run_alloc_bind]
    cases h2 : fail .pair
    · simp only [Bool.false_eq_true, if_false, Bool.false_or]
      rw [run_alloc_bind]
      cases h3 : fail .node
      · simp only [Bool.false_eq_true, if_false]
        cases hl : s.assoc.lookup name with
        | some i =>
          simp only [assocInsert, hl]
          rw [Act.run_bind_ok (Act.run_update _ _)]
          simp
        | none =>
          simp only [assocInsert, hl]
          rw [Act.run_bind_ok (Act.run_update _ _)]
          simp only [if_true]
          rw [run_alloc_bind]
          cases h4 : fail .makeShared
          · simp only [Bool.false_eq_true, if_false, Bool.false_or]
            rw [run_alloc_bind]
            cases h5 : fail .pushData
            · simp only [Bool.false_eq_true, if_false]
              rw [Act.run_bind_ok (Act.run_update _ _)]
              rfl
            · rfl
          · rfl
      · rfl
    · rfl
  · rfl

/-- What the tail of `AddData` does: it either adds an interpolator, or leaves the table alone; an object is lost only when the call fails. -/
theorem run_tailF {fail : AllocSite → Bool} {B : Build} {s : LookupTable2d K} {d : List K} {t t' : LookupTable2d K} {n n' : Nat}
    {r : Res Bool} (h : (tailF fail B s d).run (t, n) = (r, (t', n'))) :
    (s.interp_method = .LINEAR ∧ r = .ok true ∧ n' = n ∧
      ((Interp2d.initF fail B s.Xcoords s.Ycoords (some d)).run (Interp2d.fresh K)).1 = .ok () ∧
      t' = { t with interpolators := t.interpolators ++
        [((Interp2d.initF fail B s.Xcoords s.Ycoords (some d)).run (Interp2d.fresh K)).2] }) ∨
    (r.isOk = false ∧ t' = t ∧
      (n' = n ∨ (fail .newInterp = false ∧ n' = n + 1 ∧
        ((Interp2d.initF fail B s.Xcoords s.Ycoords (some d)).run (Interp2d.fresh K)).1.isOk = false))) := by
  unfold tailF at h
  rw [Act.run_bind, Act.run_lift] at h
  cases hk : Interp2d.make K s.interp_method with
  | ok o =>
    obtain rfl := make_eq hk
    have hlin : s.interp_method = .LINEAR := by
      cases hm : s.interp_method <;> rw [hm] at hk <;> simp [Interp2d.make] at hk
    rw [hk] at h
    simp only at h
    rw [run_alloc_bind] at h
    cases h1 : fail .newInterp with
    | true => rw [h1] at h; simp at h; obtain ⟨rfl, rfl, rfl⟩ := h; right; simp [Res.isOk]
    | false =>
      rw [h1] at h
      simp only [Bool.false_eq_true, if_false] at h
      rw [Act.run_bind_ok (Act.run_update _ _), Act.run_bind, Act.run_lift] at h
      cases hi : ((Interp2d.initF fail B s.Xcoords s.Ycoords (some d)).run (Interp2d.fresh K)).1 with
      | ok u =>
        rw [hi] at h
        simp only at h
        rw [run_alloc_bind] at h
        cases h2 : fail .pushInterp with
        | true => rw [h2] at h; simp at h; obtain ⟨rfl, rfl, rfl⟩ := h; right; simp [Res.isOk]
        | false =>
          rw [h2] at h
          simp only [Bool.false_eq_true, if_false] at h
          rw [Act.run_bind_ok (Act.run_update _ _)] at h
          simp only [Act.run_pure, Res.isOk_ok, if_true, Nat.add_zero, Prod.mk.injEq] at h
          obtain ⟨rfl, rfl, rfl⟩ := h
          left
          exact ⟨hlin, rfl, rfl, rfl, rfl⟩
      | _ =>
        rw [hi] at h
        simp [Res.isOk] at h
        obtain ⟨rfl, rfl, rfl⟩ := h
        right
        simp [Res.isOk]
  | _ =>
    rw [hk] at h
    simp at h
    obtain ⟨rfl, rfl, rfl⟩ := h
    right
    simp [Res.isOk]

/-- Whatever fails, `AddData` only adds at the end: to the map a name that was not there, to the interpolators a new one. -/
theorem addDataF_grows {fail : AllocSite → Bool} {B : Build} {name : String} {d : List K} {s s' : LookupTable2d K} {n n' : Nat} {r : Res Bool}
    (h : (addDataF fail B name d).run (s, n) = (r, (s', n'))) :
    (∃ t, s'.assoc = s.assoc ++ t) ∧ (∃ l, s'.interpolators = s.interpolators ++ l) ∧ s'.Xcoords = s.Xcoords ∧
      s'.Ycoords = s.Ycoords ∧ s'.interp_method = s.interp_method ∧ (n' = n ∨ (n' = n + 1 ∧ r.isOk = false)) := by
  rw [run_addDataF] at h
  split at h
  · simp only [Prod.mk.injEq] at h
    obtain ⟨rfl, rfl, rfl⟩ := h
    exact ⟨⟨[], by simp⟩, ⟨[], by simp⟩, rfl, rfl, rfl, Or.inl rfl⟩
  · split at h
    · split at h
      · simp only [Prod.mk.injEq] at h
        obtain ⟨rfl, rfl, rfl⟩ := h
        exact ⟨⟨_, rfl⟩, ⟨[], by simp⟩, rfl, rfl, rfl, Or.inl rfl⟩
      · rcases run_tailF h with ⟨-, rfl, rfl, -, rfl⟩ | ⟨hr, rfl, hn⟩
        · exact ⟨⟨_, rfl⟩, ⟨_, rfl⟩, rfl, rfl, rfl, Or.inl rfl⟩
        · refine ⟨⟨_, rfl⟩, ⟨[], by simp⟩, rfl, rfl, rfl, ?_⟩
          rcases hn with hn | ⟨-, hn, -⟩
          · exact Or.inl hn
          · exact Or.inr ⟨hn, hr⟩
    · simp only [Prod.mk.injEq] at h
      obtain ⟨rfl, rfl, rfl⟩ := h
      exact ⟨⟨[], by simp⟩, ⟨[], by simp⟩, rfl, rfl, rfl, Or.inl rfl⟩

theorem run_setXF (fail : AllocSite → Bool) (X : List K) (s : LookupTable2d K) (n : Nat) :
    (setXF fail X).run (s, n) =
      if fail .arguments || fail .makeShared then (.throws .badAlloc, (s, n)) else (.ok (), ({ s with Xcoords := some X }, n)) := by
  unfold setXF
  rw [run_alloc_bind]
  cases fail .arguments
  · simp only [Bool.false_eq_true, if_false, Bool.false_or]
    rw [run_alloc_bind]
    cases fail .makeShared <;> rfl
  · rfl

theorem run_setYF (fail : AllocSite → Bool) (Y : List K) (s : LookupTable2d K) (n : Nat) :
    (setYF fail Y).run (s, n) =
      if fail .arguments || fail .makeShared then (.throws .badAlloc, (s, n)) else (.ok (), ({ s with Ycoords := some Y }, n)) := by
  unfold setYF
  rw [run_alloc_bind]
  cases fail .arguments
  · simp only [Bool.false_eq_true, if_false, Bool.false_or]
    rw [run_alloc_bind]
    cases fail .makeShared <;> rfl
  · rfl

theorem execF_grows {B : Build} {c : Op K × (AllocSite → Bool)} {s s' : LookupTable2d K} {n n' : Nat} {r : Res Unit}
    (h : (execF B c).run (s, n) = (r, (s', n'))) :
    (∃ t, s'.assoc = s.assoc ++ t) ∧ (∃ l, s'.interpolators = s.interpolators ++ l) ∧
      (n' = n ∨ (n' = n + 1 ∧ r.isOk = false)) := by
  obtain ⟨op, fail⟩ := c
  cases op with
  | setX X =>
    simp only [execF, run_setXF] at h
    split at h <;> (simp only [Prod.mk.injEq] at h; obtain ⟨rfl, rfl, rfl⟩ := h)
    · exact ⟨⟨[], by simp⟩, ⟨[], by simp⟩, Or.inl rfl⟩
    · exact ⟨⟨[], by simp⟩, ⟨[], by simp⟩, Or.inl rfl⟩
  | setY Y =>
    simp only [execF, run_setYF] at h
    split at h <;> (simp only [Prod.mk.injEq] at h; obtain ⟨rfl, rfl, rfl⟩ := h)
    · exact ⟨⟨[], by simp⟩, ⟨[], by simp⟩, Or.inl rfl⟩
    · exact ⟨⟨[], by simp⟩, ⟨[], by simp⟩, Or.inl rfl⟩
  | setMethod m =>
    simp only [execF, Act.run_update, Prod.mk.injEq] at h
    obtain ⟨rfl, rfl, rfl⟩ := h
    exact ⟨⟨[], by simp⟩, ⟨[], by simp⟩, Or.inl rfl⟩
  | addData name d =>
    simp only [execF, Act.run_bind] at h
    cases ha : (addDataF fail B name d).run (s, n) with
    | mk r1 p =>
      obtain ⟨s1, n1⟩ := p
      have hg := addDataF_grows ha
      rw [ha] at h
      cases r1 <;> simp [Act.run_pure] at h <;> obtain ⟨rfl, rfl, rfl⟩ := h <;>
        exact ⟨hg.1, hg.2.1, by simpa [Res.isOk] using hg.2.2.2.2.2⟩

theorem execAllF_grows {B : Build} {calls : List (Op K × (AllocSite → Bool))} {s s' : LookupTable2d K} {n n' : Nat}
    (h : (execAllF B calls).run (s, n) = (.ok (), (s', n'))) :
    (∃ t, s'.assoc = s.assoc ++ t) ∧ (∃ l, s'.interpolators = s.interpolators ++ l) := by
  induction calls generalizing s n with
  | nil =>
    simp only [execAllF, Act.run_pure, Prod.mk.injEq, true_and] at h
    obtain ⟨rfl, rfl⟩ := h
    exact ⟨⟨[], by simp⟩, ⟨[], by simp⟩⟩
  | cons c rest ih =>
    simp only [execAllF, Act.run_bind] at h
    cases hc : (caught (execF B c)).run (s, n) with
    | mk r p =>
      obtain ⟨s1, n1⟩ := p
      rw [hc] at h
      cases r with
      | ok u =>
        obtain ⟨r', hr', -⟩ := run_caught_ok hc
        obtain ⟨⟨t1, e1⟩, ⟨l1, e2⟩, -⟩ := execF_grows hr'
        obtain ⟨⟨t2, f1⟩, ⟨l2, f2⟩⟩ := ih h
        exact ⟨⟨t1 ++ t2, by rw [f1, e1, List.append_assoc]⟩, ⟨l1 ++ l2, by rw [f2, e2, List.append_assoc]⟩⟩
      | _ => simp at h

end LookupTable2d
end MU
