import Verif.Model.ThreadTables
import Verif.Lemmas.Threads

set_option linter.unusedSectionVars false

/-!
# C154, C155: lookup tables shared by threads
-/

namespace MU

namespace Spec

/-- What the client of a table distinguishes in it. -/
inductive Part where
  | x
  | y
  | method
  | series
  deriving DecidableEq

/-- One of the two calls changes a part that the other uses or changes. -/
def Conflict {P : Type} (uses changes uses' changes' : List P) : Prop :=
  ∃ p, (p ∈ changes ∧ (p ∈ uses' ∨ p ∈ changes')) ∨ (p ∈ changes' ∧ (p ∈ uses ∨ p ∈ changes))

section
variable {K Y : Type}

/-- The parts of a `LookupTable1D` that a call looks at; `has`: the names of the series that are there. -/
def uses1 (has : String → Bool) : LookupTable1D.Call K Y → List Part
  | .eval _ _ | .evalVec _ _ | .evalAll _ _ | .getXmin _ | .getXmax _ | .getNbSeries => [.series]
  | .getX | .getNbSample => [.x]
  | .setX _ => []
  | .addY name _ => if has name then [.series] else [.x, .method]

/-- The parts of a `LookupTable1D` that a call changes. -/
def changes1 (has : String → Bool) : LookupTable1D.Call K Y → List Part
  | .setX _ => [.x]
  | .addY name _ => if has name then [] else [.series]
  | _ => []

/-- There is a series of this name. -/
def _root_.MU.LookupTable1D.has (s : LookupTable1D K Y) (name : String) : Bool := (s.assoc.lookup name).isSome

/-- The two calls, made on the table `s`, touch the same part of it, and one of them changes it. -/
def Clash1 (s : LookupTable1D K Y) (c d : LookupTable1D.Call K Y) : Prop :=
  Conflict (uses1 s.has c) (changes1 s.has c) (uses1 s.has d) (changes1 s.has d)

/-- The parts of a `LookupTable2d` that a call looks at. `SetInterpolationMethod` looks whether there are series. -/
def uses2 (has : String → Bool) : LookupTable2d.Call K → List Part
  | .eval _ _ _ | .evalVec _ _ | .hasSerie _ | .getNbSeries | .setMethod _ => [.series]
  | .getX => [.x]
  | .getY => [.y]
  | .getNbSample => [.x, .y]
  | .setX _ | .setY _ => []
  | .addData name _ => if has name then [.series] else [.x, .y, .method]

/-- The parts of a `LookupTable2d` that a call changes. -/
def changes2 (has : String → Bool) : LookupTable2d.Call K → List Part
  | .setX _ => [.x]
  | .setY _ => [.y]
  | .setMethod _ => [.method]
  | .addData name _ => if has name then [] else [.series]
  | _ => []

/-- There is a series of this name. -/
def _root_.MU.LookupTable2d.has (s : LookupTable2d K) (name : String) : Bool := (s.assoc.lookup name).isSome

/-- The two calls, made on the table `s`, touch the same part of it, and one of them changes it. -/
def Clash2 (s : LookupTable2d K) (c d : LookupTable2d.Call K) : Prop :=
  Conflict (uses2 s.has c) (changes2 s.has c) (uses2 s.has d) (changes2 s.has d)

end
end Spec

open Spec

theorem assocInsert_flag {V : Type} (m : List (String × V)) (name : String) (v : V) : (assocInsert m name v).2 = (m.lookup name).isNone := by
  unfold assocInsert
  cases m.lookup name <;> rfl

namespace Prog
variable {σ : Type} {Λ : Layout σ} {α β : Type}

/-- A call made of reads and of a computation, and the sequential version of it. -/
theorem run_lift_pair (r : Res α) (f : α → Prog Λ β) (g : α → Res β) (s : σ) (h : ∀ a, r = .ok a → (f a).run s = (g a, s)) :
    (Prog.lift r >>= f).run s = (r >>= g, s) := by
  cases r with
  | ok a => exact h a rfl
  | throws e => rfl
  | exits c => rfl
  | aborts => rfl
  | ub => rfl
  | nonfinite => rfl

theorem run_bind_pair {p : Prog Λ α} {r : Res α} {s : σ} (hp : p.run s = (r, s)) (f : α → Prog Λ β) (g : α → Res β)
    (h : ∀ a, r = .ok a → (f a).run s = (g a, s)) : (p >>= f).run s = (r >>= g, s) := by
  rw [run_bind, hp]
  cases r with
  | ok a => exact h a rfl
  | throws e => rfl
  | exits c => rfl
  | aborts => rfl
  | ub => rfl
  | nonfinite => rfl

theorem lift_same {α β : Type} (r : Res α) (f : α → Prog Λ β) (g : α → Act σ β) (s : σ)
    (h : ∀ a, r = .ok a → (f a).run s = (g a).run s) : (Prog.lift r >>= f).run s = (Act.lift r >>= g).run s := by
  cases r with
  | ok a => exact h a rfl
  | throws e => rfl
  | exits c => rfl
  | aborts => rfl
  | ub => rfl
  | nonfinite => rfl

end Prog

theorem Res.map_eq_bind {α β : Type} (f : α → β) (x : Res α) : f <$> x = x >>= fun a => Res.ok (f a) := by
  cases x <;> rfl

theorem Act.bind_map {σ α β : Type} (m : Act σ α) (f : α → β) (s : σ) :
    (m >>= fun a => pure (f a) : Act σ β).run s = (f <$> (m.run s).1, (m.run s).2) := by
  rw [Act.run_bind]
  rcases m.run s with ⟨r, s'⟩
  cases r <;> rfl

/-! ## C154: `LookupTable1D` -/

namespace LookupTable1D
variable {K Y : Type}

theorem layout_lawful : (layout K Y).Lawful where
  get_set l v s := by cases l <;> rfl
  get_set_ne l l' v s h := by cases l <;> cases l' <;> first | rfl | exact absurd rfl h
  ext s s' h := by
    have h1 := h .method
    have h2 := h .x
    have h3 := h .assoc
    have h4 := h .ydata
    have h5 := h .interps
    cases s
    cases s'
    cases h1
    cases h2
    cases h3
    cases h4
    cases h5
    rfl

/-- The part a field belongs to. -/
def Member.part : Member → Part
  | .method => .method
  | .x => .x
  | .assoc | .ydata | .interps => .series

/-- The fields read by a call. -/
def reads (s : LookupTable1D K Y) (c : Call K Y) (l : Member) : Prop := l.part ∈ uses1 (has s) c ∨ l.part ∈ changes1 (has s) c

/-- The fields assigned by a call. -/
def writes (s : LookupTable1D K Y) (c : Call K Y) (l : Member) : Prop := l.part ∈ changes1 (has s) c

theorem run_rMethod {β : Type} (f : Option InterpMethod → Prog (layout K Y) β) (s : LookupTable1D K Y) :
    (rMethod >>= f).run s = (f s.interp_method).run s := rfl
theorem run_rX {β : Type} (f : Option (List K) → Prog (layout K Y) β) (s : LookupTable1D K Y) : (rX >>= f).run s = (f s.Xcoords).run s := rfl
theorem run_rAssoc {β : Type} (f : List (String × Nat) → Prog (layout K Y) β) (s : LookupTable1D K Y) :
    (rAssoc >>= f).run s = (f s.assoc).run s := rfl
theorem run_rYdata {β : Type} (f : List (List Y) → Prog (layout K Y) β) (s : LookupTable1D K Y) : (rYdata >>= f).run s = (f s.Ydata).run s := rfl
theorem run_rInterps {β : Type} (f : List (Interp1dObj K Y) → Prog (layout K Y) β) (s : LookupTable1D K Y) :
    (rInterps >>= f).run s = (f s.interpolators).run s := rfl
theorem run_wAssoc {β : Type} (v : List (String × Nat)) (f : Unit → Prog (layout K Y) β) (s : LookupTable1D K Y) :
    (wAssoc v >>= f).run s = (f ()).run { s with assoc := v } := rfl
theorem run_wYdata {β : Type} (v : List (List Y)) (f : Unit → Prog (layout K Y) β) (s : LookupTable1D K Y) :
    (wYdata v >>= f).run s = (f ()).run { s with Ydata := v } := rfl
theorem run_wInterps {β : Type} (v : List (Interp1dObj K Y)) (f : Unit → Prog (layout K Y) β) (s : LookupTable1D K Y) :
    (wInterps v >>= f).run s = (f ()).run { s with interpolators := v } := rfl

theorem findP_run (name : String) (s : LookupTable1D K Y) :
    (findP name).run s = (getIndex s name >>= fun i => vAt s.interpolators i, s) := by
  unfold findP
  rw [run_rAssoc]
  exact Prog.run_lift_pair _ _ _ s (fun i _ => rfl)

variable [Field K] [LinearOrder K] [AddCommGroup Y] [Module K Y]

theorem find_eval {β : Type} (name : String) (s : LookupTable1D K Y) (f : Interp1dObj K Y → Res β) (g : β → Answer K Y) (h : Res β)
    (hh : h = getIndex s name >>= fun i => vAt s.interpolators i >>= f) :
    (findP name >>= fun o => Prog.lift (f o) >>= fun v => pure (g v)).run s = (g <$> h, s) := by
  rw [Prog.run_bind_pair (findP_run name s) _ (fun o => f o >>= fun v => .ok (g v)) (fun o _ => Prog.run_lift_pair _ _ _ s (fun v _ => rfl)), hh,
    Res.map_eq_bind]
  simp only [bind_assoc]

theorem evalAllP_run (x : K) (l : List (String × Nat)) (s : LookupTable1D K Y) : (evalAllP x l).run s = (evalAll s x l, s) := by
  induction l with
  | nil => rfl
  | cons p rest ih =>
    obtain ⟨name, idx⟩ := p
    rw [evalAllP, run_rInterps, evalAll]
    refine Prog.run_lift_pair _ _ _ s (fun o _ => Prog.run_lift_pair _ _ _ s (fun y _ => ?_))
    exact Prog.run_bind_pair ih _ _ (fun out _ => rfl)

section hidden
attribute [local irreducible] Interp1d.init Interp1d.make Interp1d.eval MU.vAt MU.vIdx

theorem addYP_run (B : Build) (name : String) (Yv : List Y) (s : LookupTable1D K Y) : (addYP B name Yv).run s = (addY (K := K) B name Yv).run s := by
  unfold addYP addY getNbSeries
  rw [run_rYdata, run_rAssoc, Act.run_get_bind, Act.run_update_bind]
  by_cases h : (assocInsert s.assoc name s.Ydata.length).2 = true
  · simp only [h, if_true]
    rw [run_wAssoc, run_rYdata, run_wYdata, run_rMethod, Act.run_update_bind]
    refine Prog.lift_same _ _ _ _ (fun m _ => Prog.lift_same _ _ _ _ (fun kind _ => ?_))
    rw [run_rX]
    refine Prog.lift_same _ _ _ _ (fun _ _ => ?_)
    rfl
  · simp only [h, if_false]
    have : (assocInsert s.assoc name s.Ydata.length).1 = s.assoc := by
      unfold assocInsert at h ⊢
      cases hl : s.assoc.lookup name with
      | none => simp [hl] at h
      | some v => rfl
    rw [this]
    rfl

theorem calls_run (B : Build) (c : Call K Y) (s : LookupTable1D K Y) : (c.prog B).run s = (c.seq B).run s := by
  cases c with
  | eval name x =>
    exact find_eval name s (fun o => Interp1d.eval o.1 o.2 x) Answer.value _ rfl
  | evalVec name xv =>
    exact find_eval name s (fun o => Interp1d.evalVec o.1 o.2 xv) Answer.values _ rfl
  | getXmin name =>
    exact find_eval name s (fun o => readVar o.2.xmin) Answer.abscissa _ rfl
  | getXmax name =>
    exact find_eval name s (fun o => readVar o.2.xmax) Answer.abscissa _ rfl
  | evalAll order x =>
    show (evalAllP x (order s.assoc) >>= _).run s = (Answer.series <$> evalAll s x (order s.assoc), s)
    rw [Prog.run_bind_pair (evalAllP_run x _ s) _ (fun l => .ok (.series l)) (fun _ _ => rfl), Res.map_eq_bind]
  | getX =>
    show (Prog.lift (deref s.Xcoords) >>= _).run s = (Answer.abscissae <$> deref s.Xcoords, s)
    rw [Prog.run_lift_pair _ _ (fun l => .ok (.abscissae l)) s (fun _ _ => rfl), Res.map_eq_bind]
  | getNbSeries => rfl
  | getNbSample =>
    show (Prog.lift (deref s.Xcoords) >>= _).run s = (Answer.count <$> (deref s.Xcoords >>= fun xs => .ok xs.length), s)
    rw [Prog.run_lift_pair _ _ (fun l => .ok (.count l.length)) s (fun _ _ => rfl), Res.map_eq_bind]
    cases deref s.Xcoords <;> rfl
  | setX X => rfl
  | addY name Yv =>
    show (addYP B name Yv >>= fun b => pure (Answer.added b)).run s = (addY B name Yv >>= fun b => pure (Answer.added b)).run s
    rw [Prog.run_bind, Act.run_bind, addYP_run]
    rcases (addY B name Yv).run s with ⟨r, s'⟩
    cases r <;> rfl

end hidden

theorem has_eq (s : LookupTable1D K Y) (name : String) (n : Nat) : (assocInsert s.assoc name n).2 = !has s name := by
  rw [assocInsert_flag, has]
  cases s.assoc.lookup name <;> rfl

theorem findP_foot {R W : Member → Prop} (h1 : R .assoc) (h2 : R .interps) (name : String) (s : LookupTable1D K Y) :
    (findP name).Foot (Λ := layout K Y) R W s := by
  exact Prog.foot_bind rAssoc _ ⟨h1, trivial⟩ (fun _ _ _ => Prog.foot_bind _ _ trivial
    (fun _ _ _ => Prog.foot_bind rInterps _ ⟨h2, trivial⟩ (fun _ _ _ => trivial)))

theorem evalAllP_foot {R W : Member → Prop} (h2 : R .interps) (x : K) (l : List (String × Nat)) (s : LookupTable1D K Y) :
    (evalAllP x l).Foot (Λ := layout K Y) R W s := by
  induction l generalizing s with
  | nil => trivial
  | cons p rest ih =>
    obtain ⟨name, idx⟩ := p
    exact Prog.foot_bind rInterps _ ⟨h2, trivial⟩ (fun _ _ _ => Prog.foot_bind _ _ trivial (fun _ _ _ => Prog.foot_bind _ _ trivial
      (fun _ _ _ => Prog.foot_bind _ _ (ih _) (fun _ _ _ => trivial))))

theorem addYP_foot (B : Build) (name : String) (Yv : List Y) (s : LookupTable1D K Y) :
    (addYP B name Yv).Foot (Λ := layout K Y) (reads s (.addY name Yv)) (writes s (.addY name Yv)) s := by
  cases h : has s name with
  | true =>
    have hR : ∀ l : Member, l.part = .series → reads s (.addY name Yv) l := by
      intro l hl
      left
      simp [uses1, h, hl]
    refine ⟨hR _ rfl, hR _ rfl, ?_⟩
    show Prog.Foot _ _ (if (assocInsert s.assoc name s.Ydata.length).2 = true then _ else _) s
    rw [has_eq, h]
    trivial
  | false =>
    have hR : ∀ l : Member, reads s (.addY name Yv) l := by
      intro l
      unfold reads
      cases l <;> simp [uses1, changes1, h, Member.part]
    have hW : ∀ l : Member, l.part = .series → writes s (.addY name Yv) l := by
      intro l hl
      unfold writes
      simp [changes1, h, hl]
    generalize reads s (.addY name Yv) = R at *
    generalize writes s (.addY name Yv) = W at *
    refine ⟨hR _, hR _, ?_⟩
    show Prog.Foot _ _ (if (assocInsert s.assoc name s.Ydata.length).2 = true then _ else _) s
    rw [has_eq, h, Bool.not_false, if_pos rfl]
    refine Prog.foot_bind (wAssoc _) _ ⟨hW _ rfl, trivial⟩ (fun _ _ _ => ?_)
    refine Prog.foot_bind rYdata _ ⟨hR _, trivial⟩ (fun _ _ _ => ?_)
    refine Prog.foot_bind (wYdata _) _ ⟨hW _ rfl, trivial⟩ (fun _ _ _ => ?_)
    refine Prog.foot_bind rMethod _ ⟨hR _, trivial⟩ (fun _ _ _ => ?_)
    refine Prog.foot_bind (Prog.lift _) _ trivial (fun _ _ _ => ?_)
    refine Prog.foot_bind (Prog.lift _) _ trivial (fun _ _ _ => ?_)
    refine Prog.foot_bind rX _ ⟨hR _, trivial⟩ (fun _ _ _ => ?_)
    refine Prog.foot_bind (Prog.lift _) _ trivial (fun _ _ _ => ?_)
    refine Prog.foot_bind rInterps _ ⟨hR _, trivial⟩ (fun _ _ _ => ?_)
    exact Prog.foot_bind (wInterps _) _ ⟨hW _ rfl, trivial⟩ (fun _ _ _ => trivial)

theorem prog_foot (B : Build) (c : Call K Y) (s : LookupTable1D K Y) :
    (c.prog B).Foot (Λ := layout K Y) (reads s c) (writes s c) s := by
  have hR : ∀ l : Member, l.part ∈ uses1 (has s) c → reads s c l := fun l hl => Or.inl hl
  cases c with
  | eval name x =>
    exact Prog.foot_bind _ _ (findP_foot (hR _ (by simp [uses1, Member.part])) (hR _ (by simp [uses1, Member.part])) name s)
      (fun _ _ _ => Prog.foot_bind _ _ trivial (fun _ _ _ => trivial))
  | evalVec name x =>
    exact Prog.foot_bind _ _ (findP_foot (hR _ (by simp [uses1, Member.part])) (hR _ (by simp [uses1, Member.part])) name s)
      (fun _ _ _ => Prog.foot_bind _ _ trivial (fun _ _ _ => trivial))
  | getXmin name =>
    exact Prog.foot_bind _ _ (findP_foot (hR _ (by simp [uses1, Member.part])) (hR _ (by simp [uses1, Member.part])) name s)
      (fun _ _ _ => Prog.foot_bind _ _ trivial (fun _ _ _ => trivial))
  | getXmax name =>
    exact Prog.foot_bind _ _ (findP_foot (hR _ (by simp [uses1, Member.part])) (hR _ (by simp [uses1, Member.part])) name s)
      (fun _ _ _ => Prog.foot_bind _ _ trivial (fun _ _ _ => trivial))
  | evalAll order x =>
    have h1 := hR .assoc (by simp [uses1, Member.part])
    have h2 := hR .interps (by simp [uses1, Member.part])
    have h3 := hR .ydata (by simp [uses1, Member.part])
    exact Prog.foot_bind rYdata _ ⟨h3, trivial⟩ (fun _ _ _ => Prog.foot_bind rAssoc _ ⟨h1, trivial⟩
      (fun _ _ _ => Prog.foot_bind _ _ (evalAllP_foot h2 x _ _) (fun _ _ _ => trivial)))
  | getX =>
    exact Prog.foot_bind rX _ ⟨hR _ (by simp [uses1, Member.part]), trivial⟩
      (fun _ _ _ => Prog.foot_bind _ _ trivial (fun _ _ _ => trivial))
  | getNbSample =>
    exact Prog.foot_bind rX _ ⟨hR _ (by simp [uses1, Member.part]), trivial⟩
      (fun _ _ _ => Prog.foot_bind _ _ trivial (fun _ _ _ => trivial))
  | getNbSeries => exact ⟨hR _ (by simp [uses1, Member.part]), trivial⟩
  | setX X => exact ⟨by simp [writes, changes1, Member.part], trivial⟩
  | addY name Yv => exact Prog.foot_bind _ _ (addYP_foot B name Yv s) (fun _ _ _ => trivial)

theorem no_clash {ι : Type} [DecidableEq ι] (B : Build) (s : LookupTable1D K Y) (c : ι → Call K Y)
    (h : ∀ i j, i ≠ j → ¬ Clash1 s (c i) (c j)) : Serializable (fun i => (c i).prog B) s := by
  refine Prog.foot_serializable layout_lawful (fun i => reads s (c i)) (fun i => writes s (c i)) s _ (fun i => prog_foot B (c i) s) ?_
  intro i j l hij hw
  have := h i j hij
  constructor
  · rintro (hr | hr)
    · exact this ⟨_, Or.inl ⟨hw, Or.inl hr⟩⟩
    · exact this ⟨_, Or.inl ⟨hw, Or.inr hr⟩⟩
  · intro hr
    exact this ⟨_, Or.inl ⟨hw, Or.inr hr⟩⟩

/-! ### Races -/

theorem addY_reads (B : Build) (name : String) (Yv : List Y) (s : LookupTable1D K Y) :
    Prog.GetsR (·.Accesses Member.assoc) ((Call.addY name Yv).prog B) s :=
  .read (.here (Or.inl ⟨_, rfl⟩))

theorem addY_assoc (B : Build) (name : String) (Yv : List Y) (s : LookupTable1D K Y) (h : has s name = false) :
    Prog.Gets (·.Writes Member.assoc) ((Call.addY name Yv).prog B) s := by
  refine .read (.read ?_)
  show Prog.Gets _ (Prog.bind (if (assocInsert s.assoc name s.Ydata.length).2 = true then _ else _) _) s
  rw [has_eq, h, Bool.not_false, if_pos rfl]
  exact .here ⟨_, _, rfl⟩

theorem addY_ydata (B : Build) (name : String) (Yv : List Y) (s : LookupTable1D K Y) (h : has s name = false) :
    Prog.Gets (·.Writes Member.ydata) ((Call.addY name Yv).prog B) s := by
  refine .read (.read ?_)
  show Prog.Gets _ (Prog.bind (if (assocInsert s.assoc name s.Ydata.length).2 = true then _ else _) _) s
  rw [has_eq, h, Bool.not_false, if_pos rfl]
  exact .write (.read (.here ⟨_, _, rfl⟩))

/-- `AddY` of a new name looks at the abscissae if it comes so far. -/
theorem addY_x (B : Build) (name : String) (Yv : List Y) (s : LookupTable1D K Y) (h : has s name = false) :
    Prog.GetsOk (·.Accesses Member.x) ((Call.addY name Yv).prog B) s := by
  refine .read (.read ?_)
  show Prog.GetsOk _ (Prog.bind (if (assocInsert s.assoc name s.Ydata.length).2 = true then _ else _) _) s
  rw [has_eq, h, Bool.not_false, if_pos rfl]
  exact .write (.read (.write (.read (.lift fun _ => .lift fun _ => .lift fun _ => .here (Or.inl ⟨_, rfl⟩)))))

theorem race_series (B : Build) (c : Call K Y) (name : String) (Yv : List Y) (s : LookupTable1D K Y) (h : has s name = false)
    (hc : Part.series ∈ uses1 (has s) c ∨ Part.series ∈ changes1 (has s) c) : Prog.CanRace (c.prog B) ((Call.addY name Yv).prog B) s := by
  cases c with
  | eval _ _ => exact Prog.canRace_rw Member.assoc (.here (Or.inl ⟨_, rfl⟩)) (addY_assoc B name Yv s h)
  | evalVec _ _ => exact Prog.canRace_rw Member.assoc (.here (Or.inl ⟨_, rfl⟩)) (addY_assoc B name Yv s h)
  | evalAll _ _ => exact Prog.canRace_rw Member.ydata (.here (Or.inl ⟨_, rfl⟩)) (addY_ydata B name Yv s h)
  | getXmin _ => exact Prog.canRace_rw Member.assoc (.here (Or.inl ⟨_, rfl⟩)) (addY_assoc B name Yv s h)
  | getXmax _ => exact Prog.canRace_rw Member.assoc (.here (Or.inl ⟨_, rfl⟩)) (addY_assoc B name Yv s h)
  | getNbSeries => exact Prog.canRace_rw Member.ydata (.here (Or.inl ⟨_, rfl⟩)) (addY_ydata B name Yv s h)
  | addY _ _ => exact Prog.canRace_rw Member.assoc (addY_reads B _ _ s) (addY_assoc B name Yv s h)
  | getX => simp [uses1, changes1] at hc
  | getNbSample => simp [uses1, changes1] at hc
  | setX _ => simp [uses1, changes1] at hc

theorem race_x (B : Build) (c : Call K Y) (X : List K) (s : LookupTable1D K Y) (ho : ∃ a, ((c.seq B).run s).1 = .ok a)
    (hc : Part.x ∈ uses1 (has s) c ∨ Part.x ∈ changes1 (has s) c) : Prog.CanRace ((Call.setX X).prog B) (c.prog B) s := by
  cases c with
  | eval _ _ => simp [uses1, changes1] at hc
  | evalVec _ _ => simp [uses1, changes1] at hc
  | evalAll _ _ => simp [uses1, changes1] at hc
  | getXmin _ => simp [uses1, changes1] at hc
  | getXmax _ => simp [uses1, changes1] at hc
  | getNbSeries => simp [uses1, changes1] at hc
  | addY name Yv =>
    cases h : has s name with
    | true => simp [uses1, changes1, h] at hc
    | false =>
      rw [← calls_run] at ho
      exact Prog.canRace_wr Member.x (.here ⟨_, _, rfl⟩) (addY_x B name Yv s h ho)
  | getX => exact Prog.canRace_wr Member.x (.here ⟨_, _, rfl⟩) (.here (Or.inl ⟨_, rfl⟩))
  | getNbSample => exact Prog.canRace_wr Member.x (.here ⟨_, _, rfl⟩) (.here (Or.inl ⟨_, rfl⟩))
  | setX _ => exact Prog.canRace_wr Member.x (.here ⟨_, _, rfl⟩) (.here (Or.inr ⟨_, _, rfl⟩))

theorem race_changes (B : Build) (c d : Call K Y) (s : LookupTable1D K Y) (ho : ∃ a, ((d.seq B).run s).1 = .ok a) (p : Part)
    (hp : p ∈ changes1 (has s) c) (hd : p ∈ uses1 (has s) d ∨ p ∈ changes1 (has s) d) : Prog.CanRace (c.prog B) (d.prog B) s := by
  cases c with
  | addY name Yv =>
    cases h : has s name with
    | true => simp [changes1, h] at hp
    | false =>
      have : p = .series := by simpa [changes1, h] using hp
      subst this
      exact (race_series B d name Yv s h hd).symm
  | setX X =>
    have : p = .x := by simpa [changes1] using hp
    subst this
    exact race_x B d X s ho hd
  | eval _ _ => simp [changes1] at hp
  | evalVec _ _ => simp [changes1] at hp
  | evalAll _ _ => simp [changes1] at hp
  | getXmin _ => simp [changes1] at hp
  | getXmax _ => simp [changes1] at hp
  | getNbSeries => simp [changes1] at hp
  | getX => simp [changes1] at hp
  | getNbSample => simp [changes1] at hp

theorem clash_races (B : Build) (c d : Call K Y) (s : LookupTable1D K Y) (h : Clash1 s c d) (hc : ∃ a, ((c.seq B).run s).1 = .ok a)
    (hd : ∃ a, ((d.seq B).run s).1 = .ok a) : Prog.CanRace (c.prog B) (d.prog B) s := by
  obtain ⟨p, ⟨h1, h2⟩ | ⟨h1, h2⟩⟩ := h
  · exact race_changes B c d s hd p h1 h2
  · exact (race_changes B d c s hc p h1 h2).symm

end LookupTable1D

section
variable {K Y : Type} [Field K] [LinearOrder K] [AddCommGroup Y] [Module K Y]

/-- **C154**: the program of accesses of a call on a `LookupTable1D`, run alone, is the call. -/
theorem C154_calls (B : Build) (c : LookupTable1D.Call K Y) (s : LookupTable1D K Y) : (c.prog B).run s = (c.seq B).run s :=
  LookupTable1D.calls_run B c s

/-- **C154**: threads that share a `LookupTable1D` and of whose calls no two clash: in every schedule there is no data race, each gets the result of its
call made alone, and the table is left as by the calls made one after the other, in whatever order. -/
theorem C154_serializable {ι : Type} [DecidableEq ι] (B : Build) (s : LookupTable1D K Y) (c : ι → LookupTable1D.Call K Y)
    (h : ∀ i j, i ≠ j → ¬ Clash1 s (c i) (c j)) : Serializable (fun i => (c i).prog B) s :=
  LookupTable1D.no_clash B s c h

/-- **C154**: two calls that clash, each of which returns when made alone: some schedule has a data race, whatever the other threads do. -/
theorem C154_races {ι : Type} [DecidableEq ι] (B : Build) (s : LookupTable1D K Y) (c : ι → LookupTable1D.Call K Y) (i j : ι) (hij : i ≠ j)
    (h : Clash1 s (c i) (c j)) (hi : ∃ a, (((c i).seq B).run s).1 = .ok a) (hj : ∃ a, (((c j).seq B).run s).1 = .ok a) :
    ∃ ts' s', Reach (fun i => (c i).prog B, s) (ts', s') ∧ Race ts' :=
  LookupTable1D.clash_races B _ _ s h hi hj ι _ i j _ hij rfl rfl

end

/-- A table with one series. -/
def sharedTable : LookupTable1D ℚ ℚ :=
  ((LookupTable1D.execAll ⟨true⟩ [.setX [0, 1, 3], .addY "a" [5, 7, 1]]).run (LookupTable1D.new ℚ ℚ .LINEAR)).2

/-- One thread replaces the abscissae of the table, any number of threads evaluate the series there is, or try to add it again. -/
example : Serializable (fun i : Option ℕ => ((match i with
      | none => .setX [7, 8]
      | some 0 => .addY "a" [0, 0, 0]
      | some n => .eval "a" (n : ℚ)) : LookupTable1D.Call ℚ ℚ).prog ⟨true⟩) sharedTable ∧
    sharedTable.eval "a" 2 = .ok 4 := by
  refine ⟨C154_serializable _ _ _ (fun i j hij => ?_), by decide +kernel⟩
  have ha : sharedTable.has "a" = true := by decide +kernel
  rcases i with _ | _ | i <;> rcases j with _ | _ | j <;> simp [Clash1, Conflict, uses1, changes1, ha] at hij ⊢

/-- Adding a new series while another thread evaluates one that is there. -/
example : ∃ ts' s', Reach (fun i : Bool => ((if i then .addY "b" [1, 2, 3] else .eval "a" 2) : LookupTable1D.Call ℚ ℚ).prog ⟨true⟩, sharedTable) (ts', s') ∧
    Race ts' := by
  have hb : sharedTable.has "b" = false := by decide +kernel
  refine C154_races ⟨true⟩ sharedTable (fun i : Bool => if i then .addY "b" [1, 2, 3] else .eval "a" 2) true false (by decide) ?_ ?_ ?_
  · exact ⟨.series, Or.inl ⟨by simp [changes1, hb], Or.inl (by simp [uses1])⟩⟩
  · refine ⟨.added true, ?_⟩
    have h : ((LookupTable1D.addY ⟨true⟩ "b" ([1, 2, 3] : List ℚ)).run sharedTable).1 = .ok true := by decide +kernel
    show (((LookupTable1D.addY ⟨true⟩ "b" ([1, 2, 3] : List ℚ)) >>= fun b => pure (LookupTable1D.Answer.added b)).run sharedTable).1 = _
    rw [Act.bind_map, h]
    rfl
  · refine ⟨.value 4, ?_⟩
    have h : sharedTable.eval "a" 2 = .ok 4 := by decide +kernel
    show LookupTable1D.Answer.value <$> sharedTable.eval "a" 2 = _
    rw [h]
    rfl

/-! ## C155: `LookupTable2d` -/

namespace LookupTable2d
variable {K : Type}

theorem layout_lawful : (layout K).Lawful where
  get_set l v s := by cases l <;> rfl
  get_set_ne l l' v s h := by cases l <;> cases l' <;> first | rfl | exact absurd rfl h
  ext s s' h := by
    have h1 := h .method
    have h2 := h .x
    have h3 := h .y
    have h4 := h .assoc
    have h5 := h .mdata
    have h6 := h .interps
    cases s
    cases s'
    cases h1
    cases h2
    cases h3
    cases h4
    cases h5
    cases h6
    rfl

/-- The part a field belongs to. -/
def Member.part : Member → Part
  | .method => .method
  | .x => .x
  | .y => .y
  | .assoc | .mdata | .interps => .series

/-- The fields read by a call. -/
def reads (s : LookupTable2d K) (c : Call K) (l : Member) : Prop := l.part ∈ uses2 (has s) c ∨ l.part ∈ changes2 (has s) c

/-- The fields assigned by a call. -/
def writes (s : LookupTable2d K) (c : Call K) (l : Member) : Prop := l.part ∈ changes2 (has s) c

theorem run_rMethod {β : Type} (f : InterpMethod → Prog (layout K) β) (s : LookupTable2d K) :
    (rMethod >>= f).run s = (f s.interp_method).run s := rfl
theorem run_rX {β : Type} (f : Option (List K) → Prog (layout K) β) (s : LookupTable2d K) : (rX >>= f).run s = (f s.Xcoords).run s := rfl
theorem run_rY {β : Type} (f : Option (List K) → Prog (layout K) β) (s : LookupTable2d K) : (rY >>= f).run s = (f s.Ycoords).run s := rfl
theorem run_rAssoc {β : Type} (f : List (String × Nat) → Prog (layout K) β) (s : LookupTable2d K) :
    (rAssoc >>= f).run s = (f s.assoc).run s := rfl
theorem run_rMData {β : Type} (f : List (List K) → Prog (layout K) β) (s : LookupTable2d K) : (rMData >>= f).run s = (f s.MData).run s := rfl
theorem run_rInterps {β : Type} (f : List (Interp2d K) → Prog (layout K) β) (s : LookupTable2d K) :
    (rInterps >>= f).run s = (f s.interpolators).run s := rfl
theorem run_wAssoc {β : Type} (v : List (String × Nat)) (f : Unit → Prog (layout K) β) (s : LookupTable2d K) :
    (wAssoc v >>= f).run s = (f ()).run { s with assoc := v } := rfl
theorem run_wMData {β : Type} (v : List (List K)) (f : Unit → Prog (layout K) β) (s : LookupTable2d K) :
    (wMData v >>= f).run s = (f ()).run { s with MData := v } := rfl
theorem run_wInterps {β : Type} (v : List (Interp2d K)) (f : Unit → Prog (layout K) β) (s : LookupTable2d K) :
    (wInterps v >>= f).run s = (f ()).run { s with interpolators := v } := rfl

theorem findP_run (name : String) (s : LookupTable2d K) :
    (findP name).run s = (getIndex s name >>= fun i => vAt s.interpolators i, s) := by
  unfold findP
  rw [run_rAssoc]
  exact Prog.run_lift_pair _ _ _ s (fun i _ => rfl)

variable [Field K] [LinearOrder K]

theorem find_eval {β : Type} (name : String) (s : LookupTable2d K) (f : Interp2d K → Res β) (g : β → Answer K) (h : Res β)
    (hh : h = getIndex s name >>= fun i => vAt s.interpolators i >>= f) :
    (findP name >>= fun o => Prog.lift (f o) >>= fun v => pure (g v)).run s = (g <$> h, s) := by
  rw [Prog.run_bind_pair (findP_run name s) _ (fun o => f o >>= fun v => .ok (g v)) (fun o _ => Prog.run_lift_pair _ _ _ s (fun v _ => rfl)), hh,
    Res.map_eq_bind]
  simp only [bind_assoc]

section hidden
attribute [local irreducible] Interp2d.init Interp2d.make Interp2d.eval MU.vAt MU.vIdx

theorem addDataP_run (B : Build) (name : String) (data : List K) (s : LookupTable2d K) :
    (addDataP B name data).run s = (addData (K := K) B name data).run s := by
  unfold addDataP addData getNbSeries
  rw [run_rMData, run_rAssoc, Act.run_get_bind, Act.run_update_bind]
  by_cases h : (assocInsert s.assoc name s.MData.length).2 = true
  · simp only [h, if_true]
    rw [run_wAssoc, run_rMData, run_wMData, run_rMethod, Act.run_update_bind]
    refine Prog.lift_same _ _ _ _ (fun o _ => ?_)
    rw [run_rX, run_rY]
    refine Prog.lift_same _ _ _ _ (fun _ _ => ?_)
    rfl
  · simp only [h, if_false]
    have : (assocInsert s.assoc name s.MData.length).1 = s.assoc := by
      unfold assocInsert at h ⊢
      cases hl : s.assoc.lookup name with
      | none => simp [hl] at h
      | some v => rfl
    rw [this]
    rfl

theorem calls_run (B : Build) (c : Call K) (s : LookupTable2d K) : (c.prog B).run s = (c.seq B).run s := by
  cases c with
  | eval name x y =>
    exact find_eval name s (fun o => Interp2d.eval B o x y) Answer.value _ rfl
  | evalVec name vc =>
    exact find_eval name s (fun o => Interp2d.evalVec B o vc) Answer.values _ rfl
  | hasSerie name => rfl
  | getX =>
    show (Prog.lift (deref s.Xcoords) >>= _).run s = (Answer.values <$> deref s.Xcoords, s)
    rw [Prog.run_lift_pair _ _ (fun l => .ok (.values l)) s (fun _ _ => rfl), Res.map_eq_bind]
  | getY =>
    show (Prog.lift (deref s.Ycoords) >>= _).run s = (Answer.values <$> deref s.Ycoords, s)
    rw [Prog.run_lift_pair _ _ (fun l => .ok (.values l)) s (fun _ _ => rfl), Res.map_eq_bind]
  | getNbSeries => rfl
  | getNbSample =>
    show (Prog.lift (deref s.Xcoords) >>= fun xs => rY >>= fun q => Prog.lift (deref q) >>= fun ys =>
      pure (Answer.count (xs.length * ys.length))).run s = (Answer.count <$> (getNbSample s), s)
    unfold getNbSample
    rw [Prog.run_lift_pair _ _ (fun xs => deref s.Ycoords >>= fun ys => .ok (.count (xs.length * ys.length))) s
      (fun xs _ => by rw [run_rY]; exact Prog.run_lift_pair _ _ _ s (fun _ _ => rfl)), Res.map_eq_bind]
    cases deref s.Xcoords <;> cases deref s.Ycoords <;> rfl
  | setX X => rfl
  | setY Y => rfl
  | setMethod m => rfl
  | addData name data =>
    show (addDataP B name data >>= fun b => pure (Answer.flag b)).run s = (addData B name data >>= fun b => pure (Answer.flag b)).run s
    rw [Prog.run_bind, Act.run_bind, addDataP_run]
    rcases (addData B name data).run s with ⟨r, s'⟩
    cases r <;> rfl

end hidden

theorem has_eq (s : LookupTable2d K) (name : String) (n : Nat) : (assocInsert s.assoc name n).2 = !has s name := by
  rw [assocInsert_flag, has]
  cases s.assoc.lookup name <;> rfl

theorem findP_foot {R W : Member → Prop} (h1 : R .assoc) (h2 : R .interps) (name : String) (s : LookupTable2d K) :
    (findP name).Foot (Λ := layout K) R W s := by
  exact Prog.foot_bind rAssoc _ ⟨h1, trivial⟩ (fun _ _ _ => Prog.foot_bind _ _ trivial
    (fun _ _ _ => Prog.foot_bind rInterps _ ⟨h2, trivial⟩ (fun _ _ _ => trivial)))

theorem addDataP_foot (B : Build) (name : String) (data : List K) (s : LookupTable2d K) :
    (addDataP B name data).Foot (Λ := layout K) (reads s (.addData name data)) (writes s (.addData name data)) s := by
  cases h : has s name with
  | true =>
    have hR : ∀ l : Member, l.part = .series → reads s (.addData name data) l := by
      intro l hl
      left
      simp [uses2, h, hl]
    refine ⟨hR _ rfl, hR _ rfl, ?_⟩
    show Prog.Foot _ _ (if (assocInsert s.assoc name s.MData.length).2 = true then _ else _) s
    rw [has_eq, h]
    trivial
  | false =>
    have hR : ∀ l : Member, reads s (.addData name data) l := by
      intro l
      unfold reads
      cases l <;> simp [uses2, changes2, h, Member.part]
    have hW : ∀ l : Member, l.part = .series → writes s (.addData name data) l := by
      intro l hl
      unfold writes
      simp [changes2, h, hl]
    generalize reads s (.addData name data) = R at *
    generalize writes s (.addData name data) = W at *
    refine ⟨hR _, hR _, ?_⟩
    show Prog.Foot _ _ (if (assocInsert s.assoc name s.MData.length).2 = true then _ else _) s
    rw [has_eq, h, Bool.not_false, if_pos rfl]
    refine Prog.foot_bind (wAssoc _) _ ⟨hW _ rfl, trivial⟩ (fun _ _ _ => ?_)
    refine Prog.foot_bind rMData _ ⟨hR _, trivial⟩ (fun _ _ _ => ?_)
    refine Prog.foot_bind (wMData _) _ ⟨hW _ rfl, trivial⟩ (fun _ _ _ => ?_)
    refine Prog.foot_bind rMethod _ ⟨hR _, trivial⟩ (fun _ _ _ => ?_)
    refine Prog.foot_bind (Prog.lift _) _ trivial (fun _ _ _ => ?_)
    refine Prog.foot_bind rX _ ⟨hR _, trivial⟩ (fun _ _ _ => ?_)
    refine Prog.foot_bind rY _ ⟨hR _, trivial⟩ (fun _ _ _ => ?_)
    refine Prog.foot_bind (Prog.lift _) _ trivial (fun _ _ _ => ?_)
    refine Prog.foot_bind rInterps _ ⟨hR _, trivial⟩ (fun _ _ _ => ?_)
    exact Prog.foot_bind (wInterps _) _ ⟨hW _ rfl, trivial⟩ (fun _ _ _ => trivial)

theorem prog_foot (B : Build) (c : Call K) (s : LookupTable2d K) :
    (c.prog B).Foot (Λ := layout K) (reads s c) (writes s c) s := by
  have hR : ∀ l : Member, l.part ∈ uses2 (has s) c → reads s c l := fun l hl => Or.inl hl
  cases c with
  | eval name x y =>
    exact Prog.foot_bind _ _ (findP_foot (hR _ (by simp [uses2, Member.part])) (hR _ (by simp [uses2, Member.part])) name s)
      (fun _ _ _ => Prog.foot_bind _ _ trivial (fun _ _ _ => trivial))
  | evalVec name x =>
    exact Prog.foot_bind _ _ (findP_foot (hR _ (by simp [uses2, Member.part])) (hR _ (by simp [uses2, Member.part])) name s)
      (fun _ _ _ => Prog.foot_bind _ _ trivial (fun _ _ _ => trivial))
  | hasSerie name => exact ⟨hR _ (by simp [uses2, Member.part]), trivial⟩
  | getX =>
    exact Prog.foot_bind rX _ ⟨hR _ (by simp [uses2, Member.part]), trivial⟩
      (fun _ _ _ => Prog.foot_bind _ _ trivial (fun _ _ _ => trivial))
  | getY =>
    exact Prog.foot_bind rY _ ⟨hR _ (by simp [uses2, Member.part]), trivial⟩
      (fun _ _ _ => Prog.foot_bind _ _ trivial (fun _ _ _ => trivial))
  | getNbSample =>
    exact Prog.foot_bind rX _ ⟨hR _ (by simp [uses2, Member.part]), trivial⟩
      (fun _ _ _ => Prog.foot_bind _ _ trivial (fun _ _ _ =>
        Prog.foot_bind rY _ ⟨hR _ (by simp [uses2, Member.part]), trivial⟩
          (fun _ _ _ => Prog.foot_bind _ _ trivial (fun _ _ _ => trivial))))
  | getNbSeries => exact ⟨hR _ (by simp [uses2, Member.part]), trivial⟩
  | setX X => exact ⟨by simp [writes, changes2, Member.part], trivial⟩
  | setY X => exact ⟨by simp [writes, changes2, Member.part], trivial⟩
  | setMethod m => exact ⟨hR _ (by simp [uses2, Member.part]), by simp [writes, changes2, Member.part], trivial⟩
  | addData name data => exact Prog.foot_bind _ _ (addDataP_foot B name data s) (fun _ _ _ => trivial)

theorem no_clash {ι : Type} [DecidableEq ι] (B : Build) (s : LookupTable2d K) (c : ι → Call K)
    (h : ∀ i j, i ≠ j → ¬ Clash2 s (c i) (c j)) : Serializable (fun i => (c i).prog B) s := by
  refine Prog.foot_serializable layout_lawful (fun i => reads s (c i)) (fun i => writes s (c i)) s _ (fun i => prog_foot B (c i) s) ?_
  intro i j l hij hw
  have := h i j hij
  constructor
  · rintro (hr | hr)
    · exact this ⟨_, Or.inl ⟨hw, Or.inl hr⟩⟩
    · exact this ⟨_, Or.inl ⟨hw, Or.inr hr⟩⟩
  · intro hr
    exact this ⟨_, Or.inl ⟨hw, Or.inr hr⟩⟩

/-! ### Races -/

theorem addData_reads (B : Build) (name : String) (data : List K) (s : LookupTable2d K) :
    Prog.GetsR (·.Accesses Member.assoc) ((Call.addData name data).prog B) s :=
  .read (.here (Or.inl ⟨_, rfl⟩))

theorem addData_assoc (B : Build) (name : String) (data : List K) (s : LookupTable2d K) (h : has s name = false) :
    Prog.Gets (·.Writes Member.assoc) ((Call.addData name data).prog B) s := by
  refine .read (.read ?_)
  show Prog.Gets _ (Prog.bind (if (assocInsert s.assoc name s.MData.length).2 = true then _ else _) _) s
  rw [has_eq, h, Bool.not_false, if_pos rfl]
  exact .here ⟨_, _, rfl⟩

theorem addData_mdata (B : Build) (name : String) (data : List K) (s : LookupTable2d K) (h : has s name = false) :
    Prog.Gets (·.Writes Member.mdata) ((Call.addData name data).prog B) s := by
  refine .read (.read ?_)
  show Prog.Gets _ (Prog.bind (if (assocInsert s.assoc name s.MData.length).2 = true then _ else _) _) s
  rw [has_eq, h, Bool.not_false, if_pos rfl]
  exact .write (.read (.here ⟨_, _, rfl⟩))

theorem addData_method (B : Build) (name : String) (data : List K) (s : LookupTable2d K) (h : has s name = false) :
    Prog.Gets (·.Accesses Member.method) ((Call.addData name data).prog B) s := by
  refine .read (.read ?_)
  show Prog.Gets _ (Prog.bind (if (assocInsert s.assoc name s.MData.length).2 = true then _ else _) _) s
  rw [has_eq, h, Bool.not_false, if_pos rfl]
  exact .write (.read (.write (.here (Or.inl ⟨_, rfl⟩))))

theorem addData_x (B : Build) (name : String) (data : List K) (s : LookupTable2d K) (h : has s name = false) :
    Prog.GetsOk (·.Accesses Member.x) ((Call.addData name data).prog B) s := by
  refine .read (.read ?_)
  show Prog.GetsOk _ (Prog.bind (if (assocInsert s.assoc name s.MData.length).2 = true then _ else _) _) s
  rw [has_eq, h, Bool.not_false, if_pos rfl]
  exact .write (.read (.write (.read (.lift fun _ => .lift fun _ => .here (Or.inl ⟨_, rfl⟩)))))

theorem addData_y (B : Build) (name : String) (data : List K) (s : LookupTable2d K) (h : has s name = false) :
    Prog.GetsOk (·.Accesses Member.y) ((Call.addData name data).prog B) s := by
  refine .read (.read ?_)
  show Prog.GetsOk _ (Prog.bind (if (assocInsert s.assoc name s.MData.length).2 = true then _ else _) _) s
  rw [has_eq, h, Bool.not_false, if_pos rfl]
  exact .write (.read (.write (.read (.lift fun _ => .lift fun _ => .read (.here (Or.inl ⟨_, rfl⟩))))))

theorem getNbSample_y (B : Build) (s : LookupTable2d K) : Prog.GetsOk (·.Accesses Member.y) ((Call.getNbSample : Call K).prog B) s := by
  rintro ⟨a, ha⟩
  cases h : s.Xcoords with
  | none =>
    exfalso
    rw [calls_run] at ha
    have : (((Call.getNbSample : Call K).seq B).run s).1 = Answer.count <$> getNbSample s := rfl
    rw [this, getNbSample, h] at ha
    cases ha
  | some xs =>
    refine .read ?_
    show Prog.Gets _ (Prog.bind (Prog.lift (deref s.Xcoords)) _) s
    rw [h]
    exact .here (Or.inl ⟨_, rfl⟩)

theorem race_series (B : Build) (c : Call K) (name : String) (data : List K) (s : LookupTable2d K) (h : has s name = false)
    (hc : Part.series ∈ uses2 (has s) c ∨ Part.series ∈ changes2 (has s) c) : Prog.CanRace (c.prog B) ((Call.addData name data).prog B) s := by
  cases c with
  | eval _ _ _ => exact Prog.canRace_rw Member.assoc (.here (Or.inl ⟨_, rfl⟩)) (addData_assoc B name data s h)
  | evalVec _ _ => exact Prog.canRace_rw Member.assoc (.here (Or.inl ⟨_, rfl⟩)) (addData_assoc B name data s h)
  | hasSerie _ => exact Prog.canRace_rw Member.assoc (.here (Or.inl ⟨_, rfl⟩)) (addData_assoc B name data s h)
  | getNbSeries => exact Prog.canRace_rw Member.mdata (.here (Or.inl ⟨_, rfl⟩)) (addData_mdata B name data s h)
  | setMethod _ => exact Prog.canRace_rw Member.mdata (.here (Or.inl ⟨_, rfl⟩)) (addData_mdata B name data s h)
  | addData _ _ => exact Prog.canRace_rw Member.assoc (addData_reads B _ _ s) (addData_assoc B name data s h)
  | getX => simp [uses2, changes2] at hc
  | getY => simp [uses2, changes2] at hc
  | getNbSample => simp [uses2, changes2] at hc
  | setX _ => simp [uses2, changes2] at hc
  | setY _ => simp [uses2, changes2] at hc

theorem race_x (B : Build) (c : Call K) (X : List K) (s : LookupTable2d K) (ho : ∃ a, ((c.seq B).run s).1 = .ok a)
    (hc : Part.x ∈ uses2 (has s) c ∨ Part.x ∈ changes2 (has s) c) : Prog.CanRace ((Call.setX X).prog B) (c.prog B) s := by
  cases c with
  | addData name data =>
    cases h : has s name with
    | true => simp [uses2, changes2, h] at hc
    | false =>
      rw [← calls_run] at ho
      exact Prog.canRace_wr Member.x (.here ⟨_, _, rfl⟩) (addData_x B name data s h ho)
  | getX => exact Prog.canRace_wr Member.x (.here ⟨_, _, rfl⟩) (.here (Or.inl ⟨_, rfl⟩))
  | getNbSample => exact Prog.canRace_wr Member.x (.here ⟨_, _, rfl⟩) (.here (Or.inl ⟨_, rfl⟩))
  | setX _ => exact Prog.canRace_wr Member.x (.here ⟨_, _, rfl⟩) (.here (Or.inr ⟨_, _, rfl⟩))
  | _ => simp [uses2, changes2] at hc

theorem race_y (B : Build) (c : Call K) (Y : List K) (s : LookupTable2d K) (ho : ∃ a, ((c.seq B).run s).1 = .ok a)
    (hc : Part.y ∈ uses2 (has s) c ∨ Part.y ∈ changes2 (has s) c) : Prog.CanRace ((Call.setY Y).prog B) (c.prog B) s := by
  cases c with
  | addData name data =>
    cases h : has s name with
    | true => simp [uses2, changes2, h] at hc
    | false =>
      rw [← calls_run] at ho
      exact Prog.canRace_wr Member.y (.here ⟨_, _, rfl⟩) (addData_y B name data s h ho)
  | getY => exact Prog.canRace_wr Member.y (.here ⟨_, _, rfl⟩) (.here (Or.inl ⟨_, rfl⟩))
  | getNbSample =>
    rw [← calls_run] at ho
    exact Prog.canRace_wr Member.y (.here ⟨_, _, rfl⟩) (getNbSample_y B s ho)
  | setY _ => exact Prog.canRace_wr Member.y (.here ⟨_, _, rfl⟩) (.here (Or.inr ⟨_, _, rfl⟩))
  | _ => simp [uses2, changes2] at hc

theorem race_method (B : Build) (c : Call K) (m : InterpMethod) (s : LookupTable2d K)
    (hc : Part.method ∈ uses2 (has s) c ∨ Part.method ∈ changes2 (has s) c) : Prog.CanRace ((Call.setMethod m).prog B) (c.prog B) s := by
  cases c with
  | addData name data =>
    cases h : has s name with
    | true => simp [uses2, changes2, h] at hc
    | false => exact Prog.canRace_wr Member.method (.read (.here ⟨_, _, rfl⟩)) (addData_method B name data s h)
  | setMethod _ => exact Prog.canRace_wr Member.method (.read (.here ⟨_, _, rfl⟩)) (.read (.here (Or.inr ⟨_, _, rfl⟩)))
  | _ => simp [uses2, changes2] at hc

theorem race_changes (B : Build) (c d : Call K) (s : LookupTable2d K) (ho : ∃ a, ((d.seq B).run s).1 = .ok a) (p : Part)
    (hp : p ∈ changes2 (has s) c) (hd : p ∈ uses2 (has s) d ∨ p ∈ changes2 (has s) d) : Prog.CanRace (c.prog B) (d.prog B) s := by
  cases c with
  | addData name data =>
    cases h : has s name with
    | true => simp [changes2, h] at hp
    | false =>
      have : p = .series := by simpa [changes2, h] using hp
      subst this
      exact (race_series B d name data s h hd).symm
  | setX X =>
    have : p = .x := by simpa [changes2] using hp
    subst this
    exact race_x B d X s ho hd
  | setY X =>
    have : p = .y := by simpa [changes2] using hp
    subst this
    exact race_y B d X s ho hd
  | setMethod m =>
    have : p = .method := by simpa [changes2] using hp
    subst this
    exact race_method B d m s hd
  | _ => simp [changes2] at hp

theorem clash_races (B : Build) (c d : Call K) (s : LookupTable2d K) (h : Clash2 s c d) (hc : ∃ a, ((c.seq B).run s).1 = .ok a)
    (hd : ∃ a, ((d.seq B).run s).1 = .ok a) : Prog.CanRace (c.prog B) (d.prog B) s := by
  obtain ⟨p, ⟨h1, h2⟩ | ⟨h1, h2⟩⟩ := h
  · exact race_changes B c d s hd p h1 h2
  · exact (race_changes B d c s hc p h1 h2).symm

end LookupTable2d

section
variable {K : Type} [Field K] [LinearOrder K]

/-- **C155**: the program of accesses of a call on a `LookupTable2d`, run alone, is the call. -/
theorem C155_calls (B : Build) (c : LookupTable2d.Call K) (s : LookupTable2d K) : (c.prog B).run s = (c.seq B).run s :=
  LookupTable2d.calls_run B c s

/-- **C155**: threads that share a `LookupTable2d` and of whose calls no two clash: in every schedule there is no data race, each gets the result of its
call made alone, and the table is left as by the calls made one after the other, in whatever order. -/
theorem C155_serializable {ι : Type} [DecidableEq ι] (B : Build) (s : LookupTable2d K) (c : ι → LookupTable2d.Call K)
    (h : ∀ i j, i ≠ j → ¬ Clash2 s (c i) (c j)) : Serializable (fun i => (c i).prog B) s :=
  LookupTable2d.no_clash B s c h

/-- **C155**: two calls that clash, each of which returns when made alone: some schedule has a data race, whatever the other threads do. -/
theorem C155_races {ι : Type} [DecidableEq ι] (B : Build) (s : LookupTable2d K) (c : ι → LookupTable2d.Call K) (i j : ι) (hij : i ≠ j)
    (h : Clash2 s (c i) (c j)) (hi : ∃ a, (((c i).seq B).run s).1 = .ok a) (hj : ∃ a, (((c j).seq B).run s).1 = .ok a) :
    ∃ ts' s', Reach (fun i => (c i).prog B, s) (ts', s') ∧ Race ts' :=
  LookupTable2d.clash_races B _ _ s h hi hj ι _ i j _ hij rfl rfl

end

/-- A table with one series of 2 by 2 values. -/
def sharedTable2 : LookupTable2d ℚ :=
  ((LookupTable2d.execAll ⟨true⟩ [.setX [0, 1], .setY [0, 2], .addData "a" [5, 7, 1, 3]]).run (LookupTable2d.new ℚ)).2

/-- One thread replaces the abscissae, one the ordinates, one the method, and any number of threads evaluate the series there is. -/
example : Serializable (fun i : Option (Option (Option ℕ)) => ((match i with
      | none => .setX [7, 8]
      | some none => .setY [7, 8]
      | some (some none) => .setMethod .LINEAR
      | some (some (some n)) => .eval "a" (n : ℚ) 1) : LookupTable2d.Call ℚ).prog ⟨true⟩) sharedTable2 ∧ sharedTable2.has "a" = true := by
  refine ⟨C155_serializable _ _ _ (fun i j hij => ?_), by decide +kernel⟩
  rcases i with _ | _ | _ | i <;> rcases j with _ | _ | _ | j <;> simp [Clash2, Conflict, uses2, changes2] at hij ⊢ <;> rintro ⟨⟩ <;> simp

/-- Choosing the method while another thread adds a new series. -/
example : ∃ ts' s', Reach (fun i : Bool => ((if i then .addData "b" [1, 2, 3, 4] else .setMethod .LINEAR) : LookupTable2d.Call ℚ).prog ⟨true⟩, sharedTable2) (ts', s') ∧
    Race ts' := by
  have hb : sharedTable2.has "b" = false := by decide +kernel
  refine C155_races ⟨true⟩ sharedTable2 (fun i : Bool => if i then .addData "b" [1, 2, 3, 4] else .setMethod .LINEAR) true false (by decide) ?_ ?_ ?_
  · exact ⟨.series, Or.inl ⟨by simp [changes2, hb], Or.inl (by simp [uses2])⟩⟩
  · refine ⟨.flag true, ?_⟩
    have h : ((LookupTable2d.addData ⟨true⟩ "b" ([1, 2, 3, 4] : List ℚ)).run sharedTable2).1 = .ok true := by decide +kernel
    show (((LookupTable2d.addData ⟨true⟩ "b" ([1, 2, 3, 4] : List ℚ)) >>= fun b => pure (LookupTable2d.Answer.flag b)).run sharedTable2).1 = _
    rw [Act.bind_map, h]
    rfl
  · exact ⟨.done, rfl⟩

end MU
