import Verif.Model.ThreadGrids
import Verif.Props.ThreadTables
import Verif.Lemmas.RegularGrid

set_option linter.unusedSectionVars false

/-!
# C156, C157: regular grids shared by threads
-/

namespace MU

namespace Spec

/-- What the client of a regular grid distinguishes in it. -/
inductive GridPart where
  | axes
  | values
  deriving DecidableEq

section
variable {K D : Type} [LinearOrder K]

/-- The parts of a `RegularGridInterpolator` that a call looks at. An axis that does not exist is not looked for. -/
def usesRGI (dim : Nat) : RGI.Call K → List GridPart
  | .addCoord _ | .addVar _ => [.axes]
  | .getCoord idx => if idx < dim then [.axes] else []
  | .getCoordMinVal idx | .getCoordMaxVal idx => if idx < dim then [.values] else []
  | .getDimension => []
  | .interp _ _ | .evalAtIndice _ | .isValid => [.values]

/-- The parts of a `RegularGridInterpolator` that a call changes; `full`: all its axes have been added. -/
def changesRGI (full : Bool) : RGI.Call K → List GridPart
  | .addCoord vec => if full = false ∧ vec.Pairwise (· < ·) then [.axes] else []
  | .addVar _ => if full then [.values] else []
  | _ => []

/-- All axes have been added. -/
def _root_.MU.RGI.full (dim : Nat) (s : RGI K) : Bool := s.grid_list.length == dim

/-- The two calls, made on the object `s`, touch the same part of it, and one of them changes it. -/
def ClashRGI (dim : Nat) (s : RGI K) (c d : RGI.Call K) : Prop :=
  Conflict (usesRGI dim c) (changesRGI (s.full dim) c) (usesRGI dim d) (changesRGI (s.full dim) d)

omit [LinearOrder K] in
/-- The parts of a `RegularGridNearest` that a call looks at. -/
def usesRGN (dim : Nat) : RGN.Call K D → List GridPart
  | .addCoord _ | .addVar _ => [.axes]
  | .getCoord idx | .getCoordMinVal idx | .getCoordMaxVal idx => if idx < dim then [.axes] else []
  | .getDimension | .isValid | .getData _ => []
  | .nearest _ | .surrounding _ => [.axes, .values]

omit [LinearOrder K] in
/-- The parts of a `RegularGridNearest` that a call changes. -/
def changesRGN (full : Bool) : RGN.Call K D → List GridPart
  | .addCoord _ => if full then [] else [.axes]
  | .addVar _ => if full then [.values] else []
  | _ => []

/-- All axes have been added. -/
def _root_.MU.RGN.full (dim : Nat) (s : RGN K D) : Bool := s.grid_list.length == dim

/-- The two calls, made on the object `s`, touch the same part of it, and one of them changes it. -/
def ClashRGN (dim : Nat) (s : RGN K D) (c d : RGN.Call K D) : Prop :=
  Conflict (usesRGN dim c) (changesRGN (s.full dim) c) (usesRGN dim d) (changesRGN (s.full dim) d)

end
end Spec

open Spec

/-! ## C156: `RegularGridInterpolator` -/

namespace RGI
variable {K : Type}

theorem layout_lawful : (layout K).Lawful where
  get_set l v s := by cases l <;> rfl
  get_set_ne l l' v s h := by cases l <;> cases l' <;> first | rfl | exact absurd rfl h
  ext s s' h := by
    have h1 := h .grid
    have h2 := h .data
    have h3 := h .interp
    have h4 := h .limits
    cases s
    cases s'
    cases h1
    cases h2
    cases h3
    cases h4
    rfl

theorem run_rGrid {β : Type} (f : List (List K) → Prog (layout K) β) (s : RGI K) : (rGrid >>= f).run s = (f s.grid_list).run s := rfl
theorem run_rData {β : Type} (f : NDArray K × Nat → Prog (layout K) β) (s : RGI K) : (rData >>= f).run s = (f (s.data, s.gen)).run s := rfl
theorem run_rInterp {β : Type} (f : Option (NDInterp K × Nat) → Prog (layout K) β) (s : RGI K) : (rInterp >>= f).run s = (f s.interp).run s := rfl
theorem run_rLimits {β : Type} (f : Option (List (K × K)) → Prog (layout K) β) (s : RGI K) : (rLimits >>= f).run s = (f s.limits).run s := rfl
theorem run_wData {β : Type} (v : NDArray K × Nat) (f : Unit → Prog (layout K) β) (s : RGI K) :
    (wData v >>= f).run s = (f ()).run { s with data := v.1, gen := v.2 } := rfl
theorem run_wLimits {β : Type} (v : Option (List (K × K))) (f : Unit → Prog (layout K) β) (s : RGI K) :
    (wLimits v >>= f).run s = (f ()).run { s with limits := v } := rfl

variable [Field K] [LinearOrder K] [IsStrictOrderedRing K]

section hidden
attribute [local irreducible] computeLimits NDInterp.new NDInterp.interpMultilinear boundCheck MU.vIdx MU.mdRead increasing

theorem addCoordP_run (dim : Nat) (vec : List K) (s : RGI K) : (addCoordP dim vec).run s = (addCoord dim vec).run s := by
  unfold addCoordP addCoord
  rw [run_rGrid, Act.run_get_bind]
  by_cases h : s.grid_list.length = dim
  · rw [if_pos h, if_pos h]
    rfl
  · rw [if_neg h, if_neg h]
    by_cases h' : increasing vec = true
    · rw [if_pos h', if_pos h']
      rfl
    · rw [if_neg h', if_neg h']
      rfl

theorem buildP_run (dim : Nat) (s : RGI K) : (buildP dim).run s = (build dim).run s := by
  unfold buildP build
  rw [run_rGrid, Act.run_get_bind]
  refine Prog.lift_same _ _ _ _ (fun l _ => ?_)
  rw [run_wLimits, run_rGrid, run_rData, Act.run_update_bind]
  refine Prog.lift_same _ _ _ _ (fun t _ => ?_)
  rfl

theorem addVarP_run (dim : Nat) (a : NDArray K) (s : RGI K) : (addVarP dim a).run s = (addVar dim a).run s := by
  unfold addVarP addVar
  rw [run_rGrid, Act.run_get_bind]
  by_cases h : s.grid_list.length = dim
  · rw [if_neg (not_not.2 h), if_neg (not_not.2 h), run_rData, run_wData, Act.run_update_bind]
    exact buildP_run dim _
  · rw [if_pos h, if_pos h]
    rfl

theorem valueP_run (point : List K) (s : RGI K) : (valueP point).run s = (interpolate s point false, s) := by
  unfold valueP interpolate
  rw [run_rInterp]
  refine Prog.run_lift_pair _ _ _ s (fun t _ => ?_)
  rw [run_rData]
  obtain ⟨t, g⟩ := t
  by_cases h : g = s.gen
  · rw [if_neg (not_not.2 h)]
    show _ = ((if g ≠ s.gen then Res.ub else _), s)
    rw [if_neg (not_not.2 h)]
    rfl
  · rw [if_pos h]
    show _ = ((if g ≠ s.gen then Res.ub else _), s)
    rw [if_pos h]
    rfl

theorem interpP_run (point : List K) (b : Bool) (s : RGI K) : (interpP point b).run s = (interpolate s point b, s) := by
  cases b with
  | false => exact valueP_run point s
  | true =>
    show (rLimits >>= fun v => Prog.lift (readVar v) >>= fun l => Prog.lift (boundCheck l point) >>= fun _ => valueP point).run s
      = ((readVar s.limits >>= fun l => boundCheck l point >>= fun _ => interpolate s point false), s)
    rw [run_rLimits]
    exact Prog.run_lift_pair _ _ _ s (fun l _ => Prog.run_lift_pair _ _ _ s (fun _ _ => valueP_run point s))

theorem calls_run (dim : Nat) (c : Call K) (s : RGI K) : (c.prog dim).run s = (c.seq dim).run s := by
  cases c with
  | addCoord vec =>
    show (addCoordP dim vec >>= fun _ => pure Answer.done).run s = (addCoord dim vec >>= fun _ => pure Answer.done).run s
    rw [Prog.run_bind, Act.run_bind, addCoordP_run]
    rcases (addCoord dim vec).run s with ⟨r, s'⟩
    cases r <;> rfl
  | addVar a =>
    show (addVarP dim a >>= fun _ => pure Answer.done).run s = (addVar dim a >>= fun _ => pure Answer.done).run s
    rw [Prog.run_bind, Act.run_bind, addVarP_run]
    rcases (addVar dim a).run s with ⟨r, s'⟩
    cases r <;> rfl
  | getCoord idx =>
    show (if dim ≤ idx then _ else _ : Prog (layout K) (Answer K)).run s = (Answer.axis <$> (if dim ≤ idx then _ else _), s)
    by_cases h : dim ≤ idx
    · rw [if_pos h, if_pos h]
      rfl
    · rw [if_neg h, if_neg h, run_rGrid, Prog.run_lift_pair _ _ (fun l => .ok (Answer.axis l)) s (fun _ _ => rfl), Res.map_eq_bind]
  | getCoordMinVal idx =>
    show (if dim ≤ idx then _ else _ : Prog (layout K) (Answer K)).run s = (Answer.value <$> (if dim ≤ idx then _ else _), s)
    by_cases h : dim ≤ idx
    · rw [if_pos h, if_pos h]
      rfl
    · rw [if_neg h, if_neg h, run_rLimits, Prog.run_lift_pair _ _ (fun l => vIdx l idx >>= fun p => .ok (Answer.value p.1)) s
        (fun _ _ => Prog.run_lift_pair _ _ _ s (fun _ _ => rfl)), Res.map_eq_bind]
      simp only [bind_assoc]
      rfl
  | getCoordMaxVal idx =>
    show (if dim ≤ idx then _ else _ : Prog (layout K) (Answer K)).run s = (Answer.value <$> (if dim ≤ idx then _ else _), s)
    by_cases h : dim ≤ idx
    · rw [if_pos h, if_pos h]
      rfl
    · rw [if_neg h, if_neg h, run_rLimits, Prog.run_lift_pair _ _ (fun l => vIdx l idx >>= fun p => .ok (Answer.value p.2)) s
        (fun _ _ => Prog.run_lift_pair _ _ _ s (fun _ _ => rfl)), Res.map_eq_bind]
      simp only [bind_assoc]
      rfl
  | getDimension => rfl
  | interp point b =>
    show (interpP point b >>= fun v => pure (Answer.value v)).run s = (Answer.value <$> interpolate s point b, s)
    rw [Prog.run_bind_pair (interpP_run point b s) _ (fun v => .ok (Answer.value v)) (fun _ _ => rfl), Res.map_eq_bind]
  | evalAtIndice index =>
    show (Prog.lift (mdRead s.data.shape s.data.elems _) >>= _).run s = (Answer.value <$> mdRead s.data.shape s.data.elems _, s)
    rw [Prog.run_lift_pair _ _ (fun v => .ok (Answer.value v)) s (fun _ _ => rfl), Res.map_eq_bind]
  | isValid => rfl

end hidden

/-- The part a field belongs to. -/
def Member.part : Member → GridPart
  | .grid => .axes
  | .data | .interp | .limits => .values

/-- The fields read by a call. -/
def reads (dim : Nat) (s : RGI K) (c : Call K) (l : Member) : Prop := l.part ∈ usesRGI dim c ∨ l.part ∈ changesRGI (s.full dim) c

/-- The fields assigned by a call. -/
def writes (dim : Nat) (s : RGI K) (c : Call K) (l : Member) : Prop := l.part ∈ changesRGI (s.full dim) c

theorem buildP_foot {R W : Member → Prop} (hR : ∀ l, R l) (hW : ∀ l : Member, l.part = .values → W l) (dim : Nat) (s : RGI K) :
    (buildP dim).Foot (Λ := layout K) R W s := by
  refine Prog.foot_bind rGrid _ ⟨hR _, trivial⟩ (fun _ _ _ => ?_)
  refine Prog.foot_bind (Prog.lift _) _ trivial (fun _ _ _ => ?_)
  refine Prog.foot_bind (wLimits _) _ ⟨hW _ rfl, trivial⟩ (fun _ _ _ => ?_)
  refine Prog.foot_bind rGrid _ ⟨hR _, trivial⟩ (fun _ _ _ => ?_)
  refine Prog.foot_bind rData _ ⟨hR _, trivial⟩ (fun _ _ _ => ?_)
  refine Prog.foot_bind (Prog.lift _) _ trivial (fun _ _ _ => ?_)
  exact ⟨hW _ rfl, trivial⟩

theorem valueP_foot {R W : Member → Prop} (hR : ∀ l : Member, l.part = .values → R l) (point : List K) (s : RGI K) :
    (valueP point).Foot (Λ := layout K) R W s := by
  refine Prog.foot_bind rInterp _ ⟨hR _ rfl, trivial⟩ (fun _ _ _ => ?_)
  refine Prog.foot_bind (Prog.lift _) _ trivial (fun _ _ _ => ?_)
  refine Prog.foot_bind rData _ ⟨hR _ rfl, trivial⟩ (fun _ _ _ => ?_)
  split <;> trivial

theorem prog_foot (dim : Nat) (c : Call K) (s : RGI K) : (c.prog dim).Foot (Λ := layout K) (reads dim s c) (writes dim s c) s := by
  have hR : ∀ l : Member, l.part ∈ usesRGI dim c → reads dim s c l := fun l hl => Or.inl hl
  cases c with
  | addCoord vec =>
    refine Prog.foot_bind (addCoordP dim vec) _ ?_ (fun _ _ _ => trivial)
    have hg := hR .grid (by simp [usesRGI, Member.part])
    refine ⟨hg, ?_⟩
    show Prog.Foot _ _ (if s.grid_list.length = dim then _ else if increasing vec = true then _ else _) s
    by_cases h : s.grid_list.length = dim
    · rw [if_pos h]
      trivial
    · rw [if_neg h]
      by_cases h' : increasing vec = true
      · rw [if_pos h']
        refine ⟨hg, ?_, trivial⟩
        show _ ∈ changesRGI _ _
        simp [changesRGI, full, h, (increasing_iff vec).1 h', Member.part]
      · rw [if_neg h']
        trivial
  | addVar a =>
    refine Prog.foot_bind (addVarP dim a) _ ?_ (fun _ _ _ => trivial)
    have hg := hR .grid (by simp [usesRGI, Member.part])
    refine ⟨hg, ?_⟩
    show Prog.Foot _ _ (if s.grid_list.length ≠ dim then _ else _) s
    by_cases h : s.grid_list.length = dim
    · rw [if_neg (not_not.2 h)]
      have hW : ∀ l : Member, l.part = .values → writes dim s (.addVar a) l := by
        intro l hl
        show _ ∈ changesRGI _ _
        simp [changesRGI, full, h, hl]
      have hR : ∀ l : Member, reads dim s (.addVar a) l := by
        intro l
        cases hl : l.part with
        | axes => exact Or.inl (by simp [usesRGI, hl])
        | values => exact Or.inr (hW l hl)
      exact ⟨hR _, hW _ rfl, buildP_foot hR hW dim _⟩
    · rw [if_pos h]
      trivial
  | getCoord idx =>
    show Prog.Foot _ _ (if dim ≤ idx then _ else _) s
    by_cases h : dim ≤ idx
    · rw [if_pos h]
      trivial
    · rw [if_neg h]
      have := hR .grid (by simp [usesRGI, Member.part, Nat.not_le.1 h])
      exact Prog.foot_bind rGrid _ ⟨this, trivial⟩ (fun _ _ _ => Prog.foot_bind _ _ trivial (fun _ _ _ => trivial))
  | getCoordMinVal idx =>
    show Prog.Foot _ _ (if dim ≤ idx then _ else _) s
    by_cases h : dim ≤ idx
    · rw [if_pos h]
      trivial
    · rw [if_neg h]
      have := hR .limits (by simp [usesRGI, Member.part, Nat.not_le.1 h])
      exact Prog.foot_bind rLimits _ ⟨this, trivial⟩ (fun _ _ _ => Prog.foot_bind _ _ trivial (fun _ _ _ =>
        Prog.foot_bind _ _ trivial (fun _ _ _ => trivial)))
  | getCoordMaxVal idx =>
    show Prog.Foot _ _ (if dim ≤ idx then _ else _) s
    by_cases h : dim ≤ idx
    · rw [if_pos h]
      trivial
    · rw [if_neg h]
      have := hR .limits (by simp [usesRGI, Member.part, Nat.not_le.1 h])
      exact Prog.foot_bind rLimits _ ⟨this, trivial⟩ (fun _ _ _ => Prog.foot_bind _ _ trivial (fun _ _ _ =>
        Prog.foot_bind _ _ trivial (fun _ _ _ => trivial)))
  | getDimension => trivial
  | interp point b =>
    refine Prog.foot_bind (interpP point b) _ ?_ (fun _ _ _ => trivial)
    have hv : ∀ l : Member, l.part = .values → reads dim s (.interp point b) l := fun l hl => hR l (by simp [usesRGI, hl])
    cases b with
    | false => exact valueP_foot hv point s
    | true =>
      exact Prog.foot_bind rLimits _ ⟨hv _ rfl, trivial⟩ (fun _ _ _ => Prog.foot_bind _ _ trivial (fun _ _ _ =>
        Prog.foot_bind _ _ trivial (fun _ _ _ => valueP_foot hv point _)))
  | evalAtIndice index =>
    have := hR .data (by simp [usesRGI, Member.part])
    exact Prog.foot_bind rData _ ⟨this, trivial⟩ (fun _ _ _ => Prog.foot_bind _ _ trivial (fun _ _ _ => trivial))
  | isValid => exact ⟨hR _ (by simp [usesRGI, Member.part]), trivial⟩

theorem no_clash {ι : Type} [DecidableEq ι] (dim : Nat) (s : RGI K) (c : ι → Call K) (h : ∀ i j, i ≠ j → ¬ ClashRGI dim s (c i) (c j)) :
    Serializable (fun i => (c i).prog dim) s := by
  refine Prog.foot_serializable layout_lawful (fun i => reads dim s (c i)) (fun i => writes dim s (c i)) s _ (fun i => prog_foot dim (c i) s) ?_
  intro i j l hij hw
  have := h i j hij
  constructor
  · rintro (hr | hr)
    · exact this ⟨_, Or.inl ⟨hw, Or.inl hr⟩⟩
    · exact this ⟨_, Or.inl ⟨hw, Or.inr hr⟩⟩
  · intro hr
    exact this ⟨_, Or.inl ⟨hw, Or.inr hr⟩⟩

/-! ### Races -/

theorem addCoord_grid (dim : Nat) (vec : List K) (s : RGI K) (h : s.full dim = false) (hv : vec.Pairwise (· < ·)) :
    Prog.Gets (·.Writes Member.grid) ((Call.addCoord vec).prog dim) s := by
  refine .read ?_
  show Prog.Gets _ (Prog.bind (if s.grid_list.length = dim then _ else if increasing vec = true then _ else _) _) s
  rw [if_neg (by simpa [full] using h), if_pos ((increasing_iff vec).2 hv)]
  exact .read (.here ⟨_, _, rfl⟩)

theorem addVar_data (dim : Nat) (a : NDArray K) (s : RGI K) (h : s.full dim = true) :
    Prog.Gets (·.Writes Member.data) ((Call.addVar a).prog dim) s := by
  refine .read ?_
  show Prog.Gets _ (Prog.bind (if s.grid_list.length ≠ dim then _ else _) _) s
  rw [if_neg (not_not.2 (by simpa [full] using h))]
  exact .read (.here ⟨_, _, rfl⟩)

theorem addVar_reads_data (dim : Nat) (a : NDArray K) (s : RGI K) (h : s.full dim = true) :
    Prog.GetsR (·.Accesses Member.data) ((Call.addVar a).prog dim) s := by
  refine .read ?_
  show Prog.GetsR _ (Prog.bind (if s.grid_list.length ≠ dim then _ else _) _) s
  rw [if_neg (not_not.2 (by simpa [full] using h))]
  exact .here (Or.inl ⟨_, rfl⟩)

theorem addVar_limits (dim : Nat) (a : NDArray K) (s : RGI K) (h : s.full dim = true) :
    Prog.GetsOk (·.Writes Member.limits) ((Call.addVar a).prog dim) s := by
  refine .read ?_
  show Prog.GetsOk _ (Prog.bind (if s.grid_list.length ≠ dim then _ else _) _) s
  rw [if_neg (not_not.2 (by simpa [full] using h))]
  exact .read (.write (.read (.lift fun _ => .lift fun _ => .here ⟨_, _, rfl⟩)))

theorem addVar_interp (dim : Nat) (a : NDArray K) (s : RGI K) (h : s.full dim = true) :
    Prog.GetsOk (·.Writes Member.interp) ((Call.addVar a).prog dim) s := by
  refine .read ?_
  show Prog.GetsOk _ (Prog.bind (if s.grid_list.length ≠ dim then _ else _) _) s
  rw [if_neg (not_not.2 (by simpa [full] using h))]
  exact .read (.write (.read (.lift fun _ => .lift fun _ => .write (.read (.read (.lift fun _ => .lift fun _ => .here ⟨_, _, rfl⟩))))))

theorem race_axes (dim : Nat) (c : Call K) (vec : List K) (s : RGI K) (h : s.full dim = false) (hv : vec.Pairwise (· < ·))
    (hc : GridPart.axes ∈ usesRGI dim c ∨ GridPart.axes ∈ changesRGI (s.full dim) c) :
    Prog.CanRace (c.prog dim) ((Call.addCoord vec).prog dim) s := by
  have hw := addCoord_grid dim vec s h hv
  cases c with
  | addCoord _ => exact Prog.canRace_rw Member.grid (.here (Or.inl ⟨_, rfl⟩)) hw
  | addVar _ => exact Prog.canRace_rw Member.grid (.here (Or.inl ⟨_, rfl⟩)) hw
  | getCoord idx =>
    have hi : idx < dim := by
      by_contra hi
      simp [usesRGI, changesRGI, hi] at hc
    refine Prog.canRace_rw Member.grid ?_ hw
    show Prog.GetsR _ (if dim ≤ idx then _ else _) s
    rw [if_neg (Nat.not_le.2 hi)]
    exact .here (Or.inl ⟨_, rfl⟩)
  | getCoordMinVal idx =>
    simp only [usesRGI, changesRGI] at hc
    split at hc <;> simp at hc
  | getCoordMaxVal idx =>
    simp only [usesRGI, changesRGI] at hc
    split at hc <;> simp at hc
  | getDimension => simp [usesRGI, changesRGI] at hc
  | interp _ _ => simp [usesRGI, changesRGI] at hc
  | evalAtIndice _ => simp [usesRGI, changesRGI] at hc
  | isValid => simp [usesRGI, changesRGI] at hc

theorem race_values (dim : Nat) (c : Call K) (a : NDArray K) (s : RGI K) (h : s.full dim = true)
    (ho : ∃ r, (((Call.addVar a).seq dim).run s).1 = .ok r)
    (hc : GridPart.values ∈ usesRGI dim c ∨ GridPart.values ∈ changesRGI (s.full dim) c) :
    Prog.CanRace (c.prog dim) ((Call.addVar a).prog dim) s := by
  rw [← calls_run] at ho
  have hd := addVar_data dim a s h
  have hl := addVar_limits dim a s h ho
  have hi := addVar_interp dim a s h ho
  cases c with
  | addCoord _ => simp [usesRGI, changesRGI, h] at hc
  | addVar b => exact Prog.canRace_rw Member.data (addVar_reads_data dim b s h) hd
  | getCoord idx =>
    simp only [usesRGI, changesRGI] at hc
    split at hc <;> simp at hc
  | getCoordMinVal idx =>
    have hx : idx < dim := by
      by_contra hx
      simp [usesRGI, changesRGI, hx] at hc
    refine Prog.canRace_rw Member.limits ?_ hl
    show Prog.GetsR _ (if dim ≤ idx then _ else _) s
    rw [if_neg (Nat.not_le.2 hx)]
    exact .here (Or.inl ⟨_, rfl⟩)
  | getCoordMaxVal idx =>
    have hx : idx < dim := by
      by_contra hx
      simp [usesRGI, changesRGI, hx] at hc
    refine Prog.canRace_rw Member.limits ?_ hl
    show Prog.GetsR _ (if dim ≤ idx then _ else _) s
    rw [if_neg (Nat.not_le.2 hx)]
    exact .here (Or.inl ⟨_, rfl⟩)
  | getDimension => simp [usesRGI, changesRGI] at hc
  | interp point b =>
    cases b with
    | false => exact Prog.canRace_rw Member.interp (.here (Or.inl ⟨_, rfl⟩)) hi
    | true => exact Prog.canRace_rw Member.limits (.here (Or.inl ⟨_, rfl⟩)) hl
  | evalAtIndice _ => exact Prog.canRace_rw Member.data (.here (Or.inl ⟨_, rfl⟩)) hd
  | isValid => exact Prog.canRace_rw Member.interp (.here (Or.inl ⟨_, rfl⟩)) hi

theorem race_changes (dim : Nat) (c d : Call K) (s : RGI K) (ho : ∃ a, ((c.seq dim).run s).1 = .ok a) (p : GridPart)
    (hp : p ∈ changesRGI (s.full dim) c) (hd : p ∈ usesRGI dim d ∨ p ∈ changesRGI (s.full dim) d) : Prog.CanRace (c.prog dim) (d.prog dim) s := by
  cases c with
  | addCoord vec =>
    by_cases h : s.full dim = false ∧ vec.Pairwise (· < ·)
    · have : p = .axes := by simpa [changesRGI, h] using hp
      subst this
      exact (race_axes dim d vec s h.1 h.2 hd).symm
    · simp [changesRGI, h] at hp
  | addVar a =>
    cases h : s.full dim with
    | true =>
      have : p = .values := by simpa [changesRGI, h] using hp
      subst this
      exact (race_values dim d a s h ho hd).symm
    | false => simp [changesRGI, h] at hp
  | getCoord _ => simp [changesRGI] at hp
  | getCoordMinVal _ => simp [changesRGI] at hp
  | getCoordMaxVal _ => simp [changesRGI] at hp
  | getDimension => simp [changesRGI] at hp
  | interp _ _ => simp [changesRGI] at hp
  | evalAtIndice _ => simp [changesRGI] at hp
  | isValid => simp [changesRGI] at hp

theorem clash_races (dim : Nat) (c d : Call K) (s : RGI K) (h : ClashRGI dim s c d) (hc : ∃ a, ((c.seq dim).run s).1 = .ok a)
    (hd : ∃ a, ((d.seq dim).run s).1 = .ok a) : Prog.CanRace (c.prog dim) (d.prog dim) s := by
  obtain ⟨p, ⟨h1, h2⟩ | ⟨h1, h2⟩⟩ := h
  · exact race_changes dim c d s hc p h1 h2
  · exact (race_changes dim d c s hd p h1 h2).symm

end RGI

section
variable {K : Type} [Field K] [LinearOrder K] [IsStrictOrderedRing K]

/-- **C156**: the program of accesses of a call on a `RegularGridInterpolator`, run alone, is the call. -/
theorem C156_calls (dim : Nat) (c : RGI.Call K) (s : RGI K) : (c.prog dim).run s = (c.seq dim).run s := RGI.calls_run dim c s

/-- **C156**: threads that share a `RegularGridInterpolator` and of whose calls no two clash: in every schedule there is no data race, each gets the
result of its call made alone, and the object is left as by the calls made one after the other, in whatever order. -/
theorem C156_serializable {ι : Type} [DecidableEq ι] (dim : Nat) (s : RGI K) (c : ι → RGI.Call K)
    (h : ∀ i j, i ≠ j → ¬ ClashRGI dim s (c i) (c j)) : Serializable (fun i => (c i).prog dim) s :=
  RGI.no_clash dim s c h

/-- **C156**: two calls that clash, each of which returns when made alone: some schedule has a data race, whatever the other threads do. -/
theorem C156_races {ι : Type} [DecidableEq ι] (dim : Nat) (s : RGI K) (c : ι → RGI.Call K) (i j : ι) (hij : i ≠ j)
    (h : ClashRGI dim s (c i) (c j)) (hi : ∃ a, (((c i).seq dim).run s).1 = .ok a) (hj : ∃ a, (((c j).seq dim).run s).1 = .ok a) :
    ∃ ts' s', Reach (fun i => (c i).prog dim, s) (ts', s') ∧ Race ts' :=
  RGI.clash_races dim _ _ s h hi hj ι _ i j _ hij rfl rfl

end

/-- A grid of two axes with its values. -/
def sharedGrid : RGI ℚ := (RGI.execAll 2 [.addCoord [0, 1], .addCoord [0, 2, 3], .addVar ⟨[2, 3], [1, 2, 3, 4, 5, 6]⟩] (RGI.new ℚ 2)).2

/-- One thread for each point, each interpolating there; another one asks for the bounds. -/
example : Serializable (fun i : Option (ℚ × ℚ) => ((match i with
      | none => .getCoordMaxVal 1
      | some p => .interp [p.1, p.2] true) : RGI.Call ℚ).prog 2) sharedGrid ∧
    ((RGI.Call.interp [1 / 2, 1] true).seq 2).run sharedGrid = (.ok (.value 3), sharedGrid) := by
  refine ⟨C156_serializable 2 _ (fun i : Option (ℚ × ℚ) => ((match i with
      | none => .getCoordMaxVal 1
      | some p => .interp [p.1, p.2] true) : RGI.Call ℚ)) (fun i j hij => ?_), ?_⟩
  · rcases i with _ | i <;> rcases j with _ | j <;> simp [ClashRGI, Conflict, usesRGI, changesRGI]
  · show ((RGI.Answer.value <$> RGI.interpolate sharedGrid [1 / 2, 1] true), sharedGrid) = _
    have : RGI.interpolate sharedGrid [1 / 2, 1] true = .ok 3 := by decide +kernel
    rw [this]
    rfl

/-- A thread that loads new values and one that interpolates. -/
example : ∃ ts' s', Reach (fun i : Bool => ((if i then .addVar ⟨[2, 3], [0, 0, 0, 0, 0, 0]⟩ else .interp [1 / 2, 1] false) : RGI.Call ℚ).prog 2, sharedGrid)
    (ts', s') ∧ Race ts' := by
  refine C156_races 2 sharedGrid (fun i : Bool => ((if i then .addVar ⟨[2, 3], [0, 0, 0, 0, 0, 0]⟩ else .interp [1 / 2, 1] false) : RGI.Call ℚ)) true false
    (by simp) ⟨.values, Or.inl ⟨?_, Or.inl ?_⟩⟩ ⟨.done, ?_⟩ ⟨.value 3, ?_⟩
  · have : sharedGrid.full 2 = true := by decide +kernel
    simp [changesRGI, this]
  · simp [usesRGI]
  · show (((RGI.addVar 2 _ >>= fun _ => pure RGI.Answer.done : Act (RGI ℚ) _)).run sharedGrid).1 = _
    rw [Act.bind_map]
    have : ((RGI.addVar 2 ⟨[2, 3], [0, 0, 0, 0, 0, 0]⟩).run sharedGrid).1 = .ok () := by decide +kernel
    simp only [this]
    rfl
  · show (RGI.Answer.value <$> RGI.interpolate sharedGrid [1 / 2, 1] false) = _
    have : RGI.interpolate sharedGrid [1 / 2, 1] false = .ok 3 := by decide +kernel
    rw [this]
    rfl

/-! ## C157: `RegularGridNearest` -/

namespace RGN
variable {K D : Type}

theorem layout_lawful : (layout K D).Lawful where
  get_set l v s := by cases l <;> rfl
  get_set_ne l l' v s h := by cases l <;> cases l' <;> first | rfl | exact absurd rfl h
  ext s s' h := by
    have h1 := h .grid
    have h2 := h .data
    cases s
    cases s'
    cases h1
    cases h2
    rfl

theorem run_rGrid {β : Type} (f : List (List K) → Prog (layout K D) β) (s : RGN K D) : (rGrid >>= f).run s = (f s.grid_list).run s := rfl
theorem run_rData {β : Type} (f : NDArray D → Prog (layout K D) β) (s : RGN K D) : (rData >>= f).run s = (f s.data).run s := rfl

section hidden
attribute [local irreducible] MU.vIdx MU.mdRead nodeCoords nodeIndices vertexBits nearestLoop surroundingLoop

theorem addCoordP_run (dim : Nat) (vec : List K) (s : RGN K D) : (addCoordP dim vec).run s = (addCoord dim vec).run s := by
  unfold addCoordP addCoord
  rw [run_rGrid, Act.run_get_bind]
  by_cases h : s.grid_list.length = dim
  · rw [if_pos h, if_pos h]
    rfl
  · rw [if_neg h, if_neg h]
    rfl

theorem addVarP_run (dim : Nat) (a : NDArray D) (s : RGN K D) : (addVarP dim a).run s = (addVar dim a).run s := by
  unfold addVarP addVar
  rw [run_rGrid, Act.run_get_bind]
  by_cases h : s.grid_list.length = dim
  · rw [if_neg (not_not.2 h), if_neg (not_not.2 h)]
    rfl
  · rw [if_pos h, if_pos h]
    rfl

theorem getNodeP_run (cell : List Nat) (v : Nat) (s : RGN K D) : (getNodeP cell v).run s = (getNode s cell v, s) := by
  unfold getNodeP getNode
  rw [run_rGrid]
  refine Prog.run_lift_pair _ _ _ s (fun coords _ => ?_)
  rw [run_rData]
  exact Prog.run_lift_pair _ _ _ s (fun val _ => rfl)

theorem nodesP_run (cell : List Nat) (n lo : Nat) (nodes : List (GridNode K D)) (s : RGN K D) :
    (nodesP cell n lo nodes).run s = (forN n lo (fun v nodes => do
      let x ← getNode s cell v
      return nodes ++ [x]) nodes, s) := by
  induction n generalizing lo nodes with
  | zero => rfl
  | succ n ih =>
    show ((getNodeP cell lo >>= fun x => pure (nodes ++ [x])) >>= nodesP cell n (lo + 1)).run s = _
    rw [forN]
    exact Prog.run_bind_pair (Prog.run_bind_pair (getNodeP_run cell lo s) _ _ (fun _ _ => rfl)) _ _ (fun l _ => ih (lo + 1) l)

variable [Field K] [LinearOrder K]

theorem nearestP_run (point : List K) (s : RGN K D) : (nearestP point).run s = (nearest s point, s) := by
  unfold nearestP nearest
  rw [run_rGrid]
  refine Prog.run_lift_pair _ _ _ s (fun r _ => ?_)
  rw [run_rData]
  exact Prog.run_lift_pair _ _ _ s (fun val _ => rfl)

theorem surroundingP_run (point : List K) (s : RGN K D) : (surroundingP point).run s = (surrounding s point, s) := by
  unfold surroundingP surrounding
  rw [run_rGrid]
  exact Prog.run_lift_pair _ _ _ s (fun cell _ => nodesP_run cell _ 0 [] s)

theorem calls_run (dim : Nat) (c : Call K D) (s : RGN K D) : (c.prog dim).run s = (c.seq dim).run s := by
  cases c with
  | addCoord vec =>
    show (addCoordP dim vec >>= fun _ => pure Answer.done).run s = (addCoord dim vec >>= fun _ => pure Answer.done).run s
    rw [Prog.run_bind, Act.run_bind, addCoordP_run]
    rcases (addCoord dim vec).run s with ⟨r, s'⟩
    cases r <;> rfl
  | addVar a =>
    show (addVarP dim a >>= fun _ => pure Answer.done).run s = (addVar dim a >>= fun _ => pure Answer.done).run s
    rw [Prog.run_bind, Act.run_bind, addVarP_run]
    rcases (addVar dim a).run s with ⟨r, s'⟩
    cases r <;> rfl
  | getCoord idx =>
    show (if dim ≤ idx then _ else _ : Prog (layout K D) (Answer K D)).run s = (Answer.axis <$> (if dim ≤ idx then _ else _), s)
    by_cases h : dim ≤ idx
    · rw [if_pos h, if_pos h]
      rfl
    · rw [if_neg h, if_neg h, run_rGrid, Prog.run_lift_pair _ _ (fun l => .ok (Answer.axis l)) s (fun _ _ => rfl), Res.map_eq_bind]
  | getCoordMinVal idx =>
    show (if dim ≤ idx then _ else _ : Prog (layout K D) (Answer K D)).run s = (Answer.coord <$> (if dim ≤ idx then _ else _), s)
    by_cases h : dim ≤ idx
    · rw [if_pos h, if_pos h]
      rfl
    · rw [if_neg h, if_neg h, run_rGrid, Res.map_eq_bind]
      simp only [bind_assoc]
      refine Prog.run_lift_pair _ _ _ s (fun l _ => ?_)
      cases l <;> rfl
  | getCoordMaxVal idx =>
    show (if dim ≤ idx then _ else _ : Prog (layout K D) (Answer K D)).run s = (Answer.coord <$> (if dim ≤ idx then _ else _), s)
    by_cases h : dim ≤ idx
    · rw [if_pos h, if_pos h]
      rfl
    · rw [if_neg h, if_neg h, run_rGrid, Res.map_eq_bind]
      simp only [bind_assoc]
      refine Prog.run_lift_pair _ _ _ s (fun l _ => ?_)
      cases l <;> rfl
  | getDimension => rfl
  | nearest point =>
    show (nearestP point >>= fun v => pure (Answer.node v)).run s = (Answer.node <$> nearest s point, s)
    rw [Prog.run_bind_pair (nearestP_run point s) _ (fun v => .ok (Answer.node v)) (fun _ _ => rfl), Res.map_eq_bind]
  | getData point => rfl
  | surrounding point =>
    show (surroundingP point >>= fun v => pure (Answer.nodes v)).run s = (Answer.nodes <$> surrounding s point, s)
    rw [Prog.run_bind_pair (surroundingP_run point s) _ (fun v => .ok (Answer.nodes v)) (fun _ _ => rfl), Res.map_eq_bind]
  | isValid => rfl

end hidden

/-- The part a field belongs to. -/
def Member.part : Member → GridPart
  | .grid => .axes
  | .data => .values

/-- The fields read by a call. -/
def reads (dim : Nat) (s : RGN K D) (c : Call K D) (l : Member) : Prop := l.part ∈ usesRGN dim c ∨ l.part ∈ changesRGN (s.full dim) c

/-- The fields assigned by a call. -/
def writes (dim : Nat) (s : RGN K D) (c : Call K D) (l : Member) : Prop := l.part ∈ changesRGN (s.full dim) c

theorem nodesP_foot {R W : Member → Prop} (hR : ∀ l, R l) (cell : List Nat) (n lo : Nat) (nodes : List (GridNode K D)) (s : RGN K D) :
    (nodesP cell n lo nodes).Foot (Λ := layout K D) R W s := by
  induction n generalizing lo nodes s with
  | zero => trivial
  | succ n ih =>
    show ((getNodeP cell lo >>= fun x => pure (nodes ++ [x])) >>= nodesP cell n (lo + 1)).Foot R W s
    refine Prog.foot_bind _ _ (Prog.foot_bind (getNodeP cell lo) _ ?_ (fun _ _ _ => trivial)) (fun l _ _ => ih (lo + 1) l _)
    refine Prog.foot_bind rGrid _ ⟨hR _, trivial⟩ (fun _ _ _ => ?_)
    refine Prog.foot_bind (Prog.lift _) _ trivial (fun _ _ _ => ?_)
    refine Prog.foot_bind rData _ ⟨hR _, trivial⟩ (fun _ _ _ => ?_)
    exact Prog.foot_bind (Prog.lift _) _ trivial (fun _ _ _ => trivial)

variable [Field K] [LinearOrder K]

theorem prog_foot (dim : Nat) (c : Call K D) (s : RGN K D) : (c.prog dim).Foot (Λ := layout K D) (reads dim s c) (writes dim s c) s := by
  have hR : ∀ l : Member, l.part ∈ usesRGN dim c → reads dim s c l := fun l hl => Or.inl hl
  cases c with
  | addCoord vec =>
    refine Prog.foot_bind (addCoordP dim vec) _ ?_ (fun _ _ _ => trivial)
    have hg := hR .grid (by simp [usesRGN, Member.part])
    refine ⟨hg, ?_⟩
    show Prog.Foot _ _ (if s.grid_list.length = dim then _ else _) s
    by_cases h : s.grid_list.length = dim
    · rw [if_pos h]
      trivial
    · rw [if_neg h]
      refine ⟨hg, ?_, trivial⟩
      show _ ∈ changesRGN _ _
      simp [changesRGN, full, h, Member.part]
  | addVar a =>
    refine Prog.foot_bind (addVarP dim a) _ ?_ (fun _ _ _ => trivial)
    have hg := hR .grid (by simp [usesRGN, Member.part])
    refine ⟨hg, ?_⟩
    show Prog.Foot _ _ (if s.grid_list.length ≠ dim then _ else _) s
    by_cases h : s.grid_list.length = dim
    · rw [if_neg (not_not.2 h)]
      refine ⟨?_, trivial⟩
      show _ ∈ changesRGN _ _
      simp [changesRGN, full, h, Member.part]
    · rw [if_pos h]
      trivial
  | getCoord idx =>
    show Prog.Foot _ _ (if dim ≤ idx then _ else _) s
    by_cases h : dim ≤ idx
    · rw [if_pos h]
      trivial
    · rw [if_neg h]
      have := hR .grid (by simp [usesRGN, Member.part, Nat.not_le.1 h])
      exact Prog.foot_bind rGrid _ ⟨this, trivial⟩ (fun _ _ _ => Prog.foot_bind _ _ trivial (fun _ _ _ => trivial))
  | getCoordMinVal idx =>
    show Prog.Foot _ _ (if dim ≤ idx then _ else _) s
    by_cases h : dim ≤ idx
    · rw [if_pos h]
      trivial
    · rw [if_neg h]
      have := hR .grid (by simp [usesRGN, Member.part, Nat.not_le.1 h])
      exact Prog.foot_bind rGrid _ ⟨this, trivial⟩ (fun _ _ _ => Prog.foot_bind _ _ trivial (fun l _ _ => by cases l <;> trivial))
  | getCoordMaxVal idx =>
    show Prog.Foot _ _ (if dim ≤ idx then _ else _) s
    by_cases h : dim ≤ idx
    · rw [if_pos h]
      trivial
    · rw [if_neg h]
      have := hR .grid (by simp [usesRGN, Member.part, Nat.not_le.1 h])
      exact Prog.foot_bind rGrid _ ⟨this, trivial⟩ (fun _ _ _ => Prog.foot_bind _ _ trivial (fun l _ _ => by cases l <;> trivial))
  | getDimension => trivial
  | nearest point =>
    have h1 : ∀ l : Member, reads dim s (.nearest point) l := fun l => hR l (by cases l <;> simp [usesRGN, Member.part])
    refine Prog.foot_bind (nearestP point) _ ?_ (fun _ _ _ => trivial)
    refine Prog.foot_bind rGrid _ ⟨h1 _, trivial⟩ (fun _ _ _ => ?_)
    refine Prog.foot_bind (Prog.lift _) _ trivial (fun _ _ _ => ?_)
    refine Prog.foot_bind rData _ ⟨h1 _, trivial⟩ (fun _ _ _ => ?_)
    exact Prog.foot_bind (Prog.lift _) _ trivial (fun _ _ _ => trivial)
  | getData _ => trivial
  | surrounding point =>
    have h1 : ∀ l : Member, reads dim s (.surrounding point) l := fun l => hR l (by cases l <;> simp [usesRGN, Member.part])
    refine Prog.foot_bind (surroundingP point) _ ?_ (fun _ _ _ => trivial)
    refine Prog.foot_bind rGrid _ ⟨h1 _, trivial⟩ (fun _ _ _ => ?_)
    refine Prog.foot_bind (Prog.lift _) _ trivial (fun _ _ _ => ?_)
    exact nodesP_foot h1 _ _ _ _ _
  | isValid => trivial

theorem no_clash {ι : Type} [DecidableEq ι] (dim : Nat) (s : RGN K D) (c : ι → Call K D) (h : ∀ i j, i ≠ j → ¬ ClashRGN dim s (c i) (c j)) :
    Serializable (fun i => (c i).prog dim) s := by
  refine Prog.foot_serializable layout_lawful (fun i => reads dim s (c i)) (fun i => writes dim s (c i)) s _ (fun i => prog_foot dim (c i) s) ?_
  intro i j l hij hw
  have := h i j hij
  constructor
  · rintro (hr | hr)
    · exact this ⟨_, Or.inl ⟨hw, Or.inl hr⟩⟩
    · exact this ⟨_, Or.inl ⟨hw, Or.inr hr⟩⟩
  · intro hr
    exact this ⟨_, Or.inl ⟨hw, Or.inr hr⟩⟩

/-! ### Races -/

theorem addCoord_grid (dim : Nat) (vec : List K) (s : RGN K D) (h : s.full dim = false) :
    Prog.Gets (·.Writes Member.grid) ((Call.addCoord vec).prog dim) s := by
  refine .read ?_
  show Prog.Gets _ (Prog.bind (if s.grid_list.length = dim then _ else _) _) s
  rw [if_neg (by simpa [full] using h)]
  exact .read (.here ⟨_, _, rfl⟩)

theorem addVar_data (dim : Nat) (a : NDArray D) (s : RGN K D) (h : s.full dim = true) :
    Prog.GetsR (·.Writes Member.data) ((Call.addVar (K := K) a).prog dim) s := by
  refine .read ?_
  show Prog.GetsR _ (Prog.bind (if s.grid_list.length ≠ dim then _ else _) _) s
  rw [if_neg (not_not.2 (by simpa [full] using h))]
  exact .here ⟨_, _, rfl⟩

theorem race_axes (dim : Nat) (c : Call K D) (vec : List K) (s : RGN K D) (h : s.full dim = false)
    (hc : GridPart.axes ∈ usesRGN dim c ∨ GridPart.axes ∈ changesRGN (s.full dim) c) :
    Prog.CanRace (c.prog dim) ((Call.addCoord vec).prog dim) s := by
  have hw := addCoord_grid dim vec s h
  have hx : ∀ idx, idx < dim → ∀ p q : Prog (layout K D) (Answer K D), Prog.GetsR (·.Accesses Member.grid) q s →
      Prog.GetsR (·.Accesses Member.grid) (if dim ≤ idx then p else q) s := by
    intro idx hi p q hq
    rw [if_neg (Nat.not_le.2 hi)]
    exact hq
  have hlt : ∀ idx, (GridPart.axes ∈ (if idx < dim then [GridPart.axes] else []) ∨ GridPart.axes ∈ ([] : List GridPart)) → idx < dim := by
    intro idx h
    by_contra hn
    simp [hn] at h
  cases c with
  | addCoord _ => exact Prog.canRace_rw Member.grid (.here (Or.inl ⟨_, rfl⟩)) hw
  | addVar _ => exact Prog.canRace_rw Member.grid (.here (Or.inl ⟨_, rfl⟩)) hw
  | getCoord idx => exact Prog.canRace_rw Member.grid (hx idx (hlt idx hc) _ _ (.here (Or.inl ⟨_, rfl⟩))) hw
  | getCoordMinVal idx => exact Prog.canRace_rw Member.grid (hx idx (hlt idx hc) _ _ (.here (Or.inl ⟨_, rfl⟩))) hw
  | getCoordMaxVal idx => exact Prog.canRace_rw Member.grid (hx idx (hlt idx hc) _ _ (.here (Or.inl ⟨_, rfl⟩))) hw
  | getDimension => simp [usesRGN, changesRGN] at hc
  | nearest _ => exact Prog.canRace_rw Member.grid (.here (Or.inl ⟨_, rfl⟩)) hw
  | getData _ => simp [usesRGN, changesRGN] at hc
  | surrounding _ => exact Prog.canRace_rw Member.grid (.here (Or.inl ⟨_, rfl⟩)) hw
  | isValid => simp [usesRGN, changesRGN] at hc

theorem nearest_data (dim : Nat) (point : List K) (s : RGN K D) :
    Prog.GetsOk (·.Accesses Member.data) ((Call.nearest (D := D) point).prog dim) s :=
  .read (.lift fun _ => .lift fun _ => .here (Or.inl ⟨_, rfl⟩))

theorem getsOk_lift3 {α β γ δ ε : Type} {P : Prog (layout K D) ε → Prop} {r : Res α} {f : α → Prog (layout K D) β} {g : β → Prog (layout K D) γ}
    {h : γ → Prog (layout K D) δ} {k : δ → Prog (layout K D) ε} {s : RGN K D} (H : ∀ a, Prog.GetsOk P ((((f a).bind g).bind h).bind k) s) :
    Prog.GetsOk P (((((Prog.lift r).bind f).bind g).bind h).bind k) s := by
  rintro ⟨c, hc⟩
  cases r with
  | ok a => exact H a ⟨c, hc⟩
  | throws e => cases hc
  | exits n => cases hc
  | aborts => cases hc
  | ub => cases hc
  | nonfinite => cases hc

theorem surrounding_data (dim : Nat) (point : List K) (s : RGN K D) :
    Prog.GetsOk (·.Accesses Member.data) ((Call.surrounding (D := D) point).prog dim) s := by
  refine .read ?_
  show Prog.GetsOk _ (((Prog.lift (surroundingLoop s.grid_list point)).bind fun cell => nodesP cell (1 <<< s.grid_list.length - 0) 0 []).bind
    fun l => pure (Answer.nodes l)) s
  refine .lift fun cell => ?_
  obtain ⟨n, hn⟩ : ∃ n, 1 <<< s.grid_list.length - 0 = n + 1 :=
    ⟨1 <<< s.grid_list.length - 1, by
      rw [Nat.shiftLeft_eq, one_mul]
      have := Nat.one_le_two_pow (n := s.grid_list.length)
      omega⟩
  rw [hn]
  exact .read (getsOk_lift3 fun _ => getsOk_lift3 fun _ => .here (Or.inl ⟨_, rfl⟩))

theorem race_values (dim : Nat) (c : Call K D) (a : NDArray D) (s : RGN K D) (h : s.full dim = true) (ho : ∃ r, ((c.seq dim).run s).1 = .ok r)
    (hc : GridPart.values ∈ usesRGN dim c ∨ GridPart.values ∈ changesRGN (s.full dim) c) :
    Prog.CanRace ((Call.addVar a).prog dim) (c.prog dim) s := by
  rw [← calls_run] at ho
  have hw := addVar_data (K := K) dim a s h
  cases c with
  | addCoord _ => simp [usesRGN, changesRGN, h] at hc
  | addVar b =>
    refine Prog.canRace_wr Member.data hw ?_
    obtain ⟨q, h1, v, p, h2⟩ := addVar_data (K := K) dim b s h
    exact ⟨q, s, h1, Or.inr ⟨v, p, h2⟩⟩
  | getCoord idx =>
    simp only [usesRGN, changesRGN] at hc
    split at hc <;> simp at hc
  | getCoordMinVal idx =>
    simp only [usesRGN, changesRGN] at hc
    split at hc <;> simp at hc
  | getCoordMaxVal idx =>
    simp only [usesRGN, changesRGN] at hc
    split at hc <;> simp at hc
  | getDimension => simp [usesRGN, changesRGN] at hc
  | nearest point => exact Prog.canRace_wr Member.data hw (nearest_data dim point s ho)
  | getData _ => simp [usesRGN, changesRGN] at hc
  | surrounding point => exact Prog.canRace_wr Member.data hw (surrounding_data dim point s ho)
  | isValid => simp [usesRGN, changesRGN] at hc

theorem race_changes (dim : Nat) (c d : Call K D) (s : RGN K D) (ho : ∃ a, ((d.seq dim).run s).1 = .ok a) (p : GridPart)
    (hp : p ∈ changesRGN (s.full dim) c) (hd : p ∈ usesRGN dim d ∨ p ∈ changesRGN (s.full dim) d) : Prog.CanRace (c.prog dim) (d.prog dim) s := by
  cases c with
  | addCoord vec =>
    cases h : s.full dim with
    | false =>
      have : p = .axes := by simpa [changesRGN, h] using hp
      subst this
      exact (race_axes dim d vec s h hd).symm
    | true => simp [changesRGN, h] at hp
  | addVar a =>
    cases h : s.full dim with
    | true =>
      have : p = .values := by simpa [changesRGN, h] using hp
      subst this
      exact race_values dim d a s h ho hd
    | false => simp [changesRGN, h] at hp
  | getCoord _ => simp [changesRGN] at hp
  | getCoordMinVal _ => simp [changesRGN] at hp
  | getCoordMaxVal _ => simp [changesRGN] at hp
  | getDimension => simp [changesRGN] at hp
  | nearest _ => simp [changesRGN] at hp
  | getData _ => simp [changesRGN] at hp
  | surrounding _ => simp [changesRGN] at hp
  | isValid => simp [changesRGN] at hp

theorem clash_races (dim : Nat) (c d : Call K D) (s : RGN K D) (h : ClashRGN dim s c d) (hc : ∃ a, ((c.seq dim).run s).1 = .ok a)
    (hd : ∃ a, ((d.seq dim).run s).1 = .ok a) : Prog.CanRace (c.prog dim) (d.prog dim) s := by
  obtain ⟨p, ⟨h1, h2⟩ | ⟨h1, h2⟩⟩ := h
  · exact race_changes dim c d s hd p h1 h2
  · exact (race_changes dim d c s hc p h1 h2).symm

end RGN

section
variable {K D : Type} [Field K] [LinearOrder K]

/-- **C157**: the program of accesses of a call on a `RegularGridNearest`, run alone, is the call. -/
theorem C157_calls (dim : Nat) (c : RGN.Call K D) (s : RGN K D) : (c.prog dim).run s = (c.seq dim).run s := RGN.calls_run dim c s

/-- **C157**: threads that share a `RegularGridNearest` and of whose calls no two clash: in every schedule there is no data race, each gets the
result of its call made alone, and the object is left as by the calls made one after the other, in whatever order. -/
theorem C157_serializable {ι : Type} [DecidableEq ι] (dim : Nat) (s : RGN K D) (c : ι → RGN.Call K D)
    (h : ∀ i j, i ≠ j → ¬ ClashRGN dim s (c i) (c j)) : Serializable (fun i => (c i).prog dim) s :=
  RGN.no_clash dim s c h

/-- **C157**: two calls that clash, each of which returns when made alone: some schedule has a data race, whatever the other threads do. -/
theorem C157_races {ι : Type} [DecidableEq ι] (dim : Nat) (s : RGN K D) (c : ι → RGN.Call K D) (i j : ι) (hij : i ≠ j)
    (h : ClashRGN dim s (c i) (c j)) (hi : ∃ a, (((c i).seq dim).run s).1 = .ok a) (hj : ∃ a, (((c j).seq dim).run s).1 = .ok a) :
    ∃ ts' s', Reach (fun i => (c i).prog dim, s) (ts', s') ∧ Race ts' :=
  RGN.clash_races dim _ _ s h hi hj ι _ i j _ hij rfl rfl

end

/-- A grid of two axes with its data. -/
def sharedNearest : RGN ℚ ℕ := (RGN.make 2 [[0, 1], [0, 2, 3]] ⟨[2, 3], [1, 2, 3, 4, 5, 6]⟩).2

/-- One thread loads new data while others ask for the axes. -/
example : Serializable (fun i : Option ℕ => ((match i with
      | none => .addVar ⟨[2, 3], [0, 0, 0, 0, 0, 0]⟩
      | some k => .getCoord k) : RGN.Call ℚ ℕ).prog 2) sharedNearest := by
  refine C157_serializable 2 _ (fun i : Option ℕ => ((match i with
      | none => .addVar ⟨[2, 3], [0, 0, 0, 0, 0, 0]⟩
      | some k => .getCoord k) : RGN.Call ℚ ℕ)) (fun i j hij => ?_)
  have hf : sharedNearest.full 2 = true := by decide +kernel
  rcases i with _ | i <;> rcases j with _ | j
  · exact absurd rfl hij
  · by_cases h : j < 2 <;> simp [ClashRGN, Conflict, usesRGN, changesRGN, hf, h]
  · by_cases h : i < 2 <;> simp [ClashRGN, Conflict, usesRGN, changesRGN, hf, h]
  · simp [ClashRGN, Conflict, changesRGN]

/-- A thread that loads new data and one that asks for the nearest node. -/
example : ∃ ts' s', Reach (fun i : Bool => ((if i then .addVar ⟨[2, 3], [0, 0, 0, 0, 0, 0]⟩ else .nearest [1 / 4, 1]) : RGN.Call ℚ ℕ).prog 2, sharedNearest)
    (ts', s') ∧ Race ts' := by
  have hf : sharedNearest.full 2 = true := by decide +kernel
  refine C157_races 2 sharedNearest (fun i : Bool => ((if i then .addVar ⟨[2, 3], [0, 0, 0, 0, 0, 0]⟩ else .nearest [1 / 4, 1]) : RGN.Call ℚ ℕ)) true false
    (by simp) ⟨.values, Or.inl ⟨?_, Or.inl ?_⟩⟩ ⟨.done, ?_⟩ ?_
  · simp [changesRGN, hf]
  · simp [usesRGN]
  · show (((RGN.addVar 2 _ >>= fun _ => pure RGN.Answer.done : Act (RGN ℚ ℕ) _)).run sharedNearest).1 = _
    rw [Act.bind_map]
    rfl
  · show ∃ a, (RGN.Answer.node <$> RGN.nearest sharedNearest [1 / 4, 1]) = .ok a
    have : ∃ n, RGN.nearest sharedNearest [1 / 4, 1] = .ok n := by
      cases h : RGN.nearest sharedNearest [1 / 4, 1] with
      | ok n => exact ⟨n, rfl⟩
      | _ =>
        have h' : ((RGN.nearest sharedNearest [1 / 4, 1]) >>= fun n => Res.ok n.val) = .ok 2 := by decide +kernel
        rw [h] at h'
        cases h'
    obtain ⟨n, hn⟩ := this
    exact ⟨.node n, by rw [hn]; rfl⟩

end MU
