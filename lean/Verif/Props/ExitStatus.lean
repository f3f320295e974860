import Verif.Model.Angles
import Verif.Model.LookupTable1D
import Verif.Model.LookupTable2d
import Verif.Model.RegularGridInterpolator
import Verif.Model.RegularGridNearest
import Verif.Model.Chebyshev
import Verif.Lemmas.ExpIntModel
import Verif.Props.Triangle

set_option linter.unusedSectionVars false

/-!
# C222: a call that ends the program reports a failure

For each function that calls `exit`: when it does, and with which status. The interpolators, tables, grids and the conversion of a unit end the program with a failure status
(`C222_…_partial`); the special functions, the conversion of Chebyshev series and the quadrature over triangles end it with the status of a success (`C222_…_refuted`).
-/

namespace MU

/-- The outcome is not the end of the program. -/
structure NoExit {α : Type} (r : Res α) : Prop where
  ne : ∀ c, r ≠ .exits c

/-- From no state does the call end the program. -/
structure ActNoExit {σ α : Type} (m : Act σ α) : Prop where
  ne : ∀ s, NoExit (m.run s).1

theorem NoExit.bind {α β : Type} {x : Res α} {f : α → Res β} (hx : NoExit x) (hf : ∀ a, NoExit (f a)) : NoExit (x >>= f) := by
  cases x with
  | ok a => exact hf a
  | exits c => exact absurd rfl (hx.ne c)
  | _ => exact ⟨fun c h => by simp at h⟩

theorem NoExit.ok {α : Type} (a : α) : NoExit (.ok a) := ⟨fun _ h => by cases h⟩
theorem NoExit.pure {α : Type} (a : α) : NoExit (Pure.pure a : Res α) := ⟨fun _ h => by cases h⟩
theorem NoExit.ub {α : Type} : NoExit (.ub : Res α) := ⟨fun _ h => by cases h⟩
theorem NoExit.aborts {α : Type} : NoExit (.aborts : Res α) := ⟨fun _ h => by cases h⟩
theorem NoExit.nonfinite {α : Type} : NoExit (.nonfinite : Res α) := ⟨fun _ h => by cases h⟩
theorem NoExit.throws {α : Type} (e : Exn) : NoExit (.throws e : Res α) := ⟨fun _ h => by cases h⟩

theorem NoExit.bind_exits {α β : Type} {x : Res α} {f : α → Res β} {c : Int} (hx : NoExit x) : x >>= f = .exits c ↔ ∃ a, x = .ok a ∧ f a = .exits c := by
  cases x with
  | ok a => simp
  | exits c => exact absurd rfl (hx.ne c)
  | _ => simp

theorem NoExit.forN {σ : Type} {f : Nat → σ → Res σ} (hf : ∀ i s, NoExit (f i s)) : ∀ (n lo : Nat) (s : σ), NoExit (MU.forN n lo f s)
  | 0, _, s => NoExit.ok s
  | n + 1, lo, s => NoExit.bind (hf lo s) fun s' => NoExit.forN hf n (lo + 1) s'

theorem NoExit.forRange {σ : Type} {f : Nat → σ → Res σ} (hf : ∀ i s, NoExit (f i s)) (lo hi : Nat) (s : σ) : NoExit (MU.forRange lo hi f s) := NoExit.forN hf _ _ _

theorem NoExit.vAt {α : Type} (l : List α) (i : Nat) : NoExit (MU.vAt l i) := by
  unfold MU.vAt; split <;> first | exact .ok _ | exact .throws _
theorem NoExit.vIdx {α : Type} (l : List α) (i : Nat) : NoExit (MU.vIdx l i) := by
  unfold MU.vIdx; split <;> first | exact .ok _ | exact .ub
theorem NoExit.deref {α : Type} (p : Option α) : NoExit (MU.deref p) := by cases p <;> first | exact .ok _ | exact .ub
theorem NoExit.readVar {α : Type} (p : Option α) : NoExit (MU.readVar p) := by cases p <;> first | exact .ok _ | exact .ub
theorem NoExit.cassert (B : Build) (p : Prop) [Decidable p] : NoExit (MU.cassert B p) := by
  unfold MU.cassert; split <;> first | exact .ok _ | exact .aborts
theorem NoExit.fdiv {K : Type} [Field K] [DecidableEq K] (a b : K) : NoExit (MU.fdiv a b) := by
  unfold MU.fdiv; split <;> first | exact .ok _ | exact .nonfinite
theorem NoExit.sdiv {K Y : Type} [Field K] [DecidableEq K] [AddCommGroup Y] [Module K Y] (y : Y) (d : K) : NoExit (MU.sdiv y d) := by
  unfold MU.sdiv; split <;> first | exact .ok _ | exact .nonfinite
theorem NoExit.rdiv (a b : ℝ) : NoExit (MU.rdiv a b) := by
  unfold MU.rdiv; split <;> first | exact .ok _ | exact .nonfinite
theorem NoExit.lowerBound {K : Type} [LinearOrder K] (l : List K) (v : K) : NoExit (MU.lowerBound l v) := by
  unfold MU.lowerBound; split <;> first | exact .ok _ | exact .ub
theorem NoExit.upperBound {K : Type} [LinearOrder K] (l : List K) (v : K) : NoExit (MU.upperBound l v) := by
  unfold MU.upperBound; split <;> first | exact .ok _ | exact .ub
theorem NoExit.assocAt {V : Type} (m : List (String × V)) (name : String) : NoExit (MU.assocAt m name) := by
  unfold MU.assocAt; split <;> first | exact .ok _ | exact .throws _
theorem NoExit.eigenFail {α : Type} (B : Build) : NoExit (MU.eigenFail B : Res α) := by
  unfold MU.eigenFail; split <;> first | exact .aborts | exact .ub
theorem NoExit.eAt {K : Type} (B : Build) (v : List K) (i : Nat) : NoExit (MU.eAt B v i) := by
  unfold MU.eAt; split <;> first | exact .ok _ | exact .eigenFail _
theorem NoExit.eSet {K : Type} (B : Build) (v : List K) (i : Nat) (a : K) : NoExit (MU.eSet B v i a) := by
  unfold MU.eSet; split <;> first | exact .ok _ | exact .eigenFail _
theorem NoExit.matAt {K : Type} (B : Build) (m : Mat K) (i j : Nat) : NoExit (m.at' B i j) := by
  unfold Mat.at'; split <;> first | exact .ok _ | exact .eigenFail _
theorem NoExit.matSet {K : Type} (B : Build) (m : Mat K) (i j : Nat) (a : K) : NoExit (m.set B i j a) := by
  unfold Mat.set; split <;> first | exact .ok _ | exact .eigenFail _
theorem NoExit.mdOffset : ∀ (e : List Nat) (i : List Int) (acc : Nat), NoExit (MU.mdOffset e i acc)
  | [], [], _ => .ok _
  | _ :: ns, _ :: is, _ => by unfold MU.mdOffset; split <;> first | exact NoExit.mdOffset ns is _ | exact .ub
  | [], _ :: _, _ => .ub
  | _ :: _, [], _ => .ub

/-- Closes `NoExit` of code made of the operations above. -/
macro "noexit" : tactic => `(tactic| with_reducible repeat' first
  | assumption | exact .ok _ | exact .pure _ | exact .ub | exact .aborts | exact .nonfinite | exact .throws _ | exact .vAt _ _ | exact .vIdx _ _ | exact .deref _ | exact .readVar _
  | exact .cassert _ _ | exact .fdiv _ _ | exact .sdiv _ _ | exact .rdiv _ _ | exact .lowerBound _ _ | exact .upperBound _ _ | exact .assocAt _ _ | exact .eAt _ _ _
  | exact .eSet _ _ _ _ | exact .matAt _ _ _ _ | exact .matSet _ _ _ _ _ | exact .mdOffset _ _ _ | apply NoExit.forRange | apply NoExit.bind | intro _ | split)

namespace ActNoExit
variable {σ α β : Type}

theorem bind {m : Act σ α} {f : α → Act σ β} (hm : ActNoExit m) (hf : ∀ a, ActNoExit (f a)) : ActNoExit (m >>= f) := by
  refine ⟨fun s => ?_⟩
  rw [Act.run_bind]
  have h := hm.ne s
  generalize m.run s = r at h
  obtain ⟨r, s'⟩ := r
  cases r with
  | ok a => exact (hf a).ne s'
  | exits c => exact absurd rfl (h.ne c)
  | throws e => exact .throws e
  | aborts => exact .aborts
  | ub => exact .ub
  | nonfinite => exact .nonfinite

theorem lift {x : Res α} (h : NoExit x) : ActNoExit (Act.lift x : Act σ α) := ⟨fun _ => h⟩
theorem get : ActNoExit (Act.get : Act σ σ) := ⟨fun _ => .ok _⟩
theorem update (f : σ → σ) : ActNoExit (Act.update f) := ⟨fun _ => .ok _⟩
theorem pure (a : α) : ActNoExit (Pure.pure a : Act σ α) := ⟨fun _ => .ok _⟩

theorem loopN {f : Nat → Act σ Unit} (hf : ∀ i, ActNoExit (f i)) : ∀ n lo, ActNoExit (Act.loopN n lo f)
  | 0, _ => .pure ()
  | n + 1, lo => .bind (hf lo) fun _ => loopN hf n (lo + 1)

theorem loop {f : Nat → Act σ Unit} (hf : ∀ i, ActNoExit (f i)) (lo hi : Nat) : ActNoExit (Act.loop lo hi f) := loopN hf _ _

end ActNoExit

/-- Closes `ActNoExit` of code made of the operations above. -/
macro "actnoexit" : tactic => `(tactic| with_reducible (repeat' first
  | assumption | exact .get | exact .update _ | exact .pure _ | apply ActNoExit.loop | apply ActNoExit.bind | apply ActNoExit.lift | intro _ | split) <;> noexit)

/-! ## Interpolators and tables -/

section interp
variable {K Y : Type} [Field K] [LinearOrder K] [AddCommGroup Y] [Module K Y]

theorem interp1d_init_noExit (B : Build) (x : Option (List K)) (y : Option (List Y)) : ActNoExit (Interp1d.init B x y) := by
  unfold Interp1d.init Interp1d.initializeBase Interp1d.initializeStep
  actnoexit

theorem privEvalBase_noExit (s : Interp1d K Y) (x : K) : NoExit (Interp1d.privEvalBase s x) := by
  unfold Interp1d.privEvalBase
  noexit

/-- **C222**: `Eval(x)` of a 1D interpolator ends the program exactly when the method is LINEAR and `x` is outside of the range, and then with the failure status 1. -/
theorem C222_eval_partial (kind : Interp1dKind) (s : Interp1d K Y) (mn mx : K) (hmn : s.xmin = some mn) (hmx : s.xmax = some mx) (x : K) (c : Int) :
    Interp1d.eval kind s x = .exits c ↔ c = 1 ∧ kind = .linear ∧ (x < mn ∨ mx < x) := by
  cases kind with
  | linear =>
    simp only [Interp1d.eval, Interp1d.privEvalLinear, hmn, hmx, readVar_some, Res.ok_bind]
    split
    · rename_i h
      simp [h, eq_comm]
    · split
      · rename_i h1 h2
        simp [h2, eq_comm]
      · rename_i h1 h2
        exact ⟨fun h => absurd h ((privEvalBase_noExit s x).ne c), fun h => absurd h.2.2 (by tauto)⟩
  | extrapolate => exact ⟨fun h => absurd h ((privEvalBase_noExit s x).ne c), fun h => by simp at h⟩
  | saturate =>
    refine ⟨fun h => absurd h (NoExit.ne ?_ c), fun h => by simp at h⟩
    unfold Interp1d.eval Interp1d.privEvalSaturate Interp1d.privEvalBase
    noexit

/-- Whatever the state of the object, `Eval` ends the program with the failure status 1 only. -/
theorem interp1d_eval_status (kind : Interp1dKind) (s : Interp1d K Y) (x : K) (c : Int) (h : Interp1d.eval kind s x = .exits c) : c = 1 := by
  cases hmn : s.xmin with
  | none => cases kind <;> first | exact absurd h ((privEvalBase_noExit s x).ne c) | simp [Interp1d.eval, Interp1d.privEvalLinear, Interp1d.privEvalSaturate, hmn] at h
  | some mn =>
    cases hmx : s.xmax with
    | none =>
      cases kind with
      | linear =>
        simp only [Interp1d.eval, Interp1d.privEvalLinear, hmn, hmx, readVar_some, readVar_none, Res.ok_bind, Res.ub_bind] at h
        split at h
        · exact (Res.exits.inj h).symm
        · cases h
      | extrapolate => exact absurd h ((privEvalBase_noExit s x).ne c)
      | saturate => simp [Interp1d.eval, Interp1d.privEvalSaturate, hmn, hmx] at h
    | some mx => exact ((C222_eval_partial kind s mn mx hmn hmx x c).1 h).1

/-- **C222**: creating a 1D interpolator ends the program exactly for the method BSPLINE, with the failure status 1; initialising one never does. -/
theorem C222_make_partial (m : InterpMethod) (c : Int) : Interp1d.make m = .exits c ↔ c = 1 ∧ m = .BSPLINE := by
  cases m <;> simp [Interp1d.make, eq_comm]

theorem C222_init_partial (B : Build) (x : Option (List K)) (y : Option (List Y)) (s : Interp1d K Y) (c : Int) : ((Interp1d.init B x y).run s).1 ≠ .exits c :=
  ((interp1d_init_noExit B x y).ne s).ne c

/-- **C222**: `AddY` of a 1D table ends the program exactly when the name is new and the method of the table is BSPLINE, with the failure status 1. -/
theorem C222_addY_partial (B : Build) (name : String) (ys : List Y) (s : LookupTable1D K Y) (c : Int) :
    ((LookupTable1D.addY B name ys).run s).1 = .exits c ↔ c = 1 ∧ s.assoc.lookup name = none ∧ s.interp_method = some .BSPLINE := by
  unfold LookupTable1D.addY
  simp only [Act.run_get_bind, Act.run_update_bind]
  cases hl : s.assoc.lookup name with
  | some v => simp [assocInsert, hl]
  | none =>
    have hb : (assocInsert s.assoc name (LookupTable1D.getNbSeries s)).2 = true := by simp [assocInsert, hl]
    rw [if_pos hb]
    simp only [Act.run_update_bind]
    cases hm : s.interp_method with
    | none => simp
    | some m =>
      simp only [readVar_some, Act.run_lift_ok_bind]
      cases m with
      | BSPLINE => simp [Interp1d.make, eq_comm]
      | _ =>
        simp only [Interp1d.make, Act.run_lift_ok_bind]
        refine ⟨fun h => absurd h (NoExit.ne (ActNoExit.ne ?_ _) c), fun h => by simp at h⟩
        have h1 := (interp1d_init_noExit B s.Xcoords (some ys)).ne (Interp1d.fresh K Y)
        actnoexit

/-- **C222**: the evaluations of a 1D table end the program with the failure status 1 only. -/
theorem C222_table_partial (s : LookupTable1D K Y) (name : String) (x : K) (xv : List K) (order : List (String × Nat)) (c : Int) :
    (LookupTable1D.eval s name x = .exits c → c = 1) ∧ (LookupTable1D.evalVec s name xv = .exits c → c = 1) ∧ (LookupTable1D.evalAll s x order = .exits c → c = 1) := by
  have hloop : ∀ (o : Interp1dObj K Y) (n lo : Nat) (out : List Y), forN n lo (fun i out => do
      let xi ← vIdx xv i
      let y ← Interp1d.eval o.1 o.2 xi
      return out ++ [y]) out = .exits c → c = 1 := by
    intro o n
    induction n with
    | zero => intro lo out h; cases h
    | succ n ih =>
      intro lo out h
      simp only [forN] at h
      cases hx : vIdx xv lo with
      | exits d => exact absurd hx ((NoExit.vIdx xv lo).ne d)
      | ok xi =>
        rw [hx, Res.ok_bind] at h
        cases hy : Interp1d.eval o.1 o.2 xi with
        | exits d =>
          rw [hy] at h
          simp at h
          exact h ▸ interp1d_eval_status _ _ _ _ hy
        | ok y => rw [hy] at h; exact ih _ _ h
        | _ => rw [hy] at h; simp at h
      | _ => rw [hx] at h; simp at h
  refine ⟨fun h => ?_, fun h => ?_, fun h => ?_⟩
  · obtain ⟨i, -, h⟩ := (NoExit.bind_exits (.assocAt _ _)).1 h
    obtain ⟨o, -, h⟩ := (NoExit.bind_exits (.vAt _ _)).1 h
    exact interp1d_eval_status _ _ _ _ h
  · obtain ⟨i, -, h⟩ := (NoExit.bind_exits (.assocAt _ _)).1 h
    obtain ⟨o, -, h⟩ := (NoExit.bind_exits (.vAt _ _)).1 h
    exact hloop o _ _ _ h
  · induction order with
    | nil => cases h
    | cons p rest ih =>
      obtain ⟨n, i⟩ := p
      simp only [LookupTable1D.evalAll] at h
      obtain ⟨o, -, h⟩ := (NoExit.bind_exits (.vIdx _ _)).1 h
      cases hy : Interp1d.eval o.1 o.2 x with
      | exits d =>
        rw [hy] at h
        simp at h
        exact h ▸ interp1d_eval_status _ _ _ _ hy
      | ok y =>
        rw [hy, Res.ok_bind] at h
        cases hr : LookupTable1D.evalAll s x rest with
        | exits d =>
          rw [hr] at h
          simp at h
          subst h
          exact ih hr
        | ok r => rw [hr] at h; simp at h
        | _ => rw [hr] at h; simp at h
      | _ => rw [hy] at h; simp at h

/-- **C222**: no call on a 2D interpolator or table ends the program. -/
theorem C222_table2d_partial (B : Build) (c : Int) :
    (∀ (x y d : Option (List K)) (s : Interp2d K), ((Interp2d.init B x y d).run s).1 ≠ .exits c) ∧
    (∀ (s : Interp2d K) (x y : K), Interp2d.eval B s x y ≠ .exits c) ∧ (∀ (s : Interp2d K) (vc : List (List K)), Interp2d.evalVec B s vc ≠ .exits c) ∧
    (∀ (ops : List (LookupTable2d.Op K)) (s : LookupTable2d K), ((LookupTable2d.execAll B ops).run s).1 ≠ .exits c) ∧
    (∀ (s : LookupTable2d K) (name : String) (x y : K), LookupTable2d.eval B s name x y ≠ .exits c) ∧
    ∀ (s : LookupTable2d K) (name : String) (vc : List (List K)), LookupTable2d.evalVec B s name vc ≠ .exits c := by
  have hi : ∀ x y d : Option (List K), ActNoExit (Interp2d.init B x y d) := by
    intro x y d
    unfold Interp2d.init Interp2d.initializeBase Interp2d.initializeOuter Interp2d.initializeInner
    actnoexit
  have he : ∀ (s : Interp2d K) (x y : K), NoExit (Interp2d.eval B s x y) := by
    intro s x y
    unfold Interp2d.eval Interp2d.evalAsserts
    noexit
  have hv : ∀ (s : Interp2d K) (vc : List (List K)), NoExit (Interp2d.evalVec B s vc) := by
    intro s vc
    unfold Interp2d.evalVec
    noexit
    all_goals first | exact he _ _ _
  have hm : ∀ m, NoExit (Interp2d.make K m) := by
    intro m
    unfold Interp2d.make
    noexit
  have ha : ∀ name data, ActNoExit (LookupTable2d.addData B name data : Act (LookupTable2d K) Bool) := by
    intro name data
    unfold LookupTable2d.addData
    refine .bind .get fun s => ?_
    have h1 := fun o => (hi s.Xcoords s.Ycoords (some data)).ne o
    actnoexit
    all_goals first | exact h1 _ | exact hm _
  have hx : ∀ op, ActNoExit (LookupTable2d.exec B op : Act (LookupTable2d K) Unit) := by
    intro op
    cases op with
    | addData name d => exact .bind (ha name d) fun _ => .pure ()
    | _ => exact .update _
  have hx' : ∀ ops, ActNoExit (LookupTable2d.execAll B ops : Act (LookupTable2d K) Unit) := by
    intro ops
    induction ops with
    | nil => exact .pure ()
    | cons op ops ih => exact .bind (hx op) fun _ => ih
  refine ⟨fun x y d s => ((hi x y d).ne s).ne c, fun s x y => (he s x y).ne c, fun s vc => (hv s vc).ne c, fun ops s => ((hx' ops).ne s).ne c, fun s name x y => ?_,
    fun s name vc => ?_⟩
  · refine NoExit.ne ?_ c
    unfold LookupTable2d.eval LookupTable2d.getIndex
    noexit
    all_goals first | exact he _ _ _
  · refine NoExit.ne ?_ c
    unfold LookupTable2d.evalVec LookupTable2d.getIndex
    noexit
    all_goals first | exact hv _ _

end interp

/-! ## Regular grids -/

section grids
variable {K D : Type} [Field K] [LinearOrder K]

theorem computeLimits_noExit : ∀ (d : Nat) (g : List (List K)), NoExit (RGI.computeLimits d g)
  | 0, _ => .ok _
  | _ + 1, [] => .ub
  | d + 1, g :: gs => by
    have := computeLimits_noExit d gs
    unfold RGI.computeLimits
    noexit

theorem rgi_build_noExit (dim : Nat) : ActNoExit (RGI.build dim : Act (RGI K) Unit) := by
  unfold RGI.build NDInterp.new
  actnoexit
  all_goals first | exact computeLimits_noExit _ _

theorem mdRead_noExit {V : Type} (e : List Nat) (v : List V) (i : List Int) : NoExit (mdRead e v i) := by
  unfold mdRead
  noexit

theorem axes_noExit : ∀ (g : List (List K)) (x : List K), NoExit (NDInterp.axes g x)
  | [], _ => .ok _
  | _ :: _, [] => .ub
  | g :: gs, x :: xs => by
    have := axes_noExit gs xs
    unfold NDInterp.axes NDInterp.axis NDInterp.findCell
    noexit

theorem unitcube_noExit : ∀ (xi f : List K), NoExit (NDInterp.unitcube f xi)
  | [], f => by unfold NDInterp.unitcube; exact .ub
  | [x], f => by unfold NDInterp.unitcube; noexit
  | x :: y :: rest, f => by
    unfold NDInterp.unitcube
    exact .bind (unitcube_noExit (y :: rest) _) fun _ => .bind (unitcube_noExit (y :: rest) _) fun _ => .pure _

/-- **C222**: `AddCoord`, `AddVar`, `GetCoord`, `GetCoordMinVal` and `GetCoordMaxVal` of a regular grid end the program exactly when there are already as many axes as dimensions, when
axes are missing, or when there is no such axis, and then with the failure status 1; copying and evaluating never do. -/
theorem C222_grid_partial (dim : Nat) (s : RGI K) (c : Int) :
    (∀ v, ((RGI.addCoord dim v).run s).1 = .exits c ↔ c = 1 ∧ s.grid_list.length = dim) ∧
    (∀ a, ((RGI.addVar dim a).run s).1 = .exits c ↔ c = 1 ∧ s.grid_list.length ≠ dim) ∧
    (∀ i, RGI.getCoord dim s i = .exits c ↔ c = 1 ∧ dim ≤ i) ∧
    (∀ i, RGI.getCoordMinVal dim s i = .exits c ↔ c = 1 ∧ dim ≤ i) ∧
    (∀ i, RGI.getCoordMaxVal dim s i = .exits c ↔ c = 1 ∧ dim ≤ i) ∧
    (∀ t : RGI K, ((RGI.assign dim t).run s).1 ≠ .exits c ∧ (RGI.copy dim t).1 ≠ .exits c) ∧
    (∀ (p : List K) (b : Bool), RGI.interpolate s p b ≠ .exits c) ∧ ∀ i, RGI.evalAtIndice s i ≠ .exits c := by
  have hassign : ∀ t : RGI K, ActNoExit (RGI.assign dim t : Act (RGI K) Unit) := by
    intro t
    unfold RGI.assign
    exact .bind (.update _) fun _ => .bind (.update _) fun _ => rgi_build_noExit dim
  refine ⟨fun v => ?_, fun a => ?_, fun i => ?_, fun i => ?_, fun i => ?_, fun t => ⟨((hassign t).ne s).ne c, ((hassign t).ne _).ne c⟩, fun p b => ?_, fun i => ?_⟩
  · unfold RGI.addCoord
    simp only [Act.run_get_bind]
    split
    · rename_i h; simp [h, eq_comm]
    · rename_i h
      split <;> simp [h]
  · unfold RGI.addVar
    simp only [Act.run_get_bind]
    split
    · rename_i h; simp [h, eq_comm]
    · rename_i h
      refine ⟨fun e => absurd e (NoExit.ne (ActNoExit.ne ?_ _) c), fun e => absurd e.2 h⟩
      exact .bind (.update _) fun _ => rgi_build_noExit dim
  · unfold RGI.getCoord
    split
    · rename_i h; simp [h, eq_comm]
    · rename_i h; exact ⟨fun e => absurd e ((NoExit.vIdx _ _).ne c), fun e => absurd e.2 h⟩
  · unfold RGI.getCoordMinVal
    split
    · rename_i h; simp [h, eq_comm]
    · rename_i h; exact ⟨fun e => absurd e (NoExit.ne (by noexit) c), fun e => absurd e.2 h⟩
  · unfold RGI.getCoordMaxVal
    split
    · rename_i h; simp [h, eq_comm]
    · rename_i h; exact ⟨fun e => absurd e (NoExit.ne (by noexit) c), fun e => absurd e.2 h⟩
  · refine NoExit.ne ?_ c
    have hb : ∀ (l : List (K × K)) (p : List K), NoExit (RGI.boundCheck l p) := by
      intro l
      induction l with
      | nil => intro p; unfold RGI.boundCheck; exact .ok _
      | cons q l ih =>
        intro p
        cases p with
        | nil => exact .ub
        | cons x p =>
          have := ih p
          unfold RGI.boundCheck
          noexit
    unfold RGI.interpolate NDInterp.interpMultilinear NDInterp.getFValV NDInterp.getFVal
    noexit
    all_goals first | exact hb _ _ | exact axes_noExit _ _ | exact mdRead_noExit _ _ _ | exact unitcube_noExit _ _
  · exact (mdRead_noExit _ _ _).ne c

/-- **C222**: the same for `RegularGridNearest`. -/
theorem C222_nearest_partial (dim : Nat) (s : RGN K D) (c : Int) :
    (∀ v, ((RGN.addCoord dim v).run s).1 = .exits c ↔ c = 1 ∧ s.grid_list.length = dim) ∧
    (∀ a, ((RGN.addVar dim a).run s).1 = .exits c ↔ c = 1 ∧ s.grid_list.length ≠ dim) ∧
    (∀ i, RGN.getCoord dim s i = .exits c ↔ c = 1 ∧ dim ≤ i) ∧
    (∀ i, RGN.getCoordMinVal dim s i = .exits c ↔ c = 1 ∧ dim ≤ i) ∧
    (∀ i, RGN.getCoordMaxVal dim s i = .exits c ↔ c = 1 ∧ dim ≤ i) ∧
    (∀ t : RGN K D, ((RGN.assign t).run s).1 ≠ .exits c ∧ (RGN.copy dim t).1 ≠ .exits c) ∧
    (∀ p : List K, RGN.nearest s p ≠ .exits c) ∧ ∀ p : List K, RGN.surrounding s p ≠ .exits c := by
  refine ⟨fun v => ?_, fun a => ?_, fun i => ?_, fun i => ?_, fun i => ?_, fun t => ⟨?_, ?_⟩, fun p => ?_, fun p => ?_⟩
  · unfold RGN.addCoord
    simp only [Act.run_get_bind]
    split
    · rename_i h; simp [h, eq_comm]
    · rename_i h; simp [h]
  · unfold RGN.addVar
    simp only [Act.run_get_bind]
    split
    · rename_i h; simp [h, eq_comm]
    · rename_i h; simp [h]
  · unfold RGN.getCoord
    split
    · rename_i h; simp [h, eq_comm]
    · rename_i h; exact ⟨fun e => absurd e ((NoExit.vIdx _ _).ne c), fun e => absurd e.2 h⟩
  · unfold RGN.getCoordMinVal
    split
    · rename_i h; simp [h, eq_comm]
    · rename_i h; exact ⟨fun e => absurd e (NoExit.ne (by noexit) c), fun e => absurd e.2 h⟩
  · unfold RGN.getCoordMaxVal
    split
    · rename_i h; simp [h, eq_comm]
    · rename_i h; exact ⟨fun e => absurd e (NoExit.ne (by noexit) c), fun e => absurd e.2 h⟩
  · refine NoExit.ne (ActNoExit.ne ?_ _) c
    exact .bind (.update _) fun _ => .update _
  · refine NoExit.ne (ActNoExit.ne (m := RGN.assign t) ?_ _) c
    exact .bind (.update _) fun _ => .update _
  · refine NoExit.ne ?_ c
    have hl : ∀ (g : List (List K)) (p : List K), NoExit (RGN.nearestLoop g p) := by
      intro g
      induction g with
      | nil => intro p; cases p <;> unfold RGN.nearestLoop <;> noexit
      | cons a g ih =>
        intro p
        cases p with
        | nil => exact .ub
        | cons x p =>
          have := ih p
          unfold RGN.nearestLoop RGN.nearestIndex
          noexit
    unfold RGN.nearest
    noexit
    all_goals first | exact hl _ _ | exact mdRead_noExit _ _ _
  · refine NoExit.ne ?_ c
    have hl : ∀ (g : List (List K)) (p : List K), NoExit (RGN.surroundingLoop g p) := by
      intro g
      induction g with
      | nil => intro p; cases p <;> unfold RGN.surroundingLoop <;> noexit
      | cons a g ih =>
        intro p
        cases p with
        | nil => exact .ub
        | cons x p =>
          have := ih p
          unfold RGN.surroundingLoop RGN.surroundingIndex
          noexit
    have hc : ∀ (g : List (List K)) (i : List Nat), NoExit (RGN.nodeCoords g i) := by
      intro g
      induction g with
      | nil => intro i; unfold RGN.nodeCoords; exact .ok _
      | cons a g ih =>
        intro i
        cases i with
        | nil => exact .ok _
        | cons x i =>
          have := ih i
          unfold RGN.nodeCoords
          noexit
    unfold RGN.surrounding RGN.getNode
    noexit
    all_goals first | exact hl _ _ | exact hc _ _ | exact mdRead_noExit _ _ _

end grids

/-- **C222**: `STRING2ANGLE` ends the program exactly for a string that is neither DEG nor RAD, with the failure status 1. -/
theorem C222_angle_partial (unit : String) (c : Int) : string2angle unit = .exits c ↔ c = 1 ∧ unit ≠ "DEG" ∧ unit ≠ "RAD" := by
  unfold string2angle
  split
  · rename_i h; simp [h]
  · split
    · rename_i h1 h2; simp [h2]
    · rename_i h1 h2; simp [h1, h2, eq_comm]

/-! ## The status of a success -/

theorem continuedFraction_noExit (B : Build) (a b : List ℝ) (x : ℝ) : NoExit (continuedFraction B a b x) := by
  have hl : ∀ (n : Nat) (f : Ext), NoExit (fractionLoop a b x n f) := by
    intro n
    induction n with
    | zero => intro f; exact .ok _
    | succ n ih =>
      intro f
      unfold fractionLoop
      noexit
      all_goals first | exact ih _
  have hg : ∀ f : Ext, NoExit f.get := by
    intro f
    cases f <;> first | exact .ok _ | exact .nonfinite
  unfold continuedFraction
  noexit
  all_goals first | exact hl _ _ | exact hg _

theorem horner_noExit {K A : Type} [Field K] [Field A] [Algebra K A] (l : List K) (x : A) : NoExit (horner l x) := by
  have hl : ∀ (n : Nat) (f : A), NoExit (hornerLoop l x n f) := by
    intro n
    induction n with
    | zero => intro f; exact .ok _
    | succ n ih =>
      intro f
      unfold hornerLoop
      noexit
      all_goals first | exact ih _
  unfold horner vAtInt
  noexit
  all_goals first | exact hl _ _

/-- **C222** fails: `Ei_approximation` and `E1_approximation` end the program exactly at or below 1e-8, always with the status 0 of a success. -/
theorem C222_expInt_refuted (B : Build) (x : ℝ) (c : Int) :
    (eiApproximation B x = .exits c ↔ c = 0 ∧ x ≤ 1e-8) ∧ (e1Approximation B x = .exits c ↔ c = 0 ∧ x ≤ 1e-8) := by
  by_cases hx : x ≤ 1e-8
  · have h := ExpInt.refused hx
    constructor
    · unfold eiApproximation
      rw [if_pos h]
      simp [hx, eq_comm]
    · unfold e1Approximation
      rw [if_pos h]
      simp [hx, eq_comm]
  · have h := ExpInt.not_refused (not_le.1 hx)
    constructor
    · unfold eiApproximation
      rw [if_neg h]
      refine ⟨fun e => absurd e (NoExit.ne ?_ c), fun e => absurd e.2 hx⟩
      unfold chebyshevSum
      noexit
      all_goals first | exact continuedFraction_noExit _ _ _ _
    · unfold e1Approximation
      rw [if_neg h]
      refine ⟨fun e => absurd e (NoExit.ne ?_ c), fun e => absurd e.2 hx⟩
      unfold inverseSum
      noexit
      all_goals first | exact horner_noExit _ _

/-- **C222** fails: the Struve functions and the derivative of the first end the program exactly below 0, always with the status 0 of a success. -/
theorem C222_struve_refuted (neumann : Nat → ℝ → ℝ) (x : ℝ) (c : Int) :
    (struveZero neumann x = .exits c ↔ c = 0 ∧ x < 0) ∧ (struveFirst neumann x = .exits c ↔ c = 0 ∧ x < 0) ∧
    (struveZeroDerivative neumann x = .exits c ↔ c = 0 ∧ x < 0) := by
  have h0 : struveZero neumann x = .exits c ↔ c = 0 ∧ x < 0 := by
    by_cases hx : x < 0
    · unfold struveZero
      rw [if_neg (by rintro ⟨h, -⟩; linarith), if_neg (by linarith)]
      simp [hx, eq_comm]
    · refine ⟨fun e => absurd e (NoExit.ne ?_ c), fun e => absurd e.2 hx⟩
      unfold struveZero
      by_cases h3 : x ≤ 3
      · rw [if_pos ⟨not_lt.1 hx, h3⟩]
        unfold struveSum
        noexit
      · rw [if_neg (by tauto), if_pos (not_le.1 h3)]
        unfold struveFraction
        noexit
  have h1 : struveFirst neumann x = .exits c ↔ c = 0 ∧ x < 0 := by
    by_cases hx : x < 0
    · unfold struveFirst
      rw [if_neg (by rintro ⟨h, -⟩; linarith), if_neg (by linarith)]
      simp [hx, eq_comm]
    · refine ⟨fun e => absurd e (NoExit.ne ?_ c), fun e => absurd e.2 hx⟩
      unfold struveFirst
      by_cases h3 : x ≤ 3
      · rw [if_pos ⟨not_lt.1 hx, h3⟩]
        unfold struveSum
        noexit
      · rw [if_neg (by tauto), if_pos (not_le.1 h3)]
        unfold struveFraction
        noexit
  refine ⟨h0, h1, ?_⟩
  rw [← h1]
  unfold struveZeroDerivative
  cases struveFirst neumann x <;> simp

/-- **C222** fails: the quadrature over a triangle ends the program exactly for the orders outside of 1 to 8, always with the status 0 of a success. -/
theorem C222_triangle_refuted {T : Type} [AddCommGroup T] [Module ℝ T] (F : V3 → T) (order : Int) (c : Int) :
    Integration2dTriangle.new F order = .exits c ↔ c = 0 ∧ ¬ (1 ≤ order ∧ order ≤ 8) := by
  obtain ⟨h1, h2⟩ := C45_orders F order
  by_cases h : 1 ≤ order ∧ order ≤ 8
  · obtain ⟨s, hs, -⟩ := h1 h
    rw [hs]
    simp [h]
  · rw [h2 h]
    simp only [Res.exits.injEq, h, not_false_eq_true, and_true]
    exact eq_comm

/-- **C222** fails: the conversion of a Chebyshev series to a power series ends the program exactly above order 18, always with the status 0 of a success. -/
theorem C222_refuted {K : Type} [Field K] (B : Build) (s1 : CS1 K) (s2 : CS2 K) (s3 : CS3 K) (c : Int) :
    (s1.computeBi B = .exits c ↔ c = 0 ∧ 18 < s1.m_order_x) ∧
    (s2.computeBij B = .exits c ↔ c = 0 ∧ (18 < s2.m_order_x ∨ 18 < s2.m_order_y)) ∧
    (s3.computeBijk B = .exits c ↔ c = 0 ∧ (18 < s3.m_order_x ∨ 18 < s3.m_order_y ∨ 18 < s3.m_order_z)) := by
  refine ⟨?_, ?_, ?_⟩
  · unfold CS1.computeBi
    split
    · rename_i h; simp only [gt_iff_lt] at h; simp [h, eq_comm]
    · rename_i h; exact ⟨fun e => absurd e (NoExit.ne (by noexit) c), fun e => absurd e.2 h⟩
  · unfold CS2.computeBij
    split
    · rename_i h; simp only [gt_iff_lt] at h; simp [h, eq_comm]
    · rename_i h; exact ⟨fun e => absurd e (NoExit.ne (by noexit) c), fun e => absurd e.2 h⟩
  · unfold CS3.computeBijk cubeGet cubeSet
    split
    · rename_i h; simp only [gt_iff_lt] at h; simp [h, eq_comm]
    · rename_i h; exact ⟨fun e => absurd e (NoExit.ne (by noexit) c), fun e => absurd e.2 h⟩

/-! ## The hypotheses are met -/

example : Interp1d.eval .linear ({ Interp1d.fresh ℚ ℚ with xmin := some 0, xmax := some 1 }) 2 = .exits 1 :=
  (C222_eval_partial .linear _ 0 1 rfl rfl 2 1).2 ⟨rfl, rfl, .inr (by norm_num)⟩

example : ((LookupTable1D.addY ⟨true⟩ "Cx" [1, 2]).run (LookupTable1D.new ℚ ℚ .BSPLINE)).1 = .exits 1 :=
  (C222_addY_partial _ _ _ _ _).2 ⟨rfl, rfl, rfl⟩

example : ((RGI.addVar 2 ⟨[2, 2], [1, 2, 3, 4]⟩).run (RGI.new ℚ 2)).1 = .exits 1 := ((C222_grid_partial 2 _ 1).2.1 _).2 ⟨rfl, by simp [RGI.new]⟩

example : string2angle "GRAD" = .exits 1 := (C222_angle_partial _ _).2 ⟨rfl, by decide, by decide⟩

example : eiApproximation ⟨true⟩ (-2) = .exits 0 := (C222_expInt_refuted _ _ _).1.2 ⟨rfl, by norm_num⟩

example : Integration2dTriangle.new (fun _ => (1 : ℝ)) 9 = .exits 0 := (C222_triangle_refuted _ _ _).2 ⟨rfl, by norm_num⟩

end MU
