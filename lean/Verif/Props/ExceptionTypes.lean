import Verif.Model.LookupTable1D
import Verif.Model.LookupTable2d
import Verif.Model.RegularGridInterpolator
import Verif.Model.RegularGridNearest
import Verif.Model.Integration1d
import Verif.Model.Matrix

set_option linter.unusedSectionVars false

/-!
# C223: which exceptions are thrown

For each class, the types of the exceptions that its calls throw, and for the exceptions that the code throws itself exactly when it does. All derive from `std::exception` except one:
a 2D interpolator of a method other than LINEAR throws a string.
-/

namespace MU

/-- A thrown exception satisfies `P`. -/
structure Thrown {α : Type} (P : Exn → Prop) (r : Res α) : Prop where
  type : ∀ e, r = .throws e → P e

/-- From no state does the call throw an exception that does not satisfy `P`. -/
structure ActThrown {σ α : Type} (P : Exn → Prop) (m : Act σ α) : Prop where
  type : ∀ s, Thrown P (m.run s).1

namespace Thrown
variable {α β : Type} {P : Exn → Prop}

theorem bind {x : Res α} {f : α → Res β} (hx : Thrown P x) (hf : ∀ a, Thrown P (f a)) : Thrown P (x >>= f) := by
  cases x with
  | ok a => exact hf a
  | throws e => exact ⟨fun e' h => by simp at h; exact h ▸ hx.type e rfl⟩
  | _ => exact ⟨fun e h => by simp at h⟩

theorem ok (a : α) : Thrown P (.ok a) := ⟨fun _ h => by cases h⟩
theorem pure (a : α) : Thrown P (Pure.pure a : Res α) := ⟨fun _ h => by cases h⟩
theorem ub : Thrown P (.ub : Res α) := ⟨fun _ h => by cases h⟩
theorem aborts : Thrown P (.aborts : Res α) := ⟨fun _ h => by cases h⟩
theorem nonfinite : Thrown P (.nonfinite : Res α) := ⟨fun _ h => by cases h⟩
theorem exits (c : Int) : Thrown P (.exits c : Res α) := ⟨fun _ h => by cases h⟩
theorem throws {e : Exn} (h : P e) : Thrown P (.throws e : Res α) := ⟨fun e' h' => by cases h'; exact h⟩

theorem forN {σ : Type} {f : Nat → σ → Res σ} (hf : ∀ i s, Thrown P (f i s)) : ∀ (n lo : Nat) (s : σ), Thrown P (MU.forN n lo f s)
  | 0, _, s => .ok s
  | n + 1, lo, s => .bind (hf lo s) fun s' => forN hf n (lo + 1) s'

theorem forRange {σ : Type} {f : Nat → σ → Res σ} (hf : ∀ i s, Thrown P (f i s)) (lo hi : Nat) (s : σ) : Thrown P (MU.forRange lo hi f s) := forN hf _ _ _

theorem vAt (h : P .outOfRange) (l : List α) (i : Nat) : Thrown P (MU.vAt l i) := by
  unfold MU.vAt; split <;> first | exact .ok _ | exact .throws h
theorem vIdx (l : List α) (i : Nat) : Thrown P (MU.vIdx l i) := by
  unfold MU.vIdx; split <;> first | exact .ok _ | exact .ub
theorem deref (p : Option α) : Thrown P (MU.deref p) := by cases p <;> first | exact .ok _ | exact .ub
theorem readVar (p : Option α) : Thrown P (MU.readVar p) := by cases p <;> first | exact .ok _ | exact .ub
theorem cassert (B : Build) (p : Prop) [Decidable p] : Thrown P (MU.cassert B p) := by
  unfold MU.cassert; split <;> first | exact .ok _ | exact .aborts
theorem fdiv {K : Type} [Field K] [DecidableEq K] (a b : K) : Thrown P (MU.fdiv a b) := by
  unfold MU.fdiv; split <;> first | exact .ok _ | exact .nonfinite
theorem sdiv {K Y : Type} [Field K] [DecidableEq K] [AddCommGroup Y] [Module K Y] (y : Y) (d : K) : Thrown P (MU.sdiv y d) := by
  unfold MU.sdiv; split <;> first | exact .ok _ | exact .nonfinite
theorem lowerBound {K : Type} [LinearOrder K] (l : List K) (v : K) : Thrown P (MU.lowerBound l v) := by
  unfold MU.lowerBound; split <;> first | exact .ok _ | exact .ub
theorem upperBound {K : Type} [LinearOrder K] (l : List K) (v : K) : Thrown P (MU.upperBound l v) := by
  unfold MU.upperBound; split <;> first | exact .ok _ | exact .ub
theorem assocAt {V : Type} (h : P .outOfRange) (m : List (String × V)) (name : String) : Thrown P (MU.assocAt m name) := by
  unfold MU.assocAt; split <;> first | exact .ok _ | exact .throws h
theorem mdOffset : ∀ (e : List Nat) (i : List Int) (acc : Nat), Thrown P (MU.mdOffset e i acc)
  | [], [], _ => .ok _
  | _ :: ns, _ :: is, _ => by unfold MU.mdOffset; split <;> first | exact mdOffset ns is _ | exact .ub
  | [], _ :: _, _ => .ub
  | _ :: _, [], _ => .ub
theorem mdRead {V : Type} (e : List Nat) (v : List V) (i : List Int) : Thrown P (MU.mdRead e v i) := .bind (.mdOffset _ _ _) fun _ => .vIdx _ _

end Thrown

/-- Closes `Thrown` of code made of the operations above. -/
macro "thrown" : tactic => `(tactic| with_reducible repeat' first
  | assumption | exact .ok _ | exact .pure _ | exact .ub | exact .aborts | exact .nonfinite | exact .exits _ | exact .vAt (by exact rfl) _ _ | exact .vIdx _ _ | exact .deref _ | exact .readVar _
  | exact .cassert _ _ | exact .fdiv _ _ | exact .sdiv _ _ | exact .lowerBound _ _ | exact .upperBound _ _ | exact .assocAt (by exact rfl) _ _ | exact .mdRead _ _ _ | exact .throws (by exact rfl)
  | apply Thrown.forRange | apply Thrown.bind | intro _ | split)

namespace ActThrown
variable {σ α β : Type} {P : Exn → Prop}

theorem bind {m : Act σ α} {f : α → Act σ β} (hm : ActThrown P m) (hf : ∀ a, ActThrown P (f a)) : ActThrown P (m >>= f) := by
  refine ⟨fun s => ?_⟩
  rw [Act.run_bind]
  have h := hm.type s
  generalize m.run s = r at h
  obtain ⟨r, s'⟩ := r
  cases r with
  | ok a => exact (hf a).type s'
  | exits c => exact .exits c
  | throws e => exact .throws (h.type e rfl)
  | aborts => exact .aborts
  | ub => exact .ub
  | nonfinite => exact .nonfinite

theorem lift {x : Res α} (h : Thrown P x) : ActThrown P (Act.lift x : Act σ α) := ⟨fun _ => h⟩
theorem get : ActThrown P (Act.get : Act σ σ) := ⟨fun _ => .ok _⟩
theorem update (f : σ → σ) : ActThrown P (Act.update f) := ⟨fun _ => .ok _⟩
theorem pure (a : α) : ActThrown P (Pure.pure a : Act σ α) := ⟨fun _ => .ok _⟩

theorem loopN {f : Nat → Act σ Unit} (hf : ∀ i, ActThrown P (f i)) : ∀ n lo, ActThrown P (Act.loopN n lo f)
  | 0, _ => .pure ()
  | n + 1, lo => .bind (hf lo) fun _ => loopN hf n (lo + 1)

theorem loop {f : Nat → Act σ Unit} (hf : ∀ i, ActThrown P (f i)) (lo hi : Nat) : ActThrown P (Act.loop lo hi f) := loopN hf _ _

end ActThrown

/-- Closes `ActThrown` of code made of the operations above. -/
macro "actthrown" : tactic => `(tactic| with_reducible (repeat' first
  | assumption | exact .get | exact .update _ | exact .pure _ | apply ActThrown.loop | apply ActThrown.bind | apply ActThrown.lift | intro _ | split) <;> thrown)

/-! ## Interpolators and tables -/

section interp
variable {K Y : Type} [Field K] [LinearOrder K] [AddCommGroup Y] [Module K Y]

theorem interp1d_init_thrown (B : Build) (x : Option (List K)) (y : Option (List Y)) : ActThrown (· = .outOfRange) (Interp1d.init B x y) := by
  unfold Interp1d.init Interp1d.initializeBase Interp1d.initializeStep
  actthrown

theorem interp1d_eval_thrown (kind : Interp1dKind) (s : Interp1d K Y) (x : K) : Thrown (· = .outOfRange) (Interp1d.eval kind s x) := by
  unfold Interp1d.eval Interp1d.privEvalLinear Interp1d.privEvalExtrapolate Interp1d.privEvalSaturate Interp1d.privEvalBase
  thrown

theorem interp1d_evalVec_thrown (kind : Interp1dKind) (s : Interp1d K Y) (xv : List K) : Thrown (· = .outOfRange) (Interp1d.evalVec kind s xv) := by
  unfold Interp1d.evalVec
  thrown
  all_goals exact interp1d_eval_thrown _ _ _

/-- **C223**: the calls on 1D interpolators and tables throw nothing but `std::out_of_range`. -/
theorem C223_table_partial (B : Build) (e : Exn) :
    (∀ (x : Option (List K)) (y : Option (List Y)) (s : Interp1d K Y), ((Interp1d.init B x y).run s).1 = .throws e → e = .outOfRange) ∧
    (∀ (kind : Interp1dKind) (s : Interp1d K Y) (x : K) (xv : List K), (Interp1d.eval kind s x = .throws e → e = .outOfRange) ∧ (Interp1d.evalVec kind s xv = .throws e → e = .outOfRange)) ∧
    (∀ m, Interp1d.make m ≠ .throws e) ∧
    (∀ (ops : List (LookupTable1D.Op K Y)) (s : LookupTable1D K Y), ((LookupTable1D.execAll B ops).run s).1 = .throws e → e = .outOfRange) ∧
    (∀ (s : LookupTable1D K Y) (name : String) (x : K) (xv : List K) (order : List (String × Nat)), (LookupTable1D.eval s name x = .throws e → e = .outOfRange) ∧
      (LookupTable1D.evalVec s name xv = .throws e → e = .outOfRange) ∧ (LookupTable1D.evalAll s x order = .throws e → e = .outOfRange)) := by
  have ha : ∀ name ys, ActThrown (· = .outOfRange) (LookupTable1D.addY B name ys : Act (LookupTable1D K Y) Bool) := by
    intro name ys
    unfold LookupTable1D.addY Interp1d.make
    refine .bind .get fun s => ?_
    have h1 := (interp1d_init_thrown B s.Xcoords (some ys)).type (Interp1d.fresh K Y)
    actthrown
  have hx : ∀ op, ActThrown (· = .outOfRange) (LookupTable1D.exec B op : Act (LookupTable1D K Y) Unit) := by
    intro op
    cases op with
    | addY name ys => exact .bind (ha name ys) fun _ => .pure ()
    | setX _ => exact .update _
  have hx' : ∀ ops, ActThrown (· = .outOfRange) (LookupTable1D.execAll B ops : Act (LookupTable1D K Y) Unit) := by
    intro ops
    induction ops with
    | nil => exact .pure ()
    | cons op ops ih => exact .bind (hx op) fun _ => ih
  refine ⟨fun x y s => ((interp1d_init_thrown B x y).type s).type e, fun kind s x xv => ⟨(interp1d_eval_thrown kind s x).type e, (interp1d_evalVec_thrown kind s xv).type e⟩, fun m => ?_,
    fun ops s => ((hx' ops).type s).type e, fun s name x xv order => ⟨Thrown.type (P := (· = .outOfRange)) ?_ e, Thrown.type (P := (· = .outOfRange)) ?_ e, Thrown.type (P := (· = .outOfRange)) ?_ e⟩⟩
  · cases m <;> simp [Interp1d.make]
  · unfold LookupTable1D.eval LookupTable1D.getIndex
    thrown
    all_goals exact interp1d_eval_thrown _ _ _
  · unfold LookupTable1D.evalVec LookupTable1D.getIndex
    thrown
    all_goals exact interp1d_evalVec_thrown _ _ _
  · induction order with
    | nil => exact .ok _
    | cons p rest ih =>
      unfold LookupTable1D.evalAll
      thrown
      all_goals exact interp1d_eval_thrown _ _ _

theorem interp2d_init_thrown (B : Build) (x y d : Option (List K)) : ActThrown (· = .outOfRange) (Interp2d.init B x y d) := by
  unfold Interp2d.init Interp2d.initializeBase Interp2d.initializeOuter Interp2d.initializeInner
  actthrown

theorem interp2d_eval_thrown (B : Build) (s : Interp2d K) (x y : K) : Thrown (· = .outOfRange) (Interp2d.eval B s x y) := by
  unfold Interp2d.eval Interp2d.evalAsserts
  thrown

theorem interp2d_evalVec_thrown (B : Build) (s : Interp2d K) (vc : List (List K)) : Thrown (· = .outOfRange) (Interp2d.evalVec B s vc) := by
  unfold Interp2d.evalVec
  thrown
  all_goals exact interp2d_eval_thrown _ _ _ _

/-- **C223**: 2D interpolators that exist, and the evaluations of 2D tables, throw nothing but `std::out_of_range`. -/
theorem C223_table2d_partial (B : Build) (e : Exn) :
    (∀ (x y d : Option (List K)) (s : Interp2d K), ((Interp2d.init B x y d).run s).1 = .throws e → e = .outOfRange) ∧
    (∀ (s : Interp2d K) (x y : K) (vc : List (List K)), (Interp2d.eval B s x y = .throws e → e = .outOfRange) ∧ (Interp2d.evalVec B s vc = .throws e → e = .outOfRange)) ∧
    (∀ (s : LookupTable2d K) (name : String) (x y : K) (vc : List (List K)), (LookupTable2d.eval B s name x y = .throws e → e = .outOfRange) ∧
      (LookupTable2d.evalVec B s name vc = .throws e → e = .outOfRange)) := by
  refine ⟨fun x y d s => ((interp2d_init_thrown B x y d).type s).type e, fun s x y vc => ⟨(interp2d_eval_thrown B s x y).type e, (interp2d_evalVec_thrown B s vc).type e⟩,
    fun s name x y vc => ⟨Thrown.type (P := (· = .outOfRange)) ?_ e, Thrown.type (P := (· = .outOfRange)) ?_ e⟩⟩
  · unfold LookupTable2d.eval LookupTable2d.getIndex
    thrown
    all_goals exact interp2d_eval_thrown _ _ _ _
  · unfold LookupTable2d.evalVec LookupTable2d.getIndex
    thrown
    all_goals exact interp2d_evalVec_thrown _ _ _

/-- **C223** fails: `MakeInterp2d` of any method but LINEAR, and `AddData` of a new name to a table of such a method, throw a string, which no handler of `std::exception` catches. `AddData`
throws a string in no other case, and its other exceptions are `std::out_of_range`. -/
theorem C223_refuted (B : Build) (m : InterpMethod) (name : String) (data : List K) (s : LookupTable2d K) :
    (Interp2d.make K m = .throws .cstring ↔ m ≠ .LINEAR) ∧
    (((LookupTable2d.addData B name data).run s).1 = .throws .cstring ↔ s.assoc.lookup name = none ∧ s.interp_method ≠ .LINEAR) ∧
    ∀ e, ((LookupTable2d.addData B name data).run s).1 = .throws e → e = .outOfRange ∨ e = .cstring := by
  refine ⟨by cases m <;> simp [Interp2d.make], ?_⟩
  unfold LookupTable2d.addData
  simp only [Act.run_get_bind, Act.run_update_bind]
  cases hl : s.assoc.lookup name with
  | some v => simp [assocInsert, hl]
  | none =>
    have hb : (assocInsert s.assoc name (LookupTable2d.getNbSeries s)).2 = true := by simp [assocInsert, hl]
    rw [if_pos hb]
    simp only [Act.run_update_bind]
    cases hm : s.interp_method with
    | LINEAR =>
      simp only [Interp2d.make, Act.run_lift_ok_bind, ne_eq, not_true_eq_false, and_false, iff_false]
      have h1 := (interp2d_init_thrown B s.Xcoords s.Ycoords (some data)).type (Interp2d.fresh K)
      have hT : ∀ t : LookupTable2d K, Thrown (· = .outOfRange) ((do
          Act.lift ((Interp2d.init B s.Xcoords s.Ycoords (some data)).run (Interp2d.fresh K)).1
          Act.update fun s_1 => { s_1 with interpolators := s_1.interpolators ++ [((Interp2d.init B s.Xcoords s.Ycoords (some data)).run (Interp2d.fresh K)).2] }
          pure true : Act (LookupTable2d K) Bool).run t).1 := by
        intro t
        refine ActThrown.type ?_ t
        actthrown
      exact ⟨fun h => absurd ((hT _).type _ h) (by decide), fun e h => .inl ((hT _).type e h)⟩
    | _ => simp [Interp2d.make, eq_comm]

end interp

/-! ## Regular grids -/

section grids
variable {K D : Type} [Field K] [LinearOrder K]

theorem computeLimits_thrown {P : Exn → Prop} : ∀ (d : Nat) (g : List (List K)), Thrown P (RGI.computeLimits d g)
  | 0, _ => .ok _
  | _ + 1, [] => .ub
  | d + 1, g :: gs => by
    have := computeLimits_thrown (P := P) d gs
    unfold RGI.computeLimits
    thrown

theorem rgi_build_thrown (dim : Nat) : ActThrown (· = .invalidArgument) (RGI.build dim : Act (RGI K) Unit) := by
  unfold RGI.build NDInterp.new
  actthrown
  all_goals exact computeLimits_thrown _ _

theorem axes_thrown {P : Exn → Prop} : ∀ (g : List (List K)) (x : List K), Thrown P (NDInterp.axes g x)
  | [], _ => .ok _
  | _ :: _, [] => .ub
  | g :: gs, x :: xs => by
    have := axes_thrown (P := P) gs xs
    unfold NDInterp.axes NDInterp.axis NDInterp.findCell
    thrown

theorem unitcube_thrown {P : Exn → Prop} : ∀ (xi f : List K), Thrown P (NDInterp.unitcube f xi)
  | [], f => by unfold NDInterp.unitcube; exact .ub
  | [x], f => by unfold NDInterp.unitcube; thrown
  | x :: y :: rest, f => by
    unfold NDInterp.unitcube
    exact .bind (unitcube_thrown (y :: rest) _) fun _ => .bind (unitcube_thrown (y :: rest) _) fun _ => .pure _

theorem interpMultilinear_thrown {P : Exn → Prop} (t : NDInterp K) (p : List K) : Thrown P (NDInterp.interpMultilinear t p) := by
  unfold NDInterp.interpMultilinear NDInterp.getFValV NDInterp.getFVal
  thrown
  all_goals first | exact axes_thrown _ _ | exact unitcube_thrown _ _

/-- **C223**: `AddCoord` of a regular grid throws exactly for an axis that it may add and that does not increase, a `std::runtime_error`; `AddVar` and copies throw nothing but
`std::invalid_argument`; an evaluation throws only when it checks bounds, a `std::runtime_error`; the other calls throw nothing. -/
theorem C223_grid_partial (dim : Nat) (s : RGI K) (e : Exn) :
    (∀ v, ((RGI.addCoord dim v).run s).1 = .throws e ↔ e = .runtimeError ∧ s.grid_list.length ≠ dim ∧ ¬ v.Pairwise (· < ·)) ∧
    (∀ a, ((RGI.addVar dim a).run s).1 = .throws e → e = .invalidArgument) ∧
    (∀ t : RGI K, (((RGI.assign dim t).run s).1 = .throws e → e = .invalidArgument) ∧ ((RGI.copy dim t).1 = .throws e → e = .invalidArgument)) ∧
    (∀ (p : List K) (b : Bool), RGI.interpolate s p b = .throws e → e = .runtimeError ∧ b = true) ∧
    (∀ i, RGI.evalAtIndice s i ≠ .throws e) ∧
    ∀ i, RGI.getCoord dim s i ≠ .throws e ∧ RGI.getCoordMinVal dim s i ≠ .throws e ∧ RGI.getCoordMaxVal dim s i ≠ .throws e := by
  have hinc : ∀ v : List K, RGI.increasing v = true ↔ v.Pairwise (· < ·) := by
    intro v
    rw [← List.isChain_iff_pairwise]
    induction v with
    | nil => simp [RGI.increasing]
    | cons a v ih =>
      cases v with
      | nil => simp [RGI.increasing]
      | cons b v => simp [RGI.increasing, ih]
  have hassign : ∀ t : RGI K, ActThrown (· = .invalidArgument) (RGI.assign dim t : Act (RGI K) Unit) := by
    intro t
    unfold RGI.assign
    exact .bind (.update _) fun _ => .bind (.update _) fun _ => rgi_build_thrown dim
  refine ⟨fun v => ?_, fun a => Thrown.type (P := (· = .invalidArgument)) (ActThrown.type ?_ s) e, fun t => ⟨((hassign t).type s).type e, ((hassign t).type _).type e⟩, fun p b h => ?_, fun i h => ?_,
    fun i => ⟨fun h => ?_, fun h => ?_, fun h => ?_⟩⟩
  · unfold RGI.addCoord
    simp only [Act.run_get_bind]
    split
    · rename_i h; simp [h]
    · rename_i h
      split
      · rename_i h2
        simp [h, (hinc v).1 h2]
      · rename_i h2
        rw [hinc] at h2
        simp [h, h2, eq_comm]
  · unfold RGI.addVar
    refine .bind .get fun t => ?_
    split
    · exact .lift (.exits 1)
    · exact .bind (.update _) fun _ => rgi_build_thrown dim
  · have hb : ∀ (l : List (K × K)) (p : List K), Thrown (· = .runtimeError) (RGI.boundCheck l p) := by
      intro l
      induction l with
      | nil => intro p; unfold RGI.boundCheck; exact .ok _
      | cons q l ih =>
        intro p
        cases p with
        | nil => exact .ub
        | cons x p =>
          have := ih p
          unfold RGI.boundCheck
          thrown
    have hrest : ∀ P : Exn → Prop, Thrown P (do
        let (t, g) ← deref s.interp
        if g ≠ s.gen then .ub else NDInterp.interpMultilinear t p) := by
      intro P
      thrown
      all_goals exact interpMultilinear_thrown _ _
    cases b with
    | false => exact ((hrest (fun _ => False)).type e h).elim
    | true =>
      refine ⟨Thrown.type (P := (· = .runtimeError)) ?_ e h, rfl⟩
      unfold RGI.interpolate
      rw [if_pos rfl]
      exact .bind (.readVar _) fun l => .bind (hb _ _) fun _ => hrest _
  · exact (Thrown.mdRead (P := fun _ => False) _ _ _).type e h
  · refine Thrown.type (P := fun _ => False) ?_ e h
    unfold RGI.getCoord
    thrown
  · refine Thrown.type (P := fun _ => False) ?_ e h
    unfold RGI.getCoordMinVal
    thrown
  · refine Thrown.type (P := fun _ => False) ?_ e h
    unfold RGI.getCoordMaxVal
    thrown

/-- **C223**: `RegularGridNearest` throws no exception. -/
theorem C223_nearest_partial (dim : Nat) (s : RGN K D) (e : Exn) :
    (∀ v, ((RGN.addCoord dim v).run s).1 ≠ .throws e) ∧ (∀ a, ((RGN.addVar dim a).run s).1 ≠ .throws e) ∧
    (∀ i, RGN.getCoord dim s i ≠ .throws e ∧ RGN.getCoordMinVal dim s i ≠ .throws e ∧ RGN.getCoordMaxVal dim s i ≠ .throws e) ∧
    (∀ t : RGN K D, ((RGN.assign t).run s).1 ≠ .throws e ∧ (RGN.copy dim t).1 ≠ .throws e) ∧
    (∀ p : List K, RGN.nearest s p ≠ .throws e) ∧ ∀ p : List K, RGN.surrounding s p ≠ .throws e := by
  have hassign : ∀ t : RGN K D, ActThrown (fun _ => False) (RGN.assign t : Act (RGN K D) Unit) := fun t => .bind (.update _) fun _ => .update _
  refine ⟨fun v h => ?_, fun a h => ?_, fun i => ⟨fun h => ?_, fun h => ?_, fun h => ?_⟩, fun t => ⟨fun h => ((hassign t).type _).type e h, fun h => ((hassign t).type _).type e h⟩,
    fun p h => ?_, fun p h => ?_⟩
  · refine Thrown.type (P := fun _ => False) (ActThrown.type ?_ s) e h
    unfold RGN.addCoord
    actthrown
  · refine Thrown.type (P := fun _ => False) (ActThrown.type ?_ s) e h
    unfold RGN.addVar
    actthrown
  · refine Thrown.type (P := fun _ => False) ?_ e h
    unfold RGN.getCoord
    thrown
  · refine Thrown.type (P := fun _ => False) ?_ e h
    unfold RGN.getCoordMinVal
    thrown
  · refine Thrown.type (P := fun _ => False) ?_ e h
    unfold RGN.getCoordMaxVal
    thrown
  · refine Thrown.type (P := fun _ => False) ?_ e h
    have hl : ∀ (g : List (List K)) (p : List K), Thrown (fun _ => False) (RGN.nearestLoop g p) := by
      intro g
      induction g with
      | nil => intro p; cases p <;> unfold RGN.nearestLoop <;> thrown
      | cons a g ih =>
        intro p
        cases p with
        | nil => exact .ub
        | cons x p =>
          have := ih p
          unfold RGN.nearestLoop RGN.nearestIndex
          thrown
    unfold RGN.nearest
    thrown
    all_goals exact hl _ _
  · refine Thrown.type (P := fun _ => False) ?_ e h
    have hl : ∀ (g : List (List K)) (p : List K), Thrown (fun _ => False) (RGN.surroundingLoop g p) := by
      intro g
      induction g with
      | nil => intro p; cases p <;> unfold RGN.surroundingLoop <;> thrown
      | cons a g ih =>
        intro p
        cases p with
        | nil => exact .ub
        | cons x p =>
          have := ih p
          unfold RGN.surroundingLoop RGN.surroundingIndex
          thrown
    have hc : ∀ (g : List (List K)) (i : List Nat), Thrown (fun _ => False) (RGN.nodeCoords g i) := by
      intro g
      induction g with
      | nil => intro i; unfold RGN.nodeCoords; exact .ok _
      | cons a g ih =>
        intro i
        cases i with
        | nil => exact .ok _
        | cons x i =>
          have := ih i
          unfold RGN.nodeCoords
          thrown
    unfold RGN.surrounding RGN.getNode
    thrown
    all_goals first | exact hl _ _ | exact hc _ _

end grids

/-! ## Integrals and Cholesky decompositions -/

/-- **C223**: `Get` of an integral throws exactly when the result is not known yet and the method is NEWTON_COTES, a `std::runtime_error`. -/
theorem C223_integral_partial {K : Type} [Field K] [DecidableEq K] (s : Integrate1d K) (e : Exn) :
    (Integrate1d.get.run s).1 = .throws e ↔ e = .runtimeError ∧ s.c_Computed = false ∧ s.m_IntegrationMethod = .NEWTON_COTES := by
  unfold Integrate1d.get
  simp only [Act.run_get_bind]
  cases hc : s.c_Computed with
  | true => simp
  | false =>
    cases hm : s.m_IntegrationMethod with
    | NEWTON_COTES =>
      have : (Integrate1d.compute : Act (Integrate1d K) Unit).run s = (.throws .runtimeError, s) := by
        simp [Integrate1d.compute, Integrate1d.computeNewtonCotes, hm]
      rw [if_neg (by decide), Act.run_bind]
      simp [this, eq_comm]
    | TRAPEZOIDAL =>
      refine ⟨fun h => (Thrown.type (P := fun _ => False) ?_ e h).elim, fun h => by simp at h⟩
      have : ActThrown (fun _ => False) (Integrate1d.computeTrapz : Act (Integrate1d K) Unit) := by
        unfold Integrate1d.computeTrapz
        actthrown
      have h2 : (Integrate1d.compute : Act (Integrate1d K) Unit).run s = (Integrate1d.computeTrapz >>= fun _ => Act.update fun s => { s with c_Computed := true } : Act (Integrate1d K) Unit).run s := by
        simp [Integrate1d.compute, hm]
      rw [if_neg (by decide), Act.run_bind, h2, ← Act.run_bind]
      exact ActThrown.type (.bind (.bind this fun _ => .update _) fun _ => .bind .get fun _ => .pure _) s

/-- **C223**: the Cholesky decomposition throws nothing but `std::runtime_error`. -/
theorem C223_cholesky_partial (B : Build) (A : Mat ℝ) (e : Exn) (h : getCholesky B A = .throws e) : e = .runtimeError := by
  refine Thrown.type (P := (· = .runtimeError)) ?_ e h
  unfold getCholesky isSymmetric eigenFail
  thrown

/-! ## The hypotheses are met -/

example : ((LookupTable2d.addData ⟨true⟩ "a" [1, 2]).run { LookupTable2d.new ℚ with interp_method := .LINEAR_SATURATE }).1 = .throws .cstring :=
  (C223_refuted _ .LINEAR _ _ _).2.1.2 ⟨rfl, by decide⟩

example : ((RGI.addCoord 2 [1, 3, 2]).run (RGI.new ℚ 2)).1 = .throws .runtimeError :=
  ((C223_grid_partial 2 _ _).1 _).2 ⟨rfl, by simp [RGI.new], by norm_num⟩

example : LookupTable1D.eval (LookupTable1D.new ℚ ℚ .LINEAR) "Cx" 1 = .throws .outOfRange := rfl

end MU
