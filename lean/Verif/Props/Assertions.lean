import Verif.Model.LookupTable1D
import Verif.Model.LookupTable2d
import Verif.Model.Vectors
import Verif.Model.Integration1d
import Verif.Model.Convolution
import Verif.Model.SpecialFunctions
import Verif.Model.Chebyshev
import Verif.Model.PowerSeries
import Verif.Model.Matrix
import Verif.Model.MatrixOps
import Verif.Model.Spline
import Mathlib.Tactic.NormNum

set_option linter.unusedSectionVars false
set_option linter.unusedTactic false
set_option linter.unreachableTactic false

/-!
# C224: assertions have no effect on the results

A program is compiled with assertions (`⟨true⟩`) or, with `NDEBUG`, without (`⟨false⟩`). A call which returns, throws or ends the program in the build with assertions has the
same outcome in the build without: no assertion computes something that the code then needs.
-/

namespace MU

/-- What a call does, as a function of the build: if the build with assertions neither stops at an assertion nor is undefined, the build without does the same. -/
def Spec.SameWithoutAssertions {α : Type} (call : Build → Res α) : Prop :=
  call ⟨true⟩ ≠ .aborts → call ⟨true⟩ ≠ .ub → call ⟨false⟩ = call ⟨true⟩

/-- The same for a call on an object: the object afterwards is the same too. -/
def Spec.SameWithoutAssertionsOn {σ α : Type} (call : Build → Act σ α) : Prop :=
  ∀ s, ((call ⟨true⟩).run s).1 ≠ .aborts → ((call ⟨true⟩).run s).1 ≠ .ub → (call ⟨false⟩).run s = (call ⟨true⟩).run s

/-- The outcomes of the two builds. -/
structure Agree {α : Type} (rt rf : Res α) : Prop where
  or : rt = .aborts ∨ rt = .ub ∨ rf = rt

/-- The outcomes of the two builds, on an object. -/
structure ActAgree {σ α : Type} (mt mf : Act σ α) : Prop where
  or : ∀ s, (mt.run s).1 = .aborts ∨ (mt.run s).1 = .ub ∨ mf.run s = mt.run s

theorem Agree.same {α : Type} {call : Build → Res α} (h : Agree (call ⟨true⟩) (call ⟨false⟩)) : Spec.SameWithoutAssertions call := by
  intro h1 h2
  rcases h.or with h | h | h
  · exact absurd h h1
  · exact absurd h h2
  · exact h

theorem ActAgree.same {σ α : Type} {call : Build → Act σ α} (h : ActAgree (call ⟨true⟩) (call ⟨false⟩)) : Spec.SameWithoutAssertionsOn call := by
  intro s h1 h2
  rcases h.or s with h | h | h
  · exact absurd h h1
  · exact absurd h h2
  · exact h

theorem Agree.refl {α : Type} (r : Res α) : Agree r r := ⟨.inr (.inr rfl)⟩
theorem Agree.aborts {α : Type} (r : Res α) : Agree .aborts r := ⟨.inl rfl⟩
theorem Agree.ub {α : Type} (r : Res α) : Agree .ub r := ⟨.inr (.inl rfl)⟩

theorem Agree.bind {α β : Type} {x x' : Res α} {f f' : α → Res β} (hx : Agree x x') (hf : ∀ a, Agree (f a) (f' a)) : Agree (x >>= f) (x' >>= f') := by
  rcases hx.or with h | h | h
  · subst h; exact .aborts _
  · subst h; exact .ub _
  · subst h
    cases x' with
    | ok a => exact hf a
    | aborts => exact .aborts _
    | ub => exact .ub _
    | _ => exact .refl _

theorem Agree.ite {α : Type} {p : Prop} {_ : Decidable p} {a a' b b' : Res α} (h1 : Agree a a') (h2 : Agree b b') : Agree (if p then a else b) (if p then a' else b') := by
  split <;> assumption

theorem Agree.dite {α : Type} {p : Prop} {_ : Decidable p} {a a' : p → Res α} {b b' : ¬p → Res α} (h1 : ∀ h, Agree (a h) (a' h)) (h2 : ∀ h, Agree (b h) (b' h)) :
    Agree (if h : p then a h else b h) (if h : p then a' h else b' h) := by
  split
  · exact h1 _
  · exact h2 _

theorem Agree.forN {σ : Type} {f f' : Nat → σ → Res σ} (hf : ∀ i s, Agree (f i s) (f' i s)) : ∀ (n lo : Nat) (s : σ), Agree (MU.forN n lo f s) (MU.forN n lo f' s)
  | 0, _, _ => .refl _
  | n + 1, lo, s => Agree.bind (hf lo s) fun s' => Agree.forN hf n (lo + 1) s'

theorem Agree.forRange {σ : Type} {f f' : Nat → σ → Res σ} (hf : ∀ i s, Agree (f i s) (f' i s)) (lo hi : Nat) (s : σ) :
    Agree (MU.forRange lo hi f s) (MU.forRange lo hi f' s) := Agree.forN hf _ _ _

theorem Agree.collect {α : Type} {f f' : Nat → Res α} (hf : ∀ i, Agree (f i) (f' i)) (n : Nat) : Agree (MU.collect n f) (MU.collect n f') :=
  Agree.forRange (fun i _ => Agree.bind (hf i) fun _ => .refl _) _ _ _

theorem Agree.cassert (p : Prop) [Decidable p] : Agree (MU.cassert ⟨true⟩ p) (MU.cassert ⟨false⟩ p) := by
  by_cases h : p
  · simp [MU.cassert, h, Agree.refl]
  · simp [MU.cassert, h, Agree.aborts]

theorem Agree.eigenFail {α : Type} : Agree (MU.eigenFail ⟨true⟩ : Res α) (MU.eigenFail ⟨false⟩) := by
  simp [MU.eigenFail, Agree.aborts]

theorem Agree.eAt {K : Type} (v : List K) (i : Nat) : Agree (MU.eAt ⟨true⟩ v i) (MU.eAt ⟨false⟩ v i) := by
  unfold MU.eAt
  split
  · exact .refl _
  · exact .eigenFail
theorem Agree.eSet {K : Type} (v : List K) (i : Nat) (a : K) : Agree (MU.eSet ⟨true⟩ v i a) (MU.eSet ⟨false⟩ v i a) := .ite (.refl _) .eigenFail
theorem Agree.matAt {K : Type} (m : Mat K) (i j : Nat) : Agree (m.at' ⟨true⟩ i j) (m.at' ⟨false⟩ i j) := .ite (.refl _) .eigenFail
theorem Agree.matSet {K : Type} (m : Mat K) (i j : Nat) (a : K) : Agree (m.set ⟨true⟩ i j a) (m.set ⟨false⟩ i j a) := .ite (.refl _) .eigenFail
theorem Agree.matRow {K : Type} (m : Mat K) (i : Nat) : Agree (m.row ⟨true⟩ i) (m.row ⟨false⟩ i) := .ite (.refl _) .eigenFail
theorem Agree.matCol {K : Type} (m : Mat K) (i : Nat) : Agree (m.col ⟨true⟩ i) (m.col ⟨false⟩ i) := .ite (.refl _) .eigenFail

theorem Agree.cubeGet {K : Type} (c : List (Mat K)) (i j k : Nat) : Agree (MU.cubeGet ⟨true⟩ c i j k) (MU.cubeGet ⟨false⟩ c i j k) :=
  .bind (.refl _) fun _ => .matAt _ _ _
theorem Agree.cubeSet {K : Type} (c : List (Mat K)) (i j k : Nat) (a : K) : Agree (MU.cubeSet ⟨true⟩ c i j k a) (MU.cubeSet ⟨false⟩ c i j k a) :=
  .bind (.refl _) fun _ => .bind (.matSet _ _ _ _) fun _ => .refl _

/-- Code that returns, stops at an assertion or is undefined: an expression that is asserted. -/
structure OnlyStops {α : Type} (r : Res α) : Prop where
  or : r = .aborts ∨ r = .ub ∨ ∃ a, r = .ok a

theorem OnlyStops.bind {α β : Type} {x : Res α} {f : α → Res β} (hx : OnlyStops x) (hf : ∀ a, OnlyStops (f a)) : OnlyStops (x >>= f) := by
  rcases hx.or with h | h | ⟨a, h⟩
  · subst h; exact ⟨.inl rfl⟩
  · subst h; exact ⟨.inr (.inl rfl)⟩
  · subst h; exact hf a

theorem OnlyStops.ok {α : Type} (a : α) : OnlyStops (.ok a) := ⟨.inr (.inr ⟨a, rfl⟩)⟩
theorem OnlyStops.ub {α : Type} : OnlyStops (.ub : Res α) := ⟨.inr (.inl rfl)⟩
theorem OnlyStops.aborts {α : Type} : OnlyStops (.aborts : Res α) := ⟨.inl rfl⟩
theorem OnlyStops.ite {α : Type} {p : Prop} [Decidable p] {a b : Res α} (h1 : OnlyStops a) (h2 : OnlyStops b) : OnlyStops (if p then a else b) := by
  split <;> assumption
theorem OnlyStops.cassert (B : Build) (p : Prop) [Decidable p] : OnlyStops (MU.cassert B p) := .ite .aborts (.ok _)
theorem OnlyStops.vIdx {α : Type} (l : List α) (i : Nat) : OnlyStops (MU.vIdx l i) := by
  unfold MU.vIdx; split <;> first | exact .ok _ | exact .ub
theorem OnlyStops.readVar {α : Type} (p : Option α) : OnlyStops (MU.readVar p) := by cases p <;> first | exact .ok _ | exact .ub

/-- Without assertions the expression is not evaluated. -/
theorem Agree.checks {r : Res Unit} (h : OnlyStops r) : Agree r (.ok ()) := by
  rcases h.or with h | h | ⟨a, h⟩
  · exact ⟨.inl h⟩
  · exact ⟨.inr (.inl h)⟩
  · exact ⟨.inr (.inr h.symm)⟩

/-- Closes `Agree` of the two builds of code made of the operations above. -/
macro "agree" : tactic => `(tactic| with_reducible repeat' first
  | exact .refl _ | exact .cassert _ | exact .eigenFail | exact .eAt _ _ | exact .eSet _ _ _ | exact .matAt _ _ _ | exact .matSet _ _ _ _ | exact .matRow _ _ | exact .matCol _ _
  | exact .cubeGet _ _ _ _ | exact .cubeSet _ _ _ _ _ | assumption
  | apply Agree.collect | apply Agree.forRange | apply Agree.ite | apply Agree.dite | apply Agree.bind | intro _)

namespace ActAgree
variable {σ α β : Type}

theorem refl (m : Act σ α) : ActAgree m m := ⟨fun _ => .inr (.inr rfl)⟩

theorem bind {m m' : Act σ α} {f f' : α → Act σ β} (hm : ActAgree m m') (hf : ∀ a, ActAgree (f a) (f' a)) : ActAgree (m >>= f) (m' >>= f') := by
  refine ⟨fun s => ?_⟩
  rw [Act.run_bind, Act.run_bind]
  have h := hm.or s
  generalize m.run s = r at h
  generalize m'.run s = r' at h
  obtain ⟨r, t⟩ := r
  rcases h with h | h | h
  · cases h; exact .inl rfl
  · cases h; exact .inr (.inl rfl)
  · subst h
    cases r with
    | ok a => exact (hf a).or t
    | aborts => exact .inl rfl
    | ub => exact .inr (.inl rfl)
    | _ => exact .inr (.inr rfl)

theorem lift {x x' : Res α} (h : Agree x x') : ActAgree (Act.lift x : Act σ α) (Act.lift x') := by
  refine ⟨fun s => ?_⟩
  rcases h.or with h | h | h
  · subst h; exact .inl rfl
  · subst h; exact .inr (.inl rfl)
  · subst h; exact .inr (.inr rfl)

theorem ite {p : Prop} [Decidable p] {a a' b b' : Act σ α} (h1 : ActAgree a a') (h2 : ActAgree b b') : ActAgree (if p then a else b) (if p then a' else b') := by
  split <;> assumption

/-- A call on another object, a member of this one, whose exception goes through. -/
theorem member {τ : Type} {m m' : Act τ Unit} (hm : ActAgree m m') (o : τ) (f : τ → Act σ β) :
    ActAgree (Act.lift (m.run o).1 >>= fun _ => f (m.run o).2) (Act.lift (m'.run o).1 >>= fun _ => f (m'.run o).2) := by
  refine ⟨fun s => ?_⟩
  rcases hm.or o with h | h | h
  · rw [Act.run_bind, h]; exact .inl rfl
  · rw [Act.run_bind, h]; exact .inr (.inl rfl)
  · rw [h]; exact .inr (.inr rfl)

end ActAgree

/-- A call on an object of which the program uses the state afterwards. -/
theorem Agree.object {σ β : Type} {m m' : Act σ Unit} (hm : ActAgree m m') (o : σ) {f f' : σ → Res β} (hf : ∀ s, Agree (f s) (f' s)) :
    Agree ((m.run o).1 >>= fun _ => f (m.run o).2) ((m'.run o).1 >>= fun _ => f' (m'.run o).2) := by
  rcases hm.or o with h | h | h
  · rw [h]; exact .aborts _
  · rw [h]; exact .ub _
  · rw [h]; exact .bind (.refl _) fun _ => hf _

/-- Closes `ActAgree` of the two builds of code made of the operations above. -/
macro "actagree" : tactic => `(tactic| with_reducible (repeat' first
  | exact .refl _ | assumption | apply ActAgree.ite | apply ActAgree.bind | apply ActAgree.lift | intro _) <;> agree)

/-! ## Interpolators and tables -/

section interp
variable {K Y : Type} [Field K] [LinearOrder K] [AddCommGroup Y] [Module K Y]

theorem interp1d_init_agree (x : Option (List K)) (y : Option (List Y)) : ActAgree (Interp1d.init ⟨true⟩ x y) (Interp1d.init ⟨false⟩ x y) := by
  unfold Interp1d.init Interp1d.initializeBase
  actagree

theorem interp1d_initAll_agree : ∀ hist : List (List K × List Y), ActAgree (Interp1d.initAll ⟨true⟩ hist) (Interp1d.initAll ⟨false⟩ hist)
  | [] => .refl _
  | (_, _) :: hist => .bind (interp1d_init_agree _ _) fun _ => interp1d_initAll_agree hist

/-- **C224**: creating a 1D interpolator, initialising it any number of times and evaluating it. -/
theorem C224_interp1d (m : InterpMethod) (hist : List (List K × List Y)) (x : K) : Spec.SameWithoutAssertions fun B => interp1dHist B m hist x := by
  refine Agree.same ?_
  refine .bind (.refl _) fun kind => ?_
  exact .object (f := fun s => Interp1d.eval kind s x) (interp1d_initAll_agree hist) _ fun _ => .refl _

theorem addY_agree (name : String) (ys : List Y) : ActAgree (LookupTable1D.addY ⟨true⟩ name ys : Act (LookupTable1D K Y) Bool) (LookupTable1D.addY ⟨false⟩ name ys) := by
  unfold LookupTable1D.addY
  refine .bind (.refl _) fun s => .bind (.refl _) fun _ => .ite (.bind (.refl _) fun _ => .bind (.refl _) fun m => .bind (.refl _) fun kind => ?_) (.refl _)
  exact .member (interp1d_init_agree s.Xcoords (some ys)) _ fun o => do
    Act.update fun (s : LookupTable1D K Y) => { s with interpolators := s.interpolators ++ [(kind, o)] }
    return true

/-- **C224**: any sequence of calls on a 1D table, whose evaluations have no assertion. -/
theorem C224_table (ops : List (LookupTable1D.Op K Y)) : Spec.SameWithoutAssertionsOn fun B => LookupTable1D.execAll B ops := by
  refine ActAgree.same ?_
  have hx : ∀ op : LookupTable1D.Op K Y, ActAgree (LookupTable1D.exec ⟨true⟩ op) (LookupTable1D.exec ⟨false⟩ op) := by
    intro op
    cases op with
    | setX X => exact .refl _
    | addY name ys => exact .bind (addY_agree name ys) fun _ => .refl _
  induction ops with
  | nil => exact .refl _
  | cons op ops ih => exact .bind (hx op) fun _ => ih

theorem interp2d_init_agree (x y d : Option (List K)) : ActAgree (Interp2d.init ⟨true⟩ x y d) (Interp2d.init ⟨false⟩ x y d) := by
  unfold Interp2d.init Interp2d.initializeBase
  actagree

theorem interp2d_eval_agree (s : Interp2d K) (x y : K) : Agree (Interp2d.eval ⟨true⟩ s x y) (Interp2d.eval ⟨false⟩ s x y) := by
  have h : Agree (Interp2d.evalAsserts ⟨true⟩ s x y) (Interp2d.evalAsserts ⟨false⟩ s x y) := by
    exact .checks (.bind (.readVar _) fun _ => .bind (.readVar _) fun _ => .bind (.cassert _ _) fun _ => .bind (.readVar _) fun _ => .bind (.readVar _) fun _ =>
      .cassert _ _)
  unfold Interp2d.eval
  agree

theorem interp2d_evalVec_agree (s : Interp2d K) (vc : List (List K)) : Agree (Interp2d.evalVec ⟨true⟩ s vc) (Interp2d.evalVec ⟨false⟩ s vc) := by
  unfold Interp2d.evalVec
  agree
  exact interp2d_eval_agree _ _ _

theorem interp2d_initAll_agree : ∀ hist : List (List K × List K × List K), ActAgree (Interp2d.initAll ⟨true⟩ hist) (Interp2d.initAll ⟨false⟩ hist)
  | [] => .refl _
  | (_, _, _) :: hist => .bind (interp2d_init_agree _ _ _) fun _ => interp2d_initAll_agree hist

/-- **C224**: creating a 2D interpolator, initialising it any number of times and evaluating it; `Eval` at any points of an object in any state. -/
theorem C224_interp2d (m : InterpMethod) (hist : List (List K × List K × List K)) (x y : K) : Spec.SameWithoutAssertions fun B => interp2dHist B m hist x y :=
  Agree.same (.bind (.refl _) fun _ => .object (f := fun s => Interp2d.eval ⟨true⟩ s x y) (f' := fun s => Interp2d.eval ⟨false⟩ s x y) (interp2d_initAll_agree hist) _
    fun _ => interp2d_eval_agree _ _ _)

theorem C224_interp2d_points (s : Interp2d K) (vc : List (List K)) : Spec.SameWithoutAssertions fun B => Interp2d.evalVec B s vc :=
  Agree.same (interp2d_evalVec_agree s vc)

/-- **C224**: any sequence of calls on a 2D table, and its evaluations in any state. -/
theorem C224_table2d (ops : List (LookupTable2d.Op K)) : Spec.SameWithoutAssertionsOn fun B => LookupTable2d.execAll B ops := by
  refine ActAgree.same ?_
  have ha : ∀ (name : String) (data : List K), ActAgree (LookupTable2d.addData ⟨true⟩ name data) (LookupTable2d.addData ⟨false⟩ name data) := by
    intro name data
    unfold LookupTable2d.addData
    refine .bind (.refl _) fun s => .bind (.refl _) fun _ => .ite (.bind (.refl _) fun _ => .bind (.refl _) fun o => ?_) (.refl _)
    exact .member (interp2d_init_agree s.Xcoords s.Ycoords (some data)) o fun o => do
      Act.update fun (s : LookupTable2d K) => { s with interpolators := s.interpolators ++ [o] }
      return true
  have hx : ∀ op : LookupTable2d.Op K, ActAgree (LookupTable2d.exec ⟨true⟩ op) (LookupTable2d.exec ⟨false⟩ op) := by
    intro op
    cases op with
    | addData name data => exact .bind (ha name data) fun _ => .refl _
    | _ => exact .refl _
  induction ops with
  | nil => exact .refl _
  | cons op ops ih => exact .bind (hx op) fun _ => ih

theorem C224_table2d_eval (s : LookupTable2d K) (name : String) (x y : K) (vc : List (List K)) :
    Spec.SameWithoutAssertions (fun B => LookupTable2d.eval B s name x y) ∧ Spec.SameWithoutAssertions fun B => LookupTable2d.evalVec B s name vc :=
  ⟨Agree.same (.bind (.refl _) fun _ => .bind (.refl _) fun _ => interp2d_eval_agree _ _ _),
    Agree.same (.bind (.refl _) fun _ => .bind (.refl _) fun _ => interp2d_evalVec_agree _ _)⟩

end interp

/-! ## Vectors, quadrature, convolution -/

section vectors
variable {K : Type} [Field K] [LinearOrder K]

theorem linspace_agree (a b : K) (n : Nat) : Agree (linspace ⟨true⟩ a b n) (linspace ⟨false⟩ a b n) := by
  unfold linspace
  agree

theorem zipLoop_agree (v w : List K) (op : K → K → Res K) : Agree (zipLoop ⟨true⟩ v w op) (zipLoop ⟨false⟩ v w op) := by
  unfold zipLoop
  agree

/-- **C224**: the generation of vectors. -/
theorem C224_generation [FloorRing K] (a b c : K) (n : Nat) (p q base : ℝ) :
    Spec.SameWithoutAssertions (fun B => linspace B a b n) ∧ Spec.SameWithoutAssertions (fun B => arange B a b c) ∧
      Spec.SameWithoutAssertions fun B => logspace B p q n base := by
  refine ⟨Agree.same (linspace_agree a b n), Agree.same ?_, Agree.same ?_⟩
  · unfold arange
    agree
    exact linspace_agree _ _ _
  · unfold logspace
    agree
    exact linspace_agree _ _ _

/-- **C224**: the operations on two vectors. -/
theorem C224_vectors (v w : List K) : Spec.SameWithoutAssertions (fun B => vAdd B v w) ∧ Spec.SameWithoutAssertions (fun B => vMinus B v w) ∧
    Spec.SameWithoutAssertions (fun B => vMult B v w) ∧ Spec.SameWithoutAssertions fun B => vDivide B v w :=
  ⟨Agree.same (zipLoop_agree _ _ _), Agree.same (zipLoop_agree _ _ _), Agree.same (zipLoop_agree _ _ _), Agree.same (zipLoop_agree _ _ _)⟩

theorem isCloseVec_agree (v w : List K) (r a : K) : Agree (isCloseVec ⟨true⟩ v w r a) (isCloseVec ⟨false⟩ v w r a) := by
  unfold isCloseVec
  agree

theorem rampAssert_agree (x : List K) (x_min x_max : K) : Agree (rampAssert ⟨true⟩ x x_min x_max) (rampAssert ⟨false⟩ x x_min x_max) :=
  .checks (.bind (.vIdx _ _) fun _ => .ite (.bind (.vIdx _ _) fun _ => .ite (.ok _) .aborts) .aborts)

/-- **C224**: the functions on vectors. -/
theorem C224_functions (x : List K) (a b c d : K) (p q : ℝ) (n : Nat) :
    Spec.SameWithoutAssertions (fun B => door B x a b c) ∧ Spec.SameWithoutAssertions (fun B => ramp B x a b c d) ∧
      Spec.SameWithoutAssertions fun B => sincRange B p q n := by
  refine ⟨Agree.same ?_, Agree.same ?_, Agree.same ?_⟩
  · unfold door
    agree
    exact zipLoop_agree _ _ _
  · unfold ramp
    agree
    exact rampAssert_agree _ _ _
  · unfold sincRange
    agree
    exact linspace_agree _ _ _

/-- **C224**: the comparisons; `AssertIsClose` does nothing at all without assertions. -/
theorem C224_comparisons (a b r t : K) (v w : List K) :
    Spec.SameWithoutAssertions (fun B => isCloseVec B v w r t) ∧ Spec.SameWithoutAssertions (fun B => assertIsClose B a b r t) ∧
      Spec.SameWithoutAssertions fun B => assertIsCloseVec B v w r t := by
  refine ⟨Agree.same (isCloseVec_agree _ _ _ _), Agree.same (.cassert _), Agree.same ?_⟩
  have hl : ∀ n i, OnlyStops (isCloseLoop v w r t n i) := by
    intro n
    induction n with
    | zero => exact fun i => .ok _
    | succ n ih => exact fun i => .bind (.vIdx _ _) fun _ => .bind (.vIdx _ _) fun _ => .ite (.ok _) (ih (i + 1))
  exact .checks (.bind (.bind (.cassert _ _) fun _ => hl _ _) fun _ => .cassert _ _)

/-- **C224**: quadrature from tables of values and convolution. -/
theorem C224_quadrature (x y : List K) (dt : K) (rev : Bool) :
    Spec.SameWithoutAssertions (fun B => trapz B x y) ∧ Spec.SameWithoutAssertions fun B => naiveConvolution B x y dt rev := by
  refine ⟨Agree.same ?_, Agree.same ?_⟩
  · unfold trapz
    agree
  · unfold naiveConvolution
    agree

end vectors

/-! ## Special functions -/

theorem continuedFraction_agree (a b : List ℝ) (x : ℝ) : Agree (continuedFraction ⟨true⟩ a b x) (continuedFraction ⟨false⟩ a b x) := by
  unfold continuedFraction
  agree

/-- **C224**: the approximations of exponential integrals. -/
theorem C224_exponential_integrals (expint : ℝ → Res ℝ) (x : ℝ) :
    Spec.SameWithoutAssertions (fun B => eiApproximation B x) ∧ Spec.SameWithoutAssertions (fun B => expEi expint B x) ∧
      Spec.SameWithoutAssertions fun B => e1Approximation B x := by
  refine ⟨Agree.same ?_, Agree.same ?_, Agree.same ?_⟩
  · unfold eiApproximation
    agree
    all_goals exact continuedFraction_agree _ _ _
  · unfold expEi
    agree
    all_goals exact continuedFraction_agree _ _ _
  · unfold e1Approximation
    agree

/-! ## Chebyshev and power series -/

section series
variable {K : Type} [Field K] [LinearOrder K]

/-- **C224**: Chebyshev series of one variable. -/
theorem C224_chebyshev1d (s : CS1 K) (r : CS1 ℝ) (x : K) :
    Spec.SameWithoutAssertions (fun B => CS1.computeAi B r) ∧
      Spec.SameWithoutAssertions (fun B => CS1.evaluate B s x) ∧
      Spec.SameWithoutAssertions (fun B => CS1.evaluateDerivativeX B s x) ∧
      Spec.SameWithoutAssertions (fun B => CS1.computeBi B s) := by
  refine ⟨Agree.same ?_, Agree.same ?_, Agree.same ?_, Agree.same ?_⟩
  · unfold CS1.computeAi
    agree
  · unfold CS1.evaluate
    agree
  · unfold CS1.evaluateDerivativeX
    agree
  · unfold CS1.computeBi
    agree

/-- **C224**: Chebyshev series of two variables. -/
theorem C224_chebyshev2d (s : CS2 K) (r : CS2 ℝ) (x y : K) :
    Spec.SameWithoutAssertions (fun B => CS2.computeAij B r) ∧
      Spec.SameWithoutAssertions (fun B => CS2.evaluate B s x y) ∧
      Spec.SameWithoutAssertions (fun B => CS2.evaluateDerivativeX B s x y) ∧
      Spec.SameWithoutAssertions (fun B => CS2.evaluateDerivativeY B s x y) ∧
      Spec.SameWithoutAssertions (fun B => CS2.computeBij B s) := by
  refine ⟨Agree.same ?_, Agree.same ?_, Agree.same ?_, Agree.same ?_, Agree.same ?_⟩
  · unfold CS2.computeAij
    agree
  · unfold CS2.evaluate
    agree
  · unfold CS2.evaluateDerivativeX
    agree
  · unfold CS2.evaluateDerivativeY
    agree
  · unfold CS2.computeBij
    agree

/-- **C224**: Chebyshev series of three variables. -/
theorem C224_chebyshev3d (s : CS3 K) (r : CS3 ℝ) (x y z : K) :
    Spec.SameWithoutAssertions (fun B => CS3.computeAijk B r) ∧
      Spec.SameWithoutAssertions (fun B => CS3.evaluate B s x y z) ∧
      Spec.SameWithoutAssertions (fun B => CS3.evaluateDerivativeX B s x y z) ∧
      Spec.SameWithoutAssertions (fun B => CS3.evaluateDerivativeY B s x y z) ∧
      Spec.SameWithoutAssertions (fun B => CS3.evaluateDerivativeZ B s x y z) ∧
      Spec.SameWithoutAssertions (fun B => CS3.computeBijk B s) := by
  refine ⟨Agree.same ?_, Agree.same ?_, Agree.same ?_, Agree.same ?_, Agree.same ?_, Agree.same ?_⟩
  · unfold CS3.computeAijk
    agree
  · unfold CS3.evaluate
    agree
  · unfold CS3.evaluateDerivativeX CS3.sumLoop
    agree
  · unfold CS3.evaluateDerivativeY CS3.sumLoop
    agree
  · unfold CS3.evaluateDerivativeZ CS3.sumLoop
    agree
  · unfold CS3.computeBijk
    agree

/-- **C224**: power series of one variable. -/
theorem C224_power1d (s : PS1 K) (x : K) :
    Spec.SameWithoutAssertions (fun B => PS1.evaluate B s x) ∧
      Spec.SameWithoutAssertions (fun B => PS1.evaluateDerivativeX B s x) := by
  refine ⟨Agree.same ?_, Agree.same ?_⟩
  · unfold PS1.evaluate PS1.evaluateUnit
    agree
  · unfold PS1.evaluateDerivativeX PS1.evaluateDerivativeXUnit
    agree

/-- **C224**: power series of two variables. -/
theorem C224_power2d (s : PS2 K) (x y : K) :
    Spec.SameWithoutAssertions (fun B => PS2.evaluate B s x y) ∧
      Spec.SameWithoutAssertions (fun B => PS2.evaluateDerivativeX B s x y) ∧
      Spec.SameWithoutAssertions (fun B => PS2.evaluateDerivativeY B s x y) := by
  refine ⟨Agree.same ?_, Agree.same ?_, Agree.same ?_⟩
  · unfold PS2.evaluate PS2.evaluateUnit
    agree
  · unfold PS2.evaluateDerivativeX PS2.evaluateDerivativeXUnit
    agree
  · unfold PS2.evaluateDerivativeY PS2.evaluateDerivativeYUnit
    agree

/-- **C224**: power series of three variables. -/
theorem C224_power3d (s : PS3 K) (x y z : K) :
    Spec.SameWithoutAssertions (fun B => PS3.evaluate B s x y z) ∧
      Spec.SameWithoutAssertions (fun B => PS3.evaluateZinf B s x y) ∧
      Spec.SameWithoutAssertions (fun B => PS3.evaluateDerivativeX B s x y z) ∧
      Spec.SameWithoutAssertions (fun B => PS3.evaluateDerivativeY B s x y z) ∧
      Spec.SameWithoutAssertions (fun B => PS3.evaluateDerivativeZ B s x y z) ∧
      Spec.SameWithoutAssertions (fun B => PS3.evaluateDerivativeXZinf B s x y) ∧
      Spec.SameWithoutAssertions (fun B => PS3.evaluateDerivativeYZinf B s x y) ∧
      Spec.SameWithoutAssertions (fun B => PS3.evaluateFDfdxDfdy B s x y z) ∧
      Spec.SameWithoutAssertions (fun B => PS3.computeCij B s z) ∧
      Spec.SameWithoutAssertions (fun B => PS3.computeCijZinf B s) := by
  refine ⟨Agree.same ?_, Agree.same ?_, Agree.same ?_, Agree.same ?_, Agree.same ?_, Agree.same ?_, Agree.same ?_, Agree.same ?_, Agree.same ?_, Agree.same ?_⟩
  · unfold PS3.evaluate PS3.evaluateUnit
    agree
  · unfold PS3.evaluateZinf PS3.evaluateUnit
    agree
  · unfold PS3.evaluateDerivativeX PS3.evaluateDerivativeXUnit
    agree
  · unfold PS3.evaluateDerivativeY PS3.evaluateDerivativeYUnit
    agree
  · unfold PS3.evaluateDerivativeZ PS3.evaluateDerivativeZUnit
    agree
  · unfold PS3.evaluateDerivativeXZinf PS3.evaluateDerivativeXUnit
    agree
  · unfold PS3.evaluateDerivativeYZinf PS3.evaluateDerivativeYUnit
    agree
  · unfold PS3.evaluateFDfdxDfdy PS3.evaluateFDfdxDfdyUnit
    agree
  · unfold PS3.computeCij PS3.computeCijUnit
    agree
  · unfold PS3.computeCijZinf PS3.computeCijUnit
    agree

/-- **C224**: power series of three variables, from the coefficients computed in advance. -/
theorem C224_power3d_predefined (s : PS3 K) (x y : K) (cij : Mat K) :
    Spec.SameWithoutAssertions (fun B => PS3.evaluateZPredefined B s x y cij) ∧
      Spec.SameWithoutAssertions (fun B => PS3.evaluateDerivativeXZPredefined B s x y cij) ∧
      Spec.SameWithoutAssertions (fun B => PS3.evaluateDerivativeYZPredefined B s x y cij) ∧
      Spec.SameWithoutAssertions (fun B => PS3.evaluateFDfdxDfdyZPredefined B s x y cij) := by
  refine ⟨Agree.same ?_, Agree.same ?_, Agree.same ?_, Agree.same ?_⟩
  · unfold PS3.evaluateZPredefined PS3.evaluateUnitZunitPredefined
    agree
  · unfold PS3.evaluateDerivativeXZPredefined PS3.evaluateDerivativeXUnitZunitPredefined
    agree
  · unfold PS3.evaluateDerivativeYZPredefined PS3.evaluateDerivativeYUnitZunitPredefined
    agree
  · unfold PS3.evaluateFDfdxDfdyZPredefined PS3.evaluateFDfdxDfdyUnitZunitPredefined
    agree

end series

/-! ## Matrices and splines -/

theorem mulM_agree (A C : Mat ℝ) : Agree (A.mulM ⟨true⟩ C) (A.mulM ⟨false⟩ C) := .ite (.refl _) .eigenFail
theorem subM_agree (A C : Mat ℝ) : Agree (A.subM ⟨true⟩ C) (A.subM ⟨false⟩ C) := .ite (.refl _) .eigenFail
theorem addM_agree (A C : Mat ℝ) : Agree (A.addM ⟨true⟩ C) (A.addM ⟨false⟩ C) := .ite (.refl _) .eigenFail
theorem blockM_agree (A : Mat ℝ) (i j r c : Nat) : Agree (A.blockM ⟨true⟩ i j r c) (A.blockM ⟨false⟩ i j r c) := .ite (.refl _) .eigenFail
theorem setBlock_agree (A : Mat ℝ) (i j r c : Nat) (C : Mat ℝ) : Agree (A.setBlock ⟨true⟩ i j r c C) (A.setBlock ⟨false⟩ i j r c C) := .ite (.refl _) .eigenFail

/-- **C224**: the elements, rows, columns and symmetric copies of a matrix, and its comparison with another. -/
theorem C224_matrix_access (A C : Mat ℝ) (i j : Nat) (a epsilon : ℝ) :
    Spec.SameWithoutAssertions (fun B => matAt B A i j) ∧
      Spec.SameWithoutAssertions (fun B => matPut B A i j a) ∧
      Spec.SameWithoutAssertions (fun B => getRow B A i) ∧
      Spec.SameWithoutAssertions (fun B => getColumn B A j) ∧
      Spec.SameWithoutAssertions (fun B => isSymmetric B A) ∧
      Spec.SameWithoutAssertions (fun B => makeSymmetricFromUpper B A) ∧
      Spec.SameWithoutAssertions (fun B => makeSymmetricFromLower B A) ∧
      Spec.SameWithoutAssertions (fun B => isEqualM B A C epsilon) := by
  refine ⟨Agree.same ?_, Agree.same ?_, Agree.same ?_, Agree.same ?_, Agree.same ?_, Agree.same ?_, Agree.same ?_, Agree.same ?_⟩
  · unfold matAt
    agree
  · unfold matPut
    agree
  · unfold getRow
    agree
  · unfold getColumn
    agree
  · unfold isSymmetric
    agree
  · unfold makeSymmetricFromUpper
    agree
  · unfold makeSymmetricFromLower
    agree
  · unfold isEqualM
    agree
    all_goals first | exact mulM_agree _ _ | exact subM_agree _ _ | exact addM_agree _ _ | exact blockM_agree _ _ _ _ _ | exact setBlock_agree _ _ _ _ _ _

theorem isSymmetric_agree (A : Mat ℝ) : Agree (isSymmetric ⟨true⟩ A) (isSymmetric ⟨false⟩ A) := .ite (.refl _) .eigenFail

/-- **C224**: the Cholesky factor. -/
theorem C224_cholesky (A : Mat ℝ) : Spec.SameWithoutAssertions (fun B => getCholesky B A) :=
  Agree.same (.ite (.refl _) (.bind (isSymmetric_agree A) fun _ => .ite (.refl _) (.refl _)))

/-- **C224**: the other decompositions, the inverse, the pseudo-inverse and the eigenvalues. -/
theorem C224_decompositions (E : EigenLA) (inverse : Mat ℝ → Mat ℝ) (eigenvalues : Mat ℝ → List ℂ) (A : Mat ℝ) (tol : ℝ) :
    Spec.SameWithoutAssertions (fun B => getQR E B A) ∧
      Spec.SameWithoutAssertions (fun B => getFullQR E B A) ∧
      Spec.SameWithoutAssertions (fun B => getLU E B A) ∧
      Spec.SameWithoutAssertions (fun B => getPseudoInverse E B tol A) ∧
      Spec.SameWithoutAssertions (fun B => getInverse inverse B A) ∧
      Spec.SameWithoutAssertions (fun B => getEigenvalues eigenvalues B A) := by
  refine ⟨Agree.same ?_, Agree.same ?_, Agree.same ?_, Agree.same ?_, Agree.same ?_, Agree.same ?_⟩
  · unfold getQR
    agree
    all_goals first | exact mulM_agree _ _ | exact subM_agree _ _ | exact addM_agree _ _ | exact blockM_agree _ _ _ _ _ | exact setBlock_agree _ _ _ _ _ _
  · unfold getFullQR
    agree
    all_goals first | exact mulM_agree _ _ | exact subM_agree _ _ | exact addM_agree _ _ | exact blockM_agree _ _ _ _ _ | exact setBlock_agree _ _ _ _ _ _
  · unfold getLU
    agree
    all_goals first | exact mulM_agree _ _ | exact subM_agree _ _ | exact addM_agree _ _ | exact blockM_agree _ _ _ _ _ | exact setBlock_agree _ _ _ _ _ _
  · unfold getPseudoInverse invertSingular
    agree
    all_goals first | exact mulM_agree _ _ | exact subM_agree _ _ | exact addM_agree _ _ | exact blockM_agree _ _ _ _ _ | exact setBlock_agree _ _ _ _ _ _
  · unfold getInverse inverseInPlace
    agree
  · unfold getEigenvalues
    agree

/-- **C224**: the solvers. -/
theorem C224_solvers (E : EigenLA) (garbage : Nat → Nat → ℝ) (A b C d : Mat ℝ) :
    Spec.SameWithoutAssertions (fun B => luSolver E B A b) ∧
      Spec.SameWithoutAssertions (fun B => qrSolver E B A b) ∧
      Spec.SameWithoutAssertions (fun B => leastSquareSolver E B A b) ∧
      Spec.SameWithoutAssertions (fun B => leastSquareSolverConstraint E B garbage A b C d) := by
  refine ⟨Agree.same ?_, Agree.same ?_, Agree.same ?_, Agree.same ?_⟩
  · unfold luSolver
    agree
  · unfold qrSolver
    agree
  · unfold leastSquareSolver
    agree
  · unfold leastSquareSolverConstraint getFullQR luSolver leastSquareSolver
    agree
    all_goals first | exact mulM_agree _ _ | exact subM_agree _ _ | exact addM_agree _ _ | exact blockM_agree _ _ _ _ _ | exact setBlock_agree _ _ _ _ _ _

theorem span_agree (u : ℝ) (p : Nat) (U : List ℝ) : Agree (ESpline.span ⟨true⟩ u p U) (ESpline.span ⟨false⟩ u p U) := by
  unfold ESpline.span
  agree

theorem basisFunctions_agree (u : ℝ) (p : Nat) (U : List ℝ) : Agree (basisFunctions ⟨true⟩ u p U) (basisFunctions ⟨false⟩ u p U) := by
  unfold basisFunctions
  agree
  exact span_agree _ _ _

theorem minCoeff_agree (v : List ℝ) : Agree (minCoeff ⟨true⟩ v) (minCoeff ⟨false⟩ v) := by
  cases v with
  | nil => exact .eigenFail
  | cons a l => exact .refl _

theorem maxCoeff_agree (v : List ℝ) : Agree (maxCoeff ⟨true⟩ v) (maxCoeff ⟨false⟩ v) := by
  cases v with
  | nil => exact .eigenFail
  | cons a l => exact .refl _

/-- **C224**: the construction and the evaluation of a spline, and the largest coefficient of a vector. -/
theorem C224_spline (solve : Mat ℝ → List ℝ → List ℝ) (Deg : Nat) (xs ys v : List ℝ) (s : Spline) (x : ℝ) :
    Spec.SameWithoutAssertions (fun B => Spline.makeStd solve B Deg xs ys) ∧ Spec.SameWithoutAssertions (fun B => Spline.call B s x) ∧
      Spec.SameWithoutAssertions (fun B => infNormList B v) := by
  refine ⟨Agree.same ?_, Agree.same ?_, Agree.same (maxCoeff_agree _)⟩
  · unfold Spline.makeStd Spline.make ESpline.interpolate collocation collocationRow
    agree
    all_goals first | exact minCoeff_agree _ | exact maxCoeff_agree _ | exact span_agree _ _ _ | exact basisFunctions_agree _ _ _
  · unfold Spline.call ESpline.eval
    agree
    all_goals first | exact span_agree _ _ _ | exact basisFunctions_agree _ _ _

/-! ## The hypotheses are met -/

/-- A call that both builds complete, one whose exception both let through, and one where they differ, the assertion having stopped the first. -/
example : vAdd ⟨true⟩ [(1 : ℚ), 2] [3, 4] = .ok [4, 6] ∧ vAdd ⟨false⟩ [(1 : ℚ), 2] [3, 4] = .ok [4, 6] ∧
    interp1d ⟨true⟩ .BSPLINE [(0 : ℚ)] [(0 : ℚ)] 0 = .exits 1 ∧ interp1d ⟨false⟩ .BSPLINE [(0 : ℚ)] [(0 : ℚ)] 0 = .exits 1 ∧
    isCloseVec ⟨true⟩ [(1 : ℚ)] [1, 2] 0 0 = .aborts ∧ isCloseVec ⟨false⟩ [(1 : ℚ)] [1, 2] 0 0 = .ok true := by
  refine ⟨?_, ?_, rfl, rfl, rfl, ?_⟩
  · norm_num [vAdd, zipLoop, MU.cassert, MU.forRange, MU.forN, MU.vIdx, vSet, List.replicate]
  · norm_num [vAdd, zipLoop, MU.cassert, MU.forRange, MU.forN, MU.vIdx, vSet, List.replicate]
  · norm_num [isCloseVec, isCloseLoop, isClose, MU.cassert, MU.vIdx]

end MU
