import Verif.Model.Threads
import Verif.Props.Interp1d
import Verif.Props.Integration1d
import Mathlib.Data.Rat.Floor

set_option linter.unusedSectionVars false

/-!
# C124: objects shared by threads

`Reach (ts, s) (ts', s')`: the threads `ts`, sharing the object `s`, can have become `ts'` and the object `s'`; `Race`: two threads are about to access the
same field, one of them for writing.
-/

namespace MU

namespace Spec
variable {σ : Type} {Λ : Layout σ} {α ι : Type} [DecidableEq ι]

/-- Threads that may run concurrently on the object `s`: whatever the order of their accesses there is no data race, the object is not changed, and a
thread that has finished has the result `r i`. -/
def Concurrent (ts : ι → Prog Λ α) (s : σ) (r : ι → Res α) : Prop :=
  ∀ ts' s', Reach (ts, s) (ts', s') → ¬ Race ts' ∧ s' = s ∧ ∀ i a, ts' i = .ret a → a = r i

end Spec

namespace Prog
variable {σ : Type} {Λ : Layout σ} {α β ι : Type} [DecidableEq ι]

theorem run_ret (r : Res α) (s : σ) : (ret r : Prog Λ α).run s = (r, s) := rfl

/-- The method, run on `s`, only reads. -/
def Quiet (s : σ) : Prog Λ α → Prop
  | ret _ => True
  | read l k => Quiet s (k (Λ.get l s))
  | write _ _ _ => False

theorem quiet_bind {s : σ} (p : Prog Λ α) (f : α → Prog Λ β) (hp : p.Quiet s) (hf : ∀ a, (f a).Quiet s) : (p >>= f).Quiet s := by
  show (p.bind f).Quiet s
  induction p with
  | ret r => cases r <;> simp [Prog.bind, Quiet, hf]
  | read l k ih => exact ih _ hp
  | write l v p ih => exact absurd hp (by simp [Quiet])

theorem quiet_load (s : σ) (l : Λ.L) : (load l : Prog Λ (Λ.V l)).Quiet s := trivial
theorem quiet_lift (s : σ) (r : Res α) : (lift r : Prog Λ α).Quiet s := trivial

/-- A method that only reads leaves the object as it is. -/
theorem quiet_run {s : σ} (p : Prog Λ α) (hp : p.Quiet s) : (p.run s).2 = s := by
  induction p with
  | ret r => rfl
  | read l k ih => exact ih _ hp
  | write l v p ih => exact absurd hp (by simp [Quiet])

theorem run_bind (p : Prog Λ α) (f : α → Prog Λ β) (s : σ) :
    (p >>= f).run s = match p.run s with
      | (.ok a, s') => (f a).run s'
      | (.throws e, s') => (.throws e, s')
      | (.exits c, s') => (.exits c, s')
      | (.aborts, s') => (.aborts, s')
      | (.ub, s') => (.ub, s')
      | (.nonfinite, s') => (.nonfinite, s') := by
  show (p.bind f).run s = _
  induction p generalizing s with
  | ret r => cases r <;> rfl
  | read l k ih => exact ih _ s
  | write l v p ih => exact ih _

theorem run_load_bind (l : Λ.L) (f : Λ.V l → Prog Λ β) (s : σ) : (load l >>= f).run s = (f (Λ.get l s)).run s := rfl
theorem run_store_bind (l : Λ.L) (v : Λ.V l) (f : Unit → Prog Λ β) (s : σ) : (store l v >>= f).run s = (f ()).run (Λ.set l v s) := rfl
theorem run_store (l : Λ.L) (v : Λ.V l) (s : σ) : (store l v : Prog Λ Unit).run s = (.ok (), Λ.set l v s) := rfl

/-- Threads that only read do not disturb one another. -/
theorem quiet_reach (s : σ) (ts : ι → Prog Λ α) (h : ∀ i, (ts i).Quiet s) (c : (ι → Prog Λ α) × σ) (hr : Reach (ts, s) c) :
    c.2 = s ∧ (∀ i, (c.1 i).Quiet s) ∧ ∀ i, (c.1 i).run s = (ts i).run s := by
  induction hr with
  | refl => exact ⟨rfl, h, fun _ => rfl⟩
  | tail hr t ih =>
    obtain ⟨h1, h2, h3⟩ := ih
    cases t with
    | @read ts' s' i l k e =>
      cases h1
      refine ⟨rfl, fun j => ?_, fun j => ?_⟩
      · by_cases hj : j = i
        · subst hj
          simp only [Function.update_self]
          have := h2 j
          rw [show (ts', s').1 j = _ from e] at this
          exact this
        · simp only [Function.update_of_ne hj]
          exact h2 j
      · by_cases hj : j = i
        · subst hj
          simp only [Function.update_self]
          have := h3 j
          rw [show (ts', s').1 j = _ from e] at this
          exact this
        · simp only [Function.update_of_ne hj]
          exact h3 j
    | @write ts' s' i l v p e =>
      have := h2 i
      rw [show (ts', s').1 i = _ from e] at this
      exact absurd this (by simp [Quiet])

/-- Threads that only read may run concurrently, and each has the result of the method run alone. -/
theorem quiet_concurrent (s : σ) (ts : ι → Prog Λ α) (h : ∀ i, (ts i).Quiet s) : Spec.Concurrent ts s (fun i => ((ts i).run s).1) := by
  intro ts' s' hr
  obtain ⟨h1, h2, h3⟩ := quiet_reach s ts h _ hr
  refine ⟨?_, h1, fun i a e => ?_⟩
  · rintro ⟨i, j, -, l, ⟨v, q, e⟩, -⟩
    have := h2 i
    rw [show (ts', s').1 i = _ from e] at this
    exact absurd this (by simp [Quiet])
  · have := h3 i
    rw [show (ts', s').1 i = _ from e] at this
    exact congrArg Prod.fst this

end Prog

/-! ## `Interp1d::Eval` -/

section eval
variable {K Y : Type} [Field K] [LinearOrder K] [AddCommGroup Y] [Module K Y]

theorem Interp1d.privEvalBaseP_quiet (s : Interp1d K Y) (x : K) : (Interp1d.privEvalBaseP (Y := Y) x).Quiet s := by
  unfold Interp1d.privEvalBaseP
  repeat' first
    | exact Prog.quiet_load _ _
    | exact Prog.quiet_lift _ _
    | exact trivial
    | refine Prog.quiet_bind _ _ ?_ (fun _ => ?_)

theorem Interp1d.evalP_quiet (kind : Interp1dKind) (s : Interp1d K Y) (x : K) : (Interp1d.evalP (Y := Y) kind x).Quiet s := by
  cases kind <;> unfold Interp1d.evalP
  all_goals repeat' first
    | exact Interp1d.privEvalBaseP_quiet _ _
    | exact Prog.quiet_load _ _
    | exact Prog.quiet_lift _ _
    | exact trivial
    | refine Prog.quiet_bind _ _ ?_ (fun _ => ?_)
    | split

/-- Reading is the only access: the outcome of the program is a function of the object. -/
theorem Prog.run_lift_bind_fst {σ : Type} {Λ : Layout σ} {α β : Type} (r : Res α) (f : α → Prog Λ β) (s : σ) :
    ((Prog.lift r >>= f).run s).1 = r >>= fun a => ((f a).run s).1 := by
  cases r <;> rfl

theorem Interp1d.privEvalBaseP_run (s : Interp1d K Y) (x : K) :
    ((Interp1d.privEvalBaseP (Y := Y) x).run s).1 = Interp1d.privEvalBase s x := by
  unfold Interp1d.privEvalBaseP Interp1d.privEvalBase
  change ((Prog.lift (deref s.xcoord) >>= _).run s).1 = _
  rw [Prog.run_lift_bind_fst]
  refine congrArg _ (funext fun xs => ?_)
  rw [Prog.run_lift_bind_fst]
  refine congrArg _ (funext fun i => ?_)
  change ((Prog.lift (vAt s.a _) >>= _).run s).1 = _
  rw [Prog.run_lift_bind_fst]
  refine congrArg _ (funext fun a => ?_)
  change ((Prog.lift (vAt s.b _) >>= _).run s).1 = _
  rw [Prog.run_lift_bind_fst]
  rfl

/-- The program of accesses is `Interp1d::Eval`. -/
theorem Interp1d.evalP_run (kind : Interp1dKind) (s : Interp1d K Y) (x : K) :
    ((Interp1d.evalP (Y := Y) kind x).run s).1 = Interp1d.eval kind s x := by
  cases kind
  · change ((Prog.lift (readVar s.xmin) >>= _).run s).1 = _
    rw [Prog.run_lift_bind_fst]
    refine congrArg _ (funext fun mn => ?_)
    by_cases h : x < mn
    · rw [if_pos h, if_pos h]
      rfl
    · rw [if_neg h, if_neg h]
      change ((Prog.lift (readVar s.xmax) >>= _).run s).1 = _
      rw [Prog.run_lift_bind_fst]
      refine congrArg _ (funext fun mx => ?_)
      by_cases h' : mx < x
      · rw [if_pos h', if_pos h']
        rfl
      · rw [if_neg h', if_neg h']
        exact Interp1d.privEvalBaseP_run s x
  · exact Interp1d.privEvalBaseP_run s x
  · change ((Prog.lift (readVar s.xmin) >>= _).run s).1 = _
    rw [Prog.run_lift_bind_fst]
    refine congrArg _ (funext fun mn => ?_)
    change ((Prog.lift (readVar s.xmax) >>= _).run s).1 = _
    rw [Prog.run_lift_bind_fst]
    refine congrArg _ (funext fun mx => ?_)
    exact Interp1d.privEvalBaseP_run s _

/-- Any number of threads may evaluate one interpolator at the same time: no data race, and each gets the value of a sequential `Eval`. -/
theorem C124_eval {ι : Type} [DecidableEq ι] (kind : Interp1dKind) (s : Interp1d K Y) (x : ι → K) :
    Spec.Concurrent (fun i => Interp1d.evalP (Y := Y) kind (x i)) s (fun i => Interp1d.eval kind s (x i)) := by
  have := Prog.quiet_concurrent s (fun i => Interp1d.evalP (Y := Y) kind (x i)) (fun i => Interp1d.evalP_quiet kind s (x i))
  simpa only [Interp1d.evalP_run] using this

/-- A loaded object for which the values are not failures: (0, 1, 3) ↦ (5, 7, 1), evaluated by one thread for each rational number. -/
example : Spec.Concurrent (fun x : ℚ => Interp1d.evalP (Y := ℚ) .saturate x)
      ((Interp1d.init ⟨true⟩ (some [(0 : ℚ), 1, 3]) (some [(5 : ℚ), 7, 1])).run (Interp1d.fresh ℚ ℚ)).2
      (fun x => Interp1d.eval .saturate ((Interp1d.init ⟨true⟩ (some [(0 : ℚ), 1, 3]) (some [(5 : ℚ), 7, 1])).run (Interp1d.fresh ℚ ℚ)).2 x)
    ∧ Interp1d.eval .saturate ((Interp1d.init ⟨true⟩ (some [(0 : ℚ), 1, 3]) (some [(5 : ℚ), 7, 1])).run (Interp1d.fresh ℚ ℚ)).2 2 = .ok 4 :=
  ⟨C124_eval .saturate _ _, by decide +kernel⟩

end eval

/-! ## `Integrate1d::Get` -/

section get
variable {K : Type} [Field K] [DecidableEq K]

namespace Integrate1d

theorem run_rXmin {β : Type} (f : K → Prog (layout K) β) (s : Integrate1d K) : (rXmin >>= f).run s = (f s.m_Xmin).run s := rfl
theorem run_rXmax {β : Type} (f : K → Prog (layout K) β) (s : Integrate1d K) : (rXmax >>= f).run s = (f s.m_Xmax).run s := rfl
theorem run_rNb {β : Type} (f : Nat → Prog (layout K) β) (s : Integrate1d K) : (rNb >>= f).run s = (f s.m_NbPoints).run s := rfl
theorem run_rY {β : Type} (f : List K → Prog (layout K) β) (s : Integrate1d K) : (rY >>= f).run s = (f s.m_Y).run s := rfl
theorem run_rIntegrand {β : Type} (f : Option (K → K) → Prog (layout K) β) (s : Integrate1d K) :
    (rIntegrand >>= f).run s = (f s.m_integrand).run s := rfl
theorem run_rMethod {β : Type} (f : IntegrationMethod → Prog (layout K) β) (s : Integrate1d K) :
    (rMethod >>= f).run s = (f s.m_IntegrationMethod).run s := rfl
theorem run_rSource {β : Type} (f : IntegrationData → Prog (layout K) β) (s : Integrate1d K) :
    (rSource >>= f).run s = (f s.c_DataSource).run s := rfl
theorem run_rComputed {β : Type} (f : Bool → Prog (layout K) β) (s : Integrate1d K) : (rComputed >>= f).run s = (f s.c_Computed).run s := rfl
theorem run_rResult {β : Type} (f : K → Prog (layout K) β) (s : Integrate1d K) : (rResult >>= f).run s = (f s.c_Result).run s := rfl
theorem run_wY {β : Type} (v : List K) (f : Unit → Prog (layout K) β) (s : Integrate1d K) :
    (wY v >>= f).run s = (f ()).run { s with m_Y := v } := rfl
theorem run_wResult {β : Type} (v : K) (f : Unit → Prog (layout K) β) (s : Integrate1d K) :
    (wResult v >>= f).run s = (f ()).run { s with c_Result := v } := rfl

theorem lift_same {α β : Type} (r : Res α) (f : α → Prog (layout K) β) (g : α → Act (Integrate1d K) β) (s : Integrate1d K)
    (h : ∀ a, r = .ok a → (f a).run s = (g a).run s) : (Prog.lift r >>= f).run s = (Act.lift r >>= g).run s := by
  cases r with
  | ok a => exact h a rfl
  | throws e => rfl
  | exits c => rfl
  | aborts => rfl
  | ub => rfl
  | nonfinite => rfl

theorem sampleP_run (F : K → K) (dx : K) (n : Nat) (x : K) (s : Integrate1d K) :
    (sampleP F dx n x).run s = (.ok (), { s with m_Y := (sample F dx n (s.m_Y, x)).1 }) := by
  induction n generalizing x s with
  | zero => rfl
  | succ n ih =>
    rw [sampleP, run_rY, run_wY, ih]
    rfl

theorem sumLoopP_run (n lo : Nat) (acc : K) (s : Integrate1d K) :
    (Prog.forN n lo (fun i sum => do
      let ys ← rY
      let y ← Prog.lift (vIdx ys i)
      return sum + y) acc).run s = (MU.forN n lo (fun i sum => do
        let y ← vIdx s.m_Y i
        return sum + y) acc, s) := by
  induction n generalizing lo acc with
  | zero => rfl
  | succ n ih =>
    rw [Prog.forN, MU.forN, Prog.run_bind, run_rY]
    cases h : vIdx s.m_Y lo with
    | ok y => exact ih (lo + 1) (acc + y)
    | throws e => rfl
    | exits c => rfl
    | aborts => rfl
    | ub => rfl
    | nonfinite => rfl

theorem sumLoopP_bind {β : Type} (n lo : Nat) (acc : K) (f : K → Prog (layout K) β) (s : Integrate1d K) :
    (Prog.forN n lo (fun i sum => do
      let ys ← rY
      let y ← Prog.lift (vIdx ys i)
      return sum + y) acc >>= f).run s = (Prog.lift (MU.forN n lo (fun i sum => do
        let y ← vIdx s.m_Y i
        return sum + y) acc) >>= f).run s := by
  rw [Prog.run_bind, sumLoopP_run]
  cases MU.forN n lo (fun i sum => do
        let y ← vIdx s.m_Y i
        return sum + y) acc <;> rfl

/-- The end of `ComputeTrapz` in the sequential model. -/
def sumUpSeq (dx : K) : Act (Integrate1d K) Unit := do
  let s ← Act.get
  let sum ← Act.lift (forRange 1 (usub 32 s.m_NbPoints 1) (fun i sum => do
    let y ← vIdx s.m_Y i
    return sum + y) 0)
  let y0 ← Act.lift (vIdx s.m_Y 0)
  let yN ← Act.lift (vIdx s.m_Y (usub 64 s.m_Y.length 1))
  Act.update fun s => { s with c_Result := y0 + yN + 2 * sum }
  Act.update fun s => { s with c_Result := s.c_Result * (1 / 2 * dx) }

section hidden
attribute [local irreducible] MU.usub MU.forN MU.fdiv MU.vIdx sample

theorem sumUpP_run (dx : K) (s : Integrate1d K) : (sumUpP dx).run s = (sumUpSeq dx).run s := by
  unfold sumUpP sumUpSeq
  rw [run_rNb, sumLoopP_bind, Act.run_get_bind]
  refine lift_same _ _ _ s (fun sum _ => ?_)
  rw [run_rY]
  refine lift_same _ _ _ s (fun y0 _ => ?_)
  rw [run_rY]
  refine lift_same _ _ _ s (fun yN _ => ?_)
  rfl

theorem computeTrapz_split (s : Integrate1d K) : computeTrapz.run s
    = (Act.lift (fdiv (s.m_Xmax - s.m_Xmin) ((usub 32 s.m_NbPoints 1 : Nat) : K)) >>= fun dx =>
      if s.c_DataSource = .FUNCTION then Act.lift (deref s.m_integrand) >>= fun F => 
        (Act.update fun s => { s with m_Y := (sample F dx s.m_NbPoints ([], s.m_Xmin)).1 }) >>= fun _ => sumUpSeq dx
      else sumUpSeq dx).run s := by
  unfold computeTrapz
  rw [Act.run_get_bind]
  generalize hr : fdiv (s.m_Xmax - s.m_Xmin) ((usub 32 s.m_NbPoints 1 : Nat) : K) = r
  cases r with
  | ok dx =>
    rw [Act.run_lift_ok_bind, Act.run_lift_ok_bind]
    by_cases hs : s.c_DataSource = .FUNCTION
    · rw [if_pos hs, if_pos hs]
      cases hF : s.m_integrand <;> rfl
    · rw [if_neg hs, if_neg hs]
      rfl
  | throws e => rfl
  | exits c => rfl
  | aborts => rfl
  | ub => rfl
  | nonfinite => rfl

theorem computeTrapzP_run (s : Integrate1d K) : computeTrapzP.run s = computeTrapz.run s := by
  rw [computeTrapz_split]
  unfold computeTrapzP
  rw [run_rXmax, run_rXmin, run_rNb]
  refine lift_same _ _ _ s (fun dx _ => ?_)
  rw [run_rSource]
  by_cases hs : s.c_DataSource = .FUNCTION
  · rw [if_pos hs, if_pos hs, run_rIntegrand]
    refine lift_same _ _ _ s (fun F _ => ?_)
    rw [run_wY, run_rXmin, Prog.run_bind, sampleP_run, Act.run_update_bind]
    exact sumUpP_run dx _
  · rw [if_neg hs, if_neg hs]
    exact sumUpP_run dx s

theorem compute_trapezoidalP (s : Integrate1d K) (hm : s.m_IntegrationMethod = .TRAPEZOIDAL) : computeP.run s = compute.run s := by
  unfold computeP compute
  rw [run_rMethod, Act.run_get_bind, hm]
  show (computeTrapzP >>= _).run s = (computeTrapz >>= _).run s
  rw [Prog.run_bind, Act.run_bind, computeTrapzP_run]
  rcases computeTrapz.run s with ⟨r, s'⟩
  cases r <;> rfl

theorem computeP_run (s : Integrate1d K) : computeP.run s = compute.run s := by
  cases hm : s.m_IntegrationMethod with
  | TRAPEZOIDAL => exact compute_trapezoidalP s hm
  | NEWTON_COTES =>
    unfold computeP compute
    rw [run_rMethod, Act.run_get_bind, hm]
    rfl

/-- The program of accesses is `Integrate1d::Get`. -/
theorem getP_run (s : Integrate1d K) : getP.run s = get.run s := by
  unfold getP get
  rw [run_rComputed, Act.run_get_bind]
  cases hc : s.c_Computed with
  | true => rfl
  | false =>
    show (computeP >>= _).run s = (compute >>= _).run s
    rw [Prog.run_bind, Act.run_bind, computeP_run]
    rcases compute.run s with ⟨r, s'⟩
    cases r <;> rfl

end hidden

/-- After a `Get` that returned, the object is computed. -/
theorem get_done (s s' : Integrate1d K) (v : K) (h : get.run s = (.ok v, s')) : s'.c_Computed = true ∧ s'.c_Result = v := by
  unfold get at h
  rw [Act.run_get_bind] at h
  cases hc : s.c_Computed with
  | true =>
    rw [hc] at h
    have h1 : (Res.ok s.c_Result, s) = (Res.ok v, s') := h
    injection h1 with h1 h2
    injection h1 with h1
    subst h2
    exact ⟨hc, h1⟩
  | false =>
    rw [hc] at h
    replace h : (compute >>= fun _ => Act.get >>= fun s => pure s.c_Result : Act (Integrate1d K) K).run s = (.ok v, s') := h
    have hcomp : ∀ t, compute.run s = (.ok (), t) → t.c_Computed = true := by
      intro t ht
      unfold compute at ht
      rw [Act.run_get_bind] at ht
      cases hm : s.m_IntegrationMethod with
      | TRAPEZOIDAL =>
        rw [hm] at ht
        replace ht : (computeTrapz >>= fun _ => Act.update fun s => { s with c_Computed := true }).run s = (.ok (), t) := ht
        rw [Act.run_bind] at ht
        rcases hct : computeTrapz.run s with ⟨r, u⟩
        rw [hct] at ht
        cases r with
        | ok a => exact (congrArg (fun p => p.2.c_Computed) ht).symm
        | _ => cases congrArg Prod.fst ht
      | NEWTON_COTES =>
        rw [hm] at ht
        cases congrArg Prod.fst ht
    rw [Act.run_bind] at h
    rcases hr : compute.run s with ⟨r, u⟩
    rw [hr] at h
    cases r with
    | ok a =>
      have h1 : (Res.ok u.c_Result, u) = (Res.ok v, s') := h
      injection h1 with h1 h2
      injection h1 with h1
      subst h2
      exact ⟨hcomp _ hr, h1⟩
    | _ => cases congrArg Prod.fst h

end Integrate1d

/-- What a thread may ask an `Integrate1d`. -/
inductive Query where
  | get
  | getXmin
  | getXmax

/-- The accesses of `Get`, `GetXmin`, `GetXmax`. -/
def Query.prog : Query → Prog (Integrate1d.layout K) K
  | .get => Integrate1d.getP
  | .getXmin => Integrate1d.rXmin
  | .getXmax => Integrate1d.rXmax

/-- A `Get` made by a thread running alone is the sequential `Get`. -/
theorem C124_alone (s : Integrate1d K) : Integrate1d.getP.run s = Integrate1d.get.run s := Integrate1d.getP_run s

/-- After one completed `Get` any number of threads may query the object at the same time: no data race, and each gets the right value. -/
theorem C124_get {ι : Type} [DecidableEq ι] (s s' : Integrate1d K) (v : K) (h : Integrate1d.get.run s = (.ok v, s')) (q : ι → Query) :
    Spec.Concurrent (fun i => (q i).prog) s'
      (fun i => match q i with
        | .get => .ok v
        | .getXmin => .ok s'.m_Xmin
        | .getXmax => .ok s'.m_Xmax) := by
  obtain ⟨h1, h2⟩ := Integrate1d.get_done s s' v h
  have hq : ∀ c : Query, (c.prog (K := K)).Quiet s' := by
    intro c
    cases c with
    | get =>
      show (if s'.c_Computed = true then Integrate1d.rResult else _ : Prog (Integrate1d.layout K) K).Quiet s'
      rw [if_pos h1]
      trivial
    | getXmin => trivial
    | getXmax => trivial
  have := Prog.quiet_concurrent s' (fun i => (q i).prog (K := K)) (fun i => hq (q i))
  convert this using 2 with i
  cases q i with
  | get =>
    show _ = ((if s'.c_Computed = true then Integrate1d.rResult else _ : Prog (Integrate1d.layout K) K).run s').1
    rw [if_pos h1, ← h2]
    rfl
  | getXmin => rfl
  | getXmax => rfl

/-- A completed `Get`: the integral of `x` over [0, 2] with 3 points. -/
example : ∃ s', Integrate1d.get.run (Integrate1d.ofFunction (fun x : ℚ => x) 0 2 3) = (.ok 2, s') :=
  Act.run_exists (by decide +kernel)

/-- Three threads on this object: two ask for the integral, one for the upper bound; every schedule gives 2, 2 and 2, without a race. -/
example (s' : Integrate1d ℚ) (h : Integrate1d.get.run (Integrate1d.ofFunction (fun x : ℚ => x) 0 2 3) = (.ok 2, s')) :
    Spec.Concurrent (fun i : Fin 3 => (if i = 2 then Query.getXmax else Query.get).prog) s' (fun _ => .ok 2) := by
  have hx : s'.m_Xmax = 2 := by
    have := congrArg (fun p => p.2.m_Xmax) h
    simp only at this
    rw [← this]
    decide +kernel
  convert C124_get _ s' 2 h (fun i : Fin 3 => if i = 2 then Query.getXmax else Query.get) using 2 with i
  by_cases hi : i = 2
  · simp [hi, hx]
  · simp [hi]

/-! ### Before the first `Get` -/

/-- The method, run on `s`, becomes `q` after some reads. -/
inductive Prog.Reads {σ : Type} {Λ : Layout σ} {α : Type} (s : σ) : Prog Λ α → Prog Λ α → Prop where
  | refl (p : Prog Λ α) : Reads s p p
  | read {l : Λ.L} {k : Λ.V l → Prog Λ α} {q : Prog Λ α} (h : Reads s (k (Λ.get l s)) q) : Reads s (.read l k) q

theorem Reach.trans {σ : Type} {Λ : Layout σ} {α ι : Type} [DecidableEq ι] {c c' c'' : (ι → Prog Λ α) × σ} (h : Reach c c') (h' : Reach c' c'') :
    Reach c c'' := by
  induction h' with
  | refl => exact h
  | tail _ t ih => exact .tail ih t

theorem Prog.Reads.reach {σ : Type} {Λ : Layout σ} {α ι : Type} [DecidableEq ι] (s : σ) {p q : Prog Λ α} (h : Prog.Reads s p q) (ts : ι → Prog Λ α)
    (i : ι) (hi : ts i = p) : Reach (ts, s) (Function.update ts i q, s) := by
  induction h generalizing ts with
  | refl p =>
    subst hi
    rw [Function.update_eq_self]
    exact .refl _
  | @read l k q h ih =>
    have h1 := Reach.tail (.refl (ts, s)) (Step.read hi)
    have h2 := ih (Function.update ts i (k (Λ.get l s))) (Function.update_self ..)
    rw [Function.update_idem] at h2
    exact h1.trans h2

theorem Integrate1d.getP_first [CharZero K] (F : K → K) (xmin xmax : K) (n : Nat) (hn : 2 ≤ n) (hlt : n < 2 ^ 32) :
    ∃ q, Prog.Reads (Integrate1d.ofFunction F xmin xmax n) (Integrate1d.getP (K := K)) (.write .y ([] : List K) q) := by
  have hd : fdiv (xmax - xmin) ((usub 32 n 1 : Nat) : K) = .ok ((xmax - xmin) / ((usub 32 n 1 : Nat) : K)) := by
    apply fdiv_ok
    rw [usub_of_le (by omega) hlt]
    exact Nat.cast_ne_zero.mpr (by omega)
  apply Exists.intro
  apply Prog.Reads.read
  apply Prog.Reads.read
  apply Prog.Reads.read
  apply Prog.Reads.read
  apply Prog.Reads.read
  show Prog.Reads _ (((Prog.lift (fdiv (xmax - xmin) ((usub 32 n 1 : Nat) : K)) >>= _).bind _).bind _) _
  rw [hd]
  exact .read (.read (.refl _))

/-- Two threads that call `Get` on an object nobody has called `Get` on yet: the schedule in which both reach the first assignment is a data race. -/
theorem C124_first_get_races [CharZero K] (F : K → K) (xmin xmax : K) (n : Nat) (hn : 2 ≤ n) (hlt : n < 2 ^ 32) :
    ∃ ts' s', Reach ((fun _ : Bool => Integrate1d.getP), Integrate1d.ofFunction F xmin xmax n) (ts', s') ∧ Race ts' := by
  obtain ⟨q, hq⟩ := Integrate1d.getP_first F xmin xmax n hn hlt
  have h1 := hq.reach _ (fun _ : Bool => Integrate1d.getP) true rfl
  have h2 := hq.reach _ (Function.update (fun _ : Bool => Integrate1d.getP) true (.write .y ([] : List K) q)) false rfl
  refine ⟨_, _, h1.trans h2, true, false, by simp, .y, ⟨[], q, ?_⟩, .inr ⟨[], q, ?_⟩⟩
  · simp [Function.update]
  · simp [Function.update]

example : ∃ ts' s', Reach ((fun _ : Bool => Integrate1d.getP), Integrate1d.ofFunction (fun x : ℚ => x * x) 0 1 11) (ts', s') ∧ Race ts' :=
  C124_first_get_races _ _ _ _ (by decide) (by decide)

end get
end MU
