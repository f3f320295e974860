import Mathlib.Algebra.Order.Field.Basic
import Mathlib.Algebra.Module.Basic

/-!
# Outcomes of C++ calls

Common vocabulary of the model: what a C++ call may end with, the two build modes, element access of `std::vector`,
unsigned subtraction, counted loops.
-/

namespace MU

/-- The kinds of C++ exception thrown in the modelled code. -/
inductive Exn where
  /-- `std::out_of_range` (thrown by `at`) -/
  | outOfRange
  /-- `std::runtime_error` -/
  | runtimeError
  /-- `std::invalid_argument` -/
  | invalidArgument
  /-- `throw("...")`, an exception of type `const char*` -/
  | cstring
  /-- `std::bad_alloc`: memory is exhausted. Only the model of memory exhaustion (Model/OutOfMemory) raises it -/
  | badAlloc
  deriving DecidableEq, Repr

/-- What a C++ call ends with. -/
inductive Res (α : Type) where
  /-- normal return -/
  | ok (a : α)
  /-- a C++ exception leaves the call -/
  | throws (e : Exn)
  /-- `exit(code)` -/
  | exits (code : Int)
  /-- a failed `assert` -/
  | aborts
  /-- undefined behaviour -/
  | ub
  /-- a division by zero on floating-point numbers: inf or NaN, which the model's numbers do not contain -/
  | nonfinite
  deriving DecidableEq, Repr

namespace Res

variable {α β γ : Type}

/-- Sequencing: everything but a normal return ends the computation. -/
def bind (x : Res α) (f : α → Res β) : Res β :=
  match x with
  | ok a => f a
  | throws e => throws e
  | exits c => exits c
  | aborts => aborts
  | ub => ub
  | nonfinite => nonfinite

instance : Monad Res where
  pure := ok
  bind := Res.bind

@[simp] theorem pure_eq (a : α) : (pure a : Res α) = ok a := rfl
@[simp] theorem ok_bind (a : α) (f : α → Res β) : (ok a >>= f) = f a := rfl
@[simp] theorem throws_bind (e : Exn) (f : α → Res β) : ((throws e : Res α) >>= f) = throws e := rfl
@[simp] theorem exits_bind (c : Int) (f : α → Res β) : ((exits c : Res α) >>= f) = exits c := rfl
@[simp] theorem aborts_bind (f : α → Res β) : ((aborts : Res α) >>= f) = aborts := rfl
@[simp] theorem ub_bind (f : α → Res β) : ((ub : Res α) >>= f) = ub := rfl
@[simp] theorem nonfinite_bind (f : α → Res β) : ((nonfinite : Res α) >>= f) = nonfinite := rfl

instance : LawfulMonad Res := LawfulMonad.mk'
  (id_map := by intro α x; cases x <;> rfl)
  (pure_bind := by intros; rfl)
  (bind_assoc := by intro α β γ x f g; cases x <;> rfl)

@[simp] theorem map_ok (f : α → β) (a : α) : (f <$> (ok a : Res α)) = ok (f a) := rfl

/-- Whether the call returns normally. -/
def isOk : Res α → Bool
  | ok _ => true
  | _ => false

@[simp] theorem isOk_ok (a : α) : (ok a).isOk = true := rfl

/-- Both calls fail, and in the same way. -/
def SameFailure : Res α → Res β → Prop
  | throws e, throws e' => e = e'
  | exits c, exits c' => c = c'
  | aborts, aborts => True
  | ub, ub => True
  | nonfinite, nonfinite => True
  | _, _ => False

theorem sameFailure_bind {x : Res α} (h : x.isOk = false) (f : α → Res β) : SameFailure x (x >>= f) := by
  cases x <;> simp_all [SameFailure, isOk]

theorem bind_of_eq {x : Res α} {a : α} (h : x = ok a) {f : α → Res β} : (x >>= f) = f a := by
  rw [h, ok_bind]

theorem bind_eq_ok {x : Res α} {f : α → Res β} {b : β} :
    (x >>= f) = ok b ↔ ∃ a, x = ok a ∧ f a = ok b := by
  cases x <;> simp

end Res

/-- Build mode: `checked = true` when `assert` is active, `false` when compiled with `NDEBUG`. -/
structure Build where
  checked : Bool
  deriving DecidableEq, Repr

/-- `assert(c)`. -/
def cassert (B : Build) (c : Prop) [Decidable c] : Res Unit :=
  if B.checked = true ∧ ¬ c then .aborts else .ok ()

@[simp] theorem cassert_true (B : Build) (c : Prop) [Decidable c] (h : c) : cassert B c = .ok () := by
  simp [cassert, h]

theorem cassert_eq_ok {B : Build} {c : Prop} [Decidable c] :
    cassert B c = .ok () ↔ (B.checked = true → c) := by
  unfold cassert
  by_cases hc : c <;> cases hB : B.checked <;> simp [hc]

theorem cassert_false (c : Prop) [Decidable c] (h : ¬ c) : cassert ⟨true⟩ c = .aborts := by
  simp [cassert, h]

theorem cassert_ndebug (c : Prop) [Decidable c] : cassert ⟨false⟩ c = .ok () := by
  simp [cassert]

/-- `v.at(i)`: throws `std::out_of_range` when `i >= v.size()`. -/
def vAt {α : Type} (l : List α) (i : Nat) : Res α :=
  match l[i]? with
  | some a => .ok a
  | none => .throws .outOfRange

/-- `v[i]`: undefined behaviour when `i >= v.size()`. -/
def vIdx {α : Type} (l : List α) (i : Nat) : Res α :=
  match l[i]? with
  | some a => .ok a
  | none => .ub

/-- `*p` or `p->...` for a pointer that may be null. -/
def deref {α : Type} (p : Option α) : Res α :=
  match p with
  | some a => .ok a
  | none => .ub

/-- Reading a variable that may not have been initialised. -/
def readVar {α : Type} (p : Option α) : Res α :=
  match p with
  | some a => .ok a
  | none => .ub

section access
variable {α : Type}

theorem vAt_lt {l : List α} {i : Nat} (h : i < l.length) : vAt l i = .ok l[i] := by
  simp [vAt, List.getElem?_eq_getElem h]

theorem vAt_ge {l : List α} {i : Nat} (h : l.length ≤ i) : vAt l i = .throws .outOfRange := by
  simp [vAt, List.getElem?_eq_none h]

theorem vIdx_lt {l : List α} {i : Nat} (h : i < l.length) : vIdx l i = .ok l[i] := by
  simp [vIdx, List.getElem?_eq_getElem h]

theorem vIdx_ge {l : List α} {i : Nat} (h : l.length ≤ i) : vIdx l i = .ub := by
  simp [vIdx, List.getElem?_eq_none h]

@[simp] theorem deref_some (a : α) : deref (some a) = .ok a := rfl
@[simp] theorem deref_none : deref (none : Option α) = .ub := rfl
@[simp] theorem readVar_some (a : α) : readVar (some a) = .ok a := rfl
@[simp] theorem readVar_none : readVar (none : Option α) = .ub := rfl

end access

/-- `a - b` on an unsigned type of `w` bits (operands below `2^w`). -/
def usub (w a b : Nat) : Nat := (a + 2 ^ w - b) % 2 ^ w

theorem usub_of_le {w a b : Nat} (h : b ≤ a) (ha : a < 2 ^ w) : usub w a b = a - b := by
  unfold usub
  rw [show a + 2 ^ w - b = (a - b) + 2 ^ w by omega, Nat.add_mod_right]
  exact Nat.mod_eq_of_lt (by omega)

/-- Division of floating-point numbers. -/
def fdiv {K : Type} [Field K] [DecidableEq K] (a b : K) : Res K :=
  if b = 0 then .nonfinite else .ok (a / b)

theorem fdiv_ok {K : Type} [Field K] [DecidableEq K] {a b : K} (h : b ≠ 0) : fdiv a b = .ok (a / b) := by
  simp [fdiv, h]

/-- Division of a value of the result type (real or complex) by a floating-point number. -/
def sdiv {K Y : Type} [Field K] [DecidableEq K] [AddCommGroup Y] [Module K Y] (y : Y) (d : K) : Res Y :=
  if d = 0 then .nonfinite else .ok (d⁻¹ • y)

theorem sdiv_ok {K Y : Type} [Field K] [DecidableEq K] [AddCommGroup Y] [Module K Y] {y : Y} {d : K} (h : d ≠ 0) :
    sdiv y d = .ok (d⁻¹ • y) := by
  simp [sdiv, h]

/-- `for (i = lo; i < lo + n; ++i) s = f(i, s);` where the body may fail. -/
def forN {σ : Type} : (n lo : Nat) → (Nat → σ → Res σ) → σ → Res σ
  | 0, _, _, s => .ok s
  | n + 1, lo, f, s => f lo s >>= forN n (lo + 1) f

/-- `for (i = lo; i < hi; ++i)`. -/
def forRange {σ : Type} (lo hi : Nat) (f : Nat → σ → Res σ) (s : σ) : Res σ := forN (hi - lo) lo f s

/-- The invariant rule for counted loops: if the body takes `S i` to `S (i+1)`, the loop takes `S lo` to `S (lo+n)`. -/
theorem forN_ok {σ : Type} {n lo : Nat} {f : Nat → σ → Res σ} (S : Nat → σ)
    (h : ∀ i, lo ≤ i → i < lo + n → f i (S i) = .ok (S (i + 1))) :
    forN n lo f (S lo) = .ok (S (lo + n)) := by
  induction n generalizing lo with
  | zero => simp [forN]
  | succ n ih =>
    rw [forN, h lo (le_refl _) (by omega), Res.ok_bind, ih (fun i h1 h2 => h i (by omega) (by omega))]
    congr 2; omega

theorem forRange_ok {σ : Type} {lo hi : Nat} (hle : lo ≤ hi) {f : Nat → σ → Res σ} (S : Nat → σ)
    (h : ∀ i, lo ≤ i → i < hi → f i (S i) = .ok (S (i + 1))) :
    forRange lo hi f (S lo) = .ok (S hi) := by
  have := forN_ok (n := hi - lo) (lo := lo) S (f := f) (fun i h1 h2 => h i h1 (by omega))
  rw [show lo + (hi - lo) = hi by omega] at this
  exact this

/-- A method of an object with fields `σ`: it returns an outcome and the fields as they are then. When the method throws
half-way the returned fields are the half-updated ones. -/
def Act (σ : Type) (α : Type) := σ → Res α × σ

namespace Act
variable {σ α β : Type}

def run (m : Act σ α) (s : σ) : Res α × σ := m s

def bind (m : Act σ α) (f : α → Act σ β) : Act σ β := fun s =>
  match m s with
  | (.ok a, s') => f a s'
  | (.throws e, s') => (.throws e, s')
  | (.exits c, s') => (.exits c, s')
  | (.aborts, s') => (.aborts, s')
  | (.ub, s') => (.ub, s')
  | (.nonfinite, s') => (.nonfinite, s')

instance : Monad (Act σ) where
  pure a := fun s => (.ok a, s)
  bind := Act.bind

/-- A call that does not touch the fields. -/
def lift (x : Res α) : Act σ α := fun s => (x, s)

/-- Reading the fields. -/
def get : Act σ σ := fun s => (.ok s, s)

/-- Assigning fields. -/
def update (f : σ → σ) : Act σ Unit := fun s => (.ok (), f s)

@[simp] theorem run_pure (a : α) (s : σ) : (pure a : Act σ α).run s = (.ok a, s) := rfl
@[simp] theorem run_lift (x : Res α) (s : σ) : (lift x : Act σ α).run s = (x, s) := rfl
@[simp] theorem run_get (s : σ) : (get : Act σ σ).run s = (.ok s, s) := rfl
@[simp] theorem run_update (f : σ → σ) (s : σ) : (update f).run s = (.ok (), f s) := rfl

theorem run_bind (m : Act σ α) (f : α → Act σ β) (s : σ) :
    (m >>= f).run s = match m.run s with
      | (.ok a, s') => (f a).run s'
      | (.throws e, s') => (.throws e, s')
      | (.exits c, s') => (.exits c, s')
      | (.aborts, s') => (.aborts, s')
      | (.ub, s') => (.ub, s')
      | (.nonfinite, s') => (.nonfinite, s') := rfl

theorem run_bind_ok {m : Act σ α} {f : α → Act σ β} {s s' : σ} {a : α} (h : m.run s = (.ok a, s')) :
    (m >>= f).run s = (f a).run s' := by
  rw [run_bind, h]

section simplifications
variable (f : α → Act σ β) (s : σ)

@[simp] theorem run_lift_ok_bind (a : α) : ((lift (.ok a) : Act σ α) >>= f).run s = (f a).run s := rfl
@[simp] theorem run_lift_throws_bind (e : Exn) : ((lift (.throws e) : Act σ α) >>= f).run s = (.throws e, s) := rfl
@[simp] theorem run_lift_exits_bind (c : Int) : ((lift (.exits c) : Act σ α) >>= f).run s = (.exits c, s) := rfl
@[simp] theorem run_lift_aborts_bind : ((lift .aborts : Act σ α) >>= f).run s = (.aborts, s) := rfl
@[simp] theorem run_lift_ub_bind : ((lift .ub : Act σ α) >>= f).run s = (.ub, s) := rfl
@[simp] theorem run_lift_nonfinite_bind : ((lift .nonfinite : Act σ α) >>= f).run s = (.nonfinite, s) := rfl
@[simp] theorem run_pure_bind (a : α) : ((pure a : Act σ α) >>= f).run s = (f a).run s := rfl
@[simp] theorem run_get_bind (f : σ → Act σ β) : ((get : Act σ σ) >>= f).run s = (f s).run s := rfl
@[simp] theorem run_update_bind (g : σ → σ) (f : Unit → Act σ β) : (update g >>= f).run s = (f ()).run (g s) := rfl

theorem run_exists {m : Act σ α} {s : σ} {r : Res α} (h : (m.run s).1 = r) : ∃ s', m.run s = (r, s') :=
  ⟨(m.run s).2, by rw [← h]⟩

end simplifications

/-- `for (i = lo; i < lo + n; ++i) body(i)` as a loop on the object's fields. -/
def loopN : (n lo : Nat) → (Nat → Act σ Unit) → Act σ Unit
  | 0, _, _ => pure ()
  | n + 1, lo, f => f lo >>= fun _ => loopN n (lo + 1) f

/-- `for (i = lo; i < hi; ++i) body(i)`. -/
def loop (lo hi : Nat) (f : Nat → Act σ Unit) : Act σ Unit := loopN (hi - lo) lo f

theorem loopN_ok {n lo : Nat} {f : Nat → Act σ Unit} (S : Nat → σ)
    (h : ∀ i, lo ≤ i → i < lo + n → (f i).run (S i) = (.ok (), S (i + 1))) :
    (loopN n lo f).run (S lo) = (.ok (), S (lo + n)) := by
  induction n generalizing lo with
  | zero => simp [loopN]
  | succ n ih =>
    rw [loopN, run_bind_ok (h lo (le_refl _) (by omega)), ih (fun i h1 h2 => h i (by omega) (by omega))]
    congr 2; omega

theorem loop_ok {lo hi : Nat} (hle : lo ≤ hi) {f : Nat → Act σ Unit} (S : Nat → σ)
    (h : ∀ i, lo ≤ i → i < hi → (f i).run (S i) = (.ok (), S (i + 1))) :
    (loop lo hi f).run (S lo) = (.ok (), S hi) := by
  have := loopN_ok (n := hi - lo) (lo := lo) S (f := f) (fun i h1 h2 => h i h1 (by omega))
  rw [show lo + (hi - lo) = hi by omega] at this
  exact this

end Act

/-- Whether all elements after the first one not below `v` are not below `v` either: the precondition of
`std::lower_bound`. -/
def partitionedLT {K : Type} [LinearOrder K] (l : List K) (v : K) : Bool :=
  (l.dropWhile (fun a => decide (a < v))).all (fun a => decide (¬ a < v))

/-- `std::distance(l.begin(), std::lower_bound(l.begin(), l.end(), v))`: the number of leading elements below `v`.
Undefined when the range is not partitioned with respect to `v`. -/
def lowerBound {K : Type} [LinearOrder K] (l : List K) (v : K) : Res Nat :=
  if partitionedLT l v then .ok (l.takeWhile (fun a => decide (a < v))).length else .ub

/-- The precondition of `std::upper_bound`. -/
def partitionedLE {K : Type} [LinearOrder K] (l : List K) (v : K) : Bool :=
  (l.dropWhile (fun a => decide (a ≤ v))).all (fun a => decide (¬ a ≤ v))

/-- `std::distance(l.begin(), std::upper_bound(l.begin(), l.end(), v))`: the number of leading elements not above `v`.
Undefined when the range is not partitioned with respect to `v`. -/
def upperBound {K : Type} [LinearOrder K] (l : List K) (v : K) : Res Nat :=
  if partitionedLE l v then .ok (l.takeWhile (fun a => decide (a ≤ v))).length else .ub

end MU
