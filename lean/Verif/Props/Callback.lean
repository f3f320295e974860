import Verif.Model.Callback
import Verif.Lemmas.Chebyshev
import Verif.Props.Integration1d

set_option linter.unusedSectionVars false

/-! C122: functions of the user that throw, or whose value depends on the earlier calls. -/

namespace MU
open Spec Finset

namespace Spec

variable {K : Type} [Field K]

/-- The calls on the points `xs`, made in this order after the calls on `tr`, return the values `ys`. -/
inductive Returned (F : Callback K) : List K → List K → List K → Prop where
  | nil (tr : List K) : Returned F tr [] []
  | cons {tr xs ys : List K} {x y : K} (h : F tr x = .ok y) (t : Returned F (tr ++ [x]) xs ys) : Returned F tr (x :: xs) (y :: ys)

/-- The `n` equally spaced points of `[a, b]`. -/
def points (a b : K) (n : Nat) : List K := (List.range n).map (point a b n)

/-- The trapezoidal rule for the values `ys` at the `n` points of `[a, b]`. -/
def trapezoids (a b : K) (n : Nat) (ys : List K) : K := panels (n - 1) (point a b n) (fun i => ys.getD i 0)

/-- A function without state that may fail at times: a call that returns gives `f x`. -/
def SometimesFails (F : Callback K) (f : K → K) : Prop := ∀ tr x y, F tr x = .ok y → y = f x

theorem Returned.len {F : Callback K} {tr xs ys : List K} (h : Returned F tr xs ys) : ys.length = xs.length := by
  induction h with
  | nil => rfl
  | cons _ _ ih => simp [ih]

theorem Returned.map_eq {F : Callback K} {f : K → K} (hF : SometimesFails F f) {tr xs ys : List K} (h : Returned F tr xs ys) : ys = xs.map f := by
  induction h with
  | nil => rfl
  | cons hy _ ih => rw [List.map_cons, ih, hF _ _ _ hy]

end Spec

namespace IntC

variable {K : Type} [Field K] [CharZero K] [DecidableEq K]

theorem run_bind_fail {σ α β : Type} {m : Act σ α} {f : α → Act σ β} {s s' : σ} {r : Res α} (h : m.run s = (r, s')) (hr : r.isOk = false) :
    ∃ r' : Res β, (m >>= f).run s = (r', s') ∧ Res.SameFailure r r' := by
  rw [Act.run_bind, h]
  cases r <;> simp_all [Res.isOk, Res.SameFailure]

theorem sameFailure_trans {α β γ : Type} {a : Res α} {b : Res β} {c : Res γ} (h : Res.SameFailure a b) (h' : Res.SameFailure b c) :
    Res.SameFailure a c := by
  cases a <;> cases b <;> simp [Res.SameFailure] at h <;> cases c <;> simp [Res.SameFailure] at h' ⊢ <;> simp_all

theorem sameFailure_fails {α β : Type} {a : Res α} {b : Res β} (h : Res.SameFailure a b) : b.isOk = false := by
  cases a <;> cases b <;> simp_all [Res.SameFailure, Res.isOk]

/-- The points of the sampling loop. -/
def from_ (x dx : K) (n : Nat) : List K := (List.range n).map (fun i : Nat => x + i * dx)

theorem from_succ (x dx : K) (n : Nat) : from_ x dx (n + 1) = x :: from_ (x + dx) dx n := by
  have e : (List.range n).map (fun i : Nat => x + dx + i * dx) = (List.range n).map ((fun i : Nat => x + i * dx) ∘ Nat.succ) := by
    refine List.map_congr_left (fun i _ => ?_)
    simp only [Function.comp, Nat.cast_succ]
    ring
  rw [from_, List.range_succ_eq_map, from_, e]
  simp

/-- The sampling loop returns with all the values, or fails as one of the calls does. -/
theorem sample_run (dx : K) (n : Nat) : ∀ (x : K) (s : IntC K),
    (∃ ys, Returned s.m_integrand s.calls (from_ x dx n) ys ∧
      (sample dx n x).run s = (.ok (), { s with m_Y := s.m_Y ++ ys, calls := s.calls ++ from_ x dx n })) ∨
    (∃ k ys r r' Y, k < n ∧ Returned s.m_integrand s.calls ((from_ x dx n).take k) ys ∧
      s.m_integrand (s.calls ++ (from_ x dx n).take k) (x + k * dx) = r ∧ Res.SameFailure r r' ∧
      (sample dx n x).run s = (r', { s with m_Y := Y, calls := s.calls ++ (from_ x dx n).take (k + 1) })) := by
  induction n with
  | zero =>
    intro x s
    refine .inl ⟨[], .nil _, ?_⟩
    simp [sample, from_]
  | succ n ih =>
    intro x s
    rw [from_succ]
    by_cases hok : ∃ y, s.m_integrand s.calls x = .ok y
    · obtain ⟨y, hr⟩ := hok
      have h1 : (call x).run s = (.ok y, { s with calls := s.calls ++ [x] }) := by
        rw [← hr]
        rfl
      have h2 : (sample dx (n + 1) x).run s = (sample dx n (x + dx)).run { s with calls := s.calls ++ [x], m_Y := s.m_Y ++ [y] } := by
        rw [sample, Act.run_bind_ok h1, Act.run_update_bind]
      rcases ih (x + dx) { s with calls := s.calls ++ [x], m_Y := s.m_Y ++ [y] } with ⟨ys, h3, h4⟩ | ⟨k, ys, r, r', Y, hk, h3, h4, h5, h6⟩
      · exact .inl ⟨y :: ys, .cons hr h3, by rw [h2, h4]; simp⟩
      · refine .inr ⟨k + 1, y :: ys, r, r', Y, by omega, .cons hr h3, ?_, h5, ?_⟩
        · rw [← h4]
          simp only [List.take_succ_cons, List.append_assoc, List.singleton_append]
          congr 1
          push_cast
          ring
        · rw [h2, h6]
          simp
    · have hf : (s.m_integrand s.calls x).isOk = false := by
        cases hr : s.m_integrand s.calls x with
        | ok y => exact absurd ⟨y, hr⟩ hok
        | _ => rfl
      have h1 : (call x).run s = (s.m_integrand s.calls x, { s with calls := s.calls ++ [x] }) := rfl
      obtain ⟨r', h2, h3⟩ := run_bind_fail (f := fun y => do
        Act.update fun s => { s with m_Y := s.m_Y ++ [y] }
        sample dx n (x + dx)) h1 hf
      exact .inr ⟨0, [], _, r', s.m_Y, by omega, .nil _, rfl, by simpa using h3, by rw [sample, h2]; simp⟩

/-- The end of the computation. -/
theorem sumUp_run {s : IntC K} {m : Nat} (hnb : s.m_NbPoints = m + 2) (h32 : m + 2 < 2 ^ 32) (hl : s.m_Y.length = m + 2) (dx : K) :
    (sumUp dx).run s =
      (.ok (), { s with c_Result := (s.m_Y.getD 0 0 + s.m_Y.getD (m + 1) 0 + 2 * ∑ i ∈ Ico 1 (m + 1), s.m_Y.getD i 0) * (1 / 2 * dx) }) := by
  have hloop : forRange 1 (usub 32 s.m_NbPoints 1) (fun i sum => do
        let y ← vIdx s.m_Y i
        return sum + y) 0 = .ok (0 + ∑ i ∈ Ico 1 (m + 1), s.m_Y.getD i 0) := by
    rw [hnb, usub_of_le (by omega) h32, show m + 2 - 1 = m + 1 by omega]
    exact sum_loop (by omega) (fun i => s.m_Y.getD i 0) (fun i _ hi acc => by rw [vIdx_getD (by omega)]; rfl) 0
  have h0 : vIdx s.m_Y 0 = .ok (s.m_Y.getD 0 0) := vIdx_getD (by omega)
  have hN : vIdx s.m_Y (usub 64 s.m_Y.length 1) = .ok (s.m_Y.getD (m + 1) 0) := by
    rw [hl, usub_of_le (by omega) (by omega : m + 2 < 2 ^ 64), show m + 2 - 1 = m + 1 by omega]
    exact vIdx_getD (by omega)
  rw [sumUp, Act.run_get_bind, hloop, Act.run_lift_ok_bind, h0, Act.run_lift_ok_bind, hN, Act.run_lift_ok_bind, Act.run_update_bind, Act.run_update,
    zero_add]

theorem from_points (a b : K) (m : Nat) : from_ a ((b - a) / ((m : K) + 1)) (m + 2) = points a b (m + 2) := by
  unfold from_ points
  refine List.map_congr_left (fun i _ => ?_)
  have e : ((m + 2 : Nat) : K) - 1 = (m : K) + 1 := by
    push_cast
    ring
  simp only [point, e]

/-- One computation by the trapezoidal rule. -/
theorem computeTrapz_run {s : IntC K} (h2 : 2 ≤ s.m_NbPoints) (h32 : s.m_NbPoints < 2 ^ 32) :
    (∃ ys, Returned s.m_integrand s.calls (points s.m_Xmin s.m_Xmax s.m_NbPoints) ys ∧
      computeTrapz.run s = (.ok (), { s with
        m_Y := ys, c_Result := trapezoids s.m_Xmin s.m_Xmax s.m_NbPoints ys, calls := s.calls ++ points s.m_Xmin s.m_Xmax s.m_NbPoints })) ∨
    (∃ k ys r r' Y, k < s.m_NbPoints ∧ Returned s.m_integrand s.calls ((points s.m_Xmin s.m_Xmax s.m_NbPoints).take k) ys ∧
      s.m_integrand (s.calls ++ (points s.m_Xmin s.m_Xmax s.m_NbPoints).take k) (point s.m_Xmin s.m_Xmax s.m_NbPoints k) = r ∧ Res.SameFailure r r' ∧
      computeTrapz.run s = (r', { s with m_Y := Y, calls := s.calls ++ (points s.m_Xmin s.m_Xmax s.m_NbPoints).take (k + 1) })) := by
  obtain ⟨m, hm⟩ : ∃ m, s.m_NbPoints = m + 2 := ⟨s.m_NbPoints - 2, by omega⟩
  have hd : ((usub 32 (m + 2) 1 : Nat) : K) = (m : K) + 1 := by
    rw [usub_of_le (by omega) (by omega), show m + 2 - 1 = m + 1 by omega]
    push_cast
    ring
  have hd0 : (m : K) + 1 ≠ 0 := by exact_mod_cast Nat.succ_ne_zero m
  set dx := (s.m_Xmax - s.m_Xmin) / ((m : K) + 1) with hdx
  have hdiv : fdiv (s.m_Xmax - s.m_Xmin) ((usub 32 s.m_NbPoints 1 : Nat) : K) = .ok dx := by rw [hm, hd, fdiv_ok hd0]
  have start : computeTrapz.run s = ((do sample dx s.m_NbPoints s.m_Xmin; sumUp dx : Act (IntC K) Unit)).run { s with m_Y := [] } := by
    unfold computeTrapz
    rw [Act.run_get_bind, hdiv, Act.run_lift_ok_bind, Act.run_update_bind]
  have hp : from_ s.m_Xmin dx s.m_NbPoints = points s.m_Xmin s.m_Xmax s.m_NbPoints := by rw [hm, hdx, from_points]
  have hpt : ∀ i : Nat, point s.m_Xmin s.m_Xmax s.m_NbPoints i = s.m_Xmin + i * dx := fun i => by
    rw [point, hm, hdx]
    push_cast
    rw [show (m : K) + 2 - 1 = m + 1 by ring]
  rcases sample_run dx s.m_NbPoints s.m_Xmin { s with m_Y := [] } with ⟨ys, h3, h4⟩ | ⟨k, ys, r, r', Y, hk, h3, h4, h5, h6⟩
  · rw [hp] at h3 h4
    refine .inl ⟨ys, h3, ?_⟩
    rw [start, Act.run_bind_ok h4]
    have hl : ys.length = m + 2 := by rw [h3.len, points, List.length_map, List.length_range, hm]
    refine (sumUp_run (s := { s with m_Y := [] ++ ys, calls := s.calls ++ points s.m_Xmin s.m_Xmax s.m_NbPoints }) (m := m) hm (by omega)
      (by simpa using hl) dx).trans ?_
    have hv : trapezoids s.m_Xmin s.m_Xmax s.m_NbPoints ys = (ys.getD 0 0 + ys.getD (m + 1) 0 + 2 * ∑ i ∈ Ico 1 (m + 1), ys.getD i 0) * (1 / 2 * dx) := by
      rw [trapezoids, show s.m_NbPoints - 1 = m + 1 by omega, panels_uniform m _ _ dx (fun i _ => by rw [hpt, hpt]; push_cast; ring)]
      have two : (2 : K) ≠ 0 := two_ne_zero
      field_simp
      ring
    rw [hv]
    simp
  · rw [hp] at h3 h4 h6
    rw [← hpt k] at h4
    obtain ⟨r'', h7, h8⟩ := run_bind_fail (f := fun _ => sumUp dx) h6 (sameFailure_fails h5)
    exact .inr ⟨k, ys, r, r'', Y, hk, h3, h4, sameFailure_trans h5 h8, by rw [start, h7]⟩

/-- What is known of an object: the settings, and where the cached result comes from. -/
structure Inv (F : Callback K) (n : Nat) (t : Settings K) (s : IntC K) : Prop where
  integrand : s.m_integrand = F
  xmin : s.m_Xmin = t.xmin
  xmax : s.m_Xmax = t.xmax
  nb : s.m_NbPoints = n
  method : s.m_IntegrationMethod = t.method
  cache : s.c_Computed = true → ∃ tr ys, s.calls = tr ++ points t.xmin t.xmax n ∧ Returned F tr (points t.xmin t.xmax n) ys ∧
    s.c_Result = trapezoids t.xmin t.xmax n ys

theorem new_inv (F : Callback K) (a b : K) (n : Nat) : Inv F n ⟨a, b, .TRAPEZOIDAL⟩ (new F a b n) :=
  ⟨rfl, rfl, rfl, rfl, rfl, fun h => by simp [new] at h⟩

theorem compute_trapezoidal {s : IntC K} (h : s.m_IntegrationMethod = .TRAPEZOIDAL) :
    compute.run s = (computeTrapz >>= fun _ => Act.update fun s : IntC K => { s with c_Computed := true }).run s := by
  unfold compute
  rw [Act.run_get_bind, h]

theorem compute_newton {s : IntC K} (h : s.m_IntegrationMethod = .NEWTON_COTES) :
    compute.run s = (computeNewtonCotes >>= fun _ => Act.update fun s : IntC K => { s with c_Computed := true }).run s := by
  unfold compute
  rw [Act.run_get_bind, h]

theorem get_of_compute {s s' : IntC K} (h : s.c_Computed ≠ true) (hc : compute.run s = (.ok (), s')) : get.run s = (.ok s'.c_Result, s') := by
  unfold get
  rw [Act.run_get_bind, if_neg h, Act.run_bind_ok hc]
  rfl

/-- What a `Get` does. -/
theorem get_run {F : Callback K} {n : Nat} {t : Settings K} {s : IntC K} (h2 : 2 ≤ n) (h32 : n < 2 ^ 32) (h : Inv F n t s) :
    (s.c_Computed = true ∧ get.run s = (.ok s.c_Result, s)) ∨
    (s.c_Computed = false ∧ t.method = .NEWTON_COTES ∧ get.run s = (.throws .runtimeError, s)) ∨
    (s.c_Computed = false ∧ t.method = .TRAPEZOIDAL ∧
      ((∃ ys s', Returned F s.calls (points t.xmin t.xmax n) ys ∧ get.run s = (.ok (trapezoids t.xmin t.xmax n ys), s') ∧
        s'.c_Computed = true ∧ s'.calls = s.calls ++ points t.xmin t.xmax n ∧ Inv F n t s') ∨
      (∃ k ys r r' s', k < n ∧ Returned F s.calls ((points t.xmin t.xmax n).take k) ys ∧
        F (s.calls ++ (points t.xmin t.xmax n).take k) (point t.xmin t.xmax n k) = r ∧ Res.SameFailure r r' ∧ get.run s = (r', s') ∧
        s'.c_Computed = false ∧ s'.calls = s.calls ++ (points t.xmin t.xmax n).take (k + 1) ∧ Inv F n t s'))) := by
  obtain ⟨a, b, me⟩ := t
  obtain ⟨rfl, rfl, rfl, rfl, rfl, hc⟩ := h
  cases hcomp : s.c_Computed with
  | true =>
    left
    refine ⟨rfl, ?_⟩
    unfold get
    rw [Act.run_get_bind, if_pos hcomp]
    rfl
  | false =>
    right
    cases hmt : s.m_IntegrationMethod with
    | NEWTON_COTES =>
      left
      refine ⟨rfl, rfl, ?_⟩
      have h1 : compute.run s = (.throws .runtimeError, s) := by
        rw [compute_newton hmt]
        rfl
      unfold get
      rw [Act.run_get_bind, if_neg (by simp [hcomp]), Act.run_bind, h1]
    | TRAPEZOIDAL =>
      right
      refine ⟨rfl, rfl, ?_⟩
      have hrun := computeTrapz_run h2 h32
      rcases hrun with ⟨ys, h3, h4⟩ | ⟨k, ys, r, r', Y, hk, h3, h4, h5, h6⟩
      · left
        have h1 : compute.run s = (.ok (), { s with m_Y := ys, c_Result := trapezoids s.m_Xmin s.m_Xmax s.m_NbPoints ys, calls := s.calls ++ points s.m_Xmin s.m_Xmax s.m_NbPoints, c_Computed := true }) := by
          rw [compute_trapezoidal hmt, Act.run_bind_ok h4]
          simp
        have hget := get_of_compute (by simp [hcomp]) h1
        exact ⟨ys, _, h3, hget, rfl, rfl, ⟨rfl, rfl, rfl, rfl, hmt, fun _ => ⟨s.calls, ys, rfl, h3, rfl⟩⟩⟩
      · right
        obtain ⟨r1, h7, h8⟩ := run_bind_fail (f := fun _ => Act.update fun s : IntC K => { s with c_Computed := true }) h6 (sameFailure_fails h5)
        have h1 : compute.run s = (r1, { s with m_Y := Y, calls := s.calls ++ (points s.m_Xmin s.m_Xmax s.m_NbPoints).take (k + 1) }) := by
          rw [compute_trapezoidal hmt]
          exact h7
        obtain ⟨r2, h9, h10⟩ := run_bind_fail (f := fun _ => (do
          let s ← Act.get
          return s.c_Result : Act (IntC K) K)) h1 (sameFailure_fails h8)
        have hget : get.run s = (r2, { s with m_Y := Y, calls := s.calls ++ (points s.m_Xmin s.m_Xmax s.m_NbPoints).take (k + 1) }) := by
          unfold get
          rw [Act.run_get_bind, if_neg (by simp [hcomp])]
          exact h9
        exact ⟨k, ys, r, r2, _, hk, h3, h4, sameFailure_trans h5 (sameFailure_trans h8 h10), hget, hcomp, rfl,
          ⟨rfl, rfl, rfl, rfl, hmt, fun h => by simp [hcomp] at h⟩⟩

theorem exec_inv {F : Callback K} {n : Nat} {t : Settings K} {s : IntC K} (h2 : 2 ≤ n) (h32 : n < 2 ^ 32) (h : Inv F n t s) (op : Integrate1d.Op K) :
    Inv F n (t.next op) ((exec op).run s).2 := by
  cases op with
  | setMethod m => exact ⟨h.1, h.2, h.3, h.4, rfl, h.6⟩
  | setXmin x => exact ⟨h.1, rfl, h.3, h.4, h.5, fun h => absurd h (by simp [exec, setXmin])⟩
  | setXmax x => exact ⟨h.1, h.2, rfl, h.4, h.5, fun h => absurd h (by simp [exec, setXmax])⟩
  | get =>
    have e : ((exec .get).run s).2 = (get.run s).2 := by
      unfold exec
      rw [Act.run_bind]
      rcases hg : get.run s with ⟨r, s'⟩
      cases r <;> rfl
    rw [e]
    rcases get_run h2 h32 h with ⟨_, hg⟩ | ⟨_, _, hg⟩ | ⟨_, _, ⟨ys, s', _, hg, _, _, hi⟩ | ⟨k, ys, r, r', s', _, _, _, _, hg, _, _, hi⟩⟩
    · rw [hg]; exact h
    · rw [hg]; exact h
    · rw [hg]; exact hi
    · rw [hg]; exact hi

theorem after_inv {F : Callback K} {n : Nat} (h2 : 2 ≤ n) (h32 : n < 2 ^ 32) (h : List (Integrate1d.Op K)) : ∀ {t : Settings K} {s : IntC K}, Inv F n t s →
    Inv F n (t.after h) (after s h) := by
  induction h with
  | nil => intro t s hs; exact hs
  | cons op rest ih => intro t s hs; exact ih (exec_inv h2 h32 hs op)

end IntC

variable {K : Type} [Field K] [CharZero K] [DecidableEq K]

/-- C122: whatever the function of the user does (it may throw, and depend on the earlier calls) and whatever the calls before, when `Get` returns a
value it is the trapezoidal rule, for the current bounds, of the values which the function returned at the last `n` calls made to it, in order, at the
`n` points. -/
theorem C122_value (F : Callback K) {n : Nat} (h2 : 2 ≤ n) (h32 : n < 2 ^ 32) (a₀ b₀ : K) (h : List (Integrate1d.Op K)) {t : Settings K}
    (ht : (⟨a₀, b₀, .TRAPEZOIDAL⟩ : Settings K).after h = t) {v : K} {s' : IntC K} (hg : IntC.get.run (IntC.after (IntC.new F a₀ b₀ n) h) = (.ok v, s')) :
    ∃ tr ys, s'.calls = tr ++ points t.xmin t.xmax n ∧ Returned F tr (points t.xmin t.xmax n) ys ∧ v = trapezoids t.xmin t.xmax n ys := by
  subst ht
  have hi := IntC.after_inv h2 h32 h (IntC.new_inv F a₀ b₀ n)
  rcases IntC.get_run h2 h32 hi with ⟨hc, hr⟩ | ⟨_, _, hr⟩ | ⟨_, _, ⟨ys, s', hys, hr, _, hcalls, _⟩ | ⟨k, ys, r, r', s', _, _, _, hf, hr, _, _, _⟩⟩ <;>
    rw [hr] at hg <;> injection hg with h3 h4
  · injection h3 with h3
    obtain ⟨tr, ys, h5, h6, h7⟩ := hi.cache hc
    exact ⟨tr, ys, by rw [← h4]; exact h5, h6, by rw [← h3]; exact h7⟩
  · cases h3
  · injection h3 with h3
    exact ⟨_, ys, by rw [← h4]; exact hcalls, hys, h3.symm⟩
  · have := IntC.sameFailure_fails hf
    rw [h3] at this
    cases this

/-- C122: when `Get` fails, it is because the call to the function at one of the points failed, in the same way, after the calls at the points
before it returned; the next `Get` starts again at the first point. -/
theorem C122_failure (F : Callback K) {n : Nat} (h2 : 2 ≤ n) (h32 : n < 2 ^ 32) (a₀ b₀ : K) (h : List (Integrate1d.Op K)) {t : Settings K}
    (ht : (⟨a₀, b₀, .TRAPEZOIDAL⟩ : Settings K).after h = t) (hm : t.method = .TRAPEZOIDAL) {r : Res K} {s s' : IntC K}
    (hs : IntC.after (IntC.new F a₀ b₀ n) h = s) (hg : IntC.get.run s = (r, s')) (hr : r.isOk = false) :
    ∃ k ys, k < n ∧ Returned F s.calls ((points t.xmin t.xmax n).take k) ys ∧
      Res.SameFailure (F (s.calls ++ (points t.xmin t.xmax n).take k) (point t.xmin t.xmax n k)) r ∧
      s'.calls = s.calls ++ (points t.xmin t.xmax n).take (k + 1) ∧
      ∃ l, 1 ≤ l ∧ (IntC.get.run s').2.calls = s'.calls ++ (points t.xmin t.xmax n).take l := by
  subst ht hs
  have hi := IntC.after_inv h2 h32 h (IntC.new_inv F a₀ b₀ n)
  rcases IntC.get_run h2 h32 hi with ⟨hc, hr'⟩ | ⟨_, hm', hr'⟩ | ⟨_, _, ⟨ys, s', hys, hr', _, hcalls, _⟩ | ⟨k, ys, r, r', s', hk, hys, hF, hf, hr', hc, hcalls, hi'⟩⟩ <;>
    rw [hr'] at hg <;> injection hg with h3 h4
  · rw [← h3] at hr; cases hr
  · rw [hm] at hm'; cases hm'
  · rw [← h3] at hr; cases hr
  · subst h3 h4
    refine ⟨k, ys, hk, hys, by rw [hF]; exact hf, hcalls, ?_⟩
    rcases IntC.get_run h2 h32 hi' with ⟨hc', _⟩ | ⟨_, hm', _⟩ | ⟨_, _, ⟨ys, s', hys, hr', _, hcalls, _⟩ | ⟨k, ys, r, r', s', hk, hys, hF, hf, hr', hc, hcalls, hi'⟩⟩
    · rw [hc] at hc'; cases hc'
    · rw [hm] at hm'; cases hm'
    · rw [hr']
      exact ⟨n, by omega, by rw [hcalls, List.take_of_length_le (by simp [points])]⟩
    · rw [hr']
      exact ⟨k + 1, by omega, hcalls⟩

/-- C122: for a function `f` without state which may throw at any of the calls, in any pattern, every value returned by `Get` is the trapezoidal
rule of `f` for the current bounds. -/
theorem C122_retry {F : Callback K} {f : K → K} (hF : SometimesFails F f) {n : Nat} (h2 : 2 ≤ n) (h32 : n < 2 ^ 32) (a₀ b₀ : K) (h : List (Integrate1d.Op K))
    {t : Settings K} (ht : (⟨a₀, b₀, .TRAPEZOIDAL⟩ : Settings K).after h = t) {v : K} {s' : IntC K}
    (hg : IntC.get.run (IntC.after (IntC.new F a₀ b₀ n) h) = (.ok v, s')) :
    v = panels (n - 1) (point t.xmin t.xmax n) (fun i => f (point t.xmin t.xmax n i)) := by
  obtain ⟨tr, ys, _, h3, h4⟩ := C122_value F h2 h32 a₀ b₀ h ht hg
  rw [h4, trapezoids, h3.map_eq hF]
  refine panels_congr (fun _ _ => rfl) (fun i hi => ?_)
  have hi : i < n := by omega
  simp [points, List.getElem?_range hi]

/-- C122: after a `Get` that returned, as long as no bound is set, `Get` returns the same value without calling the function. -/
theorem C122_cached {F : Callback K} {n : Nat} (h2 : 2 ≤ n) (h32 : n < 2 ^ 32) (a₀ b₀ : K) (h : List (Integrate1d.Op K)) {v : K} {s' : IntC K}
    (hg : IntC.get.run (IntC.after (IntC.new F a₀ b₀ n) h) = (.ok v, s')) (h' : List (Integrate1d.Op K)) (hb : ∀ op ∈ h', ¬ SetsBound op) :
    (IntC.get.run (IntC.after s' h')).1 = .ok v ∧ (IntC.get.run (IntC.after s' h')).2.calls = s'.calls := by
  have key : ∀ (h' : List (Integrate1d.Op K)) (s : IntC K), (∀ op ∈ h', ¬ SetsBound op) → s.c_Computed = true →
      (IntC.get.run (IntC.after s h')).1 = .ok s.c_Result ∧ (IntC.get.run (IntC.after s h')).2.calls = s.calls := by
    have cached : ∀ s : IntC K, s.c_Computed = true → IntC.get.run s = (.ok s.c_Result, s) := fun s hs => by
      unfold IntC.get
      rw [Act.run_get_bind, if_pos hs]
      rfl
    intro h'
    induction h' with
    | nil => intro s _ hs; rw [IntC.after, cached s hs]; exact ⟨rfl, rfl⟩
    | cons op rest ih =>
      intro s hb hs
      have hb' := hb op (by simp)
      cases op with
      | setMethod m => exact ih { s with m_IntegrationMethod := m } (fun o ho => hb o (by simp [ho])) hs
      | setXmin x => exact absurd trivial hb'
      | setXmax x => exact absurd trivial hb'
      | get =>
        have e : ((IntC.exec .get).run s).2 = s := by
          unfold IntC.exec
          rw [Act.run_bind_ok (cached s hs)]
          rfl
        rw [IntC.after, e]
        exact ih s (fun o ho => hb o (by simp [ho])) hs
  have hi := IntC.after_inv h2 h32 h (IntC.new_inv F a₀ b₀ n)
  rcases IntC.get_run h2 h32 hi with ⟨hc, hr⟩ | ⟨_, _, hr⟩ | ⟨_, _, ⟨ys, s', hys, hr, hc, hcalls, _⟩ | ⟨k, ys, r, r', s', _, _, _, hf, hr, _, _, _⟩⟩
  · rw [hr] at hg; injection hg with h3 h4; injection h3 with h3
    subst h3 h4
    exact key h' _ hb hc
  · rw [hr] at hg; injection hg with h3 h4; cases h3
  · have hres : ∀ {s s' : IntC K} {v : K}, IntC.get.run s = (.ok v, s') → s'.c_Result = v := by
      intro s s' v hv
      unfold IntC.get at hv
      rw [Act.run_get_bind] at hv
      by_cases hs : s.c_Computed = true
      · rw [if_pos hs] at hv
        simp at hv
        rw [← hv.2]
        exact hv.1
      · rw [if_neg hs, Act.run_bind] at hv
        split at hv <;> simp at hv
        rw [← hv.2]
        exact hv.1
    have h5 := hres hg
    rw [hr] at hg; injection hg with h3 h4
    subst h4
    rw [← h5]
    exact key h' _ hb hc
  · rw [hr] at hg; injection hg with h3 h4
    have := IntC.sameFailure_fails hf
    rw [h3] at this
    cases this

/-! ## Examples -/

/-- An integrand equal to the square, whose second call throws. -/
def flaky : Callback ℚ := fun tr x => if tr.length = 1 then .throws .runtimeError else .ok (x * x)

theorem flaky_sometimes : SometimesFails flaky (fun x => x * x) := fun tr x y h => by
  unfold flaky at h
  split at h
  · cases h
  · injection h with h
    exact h.symm

/-- The first `Get` fails at the second point, the second one returns. -/
example : (IntC.get.run (IntC.new flaky 0 2 3)).1 = .throws .runtimeError ∧
    (IntC.get.run (IntC.new flaky 0 2 3)).2.calls = [0, 1] ∧
    (IntC.get.run (IntC.after (IntC.new flaky 0 2 3) [.get])).1 = .ok 3 ∧
    (IntC.get.run (IntC.after (IntC.new flaky 0 2 3) [.get])).2.calls = [0, 1, 0, 1, 2] ∧
    (IntC.get.run (IntC.after (IntC.new flaky 0 2 3) [.get, .get, .setXmax 4, .get])).1 = .ok 24 := by
  decide +kernel

example {v : ℚ} {s' : IntC ℚ} (hg : IntC.get.run (IntC.after (IntC.new flaky 0 2 3) [.get, .setXmax 4]) = (.ok v, s')) :
    v = panels 2 (point 0 4 3) (fun i => point 0 4 3 i * point 0 4 3 i) :=
  C122_retry flaky_sometimes (by norm_num) (by norm_num) 0 2 [.get, .setXmax 4] (t := ⟨0, 4, .TRAPEZOIDAL⟩) rfl hg

/-- An integrand with a state: it counts its calls. -/
example : ∃ v s', IntC.get.run (IntC.new (fun tr _ => .ok (tr.length : ℚ)) 0 2 3) = (.ok v, s') ∧ v = 2 ∧ s'.calls = [0, 1, 2] :=
  ⟨_, _, rfl, by decide +kernel, by decide +kernel⟩

/-! ## The Chebyshev series -/

namespace CS1C

/-- When the program returns, its effect on the coefficients is the function `g`, and the other fields are unchanged. -/
def Follows (F : Callback ℝ) (m : Act CS1C Unit) (g : List ℝ → Res (List ℝ)) : Prop :=
  ∀ s s', s.m_function = F → m.run s = (.ok (), s') →
    g s.m_ai = .ok s'.m_ai ∧ s'.m_function = F ∧ s'.m_order_x = s.m_order_x ∧ s'.m_x = s.m_x

variable {F : Callback ℝ}

theorem Follows.pure_ : Follows F (pure ()) (fun l => .ok l) := fun s s' hF h => by
  rw [Act.run_pure] at h
  injection h with _ h
  subst h
  exact ⟨rfl, hF, rfl, rfl⟩

theorem Follows.seq {m₁ m₂ : Act CS1C Unit} {g₁ g₂ : List ℝ → Res (List ℝ)} (h₁ : Follows F m₁ g₁) (h₂ : Follows F m₂ g₂) :
    Follows F (m₁ >>= fun _ => m₂) (fun l => g₁ l >>= g₂) := fun s s' hF h => by
  rw [Act.run_bind] at h
  rcases h1 : m₁.run s with ⟨r, s1⟩
  rw [h1] at h
  cases r with
  | ok a =>
    obtain ⟨h3, h4, h5, h6⟩ := h₁ s s1 hF h1
    obtain ⟨h7, h8, h9, h10⟩ := h₂ s1 s' h4 h
    exact ⟨by show (g₁ s.m_ai >>= g₂) = _; rw [h3, Res.ok_bind, h7], h8, h9.trans h5, h10.trans h6⟩
  | _ => injection h with h _; cases h

theorem Follows.loopN {f : Nat → Act CS1C Unit} {g : Nat → List ℝ → Res (List ℝ)} (h : ∀ i, Follows F (f i) (g i)) (n : Nat) : ∀ lo,
    Follows F (Act.loopN n lo f) (fun l => forN n lo g l) := by
  induction n with
  | zero => intro lo; exact Follows.pure_
  | succ n ih => intro lo; exact (h lo).seq (ih (lo + 1))

theorem Follows.modify (B : Build) (i : Nat) (op : ℝ → ℝ) :
    Follows F (getA B i >>= fun a => setA B i (op a)) (fun l => eAt B l i >>= fun a => eSet B l i (op a)) := fun s s' hF h => by
  unfold getA setA at h
  rcases h1 : eAt B s.m_ai i with a | _ | _ | _ | _ | _
  · rcases h2 : eSet B s.m_ai i (op a) with l | _ | _ | _ | _ | _
    · have : s' = { s with m_ai := l } := by
        have h' : (Res.ok (), { s with m_ai := l }) = (Res.ok (), s') := by
          rw [← h]
          simp [Act.run_bind, Act.run_get_bind, h1, h2]
        injection h' with _ h'
        exact h'.symm
      subst this
      exact ⟨by simp [h1, h2], hF, rfl, rfl⟩
    all_goals simp [Act.run_bind, h1, h2] at h
  all_goals simp [Act.run_bind, h1] at h

theorem Follows.modify_then (B : Build) (i : Nat) (op : ℝ → ℝ) {m : Act CS1C Unit} {g : List ℝ → Res (List ℝ)} (h : Follows F m g) :
    Follows F (getA B i >>= fun a => setA B i (op a) >>= fun _ => m) (fun l => eAt B l i >>= fun a => eSet B l i (op a) >>= g) := by
  have h1 := (Follows.modify B i op).seq h
  have e : (getA B i >>= fun a => setA B i (op a) >>= fun _ => m) = ((getA B i >>= fun a => setA B i (op a)) >>= fun _ => m) := by
    funext s
    show (getA B i >>= fun a => setA B i (op a) >>= fun _ => m).run s = ((getA B i >>= fun a => setA B i (op a)) >>= fun _ => m).run s
    simp only [Act.run_bind]
    rcases (getA B i).run s with ⟨r, s1⟩
    cases r <;> rfl
  rw [e]
  simpa only [bind_assoc] using h1

theorem Follows.add (B : Build) {f : ℝ → ℝ} (hF : SometimesFails F f) (x : List (ℝ × ℝ)) (i r : Nat) :
    Follows F (do
      let xr ← Act.lift (vAt x r)
      let v ← call xr.2
      let a ← getA B i
      setA B i (a + v * chebT i xr.1)) (fun l => do
      let xr ← vAt x r
      let a ← eAt B l i
      eSet B l i (a + f xr.2 * chebT i xr.1)) := fun s s' hs h => by
  rcases h1 : vAt x r with xr | _ | _ | _ | _ | _
  · rw [h1, Act.run_lift_ok_bind] at h
    rcases h2 : s.m_function s.calls xr.2 with v | _ | _ | _ | _ | _
    · have hc : (call xr.2).run s = (.ok v, { s with calls := s.calls ++ [xr.2] }) := by
        rw [← h2]
        rfl
      rw [Act.run_bind_ok hc] at h
      obtain ⟨h3, h4, h5, h6⟩ := Follows.modify (F := F) B i (fun a => a + v * chebT i xr.1) { s with calls := s.calls ++ [xr.2] } s' hs h
      rw [hs] at h2
      rw [hF _ _ _ h2] at h3
      exact ⟨h3, h4, h5, h6⟩
    all_goals
      have hc : (call xr.2).run s = (s.m_function s.calls xr.2, { s with calls := s.calls ++ [xr.2] }) := rfl
      rw [Act.run_bind, hc, h2] at h
      injection h with h _
      cases h
  all_goals rw [h1] at h; simp at h

end CS1C

/-- The computation of the coefficients with a function that may throw follows the one with a function that does not. -/
theorem CS1C.computeAi_follows (B : Build) {F : Callback ℝ} {f : ℝ → ℝ} (hF : SometimesFails F f) {s s' : CS1C} (hs : s.m_function = F)
    (h : (CS1C.computeAi B).run s = (.ok (), s')) : (s.erase f).computeAi B = .ok (s'.erase f) ∧ s'.m_function = F := by
  unfold CS1C.computeAi at h
  rw [Act.run_get_bind, abscissae_ok, Act.run_lift_ok_bind] at h
  have hbody : ∀ i, CS1C.Follows F (do
      Act.loop 0 (s.m_order_x + 1) (fun r => do
        let xr ← Act.lift (vAt ((List.range (s.m_order_x + 1)).map (fun r => (chebNode s.m_order_x r, s.m_x.dom.node s.m_order_x r))) r)
        let v ← CS1C.call xr.2
        let a ← CS1C.getA B i
        CS1C.setA B i (a + v * chebT i xr.1))
      let a ← CS1C.getA B i
      CS1C.setA B i (a * (2 / ((s.m_order_x : ℝ) + 1)))
      if i = 0 then do
        let a ← CS1C.getA B i
        CS1C.setA B i (a / 2)
      else pure ()) (fun ai => do
      let ai ← forRange 0 (s.m_order_x + 1) (fun r ai => do
        let xr ← vAt ((List.range (s.m_order_x + 1)).map (fun r => (chebNode s.m_order_x r, s.m_x.dom.node s.m_order_x r))) r
        let a ← eAt B ai i
        eSet B ai i (a + f xr.2 * chebT i xr.1)) ai
      let a ← eAt B ai i
      let ai ← eSet B ai i (a * (2 / ((s.m_order_x : ℝ) + 1)))
      if i = 0 then do
        let a ← eAt B ai i
        eSet B ai i (a / 2)
      else return ai) := fun i => by
    have h1 := CS1C.Follows.loopN (fun r => CS1C.Follows.add B hF
      ((List.range (s.m_order_x + 1)).map (fun r => (chebNode s.m_order_x r, s.m_x.dom.node s.m_order_x r))) i r) (s.m_order_x + 1 - 0) 0
    refine h1.seq (CS1C.Follows.modify_then B i (fun a => a * (2 / ((s.m_order_x : ℝ) + 1))) ?_)
    by_cases h0 : i = 0
    · simp only [if_pos h0]
      exact CS1C.Follows.modify B i (fun a => a / 2)
    · simp only [if_neg h0]
      exact CS1C.Follows.pure_
  obtain ⟨h1, h2, h3, h4⟩ := CS1C.Follows.loopN hbody (s.m_order_x + 1 - 0) 0 s s' hs h
  refine ⟨?_, h2⟩
  unfold CS1.computeAi
  simp only [CS1C.erase, abscissae_ok, Res.ok_bind]
  refine (Res.bind_of_eq h1).trans ?_
  rw [h3, h4]
  rfl

/-- C123, what holds: for a function without state which may throw at any of its calls, when the first `Compute_ai` of a series returns, the
coefficients are those of the function. Missing: a `Compute_ai` after one that threw. -/
theorem C123_first_partial (B : Build) {F : Callback ℝ} {f : ℝ → ℝ} (hF : SometimesFails F f) (x : Seg ℝ) (n : Nat) {s' : CS1C}
    (h : (CS1C.computeAi B).run (CS1C.base F x n) = (.ok (), s')) : (CS1.base f x n).computeAi B = .ok (s'.erase f) :=
  (CS1C.computeAi_follows B hF rfl h).1

namespace CS1C

/-- The program returns when the function `g` does, with its effect on the coefficients, provided that the calls to the function return. -/
def Returns (F : Callback ℝ) (k : Nat) (m : Act CS1C Unit) (g : List ℝ → Res (List ℝ)) : Prop :=
  ∀ s l, s.m_function = F → k ≤ s.calls.length → g s.m_ai = .ok l →
    ∃ s', m.run s = (.ok (), s') ∧ s'.m_ai = l ∧ s'.m_function = F ∧ k ≤ s'.calls.length

variable {F : Callback ℝ} {k : Nat}

theorem Returns.pure_ : Returns F k (pure ()) (fun l => .ok l) := fun s l hF hk h => by
  injection h with h
  exact ⟨s, rfl, h, hF, hk⟩

theorem Returns.seq {m₁ m₂ : Act CS1C Unit} {g₁ g₂ : List ℝ → Res (List ℝ)} (h₁ : Returns F k m₁ g₁) (h₂ : Returns F k m₂ g₂) :
    Returns F k (m₁ >>= fun _ => m₂) (fun l => g₁ l >>= g₂) := fun s l hF hk h => by
  obtain ⟨l1, h1, h2⟩ := Res.bind_eq_ok.1 h
  obtain ⟨s1, h3, h4, h5, h6⟩ := h₁ s l1 hF hk h1
  obtain ⟨s2, h7, h8⟩ := h₂ s1 l h5 h6 (by rw [h4]; exact h2)
  exact ⟨s2, by rw [Act.run_bind_ok h3, h7], h8⟩

theorem Returns.loopN {f : Nat → Act CS1C Unit} {g : Nat → List ℝ → Res (List ℝ)} (h : ∀ i, Returns F k (f i) (g i)) (n : Nat) : ∀ lo,
    Returns F k (Act.loopN n lo f) (fun l => forN n lo g l) := by
  induction n with
  | zero => intro lo; exact Returns.pure_
  | succ n ih => intro lo; exact (h lo).seq (ih (lo + 1))

theorem Returns.modify_then (B : Build) (i : Nat) (op : ℝ → ℝ) {m : Act CS1C Unit} {g : List ℝ → Res (List ℝ)} (h : Returns F k m g) :
    Returns F k (getA B i >>= fun a => setA B i (op a) >>= fun _ => m) (fun l => eAt B l i >>= fun a => eSet B l i (op a) >>= g) := fun s l hF hk hg => by
  obtain ⟨a, h1, hg⟩ := Res.bind_eq_ok.1 hg
  obtain ⟨l1, h2, hg⟩ := Res.bind_eq_ok.1 hg
  obtain ⟨s', h3, h4⟩ := h { s with m_ai := l1 } l hF hk hg
  refine ⟨s', ?_, h4⟩
  have e1 : (getA B i).run s = (.ok a, s) := by
    unfold getA
    rw [Act.run_get_bind, h1]
    rfl
  have e2 : (setA B i (op a)).run s = (.ok (), { s with m_ai := l1 }) := by
    unfold setA
    rw [Act.run_get_bind, h2]
    rfl
  rw [Act.run_bind_ok e1, Act.run_bind_ok e2, h3]

theorem Returns.modify (B : Build) (i : Nat) (op : ℝ → ℝ) :
    Returns F k (getA B i >>= fun a => setA B i (op a)) (fun l => eAt B l i >>= fun a => eSet B l i (op a)) := fun s l hF hk hg => by
  obtain ⟨a, h1, hg⟩ := Res.bind_eq_ok.1 hg
  have e1 : (getA B i).run s = (.ok a, s) := by
    unfold getA
    rw [Act.run_get_bind, h1]
    rfl
  refine ⟨{ s with m_ai := l }, ?_, rfl, hF, hk⟩
  rw [Act.run_bind_ok e1]
  unfold setA
  rw [Act.run_get_bind, hg]
  rfl

theorem Returns.add (B : Build) {f : ℝ → ℝ} (hF : ∀ tr x, k ≤ tr.length → F tr x = .ok (f x)) (x : List (ℝ × ℝ)) (i r : Nat) :
    Returns F k (do
      let xr ← Act.lift (vAt x r)
      let v ← call xr.2
      let a ← getA B i
      setA B i (a + v * chebT i xr.1)) (fun l => do
      let xr ← vAt x r
      let a ← eAt B l i
      eSet B l i (a + f xr.2 * chebT i xr.1)) := fun s l hs hk hg => by
  obtain ⟨xr, h1, hg⟩ := Res.bind_eq_ok.1 hg
  have hc : (call xr.2).run s = (.ok (f xr.2), { s with calls := s.calls ++ [xr.2] }) := by
    rw [← hF s.calls xr.2 hk, ← hs]
    rfl
  obtain ⟨s', h2, h3⟩ := Returns.modify (F := F) (k := k) B i (fun a => a + f xr.2 * chebT i xr.1) { s with calls := s.calls ++ [xr.2] } l hs
    (by simp; omega) hg
  exact ⟨s', by rw [h1, Act.run_lift_ok_bind, Act.run_bind_ok hc, h2], h3⟩

/-- The computation returns when the calls to the function do. -/
theorem computeAi_returns (B : Build) {f : ℝ → ℝ} (hF : ∀ tr x, k ≤ tr.length → F tr x = .ok (f x)) {s : CS1C} (hs : s.m_function = F)
    (hk : k ≤ s.calls.length) {t : CS1 ℝ} (h : (s.erase f).computeAi B = .ok t) : ∃ s', (computeAi B).run s = (.ok (), s') ∧ s'.m_ai = t.m_ai := by
  have hbody : ∀ i, Returns F k (do
      Act.loop 0 (s.m_order_x + 1) (fun r => do
        let xr ← Act.lift (vAt ((List.range (s.m_order_x + 1)).map (fun r => (chebNode s.m_order_x r, s.m_x.dom.node s.m_order_x r))) r)
        let v ← CS1C.call xr.2
        let a ← CS1C.getA B i
        CS1C.setA B i (a + v * chebT i xr.1))
      let a ← CS1C.getA B i
      CS1C.setA B i (a * (2 / ((s.m_order_x : ℝ) + 1)))
      if i = 0 then do
        let a ← CS1C.getA B i
        CS1C.setA B i (a / 2)
      else pure ()) (fun ai => do
      let ai ← forRange 0 (s.m_order_x + 1) (fun r ai => do
        let xr ← vAt ((List.range (s.m_order_x + 1)).map (fun r => (chebNode s.m_order_x r, s.m_x.dom.node s.m_order_x r))) r
        let a ← eAt B ai i
        eSet B ai i (a + f xr.2 * chebT i xr.1)) ai
      let a ← eAt B ai i
      let ai ← eSet B ai i (a * (2 / ((s.m_order_x : ℝ) + 1)))
      if i = 0 then do
        let a ← eAt B ai i
        eSet B ai i (a / 2)
      else return ai) := fun i => by
    have h1 := CS1C.Returns.loopN (fun r => CS1C.Returns.add B hF
      ((List.range (s.m_order_x + 1)).map (fun r => (chebNode s.m_order_x r, s.m_x.dom.node s.m_order_x r))) i r) (s.m_order_x + 1 - 0) 0
    refine h1.seq (CS1C.Returns.modify_then B i (fun a => a * (2 / ((s.m_order_x : ℝ) + 1))) ?_)
    by_cases h0 : i = 0
    · simp only [if_pos h0]
      exact CS1C.Returns.modify B i (fun a => a / 2)
    · simp only [if_neg h0]
      exact CS1C.Returns.pure_
  unfold CS1.computeAi at h
  simp only [CS1C.erase, abscissae_ok, Res.ok_bind] at h
  obtain ⟨l, h1, h2⟩ := Res.bind_eq_ok.1 h
  injection h2 with h2
  obtain ⟨s', h3, h4, _⟩ := CS1C.Returns.loopN hbody (s.m_order_x + 1 - 0) 0 s l hs hk h1
  refine ⟨s', ?_, by rw [h4, ← h2]⟩
  unfold computeAi
  rw [Act.run_get_bind, abscissae_ok, Act.run_lift_ok_bind]
  exact h3

end CS1C

/-- C123, what holds: when none of the calls throws, the first `Compute_ai` returns. -/
theorem C123_returns_partial (B : Build) {F : Callback ℝ} {f : ℝ → ℝ} (hF : ∀ tr x, F tr x = .ok (f x)) (x : Seg ℝ) (n : Nat) :
    ∃ s', (CS1C.computeAi B).run (CS1C.base F x n) = (.ok (), s') ∧ (CS1.base f x n).computeAi B = .ok (s'.erase f) := by
  obtain ⟨t, h1, _⟩ := CS1.computeAi_ok B (CS1.fresh_holds f n x)
  obtain ⟨s', h2, _⟩ := CS1C.computeAi_returns B (k := 0) (fun tr x _ => hF tr x) (s := CS1C.base F x n) rfl (Nat.zero_le _) h1
  exact ⟨s', h2, C123_first_partial B (fun tr x y h => by rw [hF] at h; injection h with h; exact h.symm) x n h2⟩

/-- The function 1, whose second call throws. -/
def flakyOne : Callback ℝ := fun tr _ => if tr.length = 1 then .throws .runtimeError else .ok 1

theorem flakyOne_sometimes : SometimesFails flakyOne (fun _ => 1) := fun tr x y h => by
  unfold flakyOne at h
  split at h
  · cases h
  · injection h with h
    exact h.symm

/-- The square, at order 5 on [0, 2]: the first `Compute_ai` succeeds. -/
example (B : Build) : ∃ s', (CS1C.computeAi B).run (CS1C.base (fun _ x => .ok (x * x)) (.closed 0 2) 5) = (.ok (), s') := by
  obtain ⟨s', h, _⟩ := C123_returns_partial B (F := fun _ x => .ok (x * x)) (f := fun x => x * x) (fun _ _ => rfl) (.closed 0 2) 5
  exact ⟨s', h⟩

/-- C123 is false: with the function 1, of which the second call throws, the first `Compute_ai` of a series of order 1 throws, the second returns, and
the series is 3/2 everywhere. -/
theorem C123_refuted (B : Build) : ∃ s₁ s₂, (CS1C.computeAi B).run (CS1C.base flakyOne (.closed 0 1) 1) = (.throws .runtimeError, s₁) ∧
    (CS1C.computeAi B).run s₁ = (.ok (), s₂) ∧ ∀ x, (s₂.erase (fun _ => 1)).evaluate B x = .ok (3 / 2) := by
  have hrun : ∃ s₁, (CS1C.computeAi B).run (CS1C.base flakyOne (.closed 0 1) 1) = (.throws .runtimeError, s₁) ∧ s₁.m_ai = [1, 0] ∧
      s₁.calls.length = 2 ∧ s₁.m_function = flakyOne ∧ s₁.m_order_x = 1 ∧ s₁.m_x = .closed 0 1 := by
    unfold CS1C.computeAi
    rw [Act.run_get_bind, abscissae_ok, Act.run_lift_ok_bind]
    have hcall : ∀ (x : ℝ) (s : CS1C), (CS1C.call x).run s = (s.m_function s.calls x, { s with calls := s.calls ++ [x] }) := fun _ _ => rfl
    simp [CS1C.base, Act.loop, Act.loopN, Act.run_bind, hcall, CS1C.getA, CS1C.setA, flakyOne, vAt, eAt, eSet, chebT, List.range_succ]
  obtain ⟨s₁, h1, ha, hc, hf, ho, hx⟩ := hrun
  have hh : (s₁.erase (fun _ => 1)).Holds (fun _ => 1) 1 (.closed 0 1) (fun i => if i = 0 then 1 else 0) :=
    ⟨rfl, ho, hx, by simp [CS1C.erase, ha, List.range_succ]⟩
  obtain ⟨t, h2, h3⟩ := CS1.computeAi_ok B hh
  obtain ⟨s₂, h4, _⟩ := CS1C.computeAi_returns B (k := 2) (f := fun _ => 1) (F := flakyOne) (fun tr x hk => by simp [flakyOne]; omega) hf (by omega) h2
  refine ⟨s₁, s₂, h1, h4, fun x => ?_⟩
  have h5 := (CS1C.computeAi_follows B flakyOne_sometimes hf h4).1
  rw [h2] at h5
  injection h5 with h5
  rw [← h5, CS1.evaluate_ok B h3 (by simp [Seg.dom, Domain.Defined])]
  have hn : chebNode 1 1 = -chebNode 1 0 := by
    unfold chebNode
    rw [← Real.cos_pi_sub]
    congr 1
    push_cast
    ring
  norm_num [cheb1, CS1.next, chebWeight, chebT, sum_range_succ, sum_Ico_succ_top, hn]

end MU
