import Verif.Spec.Integration1d
import Verif.Lemmas.Loops
import Mathlib.Tactic.Ring
import Mathlib.Tactic.FieldSimp
import Mathlib.Algebra.CharZero.Defs

set_option linter.unusedSectionVars false

/-!
# What the trapezoidal rules compute
-/

namespace MU
open Spec Finset

variable {K : Type} [Field K]

theorem panels_succ (n : Nat) (x y : Nat → K) : panels (n + 1) x y = panels n x y + (x (n + 1) - x n) * (y n + y (n + 1)) / 2 := by
  rw [panels, sum_range_succ, ← panels]

theorem panels_congr {n : Nat} {x x' y y' : Nat → K} (hx : ∀ i, i ≤ n → x i = x' i) (hy : ∀ i, i ≤ n → y i = y' i) :
    panels n x y = panels n x' y' := by
  refine sum_congr rfl (fun i hi => ?_)
  have := mem_range.mp hi
  rw [hx i (by omega), hx (i + 1) (by omega), hy i (by omega), hy (i + 1) (by omega)]

variable [NeZero (2 : K)]

theorem panels_uniform (n : Nat) (x y : Nat → K) (dx : K) (h : ∀ i, i < n + 1 → x (i + 1) - x i = dx) :
    panels (n + 1) x y = dx * (∑ i ∈ Ico 1 (n + 1), y i + 1 / 2 * (y 0 + y (n + 1))) := by
  induction n with
  | zero =>
    rw [panels_succ, h 0 (by omega)]
    simp [panels]
    ring
  | succ n ih =>
    rw [panels_succ, ih (fun i hi => h i (by omega)), h (n + 1) (by omega), sum_Ico_succ_top (by omega : 1 ≤ n + 1)]
    have h2 : (2 : K) ≠ 0 := NeZero.ne 2
    field_simp
    ring

theorem panels_general (n : Nat) (x y : Nat → K) :
    panels (n + 1) x y = 1 / 2 * (∑ i ∈ Ico 1 (n + 1), y i * ((x i - x (i - 1)) + (x (i + 1) - x i)) + y 0 * (x 1 - x 0) +
      y (n + 1) * (x (n + 1) - x n)) := by
  induction n with
  | zero =>
    rw [panels_succ]
    simp [panels]
    ring
  | succ n ih =>
    rw [panels_succ, ih, sum_Ico_succ_top (by omega : 1 ≤ n + 1), show n + 1 - 1 = n by omega]
    have h2 : (2 : K) ≠ 0 := NeZero.ne 2
    field_simp
    ring

theorem trapzUniform_ok {y : List K} (h2 : 2 ≤ y.length) (h64 : y.length < 2 ^ 64) (dx : K) :
    trapzUniform y dx = .ok (panels (y.length - 1) (fun i => i * dx) (fun i => y.getD i 0)) := by
  obtain ⟨n, hn⟩ : ∃ n, y.length = n + 2 := ⟨y.length - 2, by omega⟩
  unfold trapzUniform
  simp only [usub_of_le (w := 64) (show 1 ≤ y.length by omega) h64]
  simp only [hn, show n + 2 - 1 = n + 1 by omega]
  rw [sum_loop (by omega) (fun i => y.getD i 0) (fun i _ hi acc => by rw [vIdx_getD (by omega)]; rfl), Res.ok_bind,
    vIdx_getD (by omega), Res.ok_bind, vIdx_getD (by omega), Res.ok_bind, Res.pure_eq, zero_add,
    panels_uniform n _ _ dx (fun i _ => by push_cast; ring)]

theorem trapz_ok (B : Build) {x y : List K} (h2 : 2 ≤ y.length) (h64 : y.length < 2 ^ 64) (hl : x.length = y.length) :
    trapz B x y = .ok (panels (y.length - 1) (fun i => x.getD i 0) (fun i => y.getD i 0)) := by
  obtain ⟨n, hn⟩ : ∃ n, y.length = n + 2 := ⟨y.length - 2, by omega⟩
  unfold trapz
  have hb := forRange_ok (lo := 1) (hi := n + 1) (by omega) (f := fun i (s : K × K) => do
    let dxi := s.2
    let a ← vIdx x (i + 1)
    let b ← vIdx x i
    let dxii := a - b
    let yi ← vIdx y i
    return (s.1 + yi * (dxi + dxii), dxii))
    (fun k => (∑ i ∈ Ico 1 k, y.getD i 0 * ((x.getD i 0 - x.getD (i - 1) 0) + (x.getD (i + 1) 0 - x.getD i 0)), x.getD k 0 - x.getD (k - 1) 0))
    (by
      intro i h1 h2
      simp only [vIdx_getD (show i + 1 < x.length by omega), vIdx_getD (show i < x.length by omega), vIdx_getD (show i < y.length by omega),
        Res.ok_bind, Res.pure_eq, sum_Ico_succ_top h1]
      rfl)
  simp only [usub_of_le (w := 64) (show 1 ≤ y.length by omega) h64, usub_of_le (w := 64) (show 2 ≤ y.length by omega) h64]
  rw [cassert_true B _ (by omega), Res.ok_bind, cassert_true B _ hl, Res.ok_bind]
  simp only [hn, show n + 2 - 1 = n + 1 by omega, show n + 2 - 2 = n by omega]
  rw [vIdx_getD (by omega), Res.ok_bind, vIdx_getD (by omega), Res.ok_bind, vIdx_getD (by omega), Res.ok_bind, vIdx_getD (by omega),
    Res.ok_bind]
  simp only [Ico_self, sum_empty, Nat.sub_self] at hb
  rw [hb, Res.ok_bind, vIdx_getD (by omega), Res.ok_bind, vIdx_getD (by omega), Res.ok_bind, Res.pure_eq, panels_general]

namespace Integrate1d

variable [CharZero K] [DecidableEq K]

theorem sample_ok (F : K → K) (dx : K) (n : Nat) (Y : List K) (x : K) :
    (sample F dx n (Y, x)).1 = Y ++ (List.range n).map (fun i : Nat => F (x + i * dx)) := by
  induction n generalizing Y x with
  | zero => simp [sample]
  | succ n ih =>
    have e : (List.range n).map (fun i : Nat => F (x + dx + i * dx)) = (List.range n).map ((fun i : Nat => F (x + i * dx)) ∘ Nat.succ) := by
      refine List.map_congr_left (fun i _ => ?_)
      simp only [Function.comp, Nat.cast_succ]
      congr 1
      ring
    rw [sample, ih, List.range_succ_eq_map, e]
    simp

/-- The state of an object, with what is known of its cache. -/
structure Inv (src : Source K) (n : Nat) (t : Settings K) (s : Integrate1d K) : Prop where
  xmin : s.m_Xmin = t.xmin
  xmax : s.m_Xmax = t.xmax
  nb : s.m_NbPoints = n
  method : s.m_IntegrationMethod = t.method
  source : match src with
    | .function F => s.c_DataSource = .FUNCTION ∧ s.m_integrand = some F
    | .vector Y => s.c_DataSource = .VECTOR ∧ s.m_Y = Y

/-- The trapezoidal value for these settings. -/
def value (src : Source K) (n : Nat) (t : Settings K) : K := panels (n - 1) (point t.xmin t.xmax n) (src.value t.xmin t.xmax n)

theorem computeTrapz_ok {src : Source K} {n : Nat} {t : Settings K} {s : Integrate1d K} (hc : src.Consistent n) (h : Inv src n t s) :
    ∃ s', computeTrapz.run s = (.ok (), s') ∧ Inv src n t s' ∧ s'.c_Result = value src n t ∧ s'.c_Computed = s.c_Computed := by
  obtain ⟨h2, h32, hsrc⟩ := hc
  obtain ⟨hx1, hx2, hn, hm, hs⟩ := h
  obtain ⟨m, rfl⟩ : ∃ m, n = m + 2 := ⟨n - 2, by omega⟩
  have hd : ((usub 32 (m + 2) 1 : Nat) : K) = (m : K) + 1 := by
    rw [usub_of_le (by omega) h32, show m + 2 - 1 = m + 1 by omega]
    push_cast
    ring
  have hd0 : (m : K) + 1 ≠ 0 := by exact_mod_cast Nat.succ_ne_zero m
  have hpt : ∀ i, i < m + 1 → point t.xmin t.xmax (m + 2) (i + 1) - point t.xmin t.xmax (m + 2) i = (t.xmax - t.xmin) / ((m : K) + 1) := by
    intro i _
    simp only [point]
    push_cast
    rw [show (m : K) + 2 - 1 = m + 1 by ring]
    ring
  have key : ∀ Y : List K, Y.length = m + 2 → (∀ i, i < m + 2 → Y.getD i 0 = src.value t.xmin t.xmax (m + 2) i) →
      (∑ i ∈ Ico 1 (m + 1), Y.getD i 0 + 1 / 2 * (Y.getD 0 0 + Y.getD (m + 1) 0)) * ((t.xmax - t.xmin) / ((m : K) + 1)) =
        value src (m + 2) t := by
    intro Y hl hY
    rw [value, show m + 2 - 1 = m + 1 by omega, panels_uniform m _ _ _ hpt, mul_comm, hY 0 (by omega), hY (m + 1) (by omega),
      sum_congr rfl (fun i hi => hY i (by have := (mem_Ico.mp hi).2; omega))]
  have two : (2 : K) ≠ 0 := two_ne_zero
  have fin : ∀ (s' : Integrate1d K), s'.m_NbPoints = m + 2 → s'.m_Y.length = m + 2 → ∀ dx : K,
      ((do
        let s ← Act.get
        let sum ← Act.lift (forRange 1 (usub 32 s.m_NbPoints 1) (fun i sum => do
          let y ← vIdx s.m_Y i
          return sum + y) 0)
        let y0 ← Act.lift (vIdx s.m_Y 0)
        let yN ← Act.lift (vIdx s.m_Y (usub 64 s.m_Y.length 1))
        Act.update fun s => { s with c_Result := y0 + yN + 2 * sum }
        Act.update fun s => { s with c_Result := s.c_Result * (1 / 2 * dx) } : Act (Integrate1d K) Unit)).run s' =
      (.ok (), { s' with c_Result := (s'.m_Y.getD 0 0 + s'.m_Y.getD (m + 1) 0 + 2 * ∑ i ∈ Ico 1 (m + 1), s'.m_Y.getD i 0) * (1 / 2 * dx) }) := by
    intro s' hnb hl dx
    have hloop : forRange 1 (usub 32 s'.m_NbPoints 1) (fun i sum => do
          let y ← vIdx s'.m_Y i
          return sum + y) 0 = .ok (0 + ∑ i ∈ Ico 1 (m + 1), s'.m_Y.getD i 0) := by
      rw [hnb, usub_of_le (by omega) h32, show m + 2 - 1 = m + 1 by omega]
      exact sum_loop (by omega) (fun i => s'.m_Y.getD i 0) (fun i _ hi acc => by rw [vIdx_getD (by omega)]; rfl) 0
    have h0 : vIdx s'.m_Y 0 = .ok (s'.m_Y.getD 0 0) := vIdx_getD (by omega)
    have hN : vIdx s'.m_Y (usub 64 s'.m_Y.length 1) = .ok (s'.m_Y.getD (m + 1) 0) := by
      rw [hl, usub_of_le (by omega) (by omega : m + 2 < 2 ^ 64), show m + 2 - 1 = m + 1 by omega]
      exact vIdx_getD (by omega)
    rw [Act.run_get_bind, hloop, Act.run_lift_ok_bind, h0, Act.run_lift_ok_bind, hN, Act.run_lift_ok_bind, Act.run_update_bind, Act.run_update,
      zero_add]
  have hdiv : fdiv (s.m_Xmax - s.m_Xmin) ((usub 32 s.m_NbPoints 1 : Nat) : K) = .ok ((t.xmax - t.xmin) / ((m : K) + 1)) := by
    rw [hn, hd, fdiv_ok hd0, hx1, hx2]
  have start : computeTrapz.run s = ((do
      if s.c_DataSource = .FUNCTION then do
        let F ← Act.lift (deref s.m_integrand)
        Act.update fun s => { s with m_Y := (sample F ((t.xmax - t.xmin) / ((m : K) + 1)) s.m_NbPoints ([], s.m_Xmin)).1 }
      else pure ()
      let s ← Act.get
      let sum ← Act.lift (forRange 1 (usub 32 s.m_NbPoints 1) (fun i sum => do
        let y ← vIdx s.m_Y i
        return sum + y) 0)
      let y0 ← Act.lift (vIdx s.m_Y 0)
      let yN ← Act.lift (vIdx s.m_Y (usub 64 s.m_Y.length 1))
      Act.update fun s => { s with c_Result := y0 + yN + 2 * sum }
      Act.update fun s => { s with c_Result := s.c_Result * (1 / 2 * ((t.xmax - t.xmin) / ((m : K) + 1))) } : Act (Integrate1d K) Unit)).run s := by
    unfold computeTrapz
    rw [Act.run_get_bind, hdiv, Act.run_lift_ok_bind]
  cases src with
  | function F =>
    obtain ⟨hs1, hs2⟩ := hs
    have hlen : ((sample F ((t.xmax - t.xmin) / ((m : K) + 1)) s.m_NbPoints ([], s.m_Xmin)).1).length = m + 2 := by
      rw [sample_ok, hn]
      simp
    have hrun := fin { s with m_Y := (sample F ((t.xmax - t.xmin) / ((m : K) + 1)) s.m_NbPoints ([], s.m_Xmin)).1 } hn hlen
      ((t.xmax - t.xmin) / ((m : K) + 1))
    refine ⟨_, by rw [start, if_pos hs1, hs2, show deref (some F) = .ok F from rfl, Act.run_lift_ok_bind, Act.run_update_bind]; exact hrun, ?_⟩
    · refine ⟨⟨hx1, hx2, hn, hm, hs1, hs2⟩, ?_, rfl⟩
      rw [← key _ hlen]
      · show _ * (1 / 2 * _) = _
        field_simp
        ring
      · intro i hi
        rw [sample_ok, hn, hx1]
        have e : ((m + 2 : Nat) : K) - 1 = (m : K) + 1 := by
          push_cast
          ring
        simp only [List.nil_append, List.getD, List.getElem?_map, List.getElem?_range hi, Option.map_some, Option.getD_some, Source.value, point, e]
  | vector Y =>
    obtain ⟨hs1, hs2⟩ := hs
    have hlen : s.m_Y.length = m + 2 := by rw [hs2]; exact hsrc
    have hrun := fin s hn hlen ((t.xmax - t.xmin) / ((m : K) + 1))
    refine ⟨_, by rw [start, if_neg (by rw [hs1]; decide)]; exact hrun, ?_⟩
    · refine ⟨⟨hx1, hx2, hn, hm, hs1, hs2⟩, ?_, rfl⟩
      rw [← key _ hlen]
      · show _ * (1 / 2 * _) = _
        field_simp
        ring
      · intro i hi
        rw [hs2]
        rfl

/-- What is known of the cache: it is empty, or it holds the value for the settings. -/
structure Good (src : Source K) (n : Nat) (t : Settings K) (s : Integrate1d K) : Prop where
  inv : Inv src n t s
  cache : s.c_Computed = true → t.method = .TRAPEZOIDAL ∧ s.c_Result = value src n t

theorem compute_trapezoidal {src : Source K} {n : Nat} {t : Settings K} {s : Integrate1d K} (hc : src.Consistent n) (h : Inv src n t s)
    (hm : t.method = .TRAPEZOIDAL) :
    ∃ s', compute.run s = (.ok (), s') ∧ Inv src n t s' ∧ s'.c_Result = value src n t ∧ s'.c_Computed = true := by
  obtain ⟨s', h1, h2, h3, h4⟩ := computeTrapz_ok hc h
  refine ⟨{ s' with c_Computed := true }, ?_, ⟨h2.1, h2.2, h2.3, h2.4, h2.5⟩, h3, rfl⟩
  unfold compute
  simp only [Act.run_get_bind, h.method, hm]
  rw [Act.run_bind_ok h1]
  rfl

theorem compute_newton {src : Source K} {n : Nat} {t : Settings K} {s : Integrate1d K} (h : Inv src n t s)
    (hm : t.method = .NEWTON_COTES) : compute.run s = (.throws .runtimeError, s) := by
  unfold compute
  simp only [Act.run_get_bind, h.method, hm]
  rfl

theorem get_cached {s : Integrate1d K} (h : s.c_Computed = true) : get.run s = (.ok s.c_Result, s) := by
  unfold get
  rw [Act.run_get_bind, if_pos h]
  rfl

theorem get_computes {s s' : Integrate1d K} (h : s.c_Computed ≠ true) (hc : compute.run s = (.ok (), s')) :
    get.run s = (.ok s'.c_Result, s') := by
  unfold get
  rw [Act.run_get_bind, if_neg h, Act.run_bind_ok hc]
  rfl

theorem get_throws {s s' : Integrate1d K} {e : Exn} (h : s.c_Computed ≠ true) (hc : compute.run s = (.throws e, s')) :
    get.run s = (.throws e, s') := by
  unfold get
  rw [Act.run_get_bind, if_neg h, Act.run_bind, hc]

theorem get_good {src : Source K} {n : Nat} {t : Settings K} {s : Integrate1d K} (hc : src.Consistent n) (h : Good src n t s) :
    (get.run s).1 = t.expected src n ∧ Good src n t (get.run s).2 := by
  by_cases hcomp : s.c_Computed = true
  · obtain ⟨hm, hr⟩ := h.cache hcomp
    rw [get_cached hcomp]
    refine ⟨?_, h⟩
    rw [Settings.expected, hm, hr]
    rfl
  · cases hm : t.method with
    | TRAPEZOIDAL =>
      obtain ⟨s', h1, h2, h3, h4⟩ := compute_trapezoidal hc h.inv hm
      rw [get_computes hcomp h1]
      refine ⟨?_, h2, fun _ => ⟨hm, h3⟩⟩
      rw [Settings.expected, hm, h3]
      rfl
    | NEWTON_COTES =>
      rw [get_throws hcomp (compute_newton h.inv hm), Settings.expected, hm]
      exact ⟨rfl, h⟩

theorem new_good (src : Source K) (n : Nat) (a b : K) : Good src n ⟨a, b, .TRAPEZOIDAL⟩ (src.new a b n) := by
  cases src <;> exact ⟨⟨rfl, rfl, rfl, rfl, rfl, rfl⟩, fun h => by cases h⟩

theorem get_inv {src : Source K} {n : Nat} {t : Settings K} {s : Integrate1d K} (hc : src.Consistent n) (h : Inv src n t s) :
    Inv src n t (get.run s).2 := by
  by_cases hcomp : s.c_Computed = true
  · rw [get_cached hcomp]
    exact h
  · exact (get_good hc ⟨h, fun h => absurd h hcomp⟩).2.inv

theorem exec_get (s : Integrate1d K) : ((exec .get).run s).2 = (get.run s).2 := by
  show ((get >>= fun _ => pure ()).run s).2 = _
  rw [Act.run_bind]
  rcases get.run s with ⟨r, s'⟩
  cases r <;> rfl

theorem exec_inv {src : Source K} {n : Nat} {t : Settings K} {s : Integrate1d K} (hc : src.Consistent n) (h : Inv src n t s) (op : Op K) :
    Inv src n (t.next op) ((exec op).run s).2 := by
  cases op with
  | setMethod m => exact ⟨h.1, h.2, h.3, rfl, h.5⟩
  | setXmin x => exact ⟨rfl, h.2, h.3, h.4, h.5⟩
  | setXmax x => exact ⟨h.1, rfl, h.3, h.4, h.5⟩
  | get =>
    rw [exec_get]
    exact get_inv hc h

theorem after_inv {src : Source K} {n : Nat} (hc : src.Consistent n) (ops : List (Op K)) {t : Settings K} {s : Integrate1d K} (h : Inv src n t s) :
    Inv src n (t.after ops) (after s ops) := by
  induction ops generalizing t s with
  | nil => exact h
  | cons op rest ih => exact ih (exec_inv hc h op)

/-- After a call that sets a bound the cache is empty. -/
theorem exec_setsBound {src : Source K} {n : Nat} {t : Settings K} {s : Integrate1d K} (hc : src.Consistent n) (h : Inv src n t s) {op : Op K}
    (hop : SetsBound op) : Good src n (t.next op) ((exec op).run s).2 ∧ ((exec op).run s).2.c_Computed = false := by
  refine ⟨⟨exec_inv hc h op, ?_⟩, ?_⟩
  all_goals cases op <;> first | exact (fun h => by cases h) | exact hop.elim | rfl

theorem exec_good {src : Source K} {n : Nat} {t : Settings K} {s : Integrate1d K} (hc : src.Consistent n) (h : Good src n t s) (op : Op K)
    (hop : ∀ m, op = .setMethod m → s.c_Computed = false) : Good src n (t.next op) ((exec op).run s).2 := by
  cases op with
  | setMethod m =>
    refine ⟨exec_inv hc h.inv _, fun hcomp => ?_⟩
    have : s.c_Computed = true := hcomp
    rw [hop m rfl] at this
    cases this
  | setXmin x => exact (exec_setsBound hc h.inv (op := .setXmin x) trivial).1
  | setXmax x => exact (exec_setsBound hc h.inv (op := .setXmax x) trivial).1
  | get =>
    rw [exec_get]
    exact (get_good hc h).2

theorem after_good_noMethod {src : Source K} {n : Nat} (hc : src.Consistent n) (ops : List (Op K)) (hops : ∀ m, .setMethod m ∉ ops)
    {t : Settings K} {s : Integrate1d K} (h : Good src n t s) : Good src n (t.after ops) (after s ops) := by
  induction ops generalizing t s with
  | nil => exact h
  | cons op rest ih =>
    refine ih (fun m hm => hops m (List.mem_cons_of_mem _ hm)) (exec_good hc h op (fun m hm => ?_))
    exact absurd (List.mem_cons_self) (hm ▸ hops m)

theorem after_good {src : Source K} {n : Nat} (hc : src.Consistent n) (ops : List (Op K)) (hops : MethodBeforeGet ops)
    {t : Settings K} {s : Integrate1d K} (h : Inv src n t s) (h0 : s.c_Computed = false) : Good src n (t.after ops) (after s ops) := by
  have g : Good src n t s := ⟨h, fun h1 => by rw [h0] at h1; cases h1⟩
  induction ops generalizing t s with
  | nil => exact g
  | cons op rest ih =>
    cases op with
    | get =>
      refine after_good_noMethod hc rest hops (t := t) (s := ((exec .get).run s).2) ?_
      exact exec_good hc g .get (fun m hm => by cases hm)
    | setMethod m => exact ih hops (exec_inv hc h (.setMethod m)) h0 (exec_good hc g _ (fun _ _ => h0))
    | setXmin x => exact ih hops (exec_inv hc h (.setXmin x)) rfl (exec_good hc g _ (fun _ _ => h0))
    | setXmax x => exact ih hops (exec_inv hc h (.setXmax x)) rfl (exec_good hc g _ (fun _ _ => h0))

theorem after_append (s : Integrate1d K) (a b : List (Op K)) : after s (a ++ b) = after (after s a) b := by
  induction a generalizing s with
  | nil => rfl
  | cons op rest ih => exact ih _

end Integrate1d

end MU
