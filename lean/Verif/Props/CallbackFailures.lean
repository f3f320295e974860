import Verif.Props.Callback

/-!
# C123, what a `Compute_ai` that threw leaves behind

The exact state of the coefficients after any number of calls in which the user's function threw, and when a later call gives the right series all the same.
-/

set_option linter.unusedSectionVars false

namespace MU
open Spec Finset

/-- The state of the coefficients, `a` before the call, when the call number `i * (n + 1) + r` (from 0) of the function throws: the coefficients before `i` are
finished, the coefficient `i` has been increased by the terms of the first `r` nodes, the others are as before. -/
noncomputable def Spec.leftBy (f : ℝ → ℝ) (n : Nat) (X : Domain ℝ) (a : Nat → ℝ) (i r : Nat) (k : Nat) : ℝ :=
  if k < i then (a k + ∑ q ∈ range (n + 1), f (X.node n q) * chebT k (unitNode n q)) * (if k = 0 then 1 / ((n : ℝ) + 1) else 2 / ((n : ℝ) + 1))
  else if k = i then a k + ∑ q ∈ range r, f (X.node n q) * chebT k (unitNode n q)
  else a k

namespace Act
variable {σ : Type}

/-- A loop either runs to its end or stops at an iteration that fails. -/
theorem loopN_cases {f : Nat → Act σ Unit} (P : Nat → σ → Prop) (Q : Nat → Res Unit → σ → Prop) (n : Nat) : ∀ lo s,
    (∀ i s, lo ≤ i → i < lo + n → P i s → (∃ s', (f i).run s = (.ok (), s') ∧ P (i + 1) s') ∨
      ∃ r s', (f i).run s = (r, s') ∧ r ≠ .ok () ∧ Q i r s') → P lo s →
    (∃ s', (loopN n lo f).run s = (.ok (), s') ∧ P (lo + n) s') ∨
      ∃ i r s', lo ≤ i ∧ i < lo + n ∧ (loopN n lo f).run s = (r, s') ∧ r ≠ .ok () ∧ Q i r s' := by
  induction n with
  | zero =>
    intro lo s _ hP
    exact Or.inl ⟨s, rfl, hP⟩
  | succ n ih =>
    intro lo s h hP
    rcases h lo s (le_refl _) (by omega) hP with ⟨s1, e, h1⟩ | ⟨r, s1, e, hr, h1⟩
    · have er : (loopN (n + 1) lo f).run s = (loopN n (lo + 1) f).run s1 := by
        rw [loopN, run_bind_ok e]
      rw [er]
      rcases ih (lo + 1) s1 (fun i s' h2 h3 => h i s' (by omega) (by omega)) h1 with ⟨s2, e2, h2⟩ | ⟨i, r, s2, h2, h3, e2, h4, h5⟩
      · exact Or.inl ⟨s2, e2, by rwa [show lo + (n + 1) = lo + 1 + n by omega]⟩
      · exact Or.inr ⟨i, r, s2, by omega, by omega, e2, h4, h5⟩
    · refine Or.inr ⟨lo, r, s1, le_refl _, by omega, ?_, hr, h1⟩
      rw [loopN, run_bind, e]
      cases r with
      | ok a => exact absurd rfl hr
      | _ => rfl

theorem run_bind_fail {α β : Type} {m : Act σ α} {f : α → Act σ β} {s s' : σ} {r : Res α} (h : m.run s = (r, s')) (hr : ∀ a, r ≠ .ok a) :
    ∃ o, (m >>= f).run s = (o, s') ∧ ∀ b, o ≠ .ok b := by
  rw [run_bind, h]
  cases r with
  | ok a => exact absurd rfl (hr a)
  | _ => exact ⟨_, rfl, fun _ => by simp⟩

end Act

namespace CS1C

/-- The object holds the coefficients `a`, and its function has been called `p` times. -/
structure HoldsC (s : CS1C) (F : Callback ℝ) (n : Nat) (sx : Seg ℝ) (a : Nat → ℝ) (p : Nat) : Prop where
  function : s.m_function = F
  order : s.m_order_x = n
  seg : s.m_x = sx
  coeffs : s.m_ai = (List.range (n + 1)).map a
  count : s.calls.length = p

variable {F : Callback ℝ} {f : ℝ → ℝ} {n : Nat} {sx : Seg ℝ}

theorem HoldsC.congr {s : CS1C} {a a' : Nat → ℝ} {p p' : Nat} (h : s.HoldsC F n sx a p) (ha : ∀ k, k ≤ n → a k = a' k) (hp : p = p') : s.HoldsC F n sx a' p' := by
  obtain ⟨h1, h2, h3, h4, h5⟩ := h
  refine ⟨h1, h2, h3, h4.trans (List.map_congr_left fun k hk => ha k ?_), h5.trans hp⟩
  have := List.mem_range.1 hk
  omega

theorem run_modify (B : Build) {s : CS1C} {a : Nat → ℝ} {p : Nat} (h : s.HoldsC F n sx a p) {i : Nat} (hi : i ≤ n) (op : ℝ → ℝ) :
    ∃ s', (getA B i >>= fun v => setA B i (op v)).run s = (.ok (), s') ∧ s'.HoldsC F n sx (Function.update a i (op (a i))) p := by
  obtain ⟨h1, h2, h3, h4, h5⟩ := h
  have e1 : eAt B s.m_ai i = .ok (a i) := by rw [h4, eAt_map B a (by omega)]
  have e2 : eSet B s.m_ai i (op (a i)) = .ok (s.m_ai.set i (op (a i))) := by
    unfold eSet
    rw [if_pos (by rw [h4]; simp; omega)]
  refine ⟨{ s with m_ai := s.m_ai.set i (op (a i)) }, ?_, h1, h2, h3, ?_, h5⟩
  · unfold getA setA
    simp [Act.run_bind, Act.run_get_bind, e1, e2]
  · apply List.ext_getElem
    · simp [h4]
    · intro k hk1 hk2
      simp only [List.getElem_set, h4, List.getElem_map, List.getElem_range, Function.update_apply]
      split_ifs with hh1 hh2 hh2
      · rfl
      · exact absurd hh1.symm hh2
      · exact absurd hh2.symm hh1
      · rfl

theorem run_modify_then (B : Build) {s : CS1C} {a : Nat → ℝ} {p : Nat} (h : s.HoldsC F n sx a p) {i : Nat} (hi : i ≤ n) (op : ℝ → ℝ) (m : Act CS1C Unit) :
    ∃ s', (getA B i >>= fun v => setA B i (op v) >>= fun _ => m).run s = m.run s' ∧ s'.HoldsC F n sx (Function.update a i (op (a i))) p := by
  obtain ⟨s', e, h'⟩ := run_modify B h hi op
  refine ⟨s', ?_, h'⟩
  have e' : (getA B i >>= fun v => setA B i (op v) >>= fun _ => m) = ((getA B i >>= fun v => setA B i (op v)) >>= fun _ => m) := by
    funext s
    show (getA B i >>= fun a => setA B i (op a) >>= fun _ => m).run s = ((getA B i >>= fun a => setA B i (op a)) >>= fun _ => m).run s
    simp only [Act.run_bind]
    rcases (getA B i).run s with ⟨r, s1⟩
    cases r <;> rfl
  rw [e', Act.run_bind_ok e]

/-- One call of `Compute_ai`: it returns with the coefficients finished, or the function did not return at its call number `i * (n + 1) + r` and the coefficients
are those of `leftBy`. -/
theorem computeAi_cases (B : Build) (hF : SometimesFails F f) {s : CS1C} {a : Nat → ℝ} {p : Nat} (h : s.HoldsC F n sx a p) :
    (∃ s', (computeAi B).run s = (.ok (), s') ∧ s'.HoldsC F n sx (leftBy f n sx.dom a (n + 1) 0) (p + (n + 1) * (n + 1))) ∨
      ∃ i r o s', i ≤ n ∧ r ≤ n ∧ (computeAi B).run s = (o, s') ∧ o ≠ .ok () ∧
        s'.HoldsC F n sx (leftBy f n sx.dom a i r) (p + (i * (n + 1) + r + 1)) := by
  have hord := h.order
  have hseg := h.seg
  unfold computeAi
  rw [Act.run_get_bind, abscissae_ok, Act.run_lift_ok_bind, hord, hseg]
  have hinner : ∀ i, i ≤ n → ∀ r s', r ≤ n → CS1C.HoldsC s' F n sx (leftBy f n sx.dom a i r) (p + (i * (n + 1) + r)) →
      (∃ s'', (do
        let xr ← Act.lift (vAt ((List.range (n + 1)).map (fun r => (chebNode n r, sx.dom.node n r))) r)
        let v ← CS1C.call xr.2
        let a ← CS1C.getA B i
        CS1C.setA B i (a + v * chebT i xr.1) : Act CS1C Unit).run s' = (.ok (), s'') ∧
          s''.HoldsC F n sx (leftBy f n sx.dom a i (r + 1)) (p + (i * (n + 1) + (r + 1)))) ∨
      ∃ o s'', (do
        let xr ← Act.lift (vAt ((List.range (n + 1)).map (fun r => (chebNode n r, sx.dom.node n r))) r)
        let v ← CS1C.call xr.2
        let a ← CS1C.getA B i
        CS1C.setA B i (a + v * chebT i xr.1) : Act CS1C Unit).run s' = (o, s'') ∧ o ≠ .ok () ∧
          s''.HoldsC F n sx (leftBy f n sx.dom a i r) (p + (i * (n + 1) + r + 1)) := by
    intro i hi r s' hr hs
    rw [vAt_map _ (by omega), Act.run_lift_ok_bind]
    simp only
    have hc : (CS1C.call (sx.dom.node n r)).run s' = (F s'.calls (sx.dom.node n r), { s' with calls := s'.calls ++ [sx.dom.node n r] }) := by
      rw [← hs.function]
      rfl
    have hs2 : CS1C.HoldsC { s' with calls := s'.calls ++ [sx.dom.node n r] } F n sx (leftBy f n sx.dom a i r) (p + (i * (n + 1) + r) + 1) :=
      ⟨hs.function, hs.order, hs.seg, hs.coeffs, by simp [hs.count]⟩
    rcases hv : F s'.calls (sx.dom.node n r) with v | _ | _ | _ | _ | _
    · left
      rw [hv] at hc
      rw [Act.run_bind_ok hc]
      obtain ⟨s2, e2, h2⟩ := run_modify B hs2 hi (fun w => w + v * chebT i (chebNode n r))
      refine ⟨s2, e2, h2.congr (fun k hk => ?_) (by omega)⟩
      rw [hF _ _ _ hv]
      rw [Function.update_apply]
      split_ifs with hk2
      · subst hk2
        simp only [leftBy, lt_irrefl, if_false, if_true, sum_range_succ, unitNode_eq]
        ring
      · unfold leftBy
        split_ifs <;> first | rfl | omega
    all_goals
      right
      rw [hv] at hc
      obtain ⟨o, e, ho⟩ := Act.run_bind_fail (f := fun v => do
        let a ← CS1C.getA B i
        CS1C.setA B i (a + v * chebT i (chebNode n r))) hc (fun _ => by simp)
      exact ⟨o, _, e, ho (), hs2.congr (fun _ _ => rfl) (by omega)⟩
  have houter : ∀ i s', i ≤ n → CS1C.HoldsC s' F n sx (leftBy f n sx.dom a i 0) (p + i * (n + 1)) →
      (∃ s'', (do
      Act.loop 0 (n + 1) (fun r => do
        let xr ← Act.lift (vAt ((List.range (n + 1)).map (fun r => (chebNode n r, sx.dom.node n r))) r)
        let v ← CS1C.call xr.2
        let a ← CS1C.getA B i
        CS1C.setA B i (a + v * chebT i xr.1))
      let a ← CS1C.getA B i
      CS1C.setA B i (a * (2 / ((n : ℝ) + 1)))
      if i = 0 then do
        let a ← CS1C.getA B i
        CS1C.setA B i (a / 2)
      else pure () : Act CS1C Unit).run s' = (.ok (), s'') ∧ s''.HoldsC F n sx (leftBy f n sx.dom a (i + 1) 0) (p + (i + 1) * (n + 1))) ∨
      ∃ o s'', (do
      Act.loop 0 (n + 1) (fun r => do
        let xr ← Act.lift (vAt ((List.range (n + 1)).map (fun r => (chebNode n r, sx.dom.node n r))) r)
        let v ← CS1C.call xr.2
        let a ← CS1C.getA B i
        CS1C.setA B i (a + v * chebT i xr.1))
      let a ← CS1C.getA B i
      CS1C.setA B i (a * (2 / ((n : ℝ) + 1)))
      if i = 0 then do
        let a ← CS1C.getA B i
        CS1C.setA B i (a / 2)
      else pure () : Act CS1C Unit).run s' = (o, s'') ∧ o ≠ .ok () ∧
        ∃ r ≤ n, s''.HoldsC F n sx (leftBy f n sx.dom a i r) (p + (i * (n + 1) + r + 1)) := by
    intro i s' hi hs
    rcases Act.loopN_cases (fun r s => CS1C.HoldsC s F n sx (leftBy f n sx.dom a i r) (p + (i * (n + 1) + r)))
      (fun r _ s => CS1C.HoldsC s F n sx (leftBy f n sx.dom a i r) (p + (i * (n + 1) + r + 1))) (n + 1 - 0) 0 s'
      (fun r s h1 h2 h3 => hinner i hi r s (by omega) h3) (hs.congr (fun _ _ => rfl) (by omega)) with ⟨s1, e1, h1⟩ | ⟨r, o, s1, h1, h2, e1, h3, h4⟩
    · left
      unfold Act.loop
      rw [Act.run_bind_ok e1]
      simp only [zero_add, Nat.sub_zero] at h1
      obtain ⟨s2, e2, h2⟩ := run_modify_then B h1 hi (fun a => a * (2 / ((n : ℝ) + 1))) (if i = 0 then do
        let a ← CS1C.getA B i
        CS1C.setA B i (a / 2)
      else pure ())
      rw [e2]
      by_cases h0 : i = 0
      · subst h0
        rw [if_pos rfl]
        obtain ⟨s3, e3, h3⟩ := run_modify B h2 hi (fun a => a / 2)
        refine ⟨s3, e3, h3.congr (fun k hk => ?_) (by ring)⟩
        rw [Function.update_idem, Function.update_self, Function.update_apply]
        split_ifs with hk2
        · subst hk2
          simp only [leftBy, lt_irrefl, if_false, if_true, zero_add, Nat.lt_one_iff]
          have : ((n : ℝ) + 1) ≠ 0 := by positivity
          field_simp
        · unfold leftBy
          split_ifs <;> first | rfl | omega | simp
      · rw [if_neg h0]
        refine ⟨s2, rfl, h2.congr (fun k hk => ?_) (by ring)⟩
        rw [Function.update_apply]
        split_ifs with hk2
        · subst hk2
          simp only [leftBy, lt_irrefl, if_false, if_true, Nat.lt_succ_self, if_neg h0]
        · unfold leftBy
          split_ifs <;> first | rfl | omega | simp
    · right
      obtain ⟨o', e2, ho⟩ := Act.run_bind_fail (f := fun _ => do
        let a ← CS1C.getA B i
        CS1C.setA B i (a * (2 / ((n : ℝ) + 1)))
        if i = 0 then do
          let a ← CS1C.getA B i
          CS1C.setA B i (a / 2)
        else pure ()) e1 (fun _ => h3)
      exact ⟨o', s1, e2, ho (), r, by omega, h4⟩
  rcases Act.loopN_cases (fun i s => CS1C.HoldsC s F n sx (leftBy f n sx.dom a i 0) (p + i * (n + 1)))
    (fun i _ s => ∃ r ≤ n, CS1C.HoldsC s F n sx (leftBy f n sx.dom a i r) (p + (i * (n + 1) + r + 1))) (n + 1 - 0) 0 s
    (fun i s h1 h2 h3 => houter i s (by omega) h3)
    (h.congr (fun k _ => by simp [leftBy]) (by omega)) with ⟨s1, e1, h1⟩ | ⟨i, o, s1, h1, h2, e1, h3, r, hr, h4⟩
  · exact Or.inl ⟨s1, e1, h1.congr (fun k _ => by simp) (by simp)⟩
  · exact Or.inr ⟨i, r, o, s1, by omega, hr, e1, h3, h4⟩

end CS1C

/-- The calls of `Compute_ai` of which the outcome is not a return, one after the other; the positions at which the function failed. -/
def CS1C.Failures (B : Build) : CS1C → Nat → CS1C → Prop
  | s, 0, s' => s' = s
  | s, m + 1, s' => ∃ o s₁, (CS1C.computeAi B).run s = (o, s₁) ∧ o ≠ .ok () ∧ CS1C.Failures B s₁ m s'

/-- C123, what happens: after any number of calls of `Compute_ai` in which the function failed, each at its own position `(i, r)` (coefficient and node), a call that
returns gives the coefficient `k` the value `(v + S) * w` where `v` was left there by the failed calls. -/
theorem C123_history_partial (B : Build) {F : Callback ℝ} {f : ℝ → ℝ} (hF : SometimesFails F f) (x : Seg ℝ) (n m : Nat) {s₁ s₂ : CS1C}
    (h₁ : CS1C.Failures B (CS1C.base F x n) m s₁) (h₂ : (CS1C.computeAi B).run s₁ = (.ok (), s₂)) :
    ∃ pos : List (Nat × Nat), pos.length = m ∧ (∀ q ∈ pos, q.1 ≤ n ∧ q.2 ≤ n) ∧
      s₂.m_ai = (List.range (n + 1)).map (leftBy f n x.dom (pos.foldl (fun a q => leftBy f n x.dom a q.1 q.2) (fun _ => 0)) (n + 1) 0) := by
  have key : ∀ m s a p, CS1C.HoldsC s F n x a p → CS1C.Failures B s m s₁ → ∃ pos : List (Nat × Nat), pos.length = m ∧ (∀ q ∈ pos, q.1 ≤ n ∧ q.2 ≤ n) ∧
      ∃ p', CS1C.HoldsC s₁ F n x (pos.foldl (fun a q => leftBy f n x.dom a q.1 q.2) a) p' := by
    intro m
    induction m with
    | zero =>
      rintro s a p h rfl
      exact ⟨[], rfl, by simp, p, h⟩
    | succ m ih =>
      rintro s a p h ⟨o, t, e, ho, hf⟩
      rcases CS1C.computeAi_cases B hF h with ⟨s', e', -⟩ | ⟨i, r, o', s', hi, hr, e', -, h'⟩
      · rw [e'] at e
        injection e with e _
        exact absurd e.symm ho
      · rw [e'] at e
        injection e with _ e
        subst e
        obtain ⟨pos, h1, h2, h3⟩ := ih s' _ _ h' hf
        refine ⟨(i, r) :: pos, by simp [h1], ?_, h3⟩
        intro q hq
        rcases List.mem_cons.1 hq with rfl | hq
        · exact ⟨hi, hr⟩
        · exact h2 q hq
  obtain ⟨pos, h1, h2, p, h3⟩ := key m (CS1C.base F x n) (fun _ => 0) 0 ⟨rfl, rfl, rfl, by simp [CS1C.base], rfl⟩ h₁
  refine ⟨pos, h1, h2, ?_⟩
  rcases CS1C.computeAi_cases B hF h3 with ⟨s', e', h'⟩ | ⟨i, r, o', s', -, -, e', ho, -⟩
  · rw [e'] at h₂
    injection h₂ with _ e
    subst e
    exact h'.coeffs
  · rw [e'] at h₂
    injection h₂ with e _
    exact absurd e ho

theorem leftBy_end_inj {f : ℝ → ℝ} {n : Nat} {X : Domain ℝ} {a b : Nat → ℝ} {k : Nat} (hk : k ≤ n) :
    leftBy f n X a (n + 1) 0 k = leftBy f n X b (n + 1) 0 k ↔ a k = b k := by
  have hk' : k < n + 1 := by omega
  unfold leftBy
  simp only [if_pos hk']
  have : (if k = 0 then 1 / ((n : ℝ) + 1) else 2 / ((n : ℝ) + 1)) ≠ 0 := by split_ifs <;> positivity
  constructor
  · intro h
    have := mul_right_cancel₀ this h
    linarith
  · intro h
    rw [h]

/-- C123, when it holds: after one call that failed at its call number `i * (n + 1) + r` of the function, a call that returns gives the right coefficients if and only
if the failed call had left every coefficient at zero. -/
theorem C123_exact_partial (B : Build) {F : Callback ℝ} {f : ℝ → ℝ} (hF : SometimesFails F f) (x : Seg ℝ) (n : Nat) {o : Res Unit} {s₁ s₂ : CS1C}
    (h₁ : (CS1C.computeAi B).run (CS1C.base F x n) = (o, s₁)) (ho : o ≠ .ok ()) (h₂ : (CS1C.computeAi B).run s₁ = (.ok (), s₂)) :
    ∃ i r, i ≤ n ∧ r ≤ n ∧ s₁.calls.length = i * (n + 1) + r + 1 ∧
      (∀ k, k ≤ n → s₁.m_ai[k]? = some (leftBy f n x.dom (fun _ => 0) i r k)) ∧
      ((CS1.base f x n).computeAi B = .ok (s₂.erase f) ↔ ∀ k, k ≤ n → leftBy f n x.dom (fun _ => 0) i r k = 0) := by
  have h0 : CS1C.HoldsC (CS1C.base F x n) F n x (fun _ => 0) 0 := ⟨rfl, rfl, rfl, by simp [CS1C.base], rfl⟩
  rcases CS1C.computeAi_cases B hF h0 with ⟨s', e', -⟩ | ⟨i, r, o', s', hi, hr, e', -, h'⟩
  · rw [e'] at h₁
    injection h₁ with e _
    exact absurd e.symm ho
  rw [e'] at h₁
  injection h₁ with _ e
  subst e
  refine ⟨i, r, hi, hr, by rw [h'.count, zero_add], fun k hk => ?_, ?_⟩
  · rw [h'.coeffs, List.getElem?_map, List.getElem?_range (by omega)]
    rfl
  rcases CS1C.computeAi_cases B hF h' with ⟨s'', e'', h''⟩ | ⟨_, _, o', s'', -, -, e'', ho', -⟩
  swap
  · rw [e''] at h₂
    injection h₂ with e _
    exact absurd e ho'
  rw [e''] at h₂
  injection h₂ with _ e
  subst e
  obtain ⟨t, ht, hh⟩ := CS1.computeAi_ok B (CS1.fresh_holds f n x)
  have hnext : t.m_ai = (List.range (n + 1)).map (leftBy f n x.dom (fun _ => 0) (n + 1) 0) := by
    rw [hh.coeffs]
    refine List.map_congr_left fun k hk => ?_
    have := List.mem_range.1 hk
    unfold CS1.next leftBy chebWeight
    rw [if_pos this, ← Finset.range_eq_Ico]
    simp only [unitNode_eq]
  rw [ht]
  constructor
  · intro e k hk
    have e : t = s''.erase f := by injection e
    have e1 : t.m_ai = s''.m_ai := congrArg CS1.m_ai e
    rw [hnext, h''.coeffs] at e1
    have := List.map_inj_left.1 e1 k (List.mem_range.2 (by omega))
    exact ((leftBy_end_inj hk).1 this).symm
  · intro hz
    have e1 : t.m_ai = s''.m_ai := by
      rw [hnext, h''.coeffs]
      refine List.map_congr_left fun k hk => ?_
      have := List.mem_range.1 hk
      exact (leftBy_end_inj (by omega)).2 (hz k (by omega)).symm
    congr 1
    cases t
    obtain ⟨g1, g2, g3, -⟩ := hh
    simp only at g1 g2 g3 e1
    subst g1 g2 g3 e1
    unfold CS1C.erase
    rw [h''.order, h''.seg]

/-- C123, the harmless failure: when the function throws at its very first call, a later call that returns gives the right coefficients. -/
theorem C123_first_call_partial (B : Build) {F : Callback ℝ} {f : ℝ → ℝ} (hF : SometimesFails F f) (x : Seg ℝ) (n : Nat) {o : Res Unit} {s₁ s₂ : CS1C}
    (h₁ : (CS1C.computeAi B).run (CS1C.base F x n) = (o, s₁)) (ho : o ≠ .ok ()) (hc : s₁.calls.length = 1)
    (h₂ : (CS1C.computeAi B).run s₁ = (.ok (), s₂)) : (CS1.base f x n).computeAi B = .ok (s₂.erase f) := by
  obtain ⟨i, r, -, -, h1, -, h2⟩ := C123_exact_partial B hF x n h₁ ho h₂
  refine h2.2 fun k _ => ?_
  obtain rfl : r = 0 := by omega
  obtain rfl : i = 0 := by
    rcases Nat.eq_zero_or_pos i with h | h
    · exact h
    · have : 0 < i * (n + 1) := by positivity
      omega
  simp [leftBy]

/-- C123: the function 1 whose second call throws: the failed call left 1 in the first coefficient, which the next call, that returns, keeps. -/
example (B : Build) : ∃ s₁ s₂, (CS1C.computeAi B).run (CS1C.base flakyOne (.closed 0 1) 1) = (.throws .runtimeError, s₁) ∧
    (CS1C.computeAi B).run s₁ = (.ok (), s₂) ∧ s₁.calls.length = 2 ∧ (CS1.base (fun _ => 1) (.closed 0 1) 1).computeAi B ≠ .ok (s₂.erase fun _ => 1) := by
  obtain ⟨s₁, s₂, h1, h2, h3⟩ := C123_refuted B
  obtain ⟨i, r, hi, hr, hc, hs, hiff⟩ := C123_exact_partial B flakyOne_sometimes (.closed 0 1) 1 h1 (by simp) h2
  have hcc : s₁.calls.length = 2 := by
    have hrun := h1
    unfold CS1C.computeAi at hrun
    rw [Act.run_get_bind, abscissae_ok, Act.run_lift_ok_bind] at hrun
    have hcall : ∀ (x : ℝ) (s : CS1C), (CS1C.call x).run s = (s.m_function s.calls x, { s with calls := s.calls ++ [x] }) := fun _ _ => rfl
    simp [CS1C.base, Act.loop, Act.loopN, Act.run_bind, hcall, CS1C.getA, CS1C.setA, flakyOne, vAt, eAt, eSet, chebT, List.range_succ] at hrun
    rw [← hrun]
    rfl
  refine ⟨s₁, s₂, h1, h2, hcc, fun e => ?_⟩
  have hz := hiff.1 e 0 (by omega)
  have hir : i = 0 ∧ r = 1 := by
    rw [hcc] at hc
    interval_cases i <;> omega
  obtain ⟨rfl, rfl⟩ := hir
  simp [leftBy, chebT] at hz

end MU
