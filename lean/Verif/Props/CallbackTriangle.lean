import Verif.Model.CallbackTriangle
import Verif.Props.Callback
import Verif.Props.TriangleAccuracy

/-!
# C178: integrals over triangles of functions that throw or have a state
-/

set_option linter.unusedSectionVars false

namespace MU
open Spec Finset

namespace Spec

/-- The calls on the points `xs`, made in this order after the calls on `tr`, return the values `ys`. -/
inductive Gave {P T : Type} (F : List P → P → Res T) : List P → List P → List T → Prop where
  | nil (tr : List P) : Gave F tr [] []
  | cons {tr xs : List P} {ys : List T} {x : P} {y : T} (h : F tr x = .ok y) (t : Gave F (tr ++ [x]) xs ys) : Gave F tr (x :: xs) (y :: ys)

end Spec

/-- The points of the rule of order `k` in a triangle. -/
noncomputable def gaussPoints (k : Nat) (v1 v2 v3 : V3) : List V3 :=
  (List.range (tableOf k).weight.length).map fun i =>
    barPoint v1 v2 v3 (((tableOf k).alpha.getD i 0 : ℚ) : ℝ) (((tableOf k).beta.getD i 0 : ℚ) : ℝ)

theorem Spec.Gave.len {P T : Type} {F : List P → P → Res T} {tr xs : List P} {ys : List T} (h : Gave F tr xs ys) : ys.length = xs.length := by
  induction h with
  | nil => rfl
  | cons _ _ ih => simp [ih]

theorem Spec.Gave.map_eq {P T : Type} {F : List P → P → Res T} {f : P → T} (hF : ∀ tr x y, F tr x = .ok y → y = f x) {tr xs : List P} {ys : List T}
    (h : Gave F tr xs ys) : ys = xs.map f := by
  induction h with
  | nil => rfl
  | cons hy _ ih => rw [List.map_cons, ih, hF _ _ _ hy]

namespace TriC

variable {T : Type} [AddCommGroup T] [Module ℝ T]

/-- The weighted sum of the values `ys`, of which the first is that of the point `i`. -/
noncomputable def weighted (weight : List ℚ) (i : Nat) (ys : List T) : T := ∑ j ∈ range ys.length, ((weight.getD (i + j) 0 : ℚ) : ℝ) • ys.getD j 0

theorem weighted_cons (weight : List ℚ) (i : Nat) (y : T) (ys : List T) :
    weighted weight i (y :: ys) = ((weight.getD i 0 : ℚ) : ℝ) • y + weighted weight (i + 1) ys := by
  unfold weighted
  rw [List.length_cons, sum_range_succ', add_comm]
  congr 1
  refine sum_congr rfl fun j _ => ?_
  rw [show i + 1 + j = i + (j + 1) by omega]
  rfl

/-- The point `i` of the loop. -/
noncomputable def nodeAt (alpha beta : List ℚ) (v1 v2 v3 : V3) (i : Nat) : V3 :=
  barPoint v1 v2 v3 ((alpha.getD i 0 : ℚ) : ℝ) ((beta.getD i 0 : ℚ) : ℝ)

theorem node_eq (alpha beta : List ℚ) (v1 v2 v3 : V3) (i : Nat) :
    (1 - ((alpha.getD i 0 : ℚ) : ℝ) - ((beta.getD i 0 : ℚ) : ℝ)) • v1 + ((alpha.getD i 0 : ℚ) : ℝ) • v2 + ((beta.getD i 0 : ℚ) : ℝ) • v3
      = nodeAt alpha beta v1 v2 v3 i := by
  funext j
  simp [nodeAt, barPoint]

/-- The loop returns with all the values, or fails as one of the calls does. -/
theorem gaussLoop_run {alpha beta weight : List ℚ} (ha : alpha.length = weight.length) (hb : beta.length = weight.length) (v1 v2 v3 : V3) (n : Nat) :
    ∀ (i : Nat) (acc : Option T) (s : TriC T), i + n ≤ weight.length → (i ≠ 0 → acc ≠ none) →
      (∃ ys, Gave s.m_integrand s.calls ((List.range' i n).map (nodeAt alpha beta v1 v2 v3)) ys ∧
        (gaussLoop alpha beta weight v1 v2 v3 n i acc).run s =
          (.ok (if n = 0 then acc else some ((if i = 0 then 0 else acc.getD 0) + weighted weight i ys)),
            { s with calls := s.calls ++ (List.range' i n).map (nodeAt alpha beta v1 v2 v3) })) ∨
      (∃ k ys r r', k < n ∧ Gave s.m_integrand s.calls ((List.range' i k).map (nodeAt alpha beta v1 v2 v3)) ys ∧
        s.m_integrand (s.calls ++ (List.range' i k).map (nodeAt alpha beta v1 v2 v3)) (nodeAt alpha beta v1 v2 v3 (i + k)) = r ∧ Res.SameFailure r r' ∧
        (gaussLoop alpha beta weight v1 v2 v3 n i acc).run s =
          (r', { s with calls := s.calls ++ (List.range' i (k + 1)).map (nodeAt alpha beta v1 v2 v3) })) := by
  induction n with
  | zero =>
    intro i acc s _ _
    exact Or.inl ⟨[], .nil _, by simp [gaussLoop]⟩
  | succ n ih =>
    intro i acc s hi hacc
    have step : (gaussLoop alpha beta weight v1 v2 v3 (n + 1) i acc).run s =
        (call (nodeAt alpha beta v1 v2 v3 i) >>= fun y =>
          gaussLoop alpha beta weight v1 v2 v3 n (i + 1) (some ((if i = 0 then 0 else acc.getD 0) + ((weight.getD i 0 : ℚ) : ℝ) • y))).run s := by
      rw [gaussLoop, triVAt (show i < alpha.length by omega), triVAt (show i < beta.length by omega), triVAt (show i < weight.length by omega),
        Act.run_lift_ok_bind, Act.run_lift_ok_bind]
      simp only [node_eq]
      rw [Act.run_lift_ok_bind]
      by_cases h0 : i = 0
      · simp only [if_pos h0, zero_add]
      · obtain ⟨r, rfl⟩ := Option.ne_none_iff_exists'.1 (hacc h0)
        simp only [if_neg h0]
        rfl
    rw [step]
    cases hv : s.m_integrand s.calls (nodeAt alpha beta v1 v2 v3 i) with
    | ok y =>
      have hc : (call (nodeAt alpha beta v1 v2 v3 i) : Act (TriC T) T).run s = (.ok y, { s with calls := s.calls ++ [nodeAt alpha beta v1 v2 v3 i] }) := by
        rw [← hv]
        rfl
      rw [Act.run_bind_ok hc]
      rcases ih (i + 1) (some ((if i = 0 then 0 else acc.getD 0) + ((weight.getD i 0 : ℚ) : ℝ) • y)) { s with calls := s.calls ++ [nodeAt alpha beta v1 v2 v3 i] }
        (by omega) (by simp) with ⟨ys, h1, h2⟩ | ⟨k, ys, r, r', hk, h1, h2, h3, h4⟩
      · refine Or.inl ⟨y :: ys, ?_, ?_⟩
        · rw [List.range'_succ, List.map_cons]
          exact .cons hv h1
        · rw [h2, List.range'_succ, List.map_cons, weighted_cons, if_neg (Nat.succ_ne_zero n), if_neg (Nat.succ_ne_zero i)]
          simp only [List.append_assoc, List.singleton_append]
          congr 2
          by_cases hn : n = 0
          · subst hn
            cases h1
            simp [weighted]
          · rw [if_neg hn, Option.getD_some, add_assoc]
      · refine Or.inr ⟨k + 1, y :: ys, r, r', by omega, ?_, ?_, h3, ?_⟩
        · rw [List.range'_succ, List.map_cons]
          exact .cons hv h1
        · rw [List.range'_succ, List.map_cons, ← h2]
          simp only [List.append_assoc, List.singleton_append]
          rw [show i + 1 + k = i + (k + 1) by omega]
        · rw [h4, List.range'_succ (n := k + 1), List.map_cons]
          simp only [List.append_assoc, List.singleton_append]
    | _ =>
      have hc : (call (nodeAt alpha beta v1 v2 v3 i) : Act (TriC T) T).run s =
          (s.m_integrand s.calls (nodeAt alpha beta v1 v2 v3 i), { s with calls := s.calls ++ [nodeAt alpha beta v1 v2 v3 i] }) := rfl
      obtain ⟨r', h1, h2⟩ := IntC.run_bind_fail (f := fun y =>
          gaussLoop alpha beta weight v1 v2 v3 n (i + 1) (some ((if i = 0 then 0 else acc.getD 0) + ((weight.getD i 0 : ℚ) : ℝ) • y))) hc (by rw [hv]; rfl)
      exact Or.inr ⟨0, [], _, r', by omega, .nil _, by simp only [List.range'_zero, List.map_nil, List.append_nil]; rfl, h2, by rw [h1]; simp⟩

theorem nodes_eq (k : Nat) (v1 v2 v3 : V3) (n : Nat) (hn : n ≤ (tableOf k).weight.length) :
    (List.range' 0 n).map (nodeAt (tableOf k).alpha (tableOf k).beta v1 v2 v3) = (gaussPoints k v1 v2 v3).take n := by
  rw [gaussPoints, ← List.map_take, List.take_range, Nat.min_eq_left hn, List.range_eq_range']
  rfl

theorem nodes_getD (k : Nat) (v1 v2 v3 : V3) (n : Nat) (hn : n < (tableOf k).weight.length) :
    (gaussPoints k v1 v2 v3)[n]? = some (nodeAt (tableOf k).alpha (tableOf k).beta v1 v2 v3 n) := by
  simp [gaussPoints, hn, nodeAt]

theorem gaussPoints_length (k : Nat) (v1 v2 v3 : V3) : (gaussPoints k v1 v2 v3).length = (tableOf k).weight.length := by simp [gaussPoints]

/-- What is known of an object: the fields, apart from the calls made. -/
structure Fixed (F : List V3 → V3 → Res T) (k : Nat) (s : TriC T) : Prop where
  integrand : s.m_integrand = F
  order : s.m_order = k
  tables : s.m_tables = triangleTables

theorem new_fixed {F : List V3 → V3 → Res T} {k : Nat} {s : TriC T} (h : TriC.new F k = .ok s) : 1 ≤ k ∧ k ≤ 8 ∧ Fixed F k s ∧ s.calls = [] := by
  unfold TriC.new at h
  have h8 := tables_size
  simp only at h
  split_ifs at h with h1 h2
  injection h with h
  subst h
  exact ⟨by omega, by omega, ⟨rfl, rfl, rfl⟩, rfl⟩

/-- `Compute` returns with all the values, or fails as one of the calls does. -/
theorem compute_run {F : List V3 → V3 → Res T} {k : Nat} (h1 : 1 ≤ k) (h8 : k ≤ 8) {s : TriC T} (h : Fixed F k s) (v1 v2 v3 : V3) :
    (∃ ys, Gave F s.calls (gaussPoints k v1 v2 v3) ys ∧
      (compute v1 v2 v3).run s = (.ok (area v1 v2 v3 • weighted (tableOf k).weight 0 ys), { s with calls := s.calls ++ gaussPoints k v1 v2 v3 })) ∨
    (∃ m ys x r r', (gaussPoints k v1 v2 v3)[m]? = some x ∧ Gave F s.calls ((gaussPoints k v1 v2 v3).take m) ys ∧
      F (s.calls ++ (gaussPoints k v1 v2 v3).take m) x = r ∧ Res.SameFailure r r' ∧
      (compute v1 v2 v3).run s = (r', { s with calls := s.calls ++ (gaussPoints k v1 v2 v3).take (m + 1) })) := by
  obtain ⟨ha, hb, hw, hla, hlb, hpos⟩ := tables_read h1 h8
  obtain ⟨rfl, ho, ht⟩ := h
  have hstd : (computeOverStandardTriangle v1 v2 v3).run s =
      (gaussLoop (tableOf k).alpha (tableOf k).beta (tableOf k).weight v1 v2 v3 (tableOf k).weight.length 0 none >>= fun result => do
        let result ← Act.lift (readVar result)
        return (1 / 2 : ℝ) • result : Act (TriC T) T).run s := by
    unfold computeOverStandardTriangle
    rw [Act.run_get_bind, ho, ht, ha, hb, hw, Act.run_lift_ok_bind, Act.run_lift_ok_bind, Act.run_lift_ok_bind]
  rcases gaussLoop_run hla hlb v1 v2 v3 (tableOf k).weight.length 0 (none : Option T) s (by omega) (by simp) with ⟨ys, g1, g2⟩ | ⟨m, ys, r, r', hm, g1, g2, g3, g4⟩
  · rw [nodes_eq k v1 v2 v3 _ le_rfl, List.take_of_length_le (gaussPoints_length k v1 v2 v3).le] at g1 g2
    refine Or.inl ⟨ys, g1, ?_⟩
    rw [if_neg (by omega), if_pos rfl, zero_add] at g2
    have h2 : (computeOverStandardTriangle v1 v2 v3).run s =
        (.ok ((1 / 2 : ℝ) • weighted (tableOf k).weight 0 ys), { s with calls := s.calls ++ gaussPoints k v1 v2 v3 }) := by
      rw [hstd, Act.run_bind_ok g2]
      rfl
    unfold compute
    rw [Act.run_bind_ok h2, Act.run_pure, gram_cross, smul_smul]
    congr 3
    ring
  · rw [nodes_eq k v1 v2 v3 _ hm.le] at g1 g2
    rw [nodes_eq k v1 v2 v3 _ hm] at g4
    rw [Nat.zero_add] at g2
    obtain ⟨r1, f1, f2⟩ := IntC.run_bind_fail (f := fun result => (do
        let result ← Act.lift (readVar result)
        return (1 / 2 : ℝ) • result : Act (TriC T) T)) g4 (IntC.sameFailure_fails g3)
    rw [← hstd] at f1
    obtain ⟨r2, f3, f4⟩ := IntC.run_bind_fail (f := fun integral => (pure ((2 * (1 / 2 * V3.norm (V3.cross (v1 - v3) (v2 - v3)))) • integral) : Act (TriC T) T)) f1
      (IntC.sameFailure_fails f2)
    exact Or.inr ⟨m, ys, _, r, r2, nodes_getD k v1 v2 v3 m hm, g1, g2, IntC.sameFailure_trans g3 (IntC.sameFailure_trans f2 f4), f3⟩

theorem compute_fixed {F : List V3 → V3 → Res T} {k : Nat} (h1 : 1 ≤ k) (h8 : k ≤ 8) {s : TriC T} (h : Fixed F k s) (v1 v2 v3 : V3) :
    Fixed F k ((compute v1 v2 v3).run s).2 := by
  rcases compute_run h1 h8 h v1 v2 v3 with ⟨ys, -, g⟩ | ⟨m, ys, x, r, r', -, -, -, -, g⟩ <;> rw [g] <;> exact ⟨h.integrand, h.order, h.tables⟩

theorem after_fixed {F : List V3 → V3 → Res T} {k : Nat} (h1 : 1 ≤ k) (h8 : k ≤ 8) (ts : List (V3 × V3 × V3)) {s : TriC T} (h : Fixed F k s) :
    Fixed F k (s.after ts) := by
  induction ts generalizing s with
  | nil => exact h
  | cons v ts ih => exact ih (compute_fixed h1 h8 h _ _ _)

end TriC

variable {T : Type} [AddCommGroup T] [Module ℝ T]

/-- **C178**: when `Compute` returns, after any calls of `Compute`, failed or not, it has called the function once at each of the points of the rule, in their order; the
value is the area of the triangle times the sum of the values returned by these calls, multiplied by the weights of the rule. Nothing else of the object changes. -/
theorem C178_value {F : List V3 → V3 → Res T} {k : Nat} {s₀ s s' : TriC T} (h : TriC.new F k = .ok s₀) (ts : List (V3 × V3 × V3)) (hs : s = s₀.after ts)
    (v1 v2 v3 : V3) {r : T} (hr : (TriC.compute v1 v2 v3).run s = (.ok r, s')) :
    ∃ ys, Gave F s.calls (gaussPoints k v1 v2 v3) ys ∧ ys.length = (tableOf k).weight.length ∧
      r = area v1 v2 v3 • ∑ i ∈ range ys.length, (((tableOf k).weight.getD i 0 : ℚ) : ℝ) • ys.getD i 0 ∧
      s' = { s with calls := s.calls ++ gaussPoints k v1 v2 v3 } := by
  subst hs
  obtain ⟨h1, h8, hf, -⟩ := TriC.new_fixed h
  rcases TriC.compute_run h1 h8 (TriC.after_fixed h1 h8 ts hf) v1 v2 v3 with ⟨ys, g1, g2⟩ | ⟨m, ys, x, r', r'', -, -, -, g3, g4⟩
  · rw [hr] at g2
    injection g2 with e1 e2
    injection e1 with e1
    refine ⟨ys, g1, by rw [g1.len, TriC.gaussPoints_length], ?_, e2⟩
    rw [e1]
    simp only [TriC.weighted, Nat.zero_add]
  · rw [hr] at g4
    injection g4 with e1 e2
    have := IntC.sameFailure_fails g3
    rw [← e1] at this
    cases this

/-- C178: when `Compute` fails, it is because the call to the function at one of the points failed, in the same way, after the calls at the points before it have returned.
No further call is made, and the object is as before. -/
theorem C178_failure {F : List V3 → V3 → Res T} {k : Nat} {s₀ s s' : TriC T} (h : TriC.new F k = .ok s₀) (ts : List (V3 × V3 × V3)) (hs : s = s₀.after ts)
    (v1 v2 v3 : V3) {r : Res T} (hr : (TriC.compute v1 v2 v3).run s = (r, s')) (hfail : r.isOk = false) :
    ∃ m ys x, (gaussPoints k v1 v2 v3)[m]? = some x ∧ Gave F s.calls ((gaussPoints k v1 v2 v3).take m) ys ∧
      Res.SameFailure (F (s.calls ++ (gaussPoints k v1 v2 v3).take m) x) r ∧
      s' = { s with calls := s.calls ++ (gaussPoints k v1 v2 v3).take m ++ [x] } := by
  subst hs
  obtain ⟨h1, h8, hf, -⟩ := TriC.new_fixed h
  rcases TriC.compute_run h1 h8 (TriC.after_fixed h1 h8 ts hf) v1 v2 v3 with ⟨ys, g1, g2⟩ | ⟨m, ys, x, r', r'', g0, g1, g2, g3, g4⟩
  · rw [hr] at g2
    injection g2 with e1 e2
    rw [e1] at hfail
    cases hfail
  · rw [hr] at g4
    injection g4 with e1 e2
    refine ⟨m, ys, x, g0, g1, by rw [g2, e1]; exact g3, ?_⟩
    rw [e2, List.take_add_one, g0]
    simp

/-- C178: `Compute` returns whenever the calls at the points of the rule return, and its value is then determined by the values they return. -/
theorem C178_returns {F : List V3 → V3 → Res T} {k : Nat} {s₀ s : TriC T} (h : TriC.new F k = .ok s₀) (ts : List (V3 × V3 × V3)) (hs : s = s₀.after ts)
    (v1 v2 v3 : V3) {ys : List T} (hy : Gave F s.calls (gaussPoints k v1 v2 v3) ys) :
    ((TriC.compute v1 v2 v3).run s).1 = .ok (area v1 v2 v3 • ∑ i ∈ range ys.length, (((tableOf k).weight.getD i 0 : ℚ) : ℝ) • ys.getD i 0) := by
  have key : ∀ {tr xs : List V3} {zs ws : List T}, Gave F tr xs zs → Gave F tr xs ws → zs = ws := by
    intro tr xs zs ws a
    induction a generalizing ws with
    | nil => intro b; cases b; rfl
    | cons hx _ ih =>
      intro b
      cases b with
      | cons hx' b' =>
        rw [hx] at hx'
        injection hx' with hx'
        rw [hx', ih b']
  have stop : ∀ {tr xs : List V3} {zs : List T} {m : Nat} {x : V3}, Gave F tr xs zs → xs[m]? = some x → ∃ y, F (tr ++ xs.take m) x = .ok y := by
    intro tr xs zs m x a
    induction a generalizing m with
    | nil => intro hx; simp at hx
    | cons hx _ ih =>
      intro hm
      cases m with
      | zero =>
        simp only [List.getElem?_cons_zero, Option.some.injEq] at hm
        subst hm
        exact ⟨_, by simpa using hx⟩
      | succ m =>
        obtain ⟨y, h⟩ := ih (by simpa using hm)
        exact ⟨y, by simpa using h⟩
  subst hs
  obtain ⟨h1, h8, hf, -⟩ := TriC.new_fixed h
  rcases TriC.compute_run h1 h8 (TriC.after_fixed h1 h8 ts hf) v1 v2 v3 with ⟨zs, g1, g2⟩ | ⟨m, zs, x, r', r'', g0, g1, g2, g3, g4⟩
  · rw [g2, key hy g1]
    simp only [TriC.weighted, Nat.zero_add]
  · obtain ⟨y, e⟩ := stop hy g0
    rw [e] at g2
    rw [← g2] at g3
    cases r'' <;> simp [Res.SameFailure] at g3

/-- C178: the function is only ever called at points of the triangle; the rules of orders 1 to 8 have 1, 3, 4, 6, 7, 12, 13 and 16 points. -/
theorem C178_points {k : Nat} (h1 : 1 ≤ k) (h8 : k ≤ 8) (v1 v2 v3 : V3) :
    (∀ x ∈ gaussPoints k v1 v2 v3, InTriangle v1 v2 v3 x) ∧ (gaussPoints k v1 v2 v3).length = [1, 3, 4, 6, 7, 12, 13, 16].getD (k - 1) 0 := by
  constructor
  · intro x hx
    obtain ⟨i, hi, rfl⟩ := List.mem_map.1 hx
    exact inTriangle_gauss h1 h8 (List.mem_range.1 hi) v1 v2 v3
  · rw [TriC.gaussPoints_length]
    interval_cases k <;> rfl

/-- C178: the orders 1 to 8 are accepted, without a call to the function; the others end the process. -/
theorem C178_orders (F : List V3 → V3 → Res T) (order : Int) :
    ((1 ≤ order ∧ order ≤ 8) → ∃ s, TriC.new F order = .ok s ∧ s.calls = []) ∧ (¬ (1 ≤ order ∧ order ≤ 8) → TriC.new F order = .exits 0) := by
  have hs := tables_size
  constructor
  · rintro ⟨h1, h8⟩
    refine ⟨⟨F, order, triangleTables, []⟩, ?_, rfl⟩
    unfold TriC.new
    rw [if_neg (by omega), if_neg (by omega)]
  · intro h
    unfold TriC.new
    by_cases h8 : order > 8
    · rw [if_pos (by omega)]
    · rw [if_neg (by omega), if_pos (by omega)]

/-- C178: if the function, whenever it returns, returns the value of a fixed function `f` at the point, then `Compute`, whenever it returns, and whatever calls have failed
before, returns what it would for `f`. -/
theorem C178_retry {F : List V3 → V3 → Res T} {f : V3 → T} (hF : ∀ tr x y, F tr x = .ok y → y = f x) {k : Nat} {s₀ s s' : TriC T} (h : TriC.new F k = .ok s₀)
    (ts : List (V3 × V3 × V3)) (hs : s = s₀.after ts) (v1 v2 v3 : V3) {r : T} (hr : (TriC.compute v1 v2 v3).run s = (.ok r, s')) :
    ∃ o, Integration2dTriangle.new f k = .ok o ∧ o.compute v1 v2 v3 = .ok r := by
  obtain ⟨h1, h8, -, -⟩ := TriC.new_fixed h
  obtain ⟨ys, g1, -, g3, -⟩ := C178_value h ts hs v1 v2 v3 hr
  refine ⟨_, new_ok f h1 h8, ?_⟩
  rw [compute_ok f h1 h8, g3, g1.map_eq hF]
  congr 2
  unfold qsum gaussPoints
  rw [List.length_map, List.length_map, List.length_range]
  refine sum_congr rfl fun i hi => ?_
  have hi := mem_range.1 hi
  simp [hi]

/-- A function that throws at its first call and returns 1 afterwards. -/
def throwsOnce : List V3 → V3 → Res ℝ
  | [], _ => .throws .runtimeError
  | _ :: _, _ => .ok 1

/-- The first call fails, after one call of the function; the second returns the area times the sum of the three weights. -/
theorem throwsOnce_run (v1 v2 v3 : V3) : ∃ s₀ s₁, TriC.new throwsOnce (2 : Nat) = .ok s₀ ∧ (TriC.compute v1 v2 v3).run s₀ = (.throws .runtimeError, s₁) ∧
    s₁.calls.length = 1 ∧
    ((TriC.compute v1 v2 v3).run (s₀.after [(v1, v2, v3)])).1 = .ok (area v1 v2 v3 • (0.333333333333330 + 0.333333333333330 + 0.333333333333330)) := by
  have hnew : TriC.new throwsOnce ((2 : Nat) : Int) = .ok ⟨throwsOnce, (2 : Nat), triangleTables, []⟩ := rfl
  obtain ⟨a, b, c, hp⟩ := List.length_eq_three.1 (show (gaussPoints 2 v1 v2 v3).length = 3 from (C178_points (by norm_num) (by norm_num) v1 v2 v3).2)
  have first : ∃ s₁, (TriC.compute v1 v2 v3).run ⟨throwsOnce, (2 : Nat), triangleTables, []⟩ = (.throws .runtimeError, s₁) ∧ s₁.calls = [a] := by
    rcases TriC.compute_run (T := ℝ) (F := throwsOnce) (k := 2) (by norm_num) (by norm_num) (s := ⟨throwsOnce, (2 : Nat), triangleTables, []⟩) ⟨rfl, rfl, rfl⟩ v1 v2 v3
      with ⟨ys, g1, -⟩ | ⟨m, ys, x, r, r', g0, g1, g2, g3, g4⟩
    · rw [hp] at g1
      cases g1 with
      | cons h _ => cases h
    · rw [hp] at g1 g2 g4
      cases m with
      | zero =>
        have : r = .throws .runtimeError := g2.symm
        subst this
        have e : r' = .throws .runtimeError := by
          cases r' <;> simp [Res.SameFailure] at g3
          rw [g3]
        rw [e] at g4
        exact ⟨_, g4, rfl⟩
      | succ m =>
        rw [List.take_succ_cons] at g1
        cases g1 with
        | cons h _ => cases h
  obtain ⟨s₁, f1, f2⟩ := first
  refine ⟨_, s₁, hnew, f1, by rw [f2]; rfl, ?_⟩
  have hs : TriC.after (⟨throwsOnce, (2 : Nat), triangleTables, []⟩ : TriC ℝ) [(v1, v2, v3)] = s₁ := by
    simp only [TriC.after, f1]
  rw [C178_returns hnew [(v1, v2, v3)] rfl v1 v2 v3 (ys := [1, 1, 1]) (by
    rw [hs, f2, hp]
    exact .cons rfl (.cons rfl (.cons rfl (.nil _))))]
  congr 2
  simp [sum_range_succ, tableOf, table2]

/-- The hypotheses of `C178_retry` hold of a function that does fail. -/
example : (∀ tr x y, throwsOnce tr x = .ok y → y = (fun _ => 1 : V3 → ℝ) x) ∧ throwsOnce [] 0 = .throws .runtimeError := by
  refine ⟨fun tr x y h => ?_, rfl⟩
  cases tr with
  | nil => cases h
  | cons _ _ => injection h with h; exact h.symm

end MU
