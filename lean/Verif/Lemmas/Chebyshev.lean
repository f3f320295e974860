import Verif.Lemmas.ChebyshevMath
import Verif.Lemmas.Store
import Verif.Lemmas.PowerSeries
import Verif.Spec.Chebyshev

set_option linter.unusedSectionVars false

/-!
# What the methods of the Chebyshev series compute
-/

namespace MU
open Spec Finset Polynomial

theorem unitNode_eq (n r : Nat) : unitNode n r = chebNode n r := by
  unfold unitNode chebNode
  congr 1
  have hn : ((n : ℝ) + 1) ≠ 0 := by positivity
  field_simp

theorem abscissae_ok {s : Seg ℝ} (n : Nat) :
    abscissae s n = .ok ((List.range (n + 1)).map (fun r => (chebNode n r, s.dom.node n r))) := by
  unfold abscissae
  refine collect_ok (fun r => (chebNode n r, s.dom.node n r)) ?_
  intro r hr
  have hlt := chebNode_lt_one (n := n) (r := r) (by omega)
  cases s with
  | closed a b =>
    simp only [Seg.toSegment, Res.ok_bind, Res.pure_eq, Seg.dom, Domain.node, unitNode_eq]
    congr 2
    ring
  | opened a =>
    have : 1 - chebNode n r ≠ 0 := by linarith
    simp only [Seg.toSegment, Seg.dom, Domain.node, unitNode_eq]
    rw [fdiv_ok this]
    simp only [Res.ok_bind, Res.pure_eq]
    congr 2
    ring

theorem node_defined {X : Domain ℝ} (hX : X.Proper) {n r : Nat} (hr : r ≤ n) :
    X.Defined (X.node n r) ∧ X.unit (X.node n r) = chebNode n r := by
  have hlt := chebNode_lt_one hr
  have h1 : 1 - chebNode n r ≠ 0 := by linarith
  cases X with
  | segment a b =>
    have hab : b - a ≠ 0 := sub_ne_zero.mpr (Ne.symm hX)
    refine ⟨hX, ?_⟩
    simp only [Domain.unit, Domain.node, unitNode_eq]
    field_simp
    ring
  | halfLine a =>
    have ha : a ≠ 0 := hX
    refine ⟨div_ne_zero (mul_ne_zero two_ne_zero ha) (by rw [unitNode_eq]; exact h1), ?_⟩
    simp only [Domain.unit, Domain.node, unitNode_eq]
    field_simp
    ring

/-! ## One variable -/

namespace CS1

/-- The coefficients held by an object. -/
structure Holds (s : CS1 ℝ) (F : ℝ → ℝ) (n : Nat) (sx : Seg ℝ) (a : Nat → ℝ) : Prop where
  function : s.m_function = F
  order : s.m_order_x = n
  seg : s.m_x = sx
  coeffs : s.m_ai = (List.range (n + 1)).map a

variable {s : CS1 ℝ} {F : ℝ → ℝ} {n : Nat} {sx : Seg ℝ} {a : Nat → ℝ}

theorem fresh_holds (F : ℝ → ℝ) (n : Nat) (sx : Seg ℝ) : (CS1.base F sx n).Holds F n sx (fun _ => 0) :=
  ⟨rfl, rfl, rfl, by simp [CS1.base]⟩

/-- The coefficient `i` after `Compute_ai`. -/
noncomputable def next (F : ℝ → ℝ) (n : Nat) (X : Domain ℝ) (i : Nat) (v : ℝ) : ℝ :=
  (v + ∑ r ∈ Ico 0 (n + 1), F (X.node n r) * chebT i (chebNode n r)) * chebWeight n i

theorem computeAi_ok (B : Build) (h : s.Holds F n sx a) :
    ∃ s', s.computeAi B = .ok s' ∧ s'.Holds F n sx (fun i => next F n sx.dom i (a i)) := by
  obtain ⟨rfl, rfl, rfl, ha⟩ := h
  have hn : ((s.m_order_x : ℝ) + 1) ≠ 0 := by positivity
  unfold computeAi
  rw [abscissae_ok, Res.ok_bind, ha]
  let S := vecStore ℝ B (s.m_order_x + 1)
  refine ⟨_, (Res.bind_of_eq (S.sweep (fun i p => p = i) (next s.m_function s.m_order_x s.m_x.dom) (by intro i j p h1 h2; omega)
    (fun i hi e => ?_) a)).trans rfl, rfl, rfl, rfl, ?_⟩
  · refine (Res.bind_of_eq (S.accum (p := i) (Nat.zero_le _)
      (fun r => s.m_function (s.m_x.dom.node s.m_order_x r) * chebT i (chebNode s.m_order_x r)) (fun r _ hr e => ?_) e)).trans ?_
    · rw [vAt_map _ hr, Res.ok_bind]
      exact S.modify hi e _
    refine (Res.bind_of_eq (S.get_ok _ i hi)).trans ((Res.bind_of_eq (S.set_ok _ i _ hi)).trans ?_)
    rw [Function.update_idem, Function.update_self, Store.update_eq_if i (next s.m_function s.m_order_x s.m_x.dom) e]
    split_ifs with h0
    · refine (Res.bind_of_eq (S.get_ok _ i hi)).trans ((S.set_ok _ i _ hi).trans ?_)
      rw [Function.update_idem, Function.update_self, next, chebWeight, if_pos h0]
      congr 3
      field_simp
    · rw [next, chebWeight, if_neg h0]
      rfl
  · refine List.map_congr_left (fun i hi => ?_)
    rw [pick_pos ⟨i, by simpa using hi, rfl⟩]

theorem evaluate_ok (B : Build) (h : s.Holds F n sx a) {x : ℝ} (hx : sx.dom.Defined x) :
    s.evaluate B x = .ok (cheb1 n a (sx.dom.unit x)) := by
  obtain ⟨rfl, rfl, rfl, ha⟩ := h
  unfold evaluate
  rw [Seg.toUnit_ok hx, Res.ok_bind, ha, collect_ok a (fun i hi => eAt_map B a hi), Res.ok_bind, clenshaw_map]
  simp only [cheb1, chebT_eq]

theorem derivX_ok (B : Build) (h : s.Holds F n sx a) {x : ℝ} (hx : sx.dom.Defined x) :
    s.evaluateDerivativeX B x =
      .ok (sx.coef x * ∑ i ∈ range (n + 1), a i * (derivative (Chebyshev.T ℝ i)).eval (sx.dom.unit x)) := by
  obtain ⟨rfl, rfl, rfl, ha⟩ := h
  unfold evaluateDerivativeX
  rw [Seg.toUnit_ok hx, Res.ok_bind]
  rw [Res.bind_of_eq (sum_loop (Nat.zero_le _) (fun i => chebTPrime i (s.m_x.dom.unit x) * a i) (fun i _ hi acc => by
    rw [ha, eAt_map B a hi]; rfl) 0)]
  rw [Seg.coefficientDerivative_ok hx, Res.ok_bind, Res.pure_eq, zero_add, mul_comm, range_eq_Ico]
  congr 2
  exact sum_congr rfl (fun i _ => by rw [chebTPrime_eq, mul_comm])

theorem computeBi_ok (B : Build) (h : s.Holds F n sx a) (hn : n ≤ 18) :
    s.computeBi B = .ok ((List.range (n + 1)).map (fun i => ∑ r ∈ Ico i (n + 1), a r * transformationCoefficient r i)) := by
  obtain ⟨rfl, rfl, rfl, ha⟩ := h
  unfold computeBi
  rw [if_neg (by omega)]
  let S := vecStore ℝ B (s.m_order_x + 1)
  have hz : List.replicate (s.m_order_x + 1) (0 : ℝ) = S.rep (fun _ => 0) := by simp [S, vecStore]
  rw [hz]
  refine (S.sweep (fun i p => p = i) (fun i v => v + ∑ r ∈ Ico i (s.m_order_x + 1), a r * transformationCoefficient r i)
    (by intro i j p h1 h2; omega) (fun i hi e => ?_) _).trans ?_
  · refine (S.accum (p := i) (by omega) (fun r => a r * transformationCoefficient r i) (fun r h1 hr e => ?_) e).trans ?_
    · rw [ha]
      simp only [eAt_map B a hr, Res.ok_bind]
      exact S.modify hi e _
    · rw [Store.update_eq_if i (fun i v => v + ∑ r ∈ Ico i (s.m_order_x + 1), a r * transformationCoefficient r i) e]
  · congr 1
    refine List.map_congr_left (fun i hi => ?_)
    rw [pick_pos ⟨i, by simpa using hi, rfl⟩, zero_add]

end CS1

/-- The sums of `Compute_bi` give the same function. -/
theorem cheb_to_power (n : Nat) (a : Nat → ℝ) (u : ℝ) :
    poly1 (n + 1) (fun i => ∑ r ∈ Ico i (n + 1), a r * transformationCoefficient r i) u = cheb1 n a u := by
  unfold poly1 cheb1
  simp only [← chebT_eq, ← chebT_monomials, sum_mul, mul_sum]
  rw [sum_sigma', sum_sigma']
  refine sum_bij' (fun p _ => ⟨p.2, p.1⟩) (fun p _ => ⟨p.2, p.1⟩) ?_ ?_ ?_ ?_ ?_
  · rintro ⟨i, r⟩ h; simp only [mem_sigma, mem_range, mem_Ico] at *; omega
  · rintro ⟨i, r⟩ h; simp only [mem_sigma, mem_range, mem_Ico] at *; omega
  · intros; rfl
  · intros; rfl
  · rintro ⟨i, r⟩ _; ring

/-! ## Two variables -/

namespace CS2

/-- The coefficients held by an object. -/
structure Holds (s : CS2 ℝ) (F : ℝ → ℝ → ℝ) (n m : Nat) (sx sy : Seg ℝ) (a : Nat × Nat → ℝ) : Prop where
  function : s.m_function = F
  order_x : s.m_order_x = n
  order_y : s.m_order_y = m
  seg_x : s.m_x = sx
  seg_y : s.m_y = sy
  coeffs : ∃ e : Nat × Nat → ℝ, s.m_aij = ⟨n + 1, m + 1, fun i j => e (i, j)⟩ ∧ ∀ i j, i < n + 1 → j < m + 1 → e (i, j) = a (i, j)

variable {s : CS2 ℝ} {F : ℝ → ℝ → ℝ} {n m : Nat} {sx sy : Seg ℝ} {a : Nat × Nat → ℝ}

theorem fresh_holds (F : ℝ → ℝ → ℝ) (n m : Nat) (sx sy : Seg ℝ) : (CS2.base F sx sy n m).Holds F n m sx sy (fun _ => 0) :=
  ⟨rfl, rfl, rfl, rfl, rfl, fun _ => 0, rfl, fun _ _ _ _ => rfl⟩

/-- The coefficient `(i, j)` after `Compute_aij`. -/
noncomputable def next (F : ℝ → ℝ → ℝ) (n m : Nat) (X Y : Domain ℝ) (p : Nat × Nat) (v : ℝ) : ℝ :=
  (v + ∑ r ∈ Ico 0 (n + 1), ∑ t ∈ Ico 0 (m + 1),
    F (X.node n r) (Y.node m t) * chebT p.1 (chebNode n r) * chebT p.2 (chebNode m t)) * (chebWeight n p.1 * chebWeight m p.2)

theorem computeAij_ok (B : Build) (h : s.Holds F n m sx sy a) :
    ∃ s', s.computeAij B = .ok s' ∧ s'.Holds F n m sx sy (fun p => next F n m sx.dom sy.dom p (a p)) := by
  obtain ⟨rfl, rfl, rfl, rfl, rfl, e0, he, hea⟩ := h
  have hn : ((s.m_order_x : ℝ) + 1) ≠ 0 := by positivity
  have hm : ((s.m_order_y : ℝ) + 1) ≠ 0 := by positivity
  unfold computeAij
  rw [abscissae_ok, Res.ok_bind, abscissae_ok, Res.ok_bind, he]
  let S := matStore ℝ B (s.m_order_x + 1) (s.m_order_y + 1)
  let f := next s.m_function s.m_order_x s.m_order_y s.m_x.dom s.m_y.dom
  refine ⟨_, (Res.bind_of_eq (S.sweep (fun i p => ∃ j, j < s.m_order_y + 1 ∧ p = (i, j)) f
    (by rintro i j p ⟨_, _, rfl⟩ ⟨_, _, h⟩; exact congrArg Prod.fst h)
    (fun i hi e => S.sweep (fun j p => p = (i, j)) f (by intro i j p h1 h2; rw [h1] at h2; exact congrArg Prod.snd h2)
      (fun j hj e => ?_) e) e0)).trans rfl, rfl, rfl, rfl, rfl, rfl, (fun p => pick (∃ i, i < s.m_order_x + 1 ∧ ∃ j, j < s.m_order_y + 1 ∧ p = (i, j)) (f p (e0 p)) (e0 p)), rfl, ?_⟩
  · have hv : S.valid (i, j) := ⟨hi, hj⟩
    refine (Res.bind_of_eq (S.accum (p := (i, j)) (Nat.zero_le _)
      (fun r => ∑ t ∈ Ico 0 (s.m_order_y + 1), s.m_function (s.m_x.dom.node s.m_order_x r) (s.m_y.dom.node s.m_order_y t) *
        chebT i (chebNode s.m_order_x r) * chebT j (chebNode s.m_order_y t)) (fun r _ hr e => ?_) e)).trans ?_
    · rw [vAt_map _ hr, Res.ok_bind]
      refine S.accum (p := (i, j)) (Nat.zero_le _) _ (fun t _ ht e => ?_) e
      rw [vAt_map _ ht, Res.ok_bind]
      exact S.modify hv e _
    refine (Res.bind_of_eq (S.get_ok _ (i, j) hv)).trans ((Res.bind_of_eq (S.set_ok _ (i, j) _ hv)).trans ?_)
    rw [Function.update_idem, Function.update_self, Store.update_eq_if (i, j) f e]
    simp only [f, next]
    split_ifs with h0 h1
    · refine (Res.bind_of_eq (S.get_ok _ (i, j) hv)).trans ((S.set_ok _ (i, j) _ hv).trans ?_)
      rw [Function.update_idem, Function.update_self, chebWeight, chebWeight, if_pos h0.1, if_pos h0.2]
      congr 3
      field_simp
    · refine (Res.bind_of_eq (S.get_ok _ (i, j) hv)).trans ((S.set_ok _ (i, j) _ hv).trans ?_)
      rw [Function.update_idem, Function.update_self, chebWeight, chebWeight]
      congr 3
      rcases h1 with ⟨h1, h2⟩ | ⟨h1, h2⟩
      · rw [if_pos h1, if_neg h2]
        field_simp
        norm_num
      · rw [if_neg h1, if_pos h2]
        field_simp
        norm_num
    · rw [Res.pure_eq, chebWeight, chebWeight, if_neg (by omega), if_neg (by omega)]
      congr 3
      field_simp
      norm_num
  · intro i j hi hj
    show pick _ _ _ = _
    rw [pick_pos ⟨i, hi, j, hj, rfl⟩, hea i j hi hj]

theorem evaluate_ok (B : Build) (h : s.Holds F n m sx sy a) {x y : ℝ} (hx : sx.dom.Defined x) (hy : sy.dom.Defined y) :
    s.evaluate B x y = .ok (cheb2 n m (fun i j => a (i, j)) (sx.dom.unit x) (sy.dom.unit y)) := by
  obtain ⟨rfl, rfl, rfl, rfl, rfl, e0, he, hea⟩ := h
  unfold evaluate
  rw [Seg.toUnit_ok hx, Res.ok_bind, Seg.toUnit_ok hy, Res.ok_bind, he]
  rw [Res.bind_of_eq (collect_ok (fun i => ∑ j ∈ range (s.m_order_y + 1), e0 (i, j) * chebT j (s.m_y.dom.unit y)) (fun i hi => by
    rw [Mat.row_lt hi, Res.ok_bind, clenshaw_map])), clenshaw_map]
  unfold cheb2
  congr 1
  refine sum_congr rfl (fun i hi => ?_)
  rw [sum_mul]
  refine sum_congr rfl (fun j hj => ?_)
  rw [hea i j (mem_range.mp hi) (mem_range.mp hj), chebT_eq, chebT_eq]
  ring

theorem derivX_ok (B : Build) (h : s.Holds F n m sx sy a) {x y : ℝ} (hx : sx.dom.Defined x) (hy : sy.dom.Defined y) :
    s.evaluateDerivativeX B x y = .ok (sx.coef x * ∑ i ∈ range (n + 1), ∑ j ∈ range (m + 1),
      a (i, j) * (derivative (Chebyshev.T ℝ i)).eval (sx.dom.unit x) * (Chebyshev.T ℝ j).eval (sy.dom.unit y)) := by
  obtain ⟨rfl, rfl, rfl, rfl, rfl, e0, he, hea⟩ := h
  unfold evaluateDerivativeX
  rw [Seg.toUnit_ok hx, Res.ok_bind, Seg.toUnit_ok hy, Res.ok_bind, he]
  rw [Res.bind_of_eq (sum_loop (Nat.zero_le _) (fun i => chebTPrime i (s.m_x.dom.unit x) *
      ∑ j ∈ range (s.m_order_y + 1), e0 (i, j) * chebT j (s.m_y.dom.unit y)) (fun i _ hi acc => by
    simp only [Mat.row_lt (m := ⟨s.m_order_x + 1, s.m_order_y + 1, fun i j => e0 (i, j)⟩) hi, Res.ok_bind]
    obtain ⟨l', h1, h2⟩ := clenshaw_double (l := (List.range (s.m_order_y + 1)).map (fun j => e0 (i, j))) (by simp) (s.m_y.dom.unit y)
    rw [h1, Res.ok_bind, Res.pure_eq, h2]
    simp only [List.length_map, List.length_range]
    congr 3
    refine sum_congr rfl (fun j hj => ?_)
    simp [List.getD, mem_range.mp hj]) 0)]
  rw [Seg.coefficientDerivative_ok hx, Res.ok_bind, Res.pure_eq, zero_add, mul_comm, ← range_eq_Ico]
  congr 2
  refine sum_congr rfl (fun i hi => ?_)
  rw [mul_sum]
  refine sum_congr rfl (fun j hj => ?_)
  rw [hea i j (mem_range.mp hi) (mem_range.mp hj), chebTPrime_eq, chebT_eq]
  ring

theorem derivY_ok (B : Build) (h : s.Holds F n m sx sy a) {x y : ℝ} (hx : sx.dom.Defined x) (hy : sy.dom.Defined y) :
    s.evaluateDerivativeY B x y = .ok (sy.coef y * ∑ i ∈ range (n + 1), ∑ j ∈ range (m + 1),
      a (i, j) * (Chebyshev.T ℝ i).eval (sx.dom.unit x) * (derivative (Chebyshev.T ℝ j)).eval (sy.dom.unit y)) := by
  obtain ⟨rfl, rfl, rfl, rfl, rfl, e0, he, hea⟩ := h
  unfold evaluateDerivativeY
  rw [Seg.toUnit_ok hx, Res.ok_bind, Seg.toUnit_ok hy, Res.ok_bind, he]
  rw [Res.bind_of_eq (sum_loop (Nat.zero_le _) (fun j => chebTPrime j (s.m_y.dom.unit y) *
      ∑ i ∈ range (s.m_order_x + 1), e0 (i, j) * chebT i (s.m_x.dom.unit x)) (fun j _ hj acc => by
    simp only [Mat.col_lt (m := ⟨s.m_order_x + 1, s.m_order_y + 1, fun i j => e0 (i, j)⟩) hj, Res.ok_bind]
    obtain ⟨l', h1, h2⟩ := clenshaw_double (l := (List.range (s.m_order_x + 1)).map (fun i => e0 (i, j))) (by simp) (s.m_x.dom.unit x)
    rw [h1, Res.ok_bind, Res.pure_eq, h2]
    simp only [List.length_map, List.length_range]
    congr 3
    refine sum_congr rfl (fun i hi => ?_)
    simp [List.getD, mem_range.mp hi]) 0)]
  rw [Seg.coefficientDerivative_ok hy, Res.ok_bind, Res.pure_eq, zero_add, mul_comm, ← range_eq_Ico, sum_comm]
  congr 2
  refine sum_congr rfl (fun j hj => ?_)
  rw [mul_sum]
  refine sum_congr rfl (fun i hi => ?_)
  rw [hea i j (mem_range.mp hi) (mem_range.mp hj), chebTPrime_eq, chebT_eq]
  ring

theorem computeBij_ok (B : Build) (h : s.Holds F n m sx sy a) (hn : n ≤ 18) (hm : m ≤ 18) :
    ∃ b : Mat ℝ, s.computeBij B = .ok b ∧ b.rows = n + 1 ∧ b.cols = m + 1 ∧ ∀ i j, i < n + 1 → j < m + 1 →
      b.entry i j = ∑ r ∈ Ico i (n + 1), (∑ t ∈ Ico j (m + 1), a (r, t) * transformationCoefficient t j) * transformationCoefficient r i := by
  obtain ⟨rfl, rfl, rfl, rfl, rfl, e0, he, hea⟩ := h
  unfold computeBij
  rw [if_neg (by omega), he]
  let S := matStore ℝ B (s.m_order_x + 1) (s.m_order_y + 1)
  let f : Nat × Nat → ℝ → ℝ := fun p v => v + ∑ r ∈ Ico p.1 (s.m_order_x + 1), (∑ t ∈ Ico p.2 (s.m_order_y + 1),
    a (r, t) * transformationCoefficient t p.2) * transformationCoefficient r p.1
  refine ⟨_, S.sweep (fun i p => ∃ j, j < s.m_order_y + 1 ∧ p = (i, j)) f
    (by rintro i j p ⟨_, _, rfl⟩ ⟨_, _, h⟩; exact congrArg Prod.fst h)
    (fun i hi e => S.sweep (fun j p => p = (i, j)) f (by intro i j p h1 h2; rw [h1] at h2; exact congrArg Prod.snd h2)
      (fun j hj e => ?_) e) (fun _ => 0), rfl, rfl, ?_⟩
  · have hv : S.valid (i, j) := ⟨hi, hj⟩
    refine (S.accum (p := (i, j)) (by omega) (fun r => (∑ t ∈ Ico j (s.m_order_y + 1),
      a (r, t) * transformationCoefficient t j) * transformationCoefficient r i) (fun r h1 hr e => ?_) e).trans ?_
    · refine (Res.bind_of_eq (sum_loop (by omega) (fun t => a (r, t) * transformationCoefficient t j) (fun t _ ht acc => ?_) 0)).trans ?_
      · rw [Mat.at_lt hr ht, Res.ok_bind, Res.pure_eq]
        simp only [hea r t hr ht]
      · rw [zero_add]
        exact S.modify hv e _
    · rw [Store.update_eq_if (i, j) f e]
  · intro i j hi hj
    show pick _ _ _ = _
    rw [pick_pos ⟨i, hi, j, hj, rfl⟩]
    simp only [f, zero_add]

end CS2

/-- The sums of `Compute_bij` give the same function. -/
theorem cheb_to_power2 (n m : Nat) (a : Nat × Nat → ℝ) (u v : ℝ) :
    poly2 (n + 1) (m + 1) (fun i j => ∑ r ∈ Ico i (n + 1), (∑ t ∈ Ico j (m + 1), a (r, t) * transformationCoefficient t j) *
      transformationCoefficient r i) u v = cheb2 n m (fun i j => a (i, j)) u v := by
  have h1 : cheb2 n m (fun i j => a (i, j)) u v = cheb1 n (fun i => cheb1 m (fun j => a (i, j)) v) u := by
    simp only [cheb1, cheb2, sum_mul]
    exact sum_congr rfl (fun i _ => sum_congr rfl (fun j _ => by ring))
  rw [h1, ← cheb_to_power, ← poly2_eq]
  refine poly1_congr (K := ℝ) (fun i _ => ?_) u
  simp only [← cheb_to_power]
  simp only [poly1, sum_mul]
  rw [sum_comm]
  exact sum_congr rfl (fun r _ => sum_congr rfl (fun j _ => sum_congr rfl (fun t _ => by ring)))

theorem poly1_sum {n : Nat} (s : Finset Nat) (g : Nat → Nat → ℝ) (c : Nat → ℝ) (u : ℝ) :
    poly1 n (fun k => ∑ r ∈ s, g k r * c r) u = ∑ r ∈ s, poly1 n (fun k => g k r) u * c r := by
  simp only [poly1, sum_mul]
  rw [sum_comm]
  exact sum_congr rfl (fun r _ => sum_congr rfl (fun k _ => by ring))

/-! ## Three variables -/

namespace CS3

/-- The coefficients held by an object. -/
structure Holds (s : CS3 ℝ) (F : ℝ → ℝ → ℝ → ℝ) (n m l : Nat) (sx sy sz : Seg ℝ) (a : Nat × Nat × Nat → ℝ) : Prop where
  function : s.m_function = F
  order_x : s.m_order_x = n
  order_y : s.m_order_y = m
  order_z : s.m_order_z = l
  seg_x : s.m_x = sx
  seg_y : s.m_y = sy
  seg_z : s.m_z = sz
  coeffs : ∃ e : Nat × Nat × Nat → ℝ, s.m_aijk = (List.range (l + 1)).map (fun k => ⟨n + 1, m + 1, fun i j => e (i, j, k)⟩) ∧
    ∀ i j k, i < n + 1 → j < m + 1 → k < l + 1 → e (i, j, k) = a (i, j, k)

variable {s : CS3 ℝ} {F : ℝ → ℝ → ℝ → ℝ} {n m l : Nat} {sx sy sz : Seg ℝ} {a : Nat × Nat × Nat → ℝ}

theorem fresh_holds (F : ℝ → ℝ → ℝ → ℝ) (n m l : Nat) (sx sy sz : Seg ℝ) :
    (CS3.base F sx sy sz n m l).Holds F n m l sx sy sz (fun _ => 0) :=
  ⟨rfl, rfl, rfl, rfl, rfl, rfl, rfl, fun _ => 0, by simp [CS3.base, Mat.zero], fun _ _ _ _ _ _ => rfl⟩

theorem get_ok (B : Build) {n m l : Nat} (e : Nat × Nat × Nat → ℝ) {i j k : Nat} (hi : i < n) (hj : j < m) (hk : k < l) :
    cubeGet B ((List.range l).map (fun k => ⟨n, m, fun i j => e (i, j, k)⟩)) i j k = .ok (e (i, j, k)) :=
  (cubeStore ℝ B n m l).get_ok e (i, j, k) ⟨hi, hj, hk⟩

/-- The coefficient `(i, j, k)` after `Compute_aijk`. -/
noncomputable def next (F : ℝ → ℝ → ℝ → ℝ) (n m l : Nat) (X Y Z : Domain ℝ) (p : Nat × Nat × Nat) (v : ℝ) : ℝ :=
  (v + ∑ r ∈ Ico 0 (n + 1), ∑ q ∈ Ico 0 (m + 1), ∑ t ∈ Ico 0 (l + 1),
    F (X.node n r) (Y.node m q) (Z.node l t) * chebT p.1 (chebNode n r) * chebT p.2.1 (chebNode m q) * chebT p.2.2 (chebNode l t))
    * (chebWeight n p.1 * chebWeight m p.2.1 * chebWeight l p.2.2)

theorem computeAijk_ok (B : Build) (h : s.Holds F n m l sx sy sz a) :
    ∃ s', s.computeAijk B = .ok s' ∧ s'.Holds F n m l sx sy sz (fun p => next F n m l sx.dom sy.dom sz.dom p (a p)) := by
  obtain ⟨rfl, rfl, rfl, rfl, rfl, rfl, rfl, e0, he, hea⟩ := h
  have hn : ((s.m_order_x : ℝ) + 1) ≠ 0 := by positivity
  have hm : ((s.m_order_y : ℝ) + 1) ≠ 0 := by positivity
  have hl : ((s.m_order_z : ℝ) + 1) ≠ 0 := by positivity
  unfold computeAijk
  rw [abscissae_ok, Res.ok_bind, abscissae_ok, Res.ok_bind, abscissae_ok, Res.ok_bind, he]
  let S := cubeStore ℝ B (s.m_order_x + 1) (s.m_order_y + 1) (s.m_order_z + 1)
  let f := next s.m_function s.m_order_x s.m_order_y s.m_order_z s.m_x.dom s.m_y.dom s.m_z.dom
  refine ⟨_, (Res.bind_of_eq (S.sweep (fun i p => ∃ j, j < s.m_order_y + 1 ∧ ∃ k, k < s.m_order_z + 1 ∧ p = (i, j, k)) f
    (by rintro i j p ⟨_, _, _, _, rfl⟩ ⟨_, _, _, _, h⟩; exact congrArg Prod.fst h)
    (fun i hi e => S.sweep (fun j p => ∃ k, k < s.m_order_z + 1 ∧ p = (i, j, k)) f
      (by rintro i j p ⟨_, _, rfl⟩ ⟨_, _, h⟩; exact congrArg (fun p => p.2.1) h)
      (fun j hj e => S.sweep (fun k p => p = (i, j, k)) f
        (by intro i j p h1 h2; rw [h1] at h2; exact congrArg (fun p => p.2.2) h2)
        (fun k hk e => ?_) e) e) e0)).trans rfl, rfl, rfl, rfl, rfl, rfl, rfl, rfl,
    (fun p => pick (∃ i, i < s.m_order_x + 1 ∧ ∃ j, j < s.m_order_y + 1 ∧ ∃ k, k < s.m_order_z + 1 ∧ p = (i, j, k)) (f p (e0 p)) (e0 p)),
    rfl, ?_⟩
  · have hv : S.valid (i, j, k) := ⟨hi, hj, hk⟩
    refine (Res.bind_of_eq (S.accum (p := (i, j, k)) (Nat.zero_le _)
      (fun r => ∑ q ∈ Ico 0 (s.m_order_y + 1), ∑ t ∈ Ico 0 (s.m_order_z + 1),
        s.m_function (s.m_x.dom.node s.m_order_x r) (s.m_y.dom.node s.m_order_y q) (s.m_z.dom.node s.m_order_z t) *
        chebT i (chebNode s.m_order_x r) * chebT j (chebNode s.m_order_y q) * chebT k (chebNode s.m_order_z t))
        (fun r _ hr e => ?_) e)).trans ?_
    · rw [vAt_map _ hr, Res.ok_bind]
      refine S.accum (p := (i, j, k)) (Nat.zero_le _) (fun q => ∑ t ∈ Ico 0 (s.m_order_z + 1),
        s.m_function (s.m_x.dom.node s.m_order_x r) (s.m_y.dom.node s.m_order_y q) (s.m_z.dom.node s.m_order_z t) *
        chebT i (chebNode s.m_order_x r) * chebT j (chebNode s.m_order_y q) * chebT k (chebNode s.m_order_z t)) (fun q _ hq e => ?_) e
      rw [vAt_map _ hq, Res.ok_bind]
      refine S.accum (p := (i, j, k)) (Nat.zero_le _) _ (fun t _ ht e => ?_) e
      rw [vAt_map _ ht, Res.ok_bind]
      exact S.modify hv e _
    refine (Res.bind_of_eq (S.get_ok _ (i, j, k) hv)).trans ((Res.bind_of_eq (S.set_ok _ (i, j, k) _ hv)).trans ?_)
    rw [Function.update_idem, Function.update_self, Store.update_eq_if (i, j, k) f e]
    simp only [f, next]
    have scale : ∀ (σ W c w : ℝ), W / c = w → σ * W / c = σ * w := fun σ W c w h => by rw [← h, mul_div_assoc]
    split_ifs with h0 h1 h2
    · refine (Res.bind_of_eq (S.get_ok _ (i, j, k) hv)).trans ((S.set_ok _ (i, j, k) _ hv).trans ?_)
      rw [Function.update_idem, Function.update_self, chebWeight, chebWeight, chebWeight, if_pos h0.1, if_pos h0.2.1, if_pos h0.2.2]
      congr 3
      refine scale _ _ _ _ ?_
      field_simp
    · refine (Res.bind_of_eq (S.get_ok _ (i, j, k) hv)).trans ((S.set_ok _ (i, j, k) _ hv).trans ?_)
      rw [Function.update_idem, Function.update_self, chebWeight, chebWeight, chebWeight]
      congr 3
      refine scale _ _ _ _ ?_
      rcases h1 with ⟨h1, h2, h3⟩ | ⟨h1, h2, h3⟩ | ⟨h1, h2, h3⟩ <;> simp only [h1, h2, h3, if_true, if_false] <;> field_simp <;> norm_num
    · refine (Res.bind_of_eq (S.get_ok _ (i, j, k) hv)).trans ((S.set_ok _ (i, j, k) _ hv).trans ?_)
      rw [Function.update_idem, Function.update_self, chebWeight, chebWeight, chebWeight]
      congr 3
      refine scale _ _ _ _ ?_
      rcases h2 with ⟨h1, h2, h3⟩ | ⟨h1, h2, h3⟩ | ⟨h1, h2, h3⟩ <;> simp only [h1, h2, h3, if_true, if_false] <;> field_simp <;> norm_num
    · rw [Res.pure_eq, chebWeight, chebWeight, chebWeight, if_neg (by omega), if_neg (by omega), if_neg (by omega)]
      congr 4
      field_simp
      norm_num
  · intro i j k hi hj hk
    show pick _ _ _ = _
    rw [pick_pos ⟨i, hi, j, hj, k, hk, rfl⟩, hea i j k hi hj hk]

theorem evaluate_ok (B : Build) (h : s.Holds F n m l sx sy sz a) {x y z : ℝ} (hx : sx.dom.Defined x) (hy : sy.dom.Defined y)
    (hz : sz.dom.Defined z) :
    s.evaluate B x y z = .ok (cheb3 n m l (fun i j k => a (i, j, k)) (sx.dom.unit x) (sy.dom.unit y) (sz.dom.unit z)) := by
  obtain ⟨rfl, rfl, rfl, rfl, rfl, rfl, rfl, e0, he, hea⟩ := h
  unfold evaluate
  rw [Seg.toUnit_ok hx, Res.ok_bind, Seg.toUnit_ok hy, Res.ok_bind, Seg.toUnit_ok hz, Res.ok_bind, he]
  rw [Res.bind_of_eq (collect_ok (fun i => ∑ j ∈ range (s.m_order_y + 1), (∑ k ∈ range (s.m_order_z + 1),
      e0 (i, j, k) * chebT k (s.m_z.dom.unit z)) * chebT j (s.m_y.dom.unit y)) (fun i hi => by
    rw [Res.bind_of_eq (collect_ok (fun j => ∑ k ∈ range (s.m_order_z + 1), e0 (i, j, k) * chebT k (s.m_z.dom.unit z)) (fun j hj => by
      rw [Res.bind_of_eq (collect_ok (fun k => e0 (i, j, k)) (fun k hk => get_ok B e0 hi hj hk)), clenshaw_map])), clenshaw_map])),
    clenshaw_map]
  unfold cheb3
  congr 1
  refine sum_congr rfl (fun i hi => ?_)
  rw [sum_mul]
  refine sum_congr rfl (fun j hj => ?_)
  rw [sum_mul, sum_mul]
  refine sum_congr rfl (fun k hk => ?_)
  rw [hea i j k (mem_range.mp hi) (mem_range.mp hj) (mem_range.mp hk), chebT_eq, chebT_eq, chebT_eq]
  ring

theorem sumLoop_ok (B : Build) (h : s.Holds F n m l sx sy sz a) (tx ty tz : Nat → ℝ) :
    s.sumLoop B tx ty tz = .ok (∑ i ∈ range (n + 1), ∑ j ∈ range (m + 1), ∑ k ∈ range (l + 1), a (i, j, k) * tx i * ty j * tz k) := by
  obtain ⟨rfl, rfl, rfl, rfl, rfl, rfl, rfl, e0, he, hea⟩ := h
  unfold sumLoop
  rw [he]
  refine (sum_loop (Nat.zero_le _) (fun i => ∑ j ∈ Ico 0 (s.m_order_y + 1), ∑ k ∈ Ico 0 (s.m_order_z + 1), a (i, j, k) * tx i * ty j * tz k)
    (fun i _ hi acc => sum_loop (Nat.zero_le _) (fun j => ∑ k ∈ Ico 0 (s.m_order_z + 1), a (i, j, k) * tx i * ty j * tz k)
      (fun j _ hj acc => sum_loop (Nat.zero_le _) (fun k => a (i, j, k) * tx i * ty j * tz k) (fun k _ hk acc => ?_) acc) acc) 0).trans ?_
  · rw [get_ok B e0 hi hj hk, Res.ok_bind, Res.pure_eq, hea i j k hi hj hk]
  · rw [zero_add]
    simp only [range_eq_Ico]

theorem derivX_ok (B : Build) (h : s.Holds F n m l sx sy sz a) {x y z : ℝ} (hx : sx.dom.Defined x) (hy : sy.dom.Defined y)
    (hz : sz.dom.Defined z) :
    s.evaluateDerivativeX B x y z = .ok (sx.coef x * ∑ i ∈ range (n + 1), ∑ j ∈ range (m + 1), ∑ k ∈ range (l + 1),
      a (i, j, k) * (derivative (Chebyshev.T ℝ i)).eval (sx.dom.unit x) * (Chebyshev.T ℝ j).eval (sy.dom.unit y) * (Chebyshev.T ℝ k).eval (sz.dom.unit z)) := by
  unfold evaluateDerivativeX
  simp only [sumLoop_ok B h, h.seg_x, h.seg_y, h.seg_z]
  rw [Seg.toUnit_ok hx, Res.ok_bind, Seg.toUnit_ok hy, Res.ok_bind, Seg.toUnit_ok hz, Res.ok_bind]
  rw [Seg.coefficientDerivative_ok hx]
  simp only [Res.ok_bind, Res.pure_eq, chebTPrime_eq, chebT_eq]
  rw [mul_comm]

theorem derivY_ok (B : Build) (h : s.Holds F n m l sx sy sz a) {x y z : ℝ} (hx : sx.dom.Defined x) (hy : sy.dom.Defined y)
    (hz : sz.dom.Defined z) :
    s.evaluateDerivativeY B x y z = .ok (sy.coef y * ∑ i ∈ range (n + 1), ∑ j ∈ range (m + 1), ∑ k ∈ range (l + 1),
      a (i, j, k) * (Chebyshev.T ℝ i).eval (sx.dom.unit x) * (derivative (Chebyshev.T ℝ j)).eval (sy.dom.unit y) * (Chebyshev.T ℝ k).eval (sz.dom.unit z)) := by
  unfold evaluateDerivativeY
  simp only [sumLoop_ok B h, h.seg_x, h.seg_y, h.seg_z]
  rw [Seg.toUnit_ok hx, Res.ok_bind, Seg.toUnit_ok hy, Res.ok_bind, Seg.toUnit_ok hz, Res.ok_bind]
  rw [Seg.coefficientDerivative_ok hy]
  simp only [Res.ok_bind, Res.pure_eq, chebTPrime_eq, chebT_eq]
  rw [mul_comm]

theorem derivZ_ok (B : Build) (h : s.Holds F n m l sx sy sz a) {x y z : ℝ} (hx : sx.dom.Defined x) (hy : sy.dom.Defined y)
    (hz : sz.dom.Defined z) :
    s.evaluateDerivativeZ B x y z = .ok (sz.coef z * ∑ i ∈ range (n + 1), ∑ j ∈ range (m + 1), ∑ k ∈ range (l + 1),
      a (i, j, k) * (Chebyshev.T ℝ i).eval (sx.dom.unit x) * (Chebyshev.T ℝ j).eval (sy.dom.unit y) * (derivative (Chebyshev.T ℝ k)).eval (sz.dom.unit z)) := by
  unfold evaluateDerivativeZ
  simp only [sumLoop_ok B h, h.seg_x, h.seg_y, h.seg_z]
  rw [Seg.toUnit_ok hx, Res.ok_bind, Seg.toUnit_ok hy, Res.ok_bind, Seg.toUnit_ok hz, Res.ok_bind]
  rw [Seg.coefficientDerivative_ok hz]
  simp only [Res.ok_bind, Res.pure_eq, chebTPrime_eq, chebT_eq]
  rw [mul_comm]

theorem computeBijk_ok (B : Build) (h : s.Holds F n m l sx sy sz a) (hn : n ≤ 18) (hm : m ≤ 18) (hl : l ≤ 18) :
    ∃ b : List (Mat ℝ), s.computeBijk B = .ok b ∧ Cube b (n + 1) (m + 1) (l + 1) (fun i j k =>
      ∑ r ∈ Ico i (n + 1), (∑ q ∈ Ico j (m + 1), (∑ t ∈ Ico k (l + 1), a (r, q, t) * transformationCoefficient t k) *
        transformationCoefficient q j) * transformationCoefficient r i) := by
  obtain ⟨rfl, rfl, rfl, rfl, rfl, rfl, rfl, e0, he, hea⟩ := h
  unfold computeBijk
  rw [if_neg (by omega), he]
  let S := cubeStore ℝ B (s.m_order_x + 1) (s.m_order_y + 1) (s.m_order_z + 1)
  have hz : List.replicate (s.m_order_z + 1) (Mat.zero (s.m_order_x + 1) (s.m_order_y + 1)) = S.rep (fun _ => (0 : ℝ)) := by
    simp [S, cubeStore, Mat.zero]
  rw [hz]
  let f : Nat × Nat × Nat → ℝ → ℝ := fun p v => v + ∑ r ∈ Ico p.1 (s.m_order_x + 1), (∑ q ∈ Ico p.2.1 (s.m_order_y + 1),
    (∑ t ∈ Ico p.2.2 (s.m_order_z + 1), a (r, q, t) * transformationCoefficient t p.2.2) * transformationCoefficient q p.2.1) *
      transformationCoefficient r p.1
  refine ⟨_, S.sweep (fun i p => ∃ j, j < s.m_order_y + 1 ∧ ∃ k, k < s.m_order_z + 1 ∧ p = (i, j, k)) f
    (by rintro i j p ⟨_, _, _, _, rfl⟩ ⟨_, _, _, _, h⟩; exact congrArg Prod.fst h)
    (fun i hi e => S.sweep (fun j p => ∃ k, k < s.m_order_z + 1 ∧ p = (i, j, k)) f
      (by rintro i j p ⟨_, _, rfl⟩ ⟨_, _, h⟩; exact congrArg (fun p => p.2.1) h)
      (fun j hj e => S.sweep (fun k p => p = (i, j, k)) f
        (by intro i j p h1 h2; rw [h1] at h2; exact congrArg (fun p => p.2.2) h2)
        (fun k hk e => ?_) e) e) (fun _ => 0), ?_⟩
  · have hv : S.valid (i, j, k) := ⟨hi, hj, hk⟩
    refine (S.accum (p := (i, j, k)) (by omega) (fun r => (∑ q ∈ Ico j (s.m_order_y + 1),
      (∑ t ∈ Ico k (s.m_order_z + 1), a (r, q, t) * transformationCoefficient t k) * transformationCoefficient q j) *
        transformationCoefficient r i) (fun r h1 hr e => ?_) e).trans ?_
    · refine (Res.bind_of_eq (sum_loop (by omega) (fun q => (∑ t ∈ Ico k (s.m_order_z + 1),
        a (r, q, t) * transformationCoefficient t k) * transformationCoefficient q j) (fun q _ hq acc => ?_) 0)).trans ?_
      · refine (Res.bind_of_eq (sum_loop (by omega) (fun t => a (r, q, t) * transformationCoefficient t k) (fun t _ ht acc => ?_) 0)).trans ?_
        · rw [get_ok B e0 hr hq ht, Res.ok_bind, Res.pure_eq]
          simp only [hea r q t hr hq ht]
        · rw [zero_add, Res.pure_eq]
      · rw [zero_add]
        exact S.modify hv e _
    · rw [Store.update_eq_if (i, j, k) f e]
  · refine ⟨by simp [S, cubeStore], ?_, by omega, by omega, by omega⟩
    intro k a' hk
    have hk' : k < s.m_order_z + 1 := by
      by_contra hc
      rw [List.getElem?_eq_none (by simp [S, cubeStore]; omega)] at hk
      cases hk
    simp only [S, cubeStore, List.getElem?_map, List.getElem?_range hk', Option.map_some, Option.some.injEq] at hk
    subst hk
    refine ⟨rfl, rfl, fun i j hi hj => ?_⟩
    show pick _ _ _ = _
    rw [pick_pos ⟨i, hi, j, hj, k, hk', rfl⟩]
    simp only [f, zero_add]

end CS3

theorem cheb2_eq (n m : Nat) (a : Nat → Nat → ℝ) (u v : ℝ) : cheb2 n m a u v = cheb1 n (fun i => cheb1 m (a i) v) u := by
  simp only [cheb1, cheb2, sum_mul]
  exact sum_congr rfl (fun i _ => sum_congr rfl (fun j _ => by ring))

theorem cheb3_eq (n m l : Nat) (a : Nat → Nat → Nat → ℝ) (u v w : ℝ) :
    cheb3 n m l a u v w = cheb1 n (fun i => cheb1 m (fun j => cheb1 l (a i j) w) v) u := by
  simp only [cheb1, cheb3, sum_mul]
  exact sum_congr rfl (fun i _ => sum_congr rfl (fun j _ => sum_congr rfl (fun k _ => by ring)))

/-- The sums of `Compute_bijk` give the same function. -/
theorem cheb_to_power3 (n m l : Nat) (a : Nat × Nat × Nat → ℝ) (u v w : ℝ) :
    poly3 (n + 1) (m + 1) (l + 1) (fun i j k => ∑ r ∈ Ico i (n + 1), (∑ q ∈ Ico j (m + 1), (∑ t ∈ Ico k (l + 1),
      a (r, q, t) * transformationCoefficient t k) * transformationCoefficient q j) * transformationCoefficient r i) u v w =
      cheb3 n m l (fun i j k => a (i, j, k)) u v w := by
  simp only [← sum_poly, poly1_sum, cheb_to_power, cheb3_eq]

/-! ## Interpolation -/

theorem chebInterp_sum (n : Nat) (s : Finset Nat) (g : Nat → Nat → ℝ) (c : Nat → ℝ) (u : ℝ) :
    chebInterp n (fun r => ∑ q ∈ s, g r q * c q) u = ∑ q ∈ s, chebInterp n (fun r => g r q) u * c q := by
  have h : ∀ i, ∑ r ∈ range (n + 1), (∑ q ∈ s, g r q * c q) * chebT i (chebNode n r) =
      ∑ q ∈ s, (∑ r ∈ range (n + 1), g r q * chebT i (chebNode n r)) * c q := by
    intro i
    simp only [sum_mul]
    rw [sum_comm]
    exact sum_congr rfl (fun r _ => sum_congr rfl (fun k _ => by ring))
  simp only [chebInterp, h]
  simp only [sum_mul]
  rw [sum_comm]
  refine sum_congr rfl (fun q _ => sum_congr rfl (fun i _ => ?_))
  exact sum_congr rfl (fun r _ => by ring)

theorem cheb1_next (F : ℝ → ℝ) (n : Nat) (X : Domain ℝ) (u : ℝ) :
    cheb1 n (fun i => CS1.next F n X i 0) u = chebInterp n (fun r => F (X.node n r)) u := by
  simp only [cheb1, CS1.next, chebInterp, chebT_eq, zero_add, range_eq_Ico]

theorem cheb2_interp (f : Nat → Nat → ℝ) (n m : Nat) (u v : ℝ) :
    cheb2 n m (fun i j => (∑ r ∈ range (n + 1), ∑ t ∈ range (m + 1), f r t * chebT i (chebNode n r) * chebT j (chebNode m t)) *
      (chebWeight n i * chebWeight m j)) u v = chebInterp n (fun r => chebInterp m (fun t => f r t) v) u := by
  have h : ∀ i, chebWeight n i * (∑ r ∈ range (n + 1), chebInterp m (fun t => f r t) v * chebT i (chebNode n r)) =
      cheb1 m (fun j => (∑ r ∈ range (n + 1), ∑ t ∈ range (m + 1), f r t * chebT i (chebNode n r) * chebT j (chebNode m t)) *
      (chebWeight n i * chebWeight m j)) v := by
    intro i
    have : ∑ r ∈ range (n + 1), chebInterp m (fun t => f r t) v * chebT i (chebNode n r) =
        chebInterp m (fun t => ∑ r ∈ range (n + 1), f r t * chebT i (chebNode n r)) v :=
      (chebInterp_sum m (range (n + 1)) (fun t r => f r t) (fun r => chebT i (chebNode n r)) v).symm
    rw [this, chebInterp, cheb1, mul_sum]
    refine sum_congr rfl (fun j _ => ?_)
    rw [sum_comm, chebT_eq]
    simp only [sum_mul, mul_sum, chebT_eq]
    exact sum_congr rfl (fun t _ => sum_congr rfl (fun r _ => by ring))
  rw [cheb2_eq, chebInterp, cheb1]
  refine sum_congr rfl (fun i _ => ?_)
  rw [← h i, chebT_eq]
  ring

theorem cheb2_next (F : ℝ → ℝ → ℝ) (n m : Nat) (X Y : Domain ℝ) (u v : ℝ) :
    cheb2 n m (fun i j => CS2.next F n m X Y (i, j) 0) u v =
      chebInterp n (fun r => chebInterp m (fun t => F (X.node n r) (Y.node m t)) v) u := by
  rw [← cheb2_interp]
  simp only [CS2.next, zero_add, range_eq_Ico]

theorem cheb3_interp (f : Nat → Nat → Nat → ℝ) (n m l : Nat) (u v w : ℝ) :
    cheb3 n m l (fun i j k => (∑ r ∈ range (n + 1), ∑ q ∈ range (m + 1), ∑ t ∈ range (l + 1),
      f r q t * chebT i (chebNode n r) * chebT j (chebNode m q) * chebT k (chebNode l t)) *
      (chebWeight n i * chebWeight m j * chebWeight l k)) u v w =
      chebInterp l (fun t => chebInterp n (fun r => chebInterp m (fun q => f r q t) v) u) w := by
  have h1 : ∀ k, cheb2 n m (fun i j => (∑ r ∈ range (n + 1), ∑ q ∈ range (m + 1),
      (∑ t ∈ range (l + 1), f r q t * chebT k (chebNode l t)) * chebT i (chebNode n r) * chebT j (chebNode m q)) *
      (chebWeight n i * chebWeight m j)) u v =
      ∑ t ∈ range (l + 1), chebInterp n (fun r => chebInterp m (fun q => f r q t) v) u * chebT k (chebNode l t) := by
    intro k
    rw [cheb2_interp]
    simp only [chebInterp_sum]
  rw [chebInterp]
  simp only [← h1]
  simp only [cheb2, cheb3]
  have h2 : ∀ g : Nat → Nat → Nat → ℝ, ∑ i ∈ range (n + 1), ∑ j ∈ range (m + 1), ∑ k ∈ range (l + 1), g i j k =
      ∑ k ∈ range (l + 1), ∑ i ∈ range (n + 1), ∑ j ∈ range (m + 1), g i j k := by
    intro g
    rw [sum_comm]
    rw [sum_congr rfl (fun i _ => sum_comm)]
    rw [sum_comm]
    rw [sum_congr rfl (fun i _ => sum_comm)]
  rw [h2]
  refine sum_congr rfl (fun k _ => ?_)
  rw [sum_mul, sum_mul]
  refine sum_congr rfl (fun i _ => ?_)
  rw [sum_mul, sum_mul]
  refine sum_congr rfl (fun j _ => ?_)
  have h3 : ∑ r ∈ range (n + 1), ∑ q ∈ range (m + 1), ∑ t ∈ range (l + 1),
      f r q t * chebT i (chebNode n r) * chebT j (chebNode m q) * chebT k (chebNode l t) =
      ∑ r ∈ range (n + 1), ∑ q ∈ range (m + 1),
      (∑ t ∈ range (l + 1), f r q t * chebT k (chebNode l t)) * chebT i (chebNode n r) * chebT j (chebNode m q) := by
    refine sum_congr rfl (fun r _ => sum_congr rfl (fun q _ => ?_))
    rw [sum_mul, sum_mul]
    exact sum_congr rfl (fun t _ => by ring)
  rw [h3, chebT_eq k w]
  ring

theorem cheb3_next (F : ℝ → ℝ → ℝ → ℝ) (n m l : Nat) (X Y Z : Domain ℝ) (u v w : ℝ) :
    cheb3 n m l (fun i j k => CS3.next F n m l X Y Z (i, j, k) 0) u v w =
      chebInterp l (fun t => chebInterp n (fun r => chebInterp m (fun q => F (X.node n r) (Y.node m q) (Z.node l t)) v) u) w := by
  rw [← cheb3_interp]
  simp only [CS3.next, zero_add, range_eq_Ico]

theorem chebInterp_poly1 (n : Nat) (b : Nat → ℝ) (u : ℝ) :
    chebInterp n (fun r => poly1 (n + 1) b (chebNode n r)) u = poly1 (n + 1) b u := by
  have h : ∀ v, poly1 (n + 1) b v = (∑ i ∈ range (n + 1), C (b i) * X ^ i : ℝ[X]).eval v := by
    intro v
    simp [poly1, eval_finset_sum]
  simp only [h]
  refine chebInterp_poly n _ ?_ u
  refine natDegree_sum_le_of_forall_le _ _ (fun i hi => ?_)
  exact (natDegree_C_mul_X_pow_le _ _).trans (by have := mem_range.mp hi; omega)

theorem chebInterp_poly2 (n m : Nat) (b : Nat → Nat → ℝ) (u v : ℝ) :
    chebInterp n (fun r => chebInterp m (fun t => poly2 (n + 1) (m + 1) b (chebNode n r) (chebNode m t)) v) u =
      poly2 (n + 1) (m + 1) b u v := by
  have h : ∀ u v, poly2 (n + 1) (m + 1) b u v = poly1 (m + 1) (fun j => poly1 (n + 1) (fun i => b i j) u) v := by
    intro u v
    simp only [poly1, poly2, sum_mul]
    rw [sum_comm]
  have h1 : ∀ u, chebInterp m (fun t => poly2 (n + 1) (m + 1) b u (chebNode m t)) v = poly2 (n + 1) (m + 1) b u v := by
    intro u
    simp only [h]
    exact chebInterp_poly1 m _ v
  simp only [h1]
  simp only [← poly2_eq]
  exact chebInterp_poly1 n _ u

theorem chebInterp_poly3 (n m l : Nat) (b : Nat → Nat → Nat → ℝ) (u v w : ℝ) :
    chebInterp l (fun t => chebInterp n (fun r => chebInterp m (fun q =>
      poly3 (n + 1) (m + 1) (l + 1) b (chebNode n r) (chebNode m q) (chebNode l t)) v) u) w = poly3 (n + 1) (m + 1) (l + 1) b u v w := by
  have h : ∀ u v w, poly3 (n + 1) (m + 1) (l + 1) b u v w = poly2 (n + 1) (m + 1) (fun i j => poly1 (l + 1) (b i j) w) u v := by
    intro u v w
    rw [← sum_poly, ← poly2_eq]
  have h1 : ∀ w, chebInterp n (fun r => chebInterp m (fun q =>
      poly3 (n + 1) (m + 1) (l + 1) b (chebNode n r) (chebNode m q) w) v) u = poly3 (n + 1) (m + 1) (l + 1) b u v w := by
    intro w
    simp only [h]
    exact chebInterp_poly2 n m _ u v
  simp only [h1]
  simp only [← poly3_eq]
  exact chebInterp_poly1 l _ w

end MU
