import Verif.Lemmas.Chebyshev
import Verif.Props.PowerSeries
import Mathlib.Analysis.Calculus.Deriv.Polynomial

set_option linter.unusedSectionVars false

/-!
# C32–C39: Chebyshev series
-/

namespace MU
open Spec Finset Polynomial

/-! ## What a reachable object holds -/

theorem Spec.Fresh1.holds {F : ℝ → ℝ} {n : Nat} {s : CS1 ℝ} {X : Domain ℝ} (h : Fresh1 F n s X) :
    ∃ sx : Seg ℝ, sx.dom = X ∧ s.Holds F n sx (fun _ => 0) := by
  cases h with
  | closed xmin xmax => exact ⟨.closed xmin xmax, rfl, CS1.fresh_holds _ _ _⟩
  | opened xmin => exact ⟨.opened xmin, rfl, CS1.fresh_holds _ _ _⟩

theorem Spec.Reach1.holds {F : ℝ → ℝ} {n : Nat} {s : CS1 ℝ} {X : Domain ℝ} (h : Reach1 F n X s) :
    ∃ (sx : Seg ℝ) (a : Nat → ℝ), sx.dom = X ∧ s.Holds F n sx a := by
  induction h with
  | fresh h => obtain ⟨sx, h1, h2⟩ := h.holds; exact ⟨sx, _, h1, h2⟩
  | @compute B s s' _ hc ih =>
    obtain ⟨sx, a, h1, h2⟩ := ih
    obtain ⟨s'', h3, h4⟩ := CS1.computeAi_ok B h2
    rw [h3] at hc
    cases hc
    exact ⟨sx, _, h1, h4⟩

theorem Spec.Fresh2.holds {F : ℝ → ℝ → ℝ} {n m : Nat} {s : CS2 ℝ} {X Y : Domain ℝ} (h : Fresh2 F n m s X Y) :
    ∃ sx sy : Seg ℝ, sx.dom = X ∧ sy.dom = Y ∧ s.Holds F n m sx sy (fun _ => 0) := by
  cases h with
  | closed xmin xmax ymin ymax => exact ⟨.closed xmin xmax, .closed ymin ymax, rfl, rfl, CS2.fresh_holds _ _ _ _ _⟩
  | opened xmin ymin => exact ⟨.opened xmin, .opened ymin, rfl, rfl, CS2.fresh_holds _ _ _ _ _⟩
  | mixed xmin xmax ymin => exact ⟨.closed xmin xmax, .opened ymin, rfl, rfl, CS2.fresh_holds _ _ _ _ _⟩

theorem Spec.Reach2.holds {F : ℝ → ℝ → ℝ} {n m : Nat} {s : CS2 ℝ} {X Y : Domain ℝ} (h : Reach2 F n m X Y s) :
    ∃ (sx sy : Seg ℝ) (a : Nat × Nat → ℝ), sx.dom = X ∧ sy.dom = Y ∧ s.Holds F n m sx sy a := by
  induction h with
  | fresh h => obtain ⟨sx, sy, h1, h2, h3⟩ := h.holds; exact ⟨sx, sy, _, h1, h2, h3⟩
  | @compute B s s' _ hc ih =>
    obtain ⟨sx, sy, a, h1, h2, h3⟩ := ih
    obtain ⟨s'', h4, h5⟩ := CS2.computeAij_ok B h3
    rw [h4] at hc
    cases hc
    exact ⟨sx, sy, _, h1, h2, h5⟩

theorem Spec.Fresh3.holds {F : ℝ → ℝ → ℝ → ℝ} {n m l : Nat} {s : CS3 ℝ} {X Y Z : Domain ℝ} (h : Fresh3 F n m l s X Y Z) :
    ∃ sx sy sz : Seg ℝ, sx.dom = X ∧ sy.dom = Y ∧ sz.dom = Z ∧ s.Holds F n m l sx sy sz (fun _ => 0) := by
  cases h with
  | closed xmin xmax ymin ymax zmin zmax =>
    exact ⟨.closed xmin xmax, .closed ymin ymax, .closed zmin zmax, rfl, rfl, rfl, CS3.fresh_holds _ _ _ _ _ _ _⟩
  | yzOpened xmin xmax ymin zmin =>
    exact ⟨.closed xmin xmax, .opened ymin, .opened zmin, rfl, rfl, rfl, CS3.fresh_holds _ _ _ _ _ _ _⟩
  | zOpened xmin xmax ymin ymax zmin =>
    exact ⟨.closed xmin xmax, .closed ymin ymax, .opened zmin, rfl, rfl, rfl, CS3.fresh_holds _ _ _ _ _ _ _⟩

theorem Spec.Reach3.holds {F : ℝ → ℝ → ℝ → ℝ} {n m l : Nat} {s : CS3 ℝ} {X Y Z : Domain ℝ} (h : Reach3 F n m l X Y Z s) :
    ∃ (sx sy sz : Seg ℝ) (a : Nat × Nat × Nat → ℝ), sx.dom = X ∧ sy.dom = Y ∧ sz.dom = Z ∧ s.Holds F n m l sx sy sz a := by
  induction h with
  | fresh h => obtain ⟨sx, sy, sz, h1, h2, h3, h4⟩ := h.holds; exact ⟨sx, sy, sz, _, h1, h2, h3, h4⟩
  | @compute B s s' _ hc ih =>
    obtain ⟨sx, sy, sz, a, h1, h2, h3, h4⟩ := ih
    obtain ⟨s'', h5, h6⟩ := CS3.computeAijk_ok B h4
    rw [h5] at hc
    cases hc
    exact ⟨sx, sy, sz, _, h1, h2, h3, h6⟩

/-! ## Interpolation -/

/-- C32: on a fresh object, `Compute_ai` returns, and then `Evaluate` gives the value of the function at every Chebyshev node of the domain. -/
theorem C32_nodes (B : Build) {F : ℝ → ℝ} {n : Nat} {s : CS1 ℝ} {X : Domain ℝ} (hs : Fresh1 F n s X) (hX : X.Proper) :
    ∃ s', s.computeAi B = .ok s' ∧ ∀ r, r ≤ n → s'.evaluate B (X.node n r) = .ok (F (X.node n r)) := by
  obtain ⟨sx, rfl, h⟩ := hs.holds
  obtain ⟨s', h1, h2⟩ := CS1.computeAi_ok B h
  refine ⟨s', h1, fun r hr => ?_⟩
  obtain ⟨hd, hu⟩ := node_defined hX hr
  rw [CS1.evaluate_ok B h2 hd, hu, cheb1_next, chebInterp_node n _ hr]

example : Fresh1 Real.exp 7 (CS1.opened Real.exp 2 7) (.halfLine 2) ∧ (Domain.halfLine (2 : ℝ)).Proper := ⟨.opened 2, by simp [Domain.Proper]⟩
example : Fresh1 Real.sin 7 (CS1.closed Real.sin (-1) 5 7) (.segment (-1) 5) ∧ (Domain.segment (-1 : ℝ) 5).Proper :=
  ⟨.closed (-1) 5, by norm_num [Domain.Proper]⟩

/-- C39, two variables. -/
theorem C39_nodes_2d (B : Build) {F : ℝ → ℝ → ℝ} {n m : Nat} {s : CS2 ℝ} {X Y : Domain ℝ} (hs : Fresh2 F n m s X Y) (hX : X.Proper)
    (hY : Y.Proper) :
    ∃ s', s.computeAij B = .ok s' ∧ ∀ r t, r ≤ n → t ≤ m →
      s'.evaluate B (X.node n r) (Y.node m t) = .ok (F (X.node n r) (Y.node m t)) := by
  obtain ⟨sx, sy, rfl, rfl, h⟩ := hs.holds
  obtain ⟨s', h1, h2⟩ := CS2.computeAij_ok B h
  refine ⟨s', h1, fun r t hr ht => ?_⟩
  obtain ⟨hd, hu⟩ := node_defined hX hr
  obtain ⟨hd', hu'⟩ := node_defined hY ht
  rw [CS2.evaluate_ok B h2 hd hd', hu, hu', cheb2_next, chebInterp_node n _ hr, chebInterp_node m _ ht]

/-- C39, three variables. -/
theorem C39_nodes_3d (B : Build) {F : ℝ → ℝ → ℝ → ℝ} {n m l : Nat} {s : CS3 ℝ} {X Y Z : Domain ℝ} (hs : Fresh3 F n m l s X Y Z)
    (hX : X.Proper) (hY : Y.Proper) (hZ : Z.Proper) :
    ∃ s', s.computeAijk B = .ok s' ∧ ∀ r q t, r ≤ n → q ≤ m → t ≤ l →
      s'.evaluate B (X.node n r) (Y.node m q) (Z.node l t) = .ok (F (X.node n r) (Y.node m q) (Z.node l t)) := by
  obtain ⟨sx, sy, sz, rfl, rfl, rfl, h⟩ := hs.holds
  obtain ⟨s', h1, h2⟩ := CS3.computeAijk_ok B h
  refine ⟨s', h1, fun r q t hr hq ht => ?_⟩
  obtain ⟨hd, hu⟩ := node_defined hX hr
  obtain ⟨hd', hu'⟩ := node_defined hY hq
  obtain ⟨hd'', hu''⟩ := node_defined hZ ht
  rw [CS3.evaluate_ok B h2 hd hd' hd'', hu, hu', hu'', cheb3_next, chebInterp_node l _ ht, chebInterp_node n _ hr, chebInterp_node m _ hq]

example : Fresh3 (fun x y z => x * y + z) 2 3 4 (CS3.yzOpenedXClosed (fun x y z => x * y + z) 0 1 2 3 2 3 4) (.segment 0 1) (.halfLine 2)
    (.halfLine 3) ∧ (Domain.segment (0 : ℝ) 1).Proper ∧ (Domain.halfLine (2 : ℝ)).Proper ∧ (Domain.halfLine (3 : ℝ)).Proper :=
  ⟨.yzOpened 0 1 2 3, by simp [Domain.Proper], by simp [Domain.Proper], by simp [Domain.Proper]⟩

/-! ## Polynomials -/

/-- C33, one variable: if the function is a polynomial of degree at most the order, in the variable mapped to `[-1, 1]`, then after `Compute_ai`
`Evaluate` is the function wherever the map is defined. -/
theorem C33_polynomial_1d (B : Build) {F : ℝ → ℝ} {n : Nat} {s : CS1 ℝ} {X : Domain ℝ} (hs : Fresh1 F n s X) (hX : X.Proper)
    {p : ℝ[X]} (hp : p.natDegree ≤ n) (hF : ∀ x, X.Defined x → F x = p.eval (X.unit x)) :
    ∃ s', s.computeAi B = .ok s' ∧ ∀ x, X.Defined x → s'.evaluate B x = .ok (F x) := by
  obtain ⟨sx, rfl, h⟩ := hs.holds
  obtain ⟨s', h1, h2⟩ := CS1.computeAi_ok B h
  refine ⟨s', h1, fun x hx => ?_⟩
  rw [CS1.evaluate_ok B h2 hx, cheb1_next, hF x hx, ← chebInterp_poly n p hp]
  refine congrArg _ (chebInterp_congr n (fun r hr => ?_) _)
  obtain ⟨hd, hu⟩ := node_defined hX hr
  rw [hF _ hd, hu]

/-- C33, two variables: degree at most `n` in the first mapped variable and at most `m` in the second. -/
theorem C33_polynomial_2d (B : Build) {F : ℝ → ℝ → ℝ} {n m : Nat} {s : CS2 ℝ} {X Y : Domain ℝ} (hs : Fresh2 F n m s X Y) (hX : X.Proper)
    (hY : Y.Proper) {b : Nat → Nat → ℝ}
    (hF : ∀ x y, X.Defined x → Y.Defined y → F x y = poly2 (n + 1) (m + 1) b (X.unit x) (Y.unit y)) :
    ∃ s', s.computeAij B = .ok s' ∧ ∀ x y, X.Defined x → Y.Defined y → s'.evaluate B x y = .ok (F x y) := by
  obtain ⟨sx, sy, rfl, rfl, h⟩ := hs.holds
  obtain ⟨s', h1, h2⟩ := CS2.computeAij_ok B h
  refine ⟨s', h1, fun x y hx hy => ?_⟩
  rw [CS2.evaluate_ok B h2 hx hy, cheb2_next, hF x y hx hy, ← chebInterp_poly2 n m b]
  refine congrArg _ (chebInterp_congr n (fun r hr => chebInterp_congr m (fun t ht => ?_) _) _)
  obtain ⟨hd, hu⟩ := node_defined hX hr
  obtain ⟨hd', hu'⟩ := node_defined hY ht
  rw [hF _ _ hd hd', hu, hu']

/-- C33, three variables. -/
theorem C33_polynomial_3d (B : Build) {F : ℝ → ℝ → ℝ → ℝ} {n m l : Nat} {s : CS3 ℝ} {X Y Z : Domain ℝ} (hs : Fresh3 F n m l s X Y Z)
    (hX : X.Proper) (hY : Y.Proper) (hZ : Z.Proper) {b : Nat → Nat → Nat → ℝ}
    (hF : ∀ x y z, X.Defined x → Y.Defined y → Z.Defined z →
      F x y z = poly3 (n + 1) (m + 1) (l + 1) b (X.unit x) (Y.unit y) (Z.unit z)) :
    ∃ s', s.computeAijk B = .ok s' ∧ ∀ x y z, X.Defined x → Y.Defined y → Z.Defined z → s'.evaluate B x y z = .ok (F x y z) := by
  obtain ⟨sx, sy, sz, rfl, rfl, rfl, h⟩ := hs.holds
  obtain ⟨s', h1, h2⟩ := CS3.computeAijk_ok B h
  refine ⟨s', h1, fun x y z hx hy hz => ?_⟩
  rw [CS3.evaluate_ok B h2 hx hy hz, cheb3_next, hF x y z hx hy hz, ← chebInterp_poly3 n m l b]
  refine congrArg _ (chebInterp_congr l (fun t ht => chebInterp_congr n (fun r hr => chebInterp_congr m (fun q hq => ?_) _) _) _)
  obtain ⟨hd, hu⟩ := node_defined hX hr
  obtain ⟨hd', hu'⟩ := node_defined hY hq
  obtain ⟨hd'', hu''⟩ := node_defined hZ ht
  rw [hF _ _ _ hd hd' hd'', hu, hu', hu'']

/-- On `[-1, 1]` the mapped variable is the variable: `x^3 - 2` is reproduced at order 3 and above. -/
example : ((X : ℝ[X]) ^ 3 - C 2).natDegree ≤ 3 ∧ ∀ x : ℝ, (Domain.segment (-1 : ℝ) 1).Defined x →
    x ^ 3 - 2 = ((X : ℝ[X]) ^ 3 - C 2).eval ((Domain.segment (-1 : ℝ) 1).unit x) := by
  refine ⟨by compute_degree, fun x _ => ?_⟩
  have : (2 * x - -1 - 1) / (1 - -1) = x := by ring
  simp only [Domain.unit, this, eval_sub, eval_pow, eval_X, eval_C]

/-! ## Values and derivatives -/

/-- C34, one variable: after any number of calls of `Compute_ai`, `Evaluate` is the Chebyshev sum of the coefficients held. -/
theorem C34_sum_1d (B : Build) {F : ℝ → ℝ} {n : Nat} {s : CS1 ℝ} {X : Domain ℝ} (hs : Reach1 F n X s) :
    s.m_ai.length = n + 1 ∧ ∀ x, X.Defined x → s.evaluate B x = .ok (cheb1 n (fun i => s.m_ai.getD i 0) (X.unit x)) := by
  obtain ⟨sx, a, rfl, h⟩ := hs.holds
  refine ⟨by simp [h.coeffs], fun x hx => ?_⟩
  rw [CS1.evaluate_ok B h hx]
  refine congrArg _ (sum_congr rfl (fun i hi => ?_))
  simp [h.coeffs, List.getD, mem_range.mp hi]

/-- C34, two variables. -/
theorem C34_sum_2d (B : Build) {F : ℝ → ℝ → ℝ} {n m : Nat} {s : CS2 ℝ} {X Y : Domain ℝ} (hs : Reach2 F n m X Y s) :
    s.m_aij.rows = n + 1 ∧ s.m_aij.cols = m + 1 ∧
    ∀ x y, X.Defined x → Y.Defined y → s.evaluate B x y = .ok (cheb2 n m s.m_aij.entry (X.unit x) (Y.unit y)) := by
  obtain ⟨sx, sy, a, rfl, rfl, h⟩ := hs.holds
  obtain ⟨e, he, hea⟩ := h.coeffs
  refine ⟨by rw [he], by rw [he], fun x y hx hy => ?_⟩
  rw [CS2.evaluate_ok B h hx hy, he]
  refine congrArg _ (sum_congr rfl (fun i hi => sum_congr rfl (fun j hj => ?_)))
  show a (i, j) * _ * _ = e (i, j) * _ * _
  rw [hea i j (mem_range.mp hi) (mem_range.mp hj)]

/-- C34, three variables: `m_aijk` is a vector (index `k`) of matrices (indices `i`, `j`). -/
theorem C34_sum_3d (B : Build) {F : ℝ → ℝ → ℝ → ℝ} {n m l : Nat} {s : CS3 ℝ} {X Y Z : Domain ℝ} (hs : Reach3 F n m l X Y Z s) :
    ∃ a : Nat → Nat → Nat → ℝ, Cube s.m_aijk (n + 1) (m + 1) (l + 1) a ∧
    ∀ x y z, X.Defined x → Y.Defined y → Z.Defined z → s.evaluate B x y z = .ok (cheb3 n m l a (X.unit x) (Y.unit y) (Z.unit z)) := by
  obtain ⟨sx, sy, sz, a, rfl, rfl, rfl, h⟩ := hs.holds
  refine ⟨fun i j k => a (i, j, k), ?_, fun x y z hx hy hz => CS3.evaluate_ok B h hx hy hz⟩
  obtain ⟨e, he, hea⟩ := h.coeffs
  refine ⟨by simp [he], ?_, by omega, by omega, by omega⟩
  intro k a' hk
  have hk' : k < l + 1 := by
    by_contra hc
    rw [List.getElem?_eq_none (by simp [he]; omega)] at hk
    cases hk
  simp only [he, List.getElem?_map, List.getElem?_range hk', Option.map_some, Option.some.injEq] at hk
  subst hk
  exact ⟨rfl, rfl, fun i j hi hj => hea i j k hi hj hk'⟩

example : Reach1 Real.exp 4 (.segment 0 1) (CS1.closed Real.exp 0 1 4) := .fresh (.closed 0 1)
example (B : Build) : ∃ s, Reach1 Real.exp 4 (.segment 0 1) s ∧ CS1.computeAi B (CS1.closed Real.exp 0 1 4) = .ok s := by
  obtain ⟨s, h, _⟩ := C32_nodes B (Fresh1.closed (F := Real.exp) (n := 4) 0 1) (by simp [Domain.Proper])
  exact ⟨s, .compute (.fresh (.closed 0 1)) h, h⟩

/-- C35, one variable. -/
theorem C35_derivative_1d (B : Build) {F : ℝ → ℝ} {n : Nat} {s : CS1 ℝ} {X : Domain ℝ} (hs : Reach1 F n X s) {x : ℝ} (hx : X.Defined x) :
    IsDerivAt (fun t => s.evaluate B t) (s.evaluateDerivativeX B x) x := by
  obtain ⟨sx, a, rfl, h⟩ := hs.holds
  refine isDerivAt_unit hx (P := fun u => cheb1 n a u) (fun t ht => CS1.evaluate_ok B h ht) (CS1.derivX_ok B h hx) ?_
  exact HasDerivAt.fun_sum (fun i _ => ((Chebyshev.T ℝ i).hasDerivAt _).const_mul _)

/-- C35, two variables. -/
theorem C35_derivative_2d (B : Build) {F : ℝ → ℝ → ℝ} {n m : Nat} {s : CS2 ℝ} {X Y : Domain ℝ} (hs : Reach2 F n m X Y s) {x y : ℝ}
    (hx : X.Defined x) (hy : Y.Defined y) :
    IsDerivAt (fun t => s.evaluate B t y) (s.evaluateDerivativeX B x y) x ∧
    IsDerivAt (fun t => s.evaluate B x t) (s.evaluateDerivativeY B x y) y := by
  obtain ⟨sx, sy, a, rfl, rfl, h⟩ := hs.holds
  constructor
  · refine isDerivAt_unit hx (P := fun u => cheb2 n m (fun i j => a (i, j)) u (sy.dom.unit y))
      (fun t ht => CS2.evaluate_ok B h ht hy) (CS2.derivX_ok B h hx hy) ?_
    exact HasDerivAt.fun_sum (fun i _ => HasDerivAt.fun_sum (fun j _ => (((Chebyshev.T ℝ i).hasDerivAt _).const_mul _).mul_const _))
  · refine isDerivAt_unit hy (P := fun v => cheb2 n m (fun i j => a (i, j)) (sx.dom.unit x) v)
      (fun t ht => CS2.evaluate_ok B h hx ht) (CS2.derivY_ok B h hx hy) ?_
    exact HasDerivAt.fun_sum (fun i _ => HasDerivAt.fun_sum (fun j _ => ((Chebyshev.T ℝ j).hasDerivAt _).const_mul _))

/-- C35, three variables. -/
theorem C35_derivative_3d (B : Build) {F : ℝ → ℝ → ℝ → ℝ} {n m l : Nat} {s : CS3 ℝ} {X Y Z : Domain ℝ} (hs : Reach3 F n m l X Y Z s)
    {x y z : ℝ} (hx : X.Defined x) (hy : Y.Defined y) (hz : Z.Defined z) :
    IsDerivAt (fun t => s.evaluate B t y z) (s.evaluateDerivativeX B x y z) x ∧
    IsDerivAt (fun t => s.evaluate B x t z) (s.evaluateDerivativeY B x y z) y ∧
    IsDerivAt (fun t => s.evaluate B x y t) (s.evaluateDerivativeZ B x y z) z := by
  obtain ⟨sx, sy, sz, a, rfl, rfl, rfl, h⟩ := hs.holds
  refine ⟨?_, ?_, ?_⟩
  · refine isDerivAt_unit hx (P := fun u => cheb3 n m l (fun i j k => a (i, j, k)) u (sy.dom.unit y) (sz.dom.unit z))
      (fun t ht => CS3.evaluate_ok B h ht hy hz) (CS3.derivX_ok B h hx hy hz) ?_
    exact HasDerivAt.fun_sum (fun i _ => HasDerivAt.fun_sum (fun j _ => HasDerivAt.fun_sum (fun k _ =>
      ((((Chebyshev.T ℝ i).hasDerivAt _).const_mul _).mul_const _).mul_const _)))
  · refine isDerivAt_unit hy (P := fun v => cheb3 n m l (fun i j k => a (i, j, k)) (sx.dom.unit x) v (sz.dom.unit z))
      (fun t ht => CS3.evaluate_ok B h hx ht hz) (CS3.derivY_ok B h hx hy hz) ?_
    exact HasDerivAt.fun_sum (fun i _ => HasDerivAt.fun_sum (fun j _ => HasDerivAt.fun_sum (fun k _ =>
      (((Chebyshev.T ℝ j).hasDerivAt _).const_mul _).mul_const _)))
  · refine isDerivAt_unit hz (P := fun w => cheb3 n m l (fun i j k => a (i, j, k)) (sx.dom.unit x) (sy.dom.unit y) w)
      (fun t ht => CS3.evaluate_ok B h hx hy ht) (CS3.derivZ_ok B h hx hy hz) ?_
    exact HasDerivAt.fun_sum (fun i _ => HasDerivAt.fun_sum (fun j _ => HasDerivAt.fun_sum (fun k _ =>
      ((Chebyshev.T ℝ k).hasDerivAt _).const_mul _)))

example : (Domain.halfLine (2 : ℝ)).Defined 5 ∧ (Domain.segment (0 : ℝ) 1).Defined 3 := by constructor <;> norm_num [Domain.Defined]

/-! ## Conversion to a power series -/

/-- C36, the formula: `TransformationCoefficient(n, k)` is the coefficient of `u^k` in `T_n`, for every `n` and every `k <= n`. -/
theorem C36_coefficients (n k : Nat) (hk : k ≤ n) : (Chebyshev.T ℝ n).coeff k = transformationCoefficient n k := by
  have h : Chebyshev.T ℝ n = ∑ k ∈ range (n + 1), C (transformationCoefficient n k : ℝ) * X ^ k := by
    refine Polynomial.funext (fun u => ?_)
    rw [← chebT_eq, ← chebT_monomials n u]
    simp [eval_finsetSum]
  rw [h]
  simp [coeff_X_pow]
  omega

/-- C36, one variable: up to order 18 the coefficients given by `Compute_bi`, used in a power series on the same domain, give the same values. -/
theorem C36_power_series_1d (B : Build) {F : ℝ → ℝ} {n : Nat} {s : CS1 ℝ} {X : Domain ℝ} (hs : Reach1 F n X s) (hn : n ≤ 18) :
    ∃ b, s.computeBi B = .ok b ∧ ∀ ps, Built1 b ps X → ∀ x, X.Defined x → ps.evaluate B x = s.evaluate B x := by
  obtain ⟨sx, a, rfl, h⟩ := hs.holds
  refine ⟨_, CS1.computeBi_ok B h hn, fun ps hps x hx => ?_⟩
  rw [C29_evaluate_1d B (by simp) hps hx, CS1.evaluate_ok B h hx, ← cheb_to_power]
  simp only [List.length_map, List.length_range]
  refine congrArg _ (poly1_congr (K := ℝ) (fun i hi => ?_) _)
  simp [List.getD, hi]

/-- C36, two variables. -/
theorem C36_power_series_2d (B : Build) {F : ℝ → ℝ → ℝ} {n m : Nat} {s : CS2 ℝ} {X Y : Domain ℝ} (hs : Reach2 F n m X Y s) (hn : n ≤ 18)
    (hm : m ≤ 18) :
    ∃ b, s.computeBij B = .ok b ∧ ∀ ps, Built2 b ps X Y → ∀ x y, X.Defined x → Y.Defined y → ps.evaluate B x y = s.evaluate B x y := by
  obtain ⟨sx, sy, a, rfl, rfl, h⟩ := hs.holds
  obtain ⟨b, h1, h2, h3, h4⟩ := CS2.computeBij_ok B h hn hm
  refine ⟨b, h1, fun ps hps x y hx hy => ?_⟩
  rw [C29_evaluate_2d B (by omega) (by omega) hps hx hy, CS2.evaluate_ok B h hx hy, ← cheb_to_power2, h2, h3]
  refine congrArg _ (sum_congr rfl (fun i hi => sum_congr rfl (fun j hj => ?_)))
  rw [h4 i j (mem_range.mp hi) (mem_range.mp hj)]

/-- C36, three variables. -/
theorem C36_power_series_3d (B : Build) {F : ℝ → ℝ → ℝ → ℝ} {n m l : Nat} {s : CS3 ℝ} {X Y Z : Domain ℝ} (hs : Reach3 F n m l X Y Z s)
    (hn : n ≤ 18) (hm : m ≤ 18) (hl : l ≤ 18) :
    ∃ b, s.computeBijk B = .ok b ∧ (∀ ps, Built3 b ps X Y Z → ∀ x y z, X.Defined x → Y.Defined y → Z.Defined z →
      ps.evaluate B x y z = s.evaluate B x y z) ∧
      ∀ xmin xmax ymin ymax zmin zmax, (∃ ps, Built3 b ps (.segment xmin xmax) (.segment ymin ymax) (.segment zmin zmax)) ∧
        (∃ ps, Built3 b ps (.segment xmin xmax) (.halfLine ymin) (.halfLine zmin)) ∧
        (∃ ps, Built3 b ps (.segment xmin xmax) (.segment ymin ymax) (.halfLine zmin)) := by
  obtain ⟨sx, sy, sz, a, rfl, rfl, rfl, h⟩ := hs.holds
  obtain ⟨b, h1, h2⟩ := CS3.computeBijk_ok B h hn hm hl
  refine ⟨b, h1, fun ps hps x y z hx hy hz => ?_, C29_constructors_3d h2⟩
  rw [C29_evaluate_3d B h2 hps hx hy hz, CS3.evaluate_ok B h hx hy hz, ← cheb_to_power3]

/-- C36, the guard: above order 18 the conversion stops the process with exit status 0. -/
theorem C36_order_guard (B : Build) {F1 : ℝ → ℝ} {F2 : ℝ → ℝ → ℝ} {F3 : ℝ → ℝ → ℝ → ℝ} {n m l : Nat} {s1 : CS1 ℝ} {s2 : CS2 ℝ} {s3 : CS3 ℝ}
    {X Y Z : Domain ℝ} (h1 : Reach1 F1 n X s1) (h2 : Reach2 F2 n m X Y s2) (h3 : Reach3 F3 n m l X Y Z s3) :
    (18 < n → s1.computeBi B = .exits 0) ∧ (18 < n ∨ 18 < m → s2.computeBij B = .exits 0) ∧
    (18 < n ∨ 18 < m ∨ 18 < l → s3.computeBijk B = .exits 0) := by
  obtain ⟨_, _, _, h1⟩ := h1.holds
  obtain ⟨_, _, _, _, _, h2⟩ := h2.holds
  obtain ⟨_, _, _, _, _, _, _, h3⟩ := h3.holds
  refine ⟨fun hn => ?_, fun hn => ?_, fun hn => ?_⟩
  · rw [CS1.computeBi, h1.order, if_pos (by omega)]
  · rw [CS2.computeBij, h2.order_x, h2.order_y, if_pos (by omega)]
  · rw [CS3.computeBijk, h3.order_x, h3.order_y, h3.order_z, if_pos (by omega)]

/-- `T_4 = 8 u^4 - 8 u^2 + 1`. -/
example : [0, 1, 2, 3, 4].map (fun k => transformationCoefficient 4 k) = [(1 : ℚ), 0, -8, 0, 8] := by decide +kernel

/-! ## Coordinate maps -/

/-- C37, inverse maps. `toUnit` is the map of the user's variable to `[-1, 1]`, `toSegment` the map used for the nodes. -/
theorem C37_inverse {sx : Seg ℝ} (hX : sx.dom.Proper) :
    (∀ x, sx.dom.Defined x → (sx.toUnit x >>= sx.toSegment) = .ok x) ∧
    (∀ u, u ≠ 1 → (sx.toSegment u >>= sx.toUnit) = .ok u) := by
  cases sx with
  | closed a b =>
    have hab : b - a ≠ 0 := sub_ne_zero.mpr (Ne.symm hX)
    constructor
    · intro x hx
      rw [Seg.toUnit_ok hx, Res.ok_bind]
      simp only [Seg.toSegment, Seg.dom, Domain.unit]
      congr 1
      field_simp
      ring
    · intro u _
      simp only [Seg.toSegment, Res.ok_bind]
      rw [Seg.toUnit_ok (s := .closed a b) (show a ≠ b from hX)]
      simp only [Seg.dom, Domain.unit]
      congr 1
      field_simp
      ring
  | opened a =>
    have ha : a ≠ 0 := hX
    constructor
    · intro x hx
      have hx' : x ≠ 0 := hx
      rw [Seg.toUnit_ok hx, Res.ok_bind]
      simp only [Seg.toSegment, Seg.dom, Domain.unit]
      have h1 : (1 : ℝ) - (1 - 2 * a / x) = 2 * a / x := by ring
      rw [h1, fdiv_ok (div_ne_zero (mul_ne_zero two_ne_zero ha) hx')]
      simp only [Res.ok_bind, Res.pure_eq]
      congr 1
      field_simp
    · intro u hu
      have hu' : 1 - u ≠ 0 := sub_ne_zero.mpr (Ne.symm hu)
      simp only [Seg.toSegment]
      rw [fdiv_ok hu']
      simp only [Res.ok_bind, Res.pure_eq]
      rw [Seg.toUnit_ok (s := .opened a) (show _ ≠ (0 : ℝ) from mul_ne_zero two_ne_zero (div_ne_zero ha hu'))]
      simp only [Seg.dom, Domain.unit]
      congr 1
      field_simp
      ring

/-- C37, images: the domain is mapped into `[-1, 1]`, the ends of a segment and the start of a half line are mapped to the ends, and `[-1, 1)` is
mapped into the domain. -/
theorem C37_image {sx : Seg ℝ} (hX : sx.dom.Usual) :
    (∀ x, sx.dom.Mem x → ∃ u, sx.toUnit x = .ok u ∧ -1 ≤ u ∧ u ≤ 1) ∧
    (∀ u, -1 ≤ u → u < 1 → ∃ x, sx.toSegment u = .ok x ∧ sx.dom.Mem x) := by
  cases sx with
  | closed a b =>
    have hab : a < b := hX
    have h0 : (0 : ℝ) < b - a := sub_pos.mpr hab
    constructor
    · rintro x ⟨h1, h2⟩
      refine ⟨_, Seg.toUnit_ok (s := .closed a b) (x := x) (show a ≠ b from hab.ne), ?_, ?_⟩ <;> simp only [Seg.dom, Domain.unit]
      · rw [le_div_iff₀ h0]; linarith
      · rw [div_le_iff₀ h0]; linarith
    · intro u h1 h2
      refine ⟨_, rfl, ?_, ?_⟩
      · nlinarith
      · nlinarith
  | opened a =>
    have ha : 0 < a := hX
    constructor
    · intro x h1
      have h1' : a ≤ x := h1
      have hx : 0 < x := ha.trans_le h1'
      refine ⟨_, Seg.toUnit_ok (s := .opened a) (x := x) (show x ≠ 0 from hx.ne'), ?_, ?_⟩ <;> simp only [Seg.dom, Domain.unit]
      · have : a / x ≤ 1 := (div_le_one hx).mpr h1'
        have : 2 * a / x = 2 * (a / x) := by ring
        linarith
      · have : 0 < 2 * a / x := by positivity
        linarith
    · intro u h1 h2
      have hu : 0 < 1 - u := by linarith
      simp only [Seg.toSegment]
      rw [fdiv_ok hu.ne']
      refine ⟨_, rfl, ?_⟩
      show a ≤ 2 * (a / (1 - u))
      have h3 : 2 * (a / (1 - u)) - a = a * (1 + u) / (1 - u) := by field_simp; ring
      have h4 : 0 ≤ a * (1 + u) / (1 - u) := div_nonneg (mul_nonneg ha.le (by linarith)) hu.le
      linarith

/-- C37, derivative coefficient: it is the derivative of the map to `[-1, 1]`. -/
theorem C37_coefficient {sx : Seg ℝ} {x : ℝ} (hx : sx.dom.Defined x) : IsDerivAt sx.toUnit (sx.coefficientDerivative x) x := by
  refine isDerivAt_unit hx (P := fun u => u) (P' := 1) (fun t ht => Seg.toUnit_ok ht) ?_ (hasDerivAt_id _)
  rw [Seg.coefficientDerivative_ok hx, mul_one]

/-- C37, nodes: the function is sampled strictly inside the domain, at pairwise distinct points. -/
theorem C37_nodes {X : Domain ℝ} (hX : X.Usual) {n : Nat} :
    (∀ r, r ≤ n → X.Mem (X.node n r) ∧ (∀ a b, X = .segment a b → X.node n r ≠ a ∧ X.node n r ≠ b) ∧
      (∀ a, X = .halfLine a → X.node n r ≠ a)) ∧
    (∀ r q, r ≤ n → q ≤ n → X.node n r = X.node n q → r = q) := by
  have hP : X.Proper := by
    cases X with
    | segment a b => exact (show a < b from hX).ne
    | halfLine a => exact (show 0 < a from hX).ne'
  constructor
  · intro r hr
    have h1 := chebNode_lt_one hr
    have h2 := neg_one_lt_chebNode hr
    cases X with
    | segment a b =>
      have hab : a < b := hX
      have h3 : a < (a + b) / 2 + (b - a) / 2 * chebNode n r := by nlinarith
      have h4 : (a + b) / 2 + (b - a) / 2 * chebNode n r < b := by nlinarith
      simp only [Domain.node, Domain.Mem, unitNode_eq]
      refine ⟨⟨h3.le, h4.le⟩, ?_, by simp⟩
      intro a' b' he
      cases he
      exact ⟨h3.ne', h4.ne⟩
    | halfLine a =>
      have ha : 0 < a := hX
      have hu : 0 < 1 - chebNode n r := by linarith
      have h3 : a < 2 * a / (1 - chebNode n r) := by rw [lt_div_iff₀ hu]; nlinarith
      simp only [Domain.node, Domain.Mem, unitNode_eq]
      refine ⟨h3.le, by simp, ?_⟩
      intro a' he
      cases he
      exact h3.ne'
  · intro r q hr hq h
    refine chebNode_inj hr hq ?_
    rw [← (node_defined hP hr).2, ← (node_defined hP hq).2, h]

/-- C37, consequence: the coefficients depend only on the values of the function on the domain. -/
theorem C37_sampling (B : Build) {F G : ℝ → ℝ} {n : Nat} {s t : CS1 ℝ} {X : Domain ℝ} (hs : Fresh1 F n s X) (ht : Fresh1 G n t X)
    (hX : X.Usual) (hFG : ∀ x, X.Mem x → F x = G x) :
    ∃ s' t', s.computeAi B = .ok s' ∧ t.computeAi B = .ok t' ∧ s'.m_ai = t'.m_ai := by
  obtain ⟨sx, h1, h2⟩ := hs.holds
  obtain ⟨tx, h3, h4⟩ := ht.holds
  obtain ⟨s', h5, h6⟩ := CS1.computeAi_ok B h2
  obtain ⟨t', h7, h8⟩ := CS1.computeAi_ok B h4
  refine ⟨s', t', h5, h7, ?_⟩
  rw [h6.coeffs, h8.coeffs, h1, h3]
  refine List.map_congr_left (fun i _ => ?_)
  unfold CS1.next
  rw [sum_congr rfl (fun r hr => by rw [hFG _ ((C37_nodes hX).1 r (by have := (mem_Ico.mp hr).2; omega)).1])]

example : (Domain.segment (-2 : ℝ) 3).Usual ∧ (Domain.halfLine (2 : ℝ)).Usual ∧ (Domain.halfLine (2 : ℝ)).Mem 7 := by
  refine ⟨?_, ?_, ?_⟩ <;> norm_num [Domain.Usual, Domain.Mem]

/-! ## Computing twice -/

/-- A combination of Chebyshev polynomials which is zero at the nodes has no coefficient. -/
theorem cheb1_zero {n : Nat} {c : Nat → ℝ} (h : ∀ r, r ≤ n → cheb1 n c (chebNode n r) = 0) {i : Nat} (hi : i ≤ n) : c i = 0 := by
  have h1 : ∑ r ∈ range (n + 1), cheb1 n c (chebNode n r) * chebT i (chebNode n r) * chebWeight n i = 0 :=
    sum_eq_zero (fun r hr => by rw [h r (by have := mem_range.mp hr; omega)]; ring)
  have h2 : ∑ r ∈ range (n + 1), cheb1 n c (chebNode n r) * chebT i (chebNode n r) * chebWeight n i =
      ∑ j ∈ range (n + 1), c j * ∑ r ∈ range (n + 1), chebT i (chebNode n r) * chebT j (chebNode n r) * chebWeight n i := by
    simp only [cheb1, sum_mul, mul_sum]
    rw [sum_comm]
    refine sum_congr rfl (fun j _ => sum_congr rfl (fun r _ => ?_))
    rw [chebT_eq j]
    ring
  rw [h2] at h1
  have h3 : ∀ j ∈ range (n + 1), c j * (∑ r ∈ range (n + 1), chebT i (chebNode n r) * chebT j (chebNode n r) * chebWeight n i) =
      if i = j then c j else 0 := by
    intro j hj
    rw [cheb_orthogonal n hi (by have := mem_range.mp hj; omega)]
    split_ifs <;> simp
  rw [sum_congr rfl h3, sum_ite_eq, if_pos (mem_range.mpr (by omega))] at h1
  exact h1

theorem chebWeight_pos (n i : Nat) : 0 < chebWeight n i := by
  unfold chebWeight
  split_ifs <;> positivity

/-- C38 is false: the second call of `Compute_ai` on the constant 1 at order 0 turns the approximation 1 into 2; the same for two and three
variables. -/
theorem C38_refuted (B : Build) :
    (∃ s' s'', (CS1.closed (fun _ => 1) 0 1 0).computeAi B = .ok s' ∧ s'.computeAi B = .ok s'' ∧
      ∀ x, s'.evaluate B x = .ok 1 ∧ s''.evaluate B x = .ok 2) ∧
    (∃ s' s'', (CS2.closed (fun _ _ => 1) 0 1 0 1 0 0).computeAij B = .ok s' ∧ s'.computeAij B = .ok s'' ∧
      ∀ x y, s'.evaluate B x y = .ok 1 ∧ s''.evaluate B x y = .ok 2) ∧
    (∃ s' s'', (CS3.closed (fun _ _ _ => 1) 0 1 0 1 0 1 0 0 0).computeAijk B = .ok s' ∧ s'.computeAijk B = .ok s'' ∧
      ∀ x y z, s'.evaluate B x y z = .ok 1 ∧ s''.evaluate B x y z = .ok 2) := by
  have hd : ∀ x, (Seg.closed (0 : ℝ) 1).dom.Defined x := fun x => by simp [Seg.dom, Domain.Defined]
  refine ⟨?_, ?_, ?_⟩
  · obtain ⟨s', h1, h2⟩ := CS1.computeAi_ok B (CS1.fresh_holds (fun _ => 1) 0 (.closed 0 1))
    obtain ⟨s'', h3, h4⟩ := CS1.computeAi_ok B h2
    refine ⟨s', s'', h1, h3, fun x => ⟨?_, ?_⟩⟩
    · rw [CS1.evaluate_ok B h2 (hd x)]; simp [cheb1, CS1.next, chebWeight, chebT]
    · rw [CS1.evaluate_ok B h4 (hd x)]; norm_num [cheb1, CS1.next, chebWeight, chebT]
  · obtain ⟨s', h1, h2⟩ := CS2.computeAij_ok B (CS2.fresh_holds (fun _ _ => 1) 0 0 (.closed 0 1) (.closed 0 1))
    obtain ⟨s'', h3, h4⟩ := CS2.computeAij_ok B h2
    refine ⟨s', s'', h1, h3, fun x y => ⟨?_, ?_⟩⟩
    · rw [CS2.evaluate_ok B h2 (hd x) (hd y)]; simp [cheb2, CS2.next, chebWeight, chebT]
    · rw [CS2.evaluate_ok B h4 (hd x) (hd y)]; norm_num [cheb2, CS2.next, chebWeight, chebT]
  · obtain ⟨s', h1, h2⟩ := CS3.computeAijk_ok B (CS3.fresh_holds (fun _ _ _ => 1) 0 0 0 (.closed 0 1) (.closed 0 1) (.closed 0 1))
    obtain ⟨s'', h3, h4⟩ := CS3.computeAijk_ok B h2
    refine ⟨s', s'', h1, h3, fun x y z => ⟨?_, ?_⟩⟩
    · rw [CS3.evaluate_ok B h2 (hd x) (hd y) (hd z)]; simp [cheb3, CS3.next, chebWeight, chebT]
    · rw [CS3.evaluate_ok B h4 (hd x) (hd y) (hd z)]; norm_num [cheb3, CS3.next, chebWeight, chebT]

/-- C38, what holds: a second call leaves the approximation unchanged exactly when the function is zero at all the nodes. Missing: every other
function. -/
theorem C38_unchanged_partial (B : Build) {F : ℝ → ℝ} {n : Nat} {s : CS1 ℝ} {X : Domain ℝ} (hs : Fresh1 F n s X) (hX : X.Proper) :
    ∃ s' s'', s.computeAi B = .ok s' ∧ s'.computeAi B = .ok s'' ∧
      ((∀ x, X.Defined x → s''.evaluate B x = s'.evaluate B x) ↔ ∀ r, r ≤ n → F (X.node n r) = 0) := by
  obtain ⟨sx, rfl, h⟩ := hs.holds
  obtain ⟨s', h1, h2⟩ := CS1.computeAi_ok B h
  obtain ⟨s'', h3, h4⟩ := CS1.computeAi_ok B h2
  refine ⟨s', s'', h1, h3, ?_⟩
  have ha : ∀ i, CS1.next F n sx.dom i (CS1.next F n sx.dom i 0) = CS1.next F n sx.dom i 0 + CS1.next F n sx.dom i 0 * chebWeight n i := by
    intro i
    simp only [CS1.next]
    ring
  have he : ∀ u, cheb1 n (fun i => CS1.next F n sx.dom i (CS1.next F n sx.dom i 0)) u =
      cheb1 n (fun i => CS1.next F n sx.dom i 0) u + cheb1 n (fun i => CS1.next F n sx.dom i 0 * chebWeight n i) u := by
    intro u
    simp only [cheb1, ha, add_mul, sum_add_distrib]
  constructor
  · intro hall
    have hz : ∀ i, i ≤ n → CS1.next F n sx.dom i 0 = 0 := by
      intro i hi
      have := cheb1_zero (c := fun i => CS1.next F n sx.dom i 0 * chebWeight n i) (fun r hr => by
        obtain ⟨hd, hu⟩ := node_defined hX hr
        have h5 := hall _ hd
        rw [CS1.evaluate_ok B h4 hd, CS1.evaluate_ok B h2 hd, he, hu] at h5
        have h6 := Res.ok.inj h5
        linarith) hi
      exact (mul_eq_zero.mp this).resolve_right (chebWeight_pos n i).ne'
    intro r hr
    have h7 : cheb1 n (fun i => CS1.next F n sx.dom i 0) (chebNode n r) = 0 :=
      sum_eq_zero (fun i hi => by
        show CS1.next F n sx.dom i 0 * _ = 0
        rw [hz i (by have := mem_range.mp hi; omega), zero_mul])
    rwa [cheb1_next, chebInterp_node n _ hr] at h7
  · intro hF x hx
    have hz : ∀ i, CS1.next F n sx.dom i 0 = 0 := by
      intro i
      unfold CS1.next
      rw [sum_eq_zero (fun r hr => by rw [hF r (by have := (mem_Ico.mp hr).2; omega), zero_mul])]
      ring
    rw [CS1.evaluate_ok B h4 hx, CS1.evaluate_ok B h2 hx]
    simp only [hz]

/-- C38, what a second call does: the coefficient `i` is multiplied by `1 + 1/(n+1)` for `i = 0` and by `1 + 2/(n+1)` for `i > 0`. -/
theorem C38_second_call_partial (B : Build) {F : ℝ → ℝ} {n : Nat} {s : CS1 ℝ} {X : Domain ℝ} (hs : Fresh1 F n s X) :
    ∃ s' s'', s.computeAi B = .ok s' ∧ s'.computeAi B = .ok s'' ∧ ∀ i, i ≤ n →
      s''.m_ai.getD i 0 = s'.m_ai.getD i 0 * (1 + (if i = 0 then 1 else 2) / ((n : ℝ) + 1)) := by
  obtain ⟨sx, rfl, h⟩ := hs.holds
  obtain ⟨s', h1, h2⟩ := CS1.computeAi_ok B h
  obtain ⟨s'', h3, h4⟩ := CS1.computeAi_ok B h2
  refine ⟨s', s'', h1, h3, fun i hi => ?_⟩
  have hi' : i < n + 1 := by omega
  have hw : (if i = 0 then 1 else 2) / ((n : ℝ) + 1) = chebWeight n i := by
    unfold chebWeight
    split_ifs <;> rfl
  rw [hw, h2.coeffs, h4.coeffs]
  simp only [List.getD, List.getElem?_map, List.getElem?_range hi', Option.map_some, Option.getD_some, CS1.next]
  ring

example : Fresh1 (fun x => x) 3 (CS1.closed (fun x => x) 1 2 3) (.segment 1 2) ∧ (Domain.segment (1 : ℝ) 2).Proper :=
  ⟨.closed 1 2, by norm_num [Domain.Proper]⟩

end MU
