import Verif.Props.Triangle
import Mathlib.MeasureTheory.Integral.DominatedConvergence
import Mathlib.Topology.UniformSpace.HeineCantor
import Mathlib.Topology.MetricSpace.ProperSpace

set_option linter.unusedSectionVars false

/-!
# C130: quadrature over triangles, for integrands that are not polynomials
-/

namespace MU
open Finset

namespace Spec

/-- The point `x` is in the triangle, sides and vertices included: its barycentric coordinates are not negative. -/
def InTriangle (v1 v2 v3 x : Fin 3 → ℝ) : Prop := ∃ a b : ℝ, 0 ≤ a ∧ 0 ≤ b ∧ a + b ≤ 1 ∧ x = barPoint v1 v2 v3 a b

end Spec
open Spec

/-- The Gauss points are in the standard triangle. -/
theorem inside_check : ∀ k ∈ [1, 2, 3, 4, 5, 6, 7, 8], ∀ i ∈ List.range (tableOf k).weight.length,
    0 ≤ (tableOf k).alpha.getD i 0 ∧ 0 ≤ (tableOf k).beta.getD i 0 ∧ (tableOf k).alpha.getD i 0 + (tableOf k).beta.getD i 0 ≤ 1 := by
  decide +kernel

theorem inside {k i : Nat} (h1 : 1 ≤ k) (h8 : k ≤ 8) (hi : i < (tableOf k).weight.length) (v1 v2 v3 : V3) :
    (0 : ℝ) ≤ ((tableOf k).alpha.getD i 0 : ℚ) ∧ (0 : ℝ) ≤ ((tableOf k).beta.getD i 0 : ℚ) ∧
      ((tableOf k).alpha.getD i 0 : ℚ) + ((tableOf k).beta.getD i 0 : ℚ) ≤ (1 : ℝ) := by
  obtain ⟨h, h', h''⟩ := inside_check k (mem8 h1 h8) i (List.mem_range.2 hi)
  exact ⟨by exact_mod_cast h, by exact_mod_cast h', by exact_mod_cast h''⟩

theorem inTriangle_gauss {k i : Nat} (h1 : 1 ≤ k) (h8 : k ≤ 8) (hi : i < (tableOf k).weight.length) (v1 v2 v3 : V3) :
    InTriangle v1 v2 v3 (barPoint v1 v2 v3 ((tableOf k).alpha.getD i 0 : ℚ) ((tableOf k).beta.getD i 0 : ℚ)) := by
  obtain ⟨h, h', h''⟩ := inside h1 h8 hi v1 v2 v3
  exact ⟨_, _, h, h', h'', rfl⟩

theorem area_nonneg (v1 v2 v3 : V3) : 0 ≤ area v1 v2 v3 := by
  unfold area
  positivity

/-- C130: the result depends only on the values of the integrand in the triangle. -/
theorem C130_inside {T : Type} [AddCommGroup T] [Module ℝ T] {k : Nat} (h1 : 1 ≤ k) (h8 : k ≤ 8) (F G : V3 → T) (v1 v2 v3 : V3)
    (hFG : ∀ x, InTriangle v1 v2 v3 x → F x = G x) :
    ∃ sF sG r, Integration2dTriangle.new F k = .ok sF ∧ Integration2dTriangle.new G k = .ok sG ∧
      sF.compute v1 v2 v3 = .ok r ∧ sG.compute v1 v2 v3 = .ok r := by
  refine ⟨_, _, _, new_ok F h1 h8, new_ok G h1 h8, compute_ok F h1 h8 v1 v2 v3, ?_⟩
  rw [compute_ok G h1 h8]
  congr 2
  refine (sum_congr rfl (fun i hi => ?_)).symm
  exact congrArg _ (hFG _ (inTriangle_gauss h1 h8 (mem_range.1 hi) v1 v2 v3))

/-- Two integrands that agree in the triangle (0,0,0), (1,0,0), (0,1,0) and differ elsewhere. -/
example : (∀ x, InTriangle ![0, 0, 0] ![1, 0, 0] ![0, 1, 0] x → max (x 0) 0 = x 0) ∧ (max (-1) 0 : ℝ) ≠ -1 := by
  refine ⟨?_, by norm_num⟩
  rintro x ⟨a, b, ha, -, -, rfl⟩
  simp [barPoint, ha]

/-- The weights of the orders other than 3 and 7 are positive. -/
theorem weight_check : ∀ k ∈ [1, 2, 4, 5, 6, 8], ∀ i ∈ List.range (tableOf k).weight.length, 0 ≤ (tableOf k).weight.getD i 0 := by
  decide +kernel

theorem weight_nonneg {k i : Nat} (h1 : 1 ≤ k) (h8 : k ≤ 8) (h3 : k ≠ 3) (h7 : k ≠ 7) (hi : i < (tableOf k).weight.length) :
    (0 : ℝ) ≤ ((tableOf k).weight.getD i 0 : ℚ) := by
  have : k ∈ [1, 2, 4, 5, 6, 8] := by interval_cases k <;> simp_all
  exact_mod_cast weight_check k this i (List.mem_range.2 hi)

/-- C130, for the orders other than 3 and 7: a larger integrand has a larger integral. -/
theorem C130_monotone_partial {k : Nat} (h1 : 1 ≤ k) (h8 : k ≤ 8) (h3 : k ≠ 3) (h7 : k ≠ 7) (F G : V3 → ℝ) (v1 v2 v3 : V3)
    (hFG : ∀ x, InTriangle v1 v2 v3 x → F x ≤ G x) :
    ∃ sF sG rF rG, Integration2dTriangle.new F k = .ok sF ∧ Integration2dTriangle.new G k = .ok sG ∧
      sF.compute v1 v2 v3 = .ok rF ∧ sG.compute v1 v2 v3 = .ok rG ∧ rF ≤ rG := by
  refine ⟨_, _, _, _, new_ok F h1 h8, new_ok G h1 h8, compute_ok F h1 h8 v1 v2 v3, compute_ok G h1 h8 v1 v2 v3, ?_⟩
  refine mul_le_mul_of_nonneg_left (sum_le_sum fun i hi => ?_) (area_nonneg v1 v2 v3)
  exact mul_le_mul_of_nonneg_left (hFG _ (inTriangle_gauss h1 h8 (mem_range.1 hi) v1 v2 v3)) (weight_nonneg h1 h8 h3 h7 (mem_range.1 hi))

example : ∀ x, InTriangle ![0, 0, 0] ![1, 0, 0] ![0, 1, 0] x → x 0 ^ 2 ≤ x 0 := by
  rintro x ⟨a, b, ha, hb, hab, rfl⟩
  simp [barPoint]
  nlinarith

/-- An integrand that is continuous, nowhere negative and vanishes far from the centre of the triangle (0,0,0), (1,0,0), (0,1,0). -/
noncomputable def bump (x : V3) : ℝ := max 0 (1 - 200 * ((x 0 - 1 / 3) ^ 2 + (x 1 - 1 / 3) ^ 2))

theorem bump_bar (a b : ℝ) : bump (barPoint ![0, 0, 0] ![1, 0, 0] ![0, 1, 0] a b) = max 0 (1 - 200 * ((a - 1 / 3) ^ 2 + (b - 1 / 3) ^ 2)) := by
  simp [bump, barPoint]

/-- C130 refuted for the orders 3 and 7: the result for this integrand is negative. -/
theorem C130_refuted (k : Nat) (hk : k = 3 ∨ k = 7) : Continuous bump ∧ (∀ x, 0 ≤ bump x) ∧
    ∃ s r, Integration2dTriangle.new bump k = .ok s ∧ s.compute ![0, 0, 0] ![1, 0, 0] ![0, 1, 0] = .ok r ∧ r < 0 := by
  refine ⟨by unfold bump; fun_prop, fun x => le_max_left _ _, ?_⟩
  refine ⟨_, _, new_ok bump (by omega) (by omega), compute_ok bump (by omega) (by omega) _ _ _, ?_⟩
  simp only [bump_bar, smul_eq_mul]
  have ha : (0 : ℝ) < area ![0, 0, 0] ![1, 0, 0] ![0, 1, 0] := by
    simp [area, dot3, Fin.sum_univ_three]
  refine mul_neg_of_pos_of_neg ha ?_
  rcases hk with rfl | rfl
  · simp only [tableOf, qsum, table3, List.length_cons, List.length_nil, sum_range_succ, sum_range_zero]
    norm_num [max_def]
  · simp only [tableOf, qsum, table7, List.length_cons, List.length_nil, sum_range_succ, sum_range_zero]
    norm_num [max_def]

/-! ## Accuracy -/

section accuracy
variable {k : Nat} (h1 : 1 ≤ k) (h8 : k ≤ 8) {v1 v2 v3 : V3}
include h1 h8

/-- Bounded by `e` in the triangle: the quadrature is at most `5 e / 2`. -/
theorem qsum_le (G : ℝ → ℝ → ℝ) {e : ℝ} (he : ∀ a b, 0 ≤ a → 0 ≤ b → a + b ≤ 1 → |G a b| ≤ e) : |qsum (tableOf k) G| ≤ 5 / 2 * e := by
  have he0 : 0 ≤ e := (abs_nonneg _).trans (he 0 0 le_rfl le_rfl (by norm_num))
  unfold qsum
  refine (abs_sum_le_sum_abs _ _).trans ?_
  have hs : ∑ i ∈ range (tableOf k).weight.length, |(((tableOf k).weight.getD i 0 : ℚ) : ℝ)| ≤ 5 / 2 := by
    have := labs_check k (mem8 h1 h8)
    rw [labs_eq] at this
    have h' : ((∑ i ∈ range (tableOf k).weight.length, |(tableOf k).weight.getD i 0| : ℚ) : ℝ) ≤ ((5 / 2 : ℚ) : ℝ) := Rat.cast_le.2 this
    push_cast at h'
    exact h'
  refine le_trans ?_ (mul_le_mul_of_nonneg_right hs he0)
  rw [sum_mul]
  refine sum_le_sum fun i hi => ?_
  rw [smul_eq_mul, abs_mul]
  obtain ⟨h, h', h''⟩ := inside h1 h8 (mem_range.1 hi) (0 : V3) 0 0
  exact mul_le_mul_of_nonneg_left (he _ _ h h' h'') (abs_nonneg _)

omit h1 h8 in
theorem continuous_bar (F : V3 → ℝ) (hF : Continuous F) : Continuous (fun p : ℝ × ℝ => F (barPoint v1 v2 v3 p.1 p.2)) := by
  refine hF.comp ?_
  unfold barPoint
  fun_prop

omit h1 h8 in
theorem continuous_triPoly (c : Nat → Nat → ℝ) : Continuous (fun p : ℝ × ℝ => triPoly k c p.1 p.2) := by
  unfold triPoly
  fun_prop

omit h1 h8 in
/-- Bounded by `e` in the triangle: the integral over the standard triangle is at most `e / 2`. -/
theorem integral_tri_le {G : ℝ → ℝ → ℝ} {e : ℝ} (he : ∀ a b, 0 ≤ a → 0 ≤ b → a + b ≤ 1 → |G a b| ≤ e) :
    |∫ a in (0 : ℝ)..1, ∫ b in (0 : ℝ)..(1 - a), G a b| ≤ e / 2 := by
  have h : ∀ a ∈ Set.Ioc (0 : ℝ) 1, ‖∫ b in (0 : ℝ)..(1 - a), G a b‖ ≤ e * (1 - a) := by
    rintro a ⟨h0, h1⟩
    have := intervalIntegral.norm_integral_le_of_norm_le_const (a := 0) (b := 1 - a) (f := G a) (C := e) (by
      intro b hb
      rw [Set.uIoc_of_le (by linarith)] at hb
      exact he a b h0.le hb.1.le (by linarith [hb.2]))
    rwa [sub_zero, abs_of_nonneg (by linarith : 0 ≤ 1 - a)] at this
  have h' := intervalIntegral.norm_integral_le_of_norm_le (zero_le_one' ℝ) (Filter.Eventually.of_forall h)
    (Continuous.intervalIntegrable (μ := MeasureTheory.volume) (by fun_prop) _ _)
  rw [Real.norm_eq_abs] at h'
  refine h'.trans (le_of_eq ?_)
  rw [intervalIntegral.integral_const_mul, intervalIntegral.integral_sub (by simp) (by simp)]
  simp
  ring

omit h1 h8 in
theorem integral_tri_sub {G H : ℝ → ℝ → ℝ} (hG : Continuous (Function.uncurry G)) (hH : Continuous (Function.uncurry H)) :
    (∫ a in (0 : ℝ)..1, ∫ b in (0 : ℝ)..(1 - a), (G a b - H a b))
      = (∫ a in (0 : ℝ)..1, ∫ b in (0 : ℝ)..(1 - a), G a b) - ∫ a in (0 : ℝ)..1, ∫ b in (0 : ℝ)..(1 - a), H a b := by
  have c1 : ∀ {G : ℝ → ℝ → ℝ}, Continuous (Function.uncurry G) → ∀ a, Continuous (G a) := fun h a => h.comp (by fun_prop : Continuous fun b : ℝ => (a, b))
  have c2 : ∀ {G : ℝ → ℝ → ℝ}, Continuous (Function.uncurry G) → Continuous fun a => ∫ b in (0 : ℝ)..(1 - a), G a b := fun h =>
    intervalIntegral.continuous_parametric_intervalIntegral_of_continuous h (by fun_prop)
  rw [← intervalIntegral.integral_sub ((c2 hG).intervalIntegrable _ _) ((c2 hH).intervalIntegrable _ _)]
  refine intervalIntegral.integral_congr fun a _ => ?_
  exact intervalIntegral.integral_sub ((c1 hG a).intervalIntegrable _ _) ((c1 hH a).intervalIntegrable _ _)

/-- C130: the quadrature of order `k` is nearly the best that polynomials of degree `k` allow: when such a polynomial (in barycentric coordinates) is within `e`
of the integrand in the triangle, the error is at most `area (7 e / 2 + 3e-14 S)`, `S` the sum of the magnitudes of the coefficients. -/
theorem C130_approximation (F : V3 → ℝ) (hF : Continuous F) (c : Nat → Nat → ℝ) {e : ℝ}
    (he : ∀ a b, 0 ≤ a → 0 ≤ b → a + b ≤ 1 → |F (barPoint v1 v2 v3 a b) - triPoly k c a b| ≤ e) :
    ∃ s r, Integration2dTriangle.new F k = .ok s ∧ s.compute v1 v2 v3 = .ok r ∧
      |r - triangleIntegral F v1 v2 v3| ≤ area v1 v2 v3 * (7 / 2 * e + 3 / 10 ^ 14 * coefSum k c) := by
  refine ⟨_, _, new_ok F h1 h8, compute_ok F h1 h8 v1 v2 v3, ?_⟩
  have ha := area_nonneg v1 v2 v3
  have hp := poly_error h1 h8 c
  have hq := qsum_le h1 h8 (fun a b => F (barPoint v1 v2 v3 a b) - triPoly k c a b) he
  have hi := integral_tri_le he
  rw [integral_tri_sub (G := fun a b => F (barPoint v1 v2 v3 a b)) (H := triPoly k c) (continuous_bar F hF) (continuous_triPoly c)] at hi
  have hs : qsum (tableOf k) (fun a b => F (barPoint v1 v2 v3 a b) - triPoly k c a b)
      = qsum (tableOf k) (fun a b => F (barPoint v1 v2 v3 a b)) - qsum (tableOf k) (triPoly k c) := by
    simp only [qsum, smul_eq_mul, mul_sub, sum_sub_distrib]
  rw [hs] at hq
  unfold triangleIntegral
  rw [smul_eq_mul, show ∀ q i : ℝ, area v1 v2 v3 * q - 2 * area v1 v2 v3 * i = area v1 v2 v3 * (q - 2 * i) from fun q i => by ring, abs_mul,
    abs_of_nonneg ha]
  refine mul_le_mul_of_nonneg_left ?_ ha
  rw [abs_le] at hp hq hi ⊢
  constructor <;> linarith [hp.1, hp.2, hq.1, hq.2, hi.1, hi.2]

omit h1 h8 in
theorem triPoly_const (y a b : ℝ) : triPoly k (fun p q => if p = 0 ∧ q = 0 then y else 0) a b = y := by
  unfold triPoly
  rw [sum_eq_single 0, sum_eq_single 0]
  · simp
  · intro q _ hq
    simp [hq]
  · intro h
    simp at h
  · intro p _ hp
    simp [hp]
  · intro h
    simp at h

omit h1 h8 in
theorem coefSum_const (y : ℝ) : coefSum k (fun p q => if p = 0 ∧ q = 0 then y else 0) = |y| := by
  unfold coefSum
  rw [sum_eq_single 0, sum_eq_single 0]
  · simp
  · intro q _ hq
    simp [hq]
  · intro h
    simp at h
  · intro p _ hp
    simp [hp]
  · intro h
    simp at h

omit h1 h8 in
theorem bar_zero : barPoint v1 v2 v3 0 0 = v1 := by
  funext j
  simp [barPoint]

omit h1 h8 in
/-- A point of the triangle is no farther from a vertex than the sides are long. -/
theorem dist_vertex {D : ℝ} (h21 : dist3 v2 v1 ≤ D) (h31 : dist3 v3 v1 ≤ D) {a b : ℝ} (ha : 0 ≤ a) (hb : 0 ≤ b) (hab : a + b ≤ 1) :
    dist3 (barPoint v1 v2 v3 a b) v1 ≤ D := by
  have := point_dist v1 v2 v3 a b 0 0
  rw [bar_zero, sub_zero, sub_zero, abs_of_nonneg ha, abs_of_nonneg hb] at this
  have hD : 0 ≤ D := (Real.sqrt_nonneg _).trans h21
  refine this.trans ?_
  calc a * dist3 v2 v1 + b * dist3 v3 v1 ≤ a * D + b * D := by gcongr
    _ = (a + b) * D := by ring
    _ ≤ 1 * D := by gcongr
    _ = D := one_mul D

/-- C130: when the integrand varies by at most `e` in the triangle, the error is at most `area (7 e / 2 + 3e-14 |F v1|)`. -/
theorem C130_variation (F : V3 → ℝ) (hF : Continuous F) {e : ℝ} (he : ∀ x, InTriangle v1 v2 v3 x → |F x - F v1| ≤ e) :
    ∃ s r, Integration2dTriangle.new F k = .ok s ∧ s.compute v1 v2 v3 = .ok r ∧
      |r - triangleIntegral F v1 v2 v3| ≤ area v1 v2 v3 * (7 / 2 * e + 3 / 10 ^ 14 * |F v1|) := by
  have := C130_approximation h1 h8 (v1 := v1) (v2 := v2) (v3 := v3) F hF (fun p q => if p = 0 ∧ q = 0 then F v1 else 0) (e := e) (by
    intro a b ha hb hab
    rw [triPoly_const]
    exact he _ ⟨a, b, ha, hb, hab, rfl⟩)
  rwa [coefSum_const] at this

omit h1 h8 in
/-- A polynomial close to an integrand: `exp` of the first coordinate on the triangle (0,0,0), (1,0,0), (0,1,0), is within 1 of `1 + a`. -/
example (k : Nat) (h : 1 ≤ k) : ∃ c : Nat → Nat → ℝ, ∀ a b : ℝ, 0 ≤ a → 0 ≤ b → a + b ≤ 1 →
    |Real.exp (barPoint ![0, 0, 0] ![1, 0, 0] ![0, 1, 0] a b 0) - triPoly k c a b| ≤ 1 := by
  refine ⟨fun p q => if q = 0 then (if p ≤ 1 then 1 else 0) else 0, fun a b ha hb hab => ?_⟩
  have hp : triPoly k (fun p q => if q = 0 then (if p ≤ 1 then 1 else 0) else 0) a b = 1 + a := by
    unfold triPoly
    obtain ⟨n, rfl⟩ : ∃ n, k = n + 1 := ⟨k - 1, by omega⟩
    rw [sum_range_succ', sum_range_succ']
    have hz : ∀ p ∈ range n, (∑ q ∈ range (n + 1 + 1 - (p + 1 + 1)), (if q = 0 then (if p + 1 + 1 ≤ 1 then (1 : ℝ) else 0) else 0) * a ^ (p + 1 + 1) * b ^ q) = 0 :=
      fun p _ => sum_eq_zero fun q _ => by simp
    rw [sum_eq_zero hz, sum_eq_single 0, sum_eq_single 0]
    · simp
      ring
    · intro q _ hq
      simp [hq]
    · intro hh
      simp at hh
    · intro q _ hq
      simp [hq]
    · intro hh
      simp at hh
  rw [hp]
  have e : barPoint ![0, 0, 0] ![1, 0, 0] ![0, 1, 0] a b 0 = a := by simp [barPoint]
  rw [e]
  have h1 : a ≤ 1 := by linarith
  have h2 := Real.add_one_le_exp a
  have h3 := Real.abs_exp_sub_one_sub_id_le (x := a) (by rw [abs_of_nonneg ha]; exact h1)
  rw [show Real.exp a - (1 + a) = Real.exp a - 1 - a by ring]
  exact h3.trans (by nlinarith)

/-- C130: for an integrand of Lipschitz constant `L` and a triangle with sides of length at most `D`. -/
theorem C130_lipschitz (F : V3 → ℝ) {L D : ℝ} (hF : Continuous F) (hL : 0 ≤ L) (hlip : ∀ x y, |F x - F y| ≤ L * dist3 x y) (h21 : dist3 v2 v1 ≤ D)
    (h31 : dist3 v3 v1 ≤ D) :
    ∃ s r, Integration2dTriangle.new F k = .ok s ∧ s.compute v1 v2 v3 = .ok r ∧
      |r - triangleIntegral F v1 v2 v3| ≤ area v1 v2 v3 * (7 / 2 * L * D + 3 / 10 ^ 14 * |F v1|) := by
  have := C130_variation h1 h8 (v1 := v1) (v2 := v2) (v3 := v3) F hF (e := L * D) (by
    rintro x ⟨a, b, ha, hb, hab, rfl⟩
    exact (hlip _ _).trans (mul_le_mul_of_nonneg_left (dist_vertex h21 h31 ha hb hab) hL))
  rwa [← mul_assoc] at this

end accuracy

/-! ## Meshes -/

theorem sup_le_dist3 (x y : V3) : dist x y ≤ dist3 x y := by
  refine (dist_pi_le_iff (Real.sqrt_nonneg _)).2 fun j => ?_
  rw [Real.dist_eq, ← Real.sqrt_sq_eq_abs]
  exact Real.sqrt_le_sqrt (Finset.single_le_sum (f := fun j => (x j - y j) ^ 2) (fun i _ => sq_nonneg _) (mem_univ j))

/-- The triangles of a mesh. -/
structure Triangle3 where
  v1 : V3
  v2 : V3
  v3 : V3

/-- C130, convergence: the sum of the results over the triangles of a mesh is within `(ε + 3e-14 M)` times the area of the mesh of the sum of the integrals,
for each continuous integrand, bounded by `M` at distance at most `R` from the origin, and each mesh there with fine enough triangles. -/
theorem C130_converges {k : Nat} (h1 : 1 ≤ k) (h8 : k ≤ 8) (F : V3 → ℝ) (hF : Continuous F) {R M ε : ℝ} (hε : 0 < ε)
    (hM : ∀ x, dist3 x 0 ≤ R → |F x| ≤ M) :
    ∃ s, Integration2dTriangle.new F k = .ok s ∧ ∃ δ > 0, ∀ mesh : List Triangle3,
      (∀ t ∈ mesh, dist3 t.v1 0 ≤ R ∧ dist3 t.v2 0 ≤ R ∧ dist3 t.v3 0 ≤ R ∧ dist3 t.v2 t.v1 ≤ δ ∧ dist3 t.v3 t.v1 ≤ δ) →
      ∃ rs, List.Forall₂ (fun t r => s.compute t.v1 t.v2 t.v3 = .ok r) mesh rs ∧
        |rs.sum - (mesh.map fun t => triangleIntegral F t.v1 t.v2 t.v3).sum| ≤ (ε + 3 / 10 ^ 14 * M) * (mesh.map fun t => area t.v1 t.v2 t.v3).sum := by
  have hu : UniformContinuousOn F (Metric.closedBall 0 R) := (isCompact_closedBall 0 R).uniformContinuousOn_of_continuous hF.continuousOn
  rw [Metric.uniformContinuousOn_iff] at hu
  obtain ⟨δ, hδ, hmod⟩ := hu (2 / 7 * ε) (by positivity)
  refine ⟨_, new_ok F h1 h8, δ / 2, by positivity, fun mesh hmesh => ?_⟩
  induction mesh with
  | nil => exact ⟨[], .nil, by simp⟩
  | cons t ts ih =>
    obtain ⟨rs, hrs, hsum⟩ := ih (fun t' h => hmesh t' (List.mem_cons_of_mem _ h))
    obtain ⟨b1, b2, b3, d2, d3⟩ := hmesh t List.mem_cons_self
    obtain ⟨s, r, hs, hr, he⟩ := C130_variation h1 h8 (v1 := t.v1) (v2 := t.v2) (v3 := t.v3) F hF (e := 2 / 7 * ε) (by
      rintro x ⟨a, b, ha, hb, hab, rfl⟩
      have hin : ∀ a b : ℝ, 0 ≤ a → 0 ≤ b → a + b ≤ 1 → barPoint t.v1 t.v2 t.v3 a b ∈ Metric.closedBall (0 : V3) R := by
        intro a b ha hb hab
        have hR : 0 ≤ R := (Real.sqrt_nonneg _).trans b1
        rw [Metric.mem_closedBall, dist_pi_le_iff hR]
        intro j
        have c1 := (dist_le_pi_dist t.v1 0 j).trans ((sup_le_dist3 _ _).trans b1)
        have c2 := (dist_le_pi_dist t.v2 0 j).trans ((sup_le_dist3 _ _).trans b2)
        have c3 := (dist_le_pi_dist t.v3 0 j).trans ((sup_le_dist3 _ _).trans b3)
        simp only [Pi.zero_apply, Real.dist_eq, sub_zero, abs_le] at c1 c2 c3 ⊢
        simp only [barPoint]
        have : 0 ≤ 1 - a - b := by linarith
        constructor <;> nlinarith
      refine (hmod _ (hin a b ha hb hab) _ (by simpa [bar_zero] using hin 0 0 le_rfl le_rfl (by norm_num)) ?_).le
      have := (sup_le_dist3 _ _).trans (dist_vertex d2 d3 ha hb hab)
      linarith)
    rw [new_ok F h1 h8] at hs
    cases hs
    refine ⟨r :: rs, .cons hr hrs, ?_⟩
    simp only [List.sum_cons, List.map_cons]
    have h' : area t.v1 t.v2 t.v3 * (7 / 2 * (2 / 7 * ε) + 3 / 10 ^ 14 * |F t.v1|) ≤ (ε + 3 / 10 ^ 14 * M) * area t.v1 t.v2 t.v3 := by
      have := hM t.v1 b1
      have ha := area_nonneg t.v1 t.v2 t.v3
      nlinarith
    rw [abs_le] at he hsum ⊢
    constructor <;> linarith [he.1, he.2, hsum.1, hsum.2]

/-- An integrand and a bound of it on a ball that meet the hypotheses. -/
example : Continuous (fun x : V3 => Real.exp (x 0)) ∧ ∀ x : V3, dist3 x 0 ≤ 1 → |Real.exp (x 0)| ≤ Real.exp 1 := by
  refine ⟨by fun_prop, fun x hx => ?_⟩
  rw [abs_of_pos (Real.exp_pos _)]
  refine Real.exp_le_exp.2 ?_
  have := (dist_le_pi_dist x 0 0).trans ((sup_le_dist3 _ _).trans hx)
  rw [Pi.zero_apply, Real.dist_eq, sub_zero] at this
  exact (le_abs_self _).trans this

/-- However small `δ`, there are triangles of this size in the ball, with a positive area. -/
example {δ : ℝ} (hδ : 0 < δ) : ∃ t : Triangle3, dist3 t.v1 0 ≤ 1 ∧ dist3 t.v2 0 ≤ 1 ∧ dist3 t.v3 0 ≤ 1 ∧ dist3 t.v2 t.v1 ≤ δ ∧ dist3 t.v3 t.v1 ≤ δ ∧
    0 < area t.v1 t.v2 t.v3 := by
  have h0 : 0 < min δ 1 := lt_min hδ one_pos
  refine ⟨⟨0, ![min δ 1, 0, 0], ![0, min δ 1, 0]⟩, ?_, ?_, ?_, ?_, ?_, ?_⟩
  all_goals simp [dist3, area, dot3, Fin.sum_univ_three, Real.sqrt_sq h0.le]
  exact h0.ne'

end MU
