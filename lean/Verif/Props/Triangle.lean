import Verif.Lemmas.Triangle
import Mathlib.Algebra.MvPolynomial.Degrees
import Mathlib.Algebra.MvPolynomial.Eval

set_option linter.unusedSectionVars false

/-!
# Integration2dTriangle: C44, C45, C46
-/

namespace MU
open Finset

/-- **C44**: over every triangle, an integrator of order `k` integrates every polynomial of degree at most `k` in the barycentric coordinates within
`3e-14` times the area times the sum of the magnitudes of the coefficients. -/
theorem C44_exact {k : Nat} (h1 : 1 ≤ k) (h8 : k ≤ 8) (F : V3 → ℝ) (v1 v2 v3 : V3) (c : Nat → Nat → ℝ)
    (hF : ∀ a b, F (Spec.barPoint v1 v2 v3 a b) = Spec.triPoly k c a b) :
    ∃ s r, Integration2dTriangle.new F k = .ok s ∧ s.compute v1 v2 v3 = .ok r ∧
      |r - Spec.triangleIntegral F v1 v2 v3| ≤ 3 / 10 ^ 14 * Spec.area v1 v2 v3 * Spec.coefSum k c := by
  refine ⟨_, _, new_ok F h1 h8, compute_ok F h1 h8 v1 v2 v3, ?_⟩
  unfold Spec.triangleIntegral
  simp only [hF, smul_eq_mul]
  have ha : 0 ≤ Spec.area v1 v2 v3 := by
    unfold Spec.area
    positivity
  have he := poly_error h1 h8 c
  have e : Spec.area v1 v2 v3 * qsum (tableOf k) (fun a b => Spec.triPoly k c a b)
      - 2 * Spec.area v1 v2 v3 * (∫ a in (0 : ℝ)..1, ∫ b in (0 : ℝ)..(1 - a), Spec.triPoly k c a b)
      = Spec.area v1 v2 v3 * (qsum (tableOf k) (Spec.triPoly k c) - 2 * ∫ a in (0 : ℝ)..1, ∫ b in (0 : ℝ)..(1 - a), Spec.triPoly k c a b) := by
    ring
  rw [e, abs_mul, abs_of_nonneg ha]
  calc _ ≤ Spec.area v1 v2 v3 * (3 / 10 ^ 14 * Spec.coefSum k c) := mul_le_mul_of_nonneg_left he ha
    _ = _ := by ring

/-- The triangle of the example. -/
def triV1 : V3 := ![0, 0, 1]
/-- The triangle of the example. -/
def triV2 : V3 := ![2, 0, 1]
/-- The triangle of the example. -/
def triV3 : V3 := ![0, 3, 2]

-- The square of the first coordinate is a polynomial of degree two over this triangle.
example : ∀ a b, (fun x : V3 => x 0 ^ 2) (Spec.barPoint triV1 triV2 triV3 a b)
    = Spec.triPoly 2 (fun p q => if p = 2 ∧ q = 0 then 4 else 0) a b := by
  intro a b
  simp [Spec.barPoint, Spec.triPoly, triV1, triV2, triV3, Finset.sum_range_succ]
  ring

/-- Polynomials in two variables of degree at most `k`, as functions. -/
def IsPoly2 (k : Nat) (f : ℝ → ℝ → ℝ) : Prop := ∃ c, ∀ a b, f a b = Spec.triPoly k c a b

theorem IsPoly2.mono (k p q : Nat) (h : p + q ≤ k) (t : ℝ) : IsPoly2 k (fun a b => t * a ^ p * b ^ q) := by
  refine ⟨fun i j => if i = p ∧ j = q then t else 0, fun a b => ?_⟩
  unfold Spec.triPoly
  rw [sum_eq_single p, sum_eq_single q]
  · simp
  · intro j _ hj
    simp [hj]
  · intro hj
    simp at hj
    omega
  · intro i _ hi
    refine sum_eq_zero (fun j _ => ?_)
    simp [hi]
  · intro hi
    simp at hi
    omega

theorem IsPoly2.sum {ι : Type} (k : Nat) (s : Finset ι) (f : ι → ℝ → ℝ → ℝ) (h : ∀ i ∈ s, IsPoly2 k (f i)) :
    IsPoly2 k (fun a b => ∑ i ∈ s, f i a b) := by
  classical
  choose! c hc using h
  refine ⟨fun p q => ∑ i ∈ s, c i p q, fun a b => ?_⟩
  show ∑ i ∈ s, f i a b = _
  rw [sum_congr rfl (fun i hi => hc i hi a b)]
  unfold Spec.triPoly
  rw [sum_comm]
  refine sum_congr rfl (fun p _ => ?_)
  rw [sum_comm]
  refine sum_congr rfl (fun q _ => ?_)
  rw [sum_mul, sum_mul]

theorem IsPoly2.mul {k l : Nat} {f g : ℝ → ℝ → ℝ} (hf : IsPoly2 k f) (hg : IsPoly2 l g) : IsPoly2 (k + l) (fun a b => f a b * g a b) := by
  obtain ⟨c, hc⟩ := hf
  obtain ⟨d, hd⟩ := hg
  have : IsPoly2 (k + l) (fun a b => ∑ p ∈ range (k + 1), ∑ q ∈ range (k + 1 - p), ∑ p' ∈ range (l + 1), ∑ q' ∈ range (l + 1 - p'),
      (c p q * d p' q') * a ^ (p + p') * b ^ (q + q')) := by
    refine IsPoly2.sum _ _ _ (fun p hp => IsPoly2.sum _ _ _ (fun q hq => IsPoly2.sum _ _ _ (fun p' hp' => IsPoly2.sum _ _ _ (fun q' hq' => ?_))))
    refine IsPoly2.mono _ _ _ ?_ _
    simp at hp hq hp' hq'
    omega
  obtain ⟨e, he⟩ := this
  refine ⟨e, fun a b => ?_⟩
  rw [← he]
  simp only [hc, hd]
  unfold Spec.triPoly
  rw [sum_mul]
  refine sum_congr rfl (fun p _ => ?_)
  rw [sum_mul]
  refine sum_congr rfl (fun q _ => ?_)
  rw [mul_sum]
  refine sum_congr rfl (fun p' _ => ?_)
  rw [mul_sum]
  refine sum_congr rfl (fun q' _ => ?_)
  ring

theorem IsPoly2.le {k l : Nat} (h : k ≤ l) {f : ℝ → ℝ → ℝ} (hf : IsPoly2 k f) : IsPoly2 l f := by
  obtain ⟨c, hc⟩ := hf
  have : IsPoly2 l (fun a b => ∑ p ∈ range (k + 1), ∑ q ∈ range (k + 1 - p), c p q * a ^ p * b ^ q) := by
    refine IsPoly2.sum _ _ _ (fun p hp => IsPoly2.sum _ _ _ (fun q hq => IsPoly2.mono _ _ _ ?_ _))
    simp at hp hq
    omega
  obtain ⟨e, he⟩ := this
  exact ⟨e, fun a b => by rw [← he, hc]; rfl⟩

theorem IsPoly2.pow {k : Nat} {f : ℝ → ℝ → ℝ} (hf : IsPoly2 k f) (n : Nat) : IsPoly2 (n * k) (fun a b => f a b ^ n) := by
  induction n with
  | zero =>
    have := IsPoly2.mono (0 * k) 0 0 (by omega) 1
    simpa using this
  | succ n ih =>
    have := ih.mul hf
    rw [show n * k + k = (n + 1) * k by ring] at this
    simpa only [pow_succ] using this

theorem IsPoly2.prod {ι : Type} [DecidableEq ι] (s : Finset ι) (d : ι → Nat) (f : ι → ℝ → ℝ → ℝ) (h : ∀ i ∈ s, IsPoly2 (d i) (f i)) :
    IsPoly2 (∑ i ∈ s, d i) (fun a b => ∏ i ∈ s, f i a b) := by
  induction s using Finset.induction_on with
  | empty =>
    have := IsPoly2.mono 0 0 0 (by omega) 1
    simpa using this
  | insert i s hi ih =>
    have := (h i (mem_insert_self i s)).mul (ih (fun j hj => h j (mem_insert_of_mem hj)))
    simpa only [sum_insert hi, prod_insert hi] using this

theorem isPoly2_space (P : MvPolynomial (Fin 3) ℝ) {k : Nat} (hP : P.totalDegree ≤ k) (v1 v2 v3 : V3) :
    IsPoly2 k (fun a b => MvPolynomial.eval (Spec.barPoint v1 v2 v3 a b) P) := by
  simp only [MvPolynomial.eval_eq]
  refine IsPoly2.sum _ _ _ (fun m hm => ?_)
  have hd : ∑ j ∈ m.support, m j ≤ k := (MvPolynomial.le_totalDegree hm).trans hP
  have hlin : ∀ j, IsPoly2 1 (fun a b => Spec.barPoint v1 v2 v3 a b j) := by
    intro j
    refine ⟨fun p q => if p = 0 ∧ q = 0 then v1 j else if p = 1 ∧ q = 0 then v2 j - v1 j else v3 j - v1 j, fun a b => ?_⟩
    simp [Spec.triPoly, Spec.barPoint, sum_range_succ]
    ring
  have hp := IsPoly2.prod m.support (fun j => m j * 1) (fun j a b => Spec.barPoint v1 v2 v3 a b j ^ m j) (fun j _ => (hlin j).pow (m j))
  have hc := (IsPoly2.mono 0 0 0 (by omega) (MvPolynomial.coeff m P)).mul hp
  simp only [pow_zero, mul_one] at hc
  exact IsPoly2.le (by omega) hc

/-- **C44**, for the polynomials in the coordinates of the space. -/
theorem C44_space {k : Nat} (h1 : 1 ≤ k) (h8 : k ≤ 8) (P : MvPolynomial (Fin 3) ℝ) (hP : P.totalDegree ≤ k) (v1 v2 v3 : V3) :
    ∃ s r c, Integration2dTriangle.new (fun x => MvPolynomial.eval x P) k = .ok s ∧ s.compute v1 v2 v3 = .ok r ∧
      (∀ a b, MvPolynomial.eval (Spec.barPoint v1 v2 v3 a b) P = Spec.triPoly k c a b) ∧
      |r - Spec.triangleIntegral (fun x => MvPolynomial.eval x P) v1 v2 v3| ≤ 3 / 10 ^ 14 * Spec.area v1 v2 v3 * Spec.coefSum k c := by
  obtain ⟨c, hc⟩ := isPoly2_space P hP v1 v2 v3
  obtain ⟨s, r, hs, hr, he⟩ := C44_exact h1 h8 (fun x => MvPolynomial.eval x P) v1 v2 v3 c hc
  exact ⟨s, r, c, hs, hr, hc, he⟩

example : (MvPolynomial.X 0 * MvPolynomial.X 2 : MvPolynomial (Fin 3) ℝ).totalDegree ≤ 2 := by
  refine (MvPolynomial.totalDegree_mul _ _).trans ?_
  simp

/-- **C45**: the orders 1 to 8 are accepted; their tables exist and have equal lengths, and no computation leaves them. The other orders end the
process. -/
theorem C45_orders {T : Type} [AddCommGroup T] [Module ℝ T] (F : V3 → T) (order : Int) :
    ((1 ≤ order ∧ order ≤ 8) → ∃ s, Integration2dTriangle.new F order = .ok s ∧
      (∃ a b w, s.m_tables.alpha order = .ok a ∧ s.m_tables.beta order = .ok b ∧ s.m_tables.weight order = .ok w ∧
        a.length = w.length ∧ b.length = w.length) ∧
      ∀ v1 v2 v3, ∃ r, s.compute v1 v2 v3 = .ok r) ∧
    (¬ (1 ≤ order ∧ order ≤ 8) → Integration2dTriangle.new F order = .exits 0) := by
  constructor
  · rintro ⟨h1, h8⟩
    obtain ⟨k, rfl⟩ : ∃ k : Nat, order = k := ⟨order.toNat, by omega⟩
    have h1 : 1 ≤ k := by omega
    have h8 : k ≤ 8 := by omega
    obtain ⟨ha, hb, hw, hla, hlb, -⟩ := tables_read h1 h8
    exact ⟨_, new_ok F h1 h8, ⟨_, _, _, ha, hb, hw, hla, hlb⟩, fun v1 v2 v3 => ⟨_, compute_ok F h1 h8 v1 v2 v3⟩⟩
  · intro h
    have hs := tables_size
    unfold Integration2dTriangle.new
    by_cases h8 : order > 8
    · rw [if_pos (by omega)]
    · rw [if_neg (by omega), if_pos (by omega)]

/-- **C46**: the result is linear in the integrand. -/
theorem C46_linear {T : Type} [AddCommGroup T] [Module ℝ T] {k : Nat} (h1 : 1 ≤ k) (h8 : k ≤ 8) (F G : V3 → T) (x y : ℝ) (v1 v2 v3 : V3) :
    ∃ sF sG s rF rG, Integration2dTriangle.new F k = .ok sF ∧ Integration2dTriangle.new G k = .ok sG ∧
      Integration2dTriangle.new (fun z => x • F z + y • G z) k = .ok s ∧
      sF.compute v1 v2 v3 = .ok rF ∧ sG.compute v1 v2 v3 = .ok rG ∧ s.compute v1 v2 v3 = .ok (x • rF + y • rG) := by
  refine ⟨_, _, _, _, _, new_ok F h1 h8, new_ok G h1 h8, new_ok _ h1 h8, compute_ok F h1 h8 v1 v2 v3, compute_ok G h1 h8 v1 v2 v3, ?_⟩
  rw [compute_ok _ h1 h8]
  congr 1
  unfold qsum
  simp only [smul_sum, ← sum_add_distrib]
  refine sum_congr rfl (fun i _ => ?_)
  module

/-- The bound on one exchange of the first two vertices. -/
theorem compute_swap12 {T : Type} [NormedAddCommGroup T] [NormedSpace ℝ T] {k : Nat} (h1 : 1 ≤ k) (h8 : k ≤ 8) (F : V3 → T) (v1 v2 v3 : V3)
    {L D : ℝ} (hL : 0 ≤ L) (hF : ∀ x y, ‖F x - F y‖ ≤ L * Spec.dist3 x y) (hD : 0 ≤ D) (h21 : Spec.dist3 v2 v1 ≤ D) (h31 : Spec.dist3 v3 v1 ≤ D) :
    ‖Spec.area v2 v1 v3 • qsum (tableOf k) (fun a b => F (Spec.barPoint v2 v1 v3 a b))
      - Spec.area v1 v2 v3 • qsum (tableOf k) (fun a b => F (Spec.barPoint v1 v2 v3 a b))‖ ≤ 5 / 10 ^ 14 * Spec.area v1 v2 v3 * L * D := by
  rw [area_swap12, ← smul_sub, norm_smul, Real.norm_eq_abs]
  have ha : 0 ≤ Spec.area v1 v2 v3 := by
    unfold Spec.area
    positivity
  rw [abs_of_nonneg ha]
  have hs := qsum_swap12 h1 h8 (fun a b => F (Spec.barPoint v1 v2 v3 a b)) (M := L * (2 / 10 ^ 14 * D)) (by positivity) (by
    intro a b a' b' hab hbb
    refine (hF _ _).trans (mul_le_mul_of_nonneg_left ?_ hL)
    refine (point_dist v1 v2 v3 a b a' b').trans ?_
    have e1 : |a - a'| * Spec.dist3 v2 v1 ≤ 1 / 10 ^ 14 * D := mul_le_mul hab h21 (Real.sqrt_nonneg _) (by positivity)
    have e2 : |b - b'| * Spec.dist3 v3 v1 ≤ 1 / 10 ^ 14 * D := mul_le_mul hbb h31 (Real.sqrt_nonneg _) (by positivity)
    linarith)
  simp only [point_swap12 v1 v2 v3]
  calc _ ≤ Spec.area v1 v2 v3 * (5 / 2 * (L * (2 / 10 ^ 14 * D))) := mul_le_mul_of_nonneg_left hs ha
    _ = _ := by ring

theorem compute_swap23 {T : Type} [AddCommGroup T] [Module ℝ T] {k : Nat} (h1 : 1 ≤ k) (h8 : k ≤ 8) (F : V3 → T) (v1 v2 v3 : V3) :
    Spec.area v1 v3 v2 • qsum (tableOf k) (fun a b => F (Spec.barPoint v1 v3 v2 a b))
      = Spec.area v1 v2 v3 • qsum (tableOf k) (fun a b => F (Spec.barPoint v1 v2 v3 a b)) := by
  rw [area_swap23]
  simp only [point_swap23 v1 v2 v3]
  rw [qsum_swap23 h1 h8]

/-- **C46**: exchanging the last two vertices changes nothing, for every integrand. -/
theorem C46_swap_last {T : Type} [AddCommGroup T] [Module ℝ T] {k : Nat} (h1 : 1 ≤ k) (h8 : k ≤ 8) (F : V3 → T) (v1 v2 v3 : V3) :
    ∃ s r, Integration2dTriangle.new F k = .ok s ∧ s.compute v1 v2 v3 = .ok r ∧ s.compute v1 v3 v2 = .ok r := by
  refine ⟨_, _, new_ok F h1 h8, compute_ok F h1 h8 v1 v2 v3, ?_⟩
  rw [compute_ok F h1 h8, compute_swap23 h1 h8]

/-- **C46**: renaming the vertices changes the result by no more than `5e-14 * area * L * D` where `L` is a Lipschitz constant of the integrand and
`D` bounds the sides of the triangle. -/
theorem C46_permute {T : Type} [NormedAddCommGroup T] [NormedSpace ℝ T] {k : Nat} (h1 : 1 ≤ k) (h8 : k ≤ 8) (F : V3 → T) (v : Fin 3 → V3)
    {L D : ℝ} (hL : 0 ≤ L) (hF : ∀ x y, ‖F x - F y‖ ≤ L * Spec.dist3 x y) (hD : ∀ i j, Spec.dist3 (v i) (v j) ≤ D) (σ : Equiv.Perm (Fin 3)) :
    ∃ s r r', Integration2dTriangle.new F k = .ok s ∧ s.compute (v 0) (v 1) (v 2) = .ok r ∧
      s.compute (v (σ 0)) (v (σ 1)) (v (σ 2)) = .ok r' ∧ ‖r' - r‖ ≤ 5 / 10 ^ 14 * Spec.area (v 0) (v 1) (v 2) * L * D := by
  refine ⟨_, _, _, new_ok F h1 h8, compute_ok F h1 h8 _ _ _, compute_ok F h1 h8 _ _ _, ?_⟩
  have hD0 : 0 ≤ D := (Real.sqrt_nonneg _).trans (hD 0 0)
  have ha : 0 ≤ Spec.area (v 0) (v 1) (v 2) := by
    unfold Spec.area
    positivity
  have h01 : σ 0 ≠ σ 1 := fun h => absurd (σ.injective h) (by decide)
  have h02 : σ 0 ≠ σ 2 := fun h => absurd (σ.injective h) (by decide)
  have h12 : σ 1 ≠ σ 2 := fun h => absurd (σ.injective h) (by decide)
  generalize σ 0 = i at *
  generalize σ 1 = j at *
  generalize σ 2 = l at *
  have s12 := compute_swap12 h1 h8 F (v 0) (v 1) (v 2) hL hF hD0 (hD 1 0) (hD 2 0)
  have s13 := compute_swap12 h1 h8 F (v 0) (v 2) (v 1) hL hF hD0 (hD 2 0) (hD 1 0)
  rw [area_swap23 (v 0) (v 1) (v 2)] at s13
  have e23 := fun i j l => compute_swap23 h1 h8 F (v i) (v j) (v l)
  have z := e23 0 1 2
  rw [area_swap23 (v 0) (v 1) (v 2)] at z
  rw [z] at s13
  fin_cases i <;> fin_cases j <;> fin_cases l <;> simp only [ne_eq, not_true_eq_false, Fin.reduceFinMk, Fin.zero_eta, Fin.mk_one] at h01 h02 h12 ⊢
  · simpa using by positivity
  · rw [e23 0 1 2, sub_self, norm_zero]
    positivity
  · exact s12
  · rw [e23 1 0 2]
    exact s12
  · exact s13
  · rw [e23 2 0 1]
    exact s13

-- The distance to the origin is a Lipschitz integrand, and the sides of the triangle of the example are bounded.
example : ∀ x y : V3, ‖(3 * x 1 : ℝ) - 3 * y 1‖ ≤ 3 * Spec.dist3 x y := by
  intro x y
  rw [← mul_sub, norm_mul, Real.norm_eq_abs, Real.norm_eq_abs, abs_of_pos (show (0 : ℝ) < 3 by norm_num)]
  refine mul_le_mul_of_nonneg_left ?_ (by norm_num)
  unfold Spec.dist3
  rw [← Real.sqrt_sq_eq_abs]
  refine Real.sqrt_le_sqrt ?_
  simp only [Fin.sum_univ_three]
  nlinarith [sq_nonneg (x 0 - y 0), sq_nonneg (x 2 - y 2)]

end MU
