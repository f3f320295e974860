import Verif.Props.IntegralRules

/-!
# C228: integrals over rectangles, by integrating twice

`Trapz` applied to each row of an array and then to the results.
-/

set_option linter.unusedSectionVars false

namespace MU
open Finset

/-- `v` is obtained from the array `F` of `n` rows of `m` samples by integrating each row with `T'`, and then the `n` results with `T`. -/
def Spec.Repeated {K : Type} (T T' : List K → Res K) (n m : Nat) (F : Nat → Nat → K) (v : K) : Prop :=
  ∃ r : Nat → K, (∀ i, i < n → T' ((List.range m).map (F i)) = .ok (r i)) ∧ T ((List.range n).map r) = .ok v

open Spec

variable {K : Type} [Field K] [LinearOrder K] [IsStrictOrderedRing K]

theorem repeated_sum {B : Build} {n m : Nat} (h2 : 2 ≤ n) (h64 : n < 2 ^ 64) (k2 : 2 ≤ m) (k64 : m < 2 ^ 64) {L L' : K} {T T' : List K → Res K} (hT : Trapezoids B n L T)
    (hT' : Trapezoids B m L' T') :
    ∃ ω ω' : Nat → K, (∀ i, i < n → 0 ≤ ω i) ∧ (∀ j, j < m → 0 ≤ ω' j) ∧ ∑ i ∈ range n, ω i = L ∧ ∑ j ∈ range m, ω' j = L' ∧
      (∀ y : Nat → K, T ((List.range n).map y) = .ok (∑ i ∈ range n, ω i * y i)) ∧ (∀ y : Nat → K, T' ((List.range m).map y) = .ok (∑ j ∈ range m, ω' j * y j)) ∧
      ∀ F v, Repeated T T' n m F v ↔ v = ∑ i ∈ range n, ∑ j ∈ range m, ω i * (ω' j * F i j) := by
  obtain ⟨ω, a1, a2, a3⟩ := hT.weights h2 h64
  obtain ⟨ω', b1, b2, b3⟩ := hT'.weights k2 k64
  have a4 : ∀ y : Nat → K, T ((List.range n).map y) = .ok (∑ i ∈ range n, ω i * y i) := by
    intro y
    rw [a3 _ (by simp)]
    congr 1
    exact sum_congr rfl fun i hi => by simp [mem_range.1 hi]
  have b4 : ∀ y : Nat → K, T' ((List.range m).map y) = .ok (∑ j ∈ range m, ω' j * y j) := by
    intro y
    rw [b3 _ (by simp)]
    congr 1
    exact sum_congr rfl fun i hi => by simp [mem_range.1 hi]
  refine ⟨ω, ω', a1, b1, a2, b2, a4, b4, fun F v => ⟨?_, ?_⟩⟩
  · rintro ⟨r, h, h'⟩
    rw [a4] at h'
    rw [← Res.ok.inj h']
    refine sum_congr rfl fun i hi => ?_
    have := h i (mem_range.1 hi)
    rw [b4] at this
    rw [← Res.ok.inj this, mul_sum]
  · rintro rfl
    refine ⟨fun i => ∑ j ∈ range m, ω' j * F i j, fun i _ => b4 _, ?_⟩
    rw [a4]
    simp only [mul_sum]

/-- C228: integrating twice gives a value, and the order in which it is done has no effect on it. -/
theorem C228_order {B : Build} {n m : Nat} (h2 : 2 ≤ n) (h64 : n < 2 ^ 64) (k2 : 2 ≤ m) (k64 : m < 2 ^ 64) {L L' : K} {T T' : List K → Res K} (hT : Trapezoids B n L T)
    (hT' : Trapezoids B m L' T') (F : Nat → Nat → K) : ∃ v, Repeated T T' n m F v ∧ Repeated T' T m n (fun j i => F i j) v ∧ ∀ w, Repeated T T' n m F w → w = v := by
  obtain ⟨ω, ω', -, -, -, -, a, b, h⟩ := repeated_sum h2 h64 k2 k64 hT hT'
  refine ⟨_, (h F _).2 rfl, ⟨fun j => ∑ i ∈ range n, ω i * F i j, fun j _ => a _, ?_⟩, fun w hw => (h F w).1 hw⟩
  rw [b, sum_comm]
  congr 1
  refine sum_congr rfl fun j _ => ?_
  rw [mul_sum]
  exact sum_congr rfl fun i _ => by ring

/-- C228: an array of products has the product of the two integrals. -/
theorem C228_product {B : Build} {n m : Nat} (h2 : 2 ≤ n) (h64 : n < 2 ^ 64) (k2 : 2 ≤ m) (k64 : m < 2 ^ 64) {L L' : K} {T T' : List K → Res K} (hT : Trapezoids B n L T)
    (hT' : Trapezoids B m L' T') (f g : Nat → K) :
    ∃ s t, T ((List.range n).map f) = .ok s ∧ T' ((List.range m).map g) = .ok t ∧ Repeated T T' n m (fun i j => f i * g j) (s * t) := by
  obtain ⟨ω, ω', -, -, -, -, a, b, h⟩ := repeated_sum h2 h64 k2 k64 hT hT'
  refine ⟨_, _, a f, b g, (h _ _).2 ?_⟩
  rw [sum_mul_sum]
  exact sum_congr rfl fun i _ => sum_congr rfl fun j _ => by ring

/-- C228: sums and multiples. -/
theorem C228_linear {B : Build} {n m : Nat} (h2 : 2 ≤ n) (h64 : n < 2 ^ 64) (k2 : 2 ≤ m) (k64 : m < 2 ^ 64) {L L' : K} {T T' : List K → Res K} (hT : Trapezoids B n L T)
    (hT' : Trapezoids B m L' T') {F G : Nat → Nat → K} {v w : K} (hF : Repeated T T' n m F v) (hG : Repeated T T' n m G w) (a b : K) :
    Repeated T T' n m (fun i j => a * F i j + b * G i j) (a * v + b * w) := by
  obtain ⟨ω, ω', -, -, -, -, -, -, h⟩ := repeated_sum h2 h64 k2 k64 hT hT'
  rw [(h F v).1 hF, (h G w).1 hG]
  refine (h _ _).2 ?_
  simp only [mul_sum, ← sum_add_distrib]
  exact sum_congr rfl fun i _ => sum_congr rfl fun j _ => by ring

/-- C228: samples between two bounds have a mean over the rectangle between them. -/
theorem C228_bounds {B : Build} {n m : Nat} (h2 : 2 ≤ n) (h64 : n < 2 ^ 64) (k2 : 2 ≤ m) (k64 : m < 2 ^ 64) {L L' : K} {T T' : List K → Res K} (hT : Trapezoids B n L T)
    (hT' : Trapezoids B m L' T') {F : Nat → Nat → K} {v p q : K} (hF : Repeated T T' n m F v) (hb : ∀ i j, i < n → j < m → p ≤ F i j ∧ F i j ≤ q) :
    p * (L * L') ≤ v ∧ v ≤ q * (L * L') := by
  obtain ⟨ω, ω', p1, p2, s1, s2, -, -, h⟩ := repeated_sum h2 h64 k2 k64 hT hT'
  have e : ∀ c : K, c * (L * L') = ∑ i ∈ range n, ∑ j ∈ range m, ω i * (ω' j * c) := by
    intro c
    rw [← s1, ← s2, sum_mul_sum, mul_sum]
    refine sum_congr rfl fun i _ => ?_
    rw [mul_sum]
    exact sum_congr rfl fun j _ => by ring
  rw [(h F v).1 hF, e, e]
  constructor
  · exact sum_le_sum fun i hi => sum_le_sum fun j hj => mul_le_mul_of_nonneg_left
      (mul_le_mul_of_nonneg_left (hb i j (mem_range.1 hi) (mem_range.1 hj)).1 (p2 j (mem_range.1 hj))) (p1 i (mem_range.1 hi))
  · exact sum_le_sum fun i hi => sum_le_sum fun j hj => mul_le_mul_of_nonneg_left
      (mul_le_mul_of_nonneg_left (hb i j (mem_range.1 hi) (mem_range.1 hj)).2 (p2 j (mem_range.1 hj))) (p1 i (mem_range.1 hi))

/-- C228: errors of at most `e` in the samples change the result by at most `e` times the area. -/
theorem C228_errors {B : Build} {n m : Nat} (h2 : 2 ≤ n) (h64 : n < 2 ^ 64) (k2 : 2 ≤ m) (k64 : m < 2 ^ 64) {L L' : K} {T T' : List K → Res K} (hT : Trapezoids B n L T)
    (hT' : Trapezoids B m L' T') {F G : Nat → Nat → K} {v w e : K} (hF : Repeated T T' n m F v) (hG : Repeated T T' n m G w)
    (he : ∀ i j, i < n → j < m → |F i j - G i j| ≤ e) : |v - w| ≤ e * (L * L') := by
  have hd := C228_linear h2 h64 k2 k64 hT hT' hF hG 1 (-1)
  have := C228_bounds h2 h64 k2 k64 hT hT' hd (p := -e) (q := e) fun i j hi hj => by
    have := abs_le.1 (he i j hi hj)
    constructor
    · linarith [this.1]
    · linarith [this.2]
  exact abs_le.2 ⟨by linarith [this.1], by linarith [this.2]⟩

/-- C228: exact on `a + b x + c y + d x y`, whatever the abscissae. -/
theorem C228_bilinear (B : Build) {x y : List K} (h2 : 2 ≤ x.length) (h64 : x.length < 2 ^ 64) (k2 : 2 ≤ y.length) (k64 : y.length < 2 ^ 64) (a b c d : K) :
    Repeated (trapz B x) (trapz B y) x.length y.length (fun i j => a + b * x.getD i 0 + c * y.getD j 0 + d * x.getD i 0 * y.getD j 0)
      (a * ((x.getD (x.length - 1) 0 - x.getD 0 0) * (y.getD (y.length - 1) 0 - y.getD 0 0)) +
        b * ((x.getD (x.length - 1) 0 ^ 2 - x.getD 0 0 ^ 2) / 2 * (y.getD (y.length - 1) 0 - y.getD 0 0)) +
        c * ((x.getD (x.length - 1) 0 - x.getD 0 0) * ((y.getD (y.length - 1) 0 ^ 2 - y.getD 0 0 ^ 2) / 2)) +
        d * ((x.getD (x.length - 1) 0 ^ 2 - x.getD 0 0 ^ 2) / 2 * ((y.getD (y.length - 1) 0 ^ 2 - y.getD 0 0 ^ 2) / 2))) := by
  have e : ∀ (z : List K) (f : K → K), (List.range z.length).map (fun i => f (z.getD i 0)) = z.map f := by
    intro z f
    apply List.ext_getElem
    · simp
    · intro i h _
      have : i < z.length := by simpa using h
      simp [this]
  refine ⟨fun i => (c + d * x.getD i 0) * (y.getD (y.length - 1) 0 ^ 2 - y.getD 0 0 ^ 2) / 2 + (a + b * x.getD i 0) * (y.getD (y.length - 1) 0 - y.getD 0 0), fun i _ => ?_, ?_⟩
  · rw [← C40_affine B (c + d * x.getD i 0) (a + b * x.getD i 0) y k2 k64, ← e y]
    congr 1
    exact List.map_congr_left fun j _ => by ring
  · have := C40_affine B (d * ((y.getD (y.length - 1) 0 ^ 2 - y.getD 0 0 ^ 2) / 2) + b * (y.getD (y.length - 1) 0 - y.getD 0 0))
      (c * ((y.getD (y.length - 1) 0 ^ 2 - y.getD 0 0 ^ 2) / 2) + a * (y.getD (y.length - 1) 0 - y.getD 0 0)) x h2 h64
    rw [← e x] at this
    rw [show (List.range x.length).map (fun i => (c + d * x.getD i 0) * (y.getD (y.length - 1) 0 ^ 2 - y.getD 0 0 ^ 2) / 2 +
      (a + b * x.getD i 0) * (y.getD (y.length - 1) 0 - y.getD 0 0)) = (List.range x.length).map (fun i =>
      (d * ((y.getD (y.length - 1) 0 ^ 2 - y.getD 0 0 ^ 2) / 2) + b * (y.getD (y.length - 1) 0 - y.getD 0 0)) * x.getD i 0 +
      (c * ((y.getD (y.length - 1) 0 ^ 2 - y.getD 0 0 ^ 2) / 2) + a * (y.getD (y.length - 1) 0 - y.getD 0 0))) from
      List.map_congr_left fun i _ => by ring, this]
    congr 1
    ring

/-- Three abscissae 0, 1, 3 and four samples with a step of 1/2. -/
example : Trapezoids ⟨true⟩ 3 (3 - 0 : ℚ) (trapz ⟨true⟩ [0, 1, 3]) ∧ Trapezoids ⟨true⟩ 4 (((4 : Nat) - 1 : ℚ) * (1 / 2)) (fun y => trapzUniform y (1 / 2)) := by
  refine ⟨.given [0, 1, 3] rfl fun i hi => ?_, .step _ (by norm_num)⟩
  have : i < 2 := by omega
  interval_cases i <;> norm_num

end MU
