import Verif.Props.Integration1d
import Mathlib.Algebra.Order.BigOperators.Ring.Finset
import Mathlib.Analysis.Convex.Jensen
import Mathlib.Tactic.Linarith
import Mathlib.Tactic.Ring
import Mathlib.Tactic.Positivity

set_option linter.unusedSectionVars false

/-!
# C216: rules of integrals of samples

`trapz B x y` is `Trapz(x, y)` and `trapzUniform y dx` is `Trapz(y, dx)`.
-/

namespace MU

open Finset

/-- `T` is one of the two functions `Trapz` with fixed abscissae: `Trapz(x, ·)` for `n` abscissae in increasing order, or `Trapz(·, dx)` for a step that is not negative. `L` is the
length of the interval. -/
inductive Spec.Trapezoids {K : Type} [Field K] [LinearOrder K] (B : Build) (n : ℕ) : (L : K) → (T : List K → Res K) → Prop
  | given (x : List K) (hn : x.length = n) (hx : ∀ i, i + 1 < n → x.getD i 0 ≤ x.getD (i + 1) 0) : Trapezoids B n (x.getD (n - 1) 0 - x.getD 0 0) (trapz B x)
  | step (dx : K) (hdx : 0 ≤ dx) : Trapezoids B n (((n : K) - 1) * dx) (fun y => trapzUniform y dx)

open Spec

variable {K : Type} [Field K] [LinearOrder K] [IsStrictOrderedRing K]

theorem panels_weights (n : ℕ) (h y : ℕ → K) : ∑ i ∈ range n, h i * (y i + y (i + 1)) / 2 =
    ∑ i ∈ range (n + 1), ((if i < n then h i / 2 else 0) + (if 0 < i then h (i - 1) / 2 else 0)) * y i := by
  have e1 : ∑ i ∈ range (n + 1), (if i < n then h i / 2 else 0) * y i = ∑ i ∈ range n, h i / 2 * y i := by
    rw [sum_range_succ, if_neg (lt_irrefl n), zero_mul, add_zero]
    exact sum_congr rfl fun i hi => by rw [if_pos (mem_range.1 hi)]
  have e2 : ∑ i ∈ range (n + 1), (if 0 < i then h (i - 1) / 2 else 0) * y i = ∑ i ∈ range n, h i / 2 * y (i + 1) := by
    rw [sum_range_succ', if_neg (lt_irrefl 0), zero_mul, add_zero]
    exact sum_congr rfl fun i _ => by rw [if_pos (Nat.succ_pos i), Nat.add_sub_cancel]
  simp only [add_mul, sum_add_distrib]
  rw [e1, e2, ← sum_add_distrib]
  exact sum_congr rfl fun i _ => by ring

/-- The two functions are sums with the same weights for all samples; the weights are not negative and add up to the length. -/
theorem Spec.Trapezoids.weights {B : Build} {n : ℕ} (h2 : 2 ≤ n) (h64 : n < 2 ^ 64) {L : K} {T : List K → Res K} (hT : Trapezoids B n L T) :
    ∃ ω : ℕ → K, (∀ i, i < n → 0 ≤ ω i) ∧ ∑ i ∈ range n, ω i = L ∧ ∀ y : List K, y.length = n → T y = .ok (∑ i ∈ range n, ω i * y.getD i 0) := by
  obtain ⟨m, rfl⟩ : ∃ m, n = m + 1 := ⟨n - 1, by omega⟩
  have key : ∀ h : ℕ → K, (∀ i, i < m → 0 ≤ h i) → ∑ i ∈ range m, h i = L →
      (∀ y : List K, y.length = m + 1 → T y = .ok (∑ i ∈ range m, h i * (y.getD i 0 + y.getD (i + 1) 0) / 2)) →
      ∃ ω : ℕ → K, (∀ i, i < m + 1 → 0 ≤ ω i) ∧ ∑ i ∈ range (m + 1), ω i = L ∧
        ∀ y : List K, y.length = m + 1 → T y = .ok (∑ i ∈ range (m + 1), ω i * y.getD i 0) := by
    intro h hp hs ht
    refine ⟨fun i => (if i < m then h i / 2 else 0) + (if 0 < i then h (i - 1) / 2 else 0), fun i hi => ?_, ?_, fun y hy => ?_⟩
    · refine add_nonneg ?_ ?_
      · split_ifs with c
        · exact div_nonneg (hp i c) zero_le_two
        · exact le_rfl
      · split_ifs with c
        · exact div_nonneg (hp _ (by omega)) zero_le_two
        · exact le_rfl
    · have := panels_weights m h (fun _ => 1)
      simp only [mul_one] at this
      rw [← this, ← hs]
      exact sum_congr rfl fun i _ => by ring
    · rw [ht y hy, panels_weights m h (fun i => y.getD i 0)]
  cases hT with
  | given x hn hx =>
    refine key (fun i => x.getD (i + 1) 0 - x.getD i 0) (fun i hi => sub_nonneg.2 (hx i (by omega))) ?_ ?_
    · exact sum_range_sub (fun i => x.getD i 0) m
    · intro y hy
      rw [(C40_panels B x y 0 (by omega) (by omega)).1 (by omega), hy]
      rfl
  | step dx hdx =>
    refine key (fun _ => dx) (fun _ _ => hdx) ?_ ?_
    · simp
    · intro y hy
      show trapzUniform y dx = _
      rw [(C40_panels B [] y dx (by omega) (by omega)).2, hy]
      rfl

theorem getD_map_lt {A C : Type} (f : A → C) {y : List A} (a : A) (c : C) {i : ℕ} (h : i < y.length) : (y.map f).getD i c = f (y.getD i a) := by
  simp [List.getD, h]

theorem getD_zipWith_lt {A C D : Type} (f : A → C → D) {y : List A} {z : List C} (a : A) (c : C) (d : D) {i : ℕ} (h : i < y.length) (h' : i < z.length) :
    (List.zipWith f y z).getD i d = f (y.getD i a) (z.getD i c) := by
  simp [List.getD, List.getElem?_zipWith, h, h']

/-- C216: samples between two bounds have a mean value between them. -/
theorem C216_bounds {B : Build} {n : ℕ} (h2 : 2 ≤ n) (h64 : n < 2 ^ 64) {L : K} {T : List K → Res K} (hT : Trapezoids B n L T) {y : List K} (hy : y.length = n) {m M : K}
    (hm : ∀ a ∈ y, m ≤ a ∧ a ≤ M) : ∃ s, T y = .ok s ∧ m * L ≤ s ∧ s ≤ M * L := by
  obtain ⟨ω, h0, h1, h3⟩ := hT.weights h2 h64
  have hmem : ∀ i, i < n → y.getD i 0 ∈ y := fun i hi => by
    rw [List.getD, List.getElem?_eq_getElem (by omega)]; exact List.getElem_mem _
  refine ⟨_, h3 y hy, ?_, ?_⟩
  · rw [← h1, mul_sum]
    exact sum_le_sum fun i hi => by
      have := mem_range.1 hi
      rw [mul_comm]
      exact mul_le_mul_of_nonneg_left (hm _ (hmem i this)).1 (h0 i this)
  · rw [← h1, mul_sum]
    exact sum_le_sum fun i hi => by
      have := mem_range.1 hi
      rw [mul_comm M]
      exact mul_le_mul_of_nonneg_left (hm _ (hmem i this)).2 (h0 i this)

/-- C216: the magnitude of the integral is at most the integral of the magnitudes. -/
theorem C216_magnitude {B : Build} {n : ℕ} (h2 : 2 ≤ n) (h64 : n < 2 ^ 64) {L : K} {T : List K → Res K} (hT : Trapezoids B n L T) {y : List K} (hy : y.length = n) :
    ∃ s t, T y = .ok s ∧ T (y.map fun a => |a|) = .ok t ∧ |s| ≤ t := by
  obtain ⟨ω, h0, h1, h3⟩ := hT.weights h2 h64
  refine ⟨_, _, h3 y hy, h3 _ (by simpa using hy), ?_⟩
  refine (abs_sum_le_sum_abs _ _).trans (sum_le_sum fun i hi => ?_)
  have := mem_range.1 hi
  rw [getD_map_lt _ 0 0 (by omega), abs_mul, abs_of_nonneg (h0 i this)]

/-- C216, Cauchy and Schwarz: the square of the integral of a product is at most the product of the integrals of the squares. -/
theorem C216_product {B : Build} {n : ℕ} (h2 : 2 ≤ n) (h64 : n < 2 ^ 64) {L : K} {T : List K → Res K} (hT : Trapezoids B n L T) {y z : List K} (hy : y.length = n) (hz : z.length = n) :
    ∃ s t u, T (List.zipWith (fun a b => a * b) y z) = .ok s ∧ T (y.map fun a => a ^ 2) = .ok t ∧ T (z.map fun a => a ^ 2) = .ok u ∧ s ^ 2 ≤ t * u := by
  obtain ⟨ω, h0, h1, h3⟩ := hT.weights h2 h64
  refine ⟨_, _, _, h3 _ (by simp [hy, hz]), h3 _ (by simpa using hy), h3 _ (by simpa using hz), ?_⟩
  refine sum_sq_le_sum_mul_sum_of_sq_eq_mul _ (fun i hi => ?_) (fun i hi => ?_) (fun i hi => ?_)
  · have := mem_range.1 hi
    rw [getD_map_lt _ 0 0 (by omega)]
    exact mul_nonneg (h0 i this) (sq_nonneg _)
  · have := mem_range.1 hi
    rw [getD_map_lt _ 0 0 (by omega)]
    exact mul_nonneg (h0 i this) (sq_nonneg _)
  · have := mem_range.1 hi
    rw [getD_map_lt _ 0 0 (by omega), getD_map_lt _ 0 0 (by omega), getD_zipWith_lt _ 0 0 0 (by omega) (by omega)]
    ring

/-- C216: the square of a mean is at most the mean of the squares. -/
theorem C216_mean_square {B : Build} {n : ℕ} (h2 : 2 ≤ n) (h64 : n < 2 ^ 64) {L : K} {T : List K → Res K} (hT : Trapezoids B n L T) {y : List K} (hy : y.length = n) :
    ∃ s t, T y = .ok s ∧ T (y.map fun a => a ^ 2) = .ok t ∧ s ^ 2 ≤ L * t := by
  obtain ⟨ω, h0, h1, h3⟩ := hT.weights h2 h64
  refine ⟨_, _, h3 y hy, h3 _ (by simpa using hy), ?_⟩
  rw [← h1]
  refine sum_sq_le_sum_mul_sum_of_sq_eq_mul _ (fun i hi => h0 i (mem_range.1 hi)) (fun i hi => ?_) (fun i hi => ?_)
  · have := mem_range.1 hi
    rw [getD_map_lt _ 0 0 (by omega)]
    exact mul_nonneg (h0 i this) (sq_nonneg _)
  · have := mem_range.1 hi
    rw [getD_map_lt _ 0 0 (by omega)]
    ring

/-- C216, Jensen: a convex function of the mean of the samples is at most the mean of its values at the samples. -/
theorem C216_jensen {B : Build} {n : ℕ} (h2 : 2 ≤ n) (h64 : n < 2 ^ 64) {L : ℝ} (hL : 0 < L) {T : List ℝ → Res ℝ} (hT : Trapezoids B n L T) {y : List ℝ} (hy : y.length = n)
    {S : Set ℝ} {φ : ℝ → ℝ} (hφ : ConvexOn ℝ S φ) (hS : ∀ a ∈ y, a ∈ S) : ∃ s t, T y = .ok s ∧ T (y.map φ) = .ok t ∧ φ (s / L) ≤ t / L := by
  obtain ⟨ω, h0, h1, h3⟩ := hT.weights h2 h64
  refine ⟨_, _, h3 y hy, h3 _ (by simpa using hy), ?_⟩
  have hmem : ∀ i, i < n → y.getD i 0 ∈ y := fun i hi => by
    rw [List.getD, List.getElem?_eq_getElem (by omega)]; exact List.getElem_mem _
  have := hφ.map_sum_le (t := range n) (w := fun i => ω i / L) (p := fun i => y.getD i 0) (fun i hi => div_nonneg (h0 i (mem_range.1 hi)) hL.le)
    (by rw [← sum_div, h1, div_self hL.ne']) (fun i hi => hS _ (hmem i (mem_range.1 hi)))
  simp only [smul_eq_mul] at this
  rw [sum_div, sum_div]
  have e1 : ∑ i ∈ range n, ω i * y.getD i 0 / L = ∑ i ∈ range n, ω i / L * y.getD i 0 := sum_congr rfl fun i _ => by ring
  have e2 : ∑ i ∈ range n, ω i * (y.map φ).getD i 0 / L = ∑ i ∈ range n, ω i / L * φ (y.getD i 0) := sum_congr rfl fun i hi => by
    have := mem_range.1 hi
    rw [getD_map_lt φ 0 0 (by omega)]
    ring
  rw [e1, e2]
  exact this

/-- C216: the integral over two neighbouring ranges is the sum of the integrals over each; the sample between them belongs to both. -/
theorem C216_joined (B : Build) {p q u w : List K} {a ya : K} (hp : p.length = u.length) (hq : q.length = w.length) (hp0 : p ≠ []) (hq0 : q ≠ [])
    (h64 : (u ++ ya :: w).length < 2 ^ 64) :
    ∃ s t, trapz B (p ++ [a]) (u ++ [ya]) = .ok s ∧ trapz B (a :: q) (ya :: w) = .ok t ∧ trapz B (p ++ a :: q) (u ++ ya :: w) = .ok (s + t) := by
  have lp := List.length_pos_of_ne_nil hp0
  have lq := List.length_pos_of_ne_nil hq0
  simp only [List.length_append, List.length_cons] at h64
  have e1 := (C40_panels B (p ++ [a]) (u ++ [ya]) 0 (by simp; omega) (by simp; omega)).1 (by simp [hp])
  have e2 := (C40_panels B (a :: q) (ya :: w) 0 (by simp; omega) (by simp; omega)).1 (by simp [hq])
  have e3 := (C40_panels B (p ++ a :: q) (u ++ ya :: w) 0 (by simp; omega) (by simp; omega)).1 (by simp [hp, hq])
  refine ⟨_, _, e1, e2, ?_⟩
  rw [e3]
  congr 1
  rw [show (u ++ ya :: w).length - 1 = ((u ++ [ya]).length - 1) + ((ya :: w).length - 1) by simp, sum_range_add]
  have left : ∀ {r s : List K} {c : K} {i : ℕ}, i < r.length + 1 → (r ++ c :: s).getD i 0 = (r ++ [c]).getD i 0 := by
    intro r s c i hi
    rcases Nat.lt_or_ge i r.length with h | h
    · simp [List.getD, List.getElem?_append_left h]
    · obtain rfl : i = r.length := by omega
      simp [List.getD]
  have right : ∀ {r s : List K} {c : K} (i : ℕ), (r ++ c :: s).getD (r.length + i) 0 = (c :: s).getD i 0 := by
    intro r s c i
    simp [List.getD, List.getElem?_append_right]
  congr 1
  · refine sum_congr rfl fun i hi => ?_
    have : i < u.length := by simpa using mem_range.1 hi
    rw [left (r := p) (s := q) (i := i + 1) (by omega), left (r := p) (s := q) (i := i) (by omega), left (r := u) (s := w) (i := i) (by omega),
      left (r := u) (s := w) (i := i + 1) (by omega)]
  · refine sum_congr rfl fun i _ => ?_
    have hl : (u ++ [ya]).length - 1 = u.length := by simp
    rw [hl, right (r := u), Nat.add_assoc, right (r := u), ← hp, right (r := p), right (r := p)]

/-- C216: a node added where a convex function is sampled does not increase the integral of its samples. -/
theorem C216_refined (B : Build) {p q : List ℝ} {a c b : ℝ} {S : Set ℝ} {f : ℝ → ℝ} (hf : ConvexOn ℝ S f) (ha : a ∈ S) (hb : b ∈ S) (h1 : a < c) (h2 : c < b)
    (h64 : (p ++ a :: c :: b :: q).length < 2 ^ 64) :
    ∃ s t, trapz B (p ++ a :: c :: b :: q) ((p ++ a :: c :: b :: q).map f) = .ok s ∧ trapz B (p ++ a :: b :: q) ((p ++ a :: b :: q).map f) = .ok t ∧ s ≤ t := by
  simp only [List.length_append, List.length_cons] at h64
  have e1 := (C40_panels B (p ++ a :: c :: b :: q) ((p ++ a :: c :: b :: q).map f) 0 (by simp; omega) (by simp; omega)).1 (by simp)
  have e2 := (C40_panels B (p ++ a :: b :: q) ((p ++ a :: b :: q).map f) 0 (by simp; omega) (by simp; omega)).1 (by simp)
  refine ⟨_, _, e1, e2, ?_⟩
  have hL : (((p ++ a :: c :: b :: q).map f).length - 1) = p.length + (2 + q.length) := by simp; omega
  have hR : (((p ++ a :: b :: q).map f).length - 1) = p.length + (1 + q.length) := by simp; omega
  have hg : ∀ (r s : List ℝ) (i : ℕ), (r ++ s).getD (r.length + i) 0 = s.getD i 0 := by
    intro r s i
    simp [List.getD, List.getElem?_append_right]
  have hl : ∀ (r s s' : List ℝ) (e : ℝ) (i : ℕ), i < r.length + 1 → (r ++ e :: s).getD i 0 = (r ++ e :: s').getD i 0 := by
    intro r s s' e i hi
    rcases Nat.lt_or_ge i r.length with h | h
    · simp [List.getD, List.getElem?_append_left h]
    · obtain rfl : i = r.length := by omega
      simp [List.getD]
  have key : f c ≤ ((b - c) * f a + (c - a) * f b) / (b - a) := by
    have hab : 0 < b - a := by linarith
    have := hf.2 ha hb (show 0 ≤ (b - c) / (b - a) from div_nonneg (by linarith) hab.le) (show 0 ≤ (c - a) / (b - a) from div_nonneg (by linarith) hab.le) (by field_simp; ring)
    simp only [smul_eq_mul] at this
    rw [show (b - c) / (b - a) * a + (c - a) / (b - a) * b = c by field_simp; ring] at this
    refine this.trans (le_of_eq ?_)
    field_simp
  rw [hL, hR, sum_range_add, sum_range_add, sum_range_add, sum_range_add]
  simp only [List.map_append, List.map_cons]
  have hpl : p.length = (p.map f).length := by simp
  refine add_le_add (le_of_eq (sum_congr rfl fun i hi => ?_)) (add_le_add ?_ (le_of_eq (sum_congr rfl fun i _ => ?_)))
  · have hi := mem_range.1 hi
    rw [hl p (c :: b :: q) (b :: q) a i (by omega), hl p (c :: b :: q) (b :: q) a (i + 1) (by omega),
      hl (p.map f) (f c :: f b :: q.map f) (f b :: q.map f) (f a) i (by simp; omega), hl (p.map f) (f c :: f b :: q.map f) (f b :: q.map f) (f a) (i + 1) (by simp; omega)]
  · have g1 : ∀ i, (p ++ a :: c :: b :: q).getD (p.length + i) 0 = (a :: c :: b :: q).getD i 0 := hg p _
    have g2 : ∀ i, (p ++ a :: b :: q).getD (p.length + i) 0 = (a :: b :: q).getD i 0 := hg p _
    have g3 : ∀ i, (p.map f ++ f a :: f c :: f b :: q.map f).getD (p.length + i) 0 = (f a :: f c :: f b :: q.map f).getD i 0 := fun i => by rw [hpl]; exact hg _ _ i
    have g4 : ∀ i, (p.map f ++ f a :: f b :: q.map f).getD (p.length + i) 0 = (f a :: f b :: q.map f).getD i 0 := fun i => by rw [hpl]; exact hg _ _ i
    simp only [sum_range_succ, sum_range_zero, Nat.add_assoc, g1, g2, g3, g4]
    simp only [List.getD_cons_zero, List.getD_cons_succ, Nat.reduceAdd, zero_add]
    have hab : 0 < b - a := by linarith
    have := mul_le_mul_of_nonneg_right key hab.le
    rw [div_mul_cancel₀ _ hab.ne'] at this
    nlinarith
  · have g1 : ∀ i, (p ++ a :: c :: b :: q).getD (p.length + i) 0 = (a :: c :: b :: q).getD i 0 := hg p _
    have g2 : ∀ i, (p ++ a :: b :: q).getD (p.length + i) 0 = (a :: b :: q).getD i 0 := hg p _
    have g3 : ∀ i, (p.map f ++ f a :: f c :: f b :: q.map f).getD (p.length + i) 0 = (f a :: f c :: f b :: q.map f).getD i 0 := fun i => by rw [hpl]; exact hg _ _ i
    have g4 : ∀ i, (p.map f ++ f a :: f b :: q.map f).getD (p.length + i) 0 = (f a :: f b :: q.map f).getD i 0 := fun i => by rw [hpl]; exact hg _ _ i
    simp only [Nat.add_assoc, g1, g2, g3, g4]
    rw [show 2 + i = i + 1 + 1 by omega, show 1 + i = i + 1 by omega, show 2 + (i + 1) = i + 1 + 1 + 1 by omega, show 1 + (i + 1) = i + 1 + 1 by omega]
    simp only [List.getD_cons_succ]

/-! ## Non-vacuity -/

/-- Three abscissae in order. -/
example : Trapezoids (K := ℚ) ⟨true⟩ 3 (4 - 1) (trapz ⟨true⟩ [1, 2, 4]) :=
  Trapezoids.given (n := 3) [1, 2, 4] rfl (fun i hi => by
    have : i = 0 ∨ i = 1 := by omega
    rcases this with rfl | rfl <;> norm_num)

/-- A step of a half and four samples. -/
example : Trapezoids (K := ℚ) ⟨true⟩ 4 (((4 : ℕ) - 1) * (1 / 2)) (fun y => trapzUniform y (1 / 2)) := .step _ (by norm_num)

/-- The square is convex. -/
example : ConvexOn ℝ Set.univ (fun a : ℝ => a ^ 2) ∧ ∀ a ∈ [(1 : ℝ), -2, 3], a ∈ Set.univ := ⟨even_two.convexOn_pow, by simp⟩

/-- Two ranges with a common sample. -/
example : ∃ s t, trapz (K := ℚ) ⟨true⟩ ([0, 1] ++ [3]) ([5, 4] ++ [2]) = .ok s ∧ trapz (K := ℚ) ⟨true⟩ (3 :: [4]) (2 :: [7]) = .ok t ∧
    trapz (K := ℚ) ⟨true⟩ ([0, 1] ++ 3 :: [4]) ([5, 4] ++ 2 :: [7]) = .ok (s + t) :=
  C216_joined ⟨true⟩ rfl rfl (by simp) (by simp) (by norm_num)

end MU
