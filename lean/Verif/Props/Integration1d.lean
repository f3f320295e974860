import Verif.Lemmas.Integration1d
import Mathlib.Analysis.SpecialFunctions.Integrals.Basic
import Mathlib.Algebra.Order.Ring.Rat
import Mathlib.Tactic.NormNum
import Mathlib.Tactic.Linarith

set_option linter.unusedSectionVars false

/-!
# C40–C43: the trapezoidal rules
-/

namespace MU
open Spec Finset

/-! ## The functions `Trapz` -/

section functions

theorem integral_panel {a b u v : ℝ} (hab : a < b) {f : ℝ → ℝ} (hf : ∀ t, a ≤ t → t ≤ b → f t = u + (v - u) * ((t - a) / (b - a))) :
    IntervalIntegrable f MeasureTheory.volume a b ∧ ∫ t in a..b, f t = (b - a) * (u + v) / 2 := by
  have hd : b - a ≠ 0 := by linarith
  have heq : Set.EqOn f (fun t => (u - (v - u) / (b - a) * a) + (v - u) / (b - a) * t) (Set.uIcc a b) := by
    intro t ht
    rw [Set.uIcc_of_le hab.le] at ht
    rw [hf t ht.1 ht.2]
    field_simp
    ring
  have hcont : Continuous (fun t : ℝ => (u - (v - u) / (b - a) * a) + (v - u) / (b - a) * t) := by fun_prop
  constructor
  · refine (hcont.intervalIntegrable a b).congr ?_
    intro t ht
    exact (heq (Set.uIoc_subset_uIcc ht)).symm
  · rw [intervalIntegral.integral_congr heq, intervalIntegral.integral_add (by simp) ((by fun_prop : Continuous _).intervalIntegrable a b),
      intervalIntegral.integral_const, intervalIntegral.integral_const_mul, integral_id]
    simp only [smul_eq_mul]
    field_simp
    ring

theorem panels_integral (n : Nat) (x y : Nat → ℝ) (hx : ∀ i, i < n → x i < x (i + 1)) (f : ℝ → ℝ)
    (hf : ∀ i, i < n → ∀ t, x i ≤ t → t ≤ x (i + 1) → f t = y i + (y (i + 1) - y i) * ((t - x i) / (x (i + 1) - x i))) :
    panels n x y = ∫ t in x 0..x n, f t := by
  rw [← intervalIntegral.sum_integral_adjacent_intervals (fun i hi => (integral_panel (hx i hi) (hf i hi)).1)]
  exact sum_congr rfl (fun i hi => ((integral_panel (hx i (mem_range.mp hi)) (hf i (mem_range.mp hi))).2).symm)

/-- C40, non-uniform samples: for every strictly increasing `x` and every `y` of the same size `N >= 2`, `Trapz(x, y)` returns the integral over
`[x[0], x[N-1]]` of the function `f` that is affine on every `[x[i], x[i+1]]` and takes the values `y[i]`, `y[i+1]` at its ends. -/
theorem C40_integral (B : Build) (x y : List ℝ) (h2 : 2 ≤ y.length) (h64 : y.length < 2 ^ 64) (hl : x.length = y.length)
    (hx : ∀ i, i + 1 < x.length → x.getD i 0 < x.getD (i + 1) 0) (f : ℝ → ℝ)
    (hf : ∀ i, i + 1 < x.length → ∀ t, x.getD i 0 ≤ t → t ≤ x.getD (i + 1) 0 →
      f t = y.getD i 0 + (y.getD (i + 1) 0 - y.getD i 0) * ((t - x.getD i 0) / (x.getD (i + 1) 0 - x.getD i 0))) :
    trapz B x y = .ok (∫ t in x.getD 0 0..x.getD (x.length - 1) 0, f t) := by
  rw [trapz_ok B h2 h64 hl, panels_integral _ (fun i => x.getD i 0) _ (fun i hi => hx i (by omega)) f (fun i hi => hf i (by omega)), hl]

/-- C40, uniform samples: for every `y` of size `N >= 2` and every step `dx > 0`, `Trapz(y, dx)` returns the integral over `[x0, x0 + (N-1) dx]` of the
function `f` that is affine between the abscissae `x0 + i dx` and takes the value `y[i]` at `x0 + i dx`. -/
theorem C40_integral_uniform (y : List ℝ) (h2 : 2 ≤ y.length) (h64 : y.length < 2 ^ 64) {dx : ℝ} (hdx : 0 < dx) (x0 : ℝ) (f : ℝ → ℝ)
    (hf : ∀ i : Nat, i + 1 < y.length → ∀ t, x0 + i * dx ≤ t → t ≤ x0 + (i + 1) * dx →
      f t = y.getD i 0 + (y.getD (i + 1) 0 - y.getD i 0) * ((t - (x0 + i * dx)) / dx)) :
    trapzUniform y dx = .ok (∫ t in x0..x0 + ((y.length : ℝ) - 1) * dx, f t) := by
  have hs : ∀ i : Nat, x0 + ((i + 1 : Nat) : ℝ) * dx - (x0 + i * dx) = dx := by
    intro i
    push_cast
    ring
  have hp : panels (y.length - 1) (fun i => (i : ℝ) * dx) (fun i => y.getD i 0) = panels (y.length - 1) (fun i => x0 + i * dx) (fun i => y.getD i 0) := by
    refine sum_congr rfl (fun i _ => ?_)
    rw [hs]
    push_cast
    ring
  rw [trapzUniform_ok h2 h64, hp, panels_integral _ (fun i => x0 + (i : ℝ) * dx) _ (fun i hi => by linarith [hs i]) f ?_]
  · rw [Nat.cast_sub (by omega : 1 ≤ y.length)]
    simp
  · intro i hi t h1 h2
    rw [hf i (by omega) t h1 (by push_cast at h2; exact h2), hs]

/-- A sample for `C40_integral`. -/
noncomputable def tent (t : ℝ) : ℝ := if t ≤ 1 then 1 + t else 3 - t

example : trapz ⟨true⟩ [(0 : ℝ), 1, 3] [1, 2, 0] = .ok (∫ t in (0 : ℝ)..3, tent t) := by
  refine C40_integral ⟨true⟩ [0, 1, 3] [1, 2, 0] (by simp) (by simp) rfl ?_ tent ?_
  · intro i hi
    have hi : i < 2 := by simp at hi; omega
    interval_cases i <;> simp
  · intro i hi t h1 h2
    have hi : i < 2 := by simp at hi; omega
    interval_cases i
    · simp at h1 h2 ⊢
      rw [tent, if_pos h2]
      ring
    · simp at h1 h2 ⊢
      rw [tent]
      split_ifs with h
      · obtain rfl : t = 1 := le_antisymm h h1
        norm_num
      · ring

example : trapz ⟨true⟩ [(0 : ℚ), 1, 3] [1, 2, 0] = .ok (7 / 2) := by decide +kernel

example : trapzUniform [(1 : ℝ), 2] 1 = .ok (∫ t in (0 : ℝ)..0 + (((2 : Nat) : ℝ) - 1) * 1, 1 + t) :=
  C40_integral_uniform [1, 2] (by simp) (by simp) one_pos 0 _ (by
    intro i hi t _ _
    have hi : i < 1 := by simp at hi; omega
    interval_cases i
    norm_num)

variable {K : Type} [Field K] [NeZero (2 : K)]

/-- C40, the value: both functions return the sum of the areas of the panels, for all sizes `N >= 2`, all abscissae and all steps. -/
theorem C40_panels (B : Build) (x y : List K) (dx : K) (h2 : 2 ≤ y.length) (h64 : y.length < 2 ^ 64) :
    (x.length = y.length →
      trapz B x y = .ok (∑ i ∈ range (y.length - 1), (x.getD (i + 1) 0 - x.getD i 0) * (y.getD i 0 + y.getD (i + 1) 0) / 2)) ∧
    trapzUniform y dx = .ok (∑ i ∈ range (y.length - 1), dx * (y.getD i 0 + y.getD (i + 1) 0) / 2) := by
  refine ⟨fun hl => trapz_ok B h2 h64 hl, ?_⟩
  rw [trapzUniform_ok h2 h64, panels]
  congr 1
  refine sum_congr rfl (fun i _ => ?_)
  push_cast
  ring

example : trapz ⟨false⟩ [(0 : ℚ), 1, 3, 7] [1, 2, 0, 5] = .ok (27 / 2) ∧ trapzUniform [(1 : ℚ), 2, 0, 5] 3 = .ok 15 := by
  constructor <;> decide +kernel

/-- C40, exactness: on samples of the affine function `a t + b` both return the exact integral. -/
theorem C40_affine (B : Build) (a b : K) (x : List K) (h2 : 2 ≤ x.length) (h64 : x.length < 2 ^ 64) :
    trapz B x (x.map fun t => a * t + b) =
      .ok (a * (x.getD (x.length - 1) 0 ^ 2 - x.getD 0 0 ^ 2) / 2 + b * (x.getD (x.length - 1) 0 - x.getD 0 0)) := by
  have two : (2 : K) ≠ 0 := NeZero.ne 2
  rw [trapz_ok B (by simpa using h2) (by simpa using h64) (by simp), List.length_map]
  congr 1
  have : ∀ n, n < x.length → panels n (fun i => x.getD i 0) (fun i => (x.map fun t => a * t + b).getD i 0) =
      a * (x.getD n 0 ^ 2 - x.getD 0 0 ^ 2) / 2 + b * (x.getD n 0 - x.getD 0 0) := by
    intro n
    induction n with
    | zero => intro _; simp [panels]
    | succ n ih =>
      intro hn
      have e : ∀ i, i < x.length → (x.map fun t => a * t + b).getD i 0 = a * x.getD i 0 + b := by
        intro i hi
        simp [List.getD, List.getElem?_eq_getElem hi]
      rw [panels_succ, ih (by omega), e n (by omega), e (n + 1) hn]
      field_simp
      ring
  exact this _ (by omega)

/-- C40, exactness with a uniform step: samples of `a t + b` at `x0 + i dx`. -/
theorem C40_affine_uniform (a b x0 dx : K) (n : Nat) (h2 : 2 ≤ n) (h64 : n < 2 ^ 64) :
    trapzUniform ((List.range n).map fun i : Nat => a * (x0 + i * dx) + b) dx =
      .ok (a * ((x0 + ((n : K) - 1) * dx) ^ 2 - x0 ^ 2) / 2 + b * (((n : K) - 1) * dx)) := by
  have two : (2 : K) ≠ 0 := NeZero.ne 2
  rw [trapzUniform_ok (by simpa using h2) (by simpa using h64), List.length_map, List.length_range]
  congr 1
  obtain ⟨m, rfl⟩ : ∃ m, n = m + 1 := ⟨n - 1, by omega⟩
  have : ∀ k, k ≤ m → panels k (fun i => (i : K) * dx) (fun i => ((List.range (m + 1)).map fun i : Nat => a * (x0 + i * dx) + b).getD i 0) =
      a * ((x0 + (k : K) * dx) ^ 2 - x0 ^ 2) / 2 + b * ((k : K) * dx) := by
    intro k
    induction k with
    | zero => intro _; simp [panels]
    | succ k ih =>
      intro hk
      have e : ∀ i, i < m + 1 → ((List.range (m + 1)).map fun i : Nat => a * (x0 + i * dx) + b).getD i 0 = a * (x0 + i * dx) + b := by
        intro i hi
        simp [List.getD, List.getElem?_range hi]
      rw [panels_succ, ih (by omega), e k (by omega), e (k + 1) (by omega)]
      push_cast
      field_simp
      ring
  rw [show m + 1 - 1 = m by omega, this m le_rfl]
  push_cast
  ring

example : trapz ⟨true⟩ [(0 : ℚ), 1, 5] ([0, 1, 5].map fun t => 2 * t + 3) = .ok 40 := by decide +kernel
example : trapzUniform ((List.range 4).map fun i : Nat => 2 * ((1 : ℚ) + i * 2) + 3) 2 = .ok 66 := by decide +kernel

theorem panels_linear (n : Nat) (x y z : Nat → K) (a b : K) :
    panels n x (fun i => a * y i + b * z i) = a * panels n x y + b * panels n x z := by
  simp only [panels, mul_sum, ← sum_add_distrib]
  exact sum_congr rfl (fun i _ => by ring)

/-- C40, linearity in `y`: for data of the same size. -/
theorem C40_linear (B : Build) (x y z : List K) (a b dx : K) (h2 : 2 ≤ y.length) (h64 : y.length < 2 ^ 64) (hz : z.length = y.length) :
    (x.length = y.length → ∃ s t, trapz B x y = .ok s ∧ trapz B x z = .ok t ∧
      trapz B x (List.zipWith (fun u v => a * u + b * v) y z) = .ok (a * s + b * t)) ∧
    ∃ s t, trapzUniform y dx = .ok s ∧ trapzUniform z dx = .ok t ∧
      trapzUniform (List.zipWith (fun u v => a * u + b * v) y z) dx = .ok (a * s + b * t) := by
  have hlen : (List.zipWith (fun u v => a * u + b * v) y z).length = y.length := by simp [hz]
  have e : ∀ i, i ≤ y.length - 1 → (List.zipWith (fun u v => a * u + b * v) y z).getD i 0 = a * y.getD i 0 + b * z.getD i 0 := by
    intro i hi
    have h1 : i < y.length := by omega
    have h2 : i < z.length := by omega
    simp [List.getD, List.getElem?_zipWith, List.getElem?_eq_getElem h1, List.getElem?_eq_getElem h2]
  refine ⟨fun hl => ⟨_, _, trapz_ok B h2 h64 hl, trapz_ok B (by omega) (by omega) (by omega), ?_⟩,
    _, _, trapzUniform_ok h2 h64 dx, trapzUniform_ok (by omega) (by omega) dx, ?_⟩
  · rw [trapz_ok B (by omega) (by omega) (by omega), hlen, hz, panels_congr (fun i _ => rfl) e, panels_linear]
  · rw [trapzUniform_ok (by omega) (by omega), hlen, hz, panels_congr (fun i _ => rfl) e, panels_linear]

example : trapz ⟨true⟩ [(0 : ℚ), 1, 3] (List.zipWith (fun u v => 2 * u + 5 * v) [1, 2, 0] [4, 0, 1]) = .ok (2 * (7 / 2) + 5 * 3) := by
  decide +kernel

end functions

section order
variable {K : Type} [Field K] [LinearOrder K] [IsStrictOrderedRing K]

theorem panels_mono (n : Nat) (x y z : Nat → K) (hx : ∀ i, i < n → x i ≤ x (i + 1)) (h : ∀ i, i ≤ n → y i ≤ z i) :
    panels n x y ≤ panels n x z := by
  refine sum_le_sum (fun i hi => ?_)
  have := mem_range.mp hi
  have h1 := h i (by omega)
  have h2 := h (i + 1) (by omega)
  have h3 := hx i this
  have : (x (i + 1) - x i) * (y i + y (i + 1)) ≤ (x (i + 1) - x i) * (z i + z (i + 1)) :=
    mul_le_mul_of_nonneg_left (by linarith) (by linarith)
  linarith

/-- C40, monotonicity in `y`, when the abscissae increase, or the step is non-negative. -/
theorem C40_monotone (B : Build) (x y z : List K) (dx : K) (h2 : 2 ≤ y.length) (h64 : y.length < 2 ^ 64) (hz : z.length = y.length)
    (h : ∀ i, i < y.length → y.getD i 0 ≤ z.getD i 0) :
    (x.length = y.length → (∀ i, i + 1 < x.length → x.getD i 0 ≤ x.getD (i + 1) 0) →
      ∃ s t, trapz B x y = .ok s ∧ trapz B x z = .ok t ∧ s ≤ t) ∧
    (0 ≤ dx → ∃ s t, trapzUniform y dx = .ok s ∧ trapzUniform z dx = .ok t ∧ s ≤ t) := by
  refine ⟨fun hl hx => ⟨_, _, trapz_ok B h2 h64 hl, trapz_ok B (by omega) (by omega) (by omega), ?_⟩,
    fun hdx => ⟨_, _, trapzUniform_ok h2 h64 dx, trapzUniform_ok (by omega) (by omega) dx, ?_⟩⟩
  · rw [hz]
    exact panels_mono _ _ _ _ (fun i hi => hx i (by omega)) (fun i hi => h i (by omega))
  · rw [hz]
    refine panels_mono _ _ _ _ (fun i hi => ?_) (fun i hi => h i (by omega))
    push_cast
    nlinarith

example : (∀ i, i < [(1 : ℚ), 2, 0].length → [(1 : ℚ), 2, 0].getD i 0 ≤ [(1 : ℚ), 3, 1].getD i 0) ∧
    (∀ i, i + 1 < [(0 : ℚ), 1, 3].length → [(0 : ℚ), 1, 3].getD i 0 ≤ [(0 : ℚ), 1, 3].getD (i + 1) 0) := by
  constructor
  · decide +kernel
  · intro i hi
    have hi : i < 2 := by simp at hi; omega
    interval_cases i <;> simp

end order

section agree
variable {K : Type} [Field K] [NeZero (2 : K)]

/-- C40, the guards: with assertions enabled `Trapz(x, y)` aborts on fewer than two samples and on sizes that differ, and does not read out of bounds. -/
theorem C40_guard (x y : List K) (h : y.length < 2 ∨ x.length ≠ y.length) : trapz ⟨true⟩ x y = .aborts := by
  unfold trapz
  by_cases h1 : y.length > 1
  · simp only [cassert_true ⟨true⟩ _ h1, Res.ok_bind, cassert_false _ (by omega : ¬ x.length = y.length)]
    rfl
  · simp only [cassert_false _ h1]
    rfl

example : trapz ⟨true⟩ [(0 : ℚ), 1] [3] = .aborts := by decide +kernel

/-- C41, on a uniform grid `x[i] = x0 + i dx` the two functions agree. -/
theorem C41_agree (B : Build) (y : List K) (x0 dx : K) (h2 : 2 ≤ y.length) (h64 : y.length < 2 ^ 64) :
    ∃ v, trapz B ((List.range y.length).map fun i : Nat => x0 + i * dx) y = .ok v ∧ trapzUniform y dx = .ok v := by
  refine ⟨_, ?_, trapzUniform_ok h2 h64 dx⟩
  rw [trapz_ok B h2 h64 (by simp), panels, panels]
  congr 1
  refine sum_congr rfl (fun i hi => ?_)
  have := mem_range.mp hi
  have e : ∀ i, i < y.length → ((List.range y.length).map fun i : Nat => x0 + i * dx).getD i 0 = x0 + i * dx := by
    intro i hi
    simp [List.getD, List.getElem?_range hi]
  simp only [e i (by omega), e (i + 1) (by omega)]
  push_cast
  ring

example : trapz ⟨true⟩ [(5 : ℚ), 7, 9] [1, 2, 0] = trapzUniform [1, 2, 0] 2 ∧ trapzUniform [(1 : ℚ), 2, 0] 2 = .ok 5 := by
  constructor <;> decide +kernel

/-- C41, additivity: splitting at any interior node `(u, v)`, which belongs to both parts, the two integrals add up to the whole. The parts before and
after the node are non-empty. -/
theorem C41_split (B : Build) (x₁ x₂ y₁ y₂ : List K) (u v dx : K) (h₁ : y₁ ≠ []) (h₂ : y₂ ≠ [])
    (h64 : y₁.length + y₂.length + 1 < 2 ^ 64) :
    (x₁.length = y₁.length → x₂.length = y₂.length → ∃ s t, trapz B (x₁ ++ [u]) (y₁ ++ [v]) = .ok s ∧ trapz B (u :: x₂) (v :: y₂) = .ok t ∧
      trapz B (x₁ ++ u :: x₂) (y₁ ++ v :: y₂) = .ok (s + t)) ∧
    ∃ s t, trapzUniform (y₁ ++ [v]) dx = .ok s ∧ trapzUniform (v :: y₂) dx = .ok t ∧
      trapzUniform (y₁ ++ v :: y₂) dx = .ok (s + t) := by
  have l1 : 0 < y₁.length := List.length_pos_of_ne_nil h₁
  have l2 : 0 < y₂.length := List.length_pos_of_ne_nil h₂
  have key : ∀ (x xa xb y ya yb : Nat → K) (m n : Nat), (∀ i, i < m → x (i + 1) - x i = xa (i + 1) - xa i) → (∀ i, i ≤ m → y i = ya i) →
      (∀ i, i < n → x (m + i + 1) - x (m + i) = xb (i + 1) - xb i) → (∀ i, i ≤ n → y (m + i) = yb i) →
      panels (m + n) x y = panels m xa ya + panels n xb yb := by
    intro x xa xb y ya yb m n h1 h2 h3 h4
    rw [panels, sum_range_add]
    congr 1
    · refine sum_congr rfl (fun i hi => ?_)
      have := mem_range.mp hi
      rw [h1 i this, h2 i (by omega), h2 (i + 1) (by omega)]
    · refine sum_congr rfl (fun i hi => ?_)
      have := mem_range.mp hi
      rw [h3 i this, h4 i (by omega), show m + i + 1 = m + (i + 1) by omega, h4 (i + 1) (by omega)]
  have ea : ∀ (a b : List K) (w : K) (i : Nat), i ≤ a.length → (a ++ w :: b).getD i 0 = (a ++ [w]).getD i 0 := by
    intro a b w i hi
    rcases Nat.lt_or_ge i a.length with h | h
    · simp [List.getD, List.getElem?_append_left h]
    · obtain rfl : i = a.length := by omega
      simp [List.getD]
  have eb : ∀ (a b : List K) (w : K) (i : Nat), (a ++ w :: b).getD (a.length + i) 0 = (w :: b).getD i 0 := by
    intro a b w i
    rw [List.getD, List.getElem?_append_right (by omega), Nat.add_sub_cancel_left, ← List.getD]
  have len : (y₁ ++ v :: y₂).length - 1 = y₁.length + y₂.length := by simp
  refine ⟨fun hx1 hx2 => ⟨_, _, trapz_ok B (by simp; omega) (by simp; omega) (by simp [hx1]), trapz_ok B (by simp; omega) (by simp; omega) (by simp [hx2]), ?_⟩,
    _, _, trapzUniform_ok (by simp; omega) (by simp; omega) dx, trapzUniform_ok (by simp; omega) (by simp; omega) dx, ?_⟩
  · rw [trapz_ok B (by simp; omega) (by simp; omega) (by simp [hx1, hx2]), len]
    congr 1
    have := key (fun i => (x₁ ++ u :: x₂).getD i 0) (fun i => (x₁ ++ [u]).getD i 0) (fun i => (u :: x₂).getD i 0)
      (fun i => (y₁ ++ v :: y₂).getD i 0) (fun i => (y₁ ++ [v]).getD i 0) (fun i => (v :: y₂).getD i 0) y₁.length y₂.length
      (fun i hi => by simp only [ea _ _ _ i (by omega : i ≤ x₁.length), ea _ _ _ (i + 1) (by omega : i + 1 ≤ x₁.length)])
      (fun i hi => ea _ _ _ i hi)
      (fun i hi => by simp only [← hx1, eb, Nat.add_assoc])
      (fun i hi => eb _ _ _ i)
    simpa using this
  · rw [trapzUniform_ok (by simp; omega) (by simp; omega), len]
    congr 1
    have := key (fun i => (i : K) * dx) (fun i => (i : K) * dx) (fun i => (i : K) * dx)
      (fun i => (y₁ ++ v :: y₂).getD i 0) (fun i => (y₁ ++ [v]).getD i 0) (fun i => (v :: y₂).getD i 0) y₁.length y₂.length
      (fun i hi => rfl)
      (fun i hi => ea _ _ _ i hi)
      (fun i hi => by push_cast; ring)
      (fun i hi => eb _ _ _ i)
    simpa using this

example : trapz ⟨true⟩ ([(0 : ℚ)] ++ 1 :: [3, 7]) ([1] ++ 2 :: [0, 5]) = .ok (3 / 2 + 12) ∧ trapz ⟨true⟩ [(0 : ℚ), 1] [1, 2] = .ok (3 / 2) := by
  constructor <;> decide +kernel

end agree

/-! ## The class `Integrate1d` -/

section cls
variable {K : Type} [Field K] [CharZero K] [DecidableEq K]
open Integrate1d

/-- C42 does not hold: after a `Get`, selecting the method which is not implemented is not noticed, and `Get` keeps returning the trapezoidal
value instead of failing. `SetIntegrationMethod` does not invalidate the cache. -/
theorem C42_refuted : ∃ (src : Source ℚ) (n : Nat) (a b : ℚ) (h : List (Op ℚ)), src.Consistent n ∧
    (get.run (after (src.new a b n) h)).1 ≠ ((⟨a, b, .TRAPEZOIDAL⟩ : Settings ℚ).after h).expected src n :=
  ⟨.vector [1, 3], 2, 0, 1, [.get, .setMethod .NEWTON_COTES], ⟨by decide, by decide, rfl⟩, by decide +kernel⟩

/-- C42, part: for every source of at least two points (and of as many values as points, for a vector), all bounds and all histories of setters and
`Get` calls in which, since the last setter of a bound (or since construction), no `SetIntegrationMethod` comes after a `Get`: `Get` returns the
trapezoidal integral for the current bounds and number of points, or throws when the current method is not implemented.
Missing: histories in which the method is set after a `Get` and no bound is set since: see `C42_refuted`. -/
theorem C42_current_partial (src : Source K) (n : Nat) (hc : src.Consistent n) (a b : K) (h₁ h₂ : List (Op K))
    (hlast : h₁ = [] ∨ ∃ h op, h₁ = h ++ [op] ∧ SetsBound op) (hm : MethodBeforeGet h₂) :
    (get.run (after (src.new a b n) (h₁ ++ h₂))).1 = ((⟨a, b, .TRAPEZOIDAL⟩ : Settings K).after (h₁ ++ h₂)).expected src n := by
  refine (get_good hc ?_).1
  rw [after_append, Settings.after, List.foldl_append]
  have h0 : Inv src n ((⟨a, b, .TRAPEZOIDAL⟩ : Settings K).after h₁) (after (src.new a b n) h₁) := after_inv hc h₁ (new_good src n a b).inv
  refine after_good hc h₂ hm h0 ?_
  rcases hlast with rfl | ⟨h, op, rfl, hop⟩
  · cases src <;> rfl
  · rw [after_append]
    exact (exec_setsBound hc (after_inv hc h (new_good src n a b).inv) hop).2

theorem computed_append (t : Settings K) (h : List (Op K)) (op : Op K) :
    Computed t (h ++ [op]) ↔ (op = .get ∧ (t.after h).method = .TRAPEZOIDAL) ∨ (¬ SetsBound op ∧ Computed t h) := by
  constructor
  · rintro ⟨h₁, h₂, e, h1, h2⟩
    rcases List.eq_nil_or_concat h₂ with rfl | ⟨l, o, rfl⟩
    · obtain ⟨rfl, e2⟩ := List.append_inj' e rfl
      cases e2
      exact Or.inl ⟨rfl, h2⟩
    · rw [List.concat_eq_append] at e h1
      rw [← List.cons_append, ← List.append_assoc] at e
      obtain ⟨rfl, e2⟩ := List.append_inj' e rfl
      cases e2
      exact Or.inr ⟨h1 _ (by simp), h₁, l, rfl, fun o ho => h1 o (by simp [ho]), h2⟩
  · rintro (⟨rfl, h2⟩ | ⟨hop, h₁, h₂, rfl, h1, h2⟩)
    · exact ⟨h, [], rfl, by simp, h2⟩
    · refine ⟨h₁, h₂ ++ [op], by simp, fun o ho => ?_, h2⟩
      rcases List.mem_append.1 ho with ho | ho
      · exact h1 o ho
      · rw [List.mem_singleton.1 ho]
        exact hop

theorem after_computed {src : Source K} {n : Nat} (hc : src.Consistent n) (a b : K) (h : List (Op K)) :
    ((after (src.new a b n) h).c_Computed = true ↔ Computed ⟨a, b, .TRAPEZOIDAL⟩ h) ∧
    ((after (src.new a b n) h).c_Computed = true →
      (after (src.new a b n) h).c_Result = value src n ((⟨a, b, .TRAPEZOIDAL⟩ : Settings K).after h)) := by
  induction h using List.reverseRecOn with
  | nil =>
    have e : (src.new a b n).c_Computed = false := by cases src <;> rfl
    show ((src.new a b n).c_Computed = true ↔ _) ∧ ((src.new a b n).c_Computed = true → _)
    rw [e]
    refine ⟨⟨fun h => (by cases h), ?_⟩, fun h => by cases h⟩
    rintro ⟨h₁, h₂, e, -⟩
    simp at e
  | append_singleton h op ih =>
    have hi := after_inv hc h (new_good src n a b).inv
    rw [computed_append, after_append]
    have et : (⟨a, b, .TRAPEZOIDAL⟩ : Settings K).after (h ++ [op]) = ((⟨a, b, .TRAPEZOIDAL⟩ : Settings K).after h).next op := by
      rw [Settings.after, List.foldl_append]
      rfl
    rw [et]
    generalize after (src.new a b n) h = s at *
    generalize (⟨a, b, .TRAPEZOIDAL⟩ : Settings K).after h = t at *
    show (((exec op).run s).2.c_Computed = true ↔ _) ∧ (((exec op).run s).2.c_Computed = true → ((exec op).run s).2.c_Result = _)
    cases op with
    | setXmin x => exact ⟨⟨fun h => (by cases h), by simp [SetsBound]⟩, fun h => by cases h⟩
    | setXmax x => exact ⟨⟨fun h => (by cases h), by simp [SetsBound]⟩, fun h => by cases h⟩
    | setMethod m =>
      refine ⟨⟨fun h => Or.inr ⟨id, ih.1.1 h⟩, ?_⟩, fun h => ih.2 h⟩
      rintro (⟨h, -⟩ | ⟨-, h⟩)
      · cases h
      · exact ih.1.2 h
    | get =>
      rw [exec_get]
      by_cases hcomp : s.c_Computed = true
      · rw [get_cached hcomp]
        exact ⟨⟨fun _ => Or.inr ⟨id, ih.1.1 hcomp⟩, fun _ => hcomp⟩, fun _ => ih.2 hcomp⟩
      · cases hm : t.method with
        | TRAPEZOIDAL =>
          obtain ⟨s', h1, h2, h3, h4⟩ := compute_trapezoidal hc hi hm
          rw [get_computes hcomp h1]
          exact ⟨⟨fun _ => Or.inl ⟨rfl, rfl⟩, fun _ => h4⟩, fun _ => h3⟩
        | NEWTON_COTES =>
          rw [get_throws hcomp (compute_newton hi hm)]
          refine ⟨⟨fun h => absurd h hcomp, ?_⟩, fun h => absurd h hcomp⟩
          rintro (⟨-, h⟩ | ⟨-, h⟩)
          · cases h
          · exact absurd (ih.1.2 h) hcomp

/-- C42, exactly what `Get` does, after every history of setters and `Get` calls: if, since the last call that sets a bound, there was a `Get` made while the
method was the trapezoidal rule, the trapezoidal integral for the current bounds, whatever the current method; otherwise what the current settings ask for. -/
theorem C42_exact_partial (src : Source K) (n : Nat) (hc : src.Consistent n) (a b : K) (h : List (Op K)) :
    (Computed ⟨a, b, .TRAPEZOIDAL⟩ h → (get.run (after (src.new a b n) h)).1 =
      ({ (⟨a, b, .TRAPEZOIDAL⟩ : Settings K).after h with method := .TRAPEZOIDAL } : Settings K).expected src n) ∧
    (¬ Computed ⟨a, b, .TRAPEZOIDAL⟩ h → (get.run (after (src.new a b n) h)).1 = ((⟨a, b, .TRAPEZOIDAL⟩ : Settings K).after h).expected src n) := by
  obtain ⟨h1, h2⟩ := after_computed hc a b h
  refine ⟨fun hh => ?_, fun hh => ?_⟩
  · rw [get_cached (h1.2 hh), h2 (h1.2 hh)]
    rfl
  · exact (get_good hc ⟨after_inv hc h (new_good src n a b).inv, fun h' => absurd (h1.1 h') hh⟩).1

/-- C42, exactly when `Get` is right: unless the method that is not implemented was selected after a `Get`, with no bound set since that `Get`. -/
theorem C42_right_iff_partial (src : Source K) (n : Nat) (hc : src.Consistent n) (a b : K) (h : List (Op K)) :
    (get.run (after (src.new a b n) h)).1 = ((⟨a, b, .TRAPEZOIDAL⟩ : Settings K).after h).expected src n ↔
      ¬ (Computed ⟨a, b, .TRAPEZOIDAL⟩ h ∧ ((⟨a, b, .TRAPEZOIDAL⟩ : Settings K).after h).method = .NEWTON_COTES) := by
  obtain ⟨h1, h2⟩ := C42_exact_partial src n hc a b h
  constructor
  · rintro e ⟨hh, hm⟩
    rw [h1 hh] at e
    unfold Settings.expected at e
    rw [hm] at e
    cases e
  · intro hn
    by_cases hh : Computed ⟨a, b, .TRAPEZOIDAL⟩ h
    · rw [h1 hh]
      cases hm : ((⟨a, b, .TRAPEZOIDAL⟩ : Settings K).after h).method with
      | TRAPEZOIDAL => unfold Settings.expected; rw [hm]
      | NEWTON_COTES => exact absurd ⟨hh, hm⟩ hn
    · exact h2 hh

/-- Both cases occur. -/
example : Computed (⟨0, 1, .TRAPEZOIDAL⟩ : Settings ℚ) [.setXmin 1, .get, .setMethod .NEWTON_COTES, .get] ∧
    ¬ Computed (⟨0, 1, .TRAPEZOIDAL⟩ : Settings ℚ) [.get, .setXmax 3, .setMethod .NEWTON_COTES] := by
  refine ⟨⟨[.setXmin 1], [.setMethod .NEWTON_COTES, .get], rfl, by simp [SetsBound], rfl⟩, fun h => ?_⟩
  rw [show ([.get, .setXmax 3, .setMethod .NEWTON_COTES] : List (Op ℚ)) = (([.get] ++ [.setXmax 3]) ++ [.setMethod .NEWTON_COTES]) from rfl,
    computed_append, computed_append] at h
  simp [SetsBound] at h

/-- C42, when the method is never changed: for all histories of bounds setters and `Get` calls, `Get` returns the trapezoidal integral for the
current bounds. -/
theorem C42_bounds_partial (src : Source K) (n : Nat) (hc : src.Consistent n) (a b : K) (h : List (Op K)) (hm : ∀ m, .setMethod m ∉ h) :
    (get.run (after (src.new a b n) h)).1 = ((⟨a, b, .TRAPEZOIDAL⟩ : Settings K).after h).expected src n :=
  (get_good hc (after_good_noMethod hc h hm (new_good src n a b))).1

/-- C42, a failed `Get` leaves no value behind: after the exception of the method which is not implemented, selecting the trapezoidal method gives the value. -/
theorem C42_recover_partial (src : Source K) (n : Nat) (hc : src.Consistent n) (a b : K) :
    (get.run (after (src.new a b n) [.setMethod .NEWTON_COTES, .get, .setMethod .TRAPEZOIDAL])).1 =
      (⟨a, b, .TRAPEZOIDAL⟩ : Settings K).expected src n := by
  have g := after_good hc [.setMethod .NEWTON_COTES] (by simp [MethodBeforeGet]) (new_good src n a b).inv (by cases src <;> rfl)
  have hcomp : (after (src.new a b n) [.setMethod .NEWTON_COTES]).c_Computed ≠ true := by cases src <;> exact Bool.false_ne_true
  have h := get_throws hcomp (compute_newton g.inv rfl)
  refine (get_good hc (t := ⟨a, b, .TRAPEZOIDAL⟩) (after_good hc [.setMethod .TRAPEZOIDAL] (by simp [MethodBeforeGet]) (t := ⟨a, b, .NEWTON_COTES⟩)
    (s := after (src.new a b n) [.setMethod .NEWTON_COTES, .get]) ?_ ?_)).1
  · exact after_inv hc [.setMethod .NEWTON_COTES, .get] (new_good src n a b).inv
  · show ((exec .get).run (after (src.new a b n) [.setMethod .NEWTON_COTES])).2.c_Computed = false
    rw [exec_get, h]
    cases src <;> rfl

example : (get.run (after ((Source.function fun t : ℚ => t ^ 2).new 0 1 3) [.get, .setXmax 2, .setXmin 1, .get])).1 = .ok (19 / 8) ∧
    (Source.function fun t : ℚ => t ^ 2).Consistent 3 ∧ MethodBeforeGet [Op.setMethod .NEWTON_COTES, .get, .setXmin (1 : ℚ), .get] :=
  ⟨by decide +kernel, ⟨by decide, by decide, trivial⟩, by simp [MethodBeforeGet]⟩

/-- C43, a function: with `NbPoints >= 2` a fresh object returns what `Trapz` returns on the `NbPoints` samples at `a + i (b-a)/(NbPoints-1)`, the first
of which is `a` and the last `b`. -/
theorem C43_function (F : K → K) (a b : K) (n : Nat) (h2 : 2 ≤ n) (h32 : n < 2 ^ 32) :
    (get.run (ofFunction F a b n)).1 = trapzUniform ((List.range n).map fun i : Nat => F (a + i * ((b - a) / ((n : K) - 1)))) ((b - a) / ((n : K) - 1)) ∧
    a + ((n - 1 : Nat) : K) * ((b - a) / ((n : K) - 1)) = b := by
  constructor
  · have h := (get_good (src := .function F) ⟨h2, h32, trivial⟩ (new_good (.function F) n a b)).1
    rw [show ofFunction F a b n = (Source.function F).new a b n from rfl, h, trapzUniform_ok (by simpa using h2) (by simp; omega)]
    simp only [Settings.expected, List.length_map, List.length_range]
    congr 1
    refine sum_congr rfl (fun i hi => ?_)
    have := mem_range.mp hi
    have e : ∀ i, i < n → ((List.range n).map fun i : Nat => F (a + i * ((b - a) / ((n : K) - 1)))).getD i 0 = F (a + i * ((b - a) / ((n : K) - 1))) := by
      intro i hi
      simp [List.getD, List.getElem?_range hi]
    simp only [e i (by omega), e (i + 1) (by omega), point, Source.value]
    push_cast
    ring
  · have : (n : K) - 1 ≠ 0 := by
      rw [sub_ne_zero]
      exact_mod_cast (by omega : n ≠ 1)
    rw [Nat.cast_sub (by omega)]
    push_cast
    field_simp
    ring

/-- C43, affine functions are integrated exactly. -/
theorem C43_affine (c d a b : K) (n : Nat) (h2 : 2 ≤ n) (h32 : n < 2 ^ 32) :
    (get.run (ofFunction (fun t => c * t + d) a b n)).1 = .ok (c * (b ^ 2 - a ^ 2) / 2 + d * (b - a)) := by
  obtain ⟨h1, hb⟩ := C43_function (fun t => c * t + d) a b n h2 h32
  rw [h1, C40_affine_uniform _ _ _ _ _ h2 (by omega)]
  rw [Nat.cast_sub (by omega), Nat.cast_one] at hb
  rw [hb, show ((n : K) - 1) * ((b - a) / ((n : K) - 1)) = b - a by linear_combination hb]

/-- C43, a vector of `NbPoints` values: the same as `Trapz` with the step `(b-a)/(NbPoints-1)`. -/
theorem C43_vector (Y : List K) (a b : K) (h2 : 2 ≤ Y.length) (h32 : Y.length < 2 ^ 32) :
    (get.run (ofVector Y a b Y.length)).1 = trapzUniform Y ((b - a) / ((Y.length : K) - 1)) := by
  have h := (get_good (src := .vector Y) ⟨h2, h32, rfl⟩ (new_good (.vector Y) Y.length a b)).1
  rw [show ofVector Y a b Y.length = (Source.vector Y).new a b Y.length from rfl, h, trapzUniform_ok h2 (by omega)]
  simp only [Settings.expected]
  congr 1
  refine sum_congr rfl (fun i _ => ?_)
  simp only [point, Source.value]
  push_cast
  ring

example : (get.run (ofFunction (fun t : ℚ => t ^ 2) 0 1 3)).1 = .ok (3 / 8) ∧ (get.run (ofVector [(1 : ℚ), 2, 5] 0 4 3)).1 = .ok 10 := by
  constructor <;> decide +kernel

end cls

end MU
