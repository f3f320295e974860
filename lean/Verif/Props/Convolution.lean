import Verif.Spec.Signal
import Verif.Lemmas.Integration1d
import Mathlib.Tactic.Ring
import Mathlib.Tactic.Linarith
import Mathlib.Tactic.FieldSimp

/-!
# Convolution (C66)
-/

set_option linter.unusedSectionVars false

namespace MU
open Finset Spec

variable {K : Type} [Field K]

theorem convolutionIntegrand_ok {kernel signal : List K} (h : kernel.length ≤ signal.length) (h64 : kernel.length < 2 ^ 64) (reverse : Bool) :
    convolutionIntegrand kernel signal reverse = .ok ((List.range kernel.length).map fun i =>
      kernel.getD i 0 * signal.getD (if reverse then i else kernel.length - 1 - i) 0) := by
  unfold convolutionIntegrand
  have := forRange_ok (lo := 0) (hi := kernel.length) (Nat.zero_le _) (f := fun i (acc : List K) => do
    let k ← vIdx kernel i
    let s ← if reverse then vIdx signal i else vIdx signal (usub 64 (usub 64 kernel.length i) 1)
    return acc ++ [k * s]) (fun m => (List.range m).map fun i =>
      kernel.getD i 0 * signal.getD (if reverse then i else kernel.length - 1 - i) 0) (by
      intro i _ hi
      rw [vIdx_lt hi, Res.ok_bind]
      have e : usub 64 (usub 64 kernel.length i) 1 = kernel.length - 1 - i := by
        rw [usub_of_le hi.le h64, usub_of_le (by omega) (by omega)]
        omega
      rw [e]
      cases reverse
      · have h1 : kernel.length - 1 - i < signal.length := by omega
        simp [vIdx_lt h1, List.range_succ, List.getD, List.getElem?_eq_getElem hi, List.getElem?_eq_getElem h1]
      · have h1 : i < signal.length := by omega
        simp [vIdx_lt h1, List.range_succ, List.getD, List.getElem?_eq_getElem hi, List.getElem?_eq_getElem h1])
  simpa using this

theorem trapzUniform_weights [NeZero (2 : K)] (n : Nat) (h2 : 2 ≤ n) (h64 : n < 2 ^ 64) (g : Nat → K) (dx : K) :
    trapzUniform ((List.range n).map g) dx = .ok (dx * ∑ i ∈ range n, trapzWeight n i * g i) := by
  have hl : ((List.range n).map g).length = n := by simp
  rw [trapzUniform_ok (by omega) (by omega), hl]
  obtain ⟨m, rfl⟩ : ∃ m, n = m + 2 := ⟨n - 2, by omega⟩
  have e : ∀ i, i < m + 2 → ((List.range (m + 2)).map g).getD i 0 = g i := by
    intro i hi
    simp [List.getD, hi]
  rw [show m + 2 - 1 = m + 1 from rfl, panels_uniform m _ _ dx (by intro i _; push_cast; ring)]
  rw [sum_congr rfl (g := g) (fun i hi => e i (by have := mem_Ico.1 hi; omega)), e 0 (by omega), e (m + 1) (by omega)]
  rw [sum_range_succ, sum_range_eq_add_Ico _ (by omega)]
  have e2 : ∑ i ∈ Ico 1 (m + 1), trapzWeight (m + 2) i * g i = ∑ i ∈ Ico 1 (m + 1), g i := by
    refine sum_congr rfl fun i hi => ?_
    have := mem_Ico.1 hi
    rw [trapzWeight, if_neg (by omega), one_mul]
  rw [e2]
  have e3 : (trapzWeight (m + 2) 0 : K) = 1 / 2 := by simp [trapzWeight]
  have e4 : (trapzWeight (m + 2) (m + 1) : K) = 1 / 2 := by simp [trapzWeight]
  rw [e3, e4]
  congr 1
  ring

/-- **C66**, the value: the products of the kernel with the first `N` samples of the signal, in the same order (`reverse`, the default) or backwards,
added with the trapezoidal weights and multiplied by the step. -/
theorem C66_value [NeZero (2 : K)] (B : Build) (kernel signal : List K) (dt : K) (reverse : Bool) (h2 : 2 ≤ kernel.length)
    (h64 : kernel.length < 2 ^ 64) (h : kernel.length ≤ signal.length) :
    naiveConvolution B kernel signal dt reverse = .ok (dt * ∑ i ∈ range kernel.length,
      trapzWeight kernel.length i * (kernel.getD i 0 * signal.getD (if reverse then i else kernel.length - 1 - i) 0)) := by
  rw [naiveConvolution, cassert_true B _ h, Res.ok_bind, convolutionIntegrand_ok h h64, Res.ok_bind, trapzUniform_weights _ h2 h64]

example : naiveConvolution ⟨true⟩ [(1 : ℚ), 2, 3] [4, 5, 6, 100] (1 / 2) true = .ok (21 / 2) ∧
    naiveConvolution ⟨true⟩ [(1 : ℚ), 2, 3] [4, 5, 6, 100] (1 / 2) false = .ok (19 / 2) := by decide +kernel

/-- **C66**, a kernel of one sample: the product multiplied by the step. -/
theorem C66_single [NeZero (2 : K)] (B : Build) (k s : K) (signal : List K) (dt : K) (reverse : Bool) :
    naiveConvolution B [k] (s :: signal) dt reverse = .ok (dt * (k * s)) := by
  rw [naiveConvolution, cassert_true B _ (by simp), Res.ok_bind, convolutionIntegrand_ok (by simp) (by simp), Res.ok_bind]
  have h : (2 : K) ≠ 0 := NeZero.ne _
  have : trapzUniform [k * s] dt = .ok (dt * (k * s)) := by
    simp only [trapzUniform, List.length_singleton, usub_of_le (w := 64) (le_refl 1) (by norm_num)]
    simp [forRange, forN, vIdx]
    left
    field_simp
    ring
  simpa [List.range_succ] using this

/-- **C66**, direction: backwards on a signal is forwards on its first `N` samples reversed. -/
theorem C66_reverse [NeZero (2 : K)] (B : Build) (kernel signal : List K) (dt : K) (h2 : 2 ≤ kernel.length) (h64 : kernel.length < 2 ^ 64)
    (h : kernel.length ≤ signal.length) :
    naiveConvolution B kernel signal dt false = naiveConvolution B kernel (signal.take kernel.length).reverse dt true := by
  rw [C66_value B kernel signal dt false h2 h64 h, C66_value B kernel _ dt true h2 h64 (by simp [h])]
  congr 2
  refine sum_congr rfl fun i hi => ?_
  have hi := mem_range.1 hi
  congr 2
  have e : (signal.take kernel.length).length = kernel.length := by simp [h]
  simp only [List.getD, Bool.false_eq_true, if_false, if_true]
  rw [List.getElem?_reverse (by omega), e, List.getElem?_take, if_pos (by omega)]

/-- **C66**, bilinearity: in the kernel and in the signal, for kernels and signals of the same sizes. -/
theorem C66_bilinear [NeZero (2 : K)] (B : Build) (k k' s s' : List K) (a b dt : K) (reverse : Bool) (h2 : 2 ≤ k.length) (h64 : k.length < 2 ^ 64)
    (h : k.length ≤ s.length) (hk : k'.length = k.length) (hs : s'.length = s.length) :
    ∃ x y z, naiveConvolution B k s dt reverse = .ok x ∧ naiveConvolution B k' s dt reverse = .ok y ∧ naiveConvolution B k s' dt reverse = .ok z ∧
      naiveConvolution B (List.zipWith (fun u v => a * u + b * v) k k') s dt reverse = .ok (a * x + b * y) ∧
      naiveConvolution B k (List.zipWith (fun u v => a * u + b * v) s s') dt reverse = .ok (a * x + b * z) := by
  have lin : ∀ (u v : List K) (i : Nat), i < u.length → v.length = u.length →
      (List.zipWith (fun u v => a * u + b * v) u v).getD i 0 = a * u.getD i 0 + b * v.getD i 0 := by
    intro u v i hi hv
    have h1 : i < v.length := by omega
    simp [List.getD, List.getElem?_zipWith, List.getElem?_eq_getElem hi, List.getElem?_eq_getElem h1]
  refine ⟨_, _, _, C66_value B k s dt reverse h2 h64 h, C66_value B k' s dt reverse (by omega) (by omega) (by omega),
    C66_value B k s' dt reverse h2 h64 (by omega), ?_, ?_⟩
  · rw [C66_value B _ s dt reverse (by simp [hk]; omega) (by simp [hk]; omega) (by simp [hk]; omega)]
    have hl : (List.zipWith (fun u v => a * u + b * v) k k').length = k.length := by simp [hk]
    rw [hl, hk]
    simp only [mul_sum, ← sum_add_distrib]
    congr 1
    refine sum_congr rfl fun i hi => ?_
    rw [lin k k' i (mem_range.1 hi) hk]
    ring
  · rw [C66_value B k _ dt reverse h2 h64 (by simp [hs]; omega)]
    simp only [mul_sum, ← sum_add_distrib]
    congr 1
    refine sum_congr rfl fun i hi => ?_
    have hi := mem_range.1 hi
    rw [lin s s' _ (by split <;> omega) hs]
    ring

example : 2 ≤ [(1 : ℚ), 2].length ∧ [(1 : ℚ), 2].length ≤ [(3 : ℚ), 4, 5].length ∧ [(0 : ℚ), 7, 1].length = [(3 : ℚ), 4, 5].length := by decide

/-- **C66**, the guard: with assertions enabled a signal shorter than the kernel is refused. -/
theorem C66_refused (kernel signal : List K) (dt : K) (reverse : Bool) (h : signal.length < kernel.length) :
    naiveConvolution ⟨true⟩ kernel signal dt reverse = .aborts := by
  rw [naiveConvolution, cassert_false _ (by omega)]
  rfl

example : naiveConvolution ⟨true⟩ [(1 : ℚ), 2] [3] 1 true = .aborts := by decide +kernel

/-- C66: an empty kernel is not refused; the call reads outside the bounds of an empty vector. -/
theorem C66_empty (B : Build) (signal : List K) (dt : K) (reverse : Bool) : naiveConvolution B [] signal dt reverse = .ub := by
  rw [naiveConvolution, cassert_true B _ (by simp), Res.ok_bind]
  have : usub 64 0 1 - 1 = (2 ^ 64 - 3) + 1 := by decide
  simp only [convolutionIntegrand, List.length_nil, forRange, forN, Nat.sub_self, Res.ok_bind, trapzUniform, this]
  simp [vIdx]

end MU
