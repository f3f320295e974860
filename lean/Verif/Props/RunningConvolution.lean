import Verif.Model.CircularBuffer
import Verif.Props.Convolution
import Verif.Props.Accuracy

/-!
# C207: a signal that arrives sample by sample, filtered by NaiveConvolution

The samples are pushed one after the other into a circular buffer, which is handed to `NaiveConvolution` after any number of them.
-/

set_option linter.unusedSectionVars false

namespace MU
open Finset Spec

variable {K : Type}

/-- The sample pushed `i` steps ago in a history; before the first one the signal had the value `v`. -/
def Spec.ago (v : K) (h : List K) (i : Nat) : K := if hi : i < h.length then h[h.length - 1 - i]'(by omega) else v

/-- The discrete convolution of a kernel with what a signal was, with the weights of the trapezoidal rule. -/
def Spec.filtered [Field K] (kernel : List K) (dt : K) (past : Nat → K) : K :=
  dt * ∑ i ∈ range kernel.length, trapzWeight kernel.length i * (kernel.getD i 0 * past i)

theorem ago_getD (v : K) (h : List K) (i : Nat) : ago v h i = h.reverse.getD i v := by
  unfold Spec.ago
  split_ifs with hi
  · rw [List.getD_eq_getElem?_getD, List.getElem?_reverse hi, List.getElem?_eq_getElem (by omega)]; rfl
  · rw [List.getD_eq_getElem?_getD, List.getElem?_eq_none (by simpa using hi)]; rfl

namespace CircularBuffer

/-- A full buffer after any pushes in front: the newest first. -/
theorem front_ok (n : Nat) (v : K) (h : List K) :
    h.foldl pushFront (filled n v) = ⟨n, (h.reverse ++ List.replicate n v).take n⟩ := by
  induction h using List.reverseRecOn with
  | nil => simp [filled]
  | append_singleton h x ih =>
    rw [List.foldl_append, ih, List.foldl_cons, List.foldl_nil, pushFront]
    cases n with
    | zero => simp
    | succ n =>
      rw [if_neg (by simp), if_pos (by simp)]
      simp [List.dropLast_eq_take, List.take_take]

/-- A full buffer after any pushes at the back: the newest last. -/
theorem back_ok (n : Nat) (v : K) (h : List K) :
    h.foldl pushBack (filled n v) = ⟨n, ((h.reverse ++ List.replicate n v).take n).reverse⟩ := by
  induction h using List.reverseRecOn with
  | nil => simp [filled]
  | append_singleton h x ih =>
    rw [List.foldl_append, ih, List.foldl_cons, List.foldl_nil, pushBack]
    cases n with
    | zero => simp
    | succ n =>
      rw [if_neg (by simp), if_pos (by simp)]
      simp [List.dropLast_eq_take, List.take_take, List.tail_reverse]

/-- An empty buffer that is not yet full. -/
theorem empty_ok (n : Nat) (h : List K) (hn : h.length ≤ n) : h.foldl pushFront (empty n) = ⟨n, h.reverse⟩ := by
  induction h using List.reverseRecOn with
  | nil => simp [empty]
  | append_singleton h x ih =>
    simp only [List.length_append, List.length_singleton] at hn
    rw [List.foldl_append, ih (by omega), List.foldl_cons, List.foldl_nil, pushFront, if_neg (show ¬ n = 0 by omega),
      if_neg (by simp; omega)]
    simp

end CircularBuffer

open CircularBuffer

theorem recent_getD [Zero K] (v : K) (h : List K) {n i : Nat} (hi : i < n) :
    ((h.reverse ++ List.replicate n v).take n).getD i 0 = ago v h i := by
  rw [ago_getD, List.getD_eq_getElem?_getD, List.getElem?_take, if_pos hi, List.getD_eq_getElem?_getD, List.getElem?_append]
  split_ifs with h1
  · rw [List.getElem?_eq_getElem h1]; rfl
  · rw [List.getElem?_eq_none (l := h.reverse) (by omega), List.getElem?_replicate, if_pos (by omega)]; rfl

section
variable [Field K] [NeZero (2 : K)] (B : Build) (kernel : List K) (dt v : K) {n : Nat} (h2 : 2 ≤ kernel.length) (h64 : kernel.length < 2 ^ 64)
  (hn : kernel.length ≤ n)
include h2 h64 hn

/-- C207: samples pushed in front, after any history: the convolution of the kernel with the past of the signal, the newest sample with the first
element of the kernel. The buffer may be longer than the kernel. -/
theorem C207_front (h : List K) :
    naiveConvolution B kernel (h.foldl pushFront (filled n v)).elems dt true = .ok (filtered kernel dt (ago v h)) := by
  rw [front_ok, C66_value B kernel _ dt true h2 h64 (by simp; omega)]
  unfold Spec.filtered
  refine congrArg (fun x => Res.ok (dt * x)) (sum_congr rfl (fun i hi => ?_))
  have := mem_range.1 hi
  rw [if_pos rfl, recent_getD v h (by omega)]

/-- C207: samples pushed at the back, the kernel read the other way: the same with a buffer as long as the kernel; with a longer buffer the result
is late by the difference. -/
theorem C207_back (h : List K) :
    naiveConvolution B kernel (h.foldl pushBack (filled n v)).elems dt false =
      .ok (filtered kernel dt (fun i => ago v h (i + (n - kernel.length)))) := by
  rw [back_ok, C66_value B kernel _ dt false h2 h64 (by simp; omega)]
  unfold Spec.filtered
  refine congrArg (fun x => Res.ok (dt * x)) (sum_congr rfl (fun i hi => ?_))
  have := mem_range.1 hi
  have hl : ((h.reverse ++ List.replicate n v).take n).length = n := by simp
  have e : ∀ (l : List K) (j : Nat), j < l.length → l.reverse.getD j 0 = l.getD (l.length - 1 - j) 0 := fun l j hj => by
    rw [List.getD_eq_getElem?_getD, List.getElem?_reverse hj, ← List.getD_eq_getElem?_getD]
  rw [if_neg (by simp), e _ _ (by omega), hl, show n - 1 - (kernel.length - 1 - i) = i + (n - kernel.length) by omega, recent_getD v h (by omega)]

/-- C207: a signal that begins later gives the same output later. -/
theorem C207_delay (h : List K) (d : Nat) :
    naiveConvolution B kernel ((List.replicate d v ++ h).foldl pushFront (filled n v)).elems dt true =
      naiveConvolution B kernel (h.foldl pushFront (filled n v)).elems dt true := by
  rw [C207_front B kernel dt v h2 h64 hn, C207_front B kernel dt v h2 h64 hn]
  congr 2
  funext i
  rw [ago_getD, ago_getD, List.reverse_append, List.getD_eq_getElem?_getD, List.getD_eq_getElem?_getD, List.getElem?_append]
  split_ifs with h1
  · rfl
  · rw [List.getElem?_eq_none (l := h.reverse) (by omega)]
    by_cases h3 : i - h.reverse.length < d
    · rw [List.reverse_replicate, List.getElem?_replicate, if_pos h3]; rfl
    · rw [List.reverse_replicate, List.getElem?_replicate, if_neg h3]

/-- C207: only as many samples as the kernel has elements count: what came before, and what the buffer was filled with, does not. -/
theorem C207_memory {m : Nat} (hm : kernel.length ≤ m) (w : K) (a b s : List K) (hs : kernel.length ≤ s.length) :
    naiveConvolution B kernel ((a ++ s).foldl pushFront (filled n v)).elems dt true =
      naiveConvolution B kernel ((b ++ s).foldl pushFront (filled m w)).elems dt true := by
  rw [C207_front B kernel dt v h2 h64 hn, C207_front B kernel dt w h2 h64 hm]
  unfold Spec.filtered
  refine congrArg (fun x => Res.ok (dt * x)) (sum_congr rfl (fun i hi => ?_))
  have := mem_range.1 hi
  have e : ∀ (c : List K) (u : K), ago u (c ++ s) i = s.reverse.getD i 0 := by
    intro c u
    have h1 : i < s.reverse.length := by simp; omega
    rw [ago_getD, List.reverse_append, List.getD_eq_getElem?_getD, List.getElem?_append, if_pos h1, List.getD_eq_getElem?_getD,
      List.getElem?_eq_getElem h1]
    rfl
  rw [e, e]

/-- C207: superposition. -/
theorem C207_superposition (h h' : List K) (hl : h'.length = h.length) (w α β : K) :
    ∃ x y, naiveConvolution B kernel (h.foldl pushFront (filled n v)).elems dt true = .ok x ∧
      naiveConvolution B kernel (h'.foldl pushFront (filled n w)).elems dt true = .ok y ∧
      naiveConvolution B kernel ((List.zipWith (fun a b => α * a + β * b) h h').foldl pushFront (filled n (α * v + β * w))).elems dt true =
        .ok (α * x + β * y) := by
  refine ⟨_, _, C207_front B kernel dt v h2 h64 hn h, C207_front B kernel dt w h2 h64 hn h', ?_⟩
  rw [C207_front B kernel dt _ h2 h64 hn]
  have e : ∀ i, ago (α * v + β * w) (List.zipWith (fun a b => α * a + β * b) h h') i = α * ago v h i + β * ago w h' i := by
    intro i
    have hz : (List.zipWith (fun a b => α * a + β * b) h h').length = h.length := by simp [hl]
    unfold Spec.ago
    by_cases hi : i < h.length
    · rw [dif_pos (by omega), dif_pos hi, dif_pos (by omega), List.getElem_zipWith]
      simp only [hz, hl]
    · rw [dif_neg (by omega), dif_neg hi, dif_neg (by omega)]
  unfold Spec.filtered
  simp only [e, mul_sum, ← sum_add_distrib]
  congr 1
  refine sum_congr rfl (fun i _ => ?_)
  ring

/-- C207: the response to one sample of value 1 is the kernel, times the step, with half of it at both ends, and nothing after. -/
theorem C207_impulse (j : Nat) :
    naiveConvolution B kernel ((1 :: List.replicate j 0).foldl pushFront (filled n 0)).elems dt true =
      .ok (if j < kernel.length then dt * (trapzWeight kernel.length j * kernel.getD j 0) else 0) := by
  rw [C207_front B kernel dt 0 h2 h64 hn]
  have e : ∀ i, ago (0 : K) (1 :: List.replicate j 0) i = if i = j then 1 else 0 := by
    intro i
    unfold Spec.ago
    by_cases hi : i < (1 :: List.replicate j (0 : K)).length
    · rw [dif_pos hi]
      simp only [List.length_cons, List.length_replicate] at hi ⊢
      by_cases hj : i = j
      · subst hj
        simp
      · rw [if_neg hj, List.getElem_cons, dif_neg (by omega), List.getElem_replicate]
    · rw [dif_neg hi, if_neg (by simp at hi; omega)]
  unfold Spec.filtered
  simp only [e]
  split_ifs with hj
  · rw [sum_eq_single j (fun i _ hij => by rw [if_neg hij]; ring) (fun h => absurd (mem_range.2 hj) h)]
    rw [if_pos rfl, mul_one]
  · rw [sum_eq_zero (fun i hi => by rw [if_neg (by have := mem_range.1 hi; omega)]; ring), mul_zero]

/-- C207: once the signal has been constant as long as the kernel, the output is this constant times the integral of the kernel. -/
theorem C207_steady (a : List K) (c : K) {j : Nat} (hj : kernel.length ≤ j) : ∃ T, trapzUniform kernel dt = .ok T ∧
    naiveConvolution B kernel ((a ++ List.replicate j c).foldl pushFront (filled n v)).elems dt true = .ok (c * T) := by
  have hk : kernel = (List.range kernel.length).map (fun i => kernel.getD i 0) := by
    apply List.ext_getElem
    · simp
    · intro i h1 h2
      simp [List.getD, List.getElem?_eq_getElem h1]
  refine ⟨dt * ∑ i ∈ range kernel.length, trapzWeight kernel.length i * kernel.getD i 0, ?_, ?_⟩
  · conv_lhs => rw [hk]
    exact trapzUniform_weights _ h2 h64 _ dt
  · rw [C207_front B kernel dt v h2 h64 hn]
    unfold Spec.filtered
    rw [mul_left_comm, mul_sum (a := c)]
    refine congrArg (fun x => Res.ok (dt * x)) (sum_congr rfl (fun i hi => ?_))
    have := mem_range.1 hi
    have h1 : i < (List.replicate j c).reverse.length := by simp; omega
    rw [ago_getD, List.reverse_append, List.getD_eq_getElem?_getD (l := _ ++ _), List.getElem?_append, if_pos h1, List.getElem?_eq_getElem h1]
    simp only [List.reverse_replicate, List.getElem_replicate, Option.getD_some]
    ring

omit [NeZero (2 : K)] h2 h64 hn in
/-- C207: a buffer created empty is refused, with assertions, until it holds as many samples as the kernel. -/
theorem C207_not_yet (h : List K) (hn : h.length < kernel.length) (hc : h.length ≤ n) :
    naiveConvolution ⟨true⟩ kernel (h.foldl pushFront (empty n)).elems dt true = .aborts := by
  rw [empty_ok n h hc]
  exact C66_refused kernel _ dt true (by simpa using hn)

end

/-- C207: a bounded signal gives a bounded output. -/
theorem C207_bounded (B : Build) (kernel : List ℝ) (dt v : ℝ) {n : Nat} (h2 : 2 ≤ kernel.length) (h64 : kernel.length < 2 ^ 64)
    (hn : kernel.length ≤ n) (h : List ℝ) {M : ℝ} (hv : |v| ≤ M) (hh : ∀ x ∈ h, |x| ≤ M) :
    ∃ y, naiveConvolution B kernel (h.foldl pushFront (filled n v)).elems dt true = .ok y ∧
      |y| ≤ |dt| * (∑ i ∈ range kernel.length, trapzWeight kernel.length i * |kernel.getD i 0|) * M := by
  refine ⟨_, C207_front B kernel dt v h2 h64 hn h, ?_⟩
  unfold Spec.filtered
  rw [abs_mul, mul_assoc]
  refine mul_le_mul_of_nonneg_left ?_ (abs_nonneg _)
  refine (abs_sum_le_sum_abs _ _).trans ?_
  rw [sum_mul]
  refine sum_le_sum (fun i _ => ?_)
  have hw : (0 : ℝ) ≤ trapzWeight kernel.length i := by unfold trapzWeight; split_ifs <;> norm_num
  have ha : |ago v h i| ≤ M := by
    unfold Spec.ago
    split_ifs with hi
    · exact hh _ (List.getElem_mem _)
    · exact hv
  rw [abs_mul, abs_mul, abs_of_nonneg hw, ← mul_assoc]
  exact mul_le_mul_of_nonneg_left ha (mul_nonneg hw (abs_nonneg _))

/-- C207: samples of a function `x` every `dt`, the last one at the time `t`, and of a kernel `k`: the output is the convolution
integral over the length of the kernel, with an error of at most `(N - 1) M dt³ / 12` when the second derivative of the product is at most `M`. -/
theorem C207_accuracy (B : Build) (k x : ℝ → ℝ) (N : Nat) (h2 : 2 ≤ N) (h64 : N < 2 ^ 64) {n : Nat} (hn : N ≤ n) {dt : ℝ} (hdt : 0 < dt) (v t : ℝ)
    (a : List ℝ) {m : Nat} (hm : N ≤ m) {M : ℝ} (hf : DerivBound 2 (fun s => k s * x (t - s)) (Set.Icc 0 (0 + ((N : ℝ) - 1) * dt)) M) :
    ∃ y, naiveConvolution B ((List.range N).map fun i : Nat => k (i * dt))
        ((a ++ (List.range m).map fun j : Nat => x (t - ((m - 1 - j : Nat) : ℝ) * dt)).foldl pushFront (filled n v)).elems dt true = .ok y ∧
      |y - ∫ s in (0 : ℝ)..((N : ℝ) - 1) * dt, k s * x (t - s)| ≤ ((N : ℝ) - 1) * (M * dt ^ 3 / 12) := by
  obtain ⟨y, y1, y2⟩ := C110_trapz_uniform N h2 h64 0 hdt hf
  refine ⟨y, ?_, by rwa [zero_add] at y2⟩
  rw [C207_front B _ dt v (by simpa using h2) (by simpa using h64) (by simpa using hn), ← y1, trapzUniform_weights N h2 h64]
  unfold Spec.filtered
  rw [List.length_map, List.length_range]
  refine congrArg (fun x => Res.ok (dt * x)) (sum_congr rfl (fun i hi => ?_))
  have hi := mem_range.1 hi
  have h1 : i < ((List.range m).map fun j : Nat => x (t - ((m - 1 - j : Nat) : ℝ) * dt)).reverse.length := by simp; omega
  rw [ago_getD, List.reverse_append, List.getD_eq_getElem?_getD (l := _ ++ _), List.getElem?_append, if_pos h1, List.getElem?_eq_getElem h1,
    List.getElem_reverse, List.getElem_map, List.getElem_range, List.getD_eq_getElem?_getD, List.getElem?_map, List.getElem?_range hi]
  simp only [List.length_map, List.length_range, Option.map_some, Option.getD_some, zero_add, show m - 1 - (m - 1 - i) = i by omega]

/-- C207 is about something: a kernel of three elements, a buffer of four, five samples. In front the last three samples count, newest first; at
the back of this buffer, which is too long by one, the output is that of the sample before. -/
example : naiveConvolution ⟨true⟩ [(1 : ℚ), 2, 4] (([5, 6, 7, 8, 9] : List ℚ).foldl pushFront (filled 4 0)).elems 1 true = .ok (9 / 2 + 16 + 14) ∧
    naiveConvolution ⟨true⟩ [(1 : ℚ), 2, 4] (([5, 6, 7, 8, 9] : List ℚ).foldl pushBack (filled 4 0)).elems 1 false = .ok (8 / 2 + 14 + 12) := by
  decide +kernel

/-- C207 is about something: the hypotheses of the accuracy. -/
example : DerivBound 2 (fun s => (fun _ => (1 : ℝ)) s * (fun u : ℝ => u) (3 - s)) (Set.Icc 0 (0 + ((3 : ℕ) - 1 : ℝ) * 1)) 0 := by
  refine ⟨fun j s => if j = 0 then 3 - s else if j = 1 then -1 else 0, fun s _ => by simp, fun j hj s _ => ?_, fun s _ => by simp⟩
  obtain rfl | rfl : j = 0 ∨ j = 1 := by omega
  · simpa using ((hasDerivAt_id s).const_sub 3).hasDerivWithinAt
  · simpa using hasDerivWithinAt_const s _ (-1 : ℝ)

end MU
