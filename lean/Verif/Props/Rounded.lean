import Verif.Model.Rounded
import Verif.Lemmas.Rounding
import Verif.Lemmas.Vectors
import Verif.Lemmas.Polynomial
import Verif.Lemmas.Integration1d
import Verif.Lemmas.Interp1d

/-!
# Double arithmetic: C104-C107

`rnd` is any rounding to nearest (`Spec.ToNearest`, with any rule for ties); `uround` is `2^-53`.
-/

set_option linter.unusedSectionVars false

namespace MU

open Spec Finset

variable {rnd : ℝ → ℝ}

theorem gam_def (k : ℕ) : gam k = (1 + 1 / 2 ^ 53) ^ k - 1 := rfl

/-! ## C104 -/

theorem hornerLoopR_near (hr : ToNearest rnd) (cs : List ℝ) (x : ℝ) {n : Nat} (hn : n ≤ cs.length) {k : Nat} {Q P r : ℝ} (h : Near k Q P r) :
    ∃ v, hornerLoopR rnd cs x n r = .ok v ∧
      Near (k + 2 * n) (Q * |x| ^ n + ∑ i ∈ range n, |cs.getD i 0| * |x| ^ i) (P * x ^ n + ∑ i ∈ range n, cs.getD i 0 * x ^ i) v := by
  induction n generalizing k Q P r with
  | zero => exact ⟨r, rfl, by simpa using h⟩
  | succ n ih =>
    have h1 := (((h.mul (Near.exact x)).round hr).add ((Near.exact (cs.getD n 0)).upto (Nat.zero_le _))).round hr
    obtain ⟨v, hv, hN⟩ := ih (by omega) h1
    refine ⟨v, ?_, ?_⟩
    · rw [hornerLoopR, vAt_getD (by omega), Res.ok_bind, hv]
    · rw [sum_range_succ, sum_range_succ]
      convert hN using 1 <;> ring

/-- C104: `Horner` in double arithmetic. For a polynomial of degree `n` the result differs from the value by at most `(1+u)^(2n) - 1` times the sum of
the magnitudes of the terms. -/
theorem C104_horner (hr : ToNearest rnd) {cs : List ℝ} (h : cs ≠ []) (x : ℝ) :
    ∃ v, hornerR rnd cs x = .ok v ∧
      |v - ∑ i ∈ range cs.length, cs.getD i 0 * x ^ i|
        ≤ ((1 + 1 / 2 ^ 53) ^ (2 * (cs.length - 1)) - 1) * ∑ i ∈ range cs.length, |cs.getD i 0| * |x| ^ i := by
  obtain ⟨n, hn⟩ : ∃ n, cs.length = n + 1 := ⟨cs.length - 1, by have := List.length_pos_of_ne_nil h; omega⟩
  obtain ⟨v, hv, hN⟩ := hornerLoopR_near hr cs x (n := n) (by omega) (Near.exact (cs.getD n 0))
  refine ⟨v, ?_, ?_⟩
  · unfold hornerR vAtInt
    simp only []
    rw [if_neg (by omega), show ((cs.length : Int) - 1).toNat = n by omega, vAt_getD (by omega), Res.ok_bind,
      show cs.length - 1 = n by omega, hv]
  · have := hN.err
    rw [hn, sum_range_succ, sum_range_succ, Nat.add_sub_cancel]
    rw [Nat.zero_add, add_comm (_ * _), add_comm (_ * _)] at this
    exact this

theorem hornerDerivativeLoopR_near (hr : ToNearest rnd) (cs : List ℝ) (x : ℝ) {n : Nat} (hn : n < cs.length) {k : Nat} {Q P r : ℝ} (h : Near k Q P r) :
    ∃ v, hornerDerivativeLoopR rnd cs x n r = .ok v ∧
      Near (k + 2 * n) (Q * |x| ^ n + ∑ i ∈ range n, (i + 1) * |cs.getD (i + 1) 0| * |x| ^ i)
        (P * x ^ n + ∑ i ∈ range n, (i + 1) * cs.getD (i + 1) 0 * x ^ i) v := by
  induction n generalizing k Q P r with
  | zero => exact ⟨r, rfl, by simpa using h⟩
  | succ n ih =>
    have h0 : Near 1 ((n + 1) * |cs.getD (n + 1) 0|) ((n + 1) * cs.getD (n + 1) 0) (rnd (((n + 1 : Nat) : ℝ) * cs.getD (n + 1) 0)) := by
      have := (Near.exact (((n + 1 : Nat) : ℝ) * cs.getD (n + 1) 0)).round hr
      rw [abs_mul, abs_of_nonneg (Nat.cast_nonneg _)] at this
      push_cast at this ⊢
      exact this
    have h1 := (((h.mul (Near.exact x)).round hr).add (h0.upto (by omega))).round hr
    obtain ⟨v, hv, hN⟩ := ih (by omega) h1
    refine ⟨v, ?_, ?_⟩
    · rw [hornerDerivativeLoopR, vAt_getD (by omega), Res.ok_bind, hv]
    · rw [sum_range_succ, sum_range_succ]
      convert hN using 1 <;> ring

/-- C104: `Horner_derivative` in double arithmetic. -/
theorem C104_horner_derivative (hr : ToNearest rnd) {cs : List ℝ} (h : 2 ≤ cs.length) (x : ℝ) :
    ∃ v, hornerDerivativeR rnd cs x = .ok v ∧
      |v - ∑ i ∈ range (cs.length - 1), (i + 1) * cs.getD (i + 1) 0 * x ^ i|
        ≤ ((1 + 1 / 2 ^ 53) ^ (2 * (cs.length - 2) + 1) - 1) * ∑ i ∈ range (cs.length - 1), (i + 1) * |cs.getD (i + 1) 0| * |x| ^ i := by
  obtain ⟨n, hn⟩ : ∃ n, cs.length = n + 2 := ⟨cs.length - 2, by omega⟩
  have h0 : Near 1 ((n + 1) * |cs.getD (n + 1) 0|) ((n + 1) * cs.getD (n + 1) 0) (rnd (((n + 1 : Nat) : ℝ) * cs.getD (n + 1) 0)) := by
    have := (Near.exact (((n + 1 : Nat) : ℝ) * cs.getD (n + 1) 0)).round hr
    rw [abs_mul, abs_of_nonneg (Nat.cast_nonneg _)] at this
    push_cast at this ⊢
    exact this
  obtain ⟨v, hv, hN⟩ := hornerDerivativeLoopR_near hr cs x (n := n) (by omega) h0
  refine ⟨v, ?_, ?_⟩
  · unfold hornerDerivativeR vAtInt
    simp only []
    rw [if_neg (by omega), show ((cs.length : Int) - 1).toNat = n + 1 by omega, vAt_getD (by omega), Res.ok_bind,
      show cs.length - 1 = n + 1 by omega, show cs.length - 2 = n by omega, hv]
  · have := hN.err
    rw [show cs.length - 1 = n + 1 by omega, show cs.length - 2 = n by omega, sum_range_succ, sum_range_succ]
    rw [show 1 + 2 * n = 2 * n + 1 by omega, add_comm (_ * x ^ n), add_comm (_ * |x| ^ n)] at this
    exact this

/-- C104: the hypotheses are met: `1 - 3 x + 5 x^3` at `1/3`, and its derivative. -/
example : ∃ rnd, ToNearest rnd ∧ (∃ v, hornerR rnd [1, -3, 0, 5] (1 / 3) = .ok v ∧ |v - 5 / 27| < 1 / 2 ^ 48) ∧
    ∃ v, hornerDerivativeR rnd [1, -3, 0, 5] (1 / 3) = .ok v ∧ |v - -4 / 3| < 1 / 2 ^ 47 := by
  refine ⟨_, roundNearest_toNearest, ?_, ?_⟩
  · obtain ⟨v, hv, he⟩ := C104_horner roundNearest_toNearest (cs := [1, -3, 0, 5]) (by simp) (1 / 3)
    refine ⟨v, hv, ?_⟩
    simp [sum_range_succ] at he
    norm_num at he ⊢
    linarith
  · obtain ⟨v, hv, he⟩ := C104_horner_derivative roundNearest_toNearest (cs := [1, -3, 0, 5]) (by simp) (1 / 3)
    refine ⟨v, hv, ?_⟩
    simp [sum_range_succ] at he
    norm_num at he ⊢
    linarith

/-! ## C105 -/

theorem linspaceR_ok (B : Build) {start stop : ℝ} {num : Nat} (hn : 2 ≤ num) (hn2 : num < 2 ^ 32) (hle : start ≤ stop) :
    linspaceR rnd B start stop num = .ok ((List.range num).map (fun i : Nat =>
      if i = num - 1 then stop else rnd (start + rnd ((i : ℝ) * rnd (rnd (stop - start) / ((num - 1 : Nat) : ℝ)))))) := by
  unfold linspaceR
  rw [cassert_true B _ (by omega), Res.ok_bind, cassert_true B _ hle, Res.ok_bind]
  simp only [usub_of_le (show 1 ≤ num by omega) hn2]
  rw [fill_loop (show num - 1 ≤ num by omega) (0 : ℝ) (fun i : Nat => rnd (start + rnd ((i : ℝ) * rnd (rnd (stop - start) / ((num - 1 : Nat) : ℝ)))))
    (fun i _ out _ => rfl), Res.ok_bind]
  unfold vSet
  rw [if_pos (by simp; omega)]
  congr 1
  apply List.ext_getElem?
  intro j
  rw [List.getElem?_set]
  by_cases hj : num - 1 = j
  · subst hj
    rw [if_pos rfl, if_pos (by simp; omega)]
    have : num - 1 < num := by omega
    simp [this]
  · rw [if_neg hj]
    by_cases hjn : j < num
    · have h1 : j < num - 1 := by omega
      have h2 : j ≠ num - 1 := by omega
      simp [hjn, h1, h2]
    · simp [hjn]

/-- C105: `linspace` in double arithmetic: as many values as asked, the first is `start` and the last `stop` exactly, they never decrease, so that
none leaves the interval, and each is within `5u (|start| + (stop - start))` of its place. -/
theorem C105_linspace (hr : ToNearest rnd) (B : Build) {start stop : ℝ} (ha : Double start) (hb : Double stop) {num : Nat} (hn : 2 ≤ num)
    (hn2 : num < 2 ^ 32) (hle : start ≤ stop) :
    ∃ l, linspaceR rnd B start stop num = .ok l ∧ l.length = num ∧ l.head? = some start ∧ l.getLast? = some stop ∧ l.Pairwise (· ≤ ·) ∧
      (∀ v ∈ l, start ≤ v ∧ v ≤ stop) ∧
      ∀ (i : Nat) (v : ℝ), l[i]? = some v → |v - (start + i * (stop - start) / (num - 1))| ≤ 5 / 2 ^ 53 * (|start| + (stop - start)) := by
  obtain ⟨n, rfl⟩ : ∃ n, num = n + 2 := ⟨num - 2, by omega⟩
  have hD : 0 ≤ stop - start := by linarith
  let step := rnd (rnd (stop - start) / ((n + 2 - 1 : Nat) : ℝ))
  let f : Nat → ℝ := fun i => if i = n + 2 - 1 then stop else rnd (start + rnd ((i : ℝ) * step))
  have hl : linspaceR rnd B start stop (n + 2) = .ok ((List.range (n + 2)).map f) := linspaceR_ok B hn hn2 hle
  have hcast : ((n + 2 - 1 : Nat) : ℝ) = (n : ℝ) + 1 := by rw [show n + 2 - 1 = n + 1 by omega]; push_cast; ring
  have hn0 : (0 : ℝ) ≤ n := Nat.cast_nonneg n
  have hz : rnd 0 = 0 := toNearest_double hr double_zero
  -- the step and its multiples
  have hstep : Near 2 ((stop - start) * (n + 1 : ℝ)⁻¹) ((stop - start) * (n + 1 : ℝ)⁻¹) step := by
    have h := (((Near.exact (stop - start)).round hr).mul (Near.exact ((n : ℝ) + 1)⁻¹)).round hr
    rw [abs_of_nonneg hD, abs_of_nonneg (by positivity)] at h
    have e : step = rnd (rnd (stop - start) * ((n : ℝ) + 1)⁻¹) := by simp only [step, hcast, div_eq_mul_inv]
    rw [e]
    exact h
  have hmul : ∀ i : Nat, Near 3 (i * ((stop - start) * (n + 1 : ℝ)⁻¹)) (i * ((stop - start) * (n + 1 : ℝ)⁻¹)) (rnd ((i : ℝ) * step)) := by
    intro i
    have h := ((Near.exact (i : ℝ)).mul hstep).round hr
    rw [abs_of_nonneg (Nat.cast_nonneg i)] at h
    exact h
  have hstep0 : 0 ≤ step := by
    have h1 : 0 ≤ rnd (stop - start) := toNearest_ge hr double_zero hD
    exact toNearest_ge hr double_zero (by positivity)
  have hmono : ∀ i j : Nat, i ≤ j → rnd (start + rnd ((i : ℝ) * step)) ≤ rnd (start + rnd ((j : ℝ) * step)) := by
    intro i j hij
    have h1 : (i : ℝ) ≤ j := by exact_mod_cast hij
    have h2 := toNearest_mono hr (mul_le_mul_of_nonneg_right h1 hstep0)
    exact toNearest_mono hr (by linarith)
  have hfirst : rnd (start + rnd (((0 : Nat) : ℝ) * step)) = start := by
    rw [Nat.cast_zero, zero_mul, hz, add_zero]
    exact toNearest_double hr ha
  have hlast : ∀ i : Nat, i ≤ n → rnd (start + rnd ((i : ℝ) * step)) ≤ stop := by
    intro i hi
    refine toNearest_le hr hb ?_
    have h1 := (le_abs_self _).trans (hmul i).abs_le
    have h2 : (i : ℝ) ≤ n := by exact_mod_cast hi
    have h3 : 1 + gam 3 ≤ 1 + 4 / 2 ^ 53 := by
      have := gam_le (k := 3) (by norm_num)
      unfold uround at this
      norm_num at this ⊢
      linarith
    have h4 : (n : ℝ) + 1 ≤ 2 ^ 32 := by
      have : n + 1 ≤ 2 ^ 32 := by omega
      exact_mod_cast this
    have h5 : (1 + gam 3) * (i * ((stop - start) * ((n : ℝ) + 1)⁻¹)) ≤ stop - start := by
      have h6 : (1 + gam 3) * i ≤ n + 1 := by
        calc (1 + gam 3) * i ≤ (1 + 4 / 2 ^ 53) * n := mul_le_mul h3 h2 (Nat.cast_nonneg i) (by norm_num)
          _ ≤ n + 1 := by linarith
      calc (1 + gam 3) * (i * ((stop - start) * ((n : ℝ) + 1)⁻¹)) = ((1 + gam 3) * i) * ((stop - start) * ((n : ℝ) + 1)⁻¹) := by ring
        _ ≤ (n + 1) * ((stop - start) * ((n : ℝ) + 1)⁻¹) := mul_le_mul_of_nonneg_right h6 (by positivity)
        _ = stop - start := by field_simp
    linarith
  have hf0 : f 0 = start := by
    simp only [f]
    rw [if_neg (by omega), hfirst]
  have hfn : f (n + 1) = stop := by
    simp only [f]
    rw [if_pos (by omega)]
  have hfmono : ∀ i j : Nat, i ≤ j → j < n + 2 → f i ≤ f j := by
    intro i j hij hj
    simp only [f]
    by_cases hj' : j = n + 2 - 1
    · rw [if_pos hj']
      split
      · exact le_rfl
      · exact hlast i (by omega)
    · rw [if_neg hj', if_neg (by omega)]
      exact hmono i j hij
  refine ⟨_, hl, by simp, ?_, ?_, ?_, ?_, ?_⟩
  · rw [List.head?_map, List.head?_range, if_neg (by omega), Option.map_some, hf0]
  · rw [List.getLast?_map, List.getLast?_range, if_neg (by omega), Option.map_some, show n + 2 - 1 = n + 1 by omega, hfn]
  · rw [List.pairwise_iff_getElem]
    intro i j hi hj hij
    simp only [List.length_map, List.length_range] at hi hj
    rw [List.getElem_map, List.getElem_map, List.getElem_range, List.getElem_range]
    exact hfmono i j hij.le hj
  · intro v hv
    obtain ⟨i, hi, rfl⟩ := List.mem_map.1 hv
    have hi := List.mem_range.1 hi
    exact ⟨hf0 ▸ hfmono 0 i (Nat.zero_le _) hi, hfn ▸ hfmono i (n + 1) (by omega) (by omega)⟩
  · intro i v hv
    have hi : i < n + 2 := by
      by_contra hc
      rw [List.getElem?_eq_none (by simp; omega)] at hv
      exact absurd hv (by simp)
    rw [List.getElem?_map, List.getElem?_range hi, Option.map_some, Option.some_inj] at hv
    rw [← hv]
    have e : ((n + 2 : Nat) : ℝ) - 1 = n + 1 := by push_cast; ring
    rw [e]
    simp only [f]
    by_cases hi' : i = n + 2 - 1
    · rw [if_pos hi', hi', hcast]
      rw [show start + (n + 1) * (stop - start) / (n + 1) = stop by field_simp; ring, sub_self, abs_zero]
      positivity
    · rw [if_neg hi']
      have h := (((Near.exact start).upto (Nat.zero_le 3)).add (hmul i)).round hr
      have h1 := h.err
      rw [show start + i * (stop - start) / (n + 1) = start + i * ((stop - start) * ((n : ℝ) + 1)⁻¹) by rw [mul_div_assoc, div_eq_mul_inv]]
      refine h1.trans (mul_le_mul ?_ ?_ h.nonneg (by norm_num))
      · have := gam_le (k := 4) (by norm_num)
        unfold uround at this
        norm_num at this ⊢
        linarith
      · have h2 : (i : ℝ) * ((stop - start) * ((n : ℝ) + 1)⁻¹) ≤ (n + 1) * ((stop - start) * ((n : ℝ) + 1)⁻¹) := by
          refine mul_le_mul_of_nonneg_right ?_ (by positivity)
          have : i ≤ n + 1 := by omega
          exact_mod_cast this
        rw [show ((n : ℝ) + 1) * ((stop - start) * ((n : ℝ) + 1)⁻¹) = stop - start by field_simp] at h2
        linarith

/-- C105: the hypotheses are met. -/
example : ∃ rnd, ToNearest rnd ∧ ∃ l, linspaceR rnd ⟨true⟩ (-1) 2 11 = .ok l ∧ l.length = 11 ∧ l.head? = some (-1) ∧ l.getLast? = some 2 := by
  refine ⟨_, roundNearest_toNearest, ?_⟩
  obtain ⟨l, h1, h2, h3, h4, _⟩ := C105_linspace roundNearest_toNearest ⟨true⟩ (start := -1) (stop := 2) ⟨-1, 0, by norm_num, by norm_num⟩
    ⟨2, 0, by norm_num, by norm_num⟩ (num := 11) (by norm_num) (by norm_num) (by norm_num)
  exact ⟨l, h1, h2, h3, h4⟩

/-! ## C106 -/

theorem sumR_near (hr : ToNearest rnd) {hi : Nat} (hle : 1 ≤ hi) (k : Nat) (g w q : Nat → ℝ) (hg : ∀ i, 1 ≤ i → i < hi → Near k (q i) (w i) (g i))
    (S : Nat → ℝ) (h1 : S 1 = 0) (hS : ∀ i, 1 ≤ i → i < hi → S (i + 1) = rnd (S i + g i)) :
    Near (k + (hi - 1)) (∑ i ∈ Ico 1 hi, q i) (∑ i ∈ Ico 1 hi, w i) (S hi) := by
  induction hi, hle using Nat.le_induction with
  | base => rw [h1]; exact ⟨by simp, by simp⟩
  | succ n hn ih =>
    have h := ih (fun i a b => hg i a (by omega)) (fun i a b => hS i a (by omega))
    have h2 := (h.add ((hg n hn (by omega)).upto (l := k + (n - 1)) (by omega))).round hr
    rw [sum_Ico_succ_top hn, sum_Ico_succ_top hn, hS n hn (by omega)]
    exact h2.upto (by omega)

theorem abs_half : |(1 / 2 : ℝ)| = 1 / 2 := abs_of_nonneg (by norm_num)

/-- C106: `Trapz(y, dx)` in double arithmetic, of `N` samples: the error is at most `(1+u)^(N+2) - 1` times the trapezoidal sum of the magnitudes. -/
theorem C106_uniform (hr : ToNearest rnd) {y : List ℝ} (h2 : 2 ≤ y.length) (h64 : y.length < 2 ^ 64) (dx : ℝ) :
    ∃ v w, trapzUniformR rnd y dx = .ok v ∧ trapzUniform y dx = .ok w ∧
      |v - w| ≤ ((1 + 1 / 2 ^ 53) ^ (y.length + 2) - 1) * panels (y.length - 1) (fun i => i * |dx|) (fun i => |y.getD i 0|) := by
  obtain ⟨n, hn⟩ : ∃ n, y.length = n + 2 := ⟨y.length - 2, by omega⟩
  let S : Nat → ℝ := fun k => Nat.rec (motive := fun _ => ℝ) 0 (fun j s => rnd (s + y.getD (j + 1) 0)) (k - 1)
  have hS : ∀ i, 1 ≤ i → i < n + 1 → S (i + 1) = rnd (S i + y.getD i 0) := by
    intro i h1 _
    obtain ⟨j, rfl⟩ : ∃ j, i = j + 1 := ⟨i - 1, by omega⟩
    rfl
  have hloop : forRange 1 (n + 1) (fun i sum => do
      let yi ← vIdx y i
      return rnd (sum + yi)) 0 = .ok (S (n + 1)) :=
    forRange_ok (lo := 1) (hi := n + 1) (by omega) S (by
      intro i h1 h2
      rw [vIdx_getD (by omega), hS i h1 h2]
      rfl)
  have hsum := sumR_near hr (hi := n + 1) (by omega) 0 (fun i => y.getD i 0) (fun i => y.getD i 0) (fun i => |y.getD i 0|)
    (fun i _ _ => Near.exact _) S rfl hS
  have hends := (((Near.exact (1 / 2 : ℝ)).mul (((Near.exact (y.getD 0 0)).add (Near.exact (y.getD (n + 1) 0))).round hr)).round hr)
  have htot := ((Near.exact dx).mul (((hsum.upto (show _ ≤ n + 2 by omega)).add (hends.upto (show _ ≤ n + 2 by omega))).round hr)).round hr
  have hval : trapzUniformR rnd y dx = .ok (rnd (dx * rnd (S (n + 1) + rnd (1 / 2 * rnd (y.getD 0 0 + y.getD (n + 1) 0))))) := by
    unfold trapzUniformR
    simp only [usub_of_le (w := 64) (show 1 ≤ y.length by omega) h64]
    simp only [hn, show n + 2 - 1 = n + 1 by omega]
    rw [hloop, Res.ok_bind, vIdx_getD (by omega), Res.ok_bind, vIdx_getD (by omega), Res.ok_bind, Res.pure_eq]
  refine ⟨_, _, hval, trapzUniform_ok h2 h64 dx, ?_⟩
  · rw [hn, show n + 2 - 1 = n + 1 by omega, panels_uniform n _ _ dx (fun i _ => by push_cast; ring),
      panels_uniform n _ _ |dx| (fun i _ => by push_cast; ring)]
    have := htot.err
    rw [abs_half] at this
    rw [show 0 + (n + 2 + 1) + 1 = n + 2 + 2 by omega, gam_def] at this
    exact this

/-- C106: `Trapz(x, y)` in double arithmetic, of `N` samples: the error is at most `(1+u)^(N+5) - 1` times the trapezoidal sum of the magnitudes. -/
theorem C106_general (hr : ToNearest rnd) (B : Build) {x y : List ℝ} (h2 : 2 ≤ y.length) (h64 : y.length < 2 ^ 64) (hl : x.length = y.length) :
    ∃ v w, trapzR rnd B x y = .ok v ∧ trapz B x y = .ok w ∧
      |v - w| ≤ ((1 + 1 / 2 ^ 53) ^ (y.length + 5) - 1)
        * ∑ i ∈ range (y.length - 1), |x.getD (i + 1) 0 - x.getD i 0| * (|y.getD i 0| + |y.getD (i + 1) 0|) / 2 := by
  obtain ⟨n, hn⟩ : ∃ n, y.length = n + 2 := ⟨y.length - 2, by omega⟩
  let d : Nat → ℝ := fun i => rnd (x.getD (i + 1) 0 - x.getD i 0)
  let D : Nat → ℝ := fun i => |x.getD (i + 1) 0 - x.getD i 0|
  have hd : ∀ i, Near 1 (D i) (x.getD (i + 1) 0 - x.getD i 0) (d i) := fun i => (Near.exact _).round hr
  let g : Nat → ℝ := fun i => rnd (y.getD i 0 * rnd (d (i - 1) + d i))
  let S : Nat → ℝ := fun k => Nat.rec (motive := fun _ => ℝ) 0 (fun j s => rnd (s + g (j + 1))) (k - 1)
  have hS : ∀ i, 1 ≤ i → i < n + 1 → S (i + 1) = rnd (S i + g i) := by
    intro i h1 _
    obtain ⟨j, rfl⟩ : ∃ j, i = j + 1 := ⟨i - 1, by omega⟩
    rfl
  have hb := forRange_ok (lo := 1) (hi := n + 1) (by omega) (f := fun i (s : ℝ × ℝ) => do
    let dxi := s.2
    let a ← vIdx x (i + 1)
    let b ← vIdx x i
    let dxii := rnd (a - b)
    let yi ← vIdx y i
    return (rnd (s.1 + rnd (yi * rnd (dxi + dxii))), dxii))
    (fun k => (S k, d (k - 1)))
    (by
      intro i h1 h2
      simp only [vIdx_getD (show i + 1 < x.length by omega), vIdx_getD (show i < x.length by omega), vIdx_getD (show i < y.length by omega),
        Res.ok_bind, Res.pure_eq, hS i h1 h2]
      rfl)
  have hval : trapzR rnd B x y = .ok (rnd (1 / 2 * rnd (rnd (S (n + 1) + rnd (y.getD 0 0 * d 0)) + rnd (y.getD (n + 1) 0 * d n)))) := by
    unfold trapzR
    simp only [usub_of_le (w := 64) (show 1 ≤ y.length by omega) h64, usub_of_le (w := 64) (show 2 ≤ y.length by omega) h64]
    rw [cassert_true B _ (by omega), Res.ok_bind, cassert_true B _ hl, Res.ok_bind]
    simp only [hn, show n + 2 - 1 = n + 1 by omega, show n + 2 - 2 = n by omega]
    rw [vIdx_getD (by omega), Res.ok_bind, vIdx_getD (by omega), Res.ok_bind, vIdx_getD (by omega), Res.ok_bind, vIdx_getD (by omega),
      Res.ok_bind]
    have hb' : forRange 1 (n + 1) (fun i (s : ℝ × ℝ) => do
      let dxi := s.2
      let a ← vIdx x (i + 1)
      let b ← vIdx x i
      let dxii := rnd (a - b)
      let yi ← vIdx y i
      return (rnd (s.1 + rnd (yi * rnd (dxi + dxii))), dxii)) (0, rnd (x.getD 1 0 - x.getD 0 0)) = .ok (S (n + 1), d n) := hb
    rw [hb', Res.ok_bind, vIdx_getD (by omega), Res.ok_bind, vIdx_getD (by omega), Res.ok_bind, Res.pure_eq]
  have hg : ∀ i, 1 ≤ i → i < n + 1 → Near 3 (|y.getD i 0| * (D (i - 1) + D i))
      (y.getD i 0 * ((x.getD i 0 - x.getD (i - 1) 0) + (x.getD (i + 1) 0 - x.getD i 0))) (g i) := by
    intro i h1 _
    have h := ((Near.exact (y.getD i 0)).mul (((hd (i - 1)).add (hd i)).round hr)).round hr
    rw [show i - 1 + 1 = i by omega] at h
    exact h.upto (by omega)
  have hsum := sumR_near hr (hi := n + 1) (by omega) 3 g _ _ hg S rfl hS
  have h0 := ((Near.exact (y.getD 0 0)).mul (hd 0)).round hr
  have h1 := ((Near.exact (y.getD (n + 1) 0)).mul (hd n)).round hr
  have htot := ((Near.exact (1 / 2 : ℝ)).mul ((((hsum.upto (show _ ≤ n + 3 by omega)).add (h0.upto (show _ ≤ n + 3 by omega))).round hr).add
    (h1.upto (show _ ≤ n + 3 + 1 by omega)) |>.round hr)).round hr
  refine ⟨_, _, hval, trapz_ok B h2 h64 hl, ?_⟩
  have hQ : ∑ i ∈ range (n + 1), D i * (|y.getD i 0| + |y.getD (i + 1) 0|) / 2
      = panels (n + 1) (fun k => ∑ j ∈ range k, D j) (fun i => |y.getD i 0|) := by
    unfold panels
    refine sum_congr rfl fun i _ => ?_
    simp only []
    rw [sum_range_succ, add_sub_cancel_left]
  rw [hn, show n + 2 - 1 = n + 1 by omega]
  show _ ≤ _ * ∑ i ∈ range (n + 1), D i * (|y.getD i 0| + |y.getD (i + 1) 0|) / 2
  rw [hQ, panels_general, panels_general]
  have hnn := htot.nonneg
  have := htot.err
  rw [abs_half] at this hnn
  refine this.trans ?_
  rw [← gam_def]
  refine mul_le_mul (gam_mono (by omega)) (le_of_eq ?_) hnn (gam_nonneg _)
  congr 1
  congr 1
  · congr 1
    · refine sum_congr rfl fun i hi => ?_
      obtain ⟨j, rfl⟩ : ∃ j, i = j + 1 := ⟨i - 1, by have := (mem_Ico.1 hi).1; omega⟩
      simp only [show j + 1 - 1 = j by omega]
      rw [sum_range_succ (fun j => D j) (j + 1), sum_range_succ (fun j => D j) j]
      ring
    · simp
  · rw [sum_range_succ]
    ring

/-- C106: the hypotheses are met. -/
example : ∃ rnd, ToNearest rnd ∧ (∃ v w, trapzUniformR rnd [1, 2, 4] (1 / 2) = .ok v ∧ trapzUniform ([1, 2, 4] : List ℝ) (1 / 2) = .ok w ∧
    |v - w| ≤ 1 / 2 ^ 49) ∧ ∃ v w, trapzR rnd ⟨true⟩ [0, 1, 3] [1, 2, 4] = .ok v ∧ trapz ⟨true⟩ ([0, 1, 3] : List ℝ) [1, 2, 4] = .ok w ∧
    |v - w| ≤ 1 / 2 ^ 45 := by
  refine ⟨_, roundNearest_toNearest, ?_, ?_⟩
  · obtain ⟨v, w, h1, h2, h3⟩ := C106_uniform roundNearest_toNearest (y := [1, 2, 4]) (by simp) (by simp) (1 / 2)
    refine ⟨v, w, h1, h2, h3.trans ?_⟩
    simp [panels, sum_range_succ]
    norm_num [abs_of_pos]
  · obtain ⟨v, w, h1, h2, h3⟩ := C106_general roundNearest_toNearest ⟨true⟩ (x := [0, 1, 3]) (y := [1, 2, 4]) (by simp) (by simp) rfl
    refine ⟨v, w, h1, h2, h3.trans ?_⟩
    simp [sum_range_succ]
    norm_num [abs_of_pos]

/-! ## C107 -/

namespace Interp1d

/-- Slope of segment `i`, as computed. -/
noncomputable def slopeR (rnd : ℝ → ℝ) (xs ys : List ℝ) (i : Nat) : ℝ :=
  rnd (rnd (ys.getD (i + 1) 0 - ys.getD i 0) / rnd (xs.getD (i + 1) 0 - xs.getD i 0))

/-- Intercept of segment `i`, as computed. -/
noncomputable def iceptR (rnd : ℝ → ℝ) (xs ys : List ℝ) (i : Nat) : ℝ :=
  rnd (rnd (rnd (ys.getD i 0 * xs.getD (i + 1) 0) - rnd (xs.getD i 0 * ys.getD (i + 1) 0)) / rnd (xs.getD (i + 1) 0 - xs.getD i 0))

/-- The object left by `Initialize`. -/
noncomputable def builtR (rnd : ℝ → ℝ) (xs ys : List ℝ) (h : 0 < xs.length) (n : Nat) : Interp1d ℝ ℝ :=
  { xcoord := some xs, yval := some ys, ndata := xs.length, xmin := some xs[0],
    xmax := some (xs[xs.length - 1]'(by omega)),
    a := (List.range n).map (slopeR rnd xs ys), b := (List.range n).map (iceptR rnd xs ys) }

theorem run_initializeStepR (hr : ToNearest rnd) {xs ys : List ℝ} (h : 0 < xs.length) (hs : xs.length = ys.length)
    (hx : xs.Pairwise (· < ·)) (i : Nat) (hi : 1 ≤ i) (hi2 : i < xs.length) :
    (initializeStepR rnd i).run (builtR rnd xs ys h (i - 1)) = (.ok (), builtR rnd xs ys h i) := by
  obtain ⟨i, rfl⟩ : ∃ k, i = k + 1 := ⟨i - 1, by omega⟩
  have hd : rnd (xs[i + 1] - xs[i]) ≠ 0 := by
    have := getElem_lt_of_pairwise hx (Nat.lt_succ_self i) hi2
    exact toNearest_ne_zero hr (sub_ne_zero.mpr (ne_of_gt this))
  simp only [initializeStepR, Act.run_bind, Act.run_get, Act.run_lift, builtR, deref_some, Nat.add_sub_cancel,
    vAt_lt hi2, vAt_lt (show i < xs.length by omega), vAt_lt (show i < ys.length by omega),
    vAt_lt (show i + 1 < ys.length by omega), fdiv_ok hd, Act.run_update]
  congr 1
  have e1 : i + 1 < ys.length := by omega
  have e2 : i < ys.length := by omega
  have e3 : i < xs.length := by omega
  simp [List.range_succ, slopeR, iceptR, List.getD_eq_getElem?_getD, hi2, e1, e2, e3]

theorem run_initR (hr : ToNearest rnd) (B : Build) {xs ys : List ℝ} (h : 0 < xs.length) (hs : xs.length = ys.length)
    (hx : xs.Pairwise (· < ·)) :
    (initR rnd B (some xs) (some ys)).run (fresh ℝ ℝ) = (.ok (), builtR rnd xs ys h (xs.length - 1)) := by
  rw [initR, Act.run_bind_ok (run_initializeBase B h hs (pairwise_lt_le hx) (fresh ℝ ℝ)), Act.run_bind_ok (Act.run_get _)]
  have e : built (fresh ℝ ℝ) xs ys h 0 = builtR rnd xs ys h (1 - 1) := by simp [built, builtR, fresh]
  rw [e]
  exact Act.loop_ok (lo := 1) (hi := xs.length) (by omega) (fun i => builtR rnd xs ys h (i - 1))
    (fun i h1 h2 => by simpa using run_initializeStepR hr h hs hx i h1 h2)

theorem privEvalBaseR_built {xs ys : List ℝ} (h : 0 < xs.length)
    (x : ℝ) (k : Nat) (hk : lowerBound xs x = .ok k) (h2 : k < xs.length) (h3 : 1 < xs.length) :
    privEvalBaseR rnd (builtR rnd xs ys h (xs.length - 1)) x =
      .ok (rnd (rnd (slopeR rnd xs ys (k - 1) * x) + iceptR rnd xs ys (k - 1))) := by
  simp only [privEvalBaseR, builtR, deref_some, Res.ok_bind, hk]
  have e : (if k = 0 then 1 else k) - 1 = k - 1 := by split <;> omega
  rw [e, vAt_lt (by simp; omega), vAt_lt (by simp; omega)]
  simp

theorem evalR_range (kind : Interp1dKind) {xs ys : List ℝ} (h : 0 < xs.length) (n : Nat) {x : ℝ}
    (h0 : xs[0] ≤ x) (h1 : x ≤ xs[xs.length - 1]) :
    evalR rnd kind (builtR rnd xs ys h n) x = privEvalBaseR rnd (builtR rnd xs ys h n) x := by
  cases kind <;>
    simp [evalR, builtR, not_lt.mpr h0, not_lt.mpr h1]

/-- What is computed at a point of the cell `i`, other than its left end unless it is the first of all. -/
theorem interp1dR_eq (hr : ToNearest rnd) (B : Build) {m : InterpMethod} (hm : m ≠ .BSPLINE) {xs ys : List ℝ} (ht : Table xs ys)
    {i : Nat} (hi : i + 1 < xs.length) {x : ℝ} (h0 : xs[i] < x ∨ i = 0 ∧ xs[i] = x) (h1 : x ≤ xs[i + 1]) :
    interp1dR rnd B m xs ys x = .ok (rnd (rnd (slopeR rnd xs ys i * x) + iceptR rnd xs ys i)) := by
  obtain ⟨kind, hk⟩ := make_ok hm
  have h0' : xs[i] ≤ x := by rcases h0 with h | ⟨_, h⟩ <;> linarith
  have hrange := range_of_cell ht.increasing hi h0' h1
  have hpos : 0 < xs.length := by omega
  simp only [interp1dR, hk, Res.ok_bind, run_initR hr B hpos ht.sizes ht.increasing]
  rw [evalR_range kind hpos _ hrange.1 hrange.2]
  obtain ⟨k, hkk, hcase⟩ := lowerBound_cell ht.increasing hi h0' h1
  rw [privEvalBaseR_built hpos x k hkk (by omega) (by omega)]
  rcases hcase with rfl | ⟨rfl, hxi⟩
  · rw [Nat.add_sub_cancel]
  · rcases h0 with h | ⟨h, _⟩
    · linarith
    · rw [h]

end Interp1d

open Interp1d in
/-- C107 (in part: up to an error): linear interpolation in double arithmetic. In the cell `[x0, x1]` with the ordinates `y0, y1` the result differs from
the straight line by at most `7u ((|y0| + |y1|) |x| + |y0 x1| + |x0 y1|) / (x1 - x0)`. Missing: a result between the ordinates, and the ordinates at
the nodes, see `C107_refuted`. -/
theorem C107_error_partial (hr : ToNearest rnd) (B : Build) {m : InterpMethod} (hm : m ≠ .BSPLINE) {xs ys : List ℝ} (ht : Table xs ys)
    {i : Nat} (hi : i + 1 < xs.length) (hi' : i + 1 < ys.length) {x : ℝ} (h0 : xs[i] < x ∨ i = 0 ∧ xs[i] = x) (h1 : x ≤ xs[i + 1]) :
    ∃ v, interp1dR rnd B m xs ys x = .ok v ∧
      |v - line xs[i] ys[i] xs[i + 1] ys[i + 1] x|
        ≤ 7 / 2 ^ 53 * (((|ys[i]| + |ys[i + 1]|) * |x| + |ys[i] * xs[i + 1]| + |xs[i] * ys[i + 1]|) / (xs[i + 1] - xs[i])) := by
  have hd : 0 < xs[i + 1] - xs[i] := sub_pos.2 (getElem_lt_of_pairwise ht.increasing (Nat.lt_succ_self i) hi)
  refine ⟨_, interp1dR_eq hr B hm ht hi h0 h1, ?_⟩
  rw [← line_eq hi ht.sizes hd.ne']
  have e1 : xs.getD (i + 1) 0 = xs[i + 1] := by simp [List.getD_eq_getElem?_getD, hi]
  have e2 : xs.getD i 0 = xs[i] := by simp [List.getD_eq_getElem?_getD, show i < xs.length by omega]
  have e3 : ys.getD (i + 1) 0 = ys[i + 1] := by simp [List.getD_eq_getElem?_getD, hi']
  have e4 : ys.getD i 0 = ys[i] := by simp [List.getD_eq_getElem?_getD, show i < ys.length by omega]
  simp only [slopeR, iceptR, Interp1d.slope, Interp1d.icept, e1, e2, e3, e4, smul_eq_mul]
  generalize xs[i + 1] = x1 at *
  generalize xs[i] = x0 at *
  generalize ys[i + 1] = y1 at *
  generalize ys[i] = y0 at *
  have hinv := Near.inv_round hr (d := x1 - x0)
  have ha := ((((((Near.exact y1).sub (Near.exact y0)).round hr).mul hinv).round hr).mul (Near.exact x)).round hr
  have hb := ((((((Near.exact y0).mul (Near.exact x1)).round hr).sub (((Near.exact x0).mul (Near.exact y1)).round hr)).round hr).mul hinv).round hr
  have htot := (ha.add hb).round hr
  have h := htot.err
  have hq : |(x1 - x0)⁻¹| = (x1 - x0)⁻¹ := abs_of_pos (inv_pos.2 hd)
  rw [hq] at h
  have hg : gam 6 ≤ 7 / 2 ^ 53 := by
    have := gam_le (k := 6) (by norm_num)
    unfold uround at this
    norm_num at this ⊢
    linarith
  have e5 : x * ((x1 - x0)⁻¹ * (y1 - y0)) + (x1 - x0)⁻¹ * (x1 * y0 - x0 * y1)
      = (y1 - y0) * (x1 - x0)⁻¹ * x + (y0 * x1 - x0 * y1) * (x1 - x0)⁻¹ := by ring
  rw [e5, div_eq_mul_inv, div_eq_mul_inv]
  refine h.trans (mul_le_mul hg (le_of_eq ?_) ?_ (by norm_num))
  · rw [abs_mul, abs_mul]
    ring
  · have := htot.nonneg
    rwa [hq] at this

open Interp1d in
/-- C107 is false: a table of constants, `0.2` at `2^52` and at `2^52 + 1`, is interpolated by `0.25` at every point of its range. -/
theorem C107_refuted (hr : ToNearest rnd) (B : Build) {m : InterpMethod} (hm : m ≠ .BSPLINE) {x : ℝ} (h0 : 2 ^ 52 ≤ x) (h1 : x ≤ 2 ^ 52 + 1) :
    let c : ℝ := 7205759403792794 * (2 : ℝ) ^ (-55 : ℤ)
    |c - 1 / 5| < 1 / 2 ^ 55 ∧ Double c ∧ Double (2 ^ 52) ∧ Double (2 ^ 52 + 1) ∧
      interp1dR rnd B m [2 ^ 52, 2 ^ 52 + 1] [c, c] x = .ok (1 / 4) := by
  intro c
  have dc : Double c := ⟨7205759403792794, -55, by norm_num, by simp only [c]; norm_num⟩
  have d0 : Double (2 ^ 52) := ⟨2 ^ 52, 0, by norm_num, by norm_num⟩
  have d1 : Double (2 ^ 52 + 1) := ⟨2 ^ 52 + 1, 0, by norm_num, by norm_num⟩
  refine ⟨by simp only [c]; norm_num [abs_lt], dc, d0, d1, ?_⟩
  have ht : Table [(2 : ℝ) ^ 52, 2 ^ 52 + 1] [c, c] := ⟨by simp, by simp, rfl⟩
  rw [interp1dR_eq hr B hm ht (i := 0) (by simp) (by
    rcases eq_or_lt_of_le h0 with h | h
    · exact Or.inr ⟨rfl, h⟩
    · exact Or.inl h) (by simpa using h1)]
  have r0 : rnd 0 = 0 := toNearest_double hr double_zero
  have r1 : rnd 1 = 1 := toNearest_double hr ⟨1, 0, by norm_num, by norm_num⟩
  have hlo : rnd (c * 2 ^ 52) = 7205759403792794 * (2 : ℝ) ^ (-3 : ℤ) :=
    by
      rw [toNearest_double hr ⟨7205759403792794, -3, by norm_num, by simp only [c]; norm_num⟩]
      simp only [c]
      norm_num
  have hhi : rnd (c * (2 ^ 52 + 1)) = ((7205759403792796 : ℤ) : ℝ) * (2 : ℝ) ^ (-3 : ℤ) :=
    toNearest_eq hr 7205759403792796 (-3) (by norm_num) (by norm_num) (by simp only [c]; norm_num [abs_lt])
  have hq : rnd (1 / 4) = 1 / 4 := toNearest_double hr ⟨1, -2, by norm_num, by norm_num⟩
  have es : slopeR rnd [(2 : ℝ) ^ 52, 2 ^ 52 + 1] [c, c] 0 = 0 := by
    simp only [slopeR, List.getD_cons_succ, List.getD_cons_zero, sub_self, r0, zero_div]
  have ei : iceptR rnd [(2 : ℝ) ^ 52, 2 ^ 52 + 1] [c, c] 0 = 1 / 4 := by
    simp only [iceptR, List.getD_cons_succ, List.getD_cons_zero]
    rw [hhi, mul_comm _ c, hlo, add_sub_cancel_left, r1, div_one]
    have : ((7205759403792796 : ℤ) : ℝ) * (2 : ℝ) ^ (-3 : ℤ) - 7205759403792794 * (2 : ℝ) ^ (-3 : ℤ) = 1 / 4 := by norm_num
    rw [this, hq, hq]
  rw [es, ei, zero_mul, r0, zero_add, hq]

/-- C107: the hypotheses are met. -/
example : ∃ rnd, ToNearest rnd ∧ ∃ v, interp1dR rnd ⟨true⟩ .LINEAR [0, 1, 3] [5, 7, 1] 2 = .ok v ∧ |v - 4| < 1 / 2 ^ 45 := by
  refine ⟨_, roundNearest_toNearest, ?_⟩
  have ht : Table ([0, 1, 3] : List ℝ) ([5, 7, 1] : List ℝ) := ⟨by simp, by simp, rfl⟩
  obtain ⟨v, hv, he⟩ := C107_error_partial roundNearest_toNearest ⟨true⟩ (m := .LINEAR) (by simp) ht (i := 1) (x := 2) (by simp) (by simp)
    (Or.inl (by norm_num)) (by norm_num)
  refine ⟨v, hv, ?_⟩
  simp only [List.getElem_cons_succ, List.getElem_cons_zero, line] at he
  norm_num at he ⊢
  linarith

end MU
