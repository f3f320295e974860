import Verif.Lemmas.Vectors
import Mathlib.Data.Rat.Floor
import Mathlib.Analysis.SpecialFunctions.Sqrt
import Mathlib.Analysis.SpecialFunctions.Trigonometric.Sinc

set_option linter.unusedSectionVars false

/-!
# Vectors and elementary functions: C49-C55
-/

namespace MU

section generation
variable {K : Type} [Field K] [LinearOrder K] [IsStrictOrderedRing K]

/-- **C49**: `linspace` gives `num` equally spaced values from `start` to `stop`. -/
theorem C49_linspace (B : Build) {start stop : K} {num : Nat} (hn : 2 ≤ num) (hn2 : num < 2 ^ 32) (hle : start ≤ stop) :
    ∃ l, linspace B start stop num = .ok l ∧ l.length = num ∧
      (∀ i : Nat, i < num → l[i]? = some (start + i * (stop - start) / (num - 1))) ∧
      l.head? = some start ∧ l.getLast? = some stop ∧ l.Pairwise (· ≤ ·) := by
  have hcast : ((num - 1 : Nat) : K) = (num : K) - 1 := by
    rw [Nat.cast_sub (by omega)]
    simp
  have hpos : (0 : K) < (num : K) - 1 := by
    have : (2 : K) ≤ num := by exact_mod_cast hn
    linarith
  have key : ∀ i : Nat, i < num → (if i = num - 1 then stop else start + (i : K) * ((stop - start) / ((num - 1 : Nat) : K)))
      = start + i * (stop - start) / (num - 1) := by
    intro i hi
    rw [hcast]
    split
    · rename_i h
      rw [h, hcast]
      field_simp
      ring
    · rw [mul_div_assoc]
  have hl : linspace B start stop num = .ok ((List.range num).map (fun i : Nat => start + i * (stop - start) / ((num : K) - 1))) := by
    rw [linspace_ok B hn hn2 hle]
    congr 1
    apply List.map_congr_left
    intro i hi
    exact key i (by simpa using hi)
  refine ⟨_, hl, by simp, ?_, ?_, ?_, ?_⟩
  · intro i hi
    simp [hi]
  · rw [List.head?_map, List.head?_range, if_neg (by omega)]
    simp
  · rw [List.getLast?_map, List.getLast?_range, if_neg (by omega)]
    simp only [Option.map_some, hcast]
    congr 1
    field_simp
    ring
  · rw [List.pairwise_map]
    refine List.pairwise_lt_range.imp ?_
    intro i j hij
    have : (i : K) ≤ j := by exact_mod_cast hij.le
    have h2 : (i : K) * (stop - start) ≤ j * (stop - start) := mul_le_mul_of_nonneg_right this (by linarith)
    have := div_le_div_of_nonneg_right h2 hpos.le
    linarith

/-- **C49**: fewer than two points or bounds in the wrong order are refused by the assertions. -/
theorem C49_refused (start stop : K) (num : Nat) (h : num ≤ 1 ∨ stop < start) : linspace ⟨true⟩ start stop num = .aborts := by
  unfold linspace
  by_cases hn : num > 1
  · rw [cassert_true _ _ hn, Res.ok_bind, cassert_false _ (by rcases h with h | h; omega; exact not_le.2 h)]
    rfl
  · rw [cassert_false _ hn]
    rfl

end generation

example : linspace ⟨true⟩ (1 : ℚ) 3 5 = .ok [1, 3/2, 2, 5/2, 3] := by decide +kernel

/-- **C50** fails: the values of `arange(0, 10, 1)` are not one apart, and `arange(100, 110, 1)` fails an assertion. -/
theorem C50_refuted :
    arange ⟨true⟩ (0 : ℚ) 10 1 = .ok [0, 10/9, 20/9, 30/9, 40/9, 50/9, 60/9, 70/9, 80/9, 10] ∧ arange ⟨true⟩ (100 : ℚ) 110 1 = .aborts := by
  decide +kernel

section generation
variable {K : Type} [Field K] [LinearOrder K] [IsStrictOrderedRing K] [FloorRing K]

/-- **C50**, what is returned: with `n` the whole part of `(stop-start)/step`, the `n` equally spaced values from `start` to `n*step`. -/
theorem C50_values_partial (B : Build) {start stop step : K} (hs : start < stop) (hp : 0 < step) {n : Nat} (hn : ⌊(stop - start) / step⌋ = n)
    (h2 : 2 ≤ n) (h32 : n < 2 ^ 32) (hle : start ≤ n * step) :
    ∃ l, arange B start stop step = .ok l ∧ l.length = n ∧ ∀ i : Nat, i < n → l[i]? = some (start + i * (n * step - start) / (n - 1)) := by
  unfold arange
  rw [cassert_true B _ hs, Res.ok_bind, cassert_true B _ hp, Res.ok_bind, fdiv_ok hp.ne', Res.ok_bind]
  simp only [hn]
  rw [if_neg (by omega)]
  obtain ⟨l, hl, h1, hv, -⟩ := C49_linspace B (start := start) (stop := n * step) h2 h32 hle
  refine ⟨l, ?_, h1, hv⟩
  simpa using hl

/-- **C50**, when it is right: these values are `start + i*step` exactly when `start = step`. -/
theorem C50_right_iff_partial (B : Build) {start stop step : K} (hs : start < stop) (hp : 0 < step) {n : Nat} (hn : ⌊(stop - start) / step⌋ = n)
    (h2 : 2 ≤ n) (h32 : n < 2 ^ 32) (hle : start ≤ n * step) :
    arange B start stop step = .ok ((List.range n).map (fun i : Nat => start + i * step)) ↔ start = step := by
  obtain ⟨l, hl, h1, hv⟩ := C50_values_partial B hs hp hn h2 h32 hle
  have hpos : (0 : K) < (n : K) - 1 := by
    have : (2 : K) ≤ n := by exact_mod_cast h2
    linarith
  rw [hl]
  constructor
  · intro h
    have e := hv 1 (by omega)
    rw [Res.ok.inj h] at e
    have h1n : 1 < n := by omega
    simp [h1n] at e
    field_simp at e
    linarith
  · intro h
    congr 1
    apply List.ext_getElem?
    intro i
    by_cases hi : i < n
    · rw [hv i hi]
      simp only [List.getElem?_map, List.getElem?_range hi, Option.map_some]
      congr 1
      rw [h]
      field_simp
    · rw [List.getElem?_eq_none (by omega), List.getElem?_eq_none (by simp; omega)]

end generation

example : ⌊((7 : ℚ) - 2) / 2⌋ = (2 : Nat) ∧ (2 : ℚ) ≤ (2 : Nat) * 2 := by decide +kernel

/-- **C51**: `logspace` gives `num` values in geometric progression from `base^start` to `base^stop`. -/
theorem C51_logspace (B : Build) {start stop base : ℝ} {num : Nat} (hn : 2 ≤ num) (hn2 : num < 2 ^ 32) (hle : start ≤ stop) (hb : 0 < base) :
    ∃ l, logspace B start stop num base = .ok l ∧ l.length = num ∧ l.head? = some (base ^ start) ∧ l.getLast? = some (base ^ stop) ∧
      ∀ i : Nat, i < num → l[i]? = some (base ^ start * (base ^ ((stop - start) / (num - 1))) ^ i) := by
  obtain ⟨l, hl, h1, hv, hf, hg, -⟩ := C49_linspace B hn hn2 hle
  have e : logspace B start stop num base = .ok (l.map (fun x => base ^ x)) := by
    unfold logspace
    rw [cassert_true B _ (show num > 1 by omega), Res.ok_bind, cassert_true B _ hle, Res.ok_bind, hl, Res.ok_bind]
    refine map_loop (fun x => base ^ x) ?_
    intro i hi out _ ho
    rw [vAt_eq ho, Res.ok_bind]
    unfold cpow
    rw [if_pos hb]
    rfl
  refine ⟨_, e, by simpa using h1, by simp [hf], by simp [hg], ?_⟩
  intro i hi
  rw [List.getElem?_map, hv i hi]
  simp only [Option.map_some]
  congr 1
  rw [Real.rpow_add hb, ← Real.rpow_natCast, ← Real.rpow_mul hb.le]
  congr 2
  ring

example : (0 : ℝ) < 10 ∧ (-2 : ℝ) ≤ 3 := by norm_num

section functions
variable {K : Type} [Field K] [LinearOrder K] [IsStrictOrderedRing K]

/-- The step function. -/
def Spec.step (s x : K) : K := if x < s then 0 else if x = s then 1 / 2 else 1

/-- The rectangular function. -/
def Spec.window (a b h x : K) : K := if x < a ∨ b < x then 0 else if x = a ∨ x = b then h / 2 else h

/-- **C52**: `Heaviside` is the step function, element by element. -/
theorem C52_heaviside (x : List K) (s : K) : heaviside x s = .ok (x.map (Spec.step s)) := by
  unfold heaviside
  refine elementwise (Spec.step s) ?_
  intro i hi out _
  rw [vIdx_lt hi, Res.ok_bind]
  unfold Spec.step
  rcases lt_trichotomy x[i] s with h | h | h
  · simp [h]
  · simp [h]
  · simp [h, h.ne', not_lt.2 h.le]

/-- **C52**: `Door` is its height strictly inside, half of it at the ends and 0 outside, element by element. -/
theorem C52_door (B : Build) (x : List K) {a b : K} (hab : a < b) (h : K) : door B x a b h = .ok (x.map (Spec.window a b h)) := by
  unfold door
  rw [C52_heaviside, Res.ok_bind, C52_heaviside, Res.ok_bind]
  unfold vMinus
  rw [zipLoop_ok B (by simp) (fun a b => a - b) (fun _ _ _ => rfl), Res.ok_bind]
  simp only [vScale, Res.pure_eq]
  congr 1
  apply List.ext_getElem
  · simp
  · intro i h1 h2
    simp only [List.getElem_map, List.getElem_zipWith]
    have : i < x.length := by simpa using h2
    generalize x[i] = y
    unfold Spec.window Spec.step
    rcases lt_trichotomy y a with h1 | h1 | h1
    · simp [h1, h1.trans hab]
    · subst h1
      simp [hab, not_lt.2 hab.le, hab.ne]
      ring
    · rcases lt_trichotomy y b with h3 | h3 | h3
      · simp [h1.ne', not_lt.2 h1.le, h3, h3.ne, not_lt.2 h3.le]
      · subst h3
        simp [hab.ne', not_lt.2 hab.le]
        ring
      · simp [h1.ne', not_lt.2 h1.le, h3, h3.ne', not_lt.2 h3.le]

/-- **C52**: `Ramp` over a range inside the vector is `yl` up to `a`, the straight line from `(a, yl)` to `(b, yr)`, and `yr` beyond; the range may be
a single point. -/
theorem C52_ramp (B : Build) (x : List K) {a b yl yr : K} (hx : x ≠ []) (hlen : x.length < 2 ^ 64) (hab : a ≤ b) (h0 : x.head hx ≤ a)
    (h1 : b ≤ x.getLast hx) :
    ramp B x a b yl yr = .ok (x.map (fun t => if t ≤ a then yl else if t ≤ b then yl + (t - a) * (yr - yl) / (b - a) else yr)) := by
  have hl : 0 < x.length := List.length_pos_iff.2 hx
  have hassert : rampAssert B x a b = .ok () := by
    unfold rampAssert
    split
    · rw [vIdx_lt hl, Res.ok_bind, if_pos (by rw [ge_iff_le, ← List.head_eq_getElem hx]; exact h0), usub_of_le (by omega) hlen,
        vIdx_lt (show x.length - 1 < x.length by omega), Res.ok_bind, if_pos (by rw [← List.getLast_eq_getElem hx]; exact h1)]
    · rfl
  unfold ramp
  simp only [cassert_true B _ hab, Res.ok_bind, hassert]
  refine elementwise (fun t => if t ≤ a then yl else if t ≤ b then yl + (t - a) * (yr - yl) / (b - a) else yr) ?_
  intro i hi out _
  simp only [vIdx_lt hi, Res.ok_bind]
  by_cases ha : x[i] ≤ a
  · rw [if_pos ha, if_pos ha]
  · rw [if_neg ha, if_neg ha]
    by_cases hb : x[i] ≤ b
    · have hne : b - a ≠ 0 := by
        have := not_le.1 ha
        intro h
        linarith
      rw [if_pos hb, if_pos hb, fdiv_ok hne]
      simp only [Res.ok_bind, Res.pure_eq]
      congr 1
      ring
    · rw [if_neg hb, if_neg hb]

/-- **C52**: `Dirac` is its height within half a step of the impulse (the step is that of the first two values) and 0 elsewhere. -/
theorem C52_dirac (x : List K) (h2 : 2 ≤ x.length) (p h : K) :
    dirac x p h = .ok (x.map (fun t => if |t - p| < (x[1] - x[0]) / 2 then h else 0)) := by
  unfold dirac
  simp only [vIdx_lt (show 1 < x.length by omega), vIdx_lt (show 0 < x.length by omega), Res.ok_bind]
  refine elementwise _ ?_
  intro i hi out _
  rw [vIdx_lt hi, Res.ok_bind]
  have e : ∀ d : K, 1 / 2 * d = d / 2 := fun d => by ring
  rw [e]
  split <;> rfl

/-- **C52**: `Dirac` reads out of bounds on vectors shorter than two. -/
theorem C52_dirac_short (x : List K) (h2 : x.length < 2) (p h : K) : dirac x p h = .ub := by
  unfold dirac
  simp only [vIdx_ge (show x.length ≤ 1 by omega), Res.ub_bind]

/-- **C53**: the sign. -/
theorem C53_sgn (v : K) : (0 < v → sgn v = 1) ∧ (v = 0 → sgn v = 0) ∧ (v < 0 → sgn v = -1) := by
  unfold sgn boolInt
  refine ⟨fun h => ?_, fun h => ?_, fun h => ?_⟩
  · simp [h, not_lt.2 h.le]
  · simp [h]
  · simp [h, not_lt.2 h.le]

/-- **C53**: `Saturate` returns the point of the interval nearest to the value. -/
theorem C53_saturate {v lo hi : K} (h : lo ≤ hi) :
    lo ≤ saturate v lo hi ∧ saturate v lo hi ≤ hi ∧ (∀ t, lo ≤ t → t ≤ hi → |v - saturate v lo hi| ≤ |v - t|) ∧
    (lo ≤ v → v ≤ hi → saturate v lo hi = v) ∧ saturate (saturate v lo hi) lo hi = saturate v lo hi := by
  have e : ∀ v : K, (hi < v → saturate v lo hi = hi) ∧ (v < lo → saturate v lo hi = lo) ∧ (lo ≤ v → v ≤ hi → saturate v lo hi = v) := by
    intro v
    unfold saturate
    refine ⟨fun h1 => ?_, fun h1 => ?_, fun h1 h2 => ?_⟩
    · simp [h1, not_lt.2 h]
    · simp [not_lt.2 (h1.le.trans h), h1]
    · simp [not_lt.2 h2, not_lt.2 h1]
  rcases lt_or_ge hi v with h1 | h1
  · have s := (e v).1 h1
    rw [s, (e hi).2.2 h le_rfl]
    refine ⟨h, le_rfl, ?_, fun _ h3 => absurd h1 (not_lt.2 h3), rfl⟩
    intro t _ h3
    rw [abs_of_nonneg (by linarith), abs_of_nonneg (by linarith)]
    linarith
  · rcases lt_or_ge v lo with h2 | h2
    · have s := (e v).2.1 h2
      rw [s, (e lo).2.2 le_rfl h]
      refine ⟨le_rfl, h, ?_, fun h3 => absurd h2 (not_lt.2 h3), rfl⟩
      intro t h3 _
      rw [abs_of_nonpos (by linarith), abs_of_nonpos (by linarith)]
      linarith
    · have s := (e v).2.2 h2 h1
      rw [s, s]
      exact ⟨h2, h1, fun t _ _ => by rw [sub_self, abs_zero]; exact abs_nonneg _, fun _ _ => rfl, rfl⟩

/-- **C54**: `IsClose` is the documented inequality, is reflexive, and with a relative tolerance below one is symmetric up to a factor on the
tolerances. -/
theorem C54_isClose (a b rtol atol : K) (hr : 0 ≤ rtol) (ha : 0 ≤ atol) :
    (isClose a b rtol atol = true ↔ |a - b| ≤ atol + rtol * |b|) ∧ isClose a a rtol atol = true ∧
    (rtol < 1 → isClose a b rtol atol = true → isClose b a (rtol / (1 - rtol)) (atol / (1 - rtol)) = true) := by
  unfold isClose
  simp only [decide_eq_true_eq, sub_self, abs_zero]
  refine ⟨trivial, by positivity, ?_⟩
  intro h1 h
  have h2 : |b| ≤ |a - b| + |a| := by
    calc |b| = |-(a - b) + a| := by congr 1; ring
      _ ≤ |-(a - b)| + |a| := abs_add_le _ _
      _ = |a - b| + |a| := by rw [abs_neg]
  rw [abs_sub_comm b a]
  have hd : 0 < 1 - rtol := by linarith
  have h3 : |a - b| * (1 - rtol) ≤ atol + rtol * |a| := by nlinarith
  rw [div_mul_eq_mul_div, ← add_div, le_div_iff₀ hd]
  exact h3

/-- **C54**: the relation is not symmetric. -/
theorem C54_asymmetric : isClose (9 : ℚ) 10 (1 / 10) 0 = true ∧ isClose (10 : ℚ) 9 (1 / 10) 0 = false := by decide +kernel

theorem isCloseLoop_ok (a b : List K) (rtol atol : K) (n i : Nat) (h1 : i + n = a.length) (h2 : a.length ≤ b.length) :
    ∃ c, isCloseLoop a b rtol atol n i = .ok c ∧
      (c = true ↔ ∀ j (hj : j < a.length), i ≤ j → isClose a[j] (b[j]'(by omega)) rtol atol = true) := by
  induction n generalizing i with
  | zero =>
    refine ⟨true, rfl, ?_⟩
    simp only [true_iff]
    intro j hj hij
    omega
  | succ n ih =>
    obtain ⟨c, hc, hiff⟩ := ih (i + 1) (by omega)
    have hi : i < a.length := by omega
    have hi2 : i < b.length := by omega
    unfold isCloseLoop
    rw [vIdx_lt hi, Res.ok_bind, vIdx_lt hi2, Res.ok_bind]
    by_cases hclose : isClose a[i] b[i] rtol atol = true
    · simp only [hclose, Bool.not_true, Bool.false_eq_true, if_false]
      refine ⟨c, hc, hiff.trans ?_⟩
      constructor
      · intro h j hj hij
        rcases eq_or_lt_of_le hij with e | e
        · subst e; exact hclose
        · exact h j hj e
      · intro h j hj hij
        exact h j hj (by omega)
    · rw [Bool.not_eq_true] at hclose
      simp only [hclose, Bool.not_false, if_true]
      refine ⟨false, rfl, ?_⟩
      simp only [Bool.false_eq_true, false_iff]
      intro h
      have := h i hi le_rfl
      rw [hclose] at this
      exact absurd this (by decide)

/-- **C54**: vectors of the same length are close when all their elements are; vectors of different lengths are refused by the assertion. -/
theorem C54_vectors (B : Build) (a b : List K) (rtol atol : K) :
    (∀ hlen : a.length = b.length, ∃ c, isCloseVec B a b rtol atol = .ok c ∧
      (c = true ↔ ∀ j (hj : j < a.length), |a[j] - b[j]'(by omega)| ≤ atol + rtol * |b[j]'(by omega)|)) ∧
    (a.length ≠ b.length → isCloseVec ⟨true⟩ a b rtol atol = .aborts) := by
  constructor
  · intro hlen
    obtain ⟨c, hc, h⟩ := isCloseLoop_ok a b rtol atol a.length 0 (by omega) (by omega)
    refine ⟨c, ?_, h.trans ?_⟩
    · unfold isCloseVec
      rw [cassert_true B _ hlen, Res.ok_bind]
      exact hc
    · simp only [Nat.zero_le, true_implies, isClose, decide_eq_true_eq]
  · intro hlen
    unfold isCloseVec
    rw [cassert_false _ hlen]
    rfl

/-- **C54**: `AssertIsClose` fails exactly when the values are not close, and only when assertions are active. -/
theorem C54_assert (B : Build) (a b rtol atol : K) :
    assertIsClose B a b rtol atol = (if B.checked = true ∧ ¬ |a - b| ≤ atol + rtol * |b| then .aborts else .ok ()) := by
  unfold assertIsClose cassert isClose
  simp only [decide_eq_true_eq]

/-- **C54**: the assertion on vectors passes on vectors of the same length which are close component by component, stops the program on all others,
and does nothing when assertions are disabled. -/
theorem C54_assert_vectors (a b : List K) (rtol atol : K) :
    (assertIsCloseVec ⟨true⟩ a b rtol atol = .ok () ↔
      ∃ hlen : a.length = b.length, ∀ j (hj : j < a.length), |a[j] - b[j]'(by omega)| ≤ atol + rtol * |b[j]'(by omega)|) ∧
    (assertIsCloseVec ⟨true⟩ a b rtol atol ≠ .ok () → assertIsCloseVec ⟨true⟩ a b rtol atol = .aborts) ∧
    assertIsCloseVec ⟨false⟩ a b rtol atol = .ok () := by
  obtain ⟨h1, h2⟩ := C54_vectors ⟨true⟩ a b rtol atol
  by_cases hlen : a.length = b.length
  · obtain ⟨c, hc, h⟩ := h1 hlen
    have e : assertIsCloseVec ⟨true⟩ a b rtol atol = if c = true then .ok () else .aborts := by
      unfold assertIsCloseVec
      rw [if_pos rfl, hc]
      show cassert _ _ = _
      cases c
      · rw [cassert_false _ (by simp)]; rfl
      · rw [cassert_true _ _ rfl]; rfl
    rw [e]
    refine ⟨?_, ?_, rfl⟩
    · constructor
      · intro hh
        refine ⟨hlen, h.1 ?_⟩
        by_contra hn
        rw [if_neg hn] at hh
        cases hh
      · rintro ⟨_, hh⟩
        rw [if_pos (h.2 hh)]
    · intro hh
      by_cases hn : c = true
      · rw [if_pos hn] at hh; exact absurd rfl hh
      · rw [if_neg hn]
  · have e : assertIsCloseVec ⟨true⟩ a b rtol atol = .aborts := by
      unfold assertIsCloseVec
      rw [if_pos rfl, h2 hlen]
      rfl
    rw [e]
    refine ⟨⟨fun h => ?_, fun h => absurd h.1 hlen⟩, fun _ => rfl, rfl⟩
    cases h

/-- C54 is about something. -/
example : assertIsCloseVec ⟨true⟩ [(1 : ℚ), 2] [1, 3] 0 (1 / 2) = .aborts := by decide +kernel

/-- **C55**: the operations on two vectors act element by element on operands of equal length. -/
theorem C55_elementwise (B : Build) (v w : List K) (h : w.length = v.length) :
    vAdd B v w = .ok (List.zipWith (· + ·) v w) ∧ vMinus B v w = .ok (List.zipWith (· - ·) v w) ∧ vMult B v w = .ok (List.zipWith (· * ·) v w) ∧
    ((∀ y ∈ w, y ≠ 0) → vDivide B v w = .ok (List.zipWith (· / ·) v w)) := by
  refine ⟨zipLoop_ok B h _ (fun _ _ _ => rfl), zipLoop_ok B h _ (fun _ _ _ => rfl), zipLoop_ok B h _ (fun _ _ _ => rfl), fun hy => ?_⟩
  exact zipLoop_ok B h _ (fun i _ h2 => fdiv_ok (hy _ (List.getElem_mem h2)))

/-- **C55**: operands of different lengths are refused by the assertion. -/
theorem C55_refused (v w : List K) (h : w.length ≠ v.length) :
    vAdd ⟨true⟩ v w = .aborts ∧ vMinus ⟨true⟩ v w = .aborts ∧ vMult ⟨true⟩ v w = .aborts ∧ vDivide ⟨true⟩ v w = .aborts :=
  ⟨zipLoop_refused h _, zipLoop_refused h _, zipLoop_refused h _, zipLoop_refused h _⟩

/-- **C55**: `Minus` undoes `Add` and `Add` undoes `Minus`. -/
theorem C55_inverse (B : Build) (v w : List K) (h : w.length = v.length) :
    (do let s ← vAdd B v w; vMinus B s w) = .ok v ∧ (do let s ← vMinus B v w; vAdd B s w) = .ok v := by
  constructor
  · rw [(C55_elementwise B v w h).1, Res.ok_bind, (C55_elementwise B _ w (by simp [h])).2.1]
    congr 1
    apply List.ext_getElem
    · simp [h]
    · intro i _ _
      simp
  · rw [(C55_elementwise B v w h).2.1, Res.ok_bind, (C55_elementwise B _ w (by simp [h])).1]
    congr 1
    apply List.ext_getElem
    · simp [h]
    · intro i _ _
      simp

/-- **C55**: the operations with a scalar, and the sum. -/
theorem C55_scalar (v : List K) (c : K) :
    vAddScalar v c = .ok (v.map (· + c)) ∧ vScale v c = v.map (· * c) ∧ vNegate v = v.map (fun x => -x) ∧ vSum v = v.sum := by
  refine ⟨?_, rfl, ?_, ?_⟩
  · unfold vAddScalar
    refine elementwise (· + c) ?_
    intro i hi out _
    rw [vIdx_lt hi, Res.ok_bind]
  · unfold vNegate vScale
    simp
  · unfold vSum
    rw [List.sum_eq_foldl]

end functions

example : heaviside [(1 : ℚ), 2, 3] 2 = .ok [0, 1/2, 1] := by decide +kernel
example : door ⟨true⟩ [(0 : ℚ), 1, 2, 3, 4] 1 3 6 = .ok [0, 3, 6, 3, 0] := by decide +kernel
example : ramp ⟨true⟩ [(0 : ℚ), 1, 2, 3, 4] 1 3 5 9 = .ok [5, 5, 7, 9, 9] := by decide +kernel
example : ramp ⟨true⟩ [(0 : ℚ), 1, 2, 3, 4] 2 2 5 9 = .ok [5, 5, 5, 9, 9] := by decide +kernel
example : dirac [(0 : ℚ), 1, 2, 3, 4] 2 7 = .ok [0, 0, 7, 0, 0] := by decide +kernel
example : vAdd ⟨true⟩ [(1 : ℚ), 2] [3, 4] = .ok [4, 6] := by decide +kernel

/-- **C55**: `Pow` raises every element of a vector of positive numbers to the power, keeping the length. -/
theorem C55_pow (v : List ℝ) (p : ℝ) (h : ∀ x ∈ v, 0 < x) : vPow v p = .ok (v.map (fun x => x ^ p)) := by
  unfold vPow
  refine map_loop (fun x => x ^ p) ?_
  intro i hi out _ ho
  rw [vIdx_eq ho, Res.ok_bind]
  unfold cpow
  rw [if_pos (h _ (List.getElem_mem hi))]
  rfl

example : ∀ x ∈ [(1 : ℝ), 2, 3], 0 < x := by simp

/-- **C52**: `Sinc` is `sin x / x`, and 1 at 0, element by element. -/
theorem C52_sinc (x : List ℝ) : sincVec x = .ok (x.map Real.sinc) := by
  unfold sincVec
  refine elementwise Real.sinc ?_
  intro i hi out _
  rw [vIdx_lt hi, Res.ok_bind]
  by_cases h : x[i] = 0
  · rw [if_pos h, h, Real.sinc_zero]
  · rw [if_neg h, fdiv_ok h, Res.ok_bind, Real.sinc_of_ne_zero h]

/-- **C53**: `SgnSqrt` is odd, strictly increasing, and its signed square is the value. -/
theorem C53_sgnSqrt (v w : ℝ) :
    sgnSqrt (-v) = -sgnSqrt v ∧ (v < w → sgnSqrt v < sgnSqrt w) ∧ sgnSqrt v * |sgnSqrt v| = v := by
  have pos : ∀ v : ℝ, 0 ≤ v → sgnSqrt v = Real.sqrt v := by
    intro v hv
    unfold sgnSqrt
    rcases hv.lt_or_eq with h | h
    · rw [(C53_sgn v).1 h, abs_of_pos h]; simp
    · rw [← h]; simp
  have neg : ∀ v : ℝ, v < 0 → sgnSqrt v = -Real.sqrt (-v) := by
    intro v hv
    unfold sgnSqrt
    rw [(C53_sgn v).2.2 hv, abs_of_neg hv]; simp
  refine ⟨?_, ?_, ?_⟩
  · rcases lt_trichotomy v 0 with h | h | h
    · rw [neg v h, pos _ (by linarith), neg_neg]
    · rw [h, neg_zero, pos 0 le_rfl]; simp
    · rw [pos v h.le, neg _ (by linarith), neg_neg]
  · intro hvw
    rcases lt_or_ge v 0 with hv | hv
    · rcases lt_or_ge w 0 with hw | hw
      · rw [neg v hv, neg w hw]
        have := Real.sqrt_lt_sqrt (show 0 ≤ -w by linarith) (show -w < -v by linarith)
        linarith
      · rw [neg v hv, pos w hw]
        have h1 : 0 < Real.sqrt (-v) := Real.sqrt_pos.2 (by linarith)
        have h2 := Real.sqrt_nonneg w
        linarith
    · rw [pos v hv, pos w (by linarith)]
      exact Real.sqrt_lt_sqrt hv hvw
  · rcases lt_or_ge v 0 with hv | hv
    · rw [neg v hv, abs_neg, abs_of_nonneg (Real.sqrt_nonneg _)]
      have := Real.mul_self_sqrt (show 0 ≤ -v by linarith)
      linarith
    · rw [pos v hv, abs_of_nonneg (Real.sqrt_nonneg _)]
      exact Real.mul_self_sqrt hv

/-- **C53**: the parity tests are right for all integers, the negative ones included. -/
theorem C53_parity (n : Int) : (isOdd n = true ↔ Odd n) ∧ (isEven n = true ↔ Even n) := by
  have h : isOdd n = true ↔ Odd n := by
    unfold isOdd
    rw [decide_eq_true_eq, ← Int.not_even_iff_odd, even_iff_two_dvd, ne_eq, ← Int.dvd_iff_tmod_eq_zero]
  refine ⟨h, ?_⟩
  unfold isEven
  rw [Bool.not_eq_true', ← Bool.not_eq_true, h, Int.not_odd_iff_even]

end MU
