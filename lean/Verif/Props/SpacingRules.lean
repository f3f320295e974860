import Verif.Props.Vectors
import Mathlib.Analysis.SpecialFunctions.Log.Base

/-!
# C218: rules of equally and logarithmically spaced points
-/

set_option linter.unusedSectionVars false

namespace MU

section equal
variable {K : Type} [Field K] [LinearOrder K] [IsStrictOrderedRing K]

/-- Two lists of the same length with the same elements at all places. -/
theorem list_eq_of_get {α : Type} {l l' : List α} {n : Nat} (h : l.length = n) (h' : l'.length = n) (e : ∀ i, i < n → l[i]? = l'[i]?) : l = l' := by
  apply List.ext_getElem?
  intro i
  by_cases hi : i < n
  · exact e i hi
  · rw [List.getElem?_eq_none (by omega), List.getElem?_eq_none (by omega)]

/-- **C218**: points in other units: scaling and moving both ends scales and moves all the points. -/
theorem C218_units (B : Build) {a b k c : K} {n : Nat} (hn : 2 ≤ n) (hn2 : n < 2 ^ 32) (hab : a ≤ b) (hk : 0 ≤ k) :
    ∃ l, linspace B a b n = .ok l ∧ linspace B (k * a + c) (k * b + c) n = .ok (l.map (fun x => k * x + c)) := by
  obtain ⟨l, hl, hlen, hat, -⟩ := C49_linspace B hn hn2 hab
  obtain ⟨l', hl', hlen', hat', -⟩ := C49_linspace B (start := k * a + c) (stop := k * b + c) hn hn2 (by nlinarith [mul_le_mul_of_nonneg_left hab hk])
  refine ⟨l, hl, ?_⟩
  rw [hl']
  congr 1
  refine list_eq_of_get hlen' (by simp [hlen]) (fun i hi => ?_)
  rw [hat' i hi, List.getElem?_map, hat i hi, Option.map_some]
  congr 1
  ring

/-- **C218**: mirrored ends give the mirrored points in the other order. -/
theorem C218_mirrored (B : Build) {a b : K} {n : Nat} (hn : 2 ≤ n) (hn2 : n < 2 ^ 32) (hab : a ≤ b) :
    ∃ l, linspace B a b n = .ok l ∧ linspace B (-b) (-a) n = .ok (l.map (fun x => -x)).reverse := by
  obtain ⟨l, hl, hlen, hat, -⟩ := C49_linspace B hn hn2 hab
  obtain ⟨l', hl', hlen', hat', -⟩ := C49_linspace B (start := -b) (stop := -a) hn hn2 (by linarith)
  refine ⟨l, hl, ?_⟩
  rw [hl']
  congr 1
  refine list_eq_of_get hlen' (by simp [hlen]) (fun i hi => ?_)
  have hpos : (0 : K) < (n : K) - 1 := by
    have : (2 : K) ≤ n := by exact_mod_cast hn
    linarith
  rw [hat' i hi, List.getElem?_reverse (by simpa [hlen] using hi), List.getElem?_map, List.length_map, hlen, hat (n - 1 - i) (by omega), Option.map_some]
  congr 1
  rw [Nat.cast_sub (by omega), Nat.cast_sub (by omega)]
  field_simp
  push_cast
  ring

/-- **C218**: with `k` times as many intervals the former points are every `k`-th point. -/
theorem C218_refined (B : Build) {a b : K} {n k : Nat} (hn : 1 ≤ n) (hk : 1 ≤ k) (hn2 : k * n + 1 < 2 ^ 32) (hab : a ≤ b) :
    ∃ l l', linspace B a b (n + 1) = .ok l ∧ linspace B a b (k * n + 1) = .ok l' ∧ ∀ i, i ≤ n → l'[k * i]? = l[i]? := by
  have hkn : n ≤ k * n := Nat.le_mul_of_pos_left n hk
  obtain ⟨l, hl, -, hat, -⟩ := C49_linspace B (num := n + 1) (by omega) (by omega) hab
  obtain ⟨l', hl', -, hat', -⟩ := C49_linspace B (num := k * n + 1) (by omega) hn2 hab
  refine ⟨l, l', hl, hl', fun i hi => ?_⟩
  rw [hat i (by omega), hat' (k * i) (by have := Nat.mul_le_mul_left k hi; omega)]
  congr 1
  have h1 : (k : K) ≠ 0 := by exact_mod_cast (by omega : k ≠ 0)
  have h2 : (n : K) ≠ 0 := by exact_mod_cast (by omega : n ≠ 0)
  push_cast
  rw [add_sub_cancel_right, add_sub_cancel_right]
  field_simp

/-- **C218**: two neighbouring ranges with the same step join into one. -/
theorem C218_joined (B : Build) {a h : K} {n m : Nat} (hn : 1 ≤ n) (hm : 1 ≤ m) (hn2 : n + m + 1 < 2 ^ 32) (hh : 0 ≤ h) :
    ∃ l r, linspace B a (a + n * h) (n + 1) = .ok l ∧ linspace B (a + n * h) (a + (n + m) * h) (m + 1) = .ok r ∧
      linspace B a (a + (n + m) * h) (n + m + 1) = .ok (l ++ r.tail) := by
  have hnh : (0 : K) ≤ n * h := by positivity
  have hmh : (0 : K) ≤ m * h := by positivity
  obtain ⟨l, hl, hlen, hat, -⟩ := C49_linspace B (start := a) (stop := a + n * h) (num := n + 1) (by omega) (by omega) (by linarith)
  obtain ⟨r, hr, hrlen, hrat, -⟩ := C49_linspace B (start := a + n * h) (stop := a + (n + m) * h) (num := m + 1) (by omega) (by omega) (by nlinarith)
  obtain ⟨s, hs, hslen, hsat, -⟩ := C49_linspace B (start := a) (stop := a + (n + m) * h) (num := n + m + 1) (by omega) hn2 (by nlinarith)
  refine ⟨l, r, hl, hr, ?_⟩
  rw [hs]
  congr 1
  have h1 : (n : K) ≠ 0 := by exact_mod_cast (by omega : n ≠ 0)
  have h2 : (m : K) ≠ 0 := by exact_mod_cast (by omega : m ≠ 0)
  have h3 : (n : K) + m ≠ 0 := by exact_mod_cast (by omega : n + m ≠ 0)
  refine list_eq_of_get hslen (by simp [hlen, hrlen]; omega) (fun i hi => ?_)
  rw [hsat i hi]
  by_cases hin : i < n + 1
  · rw [List.getElem?_append_left (by omega), hat i hin]
    congr 1
    push_cast
    rw [add_sub_cancel_right, add_sub_cancel_right]
    field_simp
    ring
  · rw [List.getElem?_append_right (by omega), hlen, List.getElem?_tail, hrat (i - (n + 1) + 1) (by omega)]
    congr 1
    rw [show i - (n + 1) + 1 = i - n by omega, Nat.cast_sub (by omega)]
    push_cast
    rw [add_sub_cancel_right, add_sub_cancel_right]
    field_simp
    ring

/-- **C218**: the points add up to their number times the middle of the interval. -/
theorem C218_mean (B : Build) {a b : K} {n : Nat} (hn : 2 ≤ n) (hn2 : n < 2 ^ 32) (hab : a ≤ b) :
    ∃ l, linspace B a b n = .ok l ∧ l.sum = n * ((a + b) / 2) := by
  obtain ⟨l, hl, hlen, hat, -⟩ := C49_linspace B hn hn2 hab
  refine ⟨l, hl, ?_⟩
  have hl' : l = (List.range n).map (fun i : Nat => a + i * (b - a) / ((n : K) - 1)) := by
    refine list_eq_of_get hlen (by simp) (fun i hi => ?_)
    rw [hat i hi]
    simp [hi]
  have key : ∀ (c : K) (k : Nat), ((List.range k).map (fun i : Nat => a + i * c)).sum = k * a + k * (k - 1) / 2 * c := by
    intro c k
    induction k with
    | zero => simp
    | succ k ih =>
      rw [List.range_succ, List.map_append, List.sum_append, ih]
      simp
      ring
  have hpos : (0 : K) < (n : K) - 1 := by
    have : (2 : K) ≤ n := by exact_mod_cast hn
    linarith
  have e : (fun i : Nat => a + i * (b - a) / ((n : K) - 1)) = fun i : Nat => a + i * ((b - a) / ((n : K) - 1)) := by
    funext i
    rw [mul_div_assoc]
  rw [hl', e, key]
  field_simp
  ring

end equal

/-- **C218**: the logarithms of logarithmically spaced points are equally spaced points. -/
theorem C218_logs (B : Build) {a b base : ℝ} {n : Nat} (hn : 2 ≤ n) (hn2 : n < 2 ^ 32) (hab : a ≤ b) (hb : 0 < base) (hb1 : base ≠ 1) :
    ∃ l, logspace B a b n base = .ok l ∧ linspace B a b n = .ok (l.map (Real.logb base)) := by
  obtain ⟨l, hl, hlen, -, -, hat⟩ := C51_logspace B hn hn2 hab hb
  obtain ⟨s, hs, hslen, hsat, -⟩ := C49_linspace B hn hn2 hab
  refine ⟨l, hl, ?_⟩
  rw [hs]
  congr 1
  refine list_eq_of_get hslen (by simp [hlen]) (fun i hi => ?_)
  rw [hsat i hi, List.getElem?_map, hat i hi, Option.map_some]
  congr 1
  rw [← Real.rpow_natCast, ← Real.rpow_mul hb.le, ← Real.rpow_add hb, Real.logb_rpow hb hb1]
  ring

/-- **C218**: a base raised to a power spaces the points like the scaled exponents. -/
theorem C218_base (B : Build) {a b base k : ℝ} {n : Nat} (hn : 2 ≤ n) (hn2 : n < 2 ^ 32) (hab : a ≤ b) (hb : 0 < base) (hk : 0 ≤ k) :
    logspace B a b n (base ^ k) = logspace B (k * a) (k * b) n base := by
  obtain ⟨l, hl, hlen, -, -, hat⟩ := C51_logspace B hn hn2 hab (Real.rpow_pos_of_pos hb k)
  obtain ⟨s, hs, hslen, -, -, hsat⟩ := C51_logspace B (start := k * a) (stop := k * b) hn hn2 (mul_le_mul_of_nonneg_left hab hk) hb
  rw [hl, hs]
  congr 1
  refine list_eq_of_get hlen hslen (fun i hi => ?_)
  rw [hat i hi, hsat i hi, ← Real.rpow_mul hb.le, ← Real.rpow_mul hb.le]
  congr 4
  ring

/-- **C218**: the inverse base gives the inverses; the mirrored exponents give the inverses in the other order, and points at the same distance from the two
ends have the product of the ends. -/
theorem C218_inverse (B : Build) {a b base : ℝ} {n : Nat} (hn : 2 ≤ n) (hn2 : n < 2 ^ 32) (hab : a ≤ b) (hb : 0 < base) :
    ∃ l, logspace B a b n base = .ok l ∧ logspace B a b n base⁻¹ = .ok (l.map (fun x => x⁻¹)) ∧
      logspace B (-b) (-a) n base = .ok (l.map (fun x => x⁻¹)).reverse ∧
      ∀ i, i < n → ∃ x y, l[i]? = some x ∧ l[n - 1 - i]? = some y ∧ x * y = base ^ a * base ^ b := by
  obtain ⟨l, hl, hlen, -, -, hat⟩ := C51_logspace B hn hn2 hab hb
  obtain ⟨s, hs, hslen, -, -, hsat⟩ := C51_logspace B hn hn2 hab (inv_pos.mpr hb)
  obtain ⟨t, ht, htlen, -, -, htat⟩ := C51_logspace B (start := -b) (stop := -a) hn hn2 (by linarith) hb
  have hpos : (0 : ℝ) < (n : ℝ) - 1 := by
    have : (2 : ℝ) ≤ n := by exact_mod_cast hn
    linarith
  refine ⟨l, hl, ?_, ?_, fun i hi => ⟨_, _, hat i hi, hat (n - 1 - i) (by omega), ?_⟩⟩
  · rw [hs]
    congr 1
    refine list_eq_of_get hslen (by simp [hlen]) (fun i hi => ?_)
    rw [hsat i hi, List.getElem?_map, hat i hi, Option.map_some]
    congr 1
    rw [Real.inv_rpow hb.le, Real.inv_rpow hb.le, inv_pow, mul_inv]
  · rw [ht]
    congr 1
    refine list_eq_of_get htlen (by simp [hlen]) (fun i hi => ?_)
    rw [htat i hi, List.getElem?_reverse (by simpa [hlen] using hi), List.getElem?_map, List.length_map, hlen, hat (n - 1 - i) (by omega), Option.map_some]
    congr 1
    rw [← Real.rpow_natCast, ← Real.rpow_mul hb.le, ← Real.rpow_add hb, ← Real.rpow_natCast, ← Real.rpow_mul hb.le, ← Real.rpow_add hb, ← Real.rpow_neg hb.le]
    congr 1
    rw [Nat.cast_sub (by omega), Nat.cast_sub (by omega)]
    field_simp
    push_cast
    ring
  · rw [← Real.rpow_natCast, ← Real.rpow_mul hb.le, ← Real.rpow_add hb, ← Real.rpow_natCast, ← Real.rpow_mul hb.le, ← Real.rpow_add hb, ← Real.rpow_add hb,
      ← Real.rpow_add hb]
    congr 1
    rw [Nat.cast_sub (by omega), Nat.cast_sub (by omega)]
    field_simp
    push_cast
    ring

example := C218_units ⟨true⟩ (a := (1 : ℚ)) (b := 4) (k := 3) (c := -5) (n := 7) (by decide) (by decide) (by norm_num) (by norm_num)
example := C218_mirrored ⟨true⟩ (a := (1 : ℚ)) (b := 4) (n := 7) (by decide) (by decide) (by norm_num)
example := C218_refined ⟨true⟩ (a := (1 : ℚ)) (b := 4) (n := 6) (k := 3) (by decide) (by decide) (by decide) (by norm_num)
example := C218_joined ⟨true⟩ (a := (1 : ℚ)) (h := 1 / 3) (n := 6) (m := 4) (by decide) (by decide) (by decide) (by norm_num)
example := C218_mean ⟨true⟩ (a := (1 : ℚ)) (b := 4) (n := 7) (by decide) (by decide) (by norm_num)
example := C218_logs ⟨true⟩ (a := -1) (b := 3) (base := 10) (n := 7) (by decide) (by decide) (by norm_num) (by norm_num) (by norm_num)
example := C218_base ⟨true⟩ (a := -1) (b := 3) (base := 10) (k := 2) (n := 7) (by decide) (by decide) (by norm_num) (by norm_num) (by norm_num)
example := C218_inverse ⟨true⟩ (a := -1) (b := 3) (base := 10) (n := 7) (by decide) (by decide) (by norm_num) (by norm_num)

end MU
