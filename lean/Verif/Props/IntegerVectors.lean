import Verif.Props.Integers

/-!
# Vectors of integers: C197
-/

set_option linter.unusedSectionVars false

namespace MU
open Spec

theorem bmod_small {n : ℤ} (h : Fits 32 n) : n.bmod (2 ^ 32) = n := by
  obtain ⟨h1, h2⟩ := h
  norm_num at h1 h2
  rw [Int.bmod_def]
  norm_num
  omega

theorem linspaceZ_ok (B : Build) {start stop : ℤ} {num : ℕ} (fa : Fits 32 start) (fb : Fits 32 stop) (hle : start ≤ stop) (fd : Fits 32 (stop - start)) (hn : 2 ≤ num) (hn2 : num < 2 ^ 32) :
    linspaceZ B start stop num = .ok ((List.range num).map (fun i : ℕ => if i = num - 1 then stop else start + (i : ℤ) * ((stop - start) / ((num - 1 : ℕ) : ℤ)))) := by
  unfold linspaceZ
  rw [cassert_true B _ (by omega), Res.ok_bind, cassert_true B _ hle, Res.ok_bind]
  simp only [usub_of_le (show 1 ≤ num by omega) hn2]
  rw [signed_ok fd, Res.ok_bind, if_neg (by omega)]
  obtain ⟨a1, a2⟩ := fa
  obtain ⟨b1, b2⟩ := fb
  obtain ⟨d1, d2⟩ := fd
  norm_num at a1 a2 b1 b2 d1 d2
  have hm : (stop - start) % 2 ^ 32 = stop - start := Int.emod_eq_of_lt (by omega) (by norm_num; omega)
  have hn0 : (0 : ℤ) < ((num - 1 : ℕ) : ℤ) := by omega
  set q := (stop - start) / ((num - 1 : ℕ) : ℤ) with hq
  have q0 : 0 ≤ q := Int.ediv_nonneg (by omega) hn0.le
  have q1 : q * ((num - 1 : ℕ) : ℤ) ≤ stop - start := Int.ediv_mul_le _ hn0.ne'
  have q2 : q ≤ stop - start := by nlinarith only [q0, q1, hn0]
  have hs : ((stop - start) % 2 ^ 32 / ((num - 1 : ℕ) : ℤ)).bmod (2 ^ 32) = q := by
    rw [hm, ← hq]
    exact bmod_small (by constructor <;> norm_num <;> omega)
  rw [hs]
  have hv : ∀ i : ℕ, i < num - 1 → ((start + (i : ℤ) * q) % 2 ^ 64).bmod (2 ^ 32) = start + (i : ℤ) * q := by
    intro i hi
    have hi' : (i : ℤ) ≤ ((num - 1 : ℕ) : ℤ) := by omega
    have p0 : 0 ≤ (i : ℤ) * q := mul_nonneg (by omega) q0
    have p1 : (i : ℤ) * q ≤ stop - start := by nlinarith only [hi', q0, q1]
    generalize (i : ℤ) * q = p at p0 p1
    rw [Int.bmod_def]
    norm_num
    omega
  rw [fill_loop (show num - 1 ≤ num by omega) (0 : ℤ) (fun i : ℕ => start + (i : ℤ) * q) (fun i hi out _ => by rw [hv i hi]), Res.ok_bind]
  unfold vSet
  rw [if_pos (by simp; omega)]
  congr 1
  apply List.ext_getElem?
  intro j
  rw [List.getElem?_set]
  by_cases hj : num - 1 = j
  · subst hj
    rw [if_pos rfl, if_pos (by simp; omega)]
    have : num - 1 < num := by omega
    simp [this]
  · rw [if_neg hj]
    by_cases hjn : j < num
    · have h1 : j < num - 1 := by omega
      have h2 : j ≠ num - 1 := by omega
      simp [hjn, h1, h2]
    · simp [hjn]

/-- **C197, part**: `linspace` of `int`s whose difference is an `int` goes from one end to the other, in order, and, when the number of intervals divides the length, in equal steps. -/
theorem C197_linspace_partial (B : Build) {start stop : ℤ} {num : ℕ} (fa : Fits 32 start) (fb : Fits 32 stop) (hle : start ≤ stop) (fd : Fits 32 (stop - start)) (hn : 2 ≤ num)
    (hn2 : num < 2 ^ 32) :
    ∃ z, linspaceZ B start stop num = .ok z ∧ z.length = num ∧ z[0]? = some start ∧ z[num - 1]? = some stop ∧
      (∀ (i : ℕ) (a b : ℤ), z[i]? = some a → z[i + 1]? = some b → a ≤ b) ∧
      (((num - 1 : ℕ) : ℤ) ∣ stop - start → ∀ (i : ℕ) (a : ℤ), z[i]? = some a → (a - start) * ((num - 1 : ℕ) : ℤ) = i * (stop - start)) := by
  have hn0 : (0 : ℤ) < ((num - 1 : ℕ) : ℤ) := by omega
  refine ⟨_, linspaceZ_ok B fa fb hle fd hn hn2, by simp, ?_, ?_, ?_, ?_⟩
  · rw [List.getElem?_map, List.getElem?_range (by omega)]
    simp only [Option.map_some]
    rw [if_neg (by omega)]
    simp
  · rw [List.getElem?_map, List.getElem?_range (by omega)]
    simp
  · intro i a b ha hb
    have hi : i + 1 < num := by
      have := (List.getElem?_eq_some_iff.1 hb).1
      simpa using this
    rw [List.getElem?_map, List.getElem?_range (by omega)] at ha hb
    simp only [Option.map_some, Option.some.injEq] at ha hb
    rw [if_neg (by omega)] at ha
    have q0 : 0 ≤ (stop - start) / ((num - 1 : ℕ) : ℤ) := Int.ediv_nonneg (by omega) hn0.le
    have q1 : (stop - start) / ((num - 1 : ℕ) : ℤ) * ((num - 1 : ℕ) : ℤ) ≤ stop - start := Int.ediv_mul_le _ hn0.ne'
    generalize (stop - start) / ((num - 1 : ℕ) : ℤ) = q at *
    split at hb
    · have hi' : (i : ℤ) ≤ ((num - 1 : ℕ) : ℤ) := by omega
      rw [← ha, ← hb]
      nlinarith only [hi', q0, q1]
    · rw [← ha, ← hb]
      push_cast
      nlinarith only [q0]
  · intro hd i a ha
    have hi : i < num := by
      have := (List.getElem?_eq_some_iff.1 ha).1
      simpa using this
    rw [List.getElem?_map, List.getElem?_range hi] at ha
    simp only [Option.map_some, Option.some.injEq] at ha
    have hq : (stop - start) / ((num - 1 : ℕ) : ℤ) * ((num - 1 : ℕ) : ℤ) = stop - start := Int.ediv_mul_cancel hd
    generalize (stop - start) / ((num - 1 : ℕ) : ℤ) = q at *
    split at ha
    · rename_i h
      rw [← ha, h]
      ring
    · rw [← ha]
      linear_combination (i : ℤ) * hq

/-- **C197, refuted**: `linspace(0, 10, 4)` is not equally spaced. -/
theorem C197_refuted_linspace (B : Build) : linspaceZ B 0 10 4 = .ok [0, 3, 6, 10] := by
  rw [linspaceZ_ok B (by constructor <;> norm_num) (by constructor <;> norm_num) (by norm_num) (by constructor <;> norm_num) (by norm_num) (by norm_num)]
  rfl

theorem zipLoopZ_ok (B : Build) {v1 v2 : List ℤ} (hlen : v2.length = v1.length) {op : ℤ → ℤ → Res ℤ} (f : ℤ → ℤ → ℤ)
    (h : ∀ i (h1 : i < v1.length) (h2 : i < v2.length), op v1[i] v2[i] = .ok (f v1[i] v2[i])) :
    zipLoopZ B v1 v2 op = .ok (List.zipWith f v1 v2) := by
  unfold zipLoopZ
  simp only [cassert_true B _ hlen, Res.ok_bind]
  rw [fill_all (0 : ℤ) (fun i => f (v1.getD i 0) (v2.getD i 0))]
  · congr 1
    apply List.ext_getElem
    · simp [hlen]
    · intro i h1 h2
      have : i < v1.length := by simpa using h1
      have h' : i < v2.length := by omega
      simp [this, h']
  · intro i hi out ho
    have h' : i < v2.length := by omega
    rw [vIdx_lt hi, Res.ok_bind, vIdx_lt h', Res.ok_bind, h i hi h', Res.ok_bind]
    simp [hi, h']

/-- **C197, part**: the element-wise operations on vectors of integers of `w` bits of the same length are exact when every result fits; `Divide` truncates towards zero. -/
theorem C197_elementwise_partial (w : ℕ) (B : Build) {v1 v2 : List ℤ} (hlen : v2.length = v1.length) :
    ((∀ p ∈ v1.zip v2, Fits w (p.1 + p.2)) → vAddZ w B v1 v2 = .ok (List.zipWith (· + ·) v1 v2)) ∧
    ((∀ p ∈ v1.zip v2, Fits w (p.1 - p.2)) → vMinusZ w B v1 v2 = .ok (List.zipWith (· - ·) v1 v2)) ∧
    ((∀ p ∈ v1.zip v2, Fits w (p.1 * p.2)) → vMultZ w B v1 v2 = .ok (List.zipWith (· * ·) v1 v2)) ∧
    ((∀ p ∈ v1.zip v2, p.2 ≠ 0 ∧ Fits w (p.1.tdiv p.2)) → vDivideZ w B v1 v2 = .ok (List.zipWith Int.tdiv v1 v2)) := by
  have mem : ∀ i (h1 : i < v1.length) (h2 : i < v2.length), (v1[i], v2[i]) ∈ v1.zip v2 := by
    intro i h1 h2
    rw [← List.getElem_zip (h := by simp; omega)]
    exact List.getElem_mem _
  refine ⟨fun h => ?_, fun h => ?_, fun h => ?_, fun h => ?_⟩
  · exact zipLoopZ_ok B hlen (· + ·) (fun i h1 h2 => signed_ok (h _ (mem i h1 h2)))
  · exact zipLoopZ_ok B hlen (· - ·) (fun i h1 h2 => signed_ok (h _ (mem i h1 h2)))
  · exact zipLoopZ_ok B hlen (· * ·) (fun i h1 h2 => signed_ok (h _ (mem i h1 h2)))
  · refine zipLoopZ_ok B hlen Int.tdiv (fun i h1 h2 => ?_)
    obtain ⟨h3, h4⟩ := h _ (mem i h1 h2)
    unfold quotZ
    rw [if_neg h3, signed_ok h4]

/-- **C197, refuted**: the most negative `int` divided by `-1`, and any `int` by zero, are undefined. -/
theorem C197_refuted_divide (B : Build) : vDivideZ 32 B [-2 ^ 31] [-1] = .ub ∧ vDivideZ 32 B [1] [0] = .ub := by
  rcases B with ⟨c⟩
  cases c
  · exact ⟨rfl, rfl⟩
  · exact ⟨rfl, rfl⟩

theorem vScaleZ_ok {w : ℕ} {v : List ℤ} {s : ℤ} (h : ∀ x ∈ v, Fits w (x * s)) : vScaleZ w v s = .ok (v.map (· * s)) := by
  induction v with
  | nil => rfl
  | cons x v ih =>
    rw [vScaleZ, signed_ok (h x (by simp)), Res.ok_bind, ih (fun y hy => h y (by simp [hy])), Res.ok_bind, Res.pure_eq]
    rfl

/-- **C197**: `Sum` is the exact sum when every partial sum fits, and undefined when one does not; `Scale` is exact when every product fits. -/
theorem C197_sum (w : ℕ) (v : List ℤ) (s : ℤ) :
    ((∀ k, 0 < k → k ≤ v.length → Fits w (v.take k).sum) → vSumZ w v = .ok v.sum) ∧ ((∃ k, 0 < k ∧ k ≤ v.length ∧ ¬ Fits w (v.take k).sum) → vSumZ w v = .ub) ∧
    ((∀ x ∈ v, Fits w (x * s)) → vScaleZ w v s = .ok (v.map (· * s))) := by
  have key : ∀ (v : List ℤ) (a : ℤ), ((∀ k, 0 < k → k ≤ v.length → Fits w (a + (v.take k).sum)) → v.foldlM (fun sum elt => signed w (sum + elt)) a = .ok (a + v.sum)) ∧
      ((∃ k, 0 < k ∧ k ≤ v.length ∧ ¬ Fits w (a + (v.take k).sum)) → v.foldlM (fun sum elt => signed w (sum + elt)) a = .ub) := by
    intro v
    induction v with
    | nil =>
      intro a
      refine ⟨fun _ => by simp [Res.pure_eq], ?_⟩
      rintro ⟨k, h0, h1, -⟩
      simp at h1
      omega
    | cons x v ih =>
      intro a
      obtain ⟨i1, i2⟩ := ih (a + x)
      refine ⟨fun h => ?_, ?_⟩
      · have h1 : Fits w (a + x) := by simpa using h 1 (by norm_num) (by simp)
        rw [List.foldlM_cons, signed_ok h1, Res.ok_bind, i1]
        · rw [List.sum_cons, add_assoc]
        · intro k hk hkl
          have := h (k + 1) (by omega) (by simpa using hkl)
          rwa [List.take_succ_cons, List.sum_cons, ← add_assoc] at this
      · rintro ⟨k, h0, h1, h2⟩
        rw [List.foldlM_cons]
        by_cases hx : Fits w (a + x)
        · rw [signed_ok hx, Res.ok_bind]
          apply i2
          obtain ⟨j, rfl⟩ : ∃ j, k = j + 1 := ⟨k - 1, by omega⟩
          rw [List.take_succ_cons, List.sum_cons, ← add_assoc] at h2
          refine ⟨j, ?_, by simpa using h1, h2⟩
          rcases Nat.eq_zero_or_pos j with rfl | h
          · exact absurd (by simpa using hx) h2
          · exact h
        · rw [signed_ub hx]
          rfl
  have h := key v 0
  simp only [zero_add] at h
  exact ⟨h.1, h.2, vScaleZ_ok⟩

theorem heavisideZ_ok (x : List ℤ) (s : ℤ) : heavisideZ x s = .ok (x.map (fun t => if s < t then 1 else 0)) := by
  have z : truncZ 32 (1 / 2) = .ok 0 := by
    unfold truncZ
    rw [if_pos (by norm_num), show ⌊(1 / 2 : ℝ)⌋ = 0 by rw [Int.floor_eq_zero_iff]; constructor <;> norm_num, signed_ok]
    constructor <;> norm_num
  unfold heavisideZ
  rw [fill_all (0 : ℤ) (fun i => if s < x.getD i 0 then 1 else 0)]
  · congr 1
    apply List.ext_getElem
    · simp
    · intro i h1 h2
      have : i < x.length := by simpa using h1
      simp [this]
  · intro i hi out ho
    have e : x.getD i 0 = x[i] := by simp [hi]
    rw [vIdx_lt hi, Res.ok_bind, e, z, Res.ok_bind]
    split
    · rw [if_neg (by omega)]
    · split <;> rfl

/-- **C197**: with `int`s, `Heaviside` is 0 up to and including the step and 1 after it, and `Door` is the height after the first end up to and including the second. -/
theorem C197_steps (B : Build) (x : List ℤ) {a b h : ℤ} (hab : a ≤ b) (hh : Fits 32 h) :
    heavisideZ x a = .ok (x.map (fun t => if a < t then 1 else 0)) ∧ doorZ B x a b h = .ok (x.map (fun t => if a < t ∧ t ≤ b then h else 0)) := by
  refine ⟨heavisideZ_ok x a, ?_⟩
  unfold doorZ
  rw [heavisideZ_ok, Res.ok_bind, heavisideZ_ok, Res.ok_bind]
  have e : ∀ t : ℤ, ((if a < t then 1 else 0) - (if b < t then 1 else 0) : ℤ) = if a < t ∧ t ≤ b then 1 else 0 := by
    intro t
    split <;> split <;> split <;> omega
  have h1 : vMinusZ 32 B (x.map (fun t => if a < t then 1 else 0)) (x.map (fun t => if b < t then 1 else 0)) = .ok (x.map (fun t => if a < t ∧ t ≤ b then 1 else 0)) := by
    rw [(C197_elementwise_partial 32 B (by simp)).2.1]
    · congr 1
      apply List.ext_getElem
      · simp
      · intro i h1 h2
        simp only [List.getElem_zipWith, List.getElem_map]
        exact e _
    · intro p hp
      obtain ⟨i, hi, rfl⟩ := List.getElem_of_mem hp
      simp only [List.getElem_zip, List.getElem_map]
      rw [e]
      split <;> constructor <;> norm_num
  rw [h1, Res.ok_bind, vScaleZ_ok]
  · rw [List.map_map]
    congr 1
    apply List.map_congr_left
    intro t _
    simp only [Function.comp]
    split <;> simp
  · intro t ht
    obtain ⟨u, -, rfl⟩ := List.mem_map.1 ht
    split
    · simpa using hh
    · constructor <;> norm_num

/-- **C197, part**: the `Ramp` of `int`s of moderate size is constant outside the two abscissas and, when the difference of the abscissas divides the difference of the levels, affine
between them. -/
theorem C197_ramp_partial (B : Build) {x : List ℤ} {a b yl yr x0 xn : ℤ} (hlen : x.length < 2 ^ 64) (hx0 : x[0]? = some x0) (hxn : x[x.length - 1]? = some xn) (h0 : x0 ≤ a) (hn : b ≤ xn)
    (hab : a < b) (ha : |a| ≤ 2 ^ 14) (hb : |b| ≤ 2 ^ 14) (hl : |yl| ≤ 2 ^ 14) (hr : |yr| ≤ 2 ^ 14) :
    ∃ z, rampZ B x a b yl yr = .ok z ∧ z.length = x.length ∧ ∀ (i : ℕ) (t y : ℤ), x[i]? = some t → z[i]? = some y →
      (t ≤ a → y = yl) ∧ (b < t → y = yr) ∧ (b - a ∣ yr - yl → a ≤ t → t ≤ b → (y - yl) * (b - a) = (yr - yl) * (t - a)) := by
  norm_num at ha hb hl hr
  obtain ⟨a1, a2⟩ := abs_le.1 ha
  obtain ⟨b1, b2⟩ := abs_le.1 hb
  obtain ⟨l1, l2⟩ := abs_le.1 hl
  obtain ⟨r1, r2⟩ := abs_le.1 hr
  set q := (yr - yl).tdiv (b - a) with hq
  have hq1 : |q| ≤ 32768 := by
    have h1 : |q| ≤ |yr - yl| := by
      rw [hq, Int.abs_eq_natAbs, Int.abs_eq_natAbs, Int.natAbs_tdiv]
      exact_mod_cast Nat.div_le_self _ _
    have h2 : |yr - yl| ≤ 32768 := by rw [abs_le]; omega
    exact h1.trans h2
  have prod : ∀ t : ℤ, |t| ≤ 16384 → |q * t| ≤ 536870912 := by
    intro t ht
    rw [abs_mul]
    calc |q| * |t| ≤ 32768 * 16384 := mul_le_mul hq1 ht (abs_nonneg _) (by norm_num)
      _ = 536870912 := by norm_num
  have fit : ∀ t : ℤ, |t| ≤ 2000000000 → Fits 32 t := by
    intro t ht
    rw [abs_le] at ht
    constructor <;> norm_num <;> omega
  have pa := prod a ha
  have hxl : x ≠ [] := by
    rintro rfl
    simp at hx0
  have hl0 : 1 ≤ x.length := List.length_pos_of_ne_nil hxl
  have e : rampZ B x a b yl yr = .ok ((List.range x.length).map (fun i => if x.getD i 0 ≤ a then yl else if x.getD i 0 ≤ b then q * x.getD i 0 + (yl - q * a) else yr)) := by
    unfold rampZ
    rw [cassert_true B _ hab.le, Res.ok_bind]
    simp only [usub_of_le hl0 hlen, vIdx_eq hx0, vIdx_eq hxn, Res.ok_bind, cassert_true B _ (show a ≥ x0 ∧ b ≤ xn from ⟨h0, hn⟩), ite_self,
      signed_ok (fit (yr - yl) (by rw [abs_le]; omega)), signed_ok (fit (b - a) (by rw [abs_le]; omega))]
    have hqz : quotZ 32 (yr - yl) (b - a) = .ok q := by
      unfold quotZ
      rw [if_neg (by omega), ← hq, signed_ok (fit q (hq1.trans (by norm_num)))]
    obtain ⟨p1, p2⟩ := abs_le.1 pa
    rw [hqz, Res.ok_bind, signed_ok (fit _ (pa.trans (by norm_num))), Res.ok_bind, signed_ok (fit (yl - q * a) (by rw [abs_le]; omega)), Res.ok_bind]
    refine fill_all (0 : ℤ) _ ?_
    intro i hi out ho
    have e : x.getD i 0 = x[i] := by simp [hi]
    rw [vIdx_lt hi, Res.ok_bind, e]
    split
    · rfl
    · split
      · rename_i c1 c2
        have pt := prod x[i] (by rw [abs_le]; omega)
        obtain ⟨t1, t2⟩ := abs_le.1 pt
        rw [signed_ok (fit _ (pt.trans (by norm_num))), Res.ok_bind, signed_ok (fit _ (by rw [abs_le]; omega)), Res.ok_bind]
      · rfl
  refine ⟨_, e, by simp, ?_⟩
  intro i t y ht hy
  have hi : i < x.length := (List.getElem?_eq_some_iff.1 ht).1
  rw [List.getElem?_map, List.getElem?_range hi] at hy
  simp only [Option.map_some, Option.some.injEq, List.getD_eq_getElem?_getD, ht, Option.getD_some] at hy
  refine ⟨fun h => ?_, fun h => ?_, fun hd h1 h2 => ?_⟩
  · rw [if_pos h] at hy
    exact hy.symm
  · rw [if_neg (by omega), if_neg (by omega)] at hy
    exact hy.symm
  · have hqd : q * (b - a) = yr - yl := Int.tdiv_mul_cancel hd
    rcases eq_or_lt_of_le h1 with rfl | h1
    · rw [if_pos le_rfl] at hy
      rw [← hy]
      ring
    · rw [if_neg (by omega), if_pos h2] at hy
      rw [← hy]
      linear_combination (t - a) * hqd

/-- **C197, part**: the `Ramp` of `int`s of every size for which the truncated slope times the abscissas fits: constant outside the two abscissas; between them it stays between the two
levels, and is off the straight line by less than the distance from the left abscissa. When the slope times the left abscissa does not fit, the call is undefined. -/
theorem C197_ramp_int_partial (B : Build) {x : List ℤ} {a b yl yr x0 xn : ℤ} (hlen : x.length < 2 ^ 64) (hx0 : x[0]? = some x0) (hxn : x[x.length - 1]? = some xn) (h0 : x0 ≤ a)
    (hn : b ≤ xn) (hab : a < b) (fl : Fits 32 yl) (fr : Fits 32 yr) (fy : Fits 32 (yr - yl)) (fx : Fits 32 (b - a)) :
    (Fits 32 ((yr - yl).tdiv (b - a) * a) → Fits 32 ((yr - yl).tdiv (b - a) * b) → Fits 32 (yl - (yr - yl).tdiv (b - a) * a) →
      ∃ z, rampZ B x a b yl yr = .ok z ∧ z.length = x.length ∧ ∀ (i : ℕ) (t y : ℤ), x[i]? = some t → z[i]? = some y →
        (t ≤ a → y = yl) ∧ (b < t → y = yr) ∧
        (a < t → t ≤ b → min yl yr ≤ y ∧ y ≤ max yl yr ∧ |(y - yl) * (b - a) - (yr - yl) * (t - a)| < (b - a) * (t - a))) ∧
    (¬ Fits 32 ((yr - yl).tdiv (b - a) * a) → rampZ B x a b yl yr = .ub) := by
  set q := (yr - yl).tdiv (b - a) with hq
  have hd : 0 < b - a := by omega
  have hmod := Int.mul_tdiv_add_tmod (yr - yl) (b - a)
  rw [← hq] at hmod
  have hr1 : |(yr - yl).tmod (b - a)| < b - a := by
    have := Int.natAbs_tmod (yr - yl) (b - a)
    have h2 := Nat.mod_lt (yr - yl).natAbs (show 0 < (b - a).natAbs by omega)
    rw [Int.abs_eq_natAbs, this]
    omega
  -- the slope has the sign of the difference of the levels and its product is no larger
  have up : 0 ≤ yr - yl → 0 ≤ q ∧ q * (b - a) ≤ yr - yl := by
    intro h
    have h1 := Int.tmod_nonneg (b - a) h
    exact ⟨by rw [hq]; exact Int.tdiv_nonneg h hd.le, by linarith [mul_comm q (b - a)]⟩
  have dn : yr - yl ≤ 0 → q ≤ 0 ∧ yr - yl ≤ q * (b - a) := by
    intro h
    have h1 : (yr - yl).tmod (b - a) ≤ 0 := by
      have h3 := Int.tmod_nonneg (b - a) (show 0 ≤ -(yr - yl) by omega)
      rw [Int.neg_tmod] at h3
      omega
    refine ⟨?_, by linarith [mul_comm q (b - a)]⟩
    have h4 := Int.tdiv_nonneg (show 0 ≤ -(yr - yl) by omega) hd.le
    rw [Int.neg_tdiv] at h4
    omega
  have fq : Fits 32 q := by
    rcases le_total 0 (yr - yl) with h | h
    · obtain ⟨h1, h2⟩ := up h
      have h3 : q ≤ q * (b - a) := le_mul_of_one_le_right h1 (by omega)
      exact ⟨by norm_num; omega, by have := fy.2; omega⟩
    · obtain ⟨h1, h2⟩ := dn h
      have h3 : q * (b - a) ≤ q := by nlinarith
      exact ⟨by have := fy.1; omega, by norm_num; omega⟩
  have hxl : x ≠ [] := by
    rintro rfl
    simp at hx0
  have hl0 : 1 ≤ x.length := List.length_pos_of_ne_nil hxl
  have hqz : quotZ 32 (yr - yl) (b - a) = .ok q := by
    unfold quotZ
    rw [if_neg (by omega), ← hq, signed_ok fq]
  refine ⟨fun fa fb fo => ?_, fun hf => ?_⟩
  · have e : rampZ B x a b yl yr = .ok ((List.range x.length).map (fun i => if x.getD i 0 ≤ a then yl else if x.getD i 0 ≤ b then q * x.getD i 0 + (yl - q * a) else yr)) := by
      unfold rampZ
      rw [cassert_true B _ hab.le, Res.ok_bind]
      simp only [usub_of_le hl0 hlen, vIdx_eq hx0, vIdx_eq hxn, Res.ok_bind, cassert_true B _ (show a ≥ x0 ∧ b ≤ xn from ⟨h0, hn⟩), ite_self, signed_ok fy, signed_ok fx]
      rw [hqz, Res.ok_bind, signed_ok fa, Res.ok_bind, signed_ok fo, Res.ok_bind]
      refine fill_all (0 : ℤ) _ ?_
      intro i hi out ho
      have e : x.getD i 0 = x[i] := by simp [hi]
      rw [vIdx_lt hi, Res.ok_bind, e]
      split
      · rfl
      · split
        · rename_i c1 c2
          have c1' : a < x[i] := by omega
          have ft : Fits 32 (q * x[i]) ∧ Fits 32 (q * x[i] + (yl - q * a)) := by
            rcases le_total 0 (yr - yl) with h | h
            · obtain ⟨h1, h2⟩ := up h
              have m1 : q * a ≤ q * x[i] := mul_le_mul_of_nonneg_left c1'.le h1
              have m2 : q * x[i] ≤ q * b := mul_le_mul_of_nonneg_left c2 h1
              have m3 : q * (b - a) = q * b - q * a := by ring
              exact ⟨⟨fa.1.trans m1, m2.trans_lt fb.2⟩, by have := fl.1; omega, by have := fr.2; omega⟩
            · obtain ⟨h1, h2⟩ := dn h
              have m1 : q * x[i] ≤ q * a := mul_le_mul_of_nonpos_left c1'.le h1
              have m2 : q * b ≤ q * x[i] := mul_le_mul_of_nonpos_left c2 h1
              have m3 : q * (b - a) = q * b - q * a := by ring
              exact ⟨⟨fb.1.trans m2, m1.trans_lt fa.2⟩, by have := fr.1; omega, by have := fl.2; omega⟩
          rw [signed_ok ft.1, Res.ok_bind, signed_ok ft.2, Res.ok_bind]
        · rfl
    refine ⟨_, e, by simp, ?_⟩
    intro i t y ht hy
    have hi : i < x.length := (List.getElem?_eq_some_iff.1 ht).1
    rw [List.getElem?_map, List.getElem?_range hi] at hy
    simp only [Option.map_some, Option.some.injEq, List.getD_eq_getElem?_getD, ht, Option.getD_some] at hy
    refine ⟨fun h => ?_, fun h => ?_, fun h1 h2 => ?_⟩
    · rw [if_pos h] at hy
      exact hy.symm
    · rw [if_neg (by omega), if_neg (by omega)] at hy
      exact hy.symm
    · rw [if_neg (by omega), if_pos h2] at hy
      have hy' : y = yl + q * (t - a) := by rw [← hy]; ring
      have ht1 : 0 < t - a := by omega
      have ht2 : t - a ≤ b - a := by omega
      have err : |(y - yl) * (b - a) - (yr - yl) * (t - a)| < (b - a) * (t - a) := by
        rw [hy', ← hmod, show (yl + q * (t - a) - yl) * (b - a) - ((b - a) * q + (yr - yl).tmod (b - a)) * (t - a) = -((yr - yl).tmod (b - a)) * (t - a) by ring, abs_mul, abs_neg,
          abs_of_pos ht1]
        exact mul_lt_mul_of_pos_right hr1 ht1
      rcases le_total 0 (yr - yl) with h | h
      · obtain ⟨g1, g2⟩ := up h
        have m1 : 0 ≤ q * (t - a) := mul_nonneg g1 ht1.le
        have m2 : q * (t - a) ≤ q * (b - a) := mul_le_mul_of_nonneg_left ht2 g1
        exact ⟨by rw [min_eq_left (by omega)]; omega, by rw [max_eq_right (by omega)]; omega, err⟩
      · obtain ⟨g1, g2⟩ := dn h
        have m1 : q * (t - a) ≤ 0 := mul_nonpos_of_nonpos_of_nonneg g1 ht1.le
        have m2 : q * (b - a) ≤ q * (t - a) := mul_le_mul_of_nonpos_left ht2 g1
        exact ⟨by rw [min_eq_right (by omega)]; omega, by rw [max_eq_left (by omega)]; omega, err⟩
  · unfold rampZ
    rw [cassert_true B _ hab.le, Res.ok_bind]
    simp only [usub_of_le hl0 hlen, vIdx_eq hx0, vIdx_eq hxn, Res.ok_bind, cassert_true B _ (show a ≥ x0 ∧ b ≤ xn from ⟨h0, hn⟩), ite_self, signed_ok fy, signed_ok fx]
    rw [hqz, Res.ok_bind]
    have : signed 32 (q * a) = .ub := by
      unfold signed
      exact if_neg hf
    rw [this]
    rfl

/-- Non-vacuity: a `Ramp` from `-2^30` to `10^9` between -1000 and 2000000. -/
example := (C197_ramp_int_partial ⟨true⟩ (x := [-2000, 0, 2000, 2000001]) (a := -1000) (b := 2000000) (yl := -2 ^ 30) (yr := 10 ^ 9) (by decide) rfl rfl (by norm_num) (by norm_num)
  (by norm_num) (by constructor <;> norm_num) (by constructor <;> norm_num) (by constructor <;> norm_num) (by constructor <;> norm_num)).1
  (by constructor <;> decide) (by constructor <;> decide) (by constructor <;> decide)

/-- **C197, refuted**: a `Ramp` of `int`s from 0 to 3 over four steps stays at 0, and one between equal abscissas is undefined. -/
theorem C197_refuted_ramp (B : Build) : rampZ B [0, 1, 2, 3, 4] 0 4 0 3 = .ok [0, 0, 0, 0, 0] ∧ rampZ B [0, 1] 1 1 0 1 = .ub := by
  rcases B with ⟨c⟩
  cases c
  · exact ⟨rfl, rfl⟩
  · exact ⟨rfl, rfl⟩

/-- Non-vacuity: `linspace(-4, 6, 6)`, a vector of two `int`s, a `Ramp` from 1 to 7 between 0 and 2. -/
example : Fits 32 (-4) ∧ Fits 32 6 ∧ Fits 32 (6 - -4) ∧ ((6 - 1 : ℕ) : ℤ) ∣ 6 - -4 ∧ (∀ p ∈ ([7, -9] : List ℤ).zip [2, 4], p.2 ≠ 0 ∧ Fits 32 (p.1.tdiv p.2)) ∧
    (∀ k, 0 < k → k ≤ ([7, -9] : List ℤ).length → Fits 32 (([7, -9] : List ℤ).take k).sum) ∧ ¬ Fits 32 (([2 ^ 30, 2 ^ 30, -1] : List ℤ).take 2).sum ∧ (2 - 0 : ℤ) ∣ 7 - 1 := by
  refine ⟨by constructor <;> norm_num, by constructor <;> norm_num, by constructor <;> norm_num, ⟨2, by norm_num⟩, ?_, ?_, ?_, ⟨3, by norm_num⟩⟩
  · intro p hp
    simp only [List.zip_cons_cons, List.zip_nil_left, List.mem_cons, List.not_mem_nil, or_false] at hp
    rcases hp with rfl | rfl
    · exact ⟨by norm_num, by constructor <;> decide⟩
    · exact ⟨by norm_num, by constructor <;> decide⟩
  · intro k h1 h2
    have : k = 1 ∨ k = 2 := by simp at h2; omega
    rcases this with rfl | rfl <;> constructor <;> norm_num
  · rintro ⟨-, h⟩
    norm_num at h

end MU
