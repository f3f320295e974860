import Verif.Model.IeeeGeneration
import Verif.Lemmas.IeeeBridge
import Verif.Props.Rounded

/-!
# C175: linspace in binary64
-/

set_option linter.unusedSectionVars false

namespace MU
open Spec Dbl

variable {fl : ℝ → Option ℝ}

theorem linspaceI_ok (B : Build) {start stop : ℝ} {num : Nat} (hn : 2 ≤ num) (hn2 : num < 2 ^ 32) (hle : start ≤ stop) {step : Dbl ℝ}
    (hs : fquot fl (fsub fl (.num stop) (.num start)) (.num ((num - 1 : Nat) : ℝ)) = .ok step) :
    linspaceI fl B start stop num = .ok ((List.range num).map (fun i : Nat =>
      if i = num - 1 then .num stop else fadd fl (.num start) (fmul fl (.num (i : ℝ)) step))) := by
  unfold linspaceI
  rw [cassert_true B _ (by omega), Res.ok_bind, cassert_true B _ hle, Res.ok_bind]
  simp only [usub_of_le (show 1 ≤ num by omega) hn2]
  rw [if_neg (by omega), hs, Res.ok_bind]
  rw [fill_loop (show num - 1 ≤ num by omega) (.num (0 : ℝ)) (fun i : Nat => fadd fl (.num start) (fmul fl (.num (i : ℝ)) step))
    (fun i _ out _ => rfl), Res.ok_bind]
  unfold vSet
  rw [if_pos (by simp; omega)]
  congr 1
  apply List.ext_getElem?
  intro j
  rw [List.getElem?_set]
  by_cases hj : num - 1 = j
  · subst hj
    rw [if_pos rfl, if_pos (by simp; omega)]
    have : num - 1 < num := by omega
    simp [this]
  · rw [if_neg hj]
    by_cases hjn : j < num
    · have h1 : j < num - 1 := by omega
      have h2 : j ≠ num - 1 := by omega
      simp [hjn, h1, h2]
    · simp [hjn]

/-- The values computed without the range, in the range. -/
theorem linspace_range (h : Ieee fl) {start stop : ℝ} (ha : Double64 start) (hb : Double64 stop) {num : Nat} (hn : 2 ≤ num) (hn2 : num < 2 ^ 32)
    (hle : start ≤ stop) (ho : stop - start < overflow64) (hu : start = stop ∨ (2 : ℝ) ^ (-1022 : ℤ) ≤ (stop - start) / ((num - 1 : Nat) : ℝ)) (B : Build) :
    ∃ l, linspaceR (extend fl) B start stop num = .ok l ∧ linspaceI fl B start stop num = .ok (l.map .num) ∧ ∀ v ∈ l, Double64 v := by
  have hr := extend_toNearest h
  obtain ⟨n, rfl⟩ : ∃ n, num = n + 2 := ⟨num - 2, by omega⟩
  have hcast : ((n + 2 - 1 : Nat) : ℝ) = (n : ℝ) + 1 := by rw [show n + 2 - 1 = n + 1 by omega]; push_cast; ring
  have hn0 : (0 : ℝ) ≤ n := Nat.cast_nonneg n
  have hD : 0 ≤ stop - start := by linarith
  have hp : (0 : ℝ) < (2 : ℝ) ^ (-1022 : ℤ) := zpow_pos (by norm_num) _
  rw [hcast] at hu
  have hz : extend fl 0 = 0 := toNearest_double hr double_zero
  -- the difference
  have r1 : InRange (stop - start) := InRange.sub hb ha (by rwa [abs_of_nonneg hD])
  have d1 := extend_double64 h r1
  have hD1 : 0 ≤ extend fl (stop - start) := toNearest_ge hr double_zero hD
  -- the step
  have hlow : start = stop ∨ (2 : ℝ) ^ (-1022 : ℤ) ≤ extend fl (stop - start) / ((n : ℝ) + 1) := by
    refine hu.imp_right fun hu => ?_
    rw [le_div_iff₀ (by positivity)] at hu ⊢
    refine toNearest_ge hr ?_ hu
    refine ⟨((n + 1 : Nat) : ℤ), -1022, ?_, by push_cast; ring⟩
    rw [abs_of_nonneg (by positivity)]
    have : n + 1 < 2 ^ 53 := by omega
    exact_mod_cast this
  have hq0 : 0 ≤ extend fl (stop - start) / ((n : ℝ) + 1) := by positivity
  have hq1 : extend fl (stop - start) / ((n : ℝ) + 1) ≤ extend fl (stop - start) := div_le_self hD1 (by linarith)
  have r2 : InRange (extend fl (stop - start) / ((n : ℝ) + 1)) := by
    refine ⟨?_, ?_⟩
    · have := double64_le d1
      rw [abs_of_nonneg hD1] at this
      rw [abs_of_nonneg hq0]
      linarith
    · rcases hlow with he | hlow
      · refine Or.inr ⟨0, ?_⟩
        rw [he, sub_self, hz]
        simp
      · rw [abs_of_nonneg hq0]
        exact Or.inl hlow
  have d2 := extend_double64 h r2
  have hstep0 : 0 ≤ extend fl (extend fl (stop - start) / ((n : ℝ) + 1)) := toNearest_ge hr double_zero hq0
  have hstepl : start = stop ∨ (2 : ℝ) ^ (-1022 : ℤ) ≤ extend fl (extend fl (stop - start) / ((n : ℝ) + 1)) :=
    hlow.imp_right fun hlow => toNearest_ge hr ⟨1, -1022, by norm_num, by norm_num⟩ hlow
  have hstepz : start = stop → extend fl (extend fl (stop - start) / ((n : ℝ) + 1)) = 0 := fun e => by
    rw [e, sub_self, hz, zero_div, hz]
  -- the multiples
  have hnear : Near 2 ((stop - start) * (n + 1 : ℝ)⁻¹) ((stop - start) * (n + 1 : ℝ)⁻¹) (extend fl (extend fl (stop - start) / ((n : ℝ) + 1))) := by
    have h := (((Near.exact (stop - start)).round hr).mul (Near.exact ((n : ℝ) + 1)⁻¹)).round hr
    rw [abs_of_nonneg hD, abs_of_nonneg (by positivity)] at h
    rw [div_eq_mul_inv]
    exact h
  obtain ⟨l, hl, -, -, -, -, hbnd, -⟩ := C105_linspace hr B (double64_double ha) (double64_double hb) hn hn2 hle
  rw [linspaceR_ok B hn hn2 hle, hcast] at hl
  generalize hS : extend fl (extend fl (stop - start) / ((n : ℝ) + 1)) = step at *
  have hmul : ∀ i : Nat, i ≤ n → (i : ℝ) * step ≤ stop - start := by
    intro i hi
    have h2 : (i : ℝ) ≤ n := by exact_mod_cast hi
    have h1 := (le_abs_self _).trans hnear.abs_le
    have h3 : 1 + gam 2 ≤ 1 + 4 / 2 ^ 53 := by
      have := gam_le (k := 2) (by norm_num)
      unfold uround at this
      norm_num at this ⊢
      linarith
    have h4 : (n : ℝ) + 1 ≤ 2 ^ 32 := by
      have : n + 1 ≤ 2 ^ 32 := by omega
      exact_mod_cast this
    calc (i : ℝ) * step ≤ n * step := mul_le_mul_of_nonneg_right h2 hstep0
      _ ≤ n * ((1 + gam 2) * ((stop - start) * ((n : ℝ) + 1)⁻¹)) := mul_le_mul_of_nonneg_left h1 hn0
      _ = ((1 + gam 2) * n) * ((stop - start) * ((n : ℝ) + 1)⁻¹) := by ring
      _ ≤ (n + 1) * ((stop - start) * ((n : ℝ) + 1)⁻¹) := by
          refine mul_le_mul_of_nonneg_right ?_ (by positivity)
          calc (1 + gam 2) * n ≤ (1 + 4 / 2 ^ 53) * n := mul_le_mul_of_nonneg_right h3 hn0
            _ ≤ n + 1 := by linarith
      _ = stop - start := by field_simp
  have r3 : ∀ i : Nat, i ≤ n → InRange ((i : ℝ) * step) := by
    intro i hi
    have h0 : 0 ≤ (i : ℝ) * step := mul_nonneg (Nat.cast_nonneg i) hstep0
    refine ⟨by rw [abs_of_nonneg h0]; exact (hmul i hi).trans_lt ho, ?_⟩
    rw [abs_of_nonneg h0]
    rcases hstepl with he | hlow'
    · exact Or.inr ⟨0, by rw [hstepz he]; simp⟩
    · rcases Nat.eq_zero_or_pos i with rfl | hi0
      · exact Or.inr ⟨0, by simp⟩
      · have : (1 : ℝ) ≤ i := by exact_mod_cast hi0
        exact Or.inl (by nlinarith)
  have r4 : ∀ i : Nat, i ≤ n → InRange (start + extend fl ((i : ℝ) * step)) := by
    intro i hi
    have h0 : 0 ≤ (i : ℝ) * step := mul_nonneg (Nat.cast_nonneg i) hstep0
    refine InRange.add ha (extend_double64 h (r3 i hi)) ?_
    have h1 : 0 ≤ extend fl ((i : ℝ) * step) := toNearest_ge hr double_zero h0
    have h2 : extend fl ((i : ℝ) * step) ≤ stop - start := by
      have h := (((Near.exact (i : ℝ)).mul hnear).round hr)
      rw [abs_of_nonneg (Nat.cast_nonneg i)] at h
      have h3 := (le_abs_self _).trans h.abs_le
      have h4 : 1 + gam (0 + 2 + 1) ≤ 1 + 4 / 2 ^ 53 := by
        have := gam_le (k := 0 + 2 + 1) (by norm_num)
        unfold uround at this
        norm_num at this ⊢
        linarith
      have h5 : (n : ℝ) + 1 ≤ 2 ^ 32 := by
        have : n + 1 ≤ 2 ^ 32 := by omega
        exact_mod_cast this
      have h6 : (i : ℝ) ≤ n := by exact_mod_cast hi
      calc extend fl ((i : ℝ) * step) ≤ (1 + gam (0 + 2 + 1)) * (i * ((stop - start) * ((n : ℝ) + 1)⁻¹)) := h3
        _ = ((1 + gam (0 + 2 + 1)) * i) * ((stop - start) * ((n : ℝ) + 1)⁻¹) := by ring
        _ ≤ (n + 1) * ((stop - start) * ((n : ℝ) + 1)⁻¹) := by
            refine mul_le_mul_of_nonneg_right ?_ (by positivity)
            calc (1 + gam (0 + 2 + 1)) * i ≤ (1 + 4 / 2 ^ 53) * n := mul_le_mul h4 h6 (Nat.cast_nonneg i) (by norm_num)
              _ ≤ n + 1 := by linarith
        _ = stop - start := by field_simp
    have ha' := abs_lt.1 (double64_le ha)
    have hb' := abs_lt.1 (double64_le hb)
    exact abs_lt.2 ⟨by linarith, by linarith⟩
  have hd0 : ((n : ℝ) + 1) ≠ 0 := by positivity
  have hI := linspaceI_ok B hn hn2 hle (step := .num step) (fl := fl) (by
    rw [fsub_range h r1, hcast, fquot_range h hd0 r2, hS])
  refine ⟨l, by rw [linspaceR_ok B hn hn2 hle, hcast, hS]; exact hl, ?_, ?_⟩
  · rw [hI]
    injection hl with hl
    rw [← hl, List.map_map]
    congr 1
    refine List.map_congr_left fun i hi => ?_
    have hi := List.mem_range.1 hi
    simp only [Function.comp]
    by_cases he : i = n + 2 - 1
    · rw [if_pos he, if_pos he]
    · rw [if_neg he, if_neg he, fmul_range h (r3 i (by omega)), fadd_range h (r4 i (by omega))]
  · intro v hv
    injection hl with hl
    rw [← hl] at hv
    obtain ⟨i, hi, rfl⟩ := List.mem_map.1 hv
    have hi := List.mem_range.1 hi
    by_cases he : i = n + 2 - 1
    · rw [if_pos he]
      exact hb
    · rw [if_neg he]
      exact extend_double64 h (r4 i (by omega))

/-- C175, what holds: when neither the difference of the ends overflows nor the step underflows, `linspace` returns finite numbers: as many as asked, the
first `start` and the last `stop` exactly, never decreasing, each within `5u (|start| + (stop - start))` of its place. Missing: ends whose difference
overflows, steps below `2^-1022`. -/
theorem C175_linspace_partial (h : Ieee fl) (B : Build) {start stop : ℝ} (ha : Double64 start) (hb : Double64 stop) {n : Nat} (hn : 2 ≤ n) (hn2 : n < 2 ^ 32)
    (hle : start ≤ stop) (ho : stop - start < overflow64) (hu : start = stop ∨ (2 : ℝ) ^ (-1022 : ℤ) ≤ (stop - start) / ((n - 1 : Nat) : ℝ)) :
    ∃ l : List ℝ, linspaceI fl B start stop n = .ok (l.map .num) ∧ (∀ v ∈ l, Double64 v) ∧ l.length = n ∧ l.head? = some start ∧ l.getLast? = some stop ∧
      l.Pairwise (· ≤ ·) ∧ (∀ v ∈ l, start ≤ v ∧ v ≤ stop) ∧
      ∀ (i : Nat) (v : ℝ), l[i]? = some v → |v - (start + i * (stop - start) / (n - 1))| ≤ 5 / 2 ^ 53 * (|start| + (stop - start)) := by
  obtain ⟨l, h1, h2, h3⟩ := linspace_range h ha hb hn hn2 hle ho hu B
  obtain ⟨l', h4, h5⟩ := C105_linspace (extend_toNearest h) B (double64_double ha) (double64_double hb) hn hn2 hle
  rw [h1] at h4
  injection h4 with h4
  subst h4
  exact ⟨l, h2, h3, h5⟩

/-- C175 is false: from `-2^1023` to `2^1023` in three points the first is not a number and the second infinite, in every build: the difference of the ends
overflows, and 0 times the infinite step is not a number. -/
theorem C175_refuted (h : Ieee fl) (B : Build) : linspaceI fl B (-2 ^ 1023) (2 ^ 1023) 3 = .ok [.nan, .pinf, .num (2 ^ 1023)] := by
  have e1 : (2 : ℝ) ^ 1023 - -2 ^ 1023 = 2 ^ 1024 := by
    have : (2 : ℝ) ^ 1024 = 2 ^ 1023 * 2 := pow_succ 2 1023
    rw [this]
    generalize (2 : ℝ) ^ 1023 = x
    ring
  have hover : overflow64 ≤ (2 : ℝ) ^ 1024 := by
    have : (0 : ℝ) < 2 ^ 970 := by positivity
    unfold overflow64
    generalize (2 : ℝ) ^ 970 = x at *
    linarith
  have e2 : fsub fl (.num ((2 : ℝ) ^ 1023)) (.num (-2 ^ 1023)) = .pinf := by
    have := ofReal_pinf h (x := (2 : ℝ) ^ 1023 - -2 ^ 1023) (by rw [e1]; exact hover)
    rw [← this, sub_eq_add_neg]
    rfl
  have hpos : (0 : ℝ) < 2 ^ 1023 := by positivity
  rw [linspaceI_ok B (by norm_num) (by norm_num) (by clear e1 e2 hover; generalize (2 : ℝ) ^ 1023 = x at *; linarith) (step := .pinf) (by
    rw [e2]
    have : (0 : ℝ) < ((3 - 1 : Nat) : ℝ) := by norm_num
    simp only [fquot, if_neg this.ne', Dbl.mul]
    rw [if_pos (by positivity)]
    rfl)]
  generalize (2 : ℝ) ^ 1023 = x at *
  simp [List.range_succ, fmul, fadd, Dbl.mul, Dbl.add, rounded]

/-- C175 is false for small ends too: from 0 to three times the smallest positive number in six points, the fifth is above the end (the step is rounded up to the
smallest positive number). -/
theorem C175_refuted_underflow (h : Ieee fl) (B : Build) : linspaceI fl B 0 (3 * (2 : ℝ) ^ (-1074 : ℤ)) 6 =
    .ok [.num 0, .num ((2 : ℝ) ^ (-1074 : ℤ)), .num (2 * (2 : ℝ) ^ (-1074 : ℤ)), .num (3 * (2 : ℝ) ^ (-1074 : ℤ)), .num (4 * (2 : ℝ) ^ (-1074 : ℤ)),
      .num (3 * (2 : ℝ) ^ (-1074 : ℤ))] := by
  have hp : (0 : ℝ) < (2 : ℝ) ^ (-1074 : ℤ) := zpow_pos (by norm_num) _
  have hd : ∀ k : ℤ, |k| < 2 ^ 53 → Double64 ((k : ℝ) * (2 : ℝ) ^ (-1074 : ℤ)) := fun k hk => ⟨k, -1074, hk, le_rfl, by norm_num, rfl⟩
  have hfl : ∀ k : ℤ, |k| < 2 ^ 53 → ofReal fl ((k : ℝ) * (2 : ℝ) ^ (-1074 : ℤ)) = .num ((k : ℝ) * (2 : ℝ) ^ (-1074 : ℤ)) := fun k hk =>
    ofReal_some (ieee_double h (hd k hk))
  -- the step
  have hstep : fl (3 * (2 : ℝ) ^ (-1074 : ℤ) * ((5 : ℝ))⁻¹) = some ((2 : ℝ) ^ (-1074 : ℤ)) := by
    have ho : |3 * (2 : ℝ) ^ (-1074 : ℤ) * ((5 : ℝ))⁻¹| < overflow64 := by
      have h1 := double64_le (hd 1 (by norm_num))
      rw [abs_of_pos (by positivity)] at h1 ⊢
      push_cast at h1
      generalize (2 : ℝ) ^ (-1074 : ℤ) = t at *
      linarith
    obtain ⟨y, h1, h2, h3⟩ := (h _).1 ho
    rw [h1]
    congr 1
    have h4 := h3 _ (hd 1 (by norm_num))
    obtain ⟨k, rfl⟩ := double64_multiple h2
    generalize (2 : ℝ) ^ (-1074 : ℤ) = t at *
    push_cast at h4
    rw [show 3 * t * (5 : ℝ)⁻¹ - k * t = (3 / 5 - k) * t by ring, show 3 * t * (5 : ℝ)⁻¹ - 1 * t = (-2 / 5) * t by ring, abs_mul, abs_mul] at h4
    have h5 := le_of_mul_le_mul_right h4 (abs_pos.2 hp.ne')
    rw [show |(-2 / 5 : ℝ)| = 2 / 5 by norm_num] at h5
    obtain ⟨h6, h7⟩ := abs_le.1 h5
    have h8 : (0 : ℝ) < k := by linarith
    have h9 : (k : ℝ) < 2 := by linarith
    have : k = 1 := by
      have h8' : 0 < k := by exact_mod_cast h8
      have h9' : k < 2 := by exact_mod_cast h9
      omega
    rw [this]
    push_cast
    ring
  have hmul : ∀ k : ℤ, |k| < 2 ^ 53 → fmul fl (.num (k : ℝ)) (.num ((2 : ℝ) ^ (-1074 : ℤ))) = .num ((k : ℝ) * (2 : ℝ) ^ (-1074 : ℤ)) := hfl
  have hadd : ∀ k : ℤ, |k| < 2 ^ 53 → fadd fl (.num 0) (.num ((k : ℝ) * (2 : ℝ) ^ (-1074 : ℤ))) = .num ((k : ℝ) * (2 : ℝ) ^ (-1074 : ℤ)) := by
    intro k hk
    have : fadd fl (.num 0) (.num ((k : ℝ) * (2 : ℝ) ^ (-1074 : ℤ))) = ofReal fl (0 + (k : ℝ) * (2 : ℝ) ^ (-1074 : ℤ)) := rfl
    rw [this, zero_add, hfl k hk]
  have hsub : fsub fl (.num (3 * (2 : ℝ) ^ (-1074 : ℤ))) (.num 0) = .num (3 * (2 : ℝ) ^ (-1074 : ℤ)) := by
    have h1 := hfl 3 (by norm_num)
    push_cast at h1
    have : fsub fl (.num (3 * (2 : ℝ) ^ (-1074 : ℤ))) (.num 0) = ofReal fl (3 * (2 : ℝ) ^ (-1074 : ℤ) + -0) := rfl
    rw [this, neg_zero, add_zero, h1]
  rw [linspaceI_ok B (by norm_num) (by norm_num) (by positivity) (step := .num ((2 : ℝ) ^ (-1074 : ℤ))) (by
    rw [hsub, show ((6 - 1 : Nat) : ℝ) = 5 by norm_num]
    have : fquot fl (.num (3 * (2 : ℝ) ^ (-1074 : ℤ))) (.num 5) = .ok (ofReal fl (3 * (2 : ℝ) ^ (-1074 : ℤ) * (5 : ℝ)⁻¹)) := by
      have h5 : ¬ (5 : ℝ) = 0 := by norm_num
      simp only [fquot, if_neg h5]
      rfl
    rw [this, ofReal_some hstep])]
  have hall : ∀ k : ℕ, (k : ℤ) < 2 ^ 53 → fadd fl (.num 0) (fmul fl (.num (k : ℝ)) (.num ((2 : ℝ) ^ (-1074 : ℤ)))) = .num ((k : ℝ) * (2 : ℝ) ^ (-1074 : ℤ)) := by
    intro k hk
    have h1 := hmul k (by rwa [abs_of_nonneg (by positivity)])
    have h2 := hadd k (by rwa [abs_of_nonneg (by positivity)])
    rw [Int.cast_natCast] at h1 h2
    rw [h1, h2]
  simp only [List.range_succ, List.range_zero, List.nil_append, List.cons_append, List.map_cons, List.map_nil]
  rw [hall 0 (by norm_num), hall 1 (by norm_num), hall 2 (by norm_num), hall 3 (by norm_num), hall 4 (by norm_num)]
  norm_num only [Nat.cast_zero, Nat.cast_one, Nat.cast_ofNat, zero_mul, one_mul, if_true, if_false]

theorem double64_one : Double64 1 := ⟨1, 0, by norm_num, by norm_num, by norm_num, by norm_num⟩

/-- Non-vacuity: from 0 to 1 in 11 points in the arithmetic of the hardware. -/
example (B : Build) : ∃ l : List ℝ, linspaceI fl64 B 0 1 11 = .ok (l.map .num) ∧ l.length = 11 ∧ l.getLast? = some 1 := by
  obtain ⟨l, h1, -, h2, -, h3, -⟩ := C175_linspace_partial fl64_ieee B double64_zero double64_one (n := 11) (by norm_num) (by norm_num) zero_le_one
    (by
      have := double64_le double64_one
      rw [abs_one] at this
      simpa using this)
    (Or.inr (by
      have : (2 : ℝ) ^ (-1022 : ℤ) ≤ (2 : ℝ) ^ (-4 : ℤ) := zpow_le_zpow_right₀ (by norm_num) (by norm_num)
      refine this.trans ?_
      norm_num))
  exact ⟨l, h1, h2, h3⟩

/-- Non-vacuity: the refutations in the arithmetic of the hardware. -/
example (B : Build) : linspaceI fl64 B (-2 ^ 1023) (2 ^ 1023) 3 = .ok [.nan, .pinf, .num (2 ^ 1023)] := C175_refuted fl64_ieee B

end MU
