import Verif.Model.RoundedSignals
import Verif.Props.Rounded
import Verif.Props.RoundedGeometry
import Verif.Props.RoundedUnit
import Verif.Props.Vectors
import Verif.Props.Convolution

/-!
# Signals in double arithmetic (C151, C152, C153)
-/

set_option linter.unusedSectionVars false

namespace MU
open Finset Spec

variable {rnd : ℝ → ℝ} {M : CMath}

/-! ## C151: the ramp -/

theorem rampR_ok (hr : ToNearest rnd) (B : Build) (x : List ℝ) {a b yl yr : ℝ} (hx : x ≠ []) (hlen : x.length < 2 ^ 64) (hab : a ≤ b)
    (h0 : x.head hx ≤ a) (h1 : b ≤ x.getLast hx) :
    rampR rnd B x a b yl yr = .ok (x.map (fun t => if t ≤ a then yl else if t ≤ b then
      rnd (rnd (rnd (rnd (yr - yl) / rnd (b - a)) * t) + rnd (yl - rnd (rnd (rnd (yr - yl) / rnd (b - a)) * a))) else yr)) := by
  have hl : 0 < x.length := List.length_pos_iff.2 hx
  have hassert : rampAssert B x a b = .ok () := by
    unfold rampAssert
    split
    · rw [vIdx_lt hl, Res.ok_bind, if_pos (by rw [ge_iff_le, ← List.head_eq_getElem hx]; exact h0), usub_of_le (by omega) hlen,
        vIdx_lt (show x.length - 1 < x.length by omega), Res.ok_bind, if_pos (by rw [← List.getLast_eq_getElem hx]; exact h1)]
    · rfl
  unfold rampR
  simp only [cassert_true B _ hab, Res.ok_bind, hassert]
  refine elementwise (fun t => if t ≤ a then yl else if t ≤ b then
      rnd (rnd (rnd (rnd (yr - yl) / rnd (b - a)) * t) + rnd (yl - rnd (rnd (rnd (yr - yl) / rnd (b - a)) * a))) else yr) ?_
  intro i hi out _
  simp only [vIdx_lt hi, Res.ok_bind]
  by_cases ha : x[i] ≤ a
  · rw [if_pos ha, if_pos ha]
  · rw [if_neg ha, if_neg ha]
    by_cases hb : x[i] ≤ b
    · have hne : rnd (b - a) ≠ 0 := by
        have := not_le.1 ha
        apply toNearest_ne_zero hr
        intro h
        linarith
      rw [if_pos hb, if_pos hb, fdiv_ok hne]
      simp only [Res.ok_bind, Res.pure_eq]
    · rw [if_neg hb, if_neg hb]

/-- **C151** (in part: up to an error): `Ramp` in double arithmetic. The result is `yl` up to `a`, `yr` beyond `b`, and between them differs from the
straight line by at most `8u (|yl| + (|yl| + |yr|) (|t| + |a|) / (b - a))`. Missing: values between `yl` and `yr`, and `yr` at `b`, see
`C151_refuted`. -/
theorem C151_ramp_partial (hr : ToNearest rnd) (B : Build) (x : List ℝ) {a b yl yr : ℝ} (hx : x ≠ []) (hlen : x.length < 2 ^ 64) (hab : a ≤ b)
    (h0 : x.head hx ≤ a) (h1 : b ≤ x.getLast hx) :
    ∃ y, rampR rnd B x a b yl yr = .ok y ∧ y.length = x.length ∧ ∀ (i : Nat) (t v : ℝ), x[i]? = some t → y[i]? = some v →
      (t ≤ a → v = yl) ∧ (b < t → v = yr) ∧
      (a < t → t ≤ b → |v - (yl + (t - a) * (yr - yl) / (b - a))| ≤ 8 / 2 ^ 53 * (|yl| + (|yl| + |yr|) * (|t| + |a|) / (b - a))) := by
  refine ⟨_, rampR_ok hr B x hx hlen hab h0 h1, by simp, ?_⟩
  intro i t v ht hv
  rw [List.getElem?_map, ht, Option.map_some] at hv
  have hv := (Option.some.inj hv).symm
  refine ⟨fun h => by rw [hv, if_pos h], fun h => by rw [hv, if_neg (by linarith), if_neg (by linarith)], fun h h' => ?_⟩
  rw [if_neg (by linarith), if_pos h'] at hv
  have hd : 0 < b - a := by linarith
  have hinv := Near.inv_round hr (d := b - a)
  have ha := (((((Near.exact yr).sub (Near.exact yl)).round hr).mul hinv).round hr)
  have hb := ((((Near.exact yl).upto (show 0 ≤ 5 by norm_num)).sub ((ha.mul (Near.exact a)).round hr)).round hr)
  have ht := (((ha.mul (Near.exact t)).round hr).upto (show 0 + 1 + 2 + 1 + 0 + 1 ≤ 5 + 1 by norm_num)).add hb
  have htot := ht.round hr
  have h := htot.err
  have hq : |(b - a)⁻¹| = (b - a)⁻¹ := abs_of_pos (inv_pos.2 hd)
  rw [hq] at h
  have hg : gam (5 + 1 + 1) ≤ 8 / 2 ^ 53 := by
    have := gam_le (k := 5 + 1 + 1) (by norm_num)
    unfold uround at this
    norm_num at this ⊢
    linarith
  have e : yl + (t - a) * (yr - yl) / (b - a) = (yr - yl) * (b - a)⁻¹ * t + (yl - (yr - yl) * (b - a)⁻¹ * a) := by
    rw [div_eq_mul_inv]
    ring
  rw [hv, e, div_eq_mul_inv, div_eq_mul_inv]
  refine h.trans (mul_le_mul hg (le_of_eq ?_) ?_ (by norm_num))
  · rw [div_eq_mul_inv]
    ring
  · have := htot.nonneg
    rwa [hq] at this

/-- **C151** is false: the ramp from `0` at `2^52` to `0.2` at `2^52 + 1` takes the value `0.25` at `2^52 + 1`. -/
theorem C151_refuted (hr : ToNearest rnd) (B : Build) :
    let c : ℝ := 7205759403792794 * (2 : ℝ) ^ (-55 : ℤ)
    |c - 1 / 5| < 1 / 2 ^ 55 ∧ Double c ∧ Double (2 ^ 52) ∧ Double (2 ^ 52 + 1) ∧
      rampR rnd B [2 ^ 52, 2 ^ 52 + 1] (2 ^ 52) (2 ^ 52 + 1) 0 c = .ok [0, 1 / 4] := by
  intro c
  have dc : Double c := ⟨7205759403792794, -55, by norm_num, by simp only [c]; norm_num⟩
  have d0 : Double (2 ^ 52) := ⟨2 ^ 52, 0, by norm_num, by norm_num⟩
  have d1 : Double (2 ^ 52 + 1) := ⟨2 ^ 52 + 1, 0, by norm_num, by norm_num⟩
  refine ⟨by simp only [c]; norm_num [abs_lt], dc, d0, d1, ?_⟩
  have r1 : rnd 1 = 1 := toNearest_double hr ⟨1, 0, by norm_num, by norm_num⟩
  have hlo : rnd (c * 2 ^ 52) = 7205759403792794 * (2 : ℝ) ^ (-3 : ℤ) := by
    rw [toNearest_double hr ⟨7205759403792794, -3, by norm_num, by simp only [c]; norm_num⟩]
    simp only [c]
    norm_num
  have hneg : rnd (0 - 7205759403792794 * (2 : ℝ) ^ (-3 : ℤ)) = -(7205759403792794 * (2 : ℝ) ^ (-3 : ℤ)) := by
    rw [toNearest_double hr ⟨-7205759403792794, -3, by norm_num, by norm_num⟩]
    norm_num
  have hhi : rnd (c * (2 ^ 52 + 1)) = ((7205759403792796 : ℤ) : ℝ) * (2 : ℝ) ^ (-3 : ℤ) :=
    toNearest_eq hr 7205759403792796 (-3) (by norm_num) (by norm_num) (by simp only [c]; norm_num [abs_lt])
  have hq : rnd (1 / 4) = 1 / 4 := toNearest_double hr ⟨1, -2, by norm_num, by norm_num⟩
  rw [rampR_ok hr B _ (by simp) (by simp) (by norm_num) (by simp) (by simp)]
  have e1 : (2 : ℝ) ^ 52 + 1 - 2 ^ 52 = 1 := by ring
  rw [e1, r1, sub_zero, toNearest_double hr dc, div_one, toNearest_double hr dc, hlo, hneg]
  have e2 : rnd (rnd (c * (2 ^ 52 + 1)) + -(7205759403792794 * (2 : ℝ) ^ (-3 : ℤ))) = 1 / 4 := by
    rw [hhi, show ((7205759403792796 : ℤ) : ℝ) * (2 : ℝ) ^ (-3 : ℤ) + -(7205759403792794 * (2 : ℝ) ^ (-3 : ℤ)) = 1 / 4 by norm_num, hq]
  have e3 : ¬ ((2 : ℝ) ^ 52 + 1 ≤ 2 ^ 52) := by norm_num
  simp only [List.map_cons, List.map_nil, le_refl, if_true, if_neg e3, e2]

/-- C151: the hypotheses are met. -/
example : ∃ rnd y, ToNearest rnd ∧ rampR rnd ⟨true⟩ [0, 1, 2, 3] 0 3 1 2 = .ok y ∧ y.length = 4 := by
  obtain ⟨y, h1, h2, _⟩ := C151_ramp_partial roundNearest_toNearest ⟨true⟩ [0, 1, 2, 3] (a := 0) (b := 3) (yl := 1) (yr := 2) (by simp) (by simp)
    (by norm_num) (by simp) (by simp)
  exact ⟨_, y, roundNearest_toNearest, h1, h2⟩

/-! ## C152: element-wise operations, sums, sinc, door and impulse -/

theorem rnd_rel (hr : ToNearest rnd) (x : ℝ) : |rnd x - x| ≤ |x| / 2 ^ 53 := by
  rw [abs_sub_comm]
  exact toNearest_err hr x

/-- **C152**: the element-wise operations in double arithmetic give the exact result of each operation up to half a unit in the last place. -/
theorem C152_elementwise (hr : ToNearest rnd) (B : Build) {v w : List ℝ} (h : w.length = v.length) :
    (∃ z, vAddR rnd B v w = .ok z ∧ z.length = v.length ∧ ∀ (i : Nat) (a b c : ℝ), v[i]? = some a → w[i]? = some b → z[i]? = some c →
      |c - (a + b)| ≤ |a + b| / 2 ^ 53) ∧
    (∃ z, vMinusR rnd B v w = .ok z ∧ z.length = v.length ∧ ∀ (i : Nat) (a b c : ℝ), v[i]? = some a → w[i]? = some b → z[i]? = some c →
      |c - (a - b)| ≤ |a - b| / 2 ^ 53) ∧
    (∃ z, vMultR rnd B v w = .ok z ∧ z.length = v.length ∧ ∀ (i : Nat) (a b c : ℝ), v[i]? = some a → w[i]? = some b → z[i]? = some c →
      |c - a * b| ≤ |a * b| / 2 ^ 53) ∧
    ((∀ b ∈ w, b ≠ 0) → ∃ z, vDivideR rnd B v w = .ok z ∧ z.length = v.length ∧ ∀ (i : Nat) (a b c : ℝ), v[i]? = some a → w[i]? = some b → z[i]? = some c →
      |c - a / b| ≤ |a / b| / 2 ^ 53) ∧
    ∀ alpha : ℝ, (vScaleR rnd v alpha).length = v.length ∧ ∀ (i : Nat) (a c : ℝ), v[i]? = some a → (vScaleR rnd v alpha)[i]? = some c →
      |c - a * alpha| ≤ |a * alpha| / 2 ^ 53 := by
  have key : ∀ op : ℝ → ℝ → ℝ, ∀ (i : Nat) (a b c : ℝ), v[i]? = some a → w[i]? = some b → (List.zipWith (fun a b => rnd (op a b)) v w)[i]? = some c →
      |c - op a b| ≤ |op a b| / 2 ^ 53 := by
    intro op i a b c ha hb hc
    rw [List.getElem?_zipWith, ha, hb] at hc
    rw [← Option.some.inj hc]
    exact rnd_rel hr _
  refine ⟨?_, ?_, ?_, fun h0 => ?_, fun alpha => ?_⟩
  · exact ⟨_, zipLoop_ok B h (fun a b => rnd (a + b)) (fun _ _ _ => rfl), by simp [h], key _⟩
  · exact ⟨_, zipLoop_ok B h (fun a b => rnd (a - b)) (fun _ _ _ => rfl), by simp [h], key _⟩
  · exact ⟨_, zipLoop_ok B h (fun a b => rnd (a * b)) (fun _ _ _ => rfl), by simp [h], key _⟩
  · refine ⟨_, zipLoop_ok B h (fun a b => rnd (a / b)) (fun i h1 h2 => ?_), by simp [h], key _⟩
    rw [fdiv_ok (h0 _ (List.getElem_mem h2)), Res.ok_bind, Res.pure_eq]
  · refine ⟨by simp [vScaleR], fun i a c ha hc => ?_⟩
    rw [vScaleR, List.getElem?_map, ha, Option.map_some] at hc
    rw [← Option.some.inj hc]
    exact rnd_rel hr _

/-- **C152**: `Sum` in double arithmetic: the error is at most `(1+u)^n - 1` times the sum of the magnitudes. -/
theorem C152_sum (hr : ToNearest rnd) (v : List ℝ) :
    |vSumR rnd v - v.sum| ≤ ((1 + 1 / 2 ^ 53) ^ v.length - 1) * (v.map (|·|)).sum := by
  have key : Near v.length (v.map (|·|)).sum v.sum (vSumR rnd v) := by
    induction v using List.reverseRecOn with
    | nil => simpa [vSumR] using Near.exact (0 : ℝ)
    | append_singleton l a ih =>
      have h := (ih.add ((Near.exact a).upto (Nat.zero_le l.length))).round hr
      simpa [vSumR] using h
  exact key.err

/-- The `sin` of the library within one unit in the last place. -/
def SinClose (M : CMath) : Prop := ∀ t, |M.sin t - Real.sin t| ≤ |Real.sin t| / 2 ^ 52

/-- **C152**: `Sinc` in double arithmetic: the relative error is at most `4u`, and the value at 0 is 1. -/
theorem C152_sinc (hr : ToNearest rnd) (hM : SinClose M) (x : List ℝ) :
    ∃ y, sincVecR rnd M x = .ok y ∧ y.length = x.length ∧ ∀ (i : Nat) (t v : ℝ), x[i]? = some t → y[i]? = some v →
      (t = 0 → v = 1) ∧ |v - Real.sinc t| ≤ 4 / 2 ^ 53 * |Real.sinc t| := by
  have hy : sincVecR rnd M x = .ok (x.map fun t => if t = 0 then 1 else rnd (M.sin t / t)) := by
    unfold sincVecR
    refine elementwise (fun t => if t = 0 then 1 else rnd (M.sin t / t)) ?_
    intro i hi out _
    rw [vIdx_lt hi, Res.ok_bind]
    by_cases h : x[i] = 0
    · simp only [if_pos h]
    · rw [if_neg h, fdiv_ok h, Res.ok_bind, if_neg h]
  refine ⟨_, hy, by simp, ?_⟩
  intro i t v ht hv
  rw [List.getElem?_map, ht, Option.map_some] at hv
  have hv := (Option.some.inj hv).symm
  refine ⟨fun h => by rw [hv, if_pos h], ?_⟩
  by_cases h : t = 0
  · rw [hv, if_pos h, h, Real.sinc_zero, sub_self, abs_zero]
    positivity
  · rw [hv, if_neg h, Real.sinc_of_ne_zero h]
    have h1 : Near 2 |Real.sin t| (Real.sin t) (M.sin t) := by
      refine ⟨(hM t).trans ?_, le_rfl⟩
      have : gam 2 = 2 * uround + uround ^ 2 := by unfold gam; ring
      rw [this, div_eq_mul_inv, mul_comm]
      refine mul_le_mul_of_nonneg_right ?_ (abs_nonneg _)
      unfold uround
      norm_num
    have h2 := (h1.mul (Near.exact t⁻¹)).round hr
    have h3 := h2.err
    rw [← abs_mul] at h3
    rw [div_eq_mul_inv, div_eq_mul_inv]
    refine h3.trans (mul_le_mul_of_nonneg_right ?_ (abs_nonneg _))
    have := gam_le (k := 2 + 0 + 1) (by norm_num)
    unfold uround at this
    norm_num at this ⊢
    linarith

/-- **C152**: `Door` makes no error in double arithmetic: the height inside, half of it at the ends, 0 outside. -/
theorem C152_door (hr : ToNearest rnd) (B : Build) (x : List ℝ) {a b h : ℝ} (hab : a < b) (hh : Double h) :
    doorR rnd B x a b h = .ok (x.map (Spec.window a b h)) := by
  have r1 : rnd 1 = 1 := toNearest_double hr ⟨1, 0, by norm_num, by norm_num⟩
  have r0 : rnd 0 = 0 := toNearest_double hr double_zero
  have r2 : rnd (1 / 2) = 1 / 2 := toNearest_double hr ⟨1, -1, by norm_num, by norm_num⟩
  have rh : rnd h = h := toNearest_double hr hh
  have rh2 : rnd (1 / 2 * h) = h / 2 := by
    obtain ⟨m, e, hm, rfl⟩ := hh
    have : 1 / 2 * ((m : ℝ) * 2 ^ e) = (m : ℝ) * 2 ^ (e - 1) := by
      rw [zpow_sub₀ (by norm_num)]
      ring
    rw [toNearest_double hr ⟨m, e - 1, hm, this⟩]
    ring
  have e12 : (1 : ℝ) - 1 / 2 = 1 / 2 := by norm_num
  unfold doorR
  rw [C52_heaviside, Res.ok_bind, C52_heaviside, Res.ok_bind]
  unfold vMinusR
  rw [zipLoop_ok B (by simp) (fun a b => rnd (a - b)) (fun _ _ _ => rfl), Res.ok_bind]
  simp only [vScaleR, Res.pure_eq]
  congr 1
  apply List.ext_getElem
  · simp
  · intro i k1 k2
    simp only [List.getElem_map, List.getElem_zipWith]
    have hi : i < x.length := by simpa using k2
    generalize x[i] = y
    unfold Spec.window Spec.step
    rcases lt_trichotomy y a with h1 | h1 | h1
    · rw [if_pos h1, if_pos (h1.trans hab), if_pos (Or.inl h1), sub_zero, r0, zero_mul, r0]
    · subst h1
      rw [if_neg (lt_irrefl _), if_pos rfl, if_pos hab, sub_zero, r2, rh2, if_neg (by simp [hab.le]), if_pos (Or.inl rfl)]
    · rcases lt_trichotomy y b with h3 | h3 | h3
      · rw [if_neg (not_lt.2 h1.le), if_neg h1.ne', if_pos h3, sub_zero, r1, one_mul, rh, if_neg (by simp [h1.le, h3.le]), if_neg (by simp [h1.ne', h3.ne])]
      · subst h3
        rw [if_neg (not_lt.2 h1.le), if_neg h1.ne', if_neg (lt_irrefl y), if_pos (Eq.refl y), e12, r2, rh2, if_neg (by simp [h1.le]), if_pos (Or.inr rfl)]
      · rw [if_neg (not_lt.2 h1.le), if_neg h1.ne', if_neg (not_lt.2 h3.le), if_neg h3.ne', sub_self, r0, zero_mul, r0, if_pos (Or.inr h3)]

theorem double_half {d : ℝ} (h : Double d) : Double (1 / 2 * d) := by
  obtain ⟨m, e, hm, rfl⟩ := h
  refine ⟨m, e - 1, hm, ?_⟩
  rw [zpow_sub₀ (by norm_num)]
  ring

theorem double_twice {d : ℝ} (h : Double d) : Double (2 * d) := by
  obtain ⟨m, e, hm, rfl⟩ := h
  refine ⟨m, e + 1, hm, ?_⟩
  rw [zpow_add₀ (by norm_num)]
  ring

theorem double_abs {d : ℝ} (h : Double d) : Double |d| := by
  obtain ⟨m, e, hm, rfl⟩ := h
  refine ⟨|m|, e, by simpa using hm, ?_⟩
  rw [abs_mul, abs_of_pos (zpow_pos (by norm_num : (0 : ℝ) < 2) e), Int.cast_abs]

/-- **C152**: `Dirac` in double arithmetic, on a vector whose second value is not below the first. A sample that is given the height is within half a
step of the impulse, and every sample within half a step less two units in the last place is given it. -/
theorem C152_dirac (hr : ToNearest rnd) {x : List ℝ} {x0 x1 : ℝ} (h0 : x[0]? = some x0) (h1 : x[1]? = some x1) (h01 : x0 ≤ x1)
    (p h : ℝ) : ∃ y, diracR rnd x p h = .ok y ∧ y.length = x.length ∧ ∀ (i : Nat) (t v : ℝ), x[i]? = some t → y[i]? = some v →
      (v = h ∨ v = 0) ∧ (v ≠ 0 → |t - p| ≤ (x1 - x0) / 2) ∧ (|t - p| < (1 - 1 / 2 ^ 52) * ((x1 - x0) / 2) → v = h) := by
  have hy : diracR rnd x p h = .ok (x.map fun t => if |rnd (t - p)| < rnd (1 / 2 * rnd (x1 - x0)) then h else 0) := by
    unfold diracR
    simp only [vIdx_eq h0, vIdx_eq h1, Res.ok_bind]
    refine elementwise (fun t => if |rnd (t - p)| < rnd (1 / 2 * rnd (x1 - x0)) then h else 0) ?_
    intro i hi out _
    rw [vIdx_lt hi, Res.ok_bind]
    by_cases hc : |rnd (x[i] - p)| < rnd (1 / 2 * rnd (x1 - x0))
    · rw [if_pos hc, if_pos hc]
    · rw [if_neg hc, if_neg hc]
  refine ⟨_, hy, by simp, ?_⟩
  intro i t v ht hv
  rw [List.getElem?_map, ht, Option.map_some] at hv
  have hv := (Option.some.inj hv).symm
  have hd : 0 ≤ x1 - x0 := by linarith
  generalize x1 - x0 = d at *
  have dd : Double (rnd d) := (hr d).1
  rw [toNearest_double hr (double_half dd)] at hv
  refine ⟨?_, fun hn => ?_, fun hn => ?_⟩
  · rw [hv]
    split
    · exact Or.inl rfl
    · exact Or.inr rfl
  · have hlt : |rnd (t - p)| < 1 / 2 * rnd d := by
      by_contra hc
      exact hn (by rw [hv, if_neg hc])
    by_contra hc
    push Not at hc
    have a1 := (hr (t - p)).2 (if 0 ≤ t - p then 1 / 2 * rnd d else -(1 / 2 * rnd d)) (by
      split
      · exact double_half dd
      · obtain ⟨m, e, hm, he⟩ := double_half dd
        exact ⟨-m, e, by simpa using hm, by rw [he]; push_cast; ring⟩)
    have a2 := (hr d).2 _ (double_twice (double_abs (hr (t - p)).1))
    have hlt' := abs_lt.1 hlt
    have a2' := sq_le_sq.2 a2
    have a1' := sq_le_sq.2 a1
    rcases le_or_gt 0 (t - p) with hs | hs
    · rw [if_pos hs] at a1'
      have h5 : 0 ≤ rnd (t - p) := toNearest_ge hr double_zero hs
      rw [abs_of_nonneg hs] at hc
      rw [abs_of_nonneg h5] at a2' hlt
      nlinarith [mul_pos (show 0 < t - p - d / 2 by linarith) (show 0 < 1 / 2 * rnd d - rnd (t - p) by linarith)]
    · rw [if_neg (not_le.2 hs)] at a1'
      have h5 : rnd (t - p) ≤ 0 := toNearest_le hr double_zero hs.le
      rw [abs_of_neg hs] at hc
      rw [abs_of_nonpos h5] at a2' hlt
      nlinarith [mul_pos (show 0 < -(t - p) - d / 2 by linarith) (show 0 < 1 / 2 * rnd d + rnd (t - p) by linarith)]
  · have e1 := rnd_rel hr (t - p)
    have e2 := toNearest_err hr d
    rw [abs_of_nonneg hd] at e2
    have e3 := (abs_le.1 e2).2
    have e4 : |rnd (t - p)| ≤ |t - p| + |t - p| / 2 ^ 53 := by
      have := abs_sub_abs_le_abs_sub (rnd (t - p)) (t - p)
      linarith
    rw [hv, if_pos]
    have hpos : 0 < d := by
      rcases eq_or_lt_of_le hd with h | h
      · rw [← h] at hn
        have := abs_nonneg (t - p)
        norm_num at hn
        linarith
      · exact h
    have e5 : |t - p| + |t - p| / 2 ^ 53 < (1 - 1 / 2 ^ 52) * (d / 2) * (1 + 1 / 2 ^ 53) := by
      have : |t - p| + |t - p| / 2 ^ 53 = |t - p| * (1 + 1 / 2 ^ 53) := by ring
      rw [this]
      exact mul_lt_mul_of_pos_right hn (by norm_num)
    have e6 : (1 - 1 / 2 ^ 52) * (d / 2) * (1 + 1 / 2 ^ 53) ≤ 1 / 2 * (d - d / 2 ^ 53) := by
      have : 1 / 2 * (d - d / 2 ^ 53) - (1 - 1 / 2 ^ 52) * (d / 2) * (1 + 1 / 2 ^ 53) = d / 2 * (1 / 2 ^ 105) := by ring
      have : 0 ≤ d / 2 * (1 / 2 ^ 105) := by positivity
      linarith
    linarith

/-! ## C153: convolution and logarithmic spacing -/

theorem convolutionIntegrandR_ok {kernel signal : List ℝ} (h : kernel.length ≤ signal.length) (h64 : kernel.length < 2 ^ 64) (reverse : Bool) :
    convolutionIntegrandR rnd kernel signal reverse = .ok ((List.range kernel.length).map fun i =>
      rnd (kernel.getD i 0 * signal.getD (if reverse then i else kernel.length - 1 - i) 0)) := by
  unfold convolutionIntegrandR
  have := forRange_ok (lo := 0) (hi := kernel.length) (Nat.zero_le _) (f := fun i (acc : List ℝ) => do
    let k ← vIdx kernel i
    let s ← if reverse then vIdx signal i else vIdx signal (usub 64 (usub 64 kernel.length i) 1)
    return acc ++ [rnd (k * s)]) (fun m => (List.range m).map fun i =>
      rnd (kernel.getD i 0 * signal.getD (if reverse then i else kernel.length - 1 - i) 0)) (by
      intro i _ hi
      rw [vIdx_lt hi, Res.ok_bind]
      have e : usub 64 (usub 64 kernel.length i) 1 = kernel.length - 1 - i := by
        rw [usub_of_le hi.le h64, usub_of_le (by omega) (by omega)]
        omega
      rw [e]
      cases reverse
      · have h1 : kernel.length - 1 - i < signal.length := by omega
        simp [vIdx_lt h1, List.range_succ, List.getD, List.getElem?_eq_getElem hi, List.getElem?_eq_getElem h1]
      · have h1 : i < signal.length := by omega
        simp [vIdx_lt h1, List.range_succ, List.getD, List.getElem?_eq_getElem hi, List.getElem?_eq_getElem h1])
  simpa using this

theorem trapzWeight_nonneg (n i : Nat) : (0 : ℝ) ≤ trapzWeight n i := by
  unfold trapzWeight
  split <;> norm_num

theorem ok_inj {α : Type} {a b : α} (h : Res.ok a = Res.ok b) : a = b := by
  injection h

/-- **C153**: `NaiveConvolution` in double arithmetic: with a kernel of `N` samples the error is at most `(1+u)^(N+3) - 1` times the same sum of the
magnitudes. -/
theorem C153_convolution (hr : ToNearest rnd) (B : Build) (kernel signal : List ℝ) (dt : ℝ) (reverse : Bool) (h2 : 2 ≤ kernel.length)
    (h64 : kernel.length < 2 ^ 64) (h : kernel.length ≤ signal.length) :
    ∃ v, naiveConvolutionR rnd B kernel signal dt reverse = .ok v ∧
      |v - dt * ∑ i ∈ range kernel.length,
          trapzWeight kernel.length i * (kernel.getD i 0 * signal.getD (if reverse then i else kernel.length - 1 - i) 0)|
        ≤ ((1 + 1 / 2 ^ 53) ^ (kernel.length + 3) - 1) * (|dt| * ∑ i ∈ range kernel.length,
          trapzWeight kernel.length i * |kernel.getD i 0 * signal.getD (if reverse then i else kernel.length - 1 - i) 0|) := by
  generalize hg : (fun i : Nat => kernel.getD i 0 * signal.getD (if reverse then i else kernel.length - 1 - i) 0) = g
  have hgi : ∀ i, kernel.getD i 0 * signal.getD (if reverse then i else kernel.length - 1 - i) 0 = g i := fun i => by rw [← hg]
  simp only [hgi]
  set N := kernel.length with hN
  have hl : ((List.range N).map fun i => rnd (g i)).length = N := by simp
  obtain ⟨v, w, hv, hw, he⟩ := C106_uniform hr (y := (List.range N).map fun i => rnd (g i)) (by omega) (by omega) dt
  rw [hl] at he
  rw [trapzUniform_weights N h2 h64] at hw
  have hw := ok_inj hw
  have hp : panels (N - 1) (fun i => (i : ℝ) * |dt|) (fun i => |((List.range N).map fun i => rnd (g i)).getD i 0|)
      = |dt| * ∑ i ∈ range N, trapzWeight N i * |rnd (g i)| := by
    have a1 := trapzUniform_weights N h2 h64 (fun i => |rnd (g i)|) |dt|
    have hl' : ((List.range N).map fun i => |rnd (g i)|).length = N := by simp
    rw [trapzUniform_ok (by omega) (by omega), hl'] at a1
    rw [← ok_inj a1]
    unfold panels
    refine sum_congr rfl fun i hi => ?_
    have := mem_range.1 hi
    simp [List.getD, show i < N by omega, show i + 1 < N by omega]
  rw [hp] at he
  refine ⟨v, ?_, ?_⟩
  · rw [naiveConvolutionR, cassert_true B _ h, Res.ok_bind, convolutionIntegrandR_ok h h64, Res.ok_bind]
    rw [← hv, ← hg]
  · have hu : (0 : ℝ) ≤ 1 / 2 ^ 53 := by positivity
    set P := ∑ i ∈ range N, trapzWeight N i * |g i| with hP
    have b1 : ∑ i ∈ range N, trapzWeight N i * |rnd (g i)| ≤ (1 + 1 / 2 ^ 53) * P := by
      rw [hP, mul_sum]
      refine sum_le_sum fun i _ => ?_
      have a1 := rnd_rel hr (g i)
      have a2 := abs_sub_abs_le_abs_sub (rnd (g i)) (g i)
      have a3 : |rnd (g i)| ≤ (1 + 1 / 2 ^ 53) * |g i| := by
        have : (1 + 1 / 2 ^ 53) * |g i| = |g i| + |g i| / 2 ^ 53 := by ring
        linarith
      calc trapzWeight N i * |rnd (g i)| ≤ trapzWeight N i * ((1 + 1 / 2 ^ 53) * |g i|) := mul_le_mul_of_nonneg_left a3 (trapzWeight_nonneg N i)
        _ = _ := by ring
    have b2 : |∑ i ∈ range N, trapzWeight N i * rnd (g i) - ∑ i ∈ range N, trapzWeight N i * g i| ≤ 1 / 2 ^ 53 * P := by
      rw [← sum_sub_distrib, hP, mul_sum]
      refine (abs_sum_le_sum_abs _ _).trans (sum_le_sum fun i _ => ?_)
      rw [← mul_sub, abs_mul, abs_of_nonneg (trapzWeight_nonneg N i)]
      calc trapzWeight N i * |rnd (g i) - g i| ≤ trapzWeight N i * (|g i| / 2 ^ 53) :=
            mul_le_mul_of_nonneg_left (rnd_rel hr _) (trapzWeight_nonneg N i)
        _ = _ := by ring
    have hG : (0 : ℝ) ≤ (1 + 1 / 2 ^ 53) ^ (N + 2) - 1 := by
      have := one_le_pow₀ (show (1 : ℝ) ≤ 1 + 1 / 2 ^ 53 by linarith) (n := N + 2)
      linarith
    have b3 : |w - dt * ∑ i ∈ range N, trapzWeight N i * g i| ≤ |dt| * (1 / 2 ^ 53 * P) := by
      rw [← hw, ← mul_sub, abs_mul]
      exact mul_le_mul_of_nonneg_left b2 (abs_nonneg _)
    have b4 : |v - w| ≤ ((1 + 1 / 2 ^ 53) ^ (N + 2) - 1) * (|dt| * ((1 + 1 / 2 ^ 53) * P)) :=
      he.trans (mul_le_mul_of_nonneg_left (mul_le_mul_of_nonneg_left b1 (abs_nonneg _)) hG)
    refine (abs_sub_le v w _).trans ((add_le_add b4 b3).trans_eq ?_)
    rw [show N + 3 = N + 2 + 1 by omega, pow_succ]
    ring

/-- The `pow` of the library within one unit in the last place, for a positive base. -/
def PowerClose (pow : ℝ → ℝ → ℝ) : Prop := ∀ b t, 0 < b → |pow b t - b ^ t| ≤ b ^ t / 2 ^ 52

theorem exp_dev {a d D : ℝ} (h : |d| ≤ D) (ha : a = Real.exp d - 1) : |a| ≤ Real.exp D - 1 := by
  have h' := abs_le.1 h
  rw [ha, abs_le]
  have h1 := Real.exp_le_exp.2 h'.2
  have h2 := Real.exp_le_exp.2 h'.1
  have h3 := Real.add_one_le_exp D
  have h4 := Real.add_one_le_exp (-D)
  constructor
  · have : 2 ≤ Real.exp D + Real.exp (-D) := by
      have h5 : Real.exp D * Real.exp (-D) = 1 := by rw [← Real.exp_add]; simp
      nlinarith [Real.exp_pos D, Real.exp_pos (-D), sq_nonneg (Real.exp D - Real.exp (-D))]
    linarith
  · linarith

/-- **C153**: `logspace` in double arithmetic: `num` values, the first and the last being those of `pow` at the ends. The relative error of each is that
of `pow`, and what an error of `5u (|start| + (stop - start))` on the exponent amounts to. -/
theorem C153_logspace (hr : ToNearest rnd) {pow : ℝ → ℝ → ℝ} (hP : PowerClose pow) (B : Build) {start stop base : ℝ} (ha : Double start)
    (hb : Double stop) {num : Nat} (hn : 2 ≤ num) (hn2 : num < 2 ^ 32) (hle : start ≤ stop) (h0 : 0 < base) :
    ∃ l, logspaceR rnd pow B start stop num base = .ok l ∧ l.length = num ∧ l.head? = some (pow base start) ∧
      l.getLast? = some (pow base stop) ∧
      ∀ (i : Nat) (v : ℝ), l[i]? = some v → |v - base ^ (start + i * (stop - start) / (num - 1))|
        ≤ (Real.exp (5 / 2 ^ 53 * (|start| + (stop - start)) * |Real.log base|) * (1 + 1 / 2 ^ 52) - 1)
          * base ^ (start + i * (stop - start) / (num - 1)) := by
  obtain ⟨l, hl, h1, hf, hg, -, -, hv⟩ := C105_linspace hr B ha hb hn hn2 hle
  have e : logspaceR rnd pow B start stop num base = .ok (l.map (pow base)) := by
    unfold logspaceR
    rw [cassert_true B _ (show num > 1 by omega), Res.ok_bind, cassert_true B _ hle, Res.ok_bind, hl, Res.ok_bind]
    refine map_loop (pow base) ?_
    intro i hi out _ ho
    rw [vAt_eq ho, Res.ok_bind, Res.ok_bind]
  refine ⟨_, e, by simpa using h1, by simp [hf], by simp [hg], ?_⟩
  intro i v hiv
  rw [List.getElem?_map] at hiv
  obtain ⟨t, ht, rfl⟩ := Option.map_eq_some_iff.1 hiv
  have hd := hv i t ht
  set q := start + i * (stop - start) / ((num : ℝ) - 1) with hq
  set E := 5 / 2 ^ 53 * (|start| + (stop - start)) with hE
  have hpow := hP base t h0
  have hbq : 0 < base ^ q := Real.rpow_pos_of_pos h0 q
  have hbt : 0 < base ^ t := Real.rpow_pos_of_pos h0 t
  have e1 : base ^ t = base ^ q * Real.exp (Real.log base * (t - q)) := by
    rw [Real.rpow_def_of_pos h0, Real.rpow_def_of_pos h0, ← Real.exp_add]
    congr 1
    ring
  have e2 : |Real.log base * (t - q)| ≤ E * |Real.log base| := by
    rw [abs_mul, mul_comm]
    exact mul_le_mul_of_nonneg_right hd (abs_nonneg _)
  have e3 := exp_dev e2 rfl
  have e4 : |base ^ t - base ^ q| ≤ (Real.exp (E * |Real.log base|) - 1) * base ^ q := by
    have : base ^ t - base ^ q = (Real.exp (Real.log base * (t - q)) - 1) * base ^ q := by rw [e1]; ring
    rw [this, abs_mul, abs_of_pos hbq]
    exact mul_le_mul_of_nonneg_right e3 hbq.le
  have e5 : base ^ t ≤ Real.exp (E * |Real.log base|) * base ^ q := by
    have := (abs_le.1 e4).2
    linarith
  refine (abs_sub_le _ (base ^ t) _).trans ((add_le_add (hpow.trans (div_le_div_of_nonneg_right e5 (by norm_num))) e4).trans_eq ?_)
  ring

/-- C152, C153: the hypotheses are met. -/
example : ∃ rnd M pow, ToNearest rnd ∧ SinClose M ∧ PowerClose pow ∧ Double 3 ∧ (0 : ℝ) < 10 ∧
    ∃ v, naiveConvolutionR rnd ⟨true⟩ [1, 2, 3] [4, 5, 6, 100] (1 / 2) true = .ok v ∧ |v - 21 / 2| ≤ 1 / 2 ^ 40 := by
  refine ⟨_, ⟨Real.cos, Real.sin, Real.arcsin, fun y x => Complex.arg ⟨x, y⟩, fun x => x ^ 2⟩, fun b t => b ^ t, roundNearest_toNearest,
    fun t => by simp only [sub_self, abs_zero]; positivity, fun b t hb => ?_, ⟨3, 0, by norm_num, by norm_num⟩, by norm_num, ?_⟩
  · simp only [sub_self, abs_zero]
    positivity
  · obtain ⟨v, h1, h2⟩ := C153_convolution roundNearest_toNearest ⟨true⟩ [1, 2, 3] [4, 5, 6, 100] (1 / 2) true (by simp) (by simp) (by simp)
    refine ⟨v, h1, ?_⟩
    simp [sum_range_succ, trapzWeight] at h2
    norm_num at h2 ⊢
    linarith

end MU
