import Verif.Model.IeeeSignals
import Verif.Spec.Extended
import Verif.Lemmas.IeeeNear
import Verif.Lemmas.IeeeBridge
import Verif.Props.RoundedSignals
import Verif.Props.Ieee
import Verif.Lemmas.Vectors

set_option linter.unusedSectionVars false

/-!
# Signals for every double, with infinities and NaN

C193.
-/

namespace MU
open Spec Dbl

variable {fl : ℝ → Option ℝ}

theorem lt_ext {a b : Dbl ℝ} (ha : a ≠ .nan) (hb : b ≠ .nan) : lt a b = true ↔ ext a < ext b := by
  cases a <;> cases b <;> simp_all [lt, ext]

theorem le_ext {a b : Dbl ℝ} (ha : a ≠ .nan) (hb : b ≠ .nan) : le a b = true ↔ ext a ≤ ext b := by
  cases a <;> cases b <;> simp_all [le, ext]

theorem ext_inj {a b : Dbl ℝ} (ha : a ≠ .nan) (hb : b ≠ .nan) (h : ext a = ext b) : a = b := by
  cases a <;> cases b <;> simp_all [ext]

/-- The loops that fill a vector element by element. -/
theorem elementwiseI {x : List (Dbl ℝ)} {body : Nat → List (Dbl ℝ) → Res (List (Dbl ℝ))} (f : Dbl ℝ → Dbl ℝ)
    (h : ∀ i (hi : i < x.length), ∀ out : List (Dbl ℝ), out.length = x.length → body i out = vSet out i (f x[i])) :
    forRange 0 x.length body (List.replicate x.length (num 0)) = .ok (x.map f) := by
  rw [fill_all (num 0) (fun i => f (x.getD i (num 0)))]
  · congr 1
    apply List.ext_getElem
    · simp
    · intro i h1 h2
      have : i < x.length := by simpa using h1
      simp [this]
  · intro i hi out ho
    rw [h i hi out ho]
    simp [hi]

/-- What `Heaviside` computes at a point. -/
noncomputable def stepI (s t : Dbl ℝ) : Dbl ℝ := if lt t s then num 0 else if lt s t then num 1 else num (1 / 2)

theorem heavisideI_ok (x : List (Dbl ℝ)) (s : Dbl ℝ) : heavisideI x s = .ok (x.map (stepI s)) := by
  unfold heavisideI
  refine elementwiseI (stepI s) ?_
  intro i hi out _
  rw [vIdx_lt hi, Res.ok_bind]
  unfold stepI
  split
  · rfl
  · split <;> rfl

/-- **C193** (in part: points that are not NaN): `Heaviside` is zero before the step, one after it and one half at it, infinities included. -/
theorem C193_heaviside_partial (x : List (Dbl ℝ)) {s : Dbl ℝ} (hs : s ≠ .nan) :
    ∃ y, heavisideI x s = .ok y ∧ y.length = x.length ∧ ∀ (i : Nat) (t v : Dbl ℝ), x[i]? = some t → y[i]? = some v → t ≠ .nan →
      (ext t < ext s → v = .num 0) ∧ (ext s < ext t → v = .num 1) ∧ (ext t = ext s → v = .num (1 / 2)) := by
  refine ⟨_, heavisideI_ok x s, by simp, ?_⟩
  intro i t v ht hv hn
  rw [List.getElem?_map, ht, Option.map_some] at hv
  have hv := (Option.some.inj hv).symm
  rw [hv]
  unfold stepI
  refine ⟨fun h => by rw [if_pos ((lt_ext hn hs).2 h)], fun h => ?_, fun h => ?_⟩
  · rw [if_neg (by rw [lt_ext hn hs]; exact not_lt.2 h.le), if_pos ((lt_ext hs hn).2 h)]
  · rw [if_neg (by rw [lt_ext hn hs, h]; exact lt_irrefl _), if_neg (by rw [lt_ext hs hn, h]; exact lt_irrefl _)]

theorem vMinusI_ok (B : Build) (x : List (Dbl ℝ)) (f g : Dbl ℝ → Dbl ℝ) :
    vMinusI fl B (x.map f) (x.map g) = .ok (x.map fun t => fsub fl (f t) (g t)) := by
  unfold vMinusI
  simp only [List.length_map, cassert_true B _ trivial, Res.ok_bind]
  refine elementwiseI (fun t => fsub fl (f t) (g t)) ?_
  intro i hi out _
  rw [vIdx_lt (by simpa using hi), Res.ok_bind, vIdx_lt (by simpa using hi), Res.ok_bind]
  simp

/-- **C193** (in part: points that are not NaN): `Door` is the height between its limits, zero outside, and half of the height, rounded, at the limits, infinite points and
limits included. -/
theorem C193_door_partial (hfl : Ieee fl) (B : Build) (x : List (Dbl ℝ)) {a b : Dbl ℝ} (ha : a ≠ .nan) (hb : b ≠ .nan) (hab : ext a < ext b) {h : ℝ} (hh : Double64 h) :
    ∃ y, doorI fl B x a b (.num h) = .ok y ∧ y.length = x.length ∧ ∀ (i : Nat) (t v : Dbl ℝ), x[i]? = some t → y[i]? = some v → t ≠ .nan →
      (ext a < ext t → ext t < ext b → v = .num h) ∧ (ext t < ext a ∨ ext b < ext t → v = .num 0) ∧
      (ext t = ext a ∨ ext t = ext b → ∃ r, v = .num r ∧ NearestDouble (h / 2) r) := by
  refine ⟨x.map fun t => fmul fl (fsub fl (stepI a t) (stepI b t)) (.num h), ?_, by simp, ?_⟩
  · unfold doorI
    rw [heavisideI_ok, Res.ok_bind, heavisideI_ok, Res.ok_bind, vMinusI_ok, Res.ok_bind]
    simp [vScaleI, Res.pure_eq]
  intro i t v ht hv hn
  rw [List.getElem?_map, ht, Option.map_some] at hv
  have hv := (Option.some.inj hv).symm
  have D1 : Double64 1 := by simpa using double64_int 1 (by norm_num)
  have D2 : Double64 (1 / 2) := by
    have := double64_pow (e := -1) (by norm_num) (by norm_num)
    norm_num at this ⊢
    exact this
  have f0 : fl 0 = some 0 := ieee_double hfl double64_zero
  have f1 : fl 1 = some 1 := ieee_double hfl D1
  have f2 : fl (1 / 2) = some (1 / 2) := ieee_double hfl D2
  have fh : fl h = some h := ieee_double hfl hh
  have lo : ∀ c, c ≠ .nan → ext t < ext c → stepI c t = .num 0 := fun c hc h => by rw [stepI, if_pos ((lt_ext hn hc).2 h)]
  have up : ∀ c, c ≠ .nan → ext c < ext t → stepI c t = .num 1 := fun c hc h => by
    rw [stepI, if_neg (by rw [lt_ext hn hc]; exact not_lt.2 h.le), if_pos ((lt_ext hc hn).2 h)]
  have mid : ∀ c, c ≠ .nan → ext t = ext c → stepI c t = .num (1 / 2) := fun c hc h => by
    rw [stepI, if_neg (by rw [lt_ext hn hc, h]; exact lt_irrefl _), if_neg (by rw [lt_ext hc hn, h]; exact lt_irrefl _)]
  have half : ∀ d, d = Dbl.num (1 / 2) → ∃ r, fmul fl d (.num h) = .num r ∧ NearestDouble (h / 2) r := by
    rintro d rfl
    have hlt : |h / 2| < overflow64 := by
      have := double64_le hh
      rw [abs_div, abs_two]
      have := abs_nonneg h
      linarith
    obtain ⟨r, r1, r2, r3⟩ := (hfl (h / 2)).1 hlt
    refine ⟨r, ?_, r2, r3⟩
    show ofReal fl (1 / 2 * h) = _
    rw [show 1 / 2 * h = h / 2 by ring, ofReal_some r1]
  refine ⟨fun h1 h2 => ?_, fun h1 => ?_, fun h1 => ?_⟩
  · rw [hv, up a ha h1, lo b hb h2]
    show fmul fl (ofReal fl (1 + -0)) _ = _
    rw [neg_zero, add_zero, ofReal_some f1]
    show ofReal fl (1 * h) = _
    rw [one_mul, ofReal_some fh]
  · have : fsub fl (stepI a t) (stepI b t) = .num 0 := by
      rcases h1 with h1 | h1
      · rw [lo a ha h1, lo b hb (h1.trans hab)]
        show ofReal fl (0 + -0) = _
        rw [neg_zero, add_zero, ofReal_some f0]
      · rw [up a ha (hab.trans h1), up b hb h1]
        show ofReal fl (1 + -1) = _
        rw [add_neg_cancel, ofReal_some f0]
    rw [hv, this]
    show ofReal fl (0 * h) = _
    rw [zero_mul, ofReal_some f0]
  · rw [hv]
    refine half _ ?_
    rcases h1 with h1 | h1
    · rw [mid a ha h1, lo b hb (h1 ▸ hab)]
      show ofReal fl (1 / 2 + -0) = _
      rw [neg_zero, add_zero, ofReal_some f2]
    · rw [up a ha (h1 ▸ hab), mid b hb h1]
      show ofReal fl (1 + -(1 / 2)) = _
      rw [show (1 : ℝ) + -(1 / 2) = 1 / 2 by norm_num, ofReal_some f2]

/-- **C193**: `Saturate` of a double that is not NaN is the nearest number of the interval, whose ends may be infinite. NaN gives NaN. -/
theorem C193_saturate {lo hi : Dbl ℝ} (hlo : lo ≠ .nan) (hhi : hi ≠ .nan) (h : ext lo ≤ ext hi) :
    (∀ v, v ≠ .nan → saturateI v lo hi ≠ .nan ∧ ext (saturateI v lo hi) = max (ext lo) (min (ext v) (ext hi))) ∧ saturateI .nan lo hi = .nan := by
  refine ⟨fun v hv => ?_, ?_⟩
  · unfold saturateI
    by_cases h1 : ext hi < ext v
    · rw [if_pos ((lt_ext hhi hv).2 h1), if_neg (by rw [lt_ext hhi hlo]; exact not_lt.2 h)]
      exact ⟨hhi, by rw [min_eq_right h1.le, max_eq_right h]⟩
    · rw [if_neg (show ¬ lt hi v = true by rwa [lt_ext hhi hv])]
      have h1 := not_lt.1 h1
      by_cases h2 : ext v < ext lo
      · rw [if_pos ((lt_ext hv hlo).2 h2)]
        exact ⟨hlo, by rw [min_eq_left h1, max_eq_left h2.le]⟩
      · rw [if_neg (show ¬ lt v lo = true by rwa [lt_ext hv hlo])]
        exact ⟨hv, by rw [min_eq_left h1, max_eq_right (not_lt.1 h2)]⟩
  · unfold saturateI
    cases lo <;> cases hi <;> simp [lt]

/-- **C193** (in part: not NaN): `sgn` is the sign of every double that is not NaN. -/
theorem C193_sgn_partial {v : Dbl ℝ} (hv : v ≠ .nan) : (0 < ext v → sgnI v = 1) ∧ (ext v = 0 → sgnI v = 0) ∧ (ext v < 0 → sgnI v = -1) := by
  have e0 : ext (.num 0) = 0 := by simp [ext]
  have h0 : (Dbl.num 0 : Dbl ℝ) ≠ .nan := by simp
  unfold sgnI boolInt
  refine ⟨fun h => ?_, fun h => ?_, fun h => ?_⟩
  · rw [if_pos ((lt_ext h0 hv).2 (by rwa [e0])), if_neg (by rw [lt_ext hv h0, e0]; exact not_lt.2 h.le)]
    norm_num
  · rw [if_neg (by rw [lt_ext h0 hv, e0, h]; exact lt_irrefl _), if_neg (by rw [lt_ext hv h0, e0, h]; exact lt_irrefl _)]
    norm_num
  · rw [if_neg (by rw [lt_ext h0 hv, e0]; exact not_lt.2 h.le), if_pos ((lt_ext hv h0).2 (by rwa [e0]))]
    norm_num

/-! ## `SgnSqrt` -/

/-- A real number of a moderate magnitude is rounded with a relative error. -/
theorem ofReal_relative (hfl : Ieee fl) {x : ℝ} (h0 : (2 : ℝ) ^ (-1022 : ℤ) ≤ |x|) (h1 : |x| < overflow64) :
    ∃ r, ofReal fl x = .num r ∧ Double64 r ∧ |r - x| ≤ |x| / 2 ^ 53 := by
  obtain ⟨y, h2, h3, -⟩ := (hfl x).1 h1
  obtain ⟨ε, e1, e2⟩ := ieee_normal hfl h1 (lastBit_of_le h0)
  refine ⟨y, ofReal_some h2, h3, ?_⟩
  rw [h2] at e2
  rw [Option.some.inj e2, show x * (1 + ε) - x = x * ε by ring, abs_mul, div_eq_mul_inv]
  refine mul_le_mul_of_nonneg_left (e1.trans (le_of_eq ?_)) (abs_nonneg _)
  unfold uround
  norm_num

/-- **C193**: `SgnSqrt` of every finite double is the square root of the magnitude with its sign, up to a relative error of `2^-53`; infinities and NaN are given back. -/
theorem C193_sgnSqrt (hfl : Ieee fl) :
    (∀ v, Double64 v → ∃ r, sgnSqrtI fl (.num v) = .num r ∧ Double64 r ∧ |r - (SignType.sign v : ℝ) * Real.sqrt (|v|)| ≤ Real.sqrt (|v|) / 2 ^ 53) ∧
    sgnSqrtI fl .pinf = .pinf ∧ sgnSqrtI fl .ninf = .ninf ∧ sgnSqrtI fl .nan = .nan := by
  refine ⟨fun v hv => ?_, ?_, ?_, ?_⟩
  · rcases eq_or_ne v 0 with rfl | hne
    · refine ⟨0, ?_, double64_zero, by simp⟩
      simp [sgnSqrtI, sgnI, boolInt, lt, fabs, fsqrt, fmul, Dbl.mul, rounded, ofReal_some (ieee_double hfl double64_zero)]
    have hpos := abs_pos.2 hne
    have hs0 : 0 < Real.sqrt (|v|) := Real.sqrt_pos.2 hpos
    have hlow : (2 : ℝ) ^ (-1022 : ℤ) ≤ |Real.sqrt (|v|)| := by
      rw [abs_of_pos hs0]
      refine Real.le_sqrt_of_sq_le ?_
      obtain ⟨n, hn⟩ := double64_multiple hv
      have hn0 : n ≠ 0 := by
        rintro rfl
        simp at hn
        exact hne hn
      have h1 : (1 : ℝ) ≤ |(n : ℝ)| := by exact_mod_cast Int.one_le_abs hn0
      have h2 : (0 : ℝ) < (2 : ℝ) ^ (-1074 : ℤ) := zpow_pos (by norm_num) _
      have h3 : ((2 : ℝ) ^ (-1022 : ℤ)) ^ 2 ≤ (2 : ℝ) ^ (-1074 : ℤ) := by
        rw [← zpow_natCast, ← zpow_mul]
        exact zpow_le_zpow_right₀ (by norm_num) (by norm_num)
      rw [hn, abs_mul, abs_of_pos h2]
      generalize (2 : ℝ) ^ (-1074 : ℤ) = T at *
      nlinarith
    have hup : |Real.sqrt (|v|)| < overflow64 := by
      rw [abs_of_pos hs0]
      have h1 := double64_le hv
      have h2 := double64_le (show Double64 1 by simpa using double64_int 1 (by norm_num))
      rw [abs_one] at h2
      rcases le_total 1 |v| with h | h
      · exact lt_of_le_of_lt ((Real.sqrt_le_left hpos.le).2 (by nlinarith)) h1
      · exact lt_of_le_of_lt (Real.sqrt_le_one.2 h) h2
    obtain ⟨r, r1, r2, r3⟩ := ofReal_relative hfl hlow hup
    rw [abs_of_pos hs0] at r3
    have hq : fsqrt fl (fabs (.num v)) = .num r := by
      rw [fabs, fsqrt, if_neg (not_lt.2 hpos.le), r1]
    rcases lt_or_gt_of_ne hne with h | h
    · refine ⟨-r, ?_, double64_neg r2, ?_⟩
      · rw [sgnSqrtI, hq, (C193_sgn_partial (by simp)).2.2 (by simpa [ext] using h)]
        show ofReal fl ((((-1 : ℤ) : ℝ)) * r) = _
        rw [show (((-1 : ℤ) : ℝ)) * r = -r by push_cast; ring, ofReal_some (ieee_double hfl (double64_neg r2))]
      · rw [sign_neg h]
        have : -r - ((-1 : SignType) : ℝ) * Real.sqrt (|v|) = -(r - Real.sqrt (|v|)) := by
          simp
          ring
        rw [this, abs_neg]
        exact r3
    · refine ⟨r, ?_, r2, ?_⟩
      · rw [sgnSqrtI, hq, (C193_sgn_partial (by simp)).1 (by simpa [ext] using h)]
        show ofReal fl ((((1 : ℤ) : ℝ)) * r) = _
        rw [show (((1 : ℤ) : ℝ)) * r = r by push_cast; ring, ofReal_some (ieee_double hfl r2)]
      · rw [sign_pos h]
        simpa using r3
  · simp [sgnSqrtI, sgnI, boolInt, lt, fabs, fsqrt, fmul, Dbl.mul, rounded]
  · have : ¬ (1 : ℝ) < 0 := by norm_num
    simp [sgnSqrtI, sgnI, boolInt, lt, fabs, fsqrt, fmul, Dbl.mul, rounded, this]
  · simp [sgnSqrtI, sgnI, boolInt, lt, fabs, fsqrt, fmul, Dbl.mul, rounded]

/-! ## `Dirac` and `Ramp` -/

theorem diracI_ok (x : List (Dbl ℝ)) {x0 x1 : Dbl ℝ} (h0 : x[0]? = some x0) (h1 : x[1]? = some x1) (p h : Dbl ℝ) :
    diracI fl x p h = .ok (x.map fun t => if lt (fabs (fsub fl t p)) (fmul fl (num (1 / 2)) (fsub fl x1 x0)) then h else num 0) := by
  unfold diracI
  simp only [vIdx_eq h0, vIdx_eq h1, Res.ok_bind]
  refine elementwiseI (fun t => if lt (fabs (fsub fl t p)) (fmul fl (num (1 / 2)) (fsub fl x1 x0)) then h else num 0) ?_
  intro i hi out _
  rw [vIdx_lt hi, Res.ok_bind]
  split <;> rfl

theorem rampI_ok (B : Build) (x : List (Dbl ℝ)) {a b yl yr : Dbl ℝ} (hx : x ≠ []) (hlen : x.length < 2 ^ 64) (hab : le a b = true)
    (h0 : le (x.head hx) a = true) (h1 : le b (x.getLast hx) = true) {y : List (Dbl ℝ)} (hy : y.length = x.length)
    (hv : ∀ i (hi : i < x.length), (le x[i] a = true → y[i]'(hy ▸ hi) = yl) ∧ (le x[i] a = false → le x[i] b = false → y[i]'(hy ▸ hi) = yr) ∧
      (le x[i] a = false → le x[i] b = true → ∃ s, fquot fl (fsub fl yr yl) (fsub fl b a) = .ok s ∧
        y[i]'(hy ▸ hi) = fadd fl (fmul fl s x[i]) (fsub fl yl (fmul fl s a)))) :
    rampI fl B x a b yl yr = .ok y := by
  have hl : 0 < x.length := List.length_pos_iff.2 hx
  have hassert : rampAssertI B x a b = .ok () := by
    unfold rampAssertI
    split
    · rw [vIdx_lt hl, Res.ok_bind, if_pos (by rw [← List.head_eq_getElem hx]; exact h0), usub_of_le (by omega) hlen,
        vIdx_lt (show x.length - 1 < x.length by omega), Res.ok_bind, if_pos (by rw [← List.getLast_eq_getElem hx]; exact h1)]
    · rfl
  unfold rampI
  simp only [cassert_true B _ hab, Res.ok_bind, hassert]
  rw [fill_all (num 0) (fun i => y.getD i (num 0))]
  · congr 1
    apply List.ext_getElem
    · simp [hy]
    · intro i h1 h2
      simp [h2]
  · intro i hi out _
    have hi' : i < y.length := by omega
    obtain ⟨c1, c2, c3⟩ := hv i hi
    have hg : y.getD i (num 0) = y[i] := by simp [hi']
    rw [hg]
    simp only [vIdx_lt hi, Res.ok_bind]
    rcases ha : le x[i] a with _ | _
    · rw [if_neg (by simp)]
      rcases hb : le x[i] b with _ | _
      · rw [if_neg (by simp), c2 ha hb]
      · obtain ⟨s, s1, s2⟩ := c3 ha hb
        rw [if_pos rfl, s1, s2]
        rfl
    · rw [if_pos rfl, c1 ha]

theorem diracR_ok {rnd : ℝ → ℝ} {x : List ℝ} {x0 x1 : ℝ} (h0 : x[0]? = some x0) (h1 : x[1]? = some x1) (p h : ℝ) :
    diracR rnd x p h = .ok (x.map fun t => if |rnd (t - p)| < rnd (1 / 2 * rnd (x1 - x0)) then h else 0) := by
  unfold diracR
  simp only [vIdx_eq h0, vIdx_eq h1, Res.ok_bind]
  refine elementwise (fun t => if |rnd (t - p)| < rnd (1 / 2 * rnd (x1 - x0)) then h else 0) ?_
  intro i hi out _
  rw [vIdx_lt hi, Res.ok_bind]
  split <;> rfl

/-- The comparison of `Dirac`, from C152. -/
theorem dirac_point {rnd : ℝ → ℝ} (hr : ToNearest rnd) {d : ℝ} (hd : 0 ≤ d) (t p : ℝ) :
    (|rnd (t - p)| < rnd (1 / 2 * rnd d) → |t - p| ≤ d / 2) ∧ (|t - p| < (1 - 1 / 2 ^ 52) * (d / 2) → |rnd (t - p)| < rnd (1 / 2 * rnd d)) := by
  obtain ⟨y, h1, -, h3⟩ := C152_dirac hr (x := [0, d, t]) (x0 := 0) (x1 := d) rfl rfl hd p 1
  rw [diracR_ok (x0 := 0) (x1 := d) rfl rfl] at h1
  injection h1 with h1
  obtain ⟨-, h4, h5⟩ := h3 2 t (if |rnd (t - p)| < rnd (1 / 2 * rnd (d - 0)) then 1 else 0) rfl (by rw [← h1]; rfl)
  rw [sub_zero] at h4 h5
  refine ⟨fun h => h4 (by rw [if_pos h]; exact one_ne_zero), fun h => ?_⟩
  by_contra hc
  have := h5 h
  rw [if_neg hc] at this
  exact zero_ne_one this

/-- Half of a number that is not too small. -/
theorem double64_halved {d : ℝ} (h : Double64 d) (h0 : (2 : ℝ) ^ (-1021 : ℤ) ≤ |d|) : Double64 (1 / 2 * d) := by
  obtain ⟨m, e, h1, h2, h3, rfl⟩ := h
  rcases eq_or_lt_of_le h2 with rfl | h2
  · exfalso
    rw [abs_mul, abs_of_pos (zpow_pos (by norm_num : (0 : ℝ) < 2) _)] at h0
    have h4 : |(m : ℝ)| < 2 ^ 53 := by exact_mod_cast h1
    have h5 : (2 : ℝ) ^ (-1021 : ℤ) = 2 ^ 53 * (2 : ℝ) ^ (-1074 : ℤ) := by
      rw [show (-1021 : ℤ) = 53 + -1074 by norm_num, zpow_add₀ (by norm_num)]
      norm_cast
    have h6 := mul_lt_mul_of_pos_right h4 (zpow_pos (by norm_num : (0 : ℝ) < 2) (-1074))
    rw [h5] at h0
    exact absurd h0 (not_le.2 h6)
  · refine ⟨m, e - 1, h1, by omega, by omega, ?_⟩
    rw [zpow_sub₀ (by norm_num)]
    ring

/-- **C193** (in part): `Dirac` of points whose first two are finite and differ by at least `2^-1021`, and by no more than the largest number: each value is the height or zero; the height is only found within half of this difference of the impulse, and is found there up to rounding. Points that are infinite or NaN have the value zero. -/
theorem C193_dirac_partial (hfl : Ieee fl) (x : List (Dbl ℝ)) {x0 x1 : ℝ} (h0 : x[0]? = some (.num x0)) (h1 : x[1]? = some (.num x1)) (D0 : Double64 x0) (D1 : Double64 x1)
    (hd0 : (2 : ℝ) ^ (-1021 : ℤ) ≤ x1 - x0) (hd1 : x1 - x0 < overflow64) {p : ℝ} (Dp : Double64 p) (h : Dbl ℝ) :
    ∃ y, diracI fl x (.num p) h = .ok y ∧ y.length = x.length ∧ ∀ (i : Nat) (t v : Dbl ℝ), x[i]? = some t → y[i]? = some v →
      (v = h ∨ v = .num 0) ∧ ((∀ z, t ≠ .num z) → v = .num 0) ∧ ∀ z, t = .num z → Double64 z →
        (v ≠ .num 0 → |z - p| ≤ (x1 - x0) / 2) ∧ (|z - p| < (1 - 1 / 2 ^ 52) * ((x1 - x0) / 2) → v = h) := by
  have hr := extend_toNearest hfl
  have hpos : 0 < x1 - x0 := lt_of_lt_of_le (zpow_pos (by norm_num) _) hd0
  have hov : |x1 - x0| < overflow64 := by
    rw [abs_of_pos hpos]
    exact hd1
  have R1 := Spec.InRange.sub D1 D0 hov
  have Dd := extend_double64 hfl R1
  have hsmall : (2 : ℝ) ^ (-1021 : ℤ) ≤ |extend fl (x1 - x0)| := by
    have h1 := toNearest_ge hr (x := x1 - x0) (y := (2 : ℝ) ^ (-1021 : ℤ)) ⟨1, -1021, by norm_num, by norm_num⟩ hd0
    exact h1.trans (le_abs_self _)
  have e1 : fmul fl (num (1 / 2)) (fsub fl (.num x1) (.num x0)) = .num (extend fl (1 / 2 * extend fl (x1 - x0))) := by
    rw [fsub_range hfl R1, fmul_range hfl (Spec.InRange.of_double64 (double64_halved Dd hsmall))]
  refine ⟨_, diracI_ok x h0 h1 (.num p) h, by simp, ?_⟩
  intro i t v ht hv
  rw [List.getElem?_map, ht, Option.map_some] at hv
  have hv := (Option.some.inj hv).symm
  rw [e1] at hv
  refine ⟨?_, fun hn => ?_, ?_⟩
  · rw [hv]
    split
    · exact Or.inl rfl
    · exact Or.inr rfl
  · rw [hv]
    cases t with
    | num z => exact absurd rfl (hn z)
    | pinf => rfl
    | ninf => rfl
    | nan => rfl
  · rintro z rfl Dz
    rcases le_or_gt overflow64 (|z - p|) with hz | hz
    · have e2 : lt (fabs (fsub fl (.num z) (.num p))) (.num (extend fl (1 / 2 * extend fl (x1 - x0)))) = false := by
        have e3 : fsub fl (.num z) (.num p) = ofReal fl (z - p) := by
          rw [sub_eq_add_neg]
          rfl
        rcases le_total 0 (z - p) with hs | hs
        · rw [abs_of_nonneg hs] at hz
          rw [e3, ofReal_pinf hfl hz]
          rfl
        · rw [abs_of_nonpos hs] at hz
          rw [e3, ofReal_ninf hfl (by linarith)]
          rfl
      have hv0 : v = .num 0 := by rw [hv, if_neg (by rw [e2]; exact Bool.false_ne_true)]
      have hfar : (x1 - x0) / 2 < |z - p| := by linarith
      refine ⟨fun hn => absurd hv0 hn, fun hn => ?_⟩
      exfalso
      have : (1 - 1 / 2 ^ 52) * ((x1 - x0) / 2) ≤ (x1 - x0) / 2 := by nlinarith
      linarith
    rw [fsub_range hfl (Spec.InRange.sub Dz Dp hz)] at hv
    simp only [fabs, lt, decide_eq_true_eq] at hv
    obtain ⟨c1, c2⟩ := dirac_point hr hpos.le z p
    refine ⟨fun hn => ?_, fun hn => by rw [hv, if_pos (c2 hn)]⟩
    by_contra hc
    exact hn (by rw [hv, if_neg (fun h => hc (c1 h))])

/-- Between the two ends of a ramp of moderate size. -/
theorem ramp_interior {fl : ℝ → Option ℝ} (hfl : Ieee fl) {a b yl yr z X Y W : ℝ} {s : Dbl ℝ} (Da : Double64 a) (Db : Double64 b) (Dl : Double64 yl) (Dr : Double64 yr)
    (Dz : Double64 z) (haz : a < z) (hzb : z ≤ b) (hX1 : 1 ≤ X) (hY1 : 1 ≤ Y) (hW1 : 1 ≤ W) (hMo : 100 * (X * Y * W) < overflow64) (hDi : (b - a)⁻¹ ≤ W) (ba : |a| ≤ X) (bb : |b| ≤ X)
    (bl : |yl| ≤ Y) (br : |yr| ≤ Y) (hs : fquot fl (fsub fl (.num yr) (.num yl)) (fsub fl (.num b) (.num a)) = .ok s) :
    ∃ r, fadd fl (fmul fl s (.num z)) (fsub fl (.num yl) (fmul fl s (.num a))) = .num r ∧
      |r - (yl + (z - a) * (yr - yl) / (b - a))| ≤ 8 / 2 ^ 53 * (|yl| + (|yl| + |yr|) * (|z| + |a|) / (b - a)) + 8 * (tiny * X) := by
  have hd : 0 < b - a := by linarith
  have hab : a < b := by linarith
  have ht0 := tiny_pos
  have ht1 : tiny ≤ 1 := by
    unfold tiny
    exact zpow_le_one_of_nonpos₀ (by norm_num) (by norm_num)
  have bz : |z| ≤ X := abs_le.2 ⟨by have := (abs_le.1 ba).1; linarith, by have := (abs_le.1 bb).2; linarith⟩
  have hXP : X ≤ X * Y * W := by
    rw [mul_assoc]
    exact le_mul_of_one_le_right (by linarith) (one_le_mul_of_one_le_of_one_le hY1 hW1)
  have hYW : Y ≤ Y * W := le_mul_of_one_le_right (by linarith) hW1
  have hYP : Y * W ≤ X * Y * W := by
    rw [mul_assoc]
    exact le_mul_of_one_le_left (by linarith) hX1
  have g0 : ∀ k ≤ 10, gam k ≤ 1 := fun k hk => gam_le_one (hk.trans (by norm_num))
  have p1 := abs_nonneg yl
  have p2 := abs_nonneg yr
  have p3 := abs_nonneg a
  have p4 := abs_nonneg z
  -- the slope
  have hn1 := (FNear.exact Dr).sub hfl (FNear.exact Dl) (by
    have := g0 0 (by norm_num)
    have := gam_nonneg 0
    have h1 : (1 + gam 0) * (|yr| + 0 + (|yl| + 0)) ≤ 2 * (Y + Y) := mul_le_mul (by linarith) (by linarith) (by linarith) (by norm_num)
    linarith)
  obtain ⟨n, n1, n2, n3⟩ := hn1
  have dov : |b - a| < overflow64 := by
    rw [abs_of_pos hd]
    have := (abs_le.1 ba).1
    have := (abs_le.1 bb).2
    linarith
  obtain ⟨ε, e1, e2, e3⟩ := fsub_ok hfl Db Da dov
  have hI := Near.inv_scale (d := b - a) e1
  have hu : uround ≤ 1 / 4 := by unfold uround; norm_num
  have hd' : (b - a) * (1 + ε) ≠ 0 := by
    have := (abs_le.1 e1).1
    have : 0 < 1 + ε := by linarith
    positivity
  have hq : |(b - a)⁻¹| = (b - a)⁻¹ := abs_of_pos (inv_pos.2 hd)
  have hI' : NearA 2 0 |(b - a)⁻¹| (b - a)⁻¹ ((b - a) * (1 + ε))⁻¹ := ⟨by simpa using hI.err, hI.size, le_rfl⟩
  have hnI := n3.mul hI'
  have hInn : 0 ≤ (b - a)⁻¹ := (inv_pos.2 hd).le
  rw [hq] at hnI
  have hQs : (|yr| + |yl|) * (b - a)⁻¹ ≤ 2 * (Y * W) := by
    calc (|yr| + |yl|) * (b - a)⁻¹ ≤ (Y + Y) * W := mul_le_mul (by linarith) hDi hInn (by linarith)
      _ = 2 * (Y * W) := by ring
  have hQs0 : 0 ≤ (|yr| + |yl|) * (b - a)⁻¹ := by positivity
  obtain ⟨ε', η, q1, q2, q3, q4⟩ := fquot_ok hfl (x := n) hd' (by
    have h1 := hnI.abs_le
    have := g0 (0 + 1 + 2) (by norm_num)
    refine lt_of_le_of_lt h1 ?_
    simp only [add_zero, mul_zero, zero_mul] at h1 ⊢
    have h2 : (1 + gam (0 + 1 + 2)) * ((|yr| + |yl|) * (b - a)⁻¹) ≤ 2 * (2 * (Y * W)) := mul_le_mul (by linarith) hQs hQs0 (by norm_num)
    refine lt_of_le_of_lt h2 (by linarith))
  have hsN : FNear 4 tiny ((|yr| + |yl|) * (b - a)⁻¹) ((yr - yl) * (b - a)⁻¹) s := by
    refine ⟨_, ?_, q3, ?_⟩
    · have := hs
      rw [n1, e3, q4] at this
      exact (Res.ok.inj this).symm
    · have := hnI.round q1 q2
      simpa using this
  generalize hQ : (|yr| + |yl|) * (b - a)⁻¹ = Q at *
  have bQz : Q * |z| ≤ 2 * (X * Y * W) := by
    calc Q * |z| ≤ 2 * (Y * W) * X := mul_le_mul hQs bz p4 (by linarith)
      _ = _ := by ring
  have bQa : Q * |a| ≤ 2 * (X * Y * W) := by
    calc Q * |a| ≤ 2 * (Y * W) * X := mul_le_mul hQs ba p3 (by linarith)
      _ = _ := by ring
  have tz : tiny * |z| ≤ X := (mul_le_mul ht1 bz p4 zero_le_one).trans (by linarith)
  have ta : tiny * |a| ≤ X := (mul_le_mul ht1 ba p3 zero_le_one).trans (by linarith)
  have tz0 : 0 ≤ tiny * |z| := by positivity
  have ta0 : 0 ≤ tiny * |a| := by positivity
  have qz0 : 0 ≤ Q * |z| := by positivity
  have qa0 : 0 ≤ Q * |a| := by positivity
  have fin : ∀ k ≤ 10, ∀ S : ℝ, 0 ≤ S → S ≤ 20 * (X * Y * W) → (1 + gam k) * S < overflow64 := by
    intro k hk S hS0 hS
    have := mul_le_mul_of_nonneg_right (g0 k hk) hS0
    linarith
  have hz1 := FNear.mul hfl hsN (FNear.exact Dz) (fin _ (by norm_num) _ (by positivity) (by
    rw [add_zero, add_mul]; linarith))
  have ha1 := FNear.mul hfl hsN (FNear.exact Da) (fin _ (by norm_num) _ (by positivity) (by
    rw [add_zero, add_mul]; linarith))
  have hb1 := FNear.sub hfl ((FNear.exact Dl).upto (show 0 ≤ 4 + 0 + 1 by norm_num)) ha1 (fin _ (by norm_num) _ (by positivity) (by
    simp only [mul_zero, add_zero]; linarith))
  have hr1 := FNear.add hfl (hz1.upto (show 4 + 0 + 1 ≤ 4 + 0 + 1 + 1 by norm_num)) hb1 (fin _ (by norm_num) _ (by positivity) (by
    simp only [mul_zero, add_zero, zero_add]; linarith))
  obtain ⟨r, r1, -, r3⟩ := hr1
  refine ⟨r, r1, ?_⟩
  have h := r3.err
  have hg : gam (4 + 0 + 1 + 1 + 1) ≤ 8 / 2 ^ 53 := by
    have := gam_le (k := 4 + 0 + 1 + 1 + 1) (by norm_num)
    unfold uround at this
    norm_num at this ⊢
    linarith
  have e : yl + (z - a) * (yr - yl) / (b - a) = (yr - yl) * (b - a)⁻¹ * z + (yl - (yr - yl) * (b - a)⁻¹ * a) := by
    rw [div_eq_mul_inv]
    ring
  have e' : |yl| + (|yl| + |yr|) * (|z| + |a|) / (b - a) = Q * |z| + (|yl| + Q * |a|) := by
    rw [div_eq_mul_inv, ← hQ]
    ring
  rw [e, e']
  have hg1 := g0 (4 + 0 + 1 + 1 + 1) (by norm_num)
  have hA : (1 + gam (4 + 0 + 1 + 1 + 1)) * (tiny * |z| + Q * 0 + tiny * 0 + tiny + (0 + (tiny * |a| + Q * 0 + tiny * 0 + tiny))) ≤ 8 * (tiny * X) := by
    have h1 : tiny * |z| ≤ tiny * X := mul_le_mul_of_nonneg_left bz ht0.le
    have h2 : tiny * |a| ≤ tiny * X := mul_le_mul_of_nonneg_left ba ht0.le
    have h3 : tiny ≤ tiny * X := le_mul_of_one_le_right ht0.le hX1
    simp only [mul_zero, add_zero, zero_add]
    refine le_trans (mul_le_mul (show 1 + gam (4 + 1 + 1 + 1) ≤ 2 from by have := g0 (4 + 1 + 1 + 1) (by norm_num); linarith) (le_refl _) (by positivity) (by norm_num)) ?_
    linarith
  refine h.trans (add_le_add ?_ hA)
  exact mul_le_mul_of_nonneg_right hg (by positivity)

/-- **C193** (in part): `Ramp` is `yl` up to `a` and `yr` beyond `b`, for all finite limits and all points that are not NaN. Between the limits it is finite and near the straight
line when the product of the sizes of the limits and of the levels, divided by the distance of the limits, is a hundred times smaller than the overflow threshold. The
last term of the error is for underflows; it is at most `2^-52`, and `2^-1072` when the limits are at most one in magnitude. -/
theorem C193_ramp_partial (hfl : Ieee fl) (B : Build) (x : List (Dbl ℝ)) {a b yl yr : ℝ} (hx : x ≠ []) (hlen : x.length < 2 ^ 64) (Da : Double64 a) (Db : Double64 b)
    (Dl : Double64 yl) (Dr : Double64 yr) (hab : a ≤ b) (h0 : le (x.head hx) (.num a) = true) (h1 : le (.num b) (x.getLast hx) = true) :
    ∃ y, rampI fl B x (.num a) (.num b) (.num yl) (.num yr) = .ok y ∧ y.length = x.length ∧ ∀ (i : Nat) (t v : Dbl ℝ), x[i]? = some t → y[i]? = some v → t ≠ .nan →
      (ext t ≤ a → v = .num yl) ∧ (b < ext t → v = .num yr) ∧
      ∀ z, t = .num z → Double64 z → a < z → z ≤ b → ∀ X Y W : ℝ, 1 ≤ X → 1 ≤ Y → 1 ≤ W → |a| ≤ X → |b| ≤ X → |yl| ≤ Y → |yr| ≤ Y → 1 / W ≤ b - a →
        100 * (X * Y * W) < overflow64 →
        ∃ r, v = .num r ∧ |r - (yl + (z - a) * (yr - yl) / (b - a))| ≤ 8 / 2 ^ 53 * (|yl| + (|yl| + |yr|) * (|z| + |a|) / (b - a)) + X * (2 : ℝ) ^ (-1072 : ℤ) := by
  have hne : a < b → ∃ s, fquot fl (fsub fl (.num yr) (.num yl)) (fsub fl (.num b) (.num a)) = .ok s := fun h => Interp1d.fquot_defined hfl Da Db h _
  classical
  let s : Dbl ℝ := if h : a < b then (hne h).choose else .nan
  have hs : a < b → fquot fl (fsub fl (.num yr) (.num yl)) (fsub fl (.num b) (.num a)) = .ok s := fun h => by
    simp only [s, dif_pos h]
    exact (hne h).choose_spec
  let f : Dbl ℝ → Dbl ℝ := fun t => if le t (.num a) then .num yl else if le t (.num b) then fadd fl (fmul fl s t) (fsub fl (.num yl) (fmul fl s (.num a))) else .num yr
  refine ⟨x.map f, ?_, by simp, ?_⟩
  · refine rampI_ok B x hx hlen (by simpa [le] using hab) h0 h1 (by simp) (fun i hi => ?_)
    refine ⟨fun h => by simp [f, h], fun h h' => by simp [f, h, h'], fun h h' => ⟨s, hs ?_, by simp [f, h, h']⟩⟩
    revert h h'
    cases x[i] <;> simp [le]
    intro h h'
    linarith
  intro i t v ht hv hn
  rw [List.getElem?_map, ht, Option.map_some] at hv
  have hv : v = f t := (Option.some.inj hv).symm
  have ea : ext (.num a) = (a : EReal) := rfl
  have eb : ext (.num b) = (b : EReal) := rfl
  refine ⟨fun h => ?_, fun h => ?_, ?_⟩
  · rw [hv]
    show (if _ then _ else _) = _
    rw [if_pos ((le_ext hn (by simp)).2 (ea ▸ h))]
  · rw [hv]
    show (if _ then _ else if _ then _ else _) = _
    have hab' : (a : EReal) ≤ b := by exact_mod_cast hab
    rw [if_neg (by rw [le_ext hn (by simp), ea]; exact not_le.2 (lt_of_le_of_lt hab' h)), if_neg (by rw [le_ext hn (by simp), eb]; exact not_le.2 h)]
  · rintro z rfl Dz haz hzb X Y W hX hY hW ba bb bl br bd hMo
    have hd : 0 < b - a := by linarith
    have hab : a < b := by linarith
    rw [hv]
    have ef : f (.num z) = fadd fl (fmul fl s (.num z)) (fsub fl (.num yl) (fmul fl s (.num a))) := by
      show (if _ then _ else if _ then _ else _) = _
      rw [if_neg (by simp [le, haz]), if_pos (by simpa [le] using hzb)]
    rw [ef]
    have hDi : (b - a)⁻¹ ≤ W := by
      have := inv_anti₀ (by positivity) bd
      rwa [one_div, inv_inv] at this
    obtain ⟨r, r1, r2⟩ := ramp_interior hfl Da Db Dl Dr Dz haz hzb hX hY hW hMo hDi ba bb bl br (hs hab)
    refine ⟨r, r1, r2.trans (le_of_eq ?_)⟩
    rw [tiny, show (-1072 : ℤ) = 3 + -1075 by norm_num, zpow_add₀ (by norm_num)]
    norm_num
    ring

/-! ## Points that are NaN -/

/-- **C193** is false for NaN: it gives a number, and one that depends on the function. -/
theorem C193_refuted (hfl : Ieee fl) (B : Build) :
    heavisideI [.nan] (.num 0) = .ok [.num (1 / 2)] ∧ doorI fl B [.nan] (.num 0) (.num 1) (.num 1) = .ok [.num 0] ∧
    diracI fl [.num 0, .num 1, .nan] (.num 0) (.num 1) = .ok [.num 1, .num 0, .num 0] ∧
    rampI fl B [.num 0, .nan, .num 1] (.num 0) (.num 1) (.num 5) (.num 7) = .ok [.num 5, .num 7, .num 7] ∧ sgnI .nan = 0 := by
  have r : ∀ n : ℤ, |n| < 2 ^ 53 → ofReal fl (n : ℝ) = .num n := fun n hn => ofReal_some (ieee_double hfl (double64_int n hn))
  have r0 : ofReal fl 0 = .num 0 := by simpa using r 0 (by norm_num)
  have r1 : ofReal fl 1 = .num 1 := by simpa using r 1 (by norm_num)
  have r2 : ofReal fl 2 = .num 2 := by simpa using r 2 (by norm_num)
  have r5 : ofReal fl 5 = .num 5 := by simpa using r 5 (by norm_num)
  have r7 : ofReal fl 7 = .num 7 := by simpa using r 7 (by norm_num)
  have rh : ofReal fl (1 / 2) = .num (1 / 2) := ofReal_some (ieee_double hfl ⟨1, -1, by norm_num, by norm_num, by norm_num, by norm_num⟩)
  refine ⟨?_, ?_, ?_, ?_, ?_⟩
  · rw [heavisideI_ok]
    simp [stepI, lt]
  · unfold doorI
    simp only [heavisideI_ok, Res.ok_bind, vMinusI_ok]
    simp [stepI, lt, vScaleI, fsub, fmul, Dbl.sub, Dbl.add, Dbl.neg, Dbl.mul, rounded, r0, pure]
  · rw [diracI_ok _ (x0 := .num 0) (x1 := .num 1) rfl rfl]
    simp only [one_div] at rh
    simp [lt, fsub, fmul, Dbl.sub, Dbl.add, Dbl.neg, Dbl.mul, rounded, r0, r1, rh, fabs]
    norm_num
  · refine rampI_ok B _ (by simp) (by simp) (by simp [le]) (by simp [le]) (by simp [le]) (by simp) (fun i hi => ?_)
    match i, hi with
    | 0, _ => simp [le]
    | 1, _ => simp [le]
    | 2, _ =>
      have e1 : (7 : ℝ) + -5 = 2 := by norm_num
      have e2 : (2 : ℝ) + 5 = 7 := by norm_num
      simp [le, fquot, fsub, fmul, fadd, Dbl.sub, Dbl.add, Dbl.neg, Dbl.mul, rounded, r0, r1, r2, r5, r7, e1, e2]
  · simp [sgnI, lt]

/-- **C193** is false for a ramp between large numbers: the slope overflows, and the ramp from `-2^1023` at `0` to `2^1023` at `2` is NaN in the middle, where it should be zero. -/
theorem C193_refuted_ramp (hfl : Ieee fl) (B : Build) :
    Double64 ((2 : ℝ) ^ (1023 : ℤ)) ∧
    rampI fl B [.num 0, .num 1, .num 2] (.num 0) (.num 2) (.num (-(2 : ℝ) ^ (1023 : ℤ))) (.num ((2 : ℝ) ^ (1023 : ℤ))) =
      .ok [.num (-(2 : ℝ) ^ (1023 : ℤ)), .nan, .nan] := by
  have d1 : Double64 ((2 : ℝ) ^ (1023 : ℤ)) := ⟨2 ^ 52, 971, by norm_num, by norm_num, le_rfl, by
    rw [show (2 : ℝ) ^ (971 : ℤ) = 2 ^ 971 from zpow_natCast _ _, show (2 : ℝ) ^ (1023 : ℤ) = 2 ^ 1023 from zpow_natCast _ _, Int.cast_pow, Int.cast_ofNat, ← pow_add]⟩
  refine ⟨d1, ?_⟩
  have hov : overflow64 ≤ (2 : ℝ) ^ (1023 : ℤ) + (2 : ℝ) ^ (1023 : ℤ) := by
    rw [← two_mul, ← zpow_one_add₀ (by norm_num)]
    unfold overflow64
    norm_num
  have hpos : (0 : ℝ) < (2 : ℝ) ^ (1023 : ℤ) := zpow_pos (by norm_num) _
  generalize (2 : ℝ) ^ (1023 : ℤ) = M at *
  have r1 : ofReal fl 2 = .num 2 := ofReal_some (ieee_double hfl (by exact_mod_cast double64_int 2 (by norm_num)))
  have rM : ofReal fl (M + M) = .pinf := ofReal_pinf hfl hov
  refine rampI_ok B _ (by simp) (by simp) (by simp [le]) (by simp [le]) (by simp [le]) (by simp) (fun i hi => ?_)
  match i, hi with
  | 0, _ => simp [le]
  | 1, _ => simp [le, fquot, fsub, fmul, fadd, Dbl.sub, Dbl.add, Dbl.neg, Dbl.mul, rounded, r1, rM]
  | 2, _ => simp [le, fquot, fsub, fmul, fadd, Dbl.sub, Dbl.add, Dbl.neg, Dbl.mul, rounded, r1, rM]

/-! ## The hypotheses are met -/

example : ∃ y, heavisideI [.ninf, .num 3, .pinf] (.num 3) = .ok y ∧ y.length = 3 := by
  obtain ⟨y, h1, h2, -⟩ := C193_heaviside_partial [.ninf, .num 3, .pinf] (s := .num 3) (by simp)
  exact ⟨y, h1, h2⟩

example (B : Build) : ∃ y, doorI fl64 B [.ninf, .num 3, .pinf] .ninf (.num 3) (.num 7) = .ok y ∧ y[1]? ≠ some (.num 7) := by
  obtain ⟨y, h1, h2, h3⟩ := C193_door_partial fl64_ieee B [.ninf, .num 3, .pinf] (a := .ninf) (b := .num 3) (by simp) (by simp) (by simp [ext])
    (h := 7) (by exact_mod_cast double64_int 7 (by norm_num))
  refine ⟨y, h1, fun h => ?_⟩
  obtain ⟨r, e, -, h4⟩ := (h3 1 (.num 3) (.num 7) rfl h (by simp)).2.2 (Or.inr rfl)
  have h5 := h4 (7 / 2) ⟨7, -1, by norm_num, by norm_num, by norm_num, by norm_num⟩
  injection e with e
  rw [← e] at h5
  norm_num at h5

example : saturateI .ninf (.num 1) .pinf ≠ .nan := ((C193_saturate (lo := .num 1) (hi := .pinf) (by simp) (by simp) (by simp [ext])).1 .ninf (by simp)).1

example : sgnI .ninf = -1 := (C193_sgn_partial (by simp)).2.2 (by simp [ext])

example : ∃ y, diracI fl64 [.num 0, .num 1, .num 2, .pinf] (.num 2) .pinf = .ok y ∧ y[2]? = some .pinf ∧ y[3]? = some (.num 0) := by
  have D : ∀ n : ℤ, |n| < 2 ^ 53 → Double64 (n : ℝ) := double64_int
  have d2 : Double64 2 := by exact_mod_cast D 2 (by norm_num)
  obtain ⟨y, h1, h2, h3⟩ := C193_dirac_partial fl64_ieee [.num 0, .num 1, .num 2, .pinf] (x0 := 0) (x1 := 1) rfl rfl double64_zero (by exact_mod_cast D 1 (by norm_num))
    (by rw [sub_zero]; exact zpow_le_one_of_nonpos₀ (by norm_num) (by norm_num)) (by have := double64_le (y := 1) (by exact_mod_cast D 1 (by norm_num)); rw [abs_one] at this; rw [sub_zero]; exact this) d2 .pinf
  have l2 : 2 < y.length := by rw [h2]; simp
  have l3 : 3 < y.length := by rw [h2]; simp
  refine ⟨y, h1, ?_, ?_⟩
  · rw [List.getElem?_eq_getElem l2]
    rw [((h3 2 (.num 2) y[2] rfl (List.getElem?_eq_getElem l2)).2.2 2 rfl d2).2 (by norm_num)]
  · rw [List.getElem?_eq_getElem l3]
    rw [(h3 3 .pinf y[3] rfl (List.getElem?_eq_getElem l3)).2.1 (by simp)]

example (B : Build) : ∃ y, rampI fl64 B [.ninf, .num 1, .pinf] (.num 0) (.num 2) (.num 5) (.num 7) = .ok y ∧ y[0]? = some (.num 5) ∧ y[2]? = some (.num 7) ∧
    ∃ r, y[1]? = some (.num r) ∧ |r - 6| ≤ 1 / 2 ^ 46 := by
  have D : ∀ n : ℤ, |n| < 2 ^ 53 → Double64 (n : ℝ) := double64_int
  obtain ⟨y, h1, h2, h3⟩ := C193_ramp_partial fl64_ieee B [.ninf, .num 1, .pinf] (a := 0) (b := 2) (yl := 5) (yr := 7) (by simp) (by simp) double64_zero (by exact_mod_cast D 2 (by norm_num))
    (by exact_mod_cast D 5 (by norm_num)) (by exact_mod_cast D 7 (by norm_num)) (by norm_num) (by simp [le]) (by simp [le])
  have l0 : 0 < y.length := by rw [h2]; simp
  have l1 : 1 < y.length := by rw [h2]; simp
  have l2 : 2 < y.length := by rw [h2]; simp
  refine ⟨y, h1, ?_, ?_, ?_⟩
  · rw [List.getElem?_eq_getElem l0, (h3 0 .ninf y[0] rfl (List.getElem?_eq_getElem l0) (by simp)).1 (by simp [ext])]
  · rw [List.getElem?_eq_getElem l2, (h3 2 .pinf y[2] rfl (List.getElem?_eq_getElem l2) (by simp)).2.1 (by simp [ext])]
  · obtain ⟨r, e, h⟩ := (h3 1 (.num 1) y[1] rfl (List.getElem?_eq_getElem l1) (by simp)).2.2 1 rfl (by exact_mod_cast D 1 (by norm_num)) (by norm_num) (by norm_num)
      2 7 1 (by norm_num) (by norm_num) (by norm_num) (by norm_num) (by norm_num) (by norm_num) (by norm_num) (by norm_num)
      (by
        have h6 : (2 : ℝ) ^ 11 ≤ 2 ^ 1020 := pow_le_pow_right₀ (by norm_num) (by norm_num)
        have h7 := overflow64_big
        generalize (2 : ℝ) ^ 1020 = N at *
        norm_num at h6 ⊢
        linarith)
    refine ⟨r, by rw [List.getElem?_eq_getElem l1, e], ?_⟩
    have h5 : (2 : ℝ) ^ (-1072 : ℤ) ≤ (2 : ℝ) ^ (-53 : ℤ) := zpow_le_zpow_right₀ (by norm_num) (by norm_num)
    generalize (2 : ℝ) ^ (-1072 : ℤ) = E at *
    norm_num at h h5 ⊢
    linarith only [h, h5]

end MU
