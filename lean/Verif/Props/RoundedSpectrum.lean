import Verif.Model.RoundedSpectrum
import Verif.Props.Complex
import Verif.Props.Fft
import Verif.Props.RoundedUnit
import Verif.Props.RoundedVectors

/-!
# Comparisons, amplitudes, phases and frequencies in double arithmetic: C168, C169, C170
-/

set_option linter.unusedSectionVars false

namespace MU

open Spec

variable {rnd : ℝ → ℝ}

namespace Rel

variable {k l : ℕ} {P P' r r' D a b : ℝ}

/-- Sums of multiples of the same number, of the same sign. -/
theorem add_mul (ha : 0 ≤ a) (hb : 0 ≤ b) (h : Rel k (a * D) r) (h' : Rel k (b * D) r') : Rel k ((a + b) * D) (r + r') := by
  obtain ⟨θ, rfl, h2, h3⟩ := h
  obtain ⟨η, rfl, h5, h6⟩ := h'
  have hk : 0 < (1 - uround : ℝ) ^ k := pow_pos base_pos k
  rcases (add_nonneg ha hb).eq_or_lt with h0 | h0
  · have ha0 : a = 0 := by linarith
    have hb0 : b = 0 := by linarith
    subst ha0
    subst hb0
    exact ⟨1, by ring, pow_le_one₀ base_pos.le base_le, by rw [one_mul]; exact pow_le_one₀ base_pos.le base_le⟩
  · refine ⟨(a * θ + b * η) / (a + b), by field_simp, ?_, ?_⟩
    · rw [le_div_iff₀ h0]
      nlinarith
    · rw [div_mul_eq_mul_div, div_le_one h0]
      nlinarith

/-- Sums of numbers that are not negative. -/
theorem add_nonneg' (hP : 0 ≤ P) (hP' : 0 ≤ P') (h : Rel k P r) (h' : Rel k P' r') : Rel k (P + P') (r + r') := by
  have := add_mul (D := 1) hP hP' (by rwa [mul_one]) (by rwa [mul_one])
  rwa [mul_one] at this

theorem sqrt (hP : 0 ≤ P) (h : Rel k P r) : Rel k (Real.sqrt P) (Real.sqrt r) := by
  obtain ⟨θ, rfl, h2, h3⟩ := h
  have hk : 0 < (1 - uround : ℝ) ^ k := pow_pos base_pos k
  have hk1 : (1 - uround : ℝ) ^ k ≤ 1 := pow_le_one₀ base_pos.le base_le
  have hθ : 0 < θ := hk.trans_le h2
  refine ⟨Real.sqrt θ, Real.sqrt_mul hP θ, ?_, ?_⟩
  · apply Real.le_sqrt_of_sq_le
    nlinarith
  · have hs := Real.sq_sqrt hθ.le
    have hs0 := Real.sqrt_nonneg θ
    by_contra hc
    rw [not_le] at hc
    nlinarith

theorem abs (h : Rel k P r) : Rel k |P| |r| := by
  obtain ⟨θ, rfl, h2, h3⟩ := h
  have hk : 0 < (1 - uround : ℝ) ^ k := pow_pos base_pos k
  exact ⟨θ, by rw [abs_mul, abs_of_pos (hk.trans_le h2)], h2, h3⟩

theorem pow_ge (k : ℕ) : 1 - k * uround ≤ (1 - uround : ℝ) ^ k := by
  have := one_add_mul_le_pow (a := -uround) (by have : uround ≤ 1 := by unfold uround; norm_num
                                                linarith) k
  calc 1 - k * uround = 1 + k * (-uround) := by ring
    _ ≤ (1 + -uround) ^ k := this
    _ = _ := by ring_nf

/-- The relative error of many roundings. -/
theorem bound_many (h : Rel k P r) (hk : k ≤ 2 ^ 33) : |r - P| ≤ 101 / 100 * k / 2 ^ 53 * |P| := by
  obtain ⟨θ, rfl, h2, h3⟩ := h
  have hk0 : 0 < (1 - uround : ℝ) ^ k := pow_pos base_pos k
  have hb := pow_ge k
  have hkn : (0 : ℝ) ≤ k := Nat.cast_nonneg k
  have hku : (k : ℝ) * uround ≤ 1 / 2 ^ 20 := by
    have : (k : ℝ) ≤ 8589934592 := by exact_mod_cast hk
    unfold uround
    norm_num
    linarith
  have hup := uround_pos
  have hθ0 : 0 < θ := hk0.trans_le h2
  have hθ : |θ - 1| ≤ 101 / 100 * (k * uround) := by
    have hn : 0 ≤ (k : ℝ) * uround := by positivity
    rw [abs_le]
    constructor
    · linarith
    · have h4 : θ * (1 - k * uround) ≤ 1 := (mul_le_mul_of_nonneg_left hb hθ0.le).trans h3
      by_contra hc
      rw [not_le] at hc
      have h5 : (1 + 101 / 100 * (k * uround)) * (1 - k * uround) < θ * (1 - k * uround) := by
        apply mul_lt_mul_of_pos_right (by linarith)
        norm_num at hku
        linarith
      have h6 : 0 ≤ (k * uround) * (1 / 100 - 101 / 100 * (k * uround)) := mul_nonneg hn (by norm_num at hku; linarith)
      nlinarith
  rw [show P * θ - P = (θ - 1) * P by ring, abs_mul]
  refine (mul_le_mul_of_nonneg_right hθ (abs_nonneg _)).trans_eq ?_
  unfold uround
  ring

end Rel

/-! ## IsClose -/

/-- **C168**: `IsClose` in double arithmetic decides `|a - b| ≤ atol + rtol |b|` but for a relative margin of four roundings, and a number is close to itself. -/
theorem C168_isClose (hr : ToNearest rnd) {a b rtol atol : ℝ} (h1 : 0 ≤ rtol) (h2 : 0 ≤ atol) :
    (|a - b| ≤ (1 - 3 / 2 ^ 53) * (atol + rtol * |b|) → isCloseR rnd a b rtol atol = true) ∧
    (isCloseR rnd a b rtol atol = true → |a - b| ≤ (1 + 4 / 2 ^ 53) * (atol + rtol * |b|)) ∧
    isCloseR rnd a a rtol atol = true := by
  have hT : 0 ≤ atol + rtol * |b| := by positivity
  obtain ⟨θ, e1, t1, t2⟩ := ((Rel.exact (a - b)).round hr).abs
  obtain ⟨η, e2, s1, s2⟩ := (Rel.add_nonneg' h2 (mul_nonneg h1 (abs_nonneg b)) ((Rel.exact atol).upto (l := 1) (by omega))
    ((Rel.exact (rtol * |b|)).round hr)).round hr
  have b3 := Rel.pow_ge 3
  have hu := uround_pos
  have p1 : (0 : ℝ) < 1 - uround := Rel.base_pos
  have ee : uround = 1 / 2 ^ 53 := rfl
  unfold isCloseR
  simp only [decide_eq_true_eq]
  rw [e1, e2]
  norm_num only [zero_add, pow_one] at t1 t2 s1 s2 b3
  have hd := abs_nonneg (a - b)
  refine ⟨fun h => ?_, fun h => ?_, ?_⟩
  · -- |a-b| θ ≤ T η
    have q1 : |a - b| * θ * (1 - uround) ≤ |a - b| := by nlinarith
    have q2 : |a - b| ≤ (1 - uround) ^ 3 * (atol + rtol * |b|) := by
      refine h.trans (mul_le_mul_of_nonneg_right ?_ hT)
      rw [ee] at b3 ⊢
      linarith
    have q3 : (1 - uround) ^ 3 * (atol + rtol * |b|) = (1 - uround) * ((atol + rtol * |b|) * (1 - uround) ^ 2) := by ring
    have q4 : (atol + rtol * |b|) * (1 - uround) ^ 2 ≤ (atol + rtol * |b|) * η := mul_le_mul_of_nonneg_left s1 hT
    nlinarith
  · have q1 : |a - b| * (1 - uround) ≤ |a - b| * θ := mul_le_mul_of_nonneg_left t1 hd
    have q2 : (atol + rtol * |b|) * η * (1 - uround) ^ 2 ≤ atol + rtol * |b| := by
      rw [mul_assoc]
      exact mul_le_of_le_one_right hT s2
    have q3 : |a - b| * (1 - uround) ^ 3 ≤ atol + rtol * |b| := by
      have : |a - b| * (1 - uround) * (1 - uround) ^ 2 ≤ (atol + rtol * |b|) * η * (1 - uround) ^ 2 :=
        mul_le_mul_of_nonneg_right (q1.trans h) (by positivity)
      calc |a - b| * (1 - uround) ^ 3 = |a - b| * (1 - uround) * (1 - uround) ^ 2 := by ring
        _ ≤ _ := this.trans q2
    have q4 : |a - b| * (1 - 3 * uround) ≤ atol + rtol * |b| := (mul_le_mul_of_nonneg_left b3 hd).trans q3
    have q5 : 1 ≤ (1 + 4 * uround) * (1 - 3 * uround) := by
      unfold uround
      norm_num
    have q6 : |a - b| ≤ (1 + 4 * uround) * (|a - b| * (1 - 3 * uround)) := by nlinarith
    refine q6.trans ?_
    rw [show (4 : ℝ) / 2 ^ 53 = 4 * uround by rw [ee]; ring]
    exact mul_le_mul_of_nonneg_left q4 (by positivity)
  · rw [sub_self, toNearest_double hr double_zero, abs_zero]
    exact toNearest_ge hr double_zero (add_nonneg h2 (toNearest_ge hr double_zero (by positivity)))

theorem isCloseLoopR_ok (a b : List ℝ) (rtol atol : ℝ) (n i : Nat) (h1 : i + n = a.length) (h2 : a.length ≤ b.length) :
    ∃ c, isCloseLoopR rnd a b rtol atol n i = .ok c ∧
      (c = true ↔ ∀ j (hj : j < a.length), i ≤ j → isCloseR rnd a[j] (b[j]'(by omega)) rtol atol = true) := by
  induction n generalizing i with
  | zero =>
    refine ⟨true, rfl, ?_⟩
    simp only [true_iff]
    intro j hj hij
    omega
  | succ n ih =>
    obtain ⟨c, hc, hiff⟩ := ih (i + 1) (by omega)
    have hi : i < a.length := by omega
    simp only [isCloseLoopR, vIdx_lt hi, vIdx_lt (show i < b.length by omega), Res.ok_bind]
    by_cases hcl : isCloseR rnd a[i] (b[i]'(by omega)) rtol atol = true
    · refine ⟨c, by simp [hcl, hc], hiff.trans ⟨fun h j hj hij => ?_, fun h j hj hij => h j hj (by omega)⟩⟩
      rcases Nat.eq_or_lt_of_le hij with rfl | hlt
      · exact hcl
      · exact h j hj hlt
    · refine ⟨false, by simp [hcl], ?_⟩
      simp only [Bool.false_eq_true, false_iff]
      exact fun h => hcl (h i hi le_rfl)

/-- **C168**: vectors of the same length are close in double arithmetic when they are close element by element; an assertion stops the program for different lengths. -/
theorem C168_vectors (hr : ToNearest rnd) (B : Build) (a b : List ℝ) {rtol atol : ℝ} (h1 : 0 ≤ rtol) (h2 : 0 ≤ atol) :
    (∀ hlen : a.length = b.length, ∃ c, isCloseVecR rnd B a b rtol atol = .ok c ∧
      ((∀ j (hj : j < a.length), |a[j] - b[j]'(by omega)| ≤ (1 - 3 / 2 ^ 53) * (atol + rtol * |b[j]'(by omega)|)) → c = true) ∧
      (c = true → ∀ j (hj : j < a.length), |a[j] - b[j]'(by omega)| ≤ (1 + 4 / 2 ^ 53) * (atol + rtol * |b[j]'(by omega)|)) ∧
      (a = b → c = true)) ∧
    (a.length ≠ b.length → isCloseVecR rnd ⟨true⟩ a b rtol atol = .aborts) := by
  constructor
  · intro hlen
    obtain ⟨c, hc, h⟩ := isCloseLoopR_ok (rnd := rnd) a b rtol atol a.length 0 (by omega) (by omega)
    refine ⟨c, ?_, ?_, ?_, ?_⟩
    · unfold isCloseVecR
      rw [cassert_true B _ hlen, Res.ok_bind]
      exact hc
    · exact fun hj => h.2 fun j hj' _ => (C168_isClose hr h1 h2).1 (hj j hj')
    · exact fun hc j hj => (C168_isClose hr h1 h2).2.1 (h.1 hc j hj (Nat.zero_le _))
    · rintro rfl
      exact h.2 fun j hj' _ => (C168_isClose (b := a[j]) hr h1 h2).2.2
  · intro hlen
    unfold isCloseVecR cassert
    simp [hlen]

example : isCloseR roundNearest 1000001 1000000 (1 / 10 ^ 5) (1 / 10 ^ 8) = true ∧ isCloseR roundNearest 1000011 1000000 (1 / 10 ^ 5) (1 / 10 ^ 8) = false := by
  constructor
  · exact (C168_isClose roundNearest_toNearest (by norm_num) (by norm_num)).1 (by norm_num)
  · rw [← Bool.not_eq_true]
    intro h
    have := (C168_isClose roundNearest_toNearest (by norm_num) (by norm_num)).2.1 h
    norm_num at this

/-! ## Amplitude and phase -/

theorem amplitudeR_ok (l : List ℂ) :
    amplitudeR rnd l = .ok (l.map fun z => rnd (Real.sqrt (rnd (rnd (z.re * z.re) + rnd (z.im * z.im))))) :=
  complex_loop l _ fun i hi out _ => by simp only [vIdx_lt hi, Res.ok_bind]

theorem phaseR_ok (M : CMath) (l : List ℂ) (unit : AngleUnit) :
    phaseR rnd M l unit = .ok (l.map fun z => rnd (M.atan2 z.im z.re * (if unit = .DEG then rnd (1 * MU_180_PI_R rnd) else 1))) :=
  complex_loop l _ fun i hi out _ => by simp only [vIdx_lt hi, Res.ok_bind]

/-- **C169**: `Amplitude` and `Phase` in double arithmetic have an element for every number; the amplitude is the modulus up to a relative error of four roundings,
the phase is the argument up to 24 roundings, in radians or in degrees, and the number is recovered from the two up to a relative error of 28 roundings. -/
theorem C169_polar (hr : ToNearest rnd) {M : CMath} (hM : CMath.Close M) (l : List ℂ) (unit : AngleUnit) :
    ∃ am ph, amplitudeR rnd l = .ok am ∧ phaseR rnd M l unit = .ok ph ∧ am.length = l.length ∧ ph.length = l.length ∧
      ∀ (i : Nat) (z : ℂ), l[i]? = some z → ∃ r t : ℝ, am[i]? = some r ∧ ph[i]? = some t ∧
        |r - ‖z‖| ≤ 4 / 2 ^ 53 * ‖z‖ ∧ 0 ≤ r ∧ (r = 0 ↔ z = 0) ∧ |trueRadians t unit - Complex.arg z| ≤ 24 / 2 ^ 53 ∧
        ‖z - r * Complex.exp (trueRadians t unit * Complex.I)‖ ≤ 28 / 2 ^ 53 * ‖z‖ := by
  refine ⟨_, _, amplitudeR_ok l, phaseR_ok M l unit, by simp, by simp, ?_⟩
  intro i z hz
  refine ⟨rnd (Real.sqrt (rnd (rnd (z.re * z.re) + rnd (z.im * z.im)))),
    rnd (M.atan2 z.im z.re * (if unit = .DEG then rnd (1 * MU_180_PI_R rnd) else 1)),
    by simp only [List.getElem?_map, hz, Option.map_some], by simp only [List.getElem?_map, hz, Option.map_some], ?_⟩
  have hn : Real.sqrt (z.re * z.re + z.im * z.im) = ‖z‖ := by rw [Complex.norm_def, Complex.normSq_apply]
  have hrel := ((Rel.add_nonneg' (mul_self_nonneg _) (mul_self_nonneg _) ((Rel.exact (z.re * z.re)).round hr)
    ((Rel.exact (z.im * z.im)).round hr)).round hr).sqrt (add_nonneg (mul_self_nonneg _) (mul_self_nonneg _)) |>.round hr
  rw [hn] at hrel
  have ham : |rnd (Real.sqrt (rnd (rnd (z.re * z.re) + rnd (z.im * z.im)))) - ‖z‖| ≤ 4 / 2 ^ 53 * ‖z‖ := by
    have := hrel.bound (by norm_num)
    rw [abs_of_nonneg (norm_nonneg z)] at this
    norm_num at this ⊢
    exact this
  have hph : |trueRadians (rnd (M.atan2 z.im z.re * (if unit = .DEG then rnd (1 * MU_180_PI_R rnd) else 1))) unit - Complex.arg z| ≤ 24 / 2 ^ 53 := by
    have h := hM.atan2 z.im z.re
    rw [show (⟨z.re, z.im⟩ : ℂ) = z from rfl] at h
    have hp := Real.pi_lt_d2
    have hp0 := Real.pi_pos
    have ha : |Complex.arg z| ≤ Real.pi := Complex.abs_arg_le_pi _
    have h2 : |M.atan2 z.im z.re| ≤ 316 / 100 := by
      have := abs_sub_abs_le_abs_sub (M.atan2 z.im z.re) (Complex.arg z)
      norm_num at h hp ⊢
      linarith
    cases unit with
    | RAD =>
      simp only [trueRadians]
      rw [if_neg (by decide), mul_one]
      have e := toNearest_err hr (M.atan2 z.im z.re)
      rw [abs_sub_comm] at e
      have h4 := abs_sub_le (rnd (M.atan2 z.im z.re)) (M.atan2 z.im z.re) (Complex.arg z)
      norm_num at h h2 e ⊢
      linarith
    | DEG =>
      simp only [trueRadians, if_true, one_mul]
      have hc : rnd (MU_180_PI_R rnd) = MU_180_PI_R rnd := toNearest_double hr (hr _).1
      rw [hc]
      have h1 := (((Rel.exact (M.atan2 z.im z.re)).mul (rel_180_pi hr)).round hr).bound (by norm_num)
      generalize rnd (M.atan2 z.im z.re * MU_180_PI_R rnd) = d at h1 ⊢
      have h3 : |d * Real.pi / 180 - M.atan2 z.im z.re| ≤ 5 / 2 ^ 53 * |M.atan2 z.im z.re| := by
        have e : d * Real.pi / 180 - M.atan2 z.im z.re = (d - M.atan2 z.im z.re * (180 / Real.pi)) * (Real.pi / 180) := by field_simp
        rw [e, abs_mul, abs_of_pos (by positivity : 0 < Real.pi / 180)]
        rw [abs_mul, abs_of_pos (by positivity : 0 < 180 / Real.pi)] at h1
        have := mul_le_mul_of_nonneg_right h1 (by positivity : 0 ≤ Real.pi / 180)
        refine this.trans_eq ?_
        field_simp
        norm_num
        ring
      have h4 := abs_sub_le (d * Real.pi / 180) (M.atan2 z.im z.re) (Complex.arg z)
      norm_num at h h2 h3 ⊢
      linarith
  generalize rnd (M.atan2 z.im z.re * (if unit = .DEG then rnd (1 * MU_180_PI_R rnd) else 1)) = t at hph ⊢
  refine ⟨ham, toNearest_ge hr double_zero (Real.sqrt_nonneg _), ⟨fun h => ?_, fun h => ?_⟩, hph, ?_⟩
  · rw [h, zero_sub, abs_neg, abs_of_nonneg (norm_nonneg z)] at ham
    have h0 := norm_nonneg z
    rw [← norm_eq_zero]
    norm_num at ham
    linarith
  · subst h
    simpa using ham
  · generalize rnd (Real.sqrt (rnd (rnd (z.re * z.re) + rnd (z.im * z.im)))) = r at ham ⊢
    set s := trueRadians t unit with hs
    have e : z - r * Complex.exp (s * Complex.I) =
        ‖z‖ * (Complex.exp (Complex.arg z * Complex.I) - Complex.exp (s * Complex.I)) + ((‖z‖ - r : ℝ) : ℂ) * Complex.exp (s * Complex.I) := by
      have := Complex.norm_mul_exp_arg_mul_I z
      rw [mul_sub, this]
      push_cast
      ring
    have e2 : ‖Complex.exp (Complex.arg z * Complex.I) - Complex.exp (s * Complex.I)‖ ≤ |s - Complex.arg z| := by
      rw [norm_sub_rev]
      have h1 : Complex.exp (s * Complex.I) - Complex.exp (Complex.arg z * Complex.I) =
          Complex.exp (Complex.arg z * Complex.I) * (Complex.exp (Complex.I * ((s - Complex.arg z : ℝ) : ℂ)) - 1) := by
        rw [mul_sub, ← Complex.exp_add, mul_one]
        congr 2
        push_cast
        ring
      rw [h1, norm_mul, Complex.norm_exp_ofReal_mul_I, one_mul]
      exact (Real.norm_exp_I_mul_ofReal_sub_one_le).trans_eq (Real.norm_eq_abs _)
    rw [e]
    refine (norm_add_le _ _).trans ?_
    rw [norm_mul, norm_mul, Complex.norm_exp_ofReal_mul_I, mul_one, Complex.norm_real, Complex.norm_real, norm_norm, Real.norm_eq_abs, abs_sub_comm]
    have := mul_le_mul_of_nonneg_left (e2.trans hph) (norm_nonneg z)
    norm_num at this ham ⊢
    linarith

-- The amplitude of `3 + 4i` in the arithmetic of the machine.
example : ∃ r, amplitudeR roundNearest [⟨3, 4⟩] = .ok [r] ∧ |r - 5| ≤ 20 / 2 ^ 53 := by
  have hn : ‖(⟨3, 4⟩ : ℂ)‖ = 5 := by
    rw [Complex.norm_def, Complex.normSq_apply, show (3 : ℝ) * 3 + 4 * 4 = 5 ^ 2 by norm_num]
    exact Real.sqrt_sq (by norm_num)
  obtain ⟨am, ph, h1, -, h2, -, h3⟩ := C169_polar roundNearest_toNearest (M := ⟨Real.cos, Real.sin, Real.arcsin, fun y x => Complex.arg ⟨x, y⟩, fun x => x ^ 2⟩)
    ⟨by simp, by simp, by simp, by simp, fun x => by simp; positivity⟩ [⟨3, 4⟩] .RAD
  obtain ⟨r, t, h4, -, h5, -⟩ := h3 0 ⟨3, 4⟩ rfl
  rw [hn] at h5
  refine ⟨r, ?_, h5.trans (by norm_num)⟩
  rw [h1]
  match am, h2, h4 with
  | [x], _, h4 => simp at h4; rw [h4]

/-! ## Frequencies -/

/-- The accumulated frequency. -/
noncomputable def accF (rnd : ℝ → ℝ) (df : ℝ) : ℕ → ℝ
  | 0 => 0
  | i + 1 => rnd (accF rnd df i + df)

theorem accF_rel (hr : ToNearest rnd) (df : ℝ) (i : ℕ) : Rel i (i * df) (accF rnd df i) := by
  induction i with
  | zero => simpa [accF] using Rel.exact (0 : ℝ)
  | succ i ih =>
    have := (Rel.add_mul (Nat.cast_nonneg i) zero_le_one ih (((Rel.exact (1 * df)).upto (Nat.zero_le i)))).round hr
    rw [one_mul] at this
    push_cast
    exact this

theorem frequencyLoopR_ok (df : ℝ) (unit : FrequencyUnit) (n : Nat) (c : Nat → ℝ)
    (hc : ∀ i : Nat, i < n → convertFrequencyR rnd (accF rnd df i) .HERTZ unit = .ok (c i)) :
    frequencyLoopR rnd df unit n = .ok ((List.range n).map c, accF rnd df n) := by
  unfold frequencyLoopR
  have := forRange_ok (lo := 0) (hi := n) (Nat.zero_le _) (f := fun _ (s : List ℝ × ℝ) => do
    let c ← convertFrequencyR rnd s.2 .HERTZ unit
    return (s.1 ++ [c], rnd (s.2 + df))) (fun m => ((List.range m).map c, accF rnd df m)) (by
      intro i _ hi
      simp only [hc i hi, Res.ok_bind, Res.pure_eq, List.range_succ, List.map_append, List.map_cons, List.map_nil, accF])
  simpa [accF] using this

theorem turns_linear {v : FrequencyUnit} (hv : v ≠ .S) : ∃ c : ℝ, 0 < c ∧ ∀ P, turns v (c * P) = P := by
  have hpi := Real.pi_ne_zero
  have hpos := Real.pi_pos
  cases v with
  | HERTZ => exact ⟨1, one_pos, fun P => by simp [turns]⟩
  | RADS => exact ⟨2 * Real.pi, by positivity, fun P => by simp only [turns]; field_simp⟩
  | DEGS => exact ⟨360, by norm_num, fun P => by simp only [turns]; ring⟩
  | DEGM => exact ⟨360 * 60, by norm_num, fun P => by simp only [turns]; ring⟩
  | S => exact absurd rfl hv
  | RPM => exact ⟨60, by norm_num, fun P => by simp only [turns]; ring⟩

/-- **C170**: in double arithmetic the vector of frequencies has an element for every bin; the element `i` means `i fs / nfft` turns per second up to a relative
error of `i + 20` roundings, although it is obtained by `i` additions, and the elements are strictly increasing when the sampling frequency is positive. -/
theorem C170_frequencies (hr : ToNearest rnd) (o : FFTObj) (nfft : Nat) (h1 : 1 ≤ nfft) (h32 : nfft < 2 ^ 32) (fs : ℝ) (unit : FrequencyUnit) (hu : unit ≠ .S) :
    ∃ out, o.getFrequencyVectorR rnd nfft fs unit = .ok out ∧ out.length = (if o.halfSpectrum then nfft / 2 + 1 else nfft) ∧
      (∀ i (h : i < out.length), ∀ Y, turns unit Y = i * fs / nfft → |out[i] - Y| ≤ 101 / 100 * (i + 20) / 2 ^ 53 * |Y|) ∧
      (0 < fs → ∀ i (h : i + 1 < out.length), out[i] < out[i + 1]) := by
  have hn : (0 : ℝ) < nfft := by exact_mod_cast h1
  set df := rnd (fs / nfft) with hdf
  have hrel : Rel 1 (fs / nfft) df := (Rel.exact (fs / nfft)).round hr
  have hF : ∀ i : ℕ, Rel (i + 1) (i * (fs / nfft)) (accF rnd df i) := by
    intro i
    obtain ⟨θ, e1, a1, a2⟩ := accF_rel hr df i
    obtain ⟨η, e2, b1, b2⟩ := hrel
    have hm := Rel.mul (P := i * (fs / nfft)) (P' := 1) ⟨η, rfl, b1, b2⟩ ⟨θ, rfl, a1, a2⟩
    rw [e1, e2, add_comm i 1]
    have : (i : ℝ) * (fs / nfft) * η * (1 * θ) = i * (fs / nfft * η) * θ := by ring
    rw [this, mul_one] at hm
    exact hm
  have key : ∀ i : ℕ, ∃ y, convertFrequencyR rnd (accF rnd df i) .HERTZ unit = .ok y ∧
      (∀ Y, turns unit Y = i * fs / nfft → Rel (i + 19) Y y) ∧ ∀ Y, turns unit Y = accF rnd df i → Rel 18 Y y := by
    intro i
    obtain ⟨y, e1, e2, -⟩ := frequency_rel hr (hF i) .HERTZ unit (.inr ⟨by decide, hu⟩)
    obtain ⟨y', e1', e2', -⟩ := frequency_rel hr (Rel.exact (accF rnd df i)) .HERTZ unit (.inr ⟨by decide, hu⟩)
    have : y' = y := by
      rw [e1] at e1'
      exact (Res.ok.inj e1').symm
    subst this
    refine ⟨y', e1, fun Y hY => ?_, fun Y hY => ?_⟩
    · exact (e2 Y (by rw [hY]; simp only [turns]; ring)).upto (by omega)
    · exact (e2' Y (by rw [hY]; rfl)).upto (by omega)
  choose c hc1 hc2 hc3 using key
  refine ⟨(List.range (if o.halfSpectrum then nfft / 2 + 1 else nfft)).map c, ?_, by simp, ?_, ?_⟩
  · unfold FFTObj.getFrequencyVectorR
    rw [rdivR_ok hn.ne', Res.ok_bind]
    simp only
    rw [frequencyLoopR_ok _ _ _ c (fun i _ => hc1 i)]
    rfl
  · intro i h Y hY
    simp only [List.getElem_map, List.getElem_range]
    have hi : i < 2 ^ 32 := by
      simp only [List.length_map, List.length_range] at h
      split at h <;> omega
    refine ((hc2 i Y hY).bound_many (by omega)).trans ?_
    refine mul_le_mul_of_nonneg_right ?_ (abs_nonneg _)
    push_cast
    gcongr
    linarith
  · intro hfs i h
    simp only [List.getElem_map, List.getElem_range]
    have hi : i < 2 ^ 32 := by
      simp only [List.length_map, List.length_range] at h
      split at h <;> omega
    have hdf0 : 0 < df := toNearest_pos hr (div_pos hfs hn)
    obtain ⟨C, hC, hCt⟩ := turns_linear hu
    obtain ⟨θ, e1, a1, a2⟩ := hc3 i _ (hCt _)
    obtain ⟨η, e2, b1, b2⟩ := hc3 (i + 1) _ (hCt _)
    have hb := (accF_rel hr df i).bound_many (by omega)
    have hi' : (i : ℝ) ≤ 4294967296 := by exact_mod_cast hi.le
    have hi0 : (0 : ℝ) ≤ i := Nat.cast_nonneg i
    set f := accF rnd df i with hf
    have hf0 : 0 ≤ f := by
      cases i with
      | zero => exact le_rfl
      | succ j =>
        obtain ⟨ζ, e3, c1, -⟩ := accF_rel hr df (j + 1)
        rw [hf, e3]
        have : 0 ≤ ζ := (pow_pos Rel.base_pos _).le.trans c1
        positivity
    have hfle : f ≤ 2 ^ 33 * df := by
      rw [abs_of_nonneg (by positivity : 0 ≤ (i : ℝ) * df)] at hb
      have q := (abs_le.1 hb).2
      have q2 : 101 / 100 * (i : ℝ) / 2 ^ 53 ≤ 1 := by
        norm_num
        linarith
      have q3 : 101 / 100 * (i : ℝ) / 2 ^ 53 * (i * df) ≤ 1 * (i * df) := mul_le_mul_of_nonneg_right q2 (by positivity)
      have q4 : (i : ℝ) * df ≤ 4294967296 * df := mul_le_mul_of_nonneg_right hi' hdf0.le
      linarith
    have hstep : (1 - uround) * (f + df) ≤ accF rnd df (i + 1) := by
      obtain ⟨ζ, e3, c1, -⟩ := (Rel.exact (f + df)).round hr
      show _ ≤ rnd (f + df)
      rw [e3]
      simp only [zero_add, pow_one] at c1
      have := mul_le_mul_of_nonneg_left c1 (add_nonneg hf0 hdf0.le)
      linarith
    set g := accF rnd df (i + 1) with hg
    have p18 : (0 : ℝ) < (1 - uround) ^ 18 := pow_pos Rel.base_pos _
    have hp37 := Rel.pow_ge 37
    have hu0 := uround_pos
    -- compare after multiplication by the common factor
    have l1 : c i * (1 - uround) ^ 18 ≤ C * f := by
      rw [e1, mul_assoc]
      exact mul_le_of_le_one_right (by positivity) a2
    have l2 : C * ((1 - uround) * (f + df)) * (1 - uround) ^ 18 ≤ c (i + 1) := by
      rw [e2]
      have : C * ((1 - uround) * (f + df)) ≤ C * g := mul_le_mul_of_nonneg_left hstep hC.le
      have hg0 : 0 ≤ C * g := le_trans (mul_nonneg hC.le (mul_nonneg Rel.base_pos.le (by linarith))) this
      calc C * ((1 - uround) * (f + df)) * (1 - uround) ^ 18 ≤ C * g * (1 - uround) ^ 18 := mul_le_mul_of_nonneg_right this p18.le
        _ ≤ C * g * η := mul_le_mul_of_nonneg_left b1 hg0
    have l3 : f < (1 - uround) ^ 37 * (f + df) := by
      have q1 : (1 - 37 * uround) * (f + df) ≤ (1 - uround) ^ 37 * (f + df) := by
        refine mul_le_mul_of_nonneg_right ?_ (by linarith)
        exact_mod_cast hp37
      refine lt_of_lt_of_le ?_ q1
      unfold uround
      norm_num at hfle ⊢
      linarith
    have l4 : C * f < C * ((1 - uround) * (f + df)) * (1 - uround) ^ 18 * (1 - uround) ^ 18 := by
      rw [show C * ((1 - uround) * (f + df)) * (1 - uround) ^ 18 * (1 - uround) ^ 18 = C * ((1 - uround) ^ 37 * (f + df)) by ring]
      exact mul_lt_mul_of_pos_left l3 hC
    have l5 : c i * (1 - uround) ^ 18 < c (i + 1) * (1 - uround) ^ 18 := by
      refine l1.trans_lt (l4.trans_le ?_)
      exact mul_le_mul_of_nonneg_right l2 p18.le
    exact lt_of_mul_lt_mul_right l5 p18.le

-- A signal of 1000 samples at 0.1 Hz, in radians per second.
example : ∃ out, (FFTObj.mk false false).getFrequencyVectorR roundNearest 1000 0.1 .RADS = .ok out ∧ out.length = 1000 := by
  obtain ⟨out, h1, h2, -⟩ := C170_frequencies roundNearest_toNearest ⟨false, false⟩ 1000 (by norm_num) (by norm_num) 0.1 .RADS (by decide)
  exact ⟨out, h1, by simpa using h2⟩

end MU
