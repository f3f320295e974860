import Verif.Model.RoundedUnit
import Verif.Props.Unit
import Verif.Lemmas.Rounding
import Verif.Props.Angles
import Mathlib.Analysis.Real.Pi.Bounds

set_option linter.unusedSectionVars false

/-!
# C125: units in double arithmetic

The specification is the physical meaning of the units, with the true π.
-/

namespace MU

open Spec

/-- The number of turns per second. -/
noncomputable def Spec.turns : FrequencyUnit → ℝ → ℝ
  | .HERTZ, x => x
  | .RADS, x => x / (2 * Real.pi)
  | .DEGS, x => x / 360
  | .DEGM, x => x / 360 / 60
  | .S, x => 1 / x
  | .RPM, x => x / 60

/-- `r` is `P` up to `k` relative errors of one unit of rounding. -/
def Rel (k : ℕ) (P r : ℝ) : Prop := ∃ θ, r = P * θ ∧ (1 - uround) ^ k ≤ θ ∧ θ * (1 - uround) ^ k ≤ 1

namespace Rel

variable {k l : ℕ} {P P' r r' : ℝ} {rnd : ℝ → ℝ}

theorem base_pos : (0 : ℝ) < 1 - uround := by unfold uround; norm_num
theorem base_le : (1 - uround : ℝ) ≤ 1 := by have := uround_pos; linarith

theorem exact (P : ℝ) : Rel 0 P P := ⟨1, by ring, by simp, by simp⟩

theorem upto (h : Rel k P r) (hk : k ≤ l) : Rel l P r := by
  obtain ⟨θ, h1, h2, h3⟩ := h
  have hp : (1 - uround : ℝ) ^ l ≤ (1 - uround) ^ k := pow_le_pow_of_le_one base_pos.le base_le hk
  have h0 : 0 < (1 - uround : ℝ) ^ k := pow_pos base_pos k
  exact ⟨θ, h1, hp.trans h2, (mul_le_mul_of_nonneg_left hp (h0.trans_le h2).le).trans h3⟩

theorem mul (h : Rel k P r) (h' : Rel l P' r') : Rel (k + l) (P * P') (r * r') := by
  obtain ⟨θ, rfl, h2, h3⟩ := h
  obtain ⟨η, rfl, h5, h6⟩ := h'
  have hk : 0 < (1 - uround : ℝ) ^ k := pow_pos base_pos k
  have hl : 0 < (1 - uround : ℝ) ^ l := pow_pos base_pos l
  refine ⟨θ * η, by ring, ?_, ?_⟩
  · rw [pow_add]
    exact mul_le_mul h2 h5 hl.le (hk.trans_le h2).le
  · rw [pow_add, show θ * η * ((1 - uround) ^ k * (1 - uround) ^ l) = (θ * (1 - uround) ^ k) * (η * (1 - uround) ^ l) by ring]
    exact mul_le_one₀ h3 (mul_nonneg (hl.trans_le h5).le hl.le) h6

theorem inv (h : Rel k P r) : Rel k P⁻¹ r⁻¹ := by
  obtain ⟨θ, rfl, h2, h3⟩ := h
  have hk : 0 < (1 - uround : ℝ) ^ k := pow_pos base_pos k
  have hθ : 0 < θ := hk.trans_le h2
  refine ⟨θ⁻¹, by rw [mul_inv], ?_, ?_⟩
  · rw [le_inv_comm₀ hk hθ]
    rwa [← one_div, le_div_iff₀ hk]
  · rw [inv_mul_le_iff₀ hθ, mul_one]
    exact h2

theorem div (h : Rel k P r) (h' : Rel l P' r') : Rel (k + l) (P / P') (r / r') := by
  rw [div_eq_mul_inv, div_eq_mul_inv]
  exact h.mul h'.inv

theorem round (h : Rel k P r) (hr : ToNearest rnd) : Rel (k + 1) P (rnd r) := by
  have h1 : Rel 1 r (rnd r) := by
    have he := toNearest_err hr r
    rcases eq_or_ne r 0 with h0 | h0
    · refine ⟨1, ?_, by simpa using base_le, by simpa using base_le⟩
      rw [h0] at he
      rw [h0]
      simp at he
      simp [he]
    · refine ⟨rnd r / r, by field_simp, ?_, ?_⟩
      all_goals
        have hq : |rnd r / r - 1| ≤ uround := by
          rw [show rnd r / r - 1 = -((r - rnd r) / r) by field_simp; ring, abs_neg, abs_div, div_le_iff₀ (abs_pos.mpr h0)]
          unfold uround
          linarith
        obtain ⟨q1, q2⟩ := abs_le.mp hq
        have hu := uround_pos
      · rw [pow_one]; linarith
      · rw [pow_one]
        have := base_pos
        nlinarith
  obtain ⟨θ, rfl, h2, h3⟩ := h
  obtain ⟨η, e, h5, h6⟩ := h1
  have hm := Rel.mul (P := P) (P' := 1) ⟨θ, rfl, h2, h3⟩ ⟨η, rfl, h5, h6⟩
  rw [e]
  simpa [mul_assoc] using hm

/-- In terms of the relative error. -/
theorem bound (h : Rel k P r) (hk : k ≤ 40) : |r - P| ≤ (k + 1) / 2 ^ 53 * |P| := by
  obtain ⟨θ, rfl, h2, h3⟩ := h
  have hk0 : 0 < (1 - uround : ℝ) ^ k := pow_pos base_pos k
  have hb : 1 - k * uround ≤ (1 - uround : ℝ) ^ k := by
    have := one_add_mul_le_pow (a := -uround) (by have : uround ≤ 1 := by unfold uround; norm_num
                                                  linarith) k
    calc 1 - k * uround = 1 + k * (-uround) := by ring
      _ ≤ (1 + -uround) ^ k := this
      _ = _ := by ring_nf
  have hu : (k : ℝ) * uround ≤ 40 / 2 ^ 53 := by
    have : (k : ℝ) ≤ 40 := by exact_mod_cast hk
    unfold uround
    linarith
  have hθ : |θ - 1| ≤ (k + 1) * uround := by
    have hup := uround_pos
    rw [abs_le]
    constructor
    · nlinarith
    · have h4 : θ * (1 - k * uround) ≤ 1 := (mul_le_mul_of_nonneg_left hb (hk0.trans_le h2).le).trans h3
      by_contra hc
      rw [not_le] at hc
      have hkn : (0 : ℝ) ≤ k := Nat.cast_nonneg k
      have hk40 : (k : ℝ) ≤ 40 := by exact_mod_cast hk
      have h5 : (1 + (k + 1) * uround) * (1 - k * uround) < θ * (1 - k * uround) := by
        apply mul_lt_mul_of_pos_right (by linarith)
        have : (40 : ℝ) / 2 ^ 53 < 1 := by norm_num
        linarith
      have h6 : (1 + (k + 1) * uround) * (1 - k * uround) = 1 + uround * (1 - (k + 1) * k * uround) := by ring
      have h7 : (k + 1) * k * uround ≤ 1 := by
        have : (k + 1 : ℝ) * k ≤ 41 * 40 := by nlinarith
        have h8 : (k + 1 : ℝ) * k * uround ≤ 41 * 40 * uround := mul_le_mul_of_nonneg_right this hup.le
        have : (41 * 40 : ℝ) * uround ≤ 1 := by unfold uround; norm_num
        linarith
      nlinarith
  rw [show P * θ - P = (θ - 1) * P by ring, abs_mul]
  refine (mul_le_mul_of_nonneg_right hθ (abs_nonneg _)).trans_eq ?_
  unfold uround
  ring

end Rel

section
variable {rnd : ℝ → ℝ}

theorem rdivR_ok {a b : ℝ} (h : b ≠ 0) : rdivR rnd a b = .ok (rnd (a / b)) := by
  unfold rdivR
  rw [rdiv_ok h]
  rfl

theorem toNearest_pos (hr : ToNearest rnd) {x : ℝ} (hx : 0 < x) : 0 < rnd x :=
  lt_of_le_of_ne (toNearest_ge hr double_zero hx.le) (toNearest_ne_zero hr hx.ne').symm

theorem rel_pi (hr : ToNearest rnd) : Rel 2 Real.pi (MU_PI_R rnd) := by
  refine Rel.round (k := 1) ⟨M_PI / Real.pi, by field_simp, ?_, ?_⟩ hr
  · rw [pow_one, le_div_iff₀ Real.pi_pos]
    have := Real.pi_lt_d20
    unfold uround M_PI
    nlinarith
  · rw [pow_one, div_mul_eq_mul_div, div_le_one Real.pi_pos]
    have := Real.pi_gt_d20
    unfold uround M_PI
    nlinarith

theorem MU_PI_R_pos (hr : ToNearest rnd) : 0 < MU_PI_R rnd := toNearest_pos hr M_PI_pos
theorem MU_2PI_R_pos (hr : ToNearest rnd) : 0 < MU_2PI_R rnd := toNearest_pos hr (mul_pos two_pos (MU_PI_R_pos hr))
theorem MU_PI_180_R_pos (hr : ToNearest rnd) : 0 < MU_PI_180_R rnd := toNearest_pos hr (div_pos (MU_PI_R_pos hr) (by norm_num))
theorem MU_180_PI_R_pos (hr : ToNearest rnd) : 0 < MU_180_PI_R rnd := toNearest_pos hr (div_pos (by norm_num) (MU_PI_R_pos hr))
theorem MU_RPM2RADS_R_pos (hr : ToNearest rnd) : 0 < MU_RPM2RADS_R rnd := toNearest_pos hr (div_pos (MU_2PI_R_pos hr) (by norm_num))

theorem hour_R (hr : ToNearest rnd) : 0 < rnd (MU_ONE_MINUTE * 60) := toNearest_pos hr (by unfold MU_ONE_MINUTE; norm_num)
theorem MU_KNOT_R_pos (hr : ToNearest rnd) : 0 < MU_KNOT_R rnd := toNearest_pos hr (div_pos (by unfold MU_ONE_MILE; norm_num) (hour_R hr))
theorem MU_KMH_R_pos (hr : ToNearest rnd) : 0 < MU_KMH_R rnd := toNearest_pos hr (div_pos (by unfold MU_ONE_KM; norm_num) (hour_R hr))

theorem rel_hour (hr : ToNearest rnd) : Rel 1 3600 (rnd (MU_ONE_MINUTE * 60)) := by
  have := (Rel.exact (3600 : ℝ)).round hr
  rwa [show (3600 : ℝ) = MU_ONE_MINUTE * 60 by unfold MU_ONE_MINUTE; norm_num] at this ⊢

theorem rel_knot (hr : ToNearest rnd) : Rel 2 (1852 / 3600) (MU_KNOT_R rnd) := ((Rel.exact (1852 : ℝ)).div (rel_hour hr)).round hr
theorem rel_kmh (hr : ToNearest rnd) : Rel 2 (1000 / 3600) (MU_KMH_R rnd) := ((Rel.exact (1000 : ℝ)).div (rel_hour hr)).round hr
theorem rel_2pi (hr : ToNearest rnd) : Rel 3 (2 * Real.pi) (MU_2PI_R rnd) := by
  have := ((Rel.exact (2 : ℝ)).mul (rel_pi hr)).round hr
  exact this
theorem rel_pi_180 (hr : ToNearest rnd) : Rel 3 (Real.pi / 180) (MU_PI_180_R rnd) := ((rel_pi hr).div (Rel.exact (180 : ℝ))).round hr
theorem rel_180_pi (hr : ToNearest rnd) : Rel 3 (180 / Real.pi) (MU_180_PI_R rnd) := ((Rel.exact (180 : ℝ)).div (rel_pi hr)).round hr
theorem rel_rpm (hr : ToNearest rnd) : Rel 4 (2 * Real.pi / 60) (MU_RPM2RADS_R rnd) := ((rel_2pi hr).div (Rel.exact (60 : ℝ))).round hr

/-! ## Speeds -/

theorem velocity_rel (hr : ToNearest rnd) {k : ℕ} {X x : ℝ} (hx : Rel k X x) (u v : SpeedUnit) :
    ∃ y, convertVelocityR rnd x u v = .ok y ∧
      ∀ Y, metresPerSecond v Y = metresPerSecond u X → Rel (k + 6) Y y := by
  have hm : ∃ p, Rel (k + 3) (metresPerSecond u X) p ∧ ∀ w, convertVelocityR rnd x u w = convertVelocityR rnd p .MS w := by
    cases u with
    | MS => exact ⟨x, hx.upto (by omega), fun w => rfl⟩
    | KNOT =>
      refine ⟨_, ?_, fun w => rfl⟩
      have := (hx.mul (rel_knot hr)).round hr
      rwa [← mul_div_assoc] at this
    | KMH =>
      refine ⟨_, ?_, fun w => rfl⟩
      have := (hx.mul (rel_kmh hr)).round hr
      rwa [← mul_div_assoc] at this
  obtain ⟨p, hp, e⟩ := hm
  rw [e]
  cases v with
  | MS =>
    refine ⟨p, rfl, fun Y hY => ?_⟩
    rw [show Y = metresPerSecond u X from hY]
    exact hp.upto (by omega)
  | KNOT =>
    refine ⟨_, rdivR_ok (MU_KNOT_R_pos hr).ne', fun Y hY => ?_⟩
    rw [show Y = metresPerSecond u X / (1852 / 3600) by rw [← hY]; simp only [metresPerSecond]; ring]
    exact (hp.div (rel_knot hr)).round hr
  | KMH =>
    refine ⟨_, rdivR_ok (MU_KMH_R_pos hr).ne', fun Y hY => ?_⟩
    rw [show Y = metresPerSecond u X / (1000 / 3600) by rw [← hY]; simp only [metresPerSecond]; ring]
    exact (hp.div (rel_kmh hr)).round hr

/-- C125: a converted speed is the number of the same meaning in the new unit up to a relative error of `7u`, `u = 2^-53`. -/
theorem C125_velocity (hr : ToNearest rnd) (x : ℝ) (u v : SpeedUnit) :
    ∃ y, convertVelocityR rnd x u v = .ok y ∧
      ∀ Y, metresPerSecond v Y = metresPerSecond u x → |y - Y| ≤ 7 / 2 ^ 53 * |Y| := by
  obtain ⟨y, h1, h2⟩ := velocity_rel hr (Rel.exact x) u v
  refine ⟨y, h1, fun Y hY => ?_⟩
  have := (h2 Y hY).bound (by norm_num)
  norm_num at this ⊢
  exact this

/-- C125: a speed converted there and back is what it was up to a relative error of `13u`. -/
theorem C125_velocity_round_trip (hr : ToNearest rnd) (x : ℝ) (u v : SpeedUnit) :
    ∃ y z, convertVelocityR rnd x u v = .ok y ∧ convertVelocityR rnd y v u = .ok z ∧ |z - x| ≤ 13 / 2 ^ 53 * |x| := by
  obtain ⟨Y, -, hY, -⟩ := C64_velocity x u v
  obtain ⟨y, h1, h2⟩ := velocity_rel hr (Rel.exact x) u v
  obtain ⟨z, h3, h4⟩ := velocity_rel hr (h2 Y hY) v u
  refine ⟨y, z, h1, h3, ?_⟩
  have := (h4 x hY.symm).bound (by norm_num)
  norm_num at this ⊢
  exact this

/-- C125: conversions of speeds keep the order. -/
theorem C125_velocity_order (hr : ToNearest rnd) {x x' : ℝ} (hx : x ≤ x') (u v : SpeedUnit) :
    ∃ y y', convertVelocityR rnd x u v = .ok y ∧ convertVelocityR rnd x' u v = .ok y' ∧ y ≤ y' := by
  have hm : ∃ p p', p ≤ p' ∧ (∀ w, convertVelocityR rnd x u w = convertVelocityR rnd p .MS w) ∧
      ∀ w, convertVelocityR rnd x' u w = convertVelocityR rnd p' .MS w := by
    cases u with
    | MS => exact ⟨x, x', hx, fun w => rfl, fun w => rfl⟩
    | KNOT => exact ⟨_, _, toNearest_mono hr (mul_le_mul_of_nonneg_right hx (MU_KNOT_R_pos hr).le), fun w => rfl, fun w => rfl⟩
    | KMH => exact ⟨_, _, toNearest_mono hr (mul_le_mul_of_nonneg_right hx (MU_KMH_R_pos hr).le), fun w => rfl, fun w => rfl⟩
  obtain ⟨p, p', hp, e, e'⟩ := hm
  rw [e, e']
  cases v with
  | MS => exact ⟨p, p', rfl, rfl, hp⟩
  | KNOT =>
    exact ⟨_, _, rdivR_ok (MU_KNOT_R_pos hr).ne', rdivR_ok (MU_KNOT_R_pos hr).ne',
      toNearest_mono hr (div_le_div_of_nonneg_right hp (MU_KNOT_R_pos hr).le)⟩
  | KMH =>
    exact ⟨_, _, rdivR_ok (MU_KMH_R_pos hr).ne', rdivR_ok (MU_KMH_R_pos hr).ne',
      toNearest_mono hr (div_le_div_of_nonneg_right hp (MU_KMH_R_pos hr).le)⟩

example : ∃ y, convertVelocityR roundNearest 10 .KNOT .KMH = .ok y ∧ |y - 18.52| ≤ 7 / 2 ^ 53 * 18.52 := by
  obtain ⟨y, h1, h2⟩ := C125_velocity roundNearest_toNearest 10 .KNOT .KMH
  refine ⟨y, h1, ?_⟩
  have := h2 18.52 (by norm_num [metresPerSecond])
  rwa [abs_of_pos (by norm_num : (0 : ℝ) < 18.52)] at this

/-! ## Frequencies -/

theorem pivot_rel (hr : ToNearest rnd) {k : ℕ} {X x : ℝ} (hx : Rel k X x) (u : FrequencyUnit) (h0 : u = .S → x ≠ 0) :
    ∃ p, frequencyToPivotR rnd x u = .ok p ∧ Rel (k + 9) (turns u X) p ∧ (x ≠ 0 → p ≠ 0) := by
  have h2 := (MU_2PI_R_pos hr).ne'
  have hpi := Real.pi_ne_zero
  have nz : ∀ {a : ℝ}, a ≠ 0 → rnd a ≠ 0 := fun h => toNearest_ne_zero hr h
  cases u with
  | HERTZ => exact ⟨x, rfl, hx.upto (by omega), id⟩
  | RADS => exact ⟨_, rdivR_ok h2, ((hx.div (rel_2pi hr)).round hr).upto (by omega), fun h => nz (div_ne_zero h h2)⟩
  | DEGS =>
    refine ⟨_, rdivR_ok h2, ?_, fun h => nz (div_ne_zero (nz (mul_ne_zero h (MU_PI_180_R_pos hr).ne')) h2)⟩
    have := ((((hx.mul (rel_pi_180 hr)).round hr).div (rel_2pi hr)).round hr).upto (l := k + 9) (by omega)
    rwa [show X * (Real.pi / 180) / (2 * Real.pi) = turns .DEGS X by simp only [turns]; field_simp; ring] at this
  | DEGM =>
    refine ⟨_, rdivR_ok h2, ?_, fun h => nz (div_ne_zero (nz (div_ne_zero (nz (mul_ne_zero h (MU_PI_180_R_pos hr).ne')) (by norm_num))) h2)⟩
    have := ((((((hx.mul (rel_pi_180 hr)).round hr).div (Rel.exact 60)).round hr).div (rel_2pi hr)).round hr).upto (l := k + 9) (by omega)
    rwa [show X * (Real.pi / 180) / 60 / (2 * Real.pi) = turns .DEGM X by simp only [turns]; field_simp; ring] at this
  | S => exact ⟨_, rdivR_ok (h0 rfl), (((Rel.exact 1).div hx).round hr).upto (by omega), fun h => nz (div_ne_zero one_ne_zero h)⟩
  | RPM =>
    refine ⟨_, rdivR_ok h2, ?_, fun h => nz (div_ne_zero (nz (mul_ne_zero h (MU_RPM2RADS_R_pos hr).ne')) h2)⟩
    have := ((((hx.mul (rel_rpm hr)).round hr).div (rel_2pi hr)).round hr).upto (l := k + 9) (by omega)
    rwa [show X * (2 * Real.pi / 60) / (2 * Real.pi) = turns .RPM X by simp only [turns]; field_simp] at this

theorem fromPivot_rel (hr : ToNearest rnd) {k : ℕ} {P p : ℝ} (hp : Rel k P p) (v : FrequencyUnit) (h0 : v = .S → p ≠ 0) :
    ∃ y, frequencyFromPivotR rnd p v = .ok y ∧ (∀ Y, turns v Y = P → Rel (k + 9) Y y) ∧ (p ≠ 0 → y ≠ 0) := by
  have h2 := (MU_2PI_R_pos hr).ne'
  have hpi := Real.pi_ne_zero
  have nz : ∀ {a : ℝ}, a ≠ 0 → rnd a ≠ 0 := fun h => toNearest_ne_zero hr h
  have hw := ((rel_2pi hr).mul hp).round hr
  cases v with
  | HERTZ => exact ⟨p, rfl, fun Y hY => by rw [show Y = P from hY]; exact hp.upto (by omega), id⟩
  | RADS =>
    refine ⟨_, rfl, fun Y hY => ?_, fun h => nz (mul_ne_zero h2 h)⟩
    rw [show Y = 2 * Real.pi * P by rw [← hY]; simp only [turns]; field_simp]
    exact hw.upto (by omega)
  | DEGS =>
    refine ⟨_, rfl, fun Y hY => ?_, fun h => nz (mul_ne_zero (nz (mul_ne_zero h2 h)) (MU_180_PI_R_pos hr).ne')⟩
    rw [show Y = 2 * Real.pi * P * (180 / Real.pi) by rw [← hY]; simp only [turns]; field_simp; ring]
    exact ((hw.mul (rel_180_pi hr)).round hr).upto (by omega)
  | DEGM =>
    refine ⟨_, rfl, fun Y hY => ?_, fun h => nz (mul_ne_zero (nz (mul_ne_zero (nz (mul_ne_zero h2 h)) (MU_180_PI_R_pos hr).ne')) (by norm_num))⟩
    rw [show Y = 2 * Real.pi * P * (180 / Real.pi) * 60 by rw [← hY]; simp only [turns]; field_simp; ring]
    exact ((((hw.mul (rel_180_pi hr)).round hr).mul (Rel.exact 60)).round hr).upto (by omega)
  | S =>
    refine ⟨_, rdivR_ok (h0 rfl), fun Y hY => ?_, fun h => nz (div_ne_zero one_ne_zero h)⟩
    rw [show Y = 1 / P by rw [← hY]; simp only [turns]; rw [one_div_one_div]]
    exact (((Rel.exact 1).div hp).round hr).upto (by omega)
  | RPM =>
    refine ⟨_, rdivR_ok (MU_RPM2RADS_R_pos hr).ne', fun Y hY => ?_, fun h => nz (div_ne_zero (nz (mul_ne_zero h2 h)) (MU_RPM2RADS_R_pos hr).ne')⟩
    rw [show Y = 2 * Real.pi * P / (2 * Real.pi / 60) by rw [← hY]; simp only [turns]; field_simp]
    exact ((hw.div (rel_rpm hr)).round hr).upto (by omega)

theorem frequency_rel (hr : ToNearest rnd) {k : ℕ} {X x : ℝ} (hX : Rel k X x) (u v : FrequencyUnit) (hx : x ≠ 0 ∨ (u ≠ .S ∧ v ≠ .S)) :
    ∃ y, convertFrequencyR rnd x u v = .ok y ∧ (∀ Y, turns v Y = turns u X → Rel (k + 18) Y y) ∧ (x ≠ 0 → y ≠ 0) := by
  unfold convertFrequencyR
  by_cases huv : u = v
  · subst huv
    rw [if_pos rfl]
    refine ⟨x, rfl, fun Y hY => ?_, id⟩
    have : Y = X := by
      cases u <;> simp only [turns] at hY
      · exact hY
      · exact (div_left_inj' (mul_ne_zero two_ne_zero Real.pi_ne_zero)).1 hY
      · linarith
      · linarith
      · simpa using hY
      · linarith
    rw [this]
    exact hX.upto (by omega)
  · rw [if_neg huv]
    obtain ⟨p, h1, h2, h3⟩ := pivot_rel hr hX u (by rintro rfl; simpa using hx)
    rw [h1, Res.ok_bind]
    obtain ⟨y, h4, h5, h6⟩ := fromPivot_rel hr h2 v (by rintro rfl; exact h3 (by simpa using hx))
    exact ⟨y, h4, fun Y hY => (h5 Y hY).upto (by omega), fun h => h6 (h3 h)⟩

/-- C125: a converted frequency is the number of the same meaning in the new unit up to a relative error of `19u`. Conversion to the same unit changes
nothing. -/
theorem C125_frequency (hr : ToNearest rnd) (x : ℝ) (u v : FrequencyUnit) (hx : x ≠ 0 ∨ (u ≠ .S ∧ v ≠ .S)) :
    convertFrequencyR rnd x u u = .ok x ∧
    ∃ y, convertFrequencyR rnd x u v = .ok y ∧ ∀ Y, turns v Y = turns u x → |y - Y| ≤ 19 / 2 ^ 53 * |Y| := by
  refine ⟨by simp [convertFrequencyR], ?_⟩
  obtain ⟨y, h1, h2, -⟩ := frequency_rel hr (Rel.exact x) u v hx
  refine ⟨y, h1, fun Y hY => ?_⟩
  have := (h2 Y hY).bound (by norm_num)
  norm_num at this ⊢
  exact this

/-- C125: a frequency converted there and back is what it was up to a relative error of `37u`. -/
theorem C125_frequency_round_trip (hr : ToNearest rnd) (x : ℝ) (u v : FrequencyUnit) (hx : x ≠ 0 ∨ (u ≠ .S ∧ v ≠ .S)) :
    ∃ y z, convertFrequencyR rnd x u v = .ok y ∧ convertFrequencyR rnd y v u = .ok z ∧ |z - x| ≤ 37 / 2 ^ 53 * |x| := by
  have hpi := Real.pi_ne_zero
  have hY : ∃ Y, turns v Y = turns u x := by
    cases v with
    | HERTZ => exact ⟨_, rfl⟩
    | RADS => exact ⟨turns u x * (2 * Real.pi), by simp only [turns]; field_simp⟩
    | DEGS => exact ⟨turns u x * 360, by simp only [turns]; ring⟩
    | DEGM => exact ⟨turns u x * 360 * 60, by simp only [turns]; ring⟩
    | S => exact ⟨1 / turns u x, by simp only [turns]; rw [one_div_one_div]⟩
    | RPM => exact ⟨turns u x * 60, by simp only [turns]; ring⟩
  obtain ⟨Y, hY⟩ := hY
  obtain ⟨y, h1, h2, h3⟩ := frequency_rel hr (Rel.exact x) u v hx
  obtain ⟨z, h4, h5, -⟩ := frequency_rel hr (h2 Y hY) v u (hx.imp h3 (fun h => ⟨h.2, h.1⟩))
  refine ⟨y, z, h1, h4, ?_⟩
  have := (h5 x hY.symm).bound (by norm_num)
  norm_num at this ⊢
  exact this

/-- C125: conversions between units of frequency, periods excepted, keep the order. -/
theorem C125_frequency_order (hr : ToNearest rnd) {x x' : ℝ} (hx : x ≤ x') {u v : FrequencyUnit} (hu : u ≠ .S) (hv : v ≠ .S) :
    ∃ y y', convertFrequencyR rnd x u v = .ok y ∧ convertFrequencyR rnd x' u v = .ok y' ∧ y ≤ y' := by
  have h2 := MU_2PI_R_pos hr
  have m : ∀ {a b : ℝ}, a ≤ b → rnd a ≤ rnd b := fun h => toNearest_mono hr h
  have mm : ∀ {a b c : ℝ}, 0 < c → a ≤ b → rnd (a * c) ≤ rnd (b * c) := fun hc h => m (mul_le_mul_of_nonneg_right h hc.le)
  have mm' : ∀ {a b c : ℝ}, 0 < c → a ≤ b → rnd (c * a) ≤ rnd (c * b) := fun hc h => m (mul_le_mul_of_nonneg_left h hc.le)
  have md : ∀ {a b c : ℝ}, 0 < c → a ≤ b → rnd (a / c) ≤ rnd (b / c) := fun hc h => m (div_le_div_of_nonneg_right h hc.le)
  have h60 : (0 : ℝ) < 60 := by norm_num
  unfold convertFrequencyR
  by_cases huv : u = v
  · rw [if_pos huv, if_pos huv]
    exact ⟨x, x', rfl, rfl, hx⟩
  · rw [if_neg huv, if_neg huv]
    have hp : ∃ p p', frequencyToPivotR rnd x u = .ok p ∧ frequencyToPivotR rnd x' u = .ok p' ∧ p ≤ p' := by
      cases u with
      | HERTZ => exact ⟨_, _, rfl, rfl, hx⟩
      | RADS => exact ⟨_, _, rdivR_ok h2.ne', rdivR_ok h2.ne', md h2 hx⟩
      | DEGS => exact ⟨_, _, rdivR_ok h2.ne', rdivR_ok h2.ne', md h2 (mm (MU_PI_180_R_pos hr) hx)⟩
      | DEGM => exact ⟨_, _, rdivR_ok h2.ne', rdivR_ok h2.ne', md h2 (md h60 (mm (MU_PI_180_R_pos hr) hx))⟩
      | S => exact absurd rfl hu
      | RPM => exact ⟨_, _, rdivR_ok h2.ne', rdivR_ok h2.ne', md h2 (mm (MU_RPM2RADS_R_pos hr) hx)⟩
    obtain ⟨p, p', e, e', hp⟩ := hp
    rw [e, e', Res.ok_bind, Res.ok_bind]
    have hc := (MU_RPM2RADS_R_pos hr)
    cases v with
    | HERTZ => exact ⟨_, _, rfl, rfl, hp⟩
    | RADS => exact ⟨_, _, rfl, rfl, mm' h2 hp⟩
    | DEGS => exact ⟨_, _, rfl, rfl, mm (MU_180_PI_R_pos hr) (mm' h2 hp)⟩
    | DEGM => exact ⟨_, _, rfl, rfl, mm h60 (mm (MU_180_PI_R_pos hr) (mm' h2 hp))⟩
    | S => exact absurd rfl hv
    | RPM => exact ⟨_, _, rdivR_ok hc.ne', rdivR_ok hc.ne', md hc (mm' h2 hp)⟩

example : ∃ y, convertFrequencyR roundNearest 30 .RPM .S = .ok y ∧ |y - 2| ≤ 19 / 2 ^ 53 * 2 := by
  obtain ⟨-, y, h1, h2⟩ := C125_frequency roundNearest_toNearest 30 .RPM .S (.inl (by norm_num))
  refine ⟨y, h1, ?_⟩
  have := h2 2 (by norm_num [turns])
  rwa [abs_two] at this

/-! ## Vectors of angles -/

/-- C125: the conversions of vectors of angles act on each element, up to a relative error of `5u`; degrees converted to radians and back are what they
were up to `9u`. -/
theorem C125_angles (hr : ToNearest rnd) (v : List ℝ) :
    List.Forall₂ (fun x y => |y - x * Real.pi / 180| ≤ 5 / 2 ^ 53 * |x * Real.pi / 180|) v (deg2radR rnd v) ∧
    List.Forall₂ (fun x y => |y - x * 180 / Real.pi| ≤ 5 / 2 ^ 53 * |x * 180 / Real.pi|) v (rad2degR rnd v) ∧
    List.Forall₂ (fun x y => |y - x| ≤ 9 / 2 ^ 53 * |x|) v (rad2degR rnd (deg2radR rnd v)) := by
  have hpi := Real.pi_ne_zero
  have hd : ∀ x, Rel 4 (x * Real.pi / 180) (rnd (x * MU_PI_180_R rnd)) := fun x => by
    have := ((Rel.exact x).mul (rel_pi_180 hr)).round hr
    rwa [← mul_div_assoc] at this
  have hg : ∀ x, Rel 4 (x * 180 / Real.pi) (rnd (x * MU_180_PI_R rnd)) := fun x => by
    have := ((Rel.exact x).mul (rel_180_pi hr)).round hr
    rwa [← mul_div_assoc] at this
  refine ⟨?_, ?_, ?_⟩
  · rw [deg2radR, List.forall₂_map_right_iff, List.forall₂_same]
    intro x _
    have := (hd x).bound (by norm_num)
    norm_num at this ⊢
    exact this
  · rw [rad2degR, List.forall₂_map_right_iff, List.forall₂_same]
    intro x _
    have := (hg x).bound (by norm_num)
    norm_num at this ⊢
    exact this
  · rw [rad2degR, deg2radR, List.map_map, List.forall₂_map_right_iff, List.forall₂_same]
    intro x _
    have h := ((hd x).mul (rel_180_pi hr)).round hr
    rw [show x * Real.pi / 180 * (180 / Real.pi) = x by field_simp] at h
    have := h.bound (by norm_num)
    norm_num at this ⊢
    exact this

end
end MU
