import Verif.Lemmas.RoundedExpInt
import Verif.Props.SpecialFunctions

/-!
# Exponential integrals in double arithmetic (C139)

`ELib.Close`: `exp` and `log` of the C library are within one unit in the last place.
-/

set_option linter.unusedSectionVars false

namespace MU
open Spec ExpInt PolyCheck

variable {rnd : ℝ → ℝ} {M : ELib}

/-! ## E1_approximation -/

theorem above_refused (hr : ToNearest rnd) {x : ℝ} (hd : Double x) (hx : rnd 1e-8 < x) : 1e-8 < x := by
  by_contra h
  have := toNearest_mono hr (not_lt.1 h)
  rw [toNearest_double hr hd] at this
  linarith

theorem not_refusedR (hr : ToNearest rnd) {x : ℝ} (hd : Double x) (hx : rnd 1e-8 < x) : ¬ (isCloseZeroR rnd x ∨ x < 0) := by
  have h0 : (0 : ℝ) < x := lt_trans (by norm_num) (above_refused hr hd hx)
  rw [isCloseZeroR_iff hr hd, abs_of_pos h0]
  rintro (h | h) <;> linarith

theorem e1a_size {x : ℝ} (hx : 0 ≤ x) (hx' : x ≤ 1) : psize e1a_pj x ≤ psum e1a_qj x ∧ 0 < psum e1a_qj x := by
  have h : 0 < psum e1a_qj x := by
    rw [← psize_pos (by simp only [e1a_qj, List.forall_mem_cons]; norm_num) hx]
    simp only [psize, e1a_qj, List.length_cons, List.length_nil, Finset.sum_range_succ, Finset.sum_range_zero]
    norm_num
    positivity
  refine ⟨?_, h⟩
  simp only [psize, psum, e1a_pj, e1a_qj, List.length_cons, List.length_nil, Finset.sum_range_succ, Finset.sum_range_zero]
  norm_num
  rw [abs_of_nonneg hx]
  have h2 : x ^ 2 ≤ 1 := pow_le_one₀ hx hx'
  have h3 : x ^ 3 ≤ 1 := pow_le_one₀ hx hx'
  have h4 : x ^ 4 ≤ 1 := pow_le_one₀ hx hx'
  have h5 : x ^ 5 ≤ 1 := pow_le_one₀ hx hx'
  have h6 : x ^ 6 ≤ 1 := pow_le_one₀ hx hx'
  linarith

theorem e1_below_one_R (hr : ToNearest rnd) (hM : ELib.Close M) (B : Build) {x : ℝ} (hd : Double x) (hx : rnd 1e-8 < x) (hx' : x < 1) :
    ∃ w, e1ApproximationR rnd M B x = .ok w ∧ |w - (-Real.log x + rat e1aP e1aQ x)| ≤ 30 / 2 ^ 53 * (|Real.log x| + 1) ∧ |rat e1aP e1aQ x| ≤ 1 := by
  have h0 : (0 : ℝ) < x := lt_trans (by norm_num) (above_refused hr hd hx)
  have hp : e1a_pj = e1aP.map fun (a : ℤ) => (a : ℝ) / 10 ^ 21 := by norm_num [e1a_pj, e1aP]
  have hq : e1a_qj = e1aQ.map fun (a : ℤ) => (a : ℝ) / 10 ^ 21 := by norm_num [e1a_qj, e1aQ]
  obtain ⟨s1, s2⟩ := e1a_size h0.le hx'.le
  obtain ⟨n, hn, n1⟩ := horner_near hr (l := e1a_pj) (by simp [e1a_pj]) x
  obtain ⟨d, hdd, d1⟩ := horner_near hr (l := e1a_qj) (by simp [e1a_qj]) x
  rw [psize_pos (by simp only [e1a_qj, List.forall_mem_cons]; norm_num) h0.le] at d1
  have d1' : Near (2 * (e1a_qj.length - 1) + 1) |psum e1a_qj x| (psum e1a_qj x) d := by rwa [abs_of_pos s2]
  obtain ⟨r1, r2⟩ := div_near hr (by simp [e1a_qj]) n1 d1' s2.ne'
  have e : psum e1a_pj x / psum e1a_qj x = rat e1aP e1aQ x := by
    rw [psum_map hp (by norm_num), psum_map hq (by norm_num), rat]
    field_simp
  have r3 : Near 28 1 (rat e1aP e1aQ x) (rnd (n / d)) := by
    rw [← e]
    refine r2.mono (by simp [e1a_pj, e1a_qj]) ?_
    rw [abs_of_pos s2, div_le_one s2]
    exact s1
  refine ⟨rnd (-M.log x + rnd (n / d)), ?_, ?_, r3.size⟩
  · unfold e1ApproximationR
    rw [if_neg (not_refusedR hr hd hx), if_pos ⟨h0, hx'⟩]
    simp only []
    rw [cassert_true _ _ (by simp [e1a_pj, e1a_qj]), Res.ok_bind, hn, Res.ok_bind, hdd, Res.ok_bind, r1]
    rfl
  · have := ((((log_near hM h0).neg.upto (show 2 ≤ 28 by norm_num)).add r3).round hr).sum_le (by norm_num)
    norm_num at this ⊢
    exact this

theorem e1b_nonneg : (∀ a ∈ e1b_pj, (0 : ℝ) ≤ a) ∧ ∀ a ∈ e1b_qj, (0 : ℝ) ≤ a := by
  simp only [e1b_pj, e1b_qj, List.forall_mem_cons]
  norm_num

theorem e1_one_four_R (hr : ToNearest rnd) (hM : ELib.Close M) (B : Build) {x : ℝ} (hd : Double x) (hx : 1 ≤ x) (hx' : x < 4) :
    ∃ w, e1ApproximationR rnd M B x = .ok w ∧ |w - Real.exp (-x) * rat e1bP.reverse e1bQ.reverse x| ≤
      28 / 2 ^ 53 * (Real.exp (-x) * rat e1bP.reverse e1bQ.reverse x) := by
  have h0 : (0 : ℝ) < x := by linarith
  have hi : 0 ≤ x⁻¹ := (inv_pos.2 h0).le
  have hp : e1b_pj = e1bP.map fun (a : ℤ) => (a : ℝ) / 10 ^ 29 := by norm_num [e1b_pj, e1bP]
  have hq : e1b_qj = e1bQ.map fun (a : ℤ) => (a : ℝ) / 10 ^ 29 := by norm_num [e1b_qj, e1bQ]
  have hsmall : rnd 1e-8 < x := by
    have := (toNearest_mono hr (show (1e-8 : ℝ) ≤ 1 / 2 by norm_num)).trans_eq (toNearest_double hr ⟨1, -1, by norm_num, by norm_num⟩)
    linarith
  obtain ⟨n, hn, n1⟩ := inverse_near hr (l := e1b_pj) (n := 8) rfl h0.ne'
  obtain ⟨d, hdd, d1⟩ := inverse_near hr (l := e1b_qj) (n := 8) rfl h0.ne'
  rw [psize_pos e1b_nonneg.1 hi] at n1
  rw [psize_pos e1b_nonneg.2 hi] at d1
  have s1 : 0 < psum e1b_qj x⁻¹ := by
    rw [← psize_pos e1b_nonneg.2 hi]
    simp only [psize, e1b_qj, List.length_cons, List.length_nil, Finset.sum_range_succ, Finset.sum_range_zero]
    norm_num
    positivity
  have s2 : 0 ≤ psum e1b_pj x⁻¹ := by
    rw [← psize_pos e1b_nonneg.1 hi]
    exact Finset.sum_nonneg fun i _ => by positivity
  have d1' : Near (8 + 3) |psum e1b_qj x⁻¹| (psum e1b_qj x⁻¹) d := by rwa [abs_of_pos s1]
  obtain ⟨r1, r2⟩ := div_near hr (by norm_num) n1 d1' s1.ne'
  rw [abs_of_pos s1] at r2
  have e := e1_one_four B hx hx'
  have e' : Real.exp (-x) * rat e1bP.reverse e1bQ.reverse x = Real.exp (-x) * (psum e1b_pj x⁻¹ / psum e1b_qj x⁻¹) := by
    unfold e1Approximation at e
    rw [if_neg (not_refused (by linarith)), if_neg (by rintro ⟨_, h⟩; linarith), if_pos ⟨hx, hx'⟩, cassert_true _ _ (by simp [e1b_pj, e1b_qj]), Res.ok_bind,
      inverseSum_ok (n := 8) hp (by norm_num) rfl, Res.ok_bind, inverseSum_ok (n := 8) hq (by norm_num) rfl, Res.ok_bind, ← psum_map hp (by norm_num),
      ← psum_map hq (by norm_num), rdiv_ok s1.ne', Res.ok_bind, Res.pure_eq] at e
    injection e with e
    exact e.symm
  rw [e']
  refine ⟨rnd (M.exp (-x) * rnd (n / d)), ?_, ?_⟩
  · unfold e1ApproximationR
    rw [if_neg (not_refusedR hr hd hsmall), if_neg (by rintro ⟨_, h⟩; linarith), if_pos ⟨hx, hx'⟩]
    simp only []
    rw [cassert_true _ _ (by simp [e1b_pj, e1b_qj]), Res.ok_bind, hn, Res.ok_bind, hdd, Res.ok_bind, r1]
    rfl
  · have := (((exp_near hM (-x)).mul r2).round hr).sum_le (by norm_num)
    norm_num at this ⊢
    exact this

theorem e1c_signs : (∀ a ∈ e1c_pj, (a : ℝ) ≤ 0) ∧ ∀ a ∈ e1c_qj, (0 : ℝ) ≤ a := by
  simp only [e1c_pj, e1c_qj, List.forall_mem_cons]
  norm_num

theorem e1c_ratio {y : ℝ} (hy : 0 ≤ y) : -psum e1c_pj y ≤ psum e1c_qj y ∧ 0 < psum e1c_qj y := by
  have h2 := pow_nonneg hy 2
  have h3 := pow_nonneg hy 3
  have h4 := pow_nonneg hy 4
  have h5 := pow_nonneg hy 5
  have h6 := pow_nonneg hy 6
  have h7 := pow_nonneg hy 7
  have h8 := pow_nonneg hy 8
  have h9 := pow_nonneg hy 9
  simp only [psum, e1c_pj, e1c_qj, List.length_cons, List.length_nil, Finset.sum_range_succ, Finset.sum_range_zero]
  norm_num
  constructor <;> linarith

theorem e1_from_four_R (hr : ToNearest rnd) (hM : ELib.Close M) (B : Build) {x : ℝ} (hd : Double x) (hx : 4 ≤ x) :
    ∃ w, e1ApproximationR rnd M B x = .ok w ∧ |w - Real.exp (-x) * rat (tailN e1cP e1cQ) (tailM e1cQ) x| ≤
      60 / 2 ^ 53 * (Real.exp (-x) * rat (tailN e1cP e1cQ) (tailM e1cQ) x) := by
  have h0 : (0 : ℝ) < x := by linarith
  have hi : 0 < x⁻¹ := inv_pos.2 h0
  have hi4 : x⁻¹ ≤ 1 / 4 := by rw [inv_le_comm₀ h0 (by norm_num)]; norm_num; exact hx
  have hp : e1c_pj = e1cP.map fun (a : ℤ) => (a : ℝ) / 10 ^ 23 := by norm_num [e1c_pj, e1cP]
  have hq : e1c_qj = e1cQ.map fun (a : ℤ) => (a : ℝ) / 10 ^ 23 := by norm_num [e1c_qj, e1cQ]
  have hsmall : rnd 1e-8 < x := by
    have := (toNearest_mono hr (show (1e-8 : ℝ) ≤ 1 / 2 by norm_num)).trans_eq (toNearest_double hr ⟨1, -1, by norm_num, by norm_num⟩)
    linarith
  obtain ⟨n, hn, n1⟩ := inverse_near hr (l := e1c_pj) (n := 9) rfl h0.ne'
  obtain ⟨d, hdd, d1⟩ := inverse_near hr (l := e1c_qj) (n := 9) rfl h0.ne'
  rw [psize_neg e1c_signs.1 hi.le] at n1
  rw [psize_pos e1c_signs.2 hi.le] at d1
  obtain ⟨t1, s1⟩ := e1c_ratio hi.le
  have s2 : 0 ≤ -psum e1c_pj x⁻¹ := by
    rw [← psize_neg e1c_signs.1 hi.le]
    exact Finset.sum_nonneg fun i _ => by positivity
  have d1' : Near (9 + 3) |psum e1c_qj x⁻¹| (psum e1c_qj x⁻¹) d := by rwa [abs_of_pos s1]
  have hxi : Near 1 x⁻¹ x⁻¹ (rnd (1 / x)) := by
    have := (Near.exact x⁻¹).round hr
    rw [abs_of_pos hi] at this
    rw [one_div]
    exact this
  have n2 := (hxi.mul n1).round hr
  obtain ⟨r1, r2⟩ := div_near hr (by norm_num) n2 d1' s1.ne'
  rw [abs_of_pos s1] at r2
  have e := e1_from_four B hx
  set N := psum e1c_pj x⁻¹
  set D := psum e1c_qj x⁻¹
  have e' : Real.exp (-x) * rat (tailN e1cP e1cQ) (tailM e1cQ) x = Real.exp (-x) / x * (1 + x⁻¹ * N / D) := by
    unfold e1Approximation at e
    rw [if_neg (not_refused (by linarith)), if_neg (by rintro ⟨_, h⟩; linarith), if_neg (by rintro ⟨_, h⟩; linarith),
      cassert_true _ _ (by simp [e1c_pj, e1c_qj]), Res.ok_bind,
      inverseSum_ok (n := 9) hp (by norm_num) rfl, Res.ok_bind, inverseSum_ok (n := 9) hq (by norm_num) rfl, Res.ok_bind, ← psum_map hp (by norm_num),
      ← psum_map hq (by norm_num), rdiv_ok s1.ne', Res.ok_bind, Res.pure_eq, one_div] at e
    injection e with e
    exact e.symm
  rw [e']
  have hsz : x⁻¹ * -N / D ≤ 1 / 4 := by
    rw [div_le_iff₀ s1]
    nlinarith
  have r3 : Near 28 (1 / 4) (x⁻¹ * N / D) (rnd (rnd (rnd (1 / x) * n) / d)) := r2.mono (by norm_num) hsz
  have h1 : Near 29 (5 / 4) (1 + x⁻¹ * N / D) (rnd (1 + rnd (rnd (rnd (1 / x) * n) / d))) :=
    ((((Near.exact 1).upto (show 0 ≤ 28 by norm_num)).add r3).round hr).mono (by norm_num) (by norm_num)
  have h2 : Near 3 (Real.exp (-x) * x⁻¹) (Real.exp (-x) * x⁻¹) (rnd (M.exp (-x) / x)) := by
    have := ((exp_near hM (-x)).mul (Near.exact x⁻¹)).round hr
    rwa [abs_of_pos hi, ← div_eq_mul_inv (M.exp (-x))] at this
  have hq' : 3 / 4 ≤ 1 + x⁻¹ * N / D := by
    have : x⁻¹ * -N / D = -(x⁻¹ * N / D) := by ring
    linarith
  refine ⟨rnd (rnd (M.exp (-x) / x) * rnd (1 + rnd (rnd (rnd (1 / x) * n) / d))), ?_, ?_⟩
  · unfold e1ApproximationR
    rw [if_neg (not_refusedR hr hd hsmall), if_neg (by rintro ⟨_, h⟩; linarith), if_neg (by rintro ⟨_, h⟩; linarith)]
    simp only []
    rw [cassert_true _ _ (by simp [e1c_pj, e1c_qj]), Res.ok_bind, hn, Res.ok_bind, hdd, Res.ok_bind, r1]
    rfl
  · have := ((h2.mul h1).round hr).sum_le (by norm_num)
    rw [div_eq_mul_inv (Real.exp (-x))]
    refine this.trans ?_
    have hE : 0 < Real.exp (-x) * x⁻¹ := by positivity
    have : Real.exp (-x) * x⁻¹ * (3 / 4) ≤ Real.exp (-x) * x⁻¹ * (1 + x⁻¹ * N / D) := mul_le_mul_of_nonneg_left hq' hE.le
    norm_num
    linarith

/-- C139: `E1_approximation` in double differs from its value in real arithmetic by a relative `4e-14` at most. -/
theorem C139_e1_rounding (hr : ToNearest rnd) (hM : ELib.Close M) (B : Build) {x : ℝ} (hd : Double x) (hx : rnd 1e-8 < x) :
    ∃ w v, e1ApproximationR rnd M B x = .ok w ∧ e1Approximation B x = .ok v ∧ |w - v| ≤ 4e-14 * v ∧
      (x < 1 → |w - v| ≤ 30 / 2 ^ 53 * (|Real.log x| + 1)) ∧ (1 ≤ x → |w - v| ≤ 60 / 2 ^ 53 * v) := by
  have hx' := above_refused hr hd hx
  have h0 : (0 : ℝ) < x := lt_trans (by norm_num) hx'
  have up : ∀ {a v : ℝ}, 0 ≤ v → a ≤ 60 / 2 ^ 53 * v → a ≤ 4e-14 * v := fun hv h => h.trans (mul_le_mul_of_nonneg_right (by norm_num) hv)
  rcases lt_or_ge x 1 with h1 | h1
  · obtain ⟨w, hw, he, hs⟩ := e1_below_one_R hr hM B hd hx h1
    refine ⟨w, _, hw, e1_below_one B hx' h1, ?_, fun _ => he, fun h => absurd h (by linarith)⟩
    have hE := E1_zero_one h0 h1.le
    have hE1 := E1_anti h0 h1.le
    have hE2 := E1_one_bounds.1
    have hl : |Real.log x| = -Real.log x := abs_of_nonpos (Real.log_nonpos h0.le h1.le)
    have h2 := abs_le.1 hE
    have h3 := abs_le.1 hs
    rw [hl] at he
    norm_num at he h2 ⊢
    linarith
  · rcases lt_or_ge x 4 with h4 | h4
    · obtain ⟨w, hw, he⟩ := e1_one_four_R hr hM B hd h1 h4
      have hv : 0 ≤ Real.exp (-x) * rat e1bP.reverse e1bQ.reverse x := by
        have := (abs_nonneg _).trans he
        norm_num at this
        linarith
      have he' := he.trans (mul_le_mul_of_nonneg_right (show (28 / 2 ^ 53 : ℝ) ≤ 60 / 2 ^ 53 by norm_num) hv)
      exact ⟨w, _, hw, e1_one_four B h1 h4, up hv he', fun h => absurd h (by linarith), fun _ => he'⟩
    · obtain ⟨w, hw, he⟩ := e1_from_four_R hr hM B hd h4
      have hv : 0 ≤ Real.exp (-x) * rat (tailN e1cP e1cQ) (tailM e1cQ) x := by
        have := (abs_nonneg _).trans he
        norm_num at this
        linarith
      exact ⟨w, _, hw, e1_from_four B h4, up hv he, fun h => absurd h (by linarith), fun _ => he⟩

/-- C139: in double, `E1_approximation` returns `E1(x)` up to rounding below 1, and up to the errors of its tables (C90) above. -/
theorem C139_e1_accuracy (hr : ToNearest rnd) (hM : ELib.Close M) (B : Build) {x : ℝ} (hd : Double x) (hx : rnd 1e-8 < x) :
    ∃ w, e1ApproximationR rnd M B x = .ok w ∧ (x < 1 → |w - Spec.E1 x| ≤ 31 / 2 ^ 53 * (|Real.log x| + 1) ∧ |w - Spec.E1 x| ≤ 4.1e-14 * Spec.E1 x) ∧
      (1 ≤ x → x < 4 → |w - Spec.E1 x| ≤ 1.52e-9 * Spec.E1 x) ∧ (4 ≤ x → |w - Spec.E1 x| ≤ 9.32e-4 * Spec.E1 x) := by
  have hx' := above_refused hr hd hx
  have h0 : (0 : ℝ) < x := lt_trans (by norm_num) hx'
  obtain ⟨w, v, hw, hv, h1, h2, h3⟩ := C139_e1_rounding hr hM B hd hx
  obtain ⟨v', hv', a1, a2, a3⟩ := C90_accuracy_partial B hx'
  rw [hv] at hv'
  injection hv' with hv'
  subst hv'
  have E1pos := E1_nonneg h0
  have tri := abs_sub_le w v (Spec.E1 x)
  have pos : ∀ {ε : ℝ}, |v - Spec.E1 x| ≤ ε * Spec.E1 x → v ≤ (1 + ε) * Spec.E1 x := fun h => by linarith [(abs_le.1 h).2]
  refine ⟨w, hw, fun h => ⟨?_, ?_⟩, fun h h' => ?_, fun h => ?_⟩
  · have h4 := E1_zero_one h0 h.le
    have h5 := e1_below_one B hx' h
    rw [hv] at h5
    injection h5 with h5
    rw [← h5] at h4
    have h6 := h2 h
    have := abs_nonneg (Real.log x)
    norm_num at h4 h6 ⊢
    linarith
  · have := a1 h
    have := pos (a1 h)
    norm_num at *
    linarith
  · have := a2 h h'
    have := pos (a2 h h')
    norm_num at *
    linarith
  · have := a3 h
    have := pos (a3 h)
    norm_num at *
    linarith

/-- C139: in double too, `E1_approximation` ends the program up to `1e-8` (the double nearest to it). -/
theorem C139_e1_refused (hr : ToNearest rnd) (M : ELib) (B : Build) {x : ℝ} (hd : Double x) (hx : x ≤ rnd 1e-8) : e1ApproximationR rnd M B x = .exits 0 := by
  have : isCloseZeroR rnd x ∨ x < 0 := by
    rcases lt_or_ge x 0 with h | h
    · exact Or.inr h
    · left
      rw [isCloseZeroR_iff hr hd, abs_of_nonneg h]
      exact hx
  rw [e1ApproximationR, if_pos this]

/-! ## Concrete cases -/

/-- A library that rounds the exact values to the nearest. -/
noncomputable def roundExp : ELib where
  exp t := roundNearest (Real.exp t)
  log t := roundNearest (Real.log t)

theorem roundExp_close : ELib.Close roundExp := by
  have k : ∀ y : ℝ, |roundNearest y - y| ≤ |y| / 2 ^ 52 := fun y => by
    rw [abs_sub_comm]
    refine (toNearest_err roundNearest_toNearest y).trans ?_
    gcongr <;> norm_num
  refine ⟨fun t => ?_, fun t _ => k _⟩
  have := k (Real.exp t)
  rwa [abs_of_pos (Real.exp_pos t)] at this

/-- The values at 1/2, 2 and 5, and at 0, which is refused. -/
example : (∃ w, e1ApproximationR roundNearest roundExp ⟨true⟩ (1 / 2) = .ok w ∧ |w - Spec.E1 (1 / 2)| ≤ 4.1e-14 * Spec.E1 (1 / 2)) ∧
    (∃ w, e1ApproximationR roundNearest roundExp ⟨true⟩ 2 = .ok w ∧ |w - Spec.E1 2| ≤ 1.52e-9 * Spec.E1 2) ∧
    (∃ w, e1ApproximationR roundNearest roundExp ⟨false⟩ 5 = .ok w ∧ |w - Spec.E1 5| ≤ 9.32e-4 * Spec.E1 5) ∧
    e1ApproximationR roundNearest roundExp ⟨true⟩ 0 = .exits 0 := by
  have hr := roundNearest_toNearest
  have b : roundNearest 1e-8 ≤ 1 / 4 := by
    have := toNearest_mono hr (show (1e-8 : ℝ) ≤ 1 / 4 by norm_num)
    rwa [toNearest_double hr (show Double (1 / 4) from ⟨1, -2, by norm_num, by norm_num⟩)] at this
  have n : 0 ≤ roundNearest 1e-8 := by
    have := toNearest_mono hr (show (0 : ℝ) ≤ 1e-8 by norm_num)
    rwa [toNearest_double hr double_zero] at this
  refine ⟨?_, ?_, ?_, C139_e1_refused hr _ _ double_zero n⟩
  · obtain ⟨w, h, h1, -, -⟩ := C139_e1_accuracy hr roundExp_close ⟨true⟩ (x := 1 / 2) ⟨1, -1, by norm_num, by norm_num⟩ (by linarith)
    exact ⟨w, h, (h1 (by norm_num)).2⟩
  · obtain ⟨w, h, -, h1, -⟩ := C139_e1_accuracy hr roundExp_close ⟨true⟩ (x := 2) ⟨2, 0, by norm_num, by norm_num⟩ (by linarith)
    exact ⟨w, h, h1 (by norm_num) (by norm_num)⟩
  · obtain ⟨w, h, -, -, h1⟩ := C139_e1_accuracy hr roundExp_close ⟨false⟩ (x := 5) ⟨5, 0, by norm_num, by norm_num⟩ (by linarith)
    exact ⟨w, h, h1 (by norm_num)⟩

end MU
