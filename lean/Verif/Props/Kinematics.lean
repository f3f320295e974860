import Verif.Props.VectorClasses
import Mathlib.Analysis.SpecialFunctions.ExpDeriv
import Mathlib.Analysis.SpecialFunctions.Complex.Analytic

/-!
# C217: velocities of the points of a rigid body
-/

set_option linter.unusedSectionVars false

namespace MU

open Spec

/-- What the free transport returns, with the speed in radians per second. -/
theorem transport_eq (w : ℝ) (u : FrequencyUnit) (h : w ≠ 0 ∨ u ≠ .S) :
    ∃ r, turnsPerSecond .RADS r = turnsPerSecond u w ∧
      ∀ v p : V2, ∃ v', transportAtPointFree v p w u = .ok v' ∧ toC v' = toC v + r * Complex.I * toC p := by
  obtain ⟨r, hr, e⟩ := rads_ok w u h
  refine ⟨r, e, fun v p => ⟨⟨v.x - p.y * r, v.y + p.x * r⟩, ?_, ?_⟩⟩
  · unfold transportAtPointFree transportAtPoint
    rw [hr]
    show Res.ok _ = _
    simp [Mem.set0, Mem.set1, Mem.put]
  · apply Complex.ext <;> simp [toC] <;> ring

theorem localOnNED_toC (v : V2) (angle : ℝ) (unit : AngleUnit) :
    toC (projectLocalOnNEDFree v angle unit) = toC v * Complex.exp (radians angle unit * Complex.I) := by
  obtain ⟨⟨w, hw, e⟩, -⟩ := C59_rotation (fun _ => v) 0 angle unit
  have := (C59_versions (fun _ => v) 0 0 angle unit).2.2.1
  rw [this, hw.1, e]

theorem nedOnLocal_toC (v : V2) (angle : ℝ) (unit : AngleUnit) :
    toC (projectNEDOnLocalFree v angle unit) = toC v * Complex.exp (-(radians angle unit * Complex.I)) := by
  obtain ⟨-, ⟨w, hw, e⟩⟩ := C59_rotation (fun _ => v) 0 angle unit
  have := (C59_versions (fun _ => v) 0 0 angle unit).2.2.2.1
  rw [this, hw.1, e]

/-- **C217**: transporting the velocity of the origin of a moving body gives the velocity of its points. The origin moves with the velocity `v` at the time
`t`, the heading turns at the speed given; the point fixed in the body at the local coordinates `b` then moves with the velocity that `TransportAtPoint`
returns for the local vector projected on the NED axes. -/
theorem C217_motion (o : ℝ → ℂ) (heading : ℝ → ℝ) (t : ℝ) (v b : V2) (w r : ℝ) (u : FrequencyUnit) (h : w ≠ 0 ∨ u ≠ .S)
    (ho : HasDerivAt o (toC v) t) (hh : HasDerivAt heading r t) (hr : turnsPerSecond .RADS r = turnsPerSecond u w) :
    ∃ v', transportAtPointFree v (projectLocalOnNEDFree b (heading t) .RAD) w u = .ok v' ∧
      HasDerivAt (fun s => o s + toC (projectLocalOnNEDFree b (heading s) .RAD)) (toC v') t := by
  obtain ⟨r', e, key⟩ := transport_eq w u h
  have hrr : r' = r := by
    have := e.trans hr.symm
    have hp : (2 : ℝ) * M_PI ≠ 0 := by norm_num [M_PI]
    simp only [turnsPerSecond] at this
    exact (div_left_inj' hp).mp this
  subst hrr
  obtain ⟨v', hv, ev⟩ := key v (projectLocalOnNEDFree b (heading t) .RAD)
  refine ⟨v', hv, ?_⟩
  rw [ev]
  simp only [localOnNED_toC, radians]
  refine ho.add ?_
  have h1 : HasDerivAt (fun s => ((heading s : ℝ) : ℂ) * Complex.I) ((r' : ℂ) * Complex.I) t := (hh.ofReal_comp).mul_const _
  have h2 := (h1.cexp).const_mul (toC b)
  rwa [show toC b * (Complex.exp ((heading t : ℂ) * Complex.I) * (r' * Complex.I)) = r' * Complex.I * (toC b * Complex.exp ((heading t : ℂ) * Complex.I)) by
    ring] at h2

/-- **C217**: transporting in the local frame is transporting in the NED frame. -/
theorem C217_frame (v p : V2) (angle : ℝ) (unit : AngleUnit) (w : ℝ) (u : FrequencyUnit) (h : w ≠ 0 ∨ u ≠ .S) :
    ∃ v', transportAtPointFree v p w u = .ok v' ∧
      transportAtPointFree (projectLocalOnNEDFree v angle unit) (projectLocalOnNEDFree p angle unit) w u = .ok (projectLocalOnNEDFree v' angle unit) ∧
      transportAtPointFree (projectNEDOnLocalFree v angle unit) (projectNEDOnLocalFree p angle unit) w u = .ok (projectNEDOnLocalFree v' angle unit) := by
  obtain ⟨r, -, key⟩ := transport_eq w u h
  obtain ⟨v', hv, ev⟩ := key v p
  refine ⟨v', hv, ?_, ?_⟩
  · obtain ⟨a, ha, ea⟩ := key (projectLocalOnNEDFree v angle unit) (projectLocalOnNEDFree p angle unit)
    rw [ha]
    congr 1
    refine toC_inj ?_
    rw [ea, localOnNED_toC, localOnNED_toC, localOnNED_toC, ev]
    ring
  · obtain ⟨a, ha, ea⟩ := key (projectNEDOnLocalFree v angle unit) (projectNEDOnLocalFree p angle unit)
    rw [ha]
    congr 1
    refine toC_inj ?_
    rw [ea, nedOnLocal_toC, nedOnLocal_toC, nedOnLocal_toC, ev]
    ring

/-- **C217**: the velocities of two points of the body have the same component along the line that joins them, and differ by the distance of the points times
the rotation speed. -/
theorem C217_rigid (v p q : V2) (w : ℝ) (u : FrequencyUnit) (h : w ≠ 0 ∨ u ≠ .S) :
    ∃ r a b, turnsPerSecond .RADS r = turnsPerSecond u w ∧ transportAtPointFree v p w u = .ok a ∧ transportAtPointFree v q w u = .ok b ∧
      a.x * (p.x - q.x) + a.y * (p.y - q.y) = b.x * (p.x - q.x) + b.y * (p.y - q.y) ∧ ‖toC a - toC b‖ = |r| * ‖toC p - toC q‖ := by
  obtain ⟨r, e, key⟩ := transport_eq w u h
  obtain ⟨a, ha, ea⟩ := key v p
  obtain ⟨b, hb, eb⟩ := key v q
  refine ⟨r, a, b, e, ha, hb, ?_, ?_⟩
  · have h1 := congrArg Complex.re ea
    have h2 := congrArg Complex.im ea
    have h3 := congrArg Complex.re eb
    have h4 := congrArg Complex.im eb
    simp [toC] at h1 h2 h3 h4
    rw [h1, h2, h3, h4]
    ring
  · rw [ea, eb, show toC v + r * Complex.I * toC p - (toC v + r * Complex.I * toC q) = r * Complex.I * (toC p - toC q) by ring, norm_mul, norm_mul,
      Complex.norm_I, Complex.norm_real, mul_one, Real.norm_eq_abs]

/-- **C217**: a body that turns has exactly one point without velocity, and every point moves at the rotation speed times its distance from that point, at a
right angle to the line that joins them. -/
theorem C217_centre (v : V2) (w : ℝ) (u : FrequencyUnit) (h : w ≠ 0) :
    ∃ r, turnsPerSecond .RADS r = turnsPerSecond u w ∧ ∃ c, transportAtPointFree v c w u = .ok ⟨0, 0⟩ ∧
      (∀ c', transportAtPointFree v c' w u = .ok ⟨0, 0⟩ → c' = c) ∧
      ∀ p, ∃ a, transportAtPointFree v p w u = .ok a ∧ ‖toC a‖ = |r| * ‖toC p - toC c‖ ∧ a.x * (p.x - c.x) + a.y * (p.y - c.y) = 0 := by
  obtain ⟨r, e, key⟩ := transport_eq w u (Or.inl h)
  have hr : r ≠ 0 := by
    rintro rfl
    cases u <;> norm_num [turnsPerSecond, M_PI] at e <;> exact h (by linarith)
  have hrI : (r : ℂ) * Complex.I ≠ 0 := mul_ne_zero (by exact_mod_cast hr) Complex.I_ne_zero
  obtain ⟨z, hzero⟩ : ∃ z : ℂ, toC v + r * Complex.I * z = 0 := ⟨-(toC v) / (r * Complex.I), by rw [mul_div_cancel₀ _ hrI, add_neg_cancel]⟩
  have hc : toC ⟨z.re, z.im⟩ = z := by apply Complex.ext <;> simp [toC]
  have h0 : toC ⟨0, 0⟩ = 0 := by apply Complex.ext <;> simp [toC]
  refine ⟨r, e, ⟨z.re, z.im⟩, ?_, fun c' hc' => ?_, fun p => ?_⟩
  · obtain ⟨a, ha, ea⟩ := key v ⟨z.re, z.im⟩
    rw [ha]
    congr 1
    refine toC_inj ?_
    rw [ea, hc, hzero, h0]
  · obtain ⟨a, ha, ea⟩ := key v c'
    rw [hc', Res.ok.injEq] at ha
    rw [← ha, h0] at ea
    refine toC_inj ?_
    rw [hc]
    refine mul_left_cancel₀ hrI ?_
    linear_combination -hzero - ea
  · obtain ⟨a, ha, ea⟩ := key v p
    have ea' : toC a = r * Complex.I * (toC p - z) := by rw [ea]; linear_combination hzero
    refine ⟨a, ha, ?_, ?_⟩
    · rw [ea', hc, norm_mul, norm_mul, Complex.norm_I, Complex.norm_real, mul_one, Real.norm_eq_abs]
    · have h1 := congrArg Complex.re ea'
      have h2 := congrArg Complex.im ea'
      simp [toC] at h1 h2
      show a.x * (p.x - z.re) + a.y * (p.y - z.im) = 0
      rw [h1, h2]
      ring

/-- A body whose origin goes straight and whose heading turns by two radians each second meets the hypotheses. -/
example : ∃ v', transportAtPointFree ⟨3, 0⟩ (projectLocalOnNEDFree ⟨1, 5⟩ (2 * 7) .RAD) 2 .RADS = .ok v' ∧
    HasDerivAt (fun s : ℝ => (3 * (s : ℂ)) + toC (projectLocalOnNEDFree ⟨1, 5⟩ (2 * s) .RAD)) (toC v') 7 := by
  refine C217_motion (fun s => 3 * (s : ℂ)) (fun s => 2 * s) 7 ⟨3, 0⟩ ⟨1, 5⟩ 2 2 .RADS (Or.inl (by norm_num)) ?_ ?_ rfl
  · have := (Complex.ofRealCLM.hasDerivAt (x := (7 : ℝ))).const_mul (3 : ℂ)
    have e : toC ⟨3, 0⟩ = 3 * Complex.ofRealCLM 1 := by apply Complex.ext <;> simp [toC]
    rw [e]
    exact this
  · simpa using (hasDerivAt_id (7 : ℝ)).const_mul 2

example := C217_frame ⟨3, 0⟩ ⟨1, 5⟩ 30 .DEG 12 .DEGM (Or.inl (by norm_num))
example := C217_rigid ⟨3, 0⟩ ⟨1, 5⟩ ⟨-2, 4⟩ 12 .DEGM (Or.inl (by norm_num))
example := C217_centre ⟨3, 0⟩ 12 .DEGM (by norm_num)

end MU
