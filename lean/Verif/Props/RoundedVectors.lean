import Verif.Model.RoundedVectors
import Verif.Props.VectorClasses
import Verif.Props.RoundedUnit
import Verif.Props.RoundedGeometry
import Verif.Props.RoundedTriangle

/-!
# C149, C150: vectors in double arithmetic
-/

set_option linter.unusedSectionVars false

namespace MU

open Spec

namespace Spec

/-- The angle in radians; a degree is the 180th part of π. -/
noncomputable def trueRadians (angle : ℝ) : AngleUnit → ℝ
  | .DEG => angle * Real.pi / 180
  | .RAD => angle

/-- The relative error of a rotation: ten roundings, and five roundings of the angle if it has to be converted. -/
noncomputable def turnError (angle : ℝ) : AngleUnit → ℝ
  | .DEG => (10 + 5 * |angle * Real.pi / 180|) / 2 ^ 53
  | .RAD => 10 / 2 ^ 53

end Spec

variable {rnd : ℝ → ℝ} {M : CMath}

/-- The angle whose cosine and sine are asked. -/
noncomputable def usedAngle (rnd : ℝ → ℝ) (angle : ℝ) (unit : AngleUnit) : ℝ := if unit = .DEG then rnd (angle * MU_PI_180_R rnd) else angle

theorem usedAngle_err (hr : ToNearest rnd) (angle : ℝ) (unit : AngleUnit) :
    |usedAngle rnd angle unit - trueRadians angle unit| + 10 / 2 ^ 53 ≤ turnError angle unit := by
  cases unit with
  | RAD => simp [usedAngle, trueRadians, turnError]
  | DEG =>
    have h := (((Rel.exact angle).mul (rel_pi_180 hr)).round hr).bound (by norm_num)
    simp only [usedAngle, trueRadians, turnError, if_true]
    rw [← mul_div_assoc] at h
    norm_num at h ⊢
    linarith

theorem norm_complex_le {z : ℂ} {a b : ℝ} (ha : |z.re| ≤ a) (hb : |z.im| ≤ b) : ‖z‖ ^ 2 ≤ a ^ 2 + b ^ 2 := by
  rw [← Complex.normSq_eq_norm_sq, Complex.normSq_apply]
  have h1 := sq_le_sq' (by linarith [neg_abs_le z.re, ha]) ((le_abs_self _).trans ha)
  have h2 := sq_le_sq' (by linarith [neg_abs_le z.im, hb]) ((le_abs_self _).trans hb)
  nlinarith

theorem toC_norm_sq (v : V2) : ‖toC v‖ ^ 2 = v.x ^ 2 + v.y ^ 2 := by
  rw [← Complex.normSq_eq_norm_sq, Complex.normSq_apply]
  simp only [toC]
  ring

/-- Two combinations of the components, computed with a few roundings. -/
theorem rotated_near {x y c1 s1 c2 s2 X Y : ℝ} (h1 : Near 4 (|x| + |y|) c1 X) (h2 : Near 4 (|x| + |y|) s1 Y) (e1 : c1 = c2) (e2 : s1 = s2) :
    ‖(⟨X, Y⟩ : ℂ) - ⟨c2, s2⟩‖ ≤ 10 / 2 ^ 53 * ‖toC ⟨x, y⟩‖ := by
  subst e1 e2
  have hg := gam_le (k := 4) (by norm_num)
  have hq : 0 ≤ |x| + |y| := by positivity
  have g5 : gam 4 * (|x| + |y|) ≤ 5 * uround * (|x| + |y|) := by
    refine mul_le_mul_of_nonneg_right ?_ hq
    norm_num at hg
    linarith
  have h3 := norm_complex_le (z := (⟨X, Y⟩ : ℂ) - ⟨c1, s1⟩) (h1.err.trans g5) (h2.err.trans g5)
  have h4 := toC_norm_sq ⟨x, y⟩
  have h5 : (|x| + |y|) ^ 2 ≤ 2 * ‖toC ⟨x, y⟩‖ ^ 2 := by
    rw [h4]
    simp only
    nlinarith [sq_nonneg (|x| - |y|), sq_abs x, sq_abs y]
  refine abs_le_of_sq_le_sq' ?_ (by positivity) |>.2
  refine h3.trans ?_
  have e : (10 : ℝ) / 2 ^ 53 = 10 * uround := by unfold uround; ring
  rw [e]
  have hu := sq_nonneg uround
  nlinarith [mul_le_mul_of_nonneg_left h5 hu]

theorem local_near (hr : ToNearest rnd) (hM : CMath.Close M) (m : Mem) (p : Nat) (angle : ℝ) (unit : AngleUnit) :
    ‖toC (projectLocalOnNEDR rnd M p angle unit m p) - toC (m p) * Complex.exp (usedAngle rnd angle unit * Complex.I)‖ ≤ 10 / 2 ^ 53 * ‖toC (m p)‖ ∧
    ‖toC (projectNEDOnLocalR rnd M p angle unit m p) - toC (m p) * Complex.exp (-(usedAngle rnd angle unit * Complex.I))‖ ≤
      10 / 2 ^ 53 * ‖toC (m p)‖ := by
  have c := cos_near hM (usedAngle rnd angle unit)
  have s := sin_near hM (usedAngle rnd angle unit)
  have cm : ∀ x, Near 3 |x| (Real.cos (usedAngle rnd angle unit) * x) (rnd (M.cos (usedAngle rnd angle unit) * x)) := fun x => by
    have := (c.mul (Near.exact x)).round hr
    rwa [one_mul] at this
  have sm : ∀ x, Near 3 |x| (Real.sin (usedAngle rnd angle unit) * x) (rnd (M.sin (usedAngle rnd angle unit) * x)) := fun x => by
    have := (s.mul (Near.exact x)).round hr
    rwa [one_mul] at this
  have sn : ∀ x, Near 3 |x| (-Real.sin (usedAngle rnd angle unit) * x) (rnd (-M.sin (usedAngle rnd angle unit) * x)) := fun x => by
    have := (s.neg.mul (Near.exact x)).round hr
    rwa [one_mul] at this
  have swap : ∀ {k P r}, Near k (|(m p).y| + |(m p).x|) P r → Near k (|(m p).x| + |(m p).y|) P r := fun h => by rwa [add_comm]
  constructor
  · rw [exp_I]
    have e : toC (m p) * (⟨Real.cos (usedAngle rnd angle unit), Real.sin (usedAngle rnd angle unit)⟩ : ℂ) =
        ⟨Real.cos (usedAngle rnd angle unit) * (m p).x - Real.sin (usedAngle rnd angle unit) * (m p).y,
         Real.sin (usedAngle rnd angle unit) * (m p).x + Real.cos (usedAngle rnd angle unit) * (m p).y⟩ := by
      apply Complex.ext <;> simp [toC] <;> ring
    rw [e]
    have h := rotated_near (((cm (m p).x).sub (sm (m p).y)).round hr) (((sm (m p).x).add (cm (m p).y)).round hr) rfl rfl
    simpa [projectLocalOnNEDR, getTrigoR, usedAngle, Mem.set0, Mem.set1, Mem.put, toC] using h
  · rw [exp_neg_I]
    have e : toC (m p) * (⟨Real.cos (usedAngle rnd angle unit), -Real.sin (usedAngle rnd angle unit)⟩ : ℂ) =
        ⟨Real.cos (usedAngle rnd angle unit) * (m p).x + Real.sin (usedAngle rnd angle unit) * (m p).y,
         -Real.sin (usedAngle rnd angle unit) * (m p).x + Real.cos (usedAngle rnd angle unit) * (m p).y⟩ := by
      apply Complex.ext <;> simp [toC] <;> ring
    rw [e]
    have h := rotated_near (((cm (m p).x).add (sm (m p).y)).round hr) (((sn (m p).x).add (cm (m p).y)).round hr) rfl rfl
    simpa [projectNEDOnLocalR, getTrigoR, usedAngle, Mem.set0, Mem.set1, Mem.put, toC] using h

theorem exp_I_diff (a b : ℝ) : ‖Complex.exp (a * Complex.I) - Complex.exp (b * Complex.I)‖ ≤ |a - b| := by
  have h := Real.norm_exp_I_mul_ofReal_sub_one_le (x := a - b)
  have e : Complex.exp (a * Complex.I) - Complex.exp (b * Complex.I) =
      Complex.exp (b * Complex.I) * (Complex.exp (Complex.I * ((a - b : ℝ) : ℂ)) - 1) := by
    rw [mul_sub, ← Complex.exp_add, mul_one]
    congr 2
    push_cast
    ring
  rw [e, norm_mul, Complex.norm_exp_ofReal_mul_I, one_mul]
  simpa using h

/-- **C149**: in double arithmetic the two projections rotate the vector by the angle, in opposite directions, up to a relative error of ten roundings, to which
the conversion of degrees adds five roundings of the angle; no other object is changed. -/
theorem C149_rotation (hr : ToNearest rnd) (hM : CMath.Close M) (m : Mem) (p : Nat) (angle : ℝ) (unit : AngleUnit) :
    (∃ v, Becomes m (projectLocalOnNEDR rnd M p angle unit m) p v ∧
      ‖toC v - toC (m p) * Complex.exp (trueRadians angle unit * Complex.I)‖ ≤ turnError angle unit * ‖toC (m p)‖) ∧
    (∃ v, Becomes m (projectNEDOnLocalR rnd M p angle unit m) p v ∧
      ‖toC v - toC (m p) * Complex.exp (-(trueRadians angle unit * Complex.I))‖ ≤ turnError angle unit * ‖toC (m p)‖) := by
  obtain ⟨h1, h2⟩ := local_near hr hM m p angle unit
  have he := usedAngle_err hr angle unit
  have key : ∀ (z : ℂ) (a b : ℝ), ‖z - toC (m p) * Complex.exp (a * Complex.I)‖ ≤ 10 / 2 ^ 53 * ‖toC (m p)‖ →
      |a - b| + 10 / 2 ^ 53 ≤ turnError angle unit → ‖z - toC (m p) * Complex.exp (b * Complex.I)‖ ≤ turnError angle unit * ‖toC (m p)‖ := by
    intro z a b h hab
    have h3 : ‖toC (m p) * Complex.exp (a * Complex.I) - toC (m p) * Complex.exp (b * Complex.I)‖ ≤ ‖toC (m p)‖ * |a - b| := by
      rw [← mul_sub, norm_mul]
      exact mul_le_mul_of_nonneg_left (exp_I_diff a b) (norm_nonneg _)
    have h4 := norm_sub_le_norm_sub_add_norm_sub z (toC (m p) * Complex.exp (a * Complex.I)) (toC (m p) * Complex.exp (b * Complex.I))
    have h5 := mul_le_mul_of_nonneg_right hab (norm_nonneg (toC (m p)))
    linarith
  refine ⟨⟨_, ⟨rfl, fun q hq => ?_⟩, key _ _ _ h1 he⟩, ⟨_, ⟨rfl, fun q hq => ?_⟩, ?_⟩⟩
  · simp [projectLocalOnNEDR, Mem.set0, Mem.set1, Mem.put, hq]
  · simp [projectNEDOnLocalR, Mem.set0, Mem.set1, Mem.put, hq]
  · have e : ∀ a : ℝ, -(a * Complex.I) = ((-a : ℝ) : ℂ) * Complex.I := fun a => by push_cast; ring
    rw [e] at h2 ⊢
    refine key _ _ _ h2 ?_
    rwa [show -usedAngle rnd angle unit - -trueRadians angle unit = -(usedAngle rnd angle unit - trueRadians angle unit) by ring, abs_neg]

/-- **C149**: the projections keep the norm up to ten roundings, whatever the angle and its unit. -/
theorem C149_norm (hr : ToNearest rnd) (hM : CMath.Close M) (m : Mem) (p : Nat) (angle : ℝ) (unit : AngleUnit) :
    |‖toC (projectLocalOnNEDR rnd M p angle unit m p)‖ - ‖toC (m p)‖| ≤ 10 / 2 ^ 53 * ‖toC (m p)‖ ∧
    |‖toC (projectNEDOnLocalR rnd M p angle unit m p)‖ - ‖toC (m p)‖| ≤ 10 / 2 ^ 53 * ‖toC (m p)‖ := by
  obtain ⟨h1, h2⟩ := local_near hr hM m p angle unit
  have e : ∀ a : ℝ, -(a * Complex.I) = ((-a : ℝ) : ℂ) * Complex.I := fun a => by push_cast; ring
  rw [e] at h2
  have key : ∀ (z : ℂ) (a : ℝ), ‖z - toC (m p) * Complex.exp (a * Complex.I)‖ ≤ 10 / 2 ^ 53 * ‖toC (m p)‖ →
      |‖z‖ - ‖toC (m p)‖| ≤ 10 / 2 ^ 53 * ‖toC (m p)‖ := by
    intro z a h
    have h3 := abs_norm_sub_norm_le z (toC (m p) * Complex.exp (a * Complex.I))
    rw [norm_mul, Complex.norm_exp_ofReal_mul_I, mul_one] at h3
    exact h3.trans h
  exact ⟨key _ _ h1, key _ _ h2⟩

/-- **C149**: projecting and projecting back with the same angle gives the vector up to 21 roundings, whatever the angle and its unit. -/
theorem C149_round_trip (hr : ToNearest rnd) (hM : CMath.Close M) (m : Mem) (p : Nat) (angle : ℝ) (unit : AngleUnit) :
    ‖toC (projectNEDOnLocalR rnd M p angle unit (projectLocalOnNEDR rnd M p angle unit m) p) - toC (m p)‖ ≤ 21 / 2 ^ 53 * ‖toC (m p)‖ ∧
    ‖toC (projectLocalOnNEDR rnd M p angle unit (projectNEDOnLocalR rnd M p angle unit m) p) - toC (m p)‖ ≤ 21 / 2 ^ 53 * ‖toC (m p)‖ := by
  have e : ∀ a : ℝ, -(a * Complex.I) = ((-a : ℝ) : ℂ) * Complex.I := fun a => by push_cast; ring
  have key : ∀ (v w z : ℂ) (a : ℝ), ‖w - v * Complex.exp (a * Complex.I)‖ ≤ 10 / 2 ^ 53 * ‖v‖ →
      ‖z - w * Complex.exp (((-a : ℝ) : ℂ) * Complex.I)‖ ≤ 10 / 2 ^ 53 * ‖w‖ → ‖z - v‖ ≤ 21 / 2 ^ 53 * ‖v‖ := by
    intro v w z a h1 h2
    have h3 : ‖w * Complex.exp (((-a : ℝ) : ℂ) * Complex.I) - v‖ ≤ 10 / 2 ^ 53 * ‖v‖ := by
      have : w * Complex.exp (((-a : ℝ) : ℂ) * Complex.I) - v = (w - v * Complex.exp (a * Complex.I)) * Complex.exp (((-a : ℝ) : ℂ) * Complex.I) := by
        rw [sub_mul, mul_assoc, ← Complex.exp_add, ← e, add_neg_cancel, Complex.exp_zero, mul_one]
      rw [this, norm_mul, Complex.norm_exp_ofReal_mul_I, mul_one]
      exact h1
    have h4 := norm_sub_le_norm_sub_add_norm_sub z (w * Complex.exp (((-a : ℝ) : ℂ) * Complex.I)) v
    have h5 := norm_sub_norm_le w (v * Complex.exp (a * Complex.I))
    rw [norm_mul, Complex.norm_exp_ofReal_mul_I, mul_one] at h5
    have h6 := norm_nonneg v
    norm_num at h1 h2 h3 h4 ⊢
    linarith
  obtain ⟨h1, h2⟩ := local_near hr hM m p angle unit
  obtain ⟨-, h3⟩ := local_near hr hM (projectLocalOnNEDR rnd M p angle unit m) p angle unit
  obtain ⟨h4, -⟩ := local_near hr hM (projectNEDOnLocalR rnd M p angle unit m) p angle unit
  rw [e] at h2 h3
  refine ⟨key _ _ _ _ h1 h3, key _ _ _ _ h2 ?_⟩
  rwa [neg_neg]

/-- **C149**: the projections on one axis are the components of the projected vector, to the last bit. -/
theorem C149_axes (m : Mem) (p : Nat) (angle : ℝ) (unit : AngleUnit) :
    projectLocalOnNEDR rnd M p angle unit m p = ⟨projectOnNorthAxisR rnd M (m p) angle unit, projectOnEastAxisR rnd M (m p) angle unit⟩ ∧
    projectNEDOnLocalR rnd M p angle unit m p = ⟨projectOnLocalXAxisR rnd M (m p) angle unit, projectOnLocalYAxisR rnd M (m p) angle unit⟩ := by
  constructor
  · simp [projectLocalOnNEDR, projectOnNorthAxisR, projectOnEastAxisR, Mem.set0, Mem.set1, Mem.put]
  · simp [projectNEDOnLocalR, projectOnLocalXAxisR, projectOnLocalYAxisR, Mem.set0, Mem.set1, Mem.put]

theorem speedInR_near (hr : ToNearest rnd) (x : ℝ) (u v : SpeedUnit) :
    ∃ y, speedInR rnd x u v = .ok y ∧ ∀ Y, metresPerSecond v Y = metresPerSecond u x → |y - Y| ≤ 7 / 2 ^ 53 * |Y| := by
  unfold speedInR
  by_cases h : u = v
  · subst h
    refine ⟨x, by rw [if_neg (by simp)], fun Y hY => ?_⟩
    have : Y = x := by
      cases u <;> simp only [metresPerSecond] at hY <;> linarith
    rw [this, sub_self, abs_zero]
    positivity
  · obtain ⟨y, h1, h2⟩ := C125_velocity hr x u v
    exact ⟨y, by rw [if_pos h, h1], h2⟩

/-- **C149**: `GetNEDVelocityVector` gives the speeds, converted, rotated by the heading; the conversion adds eight roundings to the error of the rotation. -/
theorem C149_velocity (hr : ToNearest rnd) (hM : CMath.Close M) (long lat angle : ℝ) (unit : AngleUnit) (u v : SpeedUnit) {x y : ℝ}
    (hx : metresPerSecond v x = metresPerSecond u long) (hy : metresPerSecond v y = metresPerSecond u lat) :
    ∃ w, getNEDVelocityVectorR rnd M long lat angle unit u v = .ok w ∧
      ‖toC w - ⟨x, y⟩ * Complex.exp (trueRadians angle unit * Complex.I)‖ ≤ (8 / 2 ^ 53 + (1 + 8 / 2 ^ 53) * turnError angle unit) * ‖toC ⟨x, y⟩‖ := by
  obtain ⟨x', hx1, hx2⟩ := speedInR_near hr long u v
  obtain ⟨y', hy1, hy2⟩ := speedInR_near hr lat u v
  have ex := hx2 x hx
  have ey := hy2 y hy
  obtain ⟨⟨w, hw, e⟩, -⟩ := C149_rotation hr hM (fun _ => ⟨x', y'⟩) 0 angle unit
  refine ⟨w, ?_, ?_⟩
  · unfold getNEDVelocityVectorR
    rw [hx1, hy1, ← hw.1]
    rfl
  have hd : ‖toC ⟨x', y'⟩ - toC ⟨x, y⟩‖ ≤ 7 / 2 ^ 53 * ‖toC ⟨x, y⟩‖ := by
    have h := norm_complex_le (z := toC ⟨x', y'⟩ - toC ⟨x, y⟩) ex ey
    refine abs_le_of_sq_le_sq' ?_ (by positivity) |>.2
    refine h.trans_eq ?_
    rw [mul_pow, mul_pow, mul_pow, sq_abs, sq_abs, toC_norm_sq]
    ring
  have ht : 0 ≤ turnError angle unit := by
    cases unit
    · unfold turnError; positivity
    · unfold turnError; positivity
  have hn : ‖toC ⟨x', y'⟩‖ ≤ (1 + 7 / 2 ^ 53) * ‖toC ⟨x, y⟩‖ := by
    have := norm_sub_norm_le (toC ⟨x', y'⟩) (toC ⟨x, y⟩)
    linarith
  have h1 : ‖toC ⟨x', y'⟩ * Complex.exp (trueRadians angle unit * Complex.I) - ⟨x, y⟩ * Complex.exp (trueRadians angle unit * Complex.I)‖ ≤
      7 / 2 ^ 53 * ‖toC ⟨x, y⟩‖ := by
    rw [← sub_mul, norm_mul, Complex.norm_exp_ofReal_mul_I, mul_one]
    exact hd
  have h2 := norm_sub_le_norm_sub_add_norm_sub (toC w) (toC ⟨x', y'⟩ * Complex.exp (trueRadians angle unit * Complex.I))
    (⟨x, y⟩ * Complex.exp (trueRadians angle unit * Complex.I))
  have h3 := mul_le_mul_of_nonneg_left hn ht
  have h4 := mul_nonneg ht (norm_nonneg (toC ⟨x, y⟩))
  have h5 := norm_nonneg (toC ⟨x, y⟩)
  norm_num at h1 h2 h3 e ⊢
  nlinarith

theorem gam_ge (k : ℕ) : k * uround ≤ gam k := by
  have := one_add_mul_le_pow (a := uround) (by linarith [uround_pos]) k
  unfold gam
  linarith

theorem Rel.near {k : ℕ} {P r : ℝ} (h : Rel k P r) (hk : k ≤ 40) : Near (k + 1) |P| P r := by
  refine ⟨(h.bound hk).trans (mul_le_mul_of_nonneg_right ?_ (abs_nonneg _)), le_rfl⟩
  have := gam_ge (k + 1)
  push_cast at this
  unfold uround at this
  linarith

/-- **C149**, distinct objects: the velocity is transported to the point up to 22 roundings of its terms, with the rotation speed in any unit. -/
theorem C149_transport (hr : ToNearest rnd) (m : Mem) (this point : Nat) (hd : this ≠ point) (w : ℝ) (u : FrequencyUnit) (h : w ≠ 0 ∨ u ≠ .S) {r : ℝ}
    (e : turns .RADS r = turns u w) :
    ∃ m' v, transportAtPointR rnd this point w u m = .ok m' ∧ Becomes m m' this v ∧
      |v.x - ((m this).x - (m point).y * r)| ≤ 22 / 2 ^ 53 * (|(m this).x| + |(m point).y * r|) ∧
      |v.y - ((m this).y + (m point).x * r)| ≤ 22 / 2 ^ 53 * (|(m this).y| + |(m point).x * r|) := by
  have hw : ∃ w', speedInRadsR rnd w u = .ok w' ∧ Near 19 |r| r w' := by
    unfold speedInRadsR
    by_cases hu : u = .RADS
    · subst hu
      have : r = w := by
        simp only [turns] at e
        have := Real.pi_pos
        field_simp at e
        exact e
      exact ⟨w, by rw [if_neg (by simp)], by rw [this]; exact (Near.exact w).upto (by norm_num)⟩
    · obtain ⟨y, h1, h2, -⟩ := frequency_rel hr (Rel.exact w) u .RADS (h.imp id (fun h => ⟨h, by decide⟩))
      exact ⟨y, by rw [if_pos hu, h1], (h2 r e).near (by norm_num)⟩
  obtain ⟨w', hw1, hw2⟩ := hw
  have hd' : point ≠ this := fun h => hd h.symm
  have hp : ∀ a, Near 20 |a * r| (a * r) (rnd (a * w')) := fun a => by
    have := ((Near.exact a).mul hw2).round hr
    rw [← abs_mul] at this
    exact this.upto (by norm_num)
  have hb : ∀ {Q P r}, Near 21 Q P r → |r - P| ≤ 22 / 2 ^ 53 * Q := fun {Q P r} h => by
    refine h.err.trans (mul_le_mul_of_nonneg_right ?_ h.nonneg)
    have := gam_le (k := 21) (by norm_num)
    unfold uround at this
    norm_num at this ⊢
    linarith
  refine ⟨_, _, by unfold transportAtPointR; rw [hw1]; rfl, ⟨rfl, fun q hq => ?_⟩, ?_, ?_⟩
  · simp [Mem.set0, Mem.set1, Mem.put, hq]
  · have := hb ((((Near.exact (m this).x).upto (by norm_num)).sub (hp (m point).y)).round hr)
    simpa [Mem.set0, Mem.set1, Mem.put, hd'] using this
  · have := hb ((((Near.exact (m this).y).upto (by norm_num)).add (hp (m point).x)).round hr)
    simpa [Mem.set0, Mem.set1, Mem.put, hd'] using this

/-- C149 is about something: a library as required exists, and a vector of the type double is turned by 30 degrees; the error is below `13 / 2^53` of its norm. -/
theorem closeLib : CMath.Close ⟨Real.cos, Real.sin, Real.arcsin, fun y x => Complex.arg ⟨x, y⟩, fun x => x ^ 2⟩ where
  cos t := by simp
  sin t := by simp
  asin t _ _ := by simp
  atan2 y x := by simp
  pow2 x := by simp; positivity

example (hr : ToNearest rnd) (hM : CMath.Close M) : ‖toC (projectLocalOnNEDR rnd M 0 30 .DEG (fun _ => ⟨3, 4⟩) 0) -
    ⟨3, 4⟩ * Complex.exp ((Real.pi / 6 : ℝ) * Complex.I)‖ ≤ 13 / 2 ^ 53 * 5 := by
  obtain ⟨⟨v, hv, h⟩, -⟩ := C149_rotation hr hM (fun _ => ⟨3, 4⟩) 0 30 .DEG
  rw [hv.1]
  have e : trueRadians 30 .DEG = Real.pi / 6 := by simp only [trueRadians]; ring
  have n : ‖toC ⟨3, 4⟩‖ = 5 := by
    have := toC_norm_sq ⟨3, 4⟩
    norm_num at this
    nlinarith [norm_nonneg (toC ⟨3, 4⟩)]
  rw [e, n] at h
  refine h.trans ?_
  have := Real.pi_lt_d2
  have hp := Real.pi_pos
  simp only [turnError]
  rw [abs_of_pos (by positivity)]
  norm_num
  linarith

/-! ## C150 -/

variable {sum3 : ℝ → ℝ → ℝ → ℝ}

theorem gam4_le : gam 4 ≤ 5 / 2 ^ 53 := by
  have := gam_le (k := 4) (by norm_num)
  unfold uround at this
  norm_num at this ⊢
  linarith

theorem v3norm_pos {v : V3} (h : v ≠ 0) : 0 < V3.norm v := by
  refine lt_of_le_of_ne (v3norm_nonneg v) fun h0 => h ?_
  rw [v3norm_eq, eq_comm, norm_eq_zero] at h0
  simpa using h0

theorem component_quotient_near (hr : ToNearest rnd) {a n n' : ℝ} (hn : 0 < n) (h : |n' - n| ≤ 5 / 2 ^ 53 * n) : |rnd (a / n') - a / n| ≤ 7 / 2 ^ 53 * (|a| / n) := by
  have hn' : 0 < n' := by
    have := (abs_le.1 h).1
    norm_num at this
    linarith
  have h1 : |a / n' - a / n| ≤ 51 / 10 / 2 ^ 53 * (|a| / n) := by
    rw [show a / n' - a / n = a / n * ((n - n') / n') by field_simp, abs_mul, abs_div, abs_of_pos hn, mul_comm]
    refine mul_le_mul_of_nonneg_right ?_ (by positivity)
    rw [abs_div, abs_of_pos hn', div_le_iff₀ hn', abs_sub_comm]
    refine h.trans ?_
    have := (abs_le.1 h).1
    norm_num at this ⊢
    linarith
  have h2 := toNearest_err hr (a / n')
  rw [abs_sub_comm] at h2
  have h3 : |a / n'| ≤ (1 + 51 / 10 / 2 ^ 53) * (|a| / n) := by
    have := abs_sub_abs_le_abs_sub (a / n') (a / n)
    rw [abs_div a n, abs_of_pos hn] at this
    linarith
  have h4 := abs_sub_le (rnd (a / n')) (a / n') (a / n)
  have h5 : 0 ≤ |a| / n := by positivity
  norm_num at h1 h2 h3 ⊢
  linarith

theorem normalize3R_eq (hr : ToNearest rnd) (hs : AnyOrder rnd sum3) {v : V3} (h : v ≠ 0) :
    normalize3R rnd sum3 v = fun i => rnd (v i / V3.normR rnd sum3 v) := by
  have hn := norm_near hr hs v
  have hp := v3norm_pos h
  unfold normalize3R
  simp only
  rw [if_pos, V3.normR]
  by_contra hc
  have : V3.normR rnd sum3 v = 0 := by
    unfold V3.normR
    rw [Real.sqrt_eq_zero_of_nonpos (not_lt.1 hc)]
    exact toNearest_double hr double_zero
  rw [this, zero_sub, abs_neg, abs_of_pos hp] at hn
  have := gam4_le
  norm_num at this
  nlinarith

/-- **C150**: in double arithmetic `Normalize` divides a vector that is not null by its norm: each component has a relative error of seven roundings. -/
theorem C150_components (hr : ToNearest rnd) (hs : AnyOrder rnd sum3) {v : V3} (h : v ≠ 0) (i : Fin 3) :
    |normalize3R rnd sum3 v i - v i / V3.norm v| ≤ 7 / 2 ^ 53 * |v i / V3.norm v| := by
  rw [normalize3R_eq hr hs h, abs_div, abs_of_pos (v3norm_pos h)]
  exact component_quotient_near hr (v3norm_pos h) ((norm_near hr hs v).trans (mul_le_mul_of_nonneg_right gam4_le (v3norm_nonneg v)))

/-- **C150**: the result has norm one up to seven roundings. -/
theorem C150_unit (hr : ToNearest rnd) (hs : AnyOrder rnd sum3) {v : V3} (h : v ≠ 0) : |V3.norm (normalize3R rnd sum3 v) - 1| ≤ 7 / 2 ^ 53 := by
  have hp := v3norm_pos h
  have h1 : V3.norm (fun i => v i / V3.norm v) = 1 := by
    have e : V3.norm v ^ 2 = v 0 ^ 2 + v 1 ^ 2 + v 2 ^ 2 := by
      unfold V3.norm
      rw [Real.sq_sqrt (by positivity)]
    rw [V3.norm, Real.sqrt_eq_one]
    rw [div_pow, div_pow, div_pow, ← add_div, ← add_div, ← e]
    field_simp
  have h2 := v3norm_sub (normalize3R rnd sum3 v) (fun i => v i / V3.norm v)
  rw [h1] at h2
  refine h2.trans ?_
  have hc : ∀ i, ((normalize3R rnd sum3 v - fun i => v i / V3.norm v) i) ^ 2 ≤ (7 / 2 ^ 53) ^ 2 * (v i / V3.norm v) ^ 2 := fun i => by
    have := C150_components hr hs h i
    rw [← sq_abs, ← sq_abs (v i / V3.norm v), ← mul_pow]
    exact pow_le_pow_left₀ (abs_nonneg _) this 2
  have e1 : (v 0 / V3.norm v) ^ 2 + (v 1 / V3.norm v) ^ 2 + (v 2 / V3.norm v) ^ 2 = 1 := Real.sqrt_eq_one.1 h1
  have a := hc 0
  have b := hc 1
  have c := hc 2
  rw [V3.norm, Real.sqrt_le_left (by positivity)]
  refine (add_le_add (add_le_add a b) c).trans_eq ?_
  rw [← mul_add, ← mul_add, e1, mul_one]

theorem unit_tol (hr : ToNearest rnd) : |rnd (rnd (1 / 10 ^ 8) + rnd (rnd (1 / 10 ^ 5) * |(1 : ℝ)|)) - 1001 / 10 ^ 8| ≤ 1 / 10 ^ 15 := by
  rw [abs_one, mul_one]
  have n1 := (Near.exact (1 / 10 ^ 8)).round hr
  have n2 := ((Near.exact (1 / 10 ^ 5)).round hr).round hr
  have := (((n1.upto (l := 2) (by norm_num)).add n2).round hr).err
  have g := gam_le (k := 3) (by norm_num)
  unfold uround at g
  rw [abs_of_pos (by norm_num : (0 : ℝ) < 1 / 10 ^ 8), abs_of_pos (by norm_num : (0 : ℝ) < 1 / 10 ^ 5)] at this
  rw [show (1001 : ℝ) / 10 ^ 8 = 1 / 10 ^ 8 + 1 / 10 ^ 5 by norm_num]
  refine this.trans ?_
  norm_num at g ⊢
  linarith

/-- **C150**: `IsUnit` tells whether the norm is within `1.001e-5` of one, except perhaps within `2e-15` of this limit. -/
theorem C150_isUnit (hr : ToNearest rnd) (hs : AnyOrder rnd sum3) (w : V3) :
    (|V3.norm w - 1| ≤ 1001 / 10 ^ 8 - 2 / 10 ^ 15 → isUnit3R rnd sum3 w = true) ∧
    (1001 / 10 ^ 8 + 2 / 10 ^ 15 ≤ |V3.norm w - 1| → isUnit3R rnd sum3 w = false) := by
  have ht := abs_le.1 (unit_tol hr)
  have hn := norm_near hr hs w
  have hn' := hn.trans (mul_le_mul_of_nonneg_right gam4_le (v3norm_nonneg w))
  have h0 := v3norm_nonneg w
  have hd := toNearest_err hr (V3.normR rnd sum3 w - 1)
  have t1 := abs_sub_abs_le_abs_sub (rnd (V3.normR rnd sum3 w - 1)) (V3.normR rnd sum3 w - 1)
  have t2 := abs_sub_abs_le_abs_sub (V3.normR rnd sum3 w - 1) (rnd (V3.normR rnd sum3 w - 1))
  rw [abs_sub_comm (rnd (V3.normR rnd sum3 w - 1)) (V3.normR rnd sum3 w - 1)] at t1
  have t3 := abs_sub_abs_le_abs_sub (V3.normR rnd sum3 w - 1) (V3.norm w - 1)
  have t4 := abs_sub_abs_le_abs_sub (V3.norm w - 1) (V3.normR rnd sum3 w - 1)
  rw [show V3.normR rnd sum3 w - 1 - (V3.norm w - 1) = V3.normR rnd sum3 w - V3.norm w by ring] at t3
  rw [show V3.norm w - 1 - (V3.normR rnd sum3 w - 1) = -(V3.normR rnd sum3 w - V3.norm w) by ring, abs_neg] at t4
  have hw : V3.norm w ≤ 1 + |V3.norm w - 1| := by linarith [le_abs_self (V3.norm w - 1)]
  unfold isUnit3R isCloseR
  constructor
  · intro h
    rw [decide_eq_true_iff]
    norm_num at *
    linarith
  · intro h
    rw [decide_eq_false_iff_not, not_le]
    norm_num at *
    linarith

/-- **C150**: a vector that was normalised is recognised by `IsUnit`; the null vector is left as it is. -/
theorem C150_recognised (hr : ToNearest rnd) (hs : AnyOrder rnd sum3) {v : V3} (h : v ≠ 0) :
    isUnit3R rnd sum3 (normalize3R rnd sum3 v) = true ∧ normalize3R rnd sum3 0 = 0 := by
  constructor
  · refine (C150_isUnit hr hs _).1 ((C150_unit hr hs h).trans ?_)
    norm_num
  · funext i
    have z : rnd 0 = 0 := toNearest_double hr double_zero
    have : sum3 0 0 0 = 0 := by rcases hs 0 0 0 with e | e | e <;> simp [e, z]
    simp [normalize3R, z, this]

/-- **C150**: the angles of the projected vector, in either unit, are within 20 roundings (in radians) of the polar angle in `]-π, π]`. -/
theorem C150_projected (hr : ToNearest rnd) (hM : CMath.Close M) (v : V3) (unit : AngleUnit) :
    |trueRadians (projectedAngleAroundXR rnd M v unit) unit - Complex.arg ⟨v 1, v 2⟩| ≤ 20 / 2 ^ 53 ∧
    |trueRadians (projectedAngleAroundYR rnd M v unit) unit - Complex.arg ⟨v 2, v 0⟩| ≤ 20 / 2 ^ 53 ∧
    |trueRadians (projectedAngleAroundZR rnd M v unit) unit - Complex.arg ⟨v 0, v 1⟩| ≤ 20 / 2 ^ 53 := by
  have key : ∀ a b, |trueRadians (projectedAngleR rnd M a b unit) unit - Complex.arg ⟨b, a⟩| ≤ 20 / 2 ^ 53 := fun a b => by
    have h := hM.atan2 a b
    have hp := Real.pi_lt_d2
    have hp0 := Real.pi_pos
    have ha : |Complex.arg ⟨b, a⟩| ≤ Real.pi := Complex.abs_arg_le_pi _
    cases unit with
    | RAD =>
      simp only [trueRadians, projectedAngleR]
      rw [if_neg (by decide)]
      refine h.trans (by norm_num)
    | DEG =>
      simp only [trueRadians, projectedAngleR, if_true]
      have h1 := (((Rel.exact (M.atan2 a b)).mul (rel_180_pi hr)).round hr).bound (by norm_num)
      have h2 : |M.atan2 a b| ≤ 316 / 100 := by
        have := abs_sub_abs_le_abs_sub (M.atan2 a b) (Complex.arg ⟨b, a⟩)
        norm_num at h hp ⊢
        linarith
      generalize rnd (M.atan2 a b * MU_180_PI_R rnd) = d at h1 ⊢
      have h3 : |d * Real.pi / 180 - M.atan2 a b| ≤ 5 / 2 ^ 53 * |M.atan2 a b| := by
        have e : d * Real.pi / 180 - M.atan2 a b = (d - M.atan2 a b * (180 / Real.pi)) * (Real.pi / 180) := by field_simp
        rw [e, abs_mul, abs_of_pos (by positivity : 0 < Real.pi / 180)]
        rw [abs_mul, abs_of_pos (by positivity : 0 < 180 / Real.pi)] at h1
        have := mul_le_mul_of_nonneg_right h1 (by positivity : 0 ≤ Real.pi / 180)
        refine this.trans_eq ?_
        field_simp
        norm_num
        ring
      have h4 := abs_sub_le (d * Real.pi / 180) (M.atan2 a b) (Complex.arg ⟨b, a⟩)
      norm_num at h h2 h3 ⊢
      linarith
  exact ⟨key _ _, key _ _, key _ _⟩

/-- C150 is about something: a vector along the second axis is normalised to the unit vector. -/
example (hr : ToNearest rnd) (hs : AnyOrder rnd sum3) : |normalize3R rnd sum3 ![0, 3, 0] 1 - 1| ≤ 7 / 2 ^ 53 := by
  have h := C150_components hr hs (v := ![0, 3, 0]) (fun h => by simpa using congrFun h 1) 1
  have e : V3.norm ![0, 3, 0] = 3 := by
    have : (![(0 : ℝ), 3, 0] 0) ^ 2 + (![(0 : ℝ), 3, 0] 1) ^ 2 + (![(0 : ℝ), 3, 0] 2) ^ 2 = 3 ^ 2 := by simp
    rw [V3.norm, this, Real.sqrt_sq (by norm_num)]
  rw [e] at h
  norm_num at h ⊢
  exact h

end MU
