import Verif.Spec.VectorClasses
import Verif.Lemmas.Geometry
import Verif.Props.Unit
import Mathlib.Tactic.Linarith

/-!
# C59, C60, C76 to C80: the vector classes
-/

set_option linter.unusedSectionVars false

namespace MU

open Spec

/-! ## C59 -/

theorem getTrigo_eq (angle : ℝ) (unit : AngleUnit) : getTrigo angle unit = (Real.cos (radians angle unit), Real.sin (radians angle unit)) := by
  unfold getTrigo radians
  cases unit
  · simp only [if_true, MU_PI_180, mul_div_assoc]
  · simp

theorem exp_I (t : ℝ) : Complex.exp (t * Complex.I) = ⟨Real.cos t, Real.sin t⟩ := by
  rw [Complex.exp_mul_I]
  apply Complex.ext
  · simp [Complex.cos_ofReal_re]
  · simp [Complex.sin_ofReal_re]

theorem exp_neg_I (t : ℝ) : Complex.exp (-(t * Complex.I)) = ⟨Real.cos t, -Real.sin t⟩ := by
  have := exp_I (-t)
  rw [Real.cos_neg, Real.sin_neg] at this
  rw [← this]
  congr 1
  push_cast
  ring

theorem toC_inj {v w : V2} (h : toC v = toC w) : v = w := by
  have h1 := congrArg Complex.re h
  have h2 := congrArg Complex.im h
  exact V2.ext h1 h2

/-- **C59**: the two projections rotate the vector by the angle, in opposite directions, and change no other object. -/
theorem C59_rotation (m : Mem) (p : Nat) (angle : ℝ) (unit : AngleUnit) :
    (∃ v, Becomes m (projectLocalOnNED p angle unit m) p v ∧ toC v = toC (m p) * Complex.exp (radians angle unit * Complex.I)) ∧
    (∃ v, Becomes m (projectNEDOnLocal p angle unit m) p v ∧ toC v = toC (m p) * Complex.exp (-(radians angle unit * Complex.I))) := by
  constructor
  · refine ⟨_, ⟨rfl, fun q hq => ?_⟩, ?_⟩
    · simp [projectLocalOnNED, Mem.set0, Mem.set1, Mem.put, hq]
    · rw [exp_I]
      simp only [projectLocalOnNED, getTrigo_eq, Mem.set0, Mem.set1, Mem.put, if_true, toC]
      apply Complex.ext <;> simp <;> ring
  · refine ⟨_, ⟨rfl, fun q hq => ?_⟩, ?_⟩
    · simp [projectNEDOnLocal, Mem.set0, Mem.set1, Mem.put, hq]
    · rw [exp_neg_I]
      simp only [projectNEDOnLocal, getTrigo_eq, Mem.set0, Mem.set1, Mem.put, if_true, toC]
      apply Complex.ext <;> simp <;> ring

theorem mem_ext {m m' m'' : Mem} {p : Nat} {v v' : V2} (h : Becomes m m' p v) (h' : Becomes m' m'' p v') (e : v' = m p) : m'' = m := by
  funext q
  by_cases hq : q = p
  · rw [hq, h'.1, e]
  · rw [h'.2 q hq, h.2 q hq]

/-- **C59**: the two projections with the same angle undo each other. -/
theorem C59_inverse (m : Mem) (p : Nat) (angle : ℝ) (unit : AngleUnit) :
    projectNEDOnLocal p angle unit (projectLocalOnNED p angle unit m) = m ∧
    projectLocalOnNED p angle unit (projectNEDOnLocal p angle unit m) = m := by
  constructor
  · obtain ⟨⟨v, hv, e⟩, -⟩ := C59_rotation m p angle unit
    obtain ⟨-, ⟨v', hv', e'⟩⟩ := C59_rotation (projectLocalOnNED p angle unit m) p angle unit
    refine mem_ext hv hv' (toC_inj ?_)
    rw [e', hv.1, e, mul_assoc, ← Complex.exp_add, add_neg_cancel, Complex.exp_zero, mul_one]
  · obtain ⟨-, ⟨v, hv, e⟩⟩ := C59_rotation m p angle unit
    obtain ⟨⟨v', hv', e'⟩, -⟩ := C59_rotation (projectNEDOnLocal p angle unit m) p angle unit
    refine mem_ext hv hv' (toC_inj ?_)
    rw [e', hv.1, e, mul_assoc, ← Complex.exp_add, neg_add_cancel, Complex.exp_zero, mul_one]

/-- **C59**: the projections preserve the norm. -/
theorem C59_norm (m : Mem) (p : Nat) (angle : ℝ) (unit : AngleUnit) :
    ‖toC (projectLocalOnNED p angle unit m p)‖ = ‖toC (m p)‖ ∧ ‖toC (projectNEDOnLocal p angle unit m p)‖ = ‖toC (m p)‖ := by
  obtain ⟨⟨v, hv, e⟩, ⟨v', hv', e'⟩⟩ := C59_rotation m p angle unit
  rw [hv.1, hv'.1, e, e', norm_mul, norm_mul, Complex.norm_exp_ofReal_mul_I]
  refine ⟨mul_one _, ?_⟩
  have := Complex.norm_exp_ofReal_mul_I (-radians angle unit)
  rw [show ((-radians angle unit : ℝ) : ℂ) * Complex.I = -(radians angle unit * Complex.I) by push_cast; ring] at this
  rw [this, mul_one]

/-- **C59**: the projections on one axis are the components, and the free functions and the versions with an output agree with the versions in place,
whatever the output object. -/
theorem C59_versions (m : Mem) (p out : Nat) (angle : ℝ) (unit : AngleUnit) :
    projectLocalOnNED p angle unit m p = ⟨projectOnNorthAxis (m p) angle unit, projectOnEastAxis (m p) angle unit⟩ ∧
    projectNEDOnLocal p angle unit m p = ⟨projectOnLocalXAxis (m p) angle unit, projectOnLocalYAxis (m p) angle unit⟩ ∧
    projectLocalOnNEDFree (m p) angle unit = projectLocalOnNED p angle unit m p ∧
    projectNEDOnLocalFree (m p) angle unit = projectNEDOnLocal p angle unit m p ∧
    Becomes m (projectLocalOnNEDCopy p out angle unit m) out (projectLocalOnNED p angle unit m p) ∧
    Becomes m (projectNEDOnLocalCopy p out angle unit m) out (projectNEDOnLocal p angle unit m p) := by
  refine ⟨?_, ?_, ?_, ?_, ⟨?_, fun q hq => ?_⟩, ⟨?_, fun q hq => ?_⟩⟩
  · simp [projectLocalOnNED, projectOnNorthAxis, projectOnEastAxis, Mem.set0, Mem.set1, Mem.put]
  · simp [projectNEDOnLocal, projectOnLocalXAxis, projectOnLocalYAxis, Mem.set0, Mem.set1, Mem.put]
  · simp [projectLocalOnNEDFree, onCopy, projectLocalOnNED, Mem.set0, Mem.set1, Mem.put]
  · simp [projectNEDOnLocalFree, onCopy, projectNEDOnLocal, Mem.set0, Mem.set1, Mem.put]
  · simp [projectLocalOnNEDCopy, projectLocalOnNED, Mem.set0, Mem.set1, Mem.put]
  · simp [projectLocalOnNEDCopy, projectLocalOnNED, Mem.set0, Mem.set1, Mem.put, hq]
  · simp [projectNEDOnLocalCopy, projectNEDOnLocal, Mem.set0, Mem.set1, Mem.put]
  · simp [projectNEDOnLocalCopy, projectNEDOnLocal, Mem.set0, Mem.set1, Mem.put, hq]

theorem radians_add (a b : ℝ) (unit : AngleUnit) : radians (a + b) unit = radians a unit + radians b unit := by
  cases unit <;> simp only [radians] <;> ring

/-- **C59**: successive projections add their angles. -/
theorem C59_add (m : Mem) (p : Nat) (a b : ℝ) (unit : AngleUnit) :
    projectLocalOnNED p b unit (projectLocalOnNED p a unit m) p = projectLocalOnNED p (a + b) unit m p ∧
    projectNEDOnLocal p b unit (projectNEDOnLocal p a unit m) p = projectNEDOnLocal p (a + b) unit m p := by
  obtain ⟨⟨v, hv, e⟩, ⟨v', hv', e'⟩⟩ := C59_rotation m p a unit
  obtain ⟨⟨u, hu, f⟩, -⟩ := C59_rotation (projectLocalOnNED p a unit m) p b unit
  obtain ⟨-, ⟨u', hu', f'⟩⟩ := C59_rotation (projectNEDOnLocal p a unit m) p b unit
  obtain ⟨⟨w, hw, g⟩, ⟨w', hw', g'⟩⟩ := C59_rotation m p (a + b) unit
  constructor
  · rw [hu.1, hw.1]
    apply toC_inj
    rw [f, hv.1, e, g, mul_assoc, ← Complex.exp_add, radians_add]
    congr 2
    push_cast
    ring
  · rw [hu'.1, hw'.1]
    apply toC_inj
    rw [f', hv'.1, e', g', mul_assoc, ← Complex.exp_add, radians_add]
    congr 2
    push_cast
    ring

/-- C59 is about something: a quarter turn sends the local x axis to the east. -/
example (m : Mem) : projectLocalOnNED 3 (Real.pi / 2) .RAD (m.put 3 ⟨2, 0⟩) 3 = ⟨0, 2⟩ := by
  simp [projectLocalOnNED, getTrigo, Mem.set0, Mem.set1, Mem.put]

/-! ## C60 -/

theorem foldl_max {K : Type} [LinearOrder K] (l : List K) (a : K) :
    (∀ b ∈ a :: l, b ≤ l.foldl max a) ∧ l.foldl max a ∈ a :: l := by
  induction l generalizing a with
  | nil => simp
  | cons b l ih =>
    obtain ⟨h1, h2⟩ := ih (max a b)
    simp only [List.foldl_cons]
    refine ⟨fun c hc => ?_, ?_⟩
    · rcases List.mem_cons.1 hc with rfl | hc
      · exact (le_max_left _ _).trans (h1 _ (List.mem_cons_self))
      · rcases List.mem_cons.1 hc with rfl | hc
        · exact (le_max_right _ _).trans (h1 _ (List.mem_cons_self))
        · exact h1 _ (List.mem_cons_of_mem _ hc)
    · rcases List.mem_cons.1 h2 with h | h
      · rw [h]
        rcases max_choice a b with e | e <;> rw [e] <;> simp
      · exact List.mem_cons_of_mem _ (List.mem_cons_of_mem _ h)

/-- C60, what holds: `infNorm` of a non-empty `Vector3d`, `Vector6d` or `VectorN` is the largest absolute value; it is never negative and is zero only
when all the components are. Missing: `Vector2d`. -/
theorem C60_others_partial {K : Type} [LinearOrder K] [AddCommGroup K] [IsOrderedAddMonoid K] (B : Build) (v : List K) (hv : v ≠ []) :
    ∃ n, infNormList B v = .ok n ∧ IsMaxAbs v n ∧ 0 ≤ n ∧ (n = 0 ↔ ∀ a ∈ v, a = 0) := by
  obtain ⟨a, l, rfl⟩ := List.exists_cons_of_ne_nil hv
  obtain ⟨h1, h2⟩ := foldl_max (l.map abs) |a|
  have hm : IsMaxAbs (a :: l) ((l.map abs).foldl max |a|) := by
    constructor
    · intro b hb
      exact h1 _ (by rw [← List.map_cons (f := abs)]; exact List.mem_map_of_mem hb)
    · rw [← List.map_cons (f := abs)] at h2
      obtain ⟨b, hb, e⟩ := List.mem_map.1 h2
      exact ⟨b, hb, e⟩
  refine ⟨_, rfl, hm, ?_, ?_⟩
  · exact (abs_nonneg a).trans (hm.1 a (List.mem_cons_self))
  · constructor
    · intro h b hb
      have := hm.1 b hb
      rw [h] at this
      exact abs_eq_zero.1 (le_antisymm this (abs_nonneg b))
    · intro h
      obtain ⟨b, hb, e⟩ := hm.2
      rw [← e, h b hb, abs_zero]

/-- C60, what holds of `Vector2d`: `infNorm` is the largest absolute value exactly when the sum of the components is not negative. -/
theorem C60_vector2d_partial (B : Build) (v : V2) : ∃ n, v.infNorm B = .ok n ∧ (IsMaxAbs [v.x, v.y] n ↔ 0 ≤ v.x + v.y) := by
  refine ⟨_, rfl, ?_⟩
  simp only [List.foldl_cons, List.foldl_nil, IsMaxAbs, List.mem_cons, List.not_mem_nil, or_false, forall_eq_or_imp, forall_eq, exists_eq_or_imp,
    exists_eq_left]
  constructor
  · rintro ⟨⟨h1, h2⟩, -⟩
    rcases le_total v.x v.y with h | h
    · rw [max_eq_right h] at h1
      linarith [neg_abs_le v.x]
    · rw [max_eq_left h] at h2
      linarith [neg_abs_le v.y]
  · intro h0
    rcases le_total v.x v.y with h | h
    · rw [max_eq_right h, abs_of_nonneg (by linarith : 0 ≤ v.y)]
      exact ⟨⟨abs_le.2 ⟨by linarith, h⟩, le_refl _⟩, Or.inr rfl⟩
    · rw [max_eq_left h, abs_of_nonneg (by linarith : 0 ≤ v.x)]
      exact ⟨⟨le_refl _, abs_le.2 ⟨by linarith, h⟩⟩, Or.inl rfl⟩

/-- C60 fails on `Vector2d`: the infinity norm of `(-3, -1)` is negative. -/
theorem C60_refuted : ∃ v : V2, ∀ B, ∃ n, v.infNorm B = .ok n ∧ n < 0 ∧ ¬ IsMaxAbs [v.x, v.y] n := by
  refine ⟨⟨-3, -1⟩, fun B => ⟨_, rfl, ?_, ?_⟩⟩
  · norm_num
  · rintro ⟨h, -⟩
    have := h (-3) (by simp)
    norm_num [abs_of_neg] at this

/-- C60 is about something. -/
example : infNormList ⟨true⟩ [1, -7, (3 : ℚ)] = .ok 7 := by decide +kernel

/-! ## C76: speeds and transport of velocities -/

/-- **C76**: `GetNEDVelocityVector` is the vector of the local speeds, converted to the output unit, rotated by the heading; `SetNEDFromLocal` is the same
without the conversion. -/
theorem C76_velocity (long lat angle : ℝ) (unit : AngleUnit) (u v : SpeedUnit) :
    ∃ w x y, getNEDVelocityVector long lat angle unit u v = .ok w ∧ metresPerSecond v x = metresPerSecond u long ∧
      metresPerSecond v y = metresPerSecond u lat ∧ toC w = ⟨x, y⟩ * Complex.exp (radians angle unit * Complex.I) := by
  obtain ⟨x, hx, ex, ux⟩ := C64_velocity long u v
  obtain ⟨y, hy, ey, uy⟩ := C64_velocity lat u v
  have hx' : speedIn long u v = .ok x := by
    unfold speedIn
    by_cases h : u = v
    · subst h
      rw [if_neg (by simp), ux long rfl]
    · rw [if_pos h, hx]
  have hy' : speedIn lat u v = .ok y := by
    unfold speedIn
    by_cases h : u = v
    · subst h
      rw [if_neg (by simp), uy lat rfl]
    · rw [if_pos h, hy]
  obtain ⟨⟨w, hw, e⟩, -⟩ := C59_rotation (fun _ => ⟨x, y⟩) 0 angle unit
  refine ⟨_, x, y, ?_, ex, ey, e⟩
  unfold getNEDVelocityVector
  rw [hx', hy', ← hw.1]
  rfl

/-- **C76**: `SetNEDFromLocal`. -/
theorem C76_set (m : Mem) (p : Nat) (x y angle : ℝ) (unit : AngleUnit) :
    ∃ w, Becomes m (setNEDFromLocal p x y angle unit m) p w ∧ toC w = ⟨x, y⟩ * Complex.exp (radians angle unit * Complex.I) := by
  obtain ⟨⟨w, hw, e⟩, -⟩ := C59_rotation ((m.set0 p x).set1 p y) p angle unit
  have h1 : ((m.set0 p x).set1 p y) p = ⟨x, y⟩ := by simp [Mem.set0, Mem.set1, Mem.put]
  refine ⟨w, ⟨hw.1, fun q hq => ?_⟩, by rw [e, h1]; rfl⟩
  show (projectLocalOnNED p angle unit ((m.set0 p x).set1 p y)) q = m q
  rw [hw.2 q hq]
  simp [Mem.set0, Mem.set1, Mem.put, hq]

/-- The rotation speed in radians per second. -/
theorem rads_ok (w : ℝ) (u : FrequencyUnit) (h : w ≠ 0 ∨ u ≠ .S) :
    ∃ r, speedInRads w u = .ok r ∧ turnsPerSecond .RADS r = turnsPerSecond u w := by
  unfold speedInRads
  by_cases hu : u = .RADS
  · exact ⟨w, by rw [if_neg (by simp [hu])], by rw [hu]⟩
  · obtain ⟨y, hy, e, -⟩ := C64_frequency w u .RADS (h.imp id (fun h => ⟨h, by decide⟩))
    exact ⟨y, by rw [if_pos hu, hy], e⟩

/-- **C77**, distinct objects: the velocity at the point is the velocity plus the rotation speed in radians per second times the point turned by a quarter;
the three versions agree. -/
theorem C77_transport_partial (m : Mem) (this point : Nat) (hd : this ≠ point) (w : ℝ) (u : FrequencyUnit) (h : w ≠ 0 ∨ u ≠ .S) :
    ∃ r v, turnsPerSecond .RADS r = turnsPerSecond u w ∧ toC v = toC (m this) + r * Complex.I * toC (m point) ∧
      (∃ m', transportAtPoint this point w u m = .ok m' ∧ Becomes m m' this v) ∧
      (∀ out, out ≠ point → ∃ m', transportAtPointCopy this out point w u m = .ok m' ∧ Becomes m m' out v) ∧
      transportAtPointFree (m this) (m point) w u = .ok v := by
  obtain ⟨r, hr, e⟩ := rads_ok w u h
  have hd' : point ≠ this := fun h => hd h.symm
  refine ⟨r, ⟨(m this).x - (m point).y * r, (m this).y + (m point).x * r⟩, e, ?_, ?_, ?_, ?_⟩
  · apply Complex.ext <;> simp [toC] <;> ring
  · refine ⟨_, by unfold transportAtPoint; rw [hr]; rfl, ?_, fun q hq => ?_⟩
    · simp [Mem.set0, Mem.set1, Mem.put, hd']
    · simp [Mem.set0, Mem.set1, Mem.put, hq]
  · intro out ho
    have ho' : point ≠ out := fun h => ho h.symm
    refine ⟨_, by unfold transportAtPointCopy transportAtPoint; rw [hr]; rfl, ?_, fun q hq => ?_⟩
    · simp [Mem.set0, Mem.set1, Mem.put, ho']
    · simp [Mem.set0, Mem.set1, Mem.put, hq]
  · unfold transportAtPointFree transportAtPoint
    rw [hr]
    show Res.ok _ = _
    simp [Mem.set0, Mem.set1, Mem.put]

/-- **C77**: transporting to a point then to another one is transporting to their sum; transporting back to the opposite point restores the velocity. -/
theorem C77_compose (v p q : V2) (w : ℝ) (u : FrequencyUnit) (h : w ≠ 0 ∨ u ≠ .S) :
    (do let v' ← transportAtPointFree v p w u; transportAtPointFree v' q w u) = transportAtPointFree v ⟨p.x + q.x, p.y + q.y⟩ w u ∧
    (do let v' ← transportAtPointFree v p w u; transportAtPointFree v' ⟨-p.x, -p.y⟩ w u) = .ok v := by
  obtain ⟨r, hr, -⟩ := rads_ok w u h
  have key : ∀ a b : V2, transportAtPointFree a b w u = .ok ⟨a.x - b.y * r, a.y + b.x * r⟩ := fun a b => by
    unfold transportAtPointFree transportAtPoint
    rw [hr]
    show Res.ok _ = _
    simp [Mem.set0, Mem.set1, Mem.put]
  constructor
  · simp only [key]
    show Res.ok _ = _
    congr 2 <;> ring
  · simp only [key]
    show Res.ok _ = _
    congr 1
    ext <;> simp

/-- C77 fails when the point is the vector itself: its first component is overwritten before it is read. -/
theorem C77_refuted : ∃ (m m' : Mem) (v : V2), transportAtPoint 0 0 1 .RADS m = .ok m' ∧ transportAtPointFree (m 0) (m 0) 1 .RADS = .ok v ∧ m' 0 ≠ v := by
  refine ⟨fun _ => ⟨0, 1⟩, _, _, rfl, rfl, ?_⟩
  intro h
  have := congrArg V2.y h
  simp [Mem.set0, Mem.set1, Mem.put] at this

/-- C77 fails as well when the output is the point. -/
theorem C77_refuted_output :
    ∃ (m m' : Mem) (v : V2), transportAtPointCopy 0 1 1 1 .RADS m = .ok m' ∧ transportAtPointFree (m 0) (m 1) 1 .RADS = .ok v ∧ m' 1 ≠ v := by
  refine ⟨Mem.put (fun _ => ⟨0, 1⟩) 0 ⟨0, 0⟩, _, _, rfl, rfl, ?_⟩
  intro h
  have := congrArg V2.x h
  simp [Mem.set0, Mem.set1, Mem.put] at this

/-- **C77**, exactly what happens when the point is the vector itself, or the output is the point: the second component is computed from the new first one. The
result is right exactly when that makes no difference. -/
theorem C77_aliased (m : Mem) (this point : Nat) (w : ℝ) (u : FrequencyUnit) (h : w ≠ 0 ∨ u ≠ .S) :
    ∃ r, turnsPerSecond .RADS r = turnsPerSecond u w ∧
      (∃ m' v, transportAtPoint this this w u m = .ok m' ∧ transportAtPointFree (m this) (m this) w u = .ok v ∧
        Becomes m m' this ⟨(m this).x - (m this).y * r, (m this).y + ((m this).x - (m this).y * r) * r⟩ ∧ (m' this = v ↔ r = 0 ∨ (m this).y = 0)) ∧
      ∃ m' v, transportAtPointCopy this point point w u m = .ok m' ∧ transportAtPointFree (m this) (m point) w u = .ok v ∧
        Becomes m m' point ⟨(m this).x - (m this).y * r, (m this).y + ((m this).x - (m this).y * r) * r⟩ ∧
        (m' point = v ↔ r = 0 ∨ m point = ⟨(m this).x - (m this).y * r, (m this).y⟩) := by
  obtain ⟨r, hr, e⟩ := rads_ok w u h
  have key : ∀ a b : V2, transportAtPointFree a b w u = .ok ⟨a.x - b.y * r, a.y + b.x * r⟩ := fun a b => by
    unfold transportAtPointFree transportAtPoint
    rw [hr]
    show Res.ok _ = _
    simp [Mem.set0, Mem.set1, Mem.put]
  refine ⟨r, e, ⟨_, _, by unfold transportAtPoint; rw [hr]; rfl, key _ _, ⟨?_, fun q hq => ?_⟩, ?_⟩,
    ⟨_, _, by unfold transportAtPointCopy transportAtPoint; rw [hr]; rfl, key _ _, ⟨?_, fun q hq => ?_⟩, ?_⟩⟩
  · simp [Mem.set0, Mem.set1, Mem.put]
  · simp [Mem.set0, Mem.set1, Mem.put, hq]
  · simp only [Mem.set0, Mem.set1, Mem.put, if_true, V2.mk.injEq, true_and]
    constructor
    · intro h0
      have h1 : r * r * (m this).y = 0 := by linarith
      rcases mul_eq_zero.1 h1 with h2 | h2
      · exact .inl (mul_self_eq_zero.1 h2)
      · exact .inr h2
    · rintro (h0 | h0)
      · rw [h0]; ring
      · rw [h0]; ring
  · simp [Mem.set0, Mem.set1, Mem.put]
  · simp [Mem.set0, Mem.set1, Mem.put, hq]
  · simp only [Mem.set0, Mem.set1, Mem.put, if_true, V2.mk.injEq]
    constructor
    · rintro ⟨h1, h2⟩
      by_cases h0 : r = 0
      · exact .inl h0
      · right
        have e1 : (m point).y = (m this).y := mul_right_cancel₀ h0 (by linarith)
        have e2 : (m point).x = (m this).x - (m this).y * r := mul_right_cancel₀ h0 (by linarith)
        ext
        · exact e2
        · exact e1
    · rintro (h0 | h0)
      · rw [h0]; simp
      · rw [h0]; simp

/-- C77 is about something. -/
example : transportAtPointFree ⟨1, 2⟩ ⟨3, 4⟩ 1 .RADS = .ok ⟨-3, 5⟩ := by
  unfold transportAtPointFree transportAtPoint
  show Res.ok _ = _
  norm_num [Mem.set0, Mem.set1, Mem.put]

/-! ## C78: sorting -/

/-- **C78**: sorting gives a rearrangement of the components in ascending, or descending, order, and it is the only one; reversing twice does nothing. -/
theorem C78_sort {K : Type} [LinearOrder K] (v : List K) :
    ((vSort true v).Perm v ∧ (vSort true v).Pairwise (· ≤ ·)) ∧ ((vSort false v).Perm v ∧ (vSort false v).Pairwise (· ≥ ·)) ∧
    (∀ w : List K, w.Perm v → w.Pairwise (· ≤ ·) → w = vSort true v) ∧ (∀ w : List K, w.Perm v → w.Pairwise (· ≥ ·) → w = vSort false v) ∧
    vReverse (vReverse v) = v ∧ (∀ i, i < v.length → (vReverse v)[i]? = v[v.length - 1 - i]?) := by
  have h1 : (vSort true v).Perm v := List.perm_insertionSort _ v
  have h2 : (vSort true v).Pairwise (· ≤ ·) := List.pairwise_insertionSort (· ≤ ·) v
  have h3 : (vSort false v).Perm v := (List.reverse_perm _).trans (List.perm_insertionSort _ v)
  have h4 : (vSort false v).Pairwise (· ≥ ·) := List.pairwise_reverse.2 h2
  refine ⟨⟨h1, h2⟩, ⟨h3, h4⟩, fun w hw hs => ?_, fun w hw hs => ?_, List.reverse_reverse v, fun i hi => ?_⟩
  · exact (hw.trans h1.symm).eq_of_pairwise (fun a b _ _ => le_antisymm) hs h2
  · exact (hw.trans h3.symm).eq_of_pairwise (fun a b _ _ h h' => le_antisymm h' h) hs h4
  · exact List.getElem?_reverse hi

/-- C78 is about something. -/
example : vSort false [2, -1, 5, (2 : ℚ)] = [5, 2, 2, -1] := by decide +kernel

/-! ## C79: projected angles -/

/-- **C79**: the projected angle, in radians, is the polar angle in `]-π, π]` of the projection of the vector on the plane, and in degrees it is the same angle
times `180 / M_PI`. -/
theorem C79_projected (v : Fin 3 → ℝ) :
    (let a := projectedAngleAroundX v .RAD
     let n := Real.sqrt (v 1 ^ 2 + v 2 ^ 2)
     v 1 = n * Real.cos a ∧ v 2 = n * Real.sin a ∧ a ∈ Set.Ioc (-Real.pi) Real.pi) ∧
    (let a := projectedAngleAroundY v .RAD
     let n := Real.sqrt (v 2 ^ 2 + v 0 ^ 2)
     v 2 = n * Real.cos a ∧ v 0 = n * Real.sin a ∧ a ∈ Set.Ioc (-Real.pi) Real.pi) ∧
    (let a := projectedAngleAroundZ v .RAD
     let n := Real.sqrt (v 0 ^ 2 + v 1 ^ 2)
     v 0 = n * Real.cos a ∧ v 1 = n * Real.sin a ∧ a ∈ Set.Ioc (-Real.pi) Real.pi) ∧
    radians (projectedAngleAroundX v .DEG) .DEG = projectedAngleAroundX v .RAD ∧
    radians (projectedAngleAroundY v .DEG) .DEG = projectedAngleAroundY v .RAD ∧
    radians (projectedAngleAroundZ v .DEG) .DEG = projectedAngleAroundZ v .RAD := by
  have key : ∀ y x : ℝ, x = Real.sqrt (x ^ 2 + y ^ 2) * Real.cos (projectedAngle y x .RAD) ∧ y = Real.sqrt (x ^ 2 + y ^ 2) * Real.sin (projectedAngle y x .RAD) ∧
      projectedAngle y x .RAD ∈ Set.Ioc (-Real.pi) Real.pi := fun y x => by
    have e : projectedAngle y x .RAD = atan2 y x := by simp [projectedAngle]
    rw [e]
    refine ⟨?_, ?_, Complex.neg_pi_lt_arg _, Complex.arg_le_pi _⟩
    · rw [mul_comm]; exact atan2_cos.symm
    · rw [mul_comm]; exact atan2_sin.symm
  have deg : ∀ y x : ℝ, radians (projectedAngle y x .DEG) .DEG = projectedAngle y x .RAD := fun y x => by
    have hp := M_PI_ne
    simp only [projectedAngle, radians, MU_180_PI, if_true]
    rw [if_neg (by decide)]
    field_simp
  exact ⟨key _ _, key _ _, key _ _, deg _ _, deg _ _, deg _ _⟩

/-- C79 is about something: the vector `(0, 1, 1)` is at an eighth of a turn. -/
example : projectedAngleAroundX ![0, 1, 1] .RAD = Real.pi / 4 := by
  have h := atan2_polar (k := Real.sqrt 2) (t := Real.pi / 4) (by positivity) ⟨by linarith [Real.pi_pos], by linarith [Real.pi_pos]⟩
  rw [Real.sin_pi_div_four, Real.cos_pi_div_four] at h
  have h2 : Real.sqrt 2 * (Real.sqrt 2 / 2) = 1 := by
    have := Real.mul_self_sqrt (show (0 : ℝ) ≤ 2 by norm_num)
    linarith
  rw [h2] at h
  simpa [projectedAngleAroundX, projectedAngle] using h

/-! ## C80: normalisation -/

/-- **C80**: a normalised vector which was not null is a unit vector of the same direction and is recognised by `IsUnit`; normalising again changes nothing; a
vector is recognised by `IsUnit` exactly when its norm is within `1.001e-5` of one. -/
theorem C80_normalize (v : Fin 3 → ℝ) (h : v ≠ 0) :
    (∃ n, 0 < n ∧ ∀ i, v i = n * normalize3 v i) ∧ normalize3 v 0 ^ 2 + normalize3 v 1 ^ 2 + normalize3 v 2 ^ 2 = 1 ∧
    isUnit3 (normalize3 v) = true ∧ normalize3 (normalize3 v) = normalize3 v ∧ normalize3 0 = 0 ∧
    ∀ w : Fin 3 → ℝ, isUnit3 w = true ↔ |Real.sqrt (w 0 ^ 2 + w 1 ^ 2 + w 2 ^ 2) - 1| ≤ 1001 / 10 ^ 8 := by
  have hz : 0 < v 0 ^ 2 + v 1 ^ 2 + v 2 ^ 2 := by
    by_contra hn
    apply h
    have a := sq_nonneg (v 0)
    have b := sq_nonneg (v 1)
    have c := sq_nonneg (v 2)
    have z : ∀ t : ℝ, t ^ 2 = 0 → t = 0 := fun t => by simp
    funext i
    fin_cases i
    · exact z (v 0) (by linarith)
    · exact z (v 1) (by linarith)
    · exact z (v 2) (by linarith)
  have hs : 0 < Real.sqrt (v 0 ^ 2 + v 1 ^ 2 + v 2 ^ 2) := Real.sqrt_pos.2 hz
  have E : ∀ v : Fin 3 → ℝ, 0 < v 0 ^ 2 + v 1 ^ 2 + v 2 ^ 2 → normalize3 v = fun i => v i / Real.sqrt (v 0 ^ 2 + v 1 ^ 2 + v 2 ^ 2) := fun v hz => by
    unfold normalize3
    simp only
    rw [if_pos hz]
  have e := E v hz
  have one : normalize3 v 0 ^ 2 + normalize3 v 1 ^ 2 + normalize3 v 2 ^ 2 = 1 := by
    rw [e]
    simp only [div_pow, Real.sq_sqrt hz.le]
    field_simp
  have iff : ∀ w : Fin 3 → ℝ, isUnit3 w = true ↔ |Real.sqrt (w 0 ^ 2 + w 1 ^ 2 + w 2 ^ 2) - 1| ≤ 1001 / 10 ^ 8 := fun w => by
    unfold isUnit3 isClose
    rw [decide_eq_true_iff, abs_one]
    norm_num
  refine ⟨⟨_, hs, fun i => by rw [e]; field_simp⟩, one, ?_, ?_, ?_, iff⟩
  · rw [iff, one]
    norm_num
  · rw [E (normalize3 v) (by rw [one]; norm_num)]
    funext i
    rw [one, Real.sqrt_one, div_one]
  · unfold normalize3
    simp

/-- C80 is about something. -/
example : normalize3 ![3, 0, -4] 2 = -4 / 5 := by
  have : Real.sqrt 25 = 5 := by rw [show (25 : ℝ) = 5 ^ 2 by norm_num]; exact Real.sqrt_sq (by norm_num)
  have e : normalize3 ![3, 0, -4] 2 = (if 0 < (3 : ℝ) ^ 2 + 0 ^ 2 + (-4) ^ 2 then fun i => ![3, 0, -4] i / Real.sqrt (3 ^ 2 + 0 ^ 2 + (-4) ^ 2) else ![3, 0, -4]) 2 := by
    unfold normalize3
    rfl
  rw [e, if_pos (by norm_num), show ((3 : ℝ) ^ 2 + 0 ^ 2 + (-4) ^ 2) = 25 by norm_num, this]
  rfl

end MU
