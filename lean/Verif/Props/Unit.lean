import Verif.Model.Unit
import Verif.Lemmas.Angles

/-!
# Units: C64

The specification is the physical meaning of each unit; it does not mention the model.
-/

namespace MU

/-- The speed in metres per second. -/
noncomputable def Spec.metresPerSecond : SpeedUnit → ℝ → ℝ
  | .MS, x => x
  | .KNOT, x => x * 1852 / 3600
  | .KMH, x => x * 1000 / 3600

/-- The number of turns per second. -/
noncomputable def Spec.turnsPerSecond : FrequencyUnit → ℝ → ℝ
  | .HERTZ, x => x
  | .RADS, x => x / (2 * M_PI)
  | .DEGS, x => x / 360
  | .DEGM, x => x / 360 / 60
  | .S, x => 1 / x
  | .RPM, x => x / 60

theorem rdiv_ok {a b : ℝ} (h : b ≠ 0) : rdiv a b = .ok (a / b) := by
  unfold rdiv
  exact if_neg h

theorem rdiv_zero {a : ℝ} : rdiv a 0 = .nonfinite := by
  unfold rdiv
  exact if_pos rfl

theorem MU_KNOT_ne : MU_KNOT ≠ 0 := by unfold MU_KNOT MU_ONE_MILE MU_ONE_HOUR MU_ONE_MINUTE; norm_num
theorem MU_KMH_ne : MU_KMH ≠ 0 := by unfold MU_KMH MU_ONE_KM MU_ONE_HOUR MU_ONE_MINUTE; norm_num

/-- **C64**: converting a speed gives the number that has the same meaning in the new unit, and it is the only one. -/
theorem C64_velocity (x : ℝ) (u v : SpeedUnit) :
    ∃ y, convertVelocity x u v = .ok y ∧ Spec.metresPerSecond v y = Spec.metresPerSecond u x ∧
      ∀ z, Spec.metresPerSecond v z = Spec.metresPerSecond u x → z = y := by
  have hk : MU_KNOT = 1852 / 3600 := by unfold MU_KNOT MU_ONE_MILE MU_ONE_HOUR MU_ONE_MINUTE; norm_num
  have hm : MU_KMH = 1000 / 3600 := by unfold MU_KMH MU_ONE_KM MU_ONE_HOUR MU_ONE_MINUTE; norm_num
  cases u <;> cases v <;>
    simp only [convertVelocity, KNOT2MS, KMH2MS, MS2KNOT, MS2KMH, rdiv_ok MU_KNOT_ne, rdiv_ok MU_KMH_ne, Spec.metresPerSecond] <;>
    refine ⟨_, rfl, ?_, ?_⟩ <;> (try rw [hk]) <;> (try rw [hm]) <;> (try intro z hz) <;> (try linarith) <;> rfl

/-- **C64**: speeds: the identity, composition and round trip. -/
theorem C64_velocity_compose (x : ℝ) (u v w : SpeedUnit) :
    convertVelocity x u u = .ok x ∧
    (do let y ← convertVelocity x u v; convertVelocity y v w) = convertVelocity x u w ∧
    (do let y ← convertVelocity x u v; convertVelocity y v u) = .ok x := by
  have id_ : ∀ (x : ℝ) u, convertVelocity x u u = .ok x := by
    intro x u
    obtain ⟨y, hy, -, h⟩ := C64_velocity x u u
    rw [hy, h x rfl]
  have comp : ∀ w, (do let y ← convertVelocity x u v; convertVelocity y v w) = convertVelocity x u w := by
    intro w
    obtain ⟨y, hy, hy1, -⟩ := C64_velocity x u v
    obtain ⟨z, hz, hz1, -⟩ := C64_velocity y v w
    obtain ⟨z', hz', -, h'⟩ := C64_velocity x u w
    rw [hy, Res.ok_bind, hz, hz', h' z (hz1.trans hy1)]
  exact ⟨id_ x u, comp w, (comp u).trans (id_ x u)⟩

/-- **C64**: the two direct conversions between knots and km/h agree with the general one. -/
theorem C64_velocity_direct (x : ℝ) : KMH2KNOT x = convertVelocity x .KMH .KNOT ∧ KNOT2KMH x = convertVelocity x .KNOT .KMH := ⟨rfl, rfl⟩

theorem M_PI_ne : M_PI ≠ 0 := M_PI_pos.ne'
theorem MU_2PI_ne : MU_2PI ≠ 0 := by unfold MU_2PI; exact mul_ne_zero two_ne_zero M_PI_ne
theorem MU_RPM2RADS_ne : MU_RPM2RADS ≠ 0 := by unfold MU_RPM2RADS; exact div_ne_zero MU_2PI_ne (by norm_num)

theorem pivot_ok (x : ℝ) (u : FrequencyUnit) (h : u = .S → x ≠ 0) : frequencyToPivot x u = .ok (Spec.turnsPerSecond u x) := by
  have hp := M_PI_ne
  cases u <;> simp only [frequencyToPivot, Spec.turnsPerSecond, RADS2HZ, S2HZ, rdiv_ok MU_2PI_ne]
  · rfl
  · congr 1
    simp only [DEGS2RADS, MU_PI_180, MU_2PI]
    field_simp
    ring
  · congr 1
    simp only [DEGM2RADS, MU_PI_180, MU_2PI]
    field_simp
    ring
  · exact rdiv_ok (h rfl)
  · congr 1
    simp only [RPM2RADS, MU_RPM2RADS, MU_2PI]
    field_simp

theorem target_ok (p : ℝ) (v : FrequencyUnit) (h : v = .S → p ≠ 0) :
    ∃ y, frequencyFromPivot p v = .ok y ∧ Spec.turnsPerSecond v y = p ∧ (p ≠ 0 → y ≠ 0) := by
  have hp := M_PI_ne
  cases v <;> simp only [frequencyFromPivot, Spec.turnsPerSecond, HZ2S, RADS2RPM, rdiv_ok MU_RPM2RADS_ne]
  · exact ⟨_, rfl, rfl, id⟩
  · refine ⟨_, rfl, ?_, ?_⟩
    · simp only [HZ2RADS, MU_2PI]
      field_simp
    · intro h0
      exact mul_ne_zero MU_2PI_ne h0
  · refine ⟨_, rfl, ?_, ?_⟩
    · simp only [HZ2RADS, RADS2DEGS, MU_2PI, MU_180_PI]
      field_simp
      ring
    · intro h0
      exact mul_ne_zero (mul_ne_zero MU_2PI_ne h0) (div_ne_zero (by norm_num) hp)
  · refine ⟨_, rfl, ?_, ?_⟩
    · simp only [HZ2RADS, RADS2DEGM, MU_2PI, MU_180_PI]
      field_simp
      ring
    · intro h0
      exact mul_ne_zero (mul_ne_zero (mul_ne_zero MU_2PI_ne h0) (div_ne_zero (by norm_num) hp)) (by norm_num)
  · rw [rdiv_ok (h rfl)]
    refine ⟨_, rfl, ?_, ?_⟩
    · rw [one_div_one_div]
    · intro h0
      exact one_div_ne_zero h0
  · refine ⟨_, rfl, ?_, ?_⟩
    · simp only [HZ2RADS, MU_2PI, MU_RPM2RADS]
      field_simp
    · intro h0
      exact div_ne_zero (mul_ne_zero MU_2PI_ne h0) MU_RPM2RADS_ne

theorem turns_inj (v : FrequencyUnit) {y z : ℝ} (h : Spec.turnsPerSecond v z = Spec.turnsPerSecond v y) : z = y := by
  have hp := M_PI_ne
  cases v <;> simp only [Spec.turnsPerSecond] at h
  · exact h
  · exact (div_left_inj' (mul_ne_zero two_ne_zero hp)).1 h
  · linarith
  · linarith
  · simpa using h
  · linarith

/-- **C64**: converting a frequency gives the only number that has the same meaning in the new unit. Neither unit being a period, this holds for all
values; otherwise for the non-zero ones. -/
theorem C64_frequency (x : ℝ) (u v : FrequencyUnit) (hx : x ≠ 0 ∨ (u ≠ .S ∧ v ≠ .S)) :
    ∃ y, convertFrequency x u v = .ok y ∧ Spec.turnsPerSecond v y = Spec.turnsPerSecond u x ∧ (x ≠ 0 → y ≠ 0) ∧
      ∀ z, Spec.turnsPerSecond v z = Spec.turnsPerSecond u x → z = y := by
  have hp := M_PI_ne
  have hne : x ≠ 0 → Spec.turnsPerSecond u x ≠ 0 := by
    intro h0
    cases u <;> simp [Spec.turnsPerSecond, h0, hp]
  unfold convertFrequency
  by_cases huv : u = v
  · subst huv
    rw [if_pos rfl]
    exact ⟨x, rfl, rfl, id, fun z hz => turns_inj u hz⟩
  · rw [if_neg huv, pivot_ok x u (by rintro rfl; simpa using hx), Res.ok_bind]
    obtain ⟨y, hy, h1, h2⟩ := target_ok (Spec.turnsPerSecond u x) v (by rintro rfl; exact hne (by simpa using hx))
    exact ⟨y, hy, h1, fun h0 => h2 (hne h0), fun z hz => turns_inj v (hz.trans h1.symm)⟩

example : (3 : ℝ) ≠ 0 ∨ ((.RPM : FrequencyUnit) ≠ .S ∧ (.S : FrequencyUnit) ≠ .S) := .inl (by norm_num)

/-- **C64**: frequencies: the identity, composition and round trip. -/
theorem C64_frequency_compose (x : ℝ) (u v w : FrequencyUnit) (hx : x ≠ 0 ∨ (u ≠ .S ∧ v ≠ .S ∧ w ≠ .S)) :
    convertFrequency x u u = .ok x ∧
    (do let y ← convertFrequency x u v; convertFrequency y v w) = convertFrequency x u w ∧
    (do let y ← convertFrequency x u v; convertFrequency y v u) = .ok x := by
  have id_ : convertFrequency x u u = .ok x := by simp [convertFrequency]
  have comp : ∀ w, (x ≠ 0 ∨ (u ≠ .S ∧ v ≠ .S ∧ w ≠ .S)) →
      (do let y ← convertFrequency x u v; convertFrequency y v w) = convertFrequency x u w := by
    intro w hx
    obtain ⟨y, hy, hy1, hy0, -⟩ := C64_frequency x u v (hx.imp id (fun h => ⟨h.1, h.2.1⟩))
    obtain ⟨z, hz, hz1, -⟩ := C64_frequency y v w (hx.imp hy0 (fun h => ⟨h.2.1, h.2.2⟩))
    obtain ⟨z', hz', -, -, h'⟩ := C64_frequency x u w (hx.imp id (fun h => ⟨h.1, h.2.2⟩))
    rw [hy, Res.ok_bind, hz, hz', h' z (hz1.trans hy1)]
  exact ⟨id_, comp w hx, (comp u (hx.imp id (fun h => ⟨h.1, h.2.1, h.1⟩))).trans id_⟩

/-- **C64**: the in-place conversions act on every element and the ones for angles undo each other. -/
theorem C64_vectors (v : List ℝ) :
    rad2deg (deg2rad v) = v ∧ deg2rad (rad2deg v) = v ∧ (deg2rad v).length = v.length ∧
    ∀ i (h : i < v.length), (deg2rad v)[i]? = some (v[i] * M_PI / 180) ∧ (kt2ms v)[i]? = some (Spec.metresPerSecond .KNOT v[i]) := by
  have hp := M_PI_ne
  have e1 : ∀ x : ℝ, x * MU_PI_180 * MU_180_PI = x := by
    intro x
    unfold MU_PI_180 MU_180_PI
    field_simp
  have e2 : ∀ x : ℝ, x * MU_180_PI * MU_PI_180 = x := by
    intro x
    unfold MU_PI_180 MU_180_PI
    field_simp
  refine ⟨?_, ?_, by simp [deg2rad], ?_⟩
  · simp [rad2deg, deg2rad, Function.comp_def, e1]
  · simp [rad2deg, deg2rad, Function.comp_def, e2]
  · intro i h
    constructor
    · simp only [deg2rad, List.getElem?_map, List.getElem?_eq_getElem h, Option.map_some, MU_PI_180]
      rw [mul_div_assoc]
    · simp only [kt2ms, List.getElem?_map, List.getElem?_eq_getElem h, Option.map_some, MU_KNOT, MU_ONE_MILE, MU_ONE_HOUR, MU_ONE_MINUTE,
        Spec.metresPerSecond]
      congr 1
      ring

/-- **C64**: the conversions of vectors by copy put the converted elements in `out` and leave every other vector as it was, `vector` included unless it
is `out` itself. -/
theorem C64_copies (st : ℕ → List ℝ) (vector out : ℕ) :
    deg2radCopy st vector out out = (st vector).map (fun x => x * M_PI / 180) ∧
    kt2msCopy st vector out out = (st vector).map (Spec.metresPerSecond .KNOT) ∧
    ∀ w, w ≠ out → deg2radCopy st vector out w = st w ∧ kt2msCopy st vector out w = st w := by
  refine ⟨?_, ?_, fun w hw => ⟨by simp [deg2radCopy, hw], by simp [kt2msCopy, hw]⟩⟩
  · simp only [deg2radCopy, Function.update_self, deg2rad]
    refine List.map_congr_left fun x _ => ?_
    unfold MU_PI_180
    ring
  · simp only [kt2msCopy, Function.update_self, kt2ms]
    refine List.map_congr_left fun x _ => ?_
    unfold MU_KNOT MU_ONE_MILE MU_ONE_HOUR MU_ONE_MINUTE Spec.metresPerSecond
    ring

example : deg2radCopy (fun i => if i = 0 then [180, 90] else [1]) 0 1 1 = [M_PI, M_PI / 2] ∧
    deg2radCopy (fun i => if i = 0 then [180, 90] else [1]) 0 1 0 = [180, 90] := by
  obtain ⟨h1, -, h2⟩ := C64_copies (fun i => if i = 0 then [180, 90] else [1]) 0 1
  refine ⟨?_, (h2 0 (by norm_num)).1⟩
  rw [h1]
  simp only [if_true, List.map_cons, List.map_nil]
  norm_num
  ring

end MU
