import Verif.Model.Complex
import Verif.Lemmas.Vectors
import Verif.Spec.VectorClasses
import Verif.Props.VectorClasses

/-!
# C94: parts, amplitude and phase of a vector of complex numbers
-/

set_option linter.unusedSectionVars false

namespace MU

open Spec

theorem complex_loop (l : List ℂ) (f : ℂ → ℝ) {body : Nat → List ℝ → Res (List ℝ)}
    (h : ∀ i (hi : i < l.length), ∀ out : List ℝ, out.length = l.length → body i out = vSet out i (f l[i])) :
    forRange 0 l.length body (List.replicate l.length 0) = .ok (l.map f) := by
  rw [fill_all (0 : ℝ) (fun i => f (l.getD i 0)) (fun i hi out ho => by
    rw [h i hi out ho, List.getD_eq_getElem?_getD, List.getElem?_eq_getElem hi]; rfl)]
  congr 1
  apply List.ext_getElem (by simp)
  intro i h1 h2
  have h3 : i < l.length := by simpa using h2
  simp [List.getElem?_eq_getElem h3]

theorem realParts_ok (l : List ℂ) : realParts l = .ok (l.map Complex.re) :=
  complex_loop l _ fun i hi out _ => by rw [vIdx_lt hi, Res.ok_bind]

theorem imagParts_ok (l : List ℂ) : imagParts l = .ok (l.map Complex.im) :=
  complex_loop l _ fun i hi out _ => by rw [vIdx_lt hi, Res.ok_bind]

theorem amplitude_ok (l : List ℂ) : amplitude l = .ok (l.map fun z => Real.sqrt (z.re * z.re + z.im * z.im)) :=
  complex_loop l _ fun i hi out _ => by simp only [vIdx_lt hi, Res.ok_bind]

theorem phase_ok (l : List ℂ) (unit : AngleUnit) :
    phase l unit = .ok (l.map fun z => atan2 z.im z.re * (if unit = .DEG then 1 * MU_180_PI else 1)) :=
  complex_loop l _ fun i hi out _ => by simp only [vIdx_lt hi, Res.ok_bind]

/-- **C94**: on every vector of complex numbers the four functions return vectors of the same length; element by element the number is
`Real + i Imag`, and it is `Amplitude * exp (i Phase)` with a non-negative amplitude and a phase which is, in radians, in `]-π, π]`. -/
theorem C94_components (l : List ℂ) (unit : AngleUnit) :
    ∃ re im am ph, realParts l = .ok re ∧ imagParts l = .ok im ∧ amplitude l = .ok am ∧ phase l unit = .ok ph ∧
      re.length = l.length ∧ im.length = l.length ∧ am.length = l.length ∧ ph.length = l.length ∧
      ∀ (i : Nat) (z : ℂ), l[i]? = some z → ∃ x y r t : ℝ, re[i]? = some x ∧ im[i]? = some y ∧ am[i]? = some r ∧ ph[i]? = some t ∧
        z = x + y * Complex.I ∧ z = r * Complex.exp (radians t unit * Complex.I) ∧ 0 ≤ r ∧
        radians t unit ∈ Set.Ioc (-Real.pi) Real.pi := by
  refine ⟨_, _, _, _, realParts_ok l, imagParts_ok l, amplitude_ok l, phase_ok l unit, by simp, by simp, by simp, by simp, ?_⟩
  intro i z hz
  refine ⟨z.re, z.im, Real.sqrt (z.re * z.re + z.im * z.im), atan2 z.im z.re * (if unit = .DEG then 1 * MU_180_PI else 1),
    by simp [hz], by simp [hz], by simp [hz], by simp [hz], (Complex.re_add_im z).symm, ?_, Real.sqrt_nonneg _, ?_⟩
  all_goals
    have e : radians (atan2 z.im z.re * (if unit = .DEG then 1 * MU_180_PI else 1)) unit = Complex.arg z := by
      have hp := M_PI_ne
      cases unit
      · simp only [radians, MU_180_PI, if_true, atan2, one_mul]
        field_simp
      · simp [radians, atan2]
  · rw [e]
    have hn : Real.sqrt (z.re * z.re + z.im * z.im) = ‖z‖ := by
      rw [Complex.norm_def, Complex.normSq_apply]
    rw [hn, Complex.norm_mul_exp_arg_mul_I]
  · rw [e]
    exact ⟨Complex.neg_pi_lt_arg _, Complex.arg_le_pi _⟩

/-- C94 is about something: the amplitude of `3 + 4i` is 5 and the phase of `-1` is 180 degrees of the library. -/
example : amplitude [⟨3, 4⟩] = .ok [5] ∧ phase [-1] .DEG = .ok [Real.pi * (180 / M_PI)] := by
  rw [amplitude_ok, phase_ok]
  constructor
  · have : Real.sqrt ((3 : ℝ) * 3 + 4 * 4) = 5 := by
      rw [show (3 : ℝ) * 3 + 4 * 4 = 5 ^ 2 by norm_num]
      exact Real.sqrt_sq (by norm_num)
    simp [this]
  · have h : (⟨-1, 0⟩ : ℂ) = -1 := by apply Complex.ext <;> simp
    simp [atan2, h, MU_180_PI]

end MU
