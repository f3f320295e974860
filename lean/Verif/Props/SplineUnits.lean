import Verif.Props.SplineUnique

/-!
# C205: a spline in other units of the abscissa
-/

set_option linter.unusedSectionVars false

namespace MU

theorem foldl_min_units {a : ℝ} (ha : 0 < a) (b : ℝ) (l : List ℝ) (t : ℝ) : (l.map fun t => a * t + b).foldl min (a * t + b) = a * l.foldl min t + b := by
  induction l generalizing t with
  | nil => rfl
  | cons u l ih =>
    have e : min (a * t + b) (a * u + b) = a * min t u + b := by
      rw [min_add_add_right, mul_min_of_nonneg _ _ ha.le]
    simp only [List.map_cons, List.foldl_cons, e, ih]

theorem foldl_max_units {a : ℝ} (ha : 0 < a) (b : ℝ) (l : List ℝ) (t : ℝ) : (l.map fun t => a * t + b).foldl max (a * t + b) = a * l.foldl max t + b := by
  induction l generalizing t with
  | nil => rfl
  | cons u l ih =>
    have e : max (a * t + b) (a * u + b) = a * max t u + b := by
      rw [max_add_add_right, mul_max_of_nonneg _ _ ha.le]
    simp only [List.map_cons, List.foldl_cons, e, ih]

theorem scaledValue_units {a : ℝ} (ha : 0 < a) (b p q t : ℝ) : scaledValue (a * p + b) (a * q + b) (a * t + b) = scaledValue p q t := by
  unfold scaledValue fdiv
  rw [show a * t + b - (a * p + b) = a * (t - p) by ring, show a * q + b - (a * p + b) = a * (q - p) by ring, mul_div_mul_left _ _ ha.ne']
  simp only [mul_eq_zero, ha.ne', false_or]

theorem scaledValues_units {a : ℝ} (ha : 0 < a) (b p q : ℝ) (x : List ℝ) : scaledValues (a * p + b) (a * q + b) (x.map fun t => a * t + b) = scaledValues p q x := by
  unfold scaledValues
  rw [List.mapM_map]
  congr 1
  funext t
  exact scaledValue_units ha b p q t

/-- C205: the spline through the same points in other units of the abscissa gives at the converted point the same value, or the same refusal, for all lists of points, in order or not,
and whatever solves the equations. -/
theorem C205_units (solve : Mat ℝ → List ℝ → List ℝ) (B : Build) (Deg : ℕ) (x y : List ℝ) {a : ℝ} (ha : 0 < a) (b t : ℝ) :
    (do let s ← Spline.make solve B Deg (x.map fun t => a * t + b) y; Spline.call B s (a * t + b)) =
      (do let s ← Spline.make solve B Deg x y; Spline.call B s t) := by
  cases x with
  | nil =>
    unfold Spline.make minCoeff eigenFail
    obtain ⟨_ | _⟩ := B <;> rfl
  | cons u l =>
    unfold Spline.make Spline.call
    simp only [List.map_cons, minCoeff, maxCoeff, foldl_min_units ha, foldl_max_units ha, Res.ok_bind]
    rw [show (a * u + b) :: (l.map fun t => a * t + b) = (u :: l).map fun t => a * t + b by rfl, scaledValues_units ha]
    simp only [List.length_cons, List.length_map]
    cases scaledValues (l.foldl min u) (l.foldl max u) (u :: l) <;> try rfl
    rename_i v
    simp only [Res.ok_bind]
    cases ESpline.interpolate solve B y (min (l.length + 1 - 1) Deg) v <;> try rfl
    rename_i e
    show (do let u ← scaledValue (a * List.foldl min u l + b) (a * List.foldl max u l + b) (a * t + b); ESpline.eval B e u) =
      (do let u ← scaledValue (List.foldl min u l) (List.foldl max u l) t; ESpline.eval B e u)
    rw [scaledValue_units ha]

example : (do let s ← Spline.make (fun _ b => b) ⟨true⟩ 1 ([0, 1, 2].map fun t => 60 * t + 7) [3, 5, 4]; Spline.call ⟨true⟩ s (60 * (1 / 2) + 7)) =
    (do let s ← Spline.make (fun _ b => b) ⟨true⟩ 1 [0, 1, 2] [3, 5, 4]; Spline.call ⟨true⟩ s (1 / 2)) :=
  C205_units _ _ _ _ _ (by norm_num) _ _

end MU
