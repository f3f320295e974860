import Verif.Lemmas.PowerSeries
import Mathlib.Analysis.Calculus.Deriv.Pow
import Mathlib.Topology.Algebra.Monoid
import Mathlib.Order.Filter.AtTopBot.Field
import Mathlib.Analysis.Complex.Basic
import Mathlib.Algebra.Order.Ring.Rat
import Mathlib.Tactic.NormNum

set_option linter.unusedSectionVars false

/-!
# C27–C31, C70: Horner, power series
-/

namespace MU
open Spec Finset

/-! ## Horner -/

section horner
variable {K A : Type} [Field K] [Field A] [Algebra K A]

/-- C27: for every non-empty coefficient vector `Horner` returns the sum of the `coeffs[i] * x^i`; an empty vector is refused with
`std::out_of_range`. Coefficients in a field `K`, point in a field `A` containing `K`: real or complex. -/
theorem C27_horner (c : List K) (x : A) :
    (c ≠ [] → horner c x = .ok (∑ i ∈ range c.length, algebraMap K A (c.getD i 0) * x ^ i)) ∧
    (c = [] → horner c x = .throws .outOfRange) :=
  ⟨fun h => horner_ok h x, fun h => h ▸ horner_nil x⟩

example : horner [(1 : ℚ), 2, 3] (10 : ℚ) = .ok 321 := by decide +kernel

/-- C28: `Horner_derivative(coeffs, x)` is the derivative at `x` of the function computed by `Horner(coeffs, ·)`, for every non-empty coefficient
vector. Derivative over any normed field containing the coefficients: real or complex. -/
theorem C28_horner_derivative {𝕜 : Type} [NontriviallyNormedField 𝕜] [Algebra K 𝕜] {c : List K} (hc : c ≠ []) (x : 𝕜) :
    ∃ (f : 𝕜 → 𝕜) (d : 𝕜), (∀ t, horner c t = .ok (f t)) ∧ hornerDerivative c x = .ok d ∧ HasDerivAt f d x := by
  refine ⟨_, _, fun t => horner_ok hc t, hornerDerivative_ok hc x, ?_⟩
  have := hasDerivAt_sum_pow c.length (fun i => algebraMap K 𝕜 (c.getD i 0)) x
  simpa [map_mul, map_natCast] using this

example : hornerDerivative [(1 : ℚ), 2, 3] (10 : ℚ) = .ok 62 ∧ ([1, 2, 3] : List ℝ) ≠ [] := ⟨by decide +kernel, by simp⟩
noncomputable example : Algebra ℝ ℂ := inferInstance

end horner

/-! ## Values -/

section values
variable {K : Type} [Field K] [DecidableEq K]

theorem Built1.seg {b : List K} {s : PS1 K} {X : Domain K} (h : Built1 b s X) : ∃ sx : Seg K, sx.dom = X ∧ s = PS1.base b sx := by
  cases h with
  | closed xmin xmax => exact ⟨.closed xmin xmax, rfl, rfl⟩
  | opened xmin => exact ⟨.opened xmin, rfl, rfl⟩

theorem Built2.seg {b : Mat K} {s : PS2 K} {X Y : Domain K} (h : Built2 b s X Y) :
    ∃ sx sy : Seg K, sx.dom = X ∧ sy.dom = Y ∧ s = PS2.base b sx sy := by
  cases h with
  | closed xmin xmax ymin ymax => exact ⟨.closed xmin xmax, .closed ymin ymax, rfl, rfl, rfl⟩
  | opened xmin ymin => exact ⟨.opened xmin, .opened ymin, rfl, rfl, rfl⟩
  | mixed xmin xmax ymin => exact ⟨.closed xmin xmax, .opened ymin, rfl, rfl, rfl⟩

theorem Built3.seg {b : List (Mat K)} {s : PS3 K} {X Y Z : Domain K} (h : Built3 b s X Y Z) :
    ∃ (sx sy sz : Seg K) (t : String), sx.dom = X ∧ sy.dom = Y ∧ sz.dom = Z ∧ PS3.base b sx sy sz t = .ok s := by
  cases h with
  | closed xmin xmax ymin ymax zmin zmax h =>
    exact ⟨.closed xmin xmax, .closed ymin ymax, .closed zmin zmax, _, rfl, rfl, rfl, h⟩
  | yzOpened xmin xmax ymin zmin h => exact ⟨.closed xmin xmax, .opened ymin, .opened zmin, _, rfl, rfl, rfl, h⟩
  | zOpened xmin xmax ymin ymax zmin h => exact ⟨.closed xmin xmax, .closed ymin ymax, .opened zmin, _, rfl, rfl, rfl, h⟩

variable [NeZero (2 : K)]

/-- C29, one variable. -/
theorem C29_evaluate_1d (B : Build) {b : List K} (hb : b ≠ []) {s : PS1 K} {X : Domain K} (hs : Built1 b s X) {x : K} (hx : X.Defined x) :
    s.evaluate B x = .ok (poly1 b.length (fun i => b.getD i 0) (X.unit x)) := by
  obtain ⟨sx, rfl, rfl⟩ := Built1.seg hs
  unfold PS1.evaluate
  rw [show (PS1.base b sx).m_x = sx from rfl, Seg.toUnit_ok hx, Res.ok_bind, PS1.evaluateUnit_ok B hb]

/-- C29, two variables. -/
theorem C29_evaluate_2d (B : Build) {b : Mat K} (hr : b.rows ≠ 0) (hc : b.cols ≠ 0) {s : PS2 K} {X Y : Domain K} (hs : Built2 b s X Y)
    {x y : K} (hx : X.Defined x) (hy : Y.Defined y) :
    s.evaluate B x y = .ok (poly2 b.rows b.cols b.entry (X.unit x) (Y.unit y)) := by
  obtain ⟨sx, sy, rfl, rfl, rfl⟩ := Built2.seg hs
  unfold PS2.evaluate
  rw [show (PS2.base b sx sy).m_x = sx from rfl, show (PS2.base b sx sy).m_y = sy from rfl, Seg.toUnit_ok hx, Res.ok_bind, Seg.toUnit_ok hy,
    Res.ok_bind, PS2.evaluateUnit_ok B hr hc, poly2_eq]

/-- C29, three variables: `bijk` is a vector (index `k`) of matrices (indices `i`, `j`). -/
theorem C29_evaluate_3d (B : Build) {b : List (Mat K)} {n m l : Nat} {e : Nat → Nat → Nat → K} (hb : Cube b n m l e) {s : PS3 K}
    {X Y Z : Domain K} (hs : Built3 b s X Y Z) {x y z : K} (hx : X.Defined x) (hy : Y.Defined y) (hz : Z.Defined z) :
    s.evaluate B x y z = .ok (poly3 n m l e (X.unit x) (Y.unit y) (Z.unit z)) := by
  obtain ⟨sx, sy, sz, t, rfl, rfl, rfl, h⟩ := Built3.seg hs
  obtain ⟨e1, e2, e3⟩ := PS3.fields hb h
  unfold PS3.evaluate
  rw [e1, e2, e3, Seg.toUnit_ok hx, Res.ok_bind, Seg.toUnit_ok hy, Res.ok_bind, Seg.toUnit_ok hz, Res.ok_bind,
    PS3.evaluateUnit_ok B hb h, poly3_eq]

/-- The three-dimensional constructors accept every coefficient array of this form. -/
theorem C29_constructors_3d {b : List (Mat K)} {n m l : Nat} {e : Nat → Nat → Nat → K} (hb : Cube b n m l e)
    (xmin xmax ymin ymax zmin zmax : K) :
    (∃ s, Built3 b s (.segment xmin xmax) (.segment ymin ymax) (.segment zmin zmax)) ∧
    (∃ s, Built3 b s (.segment xmin xmax) (.halfLine ymin) (.halfLine zmin)) ∧
    (∃ s, Built3 b s (.segment xmin xmax) (.segment ymin ymax) (.halfLine zmin)) :=
  ⟨⟨_, .closed _ _ _ _ _ _ (PS3.base_ok hb _ _ _ _)⟩, ⟨_, .yzOpened _ _ _ _ (PS3.base_ok hb _ _ _ _)⟩,
    ⟨_, .zOpened _ _ _ _ _ (PS3.base_ok hb _ _ _ _)⟩⟩

end values

/-- Two matrices of one row and two columns: `f = 1 + 2 v + 3 w + 4 v w`. -/
def seriesB : List (Mat ℝ) := [⟨1, 2, fun _ j => if j = 0 then 1 else 2⟩, ⟨1, 2, fun _ j => if j = 0 then 3 else 4⟩]

theorem seriesCube : Cube seriesB 1 2 2 (fun _ j k => if k = 0 then (if j = 0 then 1 else 2) else (if j = 0 then 3 else 4)) where
  len := rfl
  mats := by
    intro k a h
    match k with
    | 0 => simp [seriesB] at h; subst h; simp
    | 1 => simp [seriesB] at h; subst h; simp
    | k + 2 => simp [seriesB] at h
  hn := by simp
  hm := by simp
  hl := by simp

example : ∃ s, Built3 seriesB s (.segment 0 1) (.halfLine 1) (.halfLine 2) := (C29_constructors_3d seriesCube 0 1 1 0 2 0).2.1
example : Built1 [(1 : ℝ), 2, 3] (PS1.opened [1, 2, 3] 2) (.halfLine 2) ∧ (Domain.halfLine (2 : ℝ)).Defined 4 :=
  ⟨.opened 2, by simp [Domain.Defined]⟩
example : PS1.evaluate ⟨true⟩ (PS1.opened [(1 : ℚ), 2, 4] 1) 4 = .ok 3 := by decide +kernel
example : PS2.evaluate ⟨true⟩ (PS2.mixed ⟨2, 3, fun i j => ((10 * i + j : Nat) : ℚ)⟩ 0 4 1) 3 4 = .ok (41 / 4) := by decide +kernel

/-! ## Derivatives -/

/-- C30, one variable. -/
theorem C30_derivative_1d (B : Build) {b : List ℝ} (hb : b ≠ []) {s : PS1 ℝ} {X : Domain ℝ} (hs : Built1 b s X) {x : ℝ} (hx : X.Defined x) :
    IsDerivAt (fun t => s.evaluate B t) (s.evaluateDerivativeX B x) x := by
  obtain ⟨sx, rfl, e⟩ := Built1.seg hs
  refine isDerivAt_unit hx (fun t ht => C29_evaluate_1d B hb hs ht) ?_ (hasDerivAt_poly1 _ _ _)
  rw [e]
  unfold PS1.evaluateDerivativeX
  rw [show (PS1.base b sx).m_x = sx from rfl, Seg.toUnit_ok hx, Res.ok_bind, PS1.derivUnit_ok B hb hx]

/-- C30, two variables. -/
theorem C30_derivative_2d (B : Build) {b : Mat ℝ} (hr : b.rows ≠ 0) (hc : b.cols ≠ 0) {s : PS2 ℝ} {X Y : Domain ℝ} (hs : Built2 b s X Y)
    {x y : ℝ} (hx : X.Defined x) (hy : Y.Defined y) :
    IsDerivAt (fun t => s.evaluate B t y) (s.evaluateDerivativeX B x y) x ∧
    IsDerivAt (fun t => s.evaluate B x t) (s.evaluateDerivativeY B x y) y := by
  obtain ⟨sx, sy, rfl, rfl, e⟩ := Built2.seg hs
  constructor
  · refine isDerivAt_unit hx (P := fun u => poly1 b.rows (fun i => poly1 b.cols (b.entry i) (sy.dom.unit y)) u)
      (fun t ht => by rw [C29_evaluate_2d B hr hc hs ht hy, poly2_eq]) ?_ (hasDerivAt_poly1 _ _ _)
    rw [e]
    unfold PS2.evaluateDerivativeX
    rw [show (PS2.base b sx sy).m_x = sx from rfl, show (PS2.base b sx sy).m_y = sy from rfl, Seg.toUnit_ok hx, Res.ok_bind,
      Seg.toUnit_ok hy, Res.ok_bind, PS2.derivXUnit_ok B hr hc sy hx]
  · refine isDerivAt_unit hy (P := fun v => poly1 b.rows (fun i => poly1 b.cols (b.entry i) v) (sx.dom.unit x))
      (fun t ht => by rw [C29_evaluate_2d B hr hc hs hx ht, poly2_eq]) ?_
      (hasDerivAt_poly1_coef _ (fun i _ => hasDerivAt_poly1 _ _ _))
    rw [e]
    unfold PS2.evaluateDerivativeY
    rw [show (PS2.base b sx sy).m_x = sx from rfl, show (PS2.base b sx sy).m_y = sy from rfl, Seg.toUnit_ok hx, Res.ok_bind,
      Seg.toUnit_ok hy, Res.ok_bind, PS2.derivYUnit_ok B hr hc sx hy]

/-- C30, three variables. -/
theorem C30_derivative_3d (B : Build) {b : List (Mat ℝ)} {n m l : Nat} {e : Nat → Nat → Nat → ℝ} (hb : Cube b n m l e) {s : PS3 ℝ}
    {X Y Z : Domain ℝ} (hs : Built3 b s X Y Z) {x y z : ℝ} (hx : X.Defined x) (hy : Y.Defined y) (hz : Z.Defined z) :
    IsDerivAt (fun t => s.evaluate B t y z) (s.evaluateDerivativeX B x y z) x ∧
    IsDerivAt (fun t => s.evaluate B x t z) (s.evaluateDerivativeY B x y z) y ∧
    IsDerivAt (fun t => s.evaluate B x y t) (s.evaluateDerivativeZ B x y z) z := by
  obtain ⟨sx, sy, sz, t, rfl, rfl, rfl, h⟩ := Built3.seg hs
  obtain ⟨e1, e2, e3⟩ := PS3.fields hb h
  refine ⟨?_, ?_, ?_⟩
  · refine isDerivAt_unit hx
      (P := fun u => poly1 l (fun k => poly1 n (fun i => poly1 m (fun j => e i j k) (sy.dom.unit y)) u) (sz.dom.unit z))
      (fun t ht => by rw [C29_evaluate_3d B hb hs ht hy hz, poly3_eq]) ?_
      (hasDerivAt_poly1_coef _ (fun k _ => hasDerivAt_poly1 _ _ _))
    unfold PS3.evaluateDerivativeX
    rw [e1, e2, e3, Seg.toUnit_ok hx, Res.ok_bind, Seg.toUnit_ok hy, Res.ok_bind, Seg.toUnit_ok hz, Res.ok_bind,
      PS3.derivXUnit_ok B hb h hx]
  · refine isDerivAt_unit hy
      (P := fun v => poly1 l (fun k => poly1 n (fun i => poly1 m (fun j => e i j k) v) (sx.dom.unit x)) (sz.dom.unit z))
      (fun t ht => by rw [C29_evaluate_3d B hb hs hx ht hz, poly3_eq]) ?_
      (hasDerivAt_poly1_coef _ (fun k _ => hasDerivAt_poly1_coef _ (fun i _ => hasDerivAt_poly1 _ _ _)))
    unfold PS3.evaluateDerivativeY
    rw [e1, e2, e3, Seg.toUnit_ok hx, Res.ok_bind, Seg.toUnit_ok hy, Res.ok_bind, Seg.toUnit_ok hz, Res.ok_bind,
      PS3.derivYUnit_ok B hb h hy]
  · refine isDerivAt_unit hz
      (P := fun w => poly1 l (fun k => poly1 n (fun i => poly1 m (fun j => e i j k) (sy.dom.unit y)) (sx.dom.unit x)) w)
      (fun t ht => by rw [C29_evaluate_3d B hb hs hx hy ht, poly3_eq]) ?_ (hasDerivAt_poly1 _ _ _)
    unfold PS3.evaluateDerivativeZ
    rw [e1, e2, e3, Seg.toUnit_ok hx, Res.ok_bind, Seg.toUnit_ok hy, Res.ok_bind, Seg.toUnit_ok hz, Res.ok_bind,
      PS3.derivZUnit_ok B hb h hz]

example : PS2.evaluateDerivativeX ⟨true⟩ (PS2.mixed ⟨2, 3, fun i j => ((10 * i + j : Nat) : ℚ)⟩ 0 4 1) 3 4 = .ok (37 / 4) := by decide +kernel

/-! ## Fixed z -/

section fixed
variable {K : Type} [Field K] [DecidableEq K] [NeZero (2 : K)] {b : List (Mat K)} {n m l : Nat} {e : Nat → Nat → Nat → K}
  {s : PS3 K} {X Y Z : Domain K} {x y z : K}

/-- C31, the part that holds for every class: the value, the `x` derivative and the combined evaluation. Missing: the `y` derivative, see
`C31_y_derivative_partial` and `C31_y_derivative_wrong`. -/
theorem C31_z_predefined_partial (B : Build) (hb : Cube b n m l e) (hs : Built3 b s X Y Z) (hx : X.Defined x) (hy : Y.Defined y)
    (hz : Z.Defined z) :
    ∃ c f fx fy, s.computeCij B z = .ok c ∧
      s.evaluate B x y z = .ok f ∧ s.evaluateZPredefined B x y c = .ok f ∧
      s.evaluateDerivativeX B x y z = .ok fx ∧ s.evaluateDerivativeXZPredefined B x y c = .ok fx ∧
      s.evaluateDerivativeY B x y z = .ok fy ∧
      s.evaluateFDfdxDfdy B x y z = .ok (f, fx, fy) ∧ s.evaluateFDfdxDfdyZPredefined B x y c = .ok (f, fx, fy) := by
  obtain ⟨sx, sy, sz, t, rfl, rfl, rfl, h⟩ := Built3.seg hs
  obtain ⟨e1, e2, e3⟩ := PS3.fields hb h
  obtain ⟨c, h1, h2⟩ := PS3.cij_ok B hb h (sz.dom.unit z)
  have hfx : s.evaluateDerivativeX B x y z = .ok (sx.coef x * poly1 l (fun k => dpoly1 n (fun i => poly1 m (fun j => e i j k)
      (sy.dom.unit y)) (sx.dom.unit x)) (sz.dom.unit z)) := by
    unfold PS3.evaluateDerivativeX
    rw [e1, e2, e3, Seg.toUnit_ok hx, Res.ok_bind, Seg.toUnit_ok hy, Res.ok_bind, Seg.toUnit_ok hz, Res.ok_bind,
      PS3.derivXUnit_ok B hb h hx]
  have hfy : s.evaluateDerivativeY B x y z = .ok (sy.coef y * poly1 l (fun k => poly1 n (fun i => dpoly1 m (fun j => e i j k)
      (sy.dom.unit y)) (sx.dom.unit x)) (sz.dom.unit z)) := by
    unfold PS3.evaluateDerivativeY
    rw [e1, e2, e3, Seg.toUnit_ok hx, Res.ok_bind, Seg.toUnit_ok hy, Res.ok_bind, Seg.toUnit_ok hz, Res.ok_bind,
      PS3.derivYUnit_ok B hb h hy]
  refine ⟨c, _, _, _, ?_, C29_evaluate_3d B hb hs hx hy hz, ?_, hfx, ?_, hfy, ?_, ?_⟩
  · unfold PS3.computeCij; rw [e3, Seg.toUnit_ok hz, Res.ok_bind, h1]
  · unfold PS3.evaluateZPredefined
    rw [e1, e2, Seg.toUnit_ok hx, Res.ok_bind, Seg.toUnit_ok hy, Res.ok_bind, PS3.preUnit_ok B hb h h2, sum_poly]
  · unfold PS3.evaluateDerivativeXZPredefined
    rw [e1, e2, Seg.toUnit_ok hx, Res.ok_bind, Seg.toUnit_ok hy, Res.ok_bind, PS3.preXUnit_ok B hb h h2 hx, sum_dpoly_x]
  · unfold PS3.evaluateFDfdxDfdy
    rw [e1, e2, e3, Seg.toUnit_ok hx, Res.ok_bind, Seg.toUnit_ok hy, Res.ok_bind, Seg.toUnit_ok hz, Res.ok_bind,
      PS3.bothUnit_ok B hb h hx hy, poly3_eq]
  · unfold PS3.evaluateFDfdxDfdyZPredefined
    rw [e1, e2, Seg.toUnit_ok hx, Res.ok_bind, Seg.toUnit_ok hy, Res.ok_bind, PS3.preBothUnit_ok B hb h h2 hx hy, sum_poly,
      sum_dpoly_x n m l e, sum_dpoly_y n m l e]

/-- C31, the `y` derivative, for the classes where `y` ranges over a closed segment. For `PowerSeries3dYZOpenedXClosed` it is false. -/
theorem C31_y_derivative_partial (B : Build) (hb : Cube b n m l e) {ymin ymax : K} (hs : Built3 b s X (.segment ymin ymax) Z)
    (hx : X.Defined x) (hy : ymin ≠ ymax) (hz : Z.Defined z) :
    ∃ c fy, s.computeCij B z = .ok c ∧ s.evaluateDerivativeY B x y z = .ok fy ∧ s.evaluateDerivativeYZPredefined B x y c = .ok fy := by
  obtain ⟨sx, sy, sz, t, rfl, hsy, rfl, h⟩ := Built3.seg hs
  obtain ⟨e1, e2, e3⟩ := PS3.fields hb h
  obtain ⟨c, h1, h2⟩ := PS3.cij_ok B hb h (sz.dom.unit z)
  have hd : ∀ t, sy.dom.Defined t := by intro t; rw [hsy]; exact hy
  have hco : sy.coef x = sy.coef y := by
    cases sy with
    | closed a b => rfl
    | opened a => simp [Seg.dom] at hsy
  have hfy : s.evaluateDerivativeY B x y z = .ok (sy.coef y * poly1 l (fun k => poly1 n (fun i => dpoly1 m (fun j => e i j k)
      (sy.dom.unit y)) (sx.dom.unit x)) (sz.dom.unit z)) := by
    unfold PS3.evaluateDerivativeY
    rw [e1, e2, e3, Seg.toUnit_ok hx, Res.ok_bind, Seg.toUnit_ok (hd y), Res.ok_bind, Seg.toUnit_ok hz, Res.ok_bind,
      PS3.derivYUnit_ok B hb h (hd y)]
  refine ⟨c, _, ?_, hfy, ?_⟩
  · unfold PS3.computeCij; rw [e3, Seg.toUnit_ok hz, Res.ok_bind, h1]
  · unfold PS3.evaluateDerivativeYZPredefined
    rw [e1, e2, Seg.toUnit_ok hx, Res.ok_bind, Seg.toUnit_ok (hd y), Res.ok_bind, PS3.preYUnit_ok B hb h h2 (hd x), sum_dpoly_y, hco]

/-- What `Evaluate_derivative_y_z_predefined` returns when `y` ranges over a half line, for every series and every point: the derivative
multiplied by `y² / x²`, and an infinite or undefined number when `x = 0`. -/
theorem C31_y_derivative_wrong (B : Build) (hb : Cube b n m l e) {ymin : K} (hs : Built3 b s X (.halfLine ymin) Z)
    (hx : X.Defined x) (hy : y ≠ 0) (hz : Z.Defined z) :
    ∃ c fy, s.computeCij B z = .ok c ∧ s.evaluateDerivativeY B x y z = .ok fy ∧
      s.evaluateDerivativeYZPredefined B x y c = (if x = 0 then .nonfinite else .ok (fy * (y * y) / (x * x))) := by
  obtain ⟨sx, sy, sz, t, rfl, hsy, rfl, h⟩ := Built3.seg hs
  obtain ⟨e1, e2, e3⟩ := PS3.fields hb h
  obtain ⟨c, h1, h2⟩ := PS3.cij_ok B hb h (sz.dom.unit z)
  have hd : ∀ t, t ≠ 0 → sy.dom.Defined t := by intro t ht; rw [hsy]; exact ht
  obtain ⟨a, rfl⟩ : ∃ a, sy = .opened a := by
    cases sy with
    | closed a b => simp [Seg.dom] at hsy
    | opened a => exact ⟨a, rfl⟩
  have hfy : s.evaluateDerivativeY B x y z = .ok ((Seg.opened a).coef y * poly1 l (fun k => poly1 n (fun i => dpoly1 m (fun j => e i j k)
      ((Seg.opened a).dom.unit y)) (sx.dom.unit x)) (sz.dom.unit z)) := by
    unfold PS3.evaluateDerivativeY
    rw [e1, e2, e3, Seg.toUnit_ok hx, Res.ok_bind, Seg.toUnit_ok (hd y hy), Res.ok_bind, Seg.toUnit_ok hz, Res.ok_bind,
      PS3.derivYUnit_ok B hb h (hd y hy)]
  refine ⟨c, _, ?_, hfy, ?_⟩
  · unfold PS3.computeCij; rw [e3, Seg.toUnit_ok hz, Res.ok_bind, h1]
  · unfold PS3.evaluateDerivativeYZPredefined
    rw [e1, e2, Seg.toUnit_ok hx, Res.ok_bind, Seg.toUnit_ok (hd y hy), Res.ok_bind]
    by_cases h0 : x = 0
    · rw [if_pos h0]
      have h' := h
      rw [PS3.base_ok hb] at h
      cases h
      simp only [PS3.evaluateDerivativeYUnitZunitPredefined, upTo_len]
      rw [collect_ok _ (fun i hi => h2.rowD hb B _ hi)]
      simp [Seg.coefficientDerivative, fdiv, h0]
    · rw [if_neg h0, PS3.preYUnit_ok B hb h h2 (hd x h0), sum_dpoly_y]
      congr 1
      simp only [Seg.coef]
      field_simp

end fixed

/-- C31 is false of `PowerSeries3dYZOpenedXClosed`: with `f = 1 + 2 v + 3 w + 4 v w`, at `x = 1/2`, `y = 1`, `z = 4` the two `y` derivatives differ. -/
theorem C31_refuted : ∃ (s : PS3 ℝ) (c : Mat ℝ) (fy fy' : ℝ), Built3 seriesB s (.segment 0 1) (.halfLine 1) (.halfLine 2) ∧
    s.computeCij ⟨true⟩ 4 = .ok c ∧ s.evaluateDerivativeY ⟨true⟩ (1 / 2) 1 4 = .ok fy ∧
    s.evaluateDerivativeYZPredefined ⟨true⟩ (1 / 2) 1 c = .ok fy' ∧ fy ≠ fy' := by
  obtain ⟨s, hs⟩ := (C29_constructors_3d seriesCube 0 1 1 0 2 0).2.1
  have hX : (Domain.segment (0 : ℝ) 1).Defined (1 / 2) := by simp [Domain.Defined]
  have hZ : (Domain.halfLine (2 : ℝ)).Defined 4 := by simp [Domain.Defined]
  obtain ⟨c, fy, h1, h2, h3⟩ := C31_y_derivative_wrong ⟨true⟩ seriesCube hs hX (y := 1) one_ne_zero hZ
  refine ⟨s, c, fy, _, hs, h1, h2, by rw [if_neg (by norm_num)] at h3; exact h3, ?_⟩
  have hfy : fy = 4 := by
    obtain ⟨sx, sy, sz, t, hsx, hsy, hsz, h⟩ := Built3.seg hs
    obtain ⟨e1, e2, e3⟩ := PS3.fields seriesCube h
    rw [← hsx] at hX
    rw [← hsz] at hZ
    have hY : sy.dom.Defined 1 := by rw [hsy]; simp [Domain.Defined]
    unfold PS3.evaluateDerivativeY at h2
    rw [e1, e2, e3, Seg.toUnit_ok hX, Res.ok_bind, Seg.toUnit_ok hY, Res.ok_bind, Seg.toUnit_ok hZ, Res.ok_bind,
      PS3.derivYUnit_ok ⟨true⟩ seriesCube h hY] at h2
    injection h2 with h2
    rw [← h2, hsx, hsy, hsz]
    obtain ⟨a, rfl⟩ : ∃ a, sy = .opened a := by
      cases sy with
      | closed a b => simp [Seg.dom] at hsy
      | opened a => exact ⟨a, rfl⟩
    simp only [Seg.dom, Domain.halfLine.injEq] at hsy
    subst hsy
    simp [Seg.coef, poly1, dpoly1, Domain.unit, sum_range_succ]
    norm_num
  rw [hfy]
  norm_num

/-! ## z tending to infinity -/

/-- C70: on a class where `z` ranges over a half line, `Evaluate_zinf(x, y)` is the limit of `Evaluate(x, y, z)` when `z` tends to infinity, and
`Compute_cij_zinf` gives the coefficients of that limit. -/
theorem C70_zinf_limit (B : Build) {b : List (Mat ℝ)} {n m l : Nat} {e : Nat → Nat → Nat → ℝ} (hb : Cube b n m l e) {s : PS3 ℝ}
    {X Y : Domain ℝ} {zmin : ℝ} (hs : Built3 b s X Y (.halfLine zmin)) {x y : ℝ} (hx : X.Defined x) (hy : Y.Defined y) :
    ∃ (f : ℝ → ℝ) (lim : ℝ) (c : Mat ℝ), (∀ z, z ≠ 0 → s.evaluate B x y z = .ok (f z)) ∧ s.evaluateZinf B x y = .ok lim ∧
      Filter.Tendsto f Filter.atTop (nhds lim) ∧ s.computeCijZinf B = .ok c ∧ s.evaluateZPredefined B x y c = .ok lim := by
  have hs' := hs
  obtain ⟨sx, sy, sz, t, rfl, rfl, hsz, h⟩ := Built3.seg hs
  obtain ⟨e1, e2, e3⟩ := PS3.fields hb h
  obtain ⟨c, h1, h2⟩ := PS3.cij_ok B hb h 1
  refine ⟨_, poly3 n m l e (sx.dom.unit x) (sy.dom.unit y) 1, c, fun z hz => C29_evaluate_3d B hb hs' hx hy hz, ?_, ?_, h1, ?_⟩
  · unfold PS3.evaluateZinf
    rw [e1, e2, Seg.toUnit_ok hx, Res.ok_bind, Seg.toUnit_ok hy, Res.ok_bind, PS3.evaluateUnit_ok B hb h, poly3_eq]
  · have hu : Filter.Tendsto (Domain.halfLine zmin).unit Filter.atTop (nhds 1) := by
      have := (tendsto_inv_atTop_zero (𝕜 := ℝ)).const_mul (2 * zmin)
      have := this.const_sub 1
      have e : (Domain.halfLine zmin).unit = fun z => 1 - 2 * zmin * z⁻¹ := by
        funext z; simp only [Domain.unit, div_eq_mul_inv]
      rw [e]
      simpa using this
    have hcont : Continuous (fun w => poly3 n m l e (sx.dom.unit x) (sy.dom.unit y) w) := by
      unfold poly3
      fun_prop
    exact (hcont.tendsto 1).comp hu
  · unfold PS3.evaluateZPredefined
    rw [e1, e2, Seg.toUnit_ok hx, Res.ok_bind, Seg.toUnit_ok hy, Res.ok_bind, PS3.preUnit_ok B hb h h2, sum_poly]

end MU
