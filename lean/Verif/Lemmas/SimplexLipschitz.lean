import Verif.Props.SimplexAccuracy
import Mathlib.MeasureTheory.Integral.IntervalIntegral.Basic

set_option linter.unusedSectionVars false

/-! The walk of simplex interpolation as an integral over thresholds: the value is the mean over `t` in `[0, 1]` of the data at the vertex whose coordinates are 0 for the
fractions below `t` and 1 for the others. It follows that it varies by at most the oscillation of the data times the sum of the changes of the fractions. -/

namespace MU.NDInterp
open Spec MeasureTheory intervalIntegral

/-- The vertex at the threshold `t`. -/
noncomputable def lower (order : List (ℝ × Nat)) (t : ℝ) (v : List Int) : List Int :=
  ((order.filter (fun o => o.1 < t)).map Prod.snd).foldl (fun v d => v.modify d (· - 1)) v

theorem integral_split {f g h : ℝ → ℝ} {p ξ : ℝ} (hp : p ≤ ξ) (h1 : ξ ≤ 1) (hg : IntervalIntegrable g volume p ξ) (hh : IntervalIntegrable h volume ξ 1)
    (e1 : ∀ t, p < t → t ≤ ξ → f t = g t) (e2 : ∀ t, ξ < t → t ≤ 1 → f t = h t) :
    IntervalIntegrable f volume p 1 ∧ ∫ t in p..1, f t = (∫ t in p..ξ, g t) + ∫ t in ξ..1, h t := by
  have i1 : IntervalIntegrable f volume p ξ := hg.congr (by
    intro t ht
    rw [Set.uIoc_of_le hp] at ht
    exact (e1 t ht.1 ht.2).symm)
  have i2 : IntervalIntegrable f volume ξ 1 := hh.congr (by
    intro t ht
    rw [Set.uIoc_of_le h1] at ht
    exact (e2 t ht.1 ht.2).symm)
  refine ⟨i1.trans i2, ?_⟩
  rw [← integral_add_adjacent_intervals i1 i2]
  congr 1
  · refine integral_congr_ae (Filter.Eventually.of_forall fun t ht => ?_)
    rw [Set.uIoc_of_le hp] at ht
    exact e1 t ht.1 ht.2
  · refine integral_congr_ae (Filter.Eventually.of_forall fun t ht => ?_)
    rw [Set.uIoc_of_le h1] at ht
    exact e2 t ht.1 ht.2

theorem walk_integral (G : List Int → ℝ) {order : List (ℝ × Nat)} {p : ℝ} (v : List Int) (hp : p ≤ 1) (hle : ∀ o ∈ order, p ≤ o.1 ∧ o.1 ≤ 1)
    (hs : order.Pairwise (fun a b => a.1 ≤ b.1)) :
    IntervalIntegrable (fun t => G (lower order t v)) volume p 1 ∧
      ∫ t in p..1, G (lower order t v) = ((walkTerms order p v).map (fun w => w.1 * G w.2)).sum := by
  induction order generalizing p v with
  | nil => simp [lower, walkTerms]
  | cons o r ih =>
    obtain ⟨ξ, d⟩ := o
    rw [List.pairwise_cons] at hs
    obtain ⟨h1, h2⟩ := hle (ξ, d) (by simp)
    obtain ⟨i1, i2⟩ := ih (p := ξ) (v.modify d (· - 1)) h2 (fun o ho => ⟨hs.1 o ho, (hle o (by simp [ho])).2⟩) hs.2
    have e1 : ∀ t, p < t → t ≤ ξ → G (lower ((ξ, d) :: r) t v) = G v := by
      intro t _ ht2
      have : ((ξ, d) :: r).filter (fun o => o.1 < t) = [] := by
        rw [List.filter_eq_nil_iff]
        intro o ho
        rcases List.mem_cons.1 ho with rfl | ho
        · simpa using ht2
        · simpa using ht2.trans (hs.1 o ho)
      simp only [lower, this, List.map_nil, List.foldl_nil]
    have e2 : ∀ t, ξ < t → t ≤ 1 → G (lower ((ξ, d) :: r) t v) = G (lower r t (v.modify d (· - 1))) := by
      intro t ht1 _
      simp only [lower]
      rw [List.filter_cons_of_pos (by simpa using ht1)]
      rfl
    obtain ⟨j1, j2⟩ := integral_split (f := fun t => G (lower ((ξ, d) :: r) t v)) (g := fun _ => G v) (h := fun t => G (lower r t (v.modify d (· - 1))))
      h1 h2 (by simp) i1 e1 e2
    refine ⟨j1, ?_⟩
    rw [j2, i2]
    simp [walkTerms]

/-- The step function of a threshold. -/
noncomputable def step (ξ t : ℝ) : ℝ := if ξ < t then 1 else 0

theorem step_integral {ξ : ℝ} (h0 : 0 ≤ ξ) (h1 : ξ ≤ 1) : IntervalIntegrable (step ξ) volume 0 1 ∧ ∫ t in (0 : ℝ)..1, step ξ t = 1 - ξ := by
  obtain ⟨j1, j2⟩ := integral_split (f := step ξ) (g := fun _ => 0) (h := fun _ => 1) h0 h1 (by simp) (by simp)
    (fun t _ ht => by simp [step, not_lt.2 ht]) (fun t ht _ => by simp [step, ht])
  exact ⟨j1, by rw [j2]; simp⟩

/-- One where exactly one of the two fractions is below the threshold. -/
noncomputable def between (ξ η t : ℝ) : ℝ := step (min ξ η) t - step (max ξ η) t

theorem between_integral {ξ η : ℝ} (h0 : 0 ≤ ξ ∧ ξ ≤ 1) (h1 : 0 ≤ η ∧ η ≤ 1) :
    IntervalIntegrable (between ξ η) volume 0 1 ∧ ∫ t in (0 : ℝ)..1, between ξ η t = |ξ - η| := by
  obtain ⟨a1, a2⟩ := step_integral (le_min h0.1 h1.1) (min_le_left ξ η |>.trans h0.2)
  obtain ⟨b1, b2⟩ := step_integral (h0.1.trans (le_max_left ξ η)) (max_le h0.2 h1.2)
  refine ⟨a1.sub b1, ?_⟩
  have : ∫ t in (0 : ℝ)..1, between ξ η t = (1 - min ξ η) - (1 - max ξ η) := by
    rw [← a2, ← b2]
    exact integral_sub a1 b1
  rw [this, ← max_sub_min_eq_abs']
  ring

theorem between_nonneg (ξ η t : ℝ) : 0 ≤ between ξ η t := by
  unfold between step
  split_ifs with h1 h2 h2
  · simp
  · simp
  · exact absurd (lt_of_le_of_lt (min_le_max) h2) h1
  · simp

theorem between_one {ξ η t : ℝ} (h : ¬ (ξ < t ↔ η < t)) : between ξ η t = 1 := by
  unfold between step
  by_cases h1 : ξ < t
  · have h2 : ¬ η < t := fun h2 => h ⟨fun _ => h2, fun _ => h1⟩
    rw [if_pos (lt_of_le_of_lt (min_le_left _ _) h1), if_neg (not_lt.2 ((not_lt.1 h2).trans (le_max_right _ _)))]
    ring
  · have h2 : η < t := by
      by_contra h2
      exact h ⟨fun h => absurd h h1, fun h => absurd h h2⟩
    rw [if_pos (lt_of_le_of_lt (min_le_right _ _) h2), if_neg (not_lt.2 ((not_lt.1 h1).trans (le_max_left _ _)))]
    ring

/-- The sum over the axes. -/
noncomputable def betweens : List ℝ → List ℝ → ℝ → ℝ
  | ξ :: ys, η :: zs, t => between ξ η t + betweens ys zs t
  | _, _, _ => 0

/-- The sum of the changes of the fractions. -/
def fracDist : List ℝ → List ℝ → ℝ
  | ξ :: ys, η :: zs => |ξ - η| + fracDist ys zs
  | _, _ => 0

theorem betweens_nonneg (ys zs : List ℝ) (t : ℝ) : 0 ≤ betweens ys zs t := by
  induction ys generalizing zs with
  | nil => cases zs <;> simp [betweens]
  | cons ξ ys ih =>
    cases zs with
    | nil => simp [betweens]
    | cons η zs => exact add_nonneg (between_nonneg _ _ _) (ih zs)

theorem betweens_integral {ys zs : List ℝ} (hy : ∀ y ∈ ys, 0 ≤ y ∧ y ≤ 1) (hz : ∀ y ∈ zs, 0 ≤ y ∧ y ≤ 1) :
    IntervalIntegrable (betweens ys zs) volume 0 1 ∧ ∫ t in (0 : ℝ)..1, betweens ys zs t = fracDist ys zs := by
  induction ys generalizing zs with
  | nil =>
    have : betweens [] zs = fun _ => 0 := by funext t; cases zs <;> rfl
    rw [this]
    cases zs <;> simp [fracDist]
  | cons ξ ys ih =>
    cases zs with
    | nil =>
      have : betweens (ξ :: ys) [] = fun _ => 0 := rfl
      rw [this]
      simp [fracDist]
    | cons η zs =>
      obtain ⟨a1, a2⟩ := between_integral (hy ξ (by simp)) (hz η (by simp))
      obtain ⟨b1, b2⟩ := ih (zs := zs) (fun y h => hy y (by simp [h])) (fun y h => hz y (by simp [h]))
      refine ⟨a1.add b1, ?_⟩
      show _ = |ξ - η| + fracDist ys zs
      rw [← a2, ← b2]
      exact integral_add a1 b1

theorem filter_zipIdx_eq {ys zs : List ℝ} {t : ℝ} (hl : ys.length = zs.length) (h : betweens ys zs t < 1) (k : Nat) :
    ((ys.zipIdx k).filter (fun o => o.1 < t)).map Prod.snd = ((zs.zipIdx k).filter (fun o => o.1 < t)).map Prod.snd := by
  induction ys generalizing zs k with
  | nil =>
    cases zs with
    | nil => rfl
    | cons _ _ => simp at hl
  | cons ξ ys ih =>
    cases zs with
    | nil => simp at hl
    | cons η zs =>
      have hb := betweens_nonneg ys zs t
      have hb' := between_nonneg ξ η t
      simp only [betweens] at h
      have h1 : ξ < t ↔ η < t := by
        by_contra hc
        rw [between_one hc] at h
        linarith
      have := ih (zs := zs) (by simpa using hl) (by linarith) (k + 1)
      simp only [List.zipIdx_cons]
      by_cases hξ : ξ < t
      · rw [List.filter_cons_of_pos (by simpa using hξ), List.filter_cons_of_pos (by simpa using h1.1 hξ)]
        simp [this]
      · rw [List.filter_cons_of_neg (by simpa using hξ), List.filter_cons_of_neg (by simpa using fun h => hξ (h1.2 h))]
        exact this

theorem lower_eq {ys zs : List ℝ} {l l' : List (ℝ × Nat)} (hl : ys.length = zs.length) (p1 : l.Perm ys.zipIdx) (p2 : l'.Perm zs.zipIdx) {t : ℝ}
    (h : betweens ys zs t < 1) (v : List Int) : lower l t v = lower l' t v := by
  unfold lower
  refine modify_perm ?_ v
  refine ((p1.filter _).map _).trans ?_
  rw [filter_zipIdx_eq hl h 0]
  exact ((p2.filter _).map _).symm

/-- The value of simplex interpolation in a cell varies by at most the oscillation of the data times the sum of the changes of the fractions. -/
theorem walk_lipschitz (G : List Int → ℝ) {ys zs : List ℝ} {l l' : List (ℝ × Nat)} (hl : ys.length = zs.length) (p1 : l.Perm ys.zipIdx) (p2 : l'.Perm zs.zipIdx)
    (s1 : l.Pairwise (fun a b => a.1 ≤ b.1)) (s2 : l'.Pairwise (fun a b => a.1 ≤ b.1)) (hy : ∀ y ∈ ys, 0 ≤ y ∧ y ≤ 1) (hz : ∀ y ∈ zs, 0 ≤ y ∧ y ≤ 1)
    (v : List Int) {D : ℝ} (hD : ∀ t t', |G (lower l t v) - G (lower l' t' v)| ≤ D) :
    |((walkTerms l 0 v).map (fun w => w.1 * G w.2)).sum - ((walkTerms l' 0 v).map (fun w => w.1 * G w.2)).sum| ≤ D * fracDist ys zs := by
  have hm : ∀ (ys : List ℝ) (l : List (ℝ × Nat)), l.Perm ys.zipIdx → (∀ y ∈ ys, 0 ≤ y ∧ y ≤ 1) → ∀ o ∈ l, 0 ≤ o.1 ∧ o.1 ≤ 1 := by
    intro ys l hp hy o ho
    have := List.mem_zipIdx_iff_getElem?.1 (hp.mem_iff.1 ho)
    exact hy _ (List.mem_of_getElem? this)
  obtain ⟨a1, a2⟩ := walk_integral G v zero_le_one (hm ys l p1 hy) s1
  obtain ⟨b1, b2⟩ := walk_integral G v zero_le_one (hm zs l' p2 hz) s2
  obtain ⟨c1, c2⟩ := betweens_integral hy hz
  have hD0 : 0 ≤ D := (abs_nonneg _).trans (hD 0 0)
  rw [← a2, ← b2, ← integral_sub a1 b1, ← c2, ← intervalIntegral.integral_const_mul]
  refine (abs_integral_le_integral_abs zero_le_one).trans ?_
  refine integral_mono_on zero_le_one (a1.sub b1).abs (c1.const_mul D) (fun t _ => ?_)
  by_cases h : betweens ys zs t < 1
  · rw [lower_eq hl p1 p2 h v, sub_self, abs_zero]
    exact mul_nonneg hD0 (betweens_nonneg _ _ _)
  · have := hD t t
    have h1 := not_lt.1 h
    nlinarith

end MU.NDInterp
