import Verif.Props.RoundedGeometry
import Verif.Props.RoundedTriangle

set_option linter.unusedSectionVars false

/-!
# The quaternion of a rotation matrix in double arithmetic

C158.
-/

namespace MU
open Spec

variable {rnd : ℝ → ℝ} {sum3 : ℝ → ℝ → ℝ → ℝ}

theorem rnd_step (hr : ToNearest rnd) {x y d m : ℝ} (h : |x - y| ≤ d) (hx : |x| ≤ m) : |rnd x - y| ≤ d + m / 2 ^ 53 := by
  have h1 := toNearest_err hr x
  rw [abs_sub_comm] at h1
  have h2 : |x| / 2 ^ 53 ≤ m / 2 ^ 53 := by gcongr
  have := abs_sub_le (rnd x) x y
  linarith

/-- Three numbers of size at most 1, near three others, added in any order. -/
theorem sum3_dev (hr : ToNearest rnd) (hs : AnyOrder rnd sum3) {a b c A B C ε : ℝ} (ha : |a - A| ≤ ε) (hb : |b - B| ≤ ε) (hc : |c - C| ≤ ε)
    (hA : |A| ≤ 1) (hB : |B| ≤ 1) (hC : |C| ≤ 1) (hε : ε ≤ 1 / 64) : |sum3 a b c - (A + B + C)| ≤ 3 * ε + 6 / 2 ^ 53 := by
  have key : ∀ a b c A B C : ℝ, |a - A| ≤ ε → |b - B| ≤ ε → |c - C| ≤ ε → |A| ≤ 1 → |B| ≤ 1 → |C| ≤ 1 →
      |rnd (rnd (a + b) + c) - (A + B + C)| ≤ 3 * ε + 6 / 2 ^ 53 := by
    intro a b c A B C ha hb hc hA hB hC
    rw [abs_le] at ha hb hc hA hB hC
    have h1 : |rnd (a + b) - (A + B)| ≤ 2 * ε + 2.1 / 2 ^ 53 :=
      rnd_step hr (abs_le.2 ⟨by linarith, by linarith⟩) (abs_le.2 ⟨by linarith, by linarith⟩)
    have h1' := abs_le.1 h1
    have := rnd_step hr (x := rnd (a + b) + c) (y := A + B + C) (d := 3 * ε + 2.1 / 2 ^ 53) (m := 3.1) (abs_le.2 ⟨by linarith, by linarith⟩)
      (abs_le.2 ⟨by norm_num at h1' ⊢; linarith, by norm_num at h1' ⊢; linarith⟩)
    norm_num at this ⊢
    linarith
  rcases hs a b c with h | h | h <;> rw [h]
  · exact key a b c A B C ha hb hc hA hB hC
  · have := key b c a B C A hb hc ha hB hC hA
    rw [add_comm (rnd (b + c)) a, show B + C + A = A + B + C by ring] at this
    exact this
  · have := key a c b A C B ha hc hb hA hC hB
    rwa [show A + C + B = A + B + C by ring] at this

/-- The square root of a number near `T`. -/
theorem sqrt_dev {T T' δ : ℝ} (hT : 9 / 10 ≤ T) (h : |T' - T| ≤ δ) (hδ : δ ≤ 1 / 10) :
    |Real.sqrt T' - Real.sqrt T| ≤ 11 / 20 * δ ∧ 89 / 100 ≤ Real.sqrt T' ∧ 94 / 100 ≤ Real.sqrt T := by
  have h' := abs_le.1 h
  have h1 : (89 / 100 : ℝ) ≤ Real.sqrt T' := Real.le_sqrt_of_sq_le (by norm_num; linarith)
  have h2 : (94 / 100 : ℝ) ≤ Real.sqrt T := Real.le_sqrt_of_sq_le (by norm_num; linarith)
  refine ⟨?_, h1, h2⟩
  have e : (Real.sqrt T' - Real.sqrt T) * (Real.sqrt T' + Real.sqrt T) = T' - T := by
    have e1 := Real.mul_self_sqrt (show 0 ≤ T' by linarith)
    have e2 := Real.mul_self_sqrt (show 0 ≤ T by linarith)
    linear_combination e1 - e2
  have e2 : |Real.sqrt T' - Real.sqrt T| * (Real.sqrt T' + Real.sqrt T) ≤ δ := by
    rw [← abs_of_nonneg (show 0 ≤ Real.sqrt T' + Real.sqrt T by linarith), ← abs_mul, e]
    exact h
  have := abs_nonneg (Real.sqrt T' - Real.sqrt T)
  nlinarith

/-- The components of the quaternion: the one computed first, then the others. -/
theorem comp_dev (hr : ToNearest rnd) {T T' ε : ℝ} (hT : 9 / 10 ≤ T) (hT4 : T ≤ 4) (h0 : 0 ≤ ε) (hε : ε ≤ 1 / 64) (h : |T' - T| ≤ 3 * ε + 12 / 2 ^ 53) :
    |rnd (1 / 2 * rnd (Real.sqrt T')) - 1 / 2 * Real.sqrt T| ≤ 4 * ε + 16 / 2 ^ 53 ∧
    ∀ d D : ℝ, |d - D| ≤ 2 * ε → |D| ≤ 2 →
      |rnd (rnd d * rnd (1 / 2 / rnd (Real.sqrt T'))) - D * (1 / 2 / Real.sqrt T)| ≤ 4 * ε + 16 / 2 ^ 53 := by
  obtain ⟨s1, s2, s3⟩ := sqrt_dev hT h (by norm_num at hε ⊢; linarith)
  have s4 : Real.sqrt T ≤ 2 := Real.sqrt_le_iff.2 ⟨by norm_num, by linarith⟩
  have s1' := abs_le.1 s1
  set S := Real.sqrt T
  set S' := Real.sqrt T'
  have hS' : |S'| ≤ 2.1 := abs_le.2 ⟨by linarith, by norm_num at s1' ⊢; linarith⟩
  have t1 : |rnd S' - S| ≤ 11 / 20 * (3 * ε + 12 / 2 ^ 53) + 2.1 / 2 ^ 53 := rnd_step hr s1 hS'
  have t1' := abs_le.1 t1
  set t := rnd S'
  constructor
  · have := rnd_step hr (x := 1 / 2 * t) (y := 1 / 2 * S) (d := 1 / 2 * (11 / 20 * (3 * ε + 12 / 2 ^ 53) + 2.1 / 2 ^ 53)) (m := 1.1)
      (abs_le.2 ⟨by linarith, by linarith⟩) (abs_le.2 ⟨by norm_num at t1' ⊢; linarith, by norm_num at t1' ⊢; linarith⟩)
    norm_num at this ⊢
    linarith
  · intro d D hd hD
    rw [abs_le] at hd hD
    have ht : 88 / 100 ≤ t := by norm_num at t1' ⊢; linarith
    -- the quotient
    have q1 : |1 / 2 / t - 1 / 2 / S| ≤ 61 / 100 * (11 / 20 * (3 * ε + 12 / 2 ^ 53) + 2.1 / 2 ^ 53) := by
      have e : 1 / 2 / t - 1 / 2 / S = (S - t) * (1 / 2 / (t * S)) := by
        field_simp
      rw [e, abs_mul, abs_sub_comm, mul_comm]
      have h5 : |1 / 2 / (t * S)| ≤ 61 / 100 := by
        rw [abs_of_nonneg (by positivity), div_le_iff₀ (by positivity)]
        nlinarith
      exact mul_le_mul h5 t1 (abs_nonneg _) (by norm_num)
    have q2 : 0 ≤ 1 / 2 / S ∧ 1 / 2 / S ≤ 54 / 100 := by
      refine ⟨by positivity, ?_⟩
      rw [div_le_iff₀ (by linarith)]
      linarith
    have q1' := abs_le.1 q1
    have q3 : |rnd (1 / 2 / t) - 1 / 2 / S| ≤ 61 / 100 * (11 / 20 * (3 * ε + 12 / 2 ^ 53) + 2.1 / 2 ^ 53) + 0.6 / 2 ^ 53 :=
      rnd_step hr q1 (abs_le.2 ⟨by norm_num at q1' q2 ⊢; linarith, by norm_num at q1' q2 ⊢; linarith⟩)
    set s := rnd (1 / 2 / t)
    set σ := 1 / 2 / S
    have d1 : |rnd d - D| ≤ 2 * ε + 2.1 / 2 ^ 53 := rnd_step hr (abs_le.2 hd) (abs_le.2 ⟨by linarith, by linarith⟩)
    have hs : |s| ≤ 0.6 := by
      have := abs_le.1 q3
      exact abs_le.2 ⟨by norm_num at this ⊢; linarith, by norm_num at this ⊢; linarith⟩
    have d1' := abs_le.1 d1
    set c := rnd d
    have p1 : |c * s - D * σ| ≤ 0.6 * (2 * ε + 2.1 / 2 ^ 53) + 2 * (61 / 100 * (11 / 20 * (3 * ε + 12 / 2 ^ 53) + 2.1 / 2 ^ 53) + 0.6 / 2 ^ 53) := by
      rw [show c * s - D * σ = (c - D) * s + D * (s - σ) by ring]
      refine (abs_add_le _ _).trans (add_le_add ?_ ?_)
      · rw [abs_mul, mul_comm]
        exact mul_le_mul hs d1 (abs_nonneg _) (by norm_num)
      · rw [abs_mul]
        exact mul_le_mul (abs_le.2 hD) q3 (abs_nonneg _) (by norm_num)
    have hc : |c| ≤ 2.1 := abs_le.2 ⟨by norm_num at d1' ⊢; linarith, by norm_num at d1' ⊢; linarith⟩
    have p2 : |c * s| ≤ 1.3 := by
      rw [abs_mul]
      exact (mul_le_mul hc hs (abs_nonneg _) (by norm_num)).trans (by norm_num)
    have := rnd_step hr p1 p2
    norm_num at this ⊢
    linarith

theorem entry_sub {R R₀ : M3} {ε : ℝ} (h : IsRotation R₀) (hR : Within ε R R₀) (i j k l : Fin 3) :
    |R i j - R k l - (R₀ i j - R₀ k l)| ≤ 2 * ε ∧ |R₀ i j - R₀ k l| ≤ 2 := by
  have h1 := abs_le.1 (hR i j)
  have h2 := abs_le.1 (hR k l)
  have h3 := abs_le.1 (rotation_le h i j)
  have h4 := abs_le.1 (rotation_le h k l)
  exact ⟨abs_le.2 ⟨by linarith, by linarith⟩, abs_le.2 ⟨by linarith, by linarith⟩⟩

theorem entry_add {R R₀ : M3} {ε : ℝ} (h : IsRotation R₀) (hR : Within ε R R₀) (i j k l : Fin 3) :
    |R i j + R k l - (R₀ i j + R₀ k l)| ≤ 2 * ε ∧ |R₀ i j + R₀ k l| ≤ 2 := by
  have h1 := abs_le.1 (hR i j)
  have h2 := abs_le.1 (hR k l)
  have h3 := abs_le.1 (rotation_le h i j)
  have h4 := abs_le.1 (rotation_le h k l)
  exact ⟨abs_le.2 ⟨by linarith, by linarith⟩, abs_le.2 ⟨by linarith, by linarith⟩⟩

/-- The branch of the largest diagonal element. -/
theorem largest_dev (hr : ToNearest rnd) {R R₀ : M3} {ε : ℝ} (h : IsRotation R₀) (hR : Within ε R R₀) (h0 : 0 ≤ ε) (hε : ε ≤ 1 / 64) (i j k : Fin 3)
    (ht : R₀ i i + R₀ j j + R₀ k k ≤ 3 * ε + 6 / 2 ^ 53) (hj : R j j ≤ R i i) (hk : R k k ≤ R i i) :
    9 / 10 ≤ R₀ i i - R₀ j j - R₀ k k + 1 ∧ R₀ i i - R₀ j j - R₀ k k + 1 ≤ 4 ∧
    |rnd (rnd (rnd (R i i - R j j) - R k k) + 1) - (R₀ i i - R₀ j j - R₀ k k + 1)| ≤ 3 * ε + 12 / 2 ^ 53 := by
  have i1 := abs_le.1 (hR i i)
  have j1 := abs_le.1 (hR j j)
  have k1 := abs_le.1 (hR k k)
  have i2 := abs_le.1 (rotation_le h i i)
  have j2 := abs_le.1 (rotation_le h j j)
  have k2 := abs_le.1 (rotation_le h k k)
  refine ⟨by norm_num at ht ⊢; linarith, by linarith, ?_⟩
  have a1 : |rnd (R i i - R j j) - (R₀ i i - R₀ j j)| ≤ 2 * ε + 2.1 / 2 ^ 53 :=
    rnd_step hr (abs_le.2 ⟨by linarith, by linarith⟩) (abs_le.2 ⟨by linarith, by linarith⟩)
  have a1' := abs_le.1 a1
  have a2 : |rnd (rnd (R i i - R j j) - R k k) - (R₀ i i - R₀ j j - R₀ k k)| ≤ 3 * ε + 2.1 / 2 ^ 53 + 3.1 / 2 ^ 53 :=
    rnd_step hr (abs_le.2 ⟨by linarith, by linarith⟩)
      (abs_le.2 ⟨by norm_num at a1' ⊢; linarith, by norm_num at a1' ⊢; linarith⟩)
  have a2' := abs_le.1 a2
  have a3 := rnd_step hr (x := rnd (rnd (R i i - R j j) - R k k) + 1) (y := R₀ i i - R₀ j j - R₀ k k + 1) (d := 3 * ε + 2.1 / 2 ^ 53 + 3.1 / 2 ^ 53)
    (m := 4.1) (abs_le.2 ⟨by linarith, by linarith⟩)
    (abs_le.2 ⟨by norm_num at a2' ⊢; linarith, by norm_num at a2' ⊢; linarith⟩)
  norm_num at a3 ⊢
  linarith

/-- C158: `RotationMatrixToQuaternion` in double, of a matrix within `ε` of a rotation: the result is within `4 ε` and 16 roundings of a unit quaternion of
this rotation. There is no exceptional angle. -/
theorem C158_matrix_quaternion (hr : ToNearest rnd) (hs : AnyOrder rnd sum3) {R R₀ : M3} {ε : ℝ} (h : IsRotation R₀) (hR : Within ε R R₀)
    (hε : ε ≤ 1 / 64) :
    ∃ p, Spec.IsUnit p ∧ quaternionToMatrix p = R₀ ∧ WithinQ (4 * ε + 16 / 2 ^ 53) (matrixToQuaternionR rnd sum3 R) p := by
  have h0 : 0 ≤ ε := (abs_nonneg _).trans (hR 0 0)
  have htr := sum3_dev hr hs (hR 0 0) (hR 1 1) (hR 2 2) (rotation_le h 0 0) (rotation_le h 1 1) (rotation_le h 2 2) hε
  have htr' := abs_le.1 htr
  have t0 := abs_le.1 (rotation_le h 0 0)
  have t1 := abs_le.1 (rotation_le h 1 1)
  have t2 := abs_le.1 (rotation_le h 2 2)
  unfold matrixToQuaternionR
  simp only
  by_cases ht : 0 < sum3 (R 0 0) (R 1 1) (R 2 2)
  · rw [if_pos ht]
    have hT : 9 / 10 ≤ R₀ 0 0 + R₀ 1 1 + R₀ 2 2 + 1 := by norm_num at htr' ⊢; linarith
    have hd : |rnd (sum3 (R 0 0) (R 1 1) (R 2 2) + 1) - (R₀ 0 0 + R₀ 1 1 + R₀ 2 2 + 1)| ≤ 3 * ε + 12 / 2 ^ 53 := by
      have := rnd_step hr (x := sum3 (R 0 0) (R 1 1) (R 2 2) + 1) (y := R₀ 0 0 + R₀ 1 1 + R₀ 2 2 + 1) (d := 3 * ε + 6 / 2 ^ 53) (m := 4.1)
        (abs_le.2 ⟨by linarith, by linarith⟩) (abs_le.2 ⟨by norm_num at htr' ⊢; linarith, by norm_num at htr' ⊢; linarith⟩)
      norm_num at this ⊢
      linarith
    obtain ⟨c1, c2⟩ := comp_dev hr hT (by linarith) h0 hε hd
    obtain ⟨u1, u2⟩ := quat_trace h (by linarith) rfl
    exact ⟨_, u1, u2, c1, c2 _ _ (entry_sub h hR 2 1 1 2).1 (entry_sub h hR 2 1 1 2).2, c2 _ _ (entry_sub h hR 0 2 2 0).1 (entry_sub h hR 0 2 2 0).2,
      c2 _ _ (entry_sub h hR 1 0 0 1).1 (entry_sub h hR 1 0 0 1).2⟩
  · rw [if_neg ht]
    have htr3 : R₀ 0 0 + R₀ 1 1 + R₀ 2 2 ≤ 3 * ε + 6 / 2 ^ 53 := by linarith
    have H0 : R 1 1 ≤ R 0 0 → R 2 2 ≤ R 0 0 →
        ∃ p, Spec.IsUnit p ∧ quaternionToMatrix p = R₀ ∧ WithinQ (4 * ε + 16 / 2 ^ 53) (eigenQuatLargestR rnd R 0) p := fun hj hk => by
      obtain ⟨d1, d2, d3⟩ := largest_dev hr h hR h0 hε 0 1 2 (by linarith) hj hk
      obtain ⟨c1, c2⟩ := comp_dev hr d1 d2 h0 hε d3
      obtain ⟨u1, u2⟩ := quat_largest0 h (by linarith)
      exact ⟨_, u1, u2, c2 _ _ (entry_sub h hR 2 1 1 2).1 (entry_sub h hR 2 1 1 2).2, c1,
        c2 _ _ (entry_add h hR 1 0 0 1).1 (entry_add h hR 1 0 0 1).2, c2 _ _ (entry_add h hR 2 0 0 2).1 (entry_add h hR 2 0 0 2).2⟩
    have H1 : R 2 2 ≤ R 1 1 → R 0 0 ≤ R 1 1 →
        ∃ p, Spec.IsUnit p ∧ quaternionToMatrix p = R₀ ∧ WithinQ (4 * ε + 16 / 2 ^ 53) (eigenQuatLargestR rnd R 1) p := fun hj hk => by
      obtain ⟨d1, d2, d3⟩ := largest_dev hr h hR h0 hε 1 2 0 (by linarith) hj hk
      obtain ⟨c1, c2⟩ := comp_dev hr d1 d2 h0 hε d3
      obtain ⟨u1, u2⟩ := quat_largest1 h (by linarith)
      exact ⟨_, u1, u2, c2 _ _ (entry_sub h hR 0 2 2 0).1 (entry_sub h hR 0 2 2 0).2, c2 _ _ (entry_add h hR 0 1 1 0).1 (entry_add h hR 0 1 1 0).2, c1,
        c2 _ _ (entry_add h hR 2 1 1 2).1 (entry_add h hR 2 1 1 2).2⟩
    have H2 : R 0 0 ≤ R 2 2 → R 1 1 ≤ R 2 2 →
        ∃ p, Spec.IsUnit p ∧ quaternionToMatrix p = R₀ ∧ WithinQ (4 * ε + 16 / 2 ^ 53) (eigenQuatLargestR rnd R 2) p := fun hj hk => by
      obtain ⟨d1, d2, d3⟩ := largest_dev hr h hR h0 hε 2 0 1 (by linarith) hj hk
      obtain ⟨c1, c2⟩ := comp_dev hr d1 d2 h0 hε d3
      obtain ⟨u1, u2⟩ := quat_largest2 h (by linarith)
      exact ⟨_, u1, u2, c2 _ _ (entry_sub h hR 1 0 0 1).1 (entry_sub h hR 1 0 0 1).2, c2 _ _ (entry_add h hR 0 2 2 0).1 (entry_add h hR 0 2 2 0).2,
        c2 _ _ (entry_add h hR 1 2 2 1).1 (entry_add h hR 1 2 2 1).2, c1⟩
    by_cases c1 : R 0 0 < R 1 1
    · simp only [if_pos c1]
      by_cases c2 : R 1 1 < R 2 2
      · simp only [if_pos c2]
        exact H2 (by linarith) c2.le
      · simp only [if_neg c2]
        exact H1 (not_lt.1 c2) c1.le
    · simp only [if_neg c1]
      by_cases c2 : R 0 0 < R 2 2
      · simp only [if_pos c2]
        exact H2 c2.le (by linarith)
      · simp only [if_neg c2]
        exact H0 (not_lt.1 c1) (not_lt.1 c2)

/-- C158: the norm of the result is 1, and the matrix computed from the result is the rotation, up to `17 ε` and 83 roundings. -/
theorem C158_matrix_back (hr : ToNearest rnd) (hs : AnyOrder rnd sum3) {R R₀ : M3} {ε : ℝ} (h : IsRotation R₀) (hR : Within ε R R₀)
    (hε : ε ≤ 1 / 64) :
    |normSq (matrixToQuaternionR rnd sum3 R) - 1| ≤ 17 * ε + 76 / 2 ^ 53 ∧
    Within (17 * ε + 83 / 2 ^ 53) (quaternionToMatrixR rnd (matrixToQuaternionR rnd sum3 R)) R₀ := by
  have h0 : 0 ≤ ε := (abs_nonneg _).trans (hR 0 0)
  obtain ⟨p, h1, h2, h3⟩ := C158_matrix_quaternion hr hs h hR hε
  obtain ⟨h4, h5⟩ := quat_dev h1 h3
  have e2 : 4 * (4 * ε + 16 / 2 ^ 53) + 4 * (4 * ε + 16 / 2 ^ 53) ^ 2 ≤ 17 * ε + 76 / 2 ^ 53 := by
    norm_num
    nlinarith
  have h6 := h4.trans e2
  refine ⟨h6, fun i j => ?_⟩
  rw [← h2]
  have h7 := C138_quaternion_matrix hr (matrixToQuaternionR rnd sum3 R) i j
  have h8 := (abs_le.1 h6).2
  refine (abs_sub_le _ _ _).trans ((add_le_add h7 ((h5 i j).trans e2)).trans ?_)
  norm_num at h8 ⊢
  linarith

/-- C158, there and back: a quaternion within `η` of a unit quaternion `p` comes back from its matrix within `17 η` and 44 roundings of `p` or of its opposite. -/
theorem C158_quaternion_back (hr : ToNearest rnd) (hs : AnyOrder rnd sum3) {p q : Quat} {η : ℝ} (hp : Spec.IsUnit p) (hq : WithinQ η q p)
    (hη : η ≤ 1 / 300) :
    WithinQ (17 * η + 44 / 2 ^ 53) (matrixToQuaternionR rnd sum3 (quaternionToMatrixR rnd q)) p ∨
    WithinQ (17 * η + 44 / 2 ^ 53) (matrixToQuaternionR rnd sum3 (quaternionToMatrixR rnd q)) (negQ p) := by
  have h0 : 0 ≤ η := (abs_nonneg _).trans hq.1
  obtain ⟨h4, h5⟩ := quat_dev hp hq
  have hn := (abs_le.1 h4).2
  have e1 : 4 * η + 4 * η ^ 2 ≤ 4.02 * η := by nlinarith
  have hR : Within (4.02 * η + 6 / 2 ^ 53) (quaternionToMatrixR rnd q) (quaternionToMatrix p) := fun i j => by
    have h7 := C138_quaternion_matrix hr q i j
    refine (abs_sub_le _ _ _).trans ((add_le_add h7 ((h5 i j).trans e1)).trans ?_)
    norm_num at hn e1 ⊢
    linarith
  obtain ⟨p', h1, h2, h3⟩ := C158_matrix_quaternion hr hs (C56_quaternion p hp) hR (by norm_num at hη ⊢; linarith)
  have hle : 4 * (4.02 * η + 6 / 2 ^ 53) + 16 / 2 ^ 53 ≤ 17 * η + 44 / 2 ^ 53 := by
    norm_num
    linarith
  have mono : ∀ a b : Quat, WithinQ (4 * (4.02 * η + 6 / 2 ^ 53) + 16 / 2 ^ 53) a b → WithinQ (17 * η + 44 / 2 ^ 53) a b :=
    fun a b h => ⟨h.1.trans hle, h.2.1.trans hle, h.2.2.1.trans hle, h.2.2.2.trans hle⟩
  rcases C57_only_opposite _ _ h1 hp h2 with e | e
  · exact Or.inl (e ▸ mono _ _ h3)
  · exact Or.inr (e ▸ mono _ _ h3)

/-- C158: from Euler angles through the matrix: within 96 roundings of a unit quaternion of the rotation, whatever the pitch. -/
theorem C158_euler (hr : ToNearest rnd) (hs : AnyOrder rnd sum3) {M : CMath} (hM : CMath.Close M) (e : Euler) :
    ∃ p, Spec.IsUnit p ∧ quaternionToMatrix p = zyx e ∧ WithinQ (96 / 2 ^ 53) (matrixToQuaternionR rnd sum3 (eulerToMatrixR rnd M e)) p := by
  obtain ⟨p, h1, h2, h3⟩ := C158_matrix_quaternion hr hs (zyx_rotation e) (C138_euler_matrix hr hM e) (by norm_num)
  refine ⟨p, h1, h2, ?_⟩
  norm_num at h3 ⊢
  exact h3

/-- C158 is about something: a half turn, where the trace is -1 and the quaternion has no real part, with a matrix that is not exact, and rounding to nearest. -/
example : ∃ rnd sum3, ToNearest rnd ∧ AnyOrder rnd sum3 ∧ ∃ R R₀ : M3, IsRotation R₀ ∧ R ≠ R₀ ∧ Within (1 / 100) R R₀ ∧ R₀ 0 0 + R₀ 1 1 + R₀ 2 2 = -1 := by
  refine ⟨roundNearest, fun a b c => roundNearest (a + roundNearest (b + c)), roundNearest_toNearest, fun _ _ _ => Or.inr (Or.inl rfl), ?_⟩
  refine ⟨quaternionToMatrix ⟨0, 3 / 5, 4 / 5, 0⟩ + !![1 / 200, 0, 0; 0, 0, 0; 0, 0, 0], quaternionToMatrix ⟨0, 3 / 5, 4 / 5, 0⟩,
    C56_quaternion _ (by norm_num [Spec.IsUnit]), fun e => ?_, fun i j => ?_, ?_⟩
  · have := congrFun (congrFun e 0) 0
    norm_num [quaternionToMatrix] at this
  · fin_cases i <;> fin_cases j <;> norm_num [quaternionToMatrix]
  · show (0 : ℝ) * 0 + 3 / 5 * (3 / 5) - 4 / 5 * (4 / 5) - 0 * 0 + (0 * 0 - 3 / 5 * (3 / 5) + 4 / 5 * (4 / 5) - 0 * 0)
      + (0 * 0 - 3 / 5 * (3 / 5) - 4 / 5 * (4 / 5) + 0 * 0) = -1
    norm_num

end MU
