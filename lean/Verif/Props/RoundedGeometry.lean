import Verif.Model.RoundedGeometry
import Verif.Props.Geometry
import Verif.Lemmas.Rounding

set_option linter.unusedSectionVars false

/-!
# Rotations in double arithmetic

C138.
-/

namespace MU.Spec

/-- A mathematical library with errors of a unit in the last place or so. -/
structure CMath.Close (M : CMath) : Prop where
  cos : ∀ t, |M.cos t - Real.cos t| ≤ 1 / 2 ^ 52
  sin : ∀ t, |M.sin t - Real.sin t| ≤ 1 / 2 ^ 52
  asin : ∀ t, -1 ≤ t → t ≤ 1 → |M.asin t - Real.arcsin t| ≤ 1 / 2 ^ 51
  atan2 : ∀ y x, |M.atan2 y x - Complex.arg ⟨x, y⟩| ≤ 1 / 2 ^ 51
  pow2 : ∀ x, |M.pow2 x - x ^ 2| ≤ x ^ 2 / 2 ^ 52

/-- Matrices with elements at a distance of at most `ε`. -/
def Within (ε : ℝ) (A B : M3) : Prop := ∀ i j, |A i j - B i j| ≤ ε

end MU.Spec

namespace MU
open Spec

variable {rnd : ℝ → ℝ} {M : CMath}

theorem gam_two_ge : 1 / 2 ^ 52 ≤ gam 2 := by
  unfold gam uround
  norm_num

theorem cos_near (hM : CMath.Close M) (t : ℝ) : Near 2 1 (Real.cos t) (M.cos t) :=
  ⟨by rw [mul_one]; exact (hM.cos t).trans gam_two_ge, Real.abs_cos_le_one t⟩

theorem sin_near (hM : CMath.Close M) (t : ℝ) : Near 2 1 (Real.sin t) (M.sin t) :=
  ⟨by rw [mul_one]; exact (hM.sin t).trans gam_two_ge, Real.abs_sin_le_one t⟩

theorem near_prod2 (hr : ToNearest rnd) {a b A B : ℝ} (ha : Near 2 1 A a) (hb : Near 2 1 B b) : Near 5 1 (A * B) (rnd (a * b)) := by
  have := (ha.mul hb).round hr
  rwa [mul_one] at this

theorem near_prod3 (hr : ToNearest rnd) {a b c A B C : ℝ} (ha : Near 2 1 A a) (hb : Near 2 1 B b) (hc : Near 2 1 C c) :
    Near 8 1 (A * B * C) (rnd (rnd (a * b) * c)) := by
  have := ((near_prod2 hr ha hb).mul hc).round hr
  rwa [mul_one] at this

theorem near_add (hr : ToNearest rnd) {a b A B : ℝ} (ha : Near 8 1 A a) (hb : Near 8 1 B b) : |rnd (a + b) - (A + B)| ≤ 20 / 2 ^ 53 := by
  have h1 := ((ha.add hb).round hr).err
  have h2 := gam_le (k := 9) (by norm_num)
  refine h1.trans ?_
  unfold uround at h2
  norm_num at h2 ⊢
  linarith

theorem near_sub (hr : ToNearest rnd) {a b A B : ℝ} (ha : Near 8 1 A a) (hb : Near 8 1 B b) : |rnd (a - b) - (A - B)| ≤ 20 / 2 ^ 53 := by
  rw [sub_eq_add_neg a, sub_eq_add_neg A]
  exact near_add hr ha hb.neg

theorem near_five {a A : ℝ} (ha : Near 5 1 A a) : |a - A| ≤ 20 / 2 ^ 53 := by
  have h1 := ha.err
  have h2 := gam_le (k := 5) (by norm_num)
  refine h1.trans ?_
  unfold uround at h2
  norm_num at h2 ⊢
  linarith

/-! ## Euler angles -/

/-- C138: the matrix of Euler angles is that of the rotation about the three axes, up to 20 roundings. -/
theorem C138_euler_matrix (hr : ToNearest rnd) (hM : CMath.Close M) (e : Euler) : Within (20 / 2 ^ 53) (eulerToMatrixR rnd M e) (zyx e) := by
  rw [← C56_zyx]
  have c := cos_near hM
  have s := sin_near hM
  have u5 : ∀ {a A}, Near 5 1 A a → Near 8 1 A a := fun h => h.upto (by norm_num)
  intro i j
  unfold eulerToMatrixR eulerToMatrix
  fin_cases i <;> fin_cases j
  · exact near_five (near_prod2 hr (c _) (c _))
  · exact near_sub hr (near_prod3 hr (c _) (s _) (s _)) (u5 (near_prod2 hr (s _) (c _)))
  · exact near_add hr (near_prod3 hr (c _) (s _) (c _)) (u5 (near_prod2 hr (s _) (s _)))
  · exact near_five (near_prod2 hr (s _) (c _))
  · exact near_add hr (near_prod3 hr (s _) (s _) (s _)) (u5 (near_prod2 hr (c _) (c _)))
  · exact near_sub hr (near_prod3 hr (s _) (s _) (c _)) (u5 (near_prod2 hr (c _) (s _)))
  · exact near_five ((s e.p).neg.upto (by norm_num))
  · exact near_five (near_prod2 hr (c _) (s _))
  · exact near_five (near_prod2 hr (c _) (c _))

theorem double_half_euler {y : ℝ} (h : Double y) : Double (y / 2) := by
  obtain ⟨m, e, hm, rfl⟩ := h
  refine ⟨m, e - 1, hm, ?_⟩
  rw [zpow_sub_one₀ (by norm_num)]
  ring

theorem double_two_mul {y : ℝ} (h : Double y) : Double (2 * y) := by
  obtain ⟨m, e, hm, rfl⟩ := h
  refine ⟨m, e + 1, hm, ?_⟩
  rw [zpow_add_one₀ (by norm_num)]
  ring

/-- The three angles are numbers of type double. -/
def Spec.DoubleE (e : Euler) : Prop := Double e.r ∧ Double e.p ∧ Double e.y

/-- The four components are at a distance of at most `ε`. -/
def Spec.WithinQ (ε : ℝ) (p q : Quat) : Prop := |p.w - q.w| ≤ ε ∧ |p.x - q.x| ≤ ε ∧ |p.y - q.y| ≤ ε ∧ |p.z - q.z| ≤ ε

/-- C138: the quaternion of Euler angles is within 20 roundings of the unit quaternion of the rotation. -/
theorem C138_euler_quaternion (hr : ToNearest rnd) (hM : CMath.Close M) {e : Euler} (he : DoubleE e) :
    ∃ q, Spec.IsUnit q ∧ quaternionToMatrix q = zyx e ∧ WithinQ (20 / 2 ^ 53) (eulerToQuaternionR rnd M e) q := by
  refine ⟨eulerToQuaternion e, C56_unit e, by rw [C57_euler_quaternion_matrix, C56_zyx], ?_⟩
  have c := cos_near hM
  have s := sin_near hM
  unfold eulerToQuaternionR eulerToQuaternion
  rw [toNearest_double hr (double_half_euler he.1), toNearest_double hr (double_half_euler he.2.1), toNearest_double hr (double_half_euler he.2.2)]
  exact ⟨near_add hr (near_prod3 hr (c _) (c _) (c _)) (near_prod3 hr (s _) (s _) (s _)),
    near_sub hr (near_prod3 hr (s _) (c _) (c _)) (near_prod3 hr (c _) (s _) (s _)),
    near_add hr (near_prod3 hr (c _) (s _) (c _)) (near_prod3 hr (s _) (c _) (s _)),
    near_sub hr (near_prod3 hr (c _) (c _) (s _)) (near_prod3 hr (s _) (s _) (c _))⟩

/-! ## Quaternions -/

/-- The square of the norm. -/
def Spec.normSq (q : Quat) : ℝ := q.w ^ 2 + q.x ^ 2 + q.y ^ 2 + q.z ^ 2

theorem near_sq (hr : ToNearest rnd) (a : ℝ) : Near 1 (a ^ 2) (a * a) (rnd (a * a)) := by
  have := (Near.exact (a * a)).round hr
  rw [abs_of_nonneg (mul_self_nonneg a)] at this
  rwa [sq]

theorem near_cross (hr : ToNearest rnd) (a b : ℝ) : Near 2 (a ^ 2 + b ^ 2) (2 * a * b) (rnd (rnd (2 * a) * b)) := by
  have := (((Near.exact (2 * a)).round hr).mul (Near.exact b)).round hr
  refine this.mono (by norm_num) ?_
  rw [abs_mul, abs_two, ← sq_abs a, ← sq_abs b]
  nlinarith [sq_nonneg (|a| - |b|)]

theorem near_N {k : ℕ} {Q P r N : ℝ} (h : Near k Q P r) (hk : k ≤ 4) (hQ : Q ≤ N) : |r - P| ≤ 5 / 2 ^ 53 * N := by
  have h1 := (h.mono hk hQ).err
  have h2 := gam_le (k := 4) (by norm_num)
  refine h1.trans (mul_le_mul_of_nonneg_right ?_ (h.nonneg.trans hQ))
  unfold uround at h2
  norm_num at h2 ⊢
  linarith

/-- C138: the elements of the matrix of a quaternion, up to 5 roundings of the square of its norm. -/
theorem C138_quaternion_matrix (hr : ToNearest rnd) (q : Quat) :
    Within (5 / 2 ^ 53 * normSq q) (quaternionToMatrixR rnd q) (quaternionToMatrix q) := by
  have s := near_sq hr
  have x := near_cross hr
  have w0 := sq_nonneg q.w
  have x0 := sq_nonneg q.x
  have y0 := sq_nonneg q.y
  have z0 := sq_nonneg q.z
  intro i j
  unfold quaternionToMatrixR quaternionToMatrix
  fin_cases i <;> fin_cases j
  · exact near_N (((((((s q.w).add (s q.x)).round hr).sub ((s q.y).upto (by norm_num))).round hr).sub ((s q.z).upto (by norm_num))).round hr) le_rfl
      (by unfold normSq; linarith)
  · exact near_N (((x q.x q.y).sub (x q.w q.z)).round hr) (by norm_num) (by unfold normSq; linarith)
  · exact near_N (((x q.w q.y).add (x q.x q.z)).round hr) (by norm_num) (by unfold normSq; linarith)
  · exact near_N (((x q.w q.z).add (x q.x q.y)).round hr) (by norm_num) (by unfold normSq; linarith)
  · exact near_N (((((((s q.w).sub (s q.x)).round hr).add ((s q.y).upto (by norm_num))).round hr).sub ((s q.z).upto (by norm_num))).round hr) le_rfl
      (by unfold normSq; linarith)
  · exact near_N (((x q.y q.z).sub (x q.w q.x)).round hr) (by norm_num) (by unfold normSq; linarith)
  · exact near_N (((x q.x q.z).sub (x q.w q.y)).round hr) (by norm_num) (by unfold normSq; linarith)
  · exact near_N (((x q.w q.x).add (x q.y q.z)).round hr) (by norm_num) (by unfold normSq; linarith)
  · exact near_N (((((((s q.w).sub (s q.x)).round hr).sub ((s q.y).upto (by norm_num))).round hr).add ((s q.z).upto (by norm_num))).round hr) le_rfl
      (by unfold normSq; linarith)

theorem mul_dev {a b A B e : ℝ} (ha : |a - A| ≤ e) (hb : |b - B| ≤ e) : |a * b - A * B| ≤ e * |A| + e * |B| + e ^ 2 := by
  have he := (abs_nonneg _).trans ha
  rw [show a * b - A * B = (a - A) * B + A * (b - B) + (a - A) * (b - B) by ring]
  have h1 : |(a - A) * B| ≤ e * |B| := by
    rw [abs_mul]
    exact mul_le_mul_of_nonneg_right ha (abs_nonneg _)
  have h2 : |A * (b - B)| ≤ e * |A| := by
    rw [abs_mul, mul_comm]
    exact mul_le_mul_of_nonneg_right hb (abs_nonneg _)
  have h3 : |(a - A) * (b - B)| ≤ e ^ 2 := by
    rw [abs_mul, sq]
    exact mul_le_mul ha hb (abs_nonneg _) he
  have := abs_add_three ((a - A) * B) (A * (b - B)) ((a - A) * (b - B))
  linarith

theorem unit_sum {p : Quat} (hp : Spec.IsUnit p) : |p.w| + |p.x| + |p.y| + |p.z| ≤ 2 := by
  unfold Spec.IsUnit at hp
  rw [← sq_abs p.w, ← sq_abs p.x, ← sq_abs p.y, ← sq_abs p.z] at hp
  nlinarith [sq_nonneg (|p.w| - 1 / 2), sq_nonneg (|p.x| - 1 / 2), sq_nonneg (|p.y| - 1 / 2), sq_nonneg (|p.z| - 1 / 2)]

/-- A quaternion near a unit quaternion. -/
theorem quat_dev {p q : Quat} {e : ℝ} (hp : Spec.IsUnit p) (h : WithinQ e q p) :
    |normSq q - 1| ≤ 4 * e + 4 * e ^ 2 ∧ Within (4 * e + 4 * e ^ 2) (quaternionToMatrix q) (quaternionToMatrix p) := by
  obtain ⟨hw, hx, hy, hz⟩ := h
  have he := (abs_nonneg _).trans hw
  have hs := mul_le_mul_of_nonneg_left (unit_sum hp) he
  have ww := abs_le.1 (mul_dev hw hw)
  have xx := abs_le.1 (mul_dev hx hx)
  have yy := abs_le.1 (mul_dev hy hy)
  have zz := abs_le.1 (mul_dev hz hz)
  have wx := abs_le.1 (mul_dev hw hx)
  have wy := abs_le.1 (mul_dev hw hy)
  have wz := abs_le.1 (mul_dev hw hz)
  have xy := abs_le.1 (mul_dev hx hy)
  have xz := abs_le.1 (mul_dev hx hz)
  have yz := abs_le.1 (mul_dev hy hz)
  constructor
  · unfold Spec.IsUnit at hp
    unfold normSq
    rw [abs_le]
    constructor <;> nlinarith
  · intro i j
    rw [abs_le]
    unfold quaternionToMatrix
    fin_cases i <;> fin_cases j <;> simp <;> constructor <;> linarith

/-- C138: the matrix of the quaternion of Euler angles. -/
theorem C138_euler_quaternion_matrix (hr : ToNearest rnd) (hM : CMath.Close M) {e : Euler} (he : DoubleE e) :
    Within (90 / 2 ^ 53) (quaternionToMatrixR rnd (eulerToQuaternionR rnd M e)) (zyx e) := by
  obtain ⟨p, h1, h2, h3⟩ := C138_euler_quaternion hr hM he
  obtain ⟨h4, h5⟩ := quat_dev h1 h3
  rw [← h2]
  intro i j
  have h6 := C138_quaternion_matrix hr (eulerToQuaternionR rnd M e) i j
  have h7 := (abs_le.1 h4).2
  refine (abs_sub_le _ _ _).trans ((add_le_add h6 (h5 i j)).trans ?_)
  norm_num at h7 ⊢
  linarith

/-! ## Orthogonality -/

/-- The elements of `R Rᵀ` are at a distance of at most `ε` from those of the identity, and the determinant is within `ε` of 1. -/
structure Spec.NearRotation (ε : ℝ) (R : M3) : Prop where
  orth : Within ε (R * R.transpose) 1
  det : |R.det - 1| ≤ ε

theorem rotation_le {R : M3} (h : IsRotation R) (i j : Fin 3) : |R i j| ≤ 1 := by
  have := h.row i i
  rw [if_pos rfl] at this
  rw [← sq_le_one_iff_abs_le_one]
  have k : R i 0 ^ 2 ≤ 1 ∧ R i 1 ^ 2 ≤ 1 ∧ R i 2 ^ 2 ≤ 1 := by
    refine ⟨?_, ?_, ?_⟩ <;> nlinarith [sq_nonneg (R i 0), sq_nonneg (R i 1), sq_nonneg (R i 2)]
  fin_cases j
  exacts [k.1, k.2.1, k.2.2]

theorem mul3_dev {a b c A B C e : ℝ} (ha : |a - A| ≤ e) (hb : |b - B| ≤ e) (hc : |c - C| ≤ e) (hA : |A| ≤ 1) (hB : |B| ≤ 1) (hC : |C| ≤ 1) (he : e ≤ 1 / 8) :
    |a * b * c - A * B * C| ≤ 4 * e := by
  have he0 := (abs_nonneg _).trans ha
  have h1 : |a * b - A * B| ≤ 2 * e + e ^ 2 := by
    have := mul_dev ha hb
    nlinarith
  have hc' : |c| ≤ 1 + e := by
    have := abs_add_le (c - C) C
    rw [sub_add_cancel] at this
    linarith
  rw [show a * b * c - A * B * C = (a * b - A * B) * c + A * B * (c - C) by ring]
  refine (abs_add_le _ _).trans ?_
  rw [abs_mul, abs_mul, abs_mul]
  have h2 : |a * b - A * B| * |c| ≤ (2 * e + e ^ 2) * (1 + e) := mul_le_mul h1 hc' (abs_nonneg _) (by positivity)
  have h3 : |A| * |B| * |c - C| ≤ 1 * e := mul_le_mul (mul_le_one₀ hA (abs_nonneg _) hB) hc (abs_nonneg _) zero_le_one
  nlinarith

/-- A matrix near a rotation. -/
theorem near_rotation {R R₀ : M3} {e : ℝ} (h : IsRotation R₀) (hR : Within e R R₀) (he : e ≤ 1 / 8) : NearRotation (24 * e) R := by
  have b := rotation_le h
  have he0 := (abs_nonneg _).trans (hR 0 0)
  refine ⟨fun i j => ?_, ?_⟩
  · rw [← h.orth]
    have d : ∀ k, |R i k * R j k - R₀ i k * R₀ j k| ≤ 8 * e := fun k => by
      have := mul_dev (hR i k) (hR j k)
      nlinarith [b i k, b j k]
    simp only [Matrix.mul_apply, Fin.sum_univ_three, Matrix.transpose_apply]
    have d0 := abs_le.1 (d 0)
    have d1 := abs_le.1 (d 1)
    have d2 := abs_le.1 (d 2)
    exact abs_le.2 ⟨by linarith, by linarith⟩
  · rw [← h.det, Matrix.det_fin_three, Matrix.det_fin_three]
    have t : ∀ i j k l m n, |R i j * R k l * R m n - R₀ i j * R₀ k l * R₀ m n| ≤ 4 * e := fun i j k l m n =>
      mul3_dev (hR i j) (hR k l) (hR m n) (b i j) (b k l) (b m n) he
    have t1 := abs_le.1 (t 0 0 1 1 2 2)
    have t2 := abs_le.1 (t 0 0 1 2 2 1)
    have t3 := abs_le.1 (t 0 1 1 0 2 2)
    have t4 := abs_le.1 (t 0 1 1 2 2 0)
    have t5 := abs_le.1 (t 0 2 1 0 2 1)
    have t6 := abs_le.1 (t 0 2 1 1 2 0)
    exact abs_le.2 ⟨by linarith, by linarith⟩

theorem zyx_rotation (e : Euler) : IsRotation (zyx e) := by
  rw [← C56_zyx]
  exact C56_euler e

theorem NearRotation.mono {ε ε' : ℝ} {R : M3} (h : NearRotation ε R) (hε : ε ≤ ε') : NearRotation ε' R :=
  ⟨fun i j => (h.orth i j).trans hε, h.det.trans hε⟩

/-- C138: the matrix of Euler angles is orthogonal with determinant one up to `10^(-13)`. -/
theorem C138_euler_orthogonal (hr : ToNearest rnd) (hM : CMath.Close M) (e : Euler) : NearRotation (1 / 10 ^ 13) (eulerToMatrixR rnd M e) :=
  NearRotation.mono (near_rotation (zyx_rotation e) (C138_euler_matrix hr hM e) (by norm_num)) (by norm_num)

/-- A quaternion that is `t` times the unit quaternion `p`. -/
def Spec.Multiple (t : ℝ) (p q : Quat) : Prop := q.w = t * p.w ∧ q.x = t * p.x ∧ q.y = t * p.y ∧ q.z = t * p.z

theorem multiple_matrix {t : ℝ} {p q : Quat} (h : Multiple t p q) : quaternionToMatrix q = t ^ 2 • quaternionToMatrix p := by
  obtain ⟨h1, h2, h3, h4⟩ := h
  unfold quaternionToMatrix
  rw [h1, h2, h3, h4]
  ext i j
  fin_cases i <;> fin_cases j <;> simp <;> ring

theorem multiple_normSq {t : ℝ} {p q : Quat} (hp : Spec.IsUnit p) (h : Multiple t p q) : normSq q = t ^ 2 := by
  obtain ⟨h1, h2, h3, h4⟩ := h
  unfold Spec.IsUnit at hp
  unfold normSq
  rw [h1, h2, h3, h4]
  linear_combination t ^ 2 * hp

/-- C138: the matrix of a quaternion with a norm near 1 is that of the rotation, up to the departure of the square of the norm from 1 and to rounding. -/
theorem C138_quaternion_rotation (hr : ToNearest rnd) {p q : Quat} {t η : ℝ} (hp : Spec.IsUnit p) (hq : Multiple t p q) (ht : |t ^ 2 - 1| ≤ η)
    (hη : η ≤ 1 / 2) : Within (η + 8 / 2 ^ 53) (quaternionToMatrixR rnd q) (quaternionToMatrix p) := by
  intro i j
  have h1 := C138_quaternion_matrix hr q i j
  rw [multiple_normSq hp hq, multiple_matrix hq, Matrix.smul_apply, smul_eq_mul] at h1
  have h2 : |t ^ 2 * quaternionToMatrix p i j - quaternionToMatrix p i j| ≤ η := by
    rw [← sub_one_mul, abs_mul]
    exact (mul_le_of_le_one_right (abs_nonneg _) (rotation_le (C56_quaternion p hp) i j)).trans ht
  have h3 := (abs_le.1 ht).2
  refine (abs_sub_le _ _ _).trans ((add_le_add h1 h2).trans ?_)
  norm_num
  linarith

/-- C138: it is orthogonal with determinant one up to 24 times as much. -/
theorem C138_quaternion_orthogonal (hr : ToNearest rnd) {p q : Quat} {t η : ℝ} (hp : Spec.IsUnit p) (hq : Multiple t p q) (ht : |t ^ 2 - 1| ≤ η)
    (hη : η ≤ 1 / 16) : NearRotation (24 * (η + 8 / 2 ^ 53)) (quaternionToMatrixR rnd q) :=
  near_rotation (C56_quaternion p hp) (C138_quaternion_rotation hr hp hq ht (by linarith)) (by norm_num; linarith)

/-! ## Extraction of Euler angles -/

/-- The norm of a point of the plane near another one. -/
theorem norm_dev {x y X Y d n ρ : ℝ} (hx : |x - X| ≤ d) (hy : |y - Y| ≤ d) (hn : 0 ≤ n) (hnn : n ^ 2 = x ^ 2 + y ^ 2) (hρ : 0 ≤ ρ)
    (h : X ^ 2 + Y ^ 2 = ρ ^ 2) : |n - ρ| ≤ 2 * d := by
  have hd := (abs_nonneg _).trans hx
  have h1 : (n - ρ) ^ 2 ≤ (x - X) ^ 2 + (y - Y) ^ 2 := by
    have : (x * X + y * Y) ^ 2 ≤ (n * ρ) ^ 2 := by
      rw [mul_pow, hnn, ← h]
      nlinarith [sq_nonneg (x * Y - y * X)]
    have h2 : x * X + y * Y ≤ n * ρ := (le_abs_self _).trans (abs_le_of_sq_le_sq this (by positivity))
    nlinarith
  have h2 : (x - X) ^ 2 ≤ d ^ 2 := sq_le_sq' (abs_le.1 hx).1 (abs_le.1 hx).2
  have h3 : (y - Y) ^ 2 ≤ d ^ 2 := sq_le_sq' (abs_le.1 hy).1 (abs_le.1 hy).2
  exact abs_le_of_sq_le_sq (by nlinarith) (by positivity)

/-- The direction of a point of the plane near another one. -/
theorem dir_dev {x y X Y d ρ : ℝ} (hx : |x - X| ≤ d) (hy : |y - Y| ≤ d) (hρ : 0 < ρ) (h : X ^ 2 + Y ^ 2 = ρ ^ 2) :
    |Real.cos (atan2 y x) - X / ρ| ≤ 3 * d / ρ ∧ |Real.sin (atan2 y x) - Y / ρ| ≤ 3 * d / ρ := by
  have hc := atan2_cos (x := x) (y := y)
  have hs := atan2_sin (x := x) (y := y)
  have hd := (abs_nonneg _).trans hx
  set n := Real.sqrt (x ^ 2 + y ^ 2) with hn
  have hn0 : 0 ≤ n := Real.sqrt_nonneg _
  have hnn : n ^ 2 = x ^ 2 + y ^ 2 := Real.sq_sqrt (by positivity)
  have hnr : |n - ρ| ≤ 2 * d := norm_dev hx hy hn0 hnn hρ.le h
  have key : ∀ {C x X : ℝ}, C * n = x → |x - X| ≤ d → |C| ≤ 1 → |C - X / ρ| ≤ 3 * d / ρ := fun {C x X} h1 h2 h3 => by
    rw [show C - X / ρ = (C * (ρ - n) + (x - X)) / ρ by rw [← h1]; field_simp; ring, abs_div, abs_of_pos hρ]
    gcongr
    refine (abs_add_le _ _).trans ?_
    rw [abs_mul, abs_sub_comm ρ]
    have := mul_le_mul h3 hnr (abs_nonneg _) zero_le_one
    linarith
  exact ⟨key hc hx (Real.abs_cos_le_one _), key hs hy (Real.abs_sin_le_one _)⟩

theorem cos_lip (a b : ℝ) : |Real.cos a - Real.cos b| ≤ |a - b| := Real.abs_cos_sub_cos_le a b

theorem sin_lip (a b : ℝ) : |Real.sin a - Real.sin b| ≤ |a - b| := Real.abs_sin_sub_sin_le a b

/-- Angles whose cosines and sines are near those of `e`. -/
structure NearAngles (c : ℝ) (e' e : Euler) : Prop where
  cr : |Real.cos e'.r - Real.cos e.r| ≤ c
  sr : |Real.sin e'.r - Real.sin e.r| ≤ c
  cp : |Real.cos e'.p - Real.cos e.p| ≤ c
  sp : |Real.sin e'.p - Real.sin e.p| ≤ c
  cy : |Real.cos e'.y - Real.cos e.y| ≤ c
  sy : |Real.sin e'.y - Real.sin e.y| ≤ c

theorem unit_mul2 {a b A B c : ℝ} (hb : |b| ≤ 1) (hA : |A| ≤ 1) (h1 : |a - A| ≤ c) (h2 : |b - B| ≤ c) : |a * b - A * B| ≤ 2 * c := by
  rw [show a * b - A * B = (a - A) * b + A * (b - B) by ring]
  refine (abs_add_le _ _).trans ?_
  rw [abs_mul, abs_mul]
  have h3 := mul_le_of_le_one_right (abs_nonneg (a - A)) hb
  have h4 := mul_le_of_le_one_left (abs_nonneg (b - B)) hA
  linarith

theorem unit_mul3 {a b d A B D c : ℝ} (hb : |b| ≤ 1) (hd : |d| ≤ 1) (hA : |A| ≤ 1) (hB : |B| ≤ 1) (h1 : |a - A| ≤ c) (h2 : |b - B| ≤ c) (h3 : |d - D| ≤ c) :
    |a * b * d - A * B * D| ≤ 3 * c := by
  rw [show a * b * d - A * B * D = (a * b - A * B) * d + A * B * (d - D) by ring]
  refine (abs_add_le _ _).trans ?_
  have h4 := unit_mul2 hb hA h1 h2
  have hAB : |A * B| ≤ 1 := by
    rw [abs_mul]
    exact mul_le_one₀ hA (abs_nonneg _) hB
  rw [abs_mul, abs_mul (A * B)]
  have h5 := mul_le_of_le_one_right (abs_nonneg (a * b - A * B)) hd
  have h6 := mul_le_of_le_one_left (abs_nonneg (d - D)) hAB
  linarith

theorem near_angles {c : ℝ} {e' e : Euler} (h : NearAngles c e' e) : Within (5 * c) (zyx e') (zyx e) := by
  rw [← C56_zyx, ← C56_zyx]
  obtain ⟨cr, sr, cp, sp, cy, sy⟩ := h
  have bc := Real.abs_cos_le_one
  have bs := Real.abs_sin_le_one
  have hc := (abs_nonneg _).trans cr
  have d2 : ∀ {x : ℝ}, x ≤ 2 * c → x ≤ 5 * c := fun h => by linarith
  have add : ∀ {a b A B : ℝ}, |a - A| ≤ 3 * c → |b - B| ≤ 2 * c → |a + b - (A + B)| ≤ 5 * c := fun h1 h2 => by
    rw [add_sub_add_comm]
    exact (abs_add_le _ _).trans (by linarith)
  have sub : ∀ {a b A B : ℝ}, |a - A| ≤ 3 * c → |b - B| ≤ 2 * c → |a - b - (A - B)| ≤ 5 * c := fun h1 h2 => by
    rw [sub_sub_sub_comm]
    exact (abs_sub _ _).trans (by linarith)
  intro i j
  unfold eulerToMatrix
  fin_cases i <;> fin_cases j
  · exact d2 (unit_mul2 (bc _) (bc _) cy cp)
  · exact sub (unit_mul3 (bs _) (bs _) (bc _) (bs _) cy sp sr) (unit_mul2 (bc _) (bs _) sy cr)
  · exact add (unit_mul3 (bs _) (bc _) (bc _) (bs _) cy sp cr) (unit_mul2 (bs _) (bs _) sy sr)
  · exact d2 (unit_mul2 (bc _) (bs _) sy cp)
  · exact add (unit_mul3 (bs _) (bs _) (bs _) (bs _) sy sp sr) (unit_mul2 (bc _) (bc _) cy cr)
  · exact sub (unit_mul3 (bs _) (bc _) (bs _) (bs _) sy sp cr) (unit_mul2 (bs _) (bc _) cy sr)
  · show |-Real.sin e'.p - -Real.sin e.p| ≤ 5 * c
    rw [neg_sub_neg, abs_sub_comm]
    linarith
  · exact d2 (unit_mul2 (bs _) (bc _) cp sr)
  · exact d2 (unit_mul2 (bc _) (bc _) cp cr)

/-- The cosines and sines of the Euler angles of a rotation. -/
theorem angles_of_rotation {R : M3} (h : IsRotation R) {γ : ℝ} (hγ : 0 < γ) (hR : R 2 1 ^ 2 + R 2 2 ^ 2 = γ ^ 2) :
    zyx (matrixToEuler R) = R ∧ γ ≤ 1 ∧ R 0 0 ^ 2 + R 1 0 ^ 2 = γ ^ 2 ∧ γ ^ 2 + R 2 0 ^ 2 = 1 ∧
    Real.cos (matrixToEuler R).r = R 2 2 / γ ∧ Real.sin (matrixToEuler R).r = R 2 1 / γ ∧
    Real.cos (matrixToEuler R).p = γ ∧ Real.sin (matrixToEuler R).p = -R 2 0 ∧
    Real.cos (matrixToEuler R).y = R 0 0 / γ ∧ Real.sin (matrixToEuler R).y = R 1 0 / γ := by
  have b0 := h.row 2 2
  have c0 := h.col 0 0
  simp at b0 c0
  have e1 : R 0 0 ^ 2 + R 1 0 ^ 2 = γ ^ 2 := by nlinarith
  have e2 : γ ^ 2 + R 2 0 ^ 2 = 1 := by nlinarith
  have hsq : Real.sqrt (γ ^ 2) = γ := Real.sqrt_sq hγ.le
  have r1 := atan2_sin (x := R 2 2) (y := R 2 1)
  have r2 := atan2_cos (x := R 2 2) (y := R 2 1)
  rw [add_comm, hR, hsq] at r1 r2
  have p1 := atan2_sin (x := γ) (y := R 2 0)
  have p2 := atan2_cos (x := γ) (y := R 2 0)
  rw [e2, Real.sqrt_one, mul_one] at p1 p2
  have y1 := atan2_sin (x := R 0 0) (y := R 1 0)
  have y2 := atan2_cos (x := R 0 0) (y := R 1 0)
  rw [e1, hsq] at y1 y2
  refine ⟨?_, by nlinarith [sq_nonneg (R 2 0)], e1, e2, ?_, ?_, ?_, ?_, ?_, ?_⟩
  · rw [← C56_zyx]
    refine (C75_matrix_euler_partial R h ?_).1
    by_contra hc
    push Not at hc
    rw [hc.1, hc.2] at hR
    nlinarith
  · exact eq_div_of_mul_eq hγ.ne' r2
  · exact eq_div_of_mul_eq hγ.ne' r1
  · show Real.cos (-atan2 (R 2 0) (Real.sqrt (R 2 1 ^ 2 + R 2 2 ^ 2))) = γ
    rw [hR, hsq, Real.cos_neg, p2]
  · show Real.sin (-atan2 (R 2 0) (Real.sqrt (R 2 1 ^ 2 + R 2 2 ^ 2))) = -R 2 0
    rw [hR, hsq, Real.sin_neg, p1]
  · exact eq_div_of_mul_eq hγ.ne' y2
  · exact eq_div_of_mul_eq hγ.ne' y1

theorem cos_near_of {a b X c d : ℝ} (h : |a - b| ≤ d) (hb : |Real.cos b - X| ≤ c) : |Real.cos a - X| ≤ c + d := by
  have := abs_sub_le (Real.cos a) (Real.cos b) X
  linarith [cos_lip a b]

theorem sin_near_of {a b X c d : ℝ} (h : |a - b| ≤ d) (hb : |Real.sin b - X| ≤ c) : |Real.sin a - X| ≤ c + d := by
  have := abs_sub_le (Real.sin a) (Real.sin b) X
  linarith [sin_lip a b]

/-- The rounded square root of the rounded sum of squares. -/
theorem hypot_dev (hr : ToNearest rnd) (hM : CMath.Close M) {a b n : ℝ} (hn : 0 ≤ n) (hnn : n ^ 2 = a ^ 2 + b ^ 2) :
    |rnd (Real.sqrt (rnd (M.pow2 a + M.pow2 b))) - n| ≤ 6 / 2 ^ 53 * n := by
  have hp : ∀ x, Near 2 (x ^ 2) (x ^ 2) (M.pow2 x) := fun x => by
    refine ⟨(hM.pow2 x).trans ?_, by rw [abs_of_nonneg (sq_nonneg x)]⟩
    have := mul_le_mul_of_nonneg_right gam_two_ge (sq_nonneg x)
    linarith
  have h1 := (((hp a).add (hp b)).round hr).err
  rw [← hnn] at h1
  have h2 := gam_le (k := 3) (by norm_num)
  set S := rnd (M.pow2 a + M.pow2 b) with hS
  have h3 : |S - n ^ 2| ≤ 4 / 2 ^ 53 * n ^ 2 := h1.trans (mul_le_mul_of_nonneg_right (by unfold uround at h2; norm_num at h2 ⊢; linarith) (sq_nonneg n))
  have hS0 : 0 ≤ S := by
    have := (abs_le.1 h3).1
    nlinarith [sq_nonneg n]
  have hq : |Real.sqrt S - n| ≤ 4 / 2 ^ 53 * n := by
    have hs0 := Real.sqrt_nonneg S
    have hs2 := Real.sq_sqrt hS0
    rcases hn.eq_or_lt with h0 | h0
    · rw [← h0] at h3 ⊢
      have : S = 0 := by simpa using h3
      rw [this]
      simp
    · have e : Real.sqrt S - n = (S - n ^ 2) / (Real.sqrt S + n) := by
        rw [eq_div_iff (by positivity)]
        nlinarith
      rw [e, abs_div, abs_of_pos (by positivity : 0 < Real.sqrt S + n), div_le_iff₀ (by positivity)]
      refine h3.trans ?_
      nlinarith [mul_nonneg hn hs0]
  have h4 := toNearest_err hr (Real.sqrt S)
  rw [abs_sub_comm] at h4
  have h5 : |Real.sqrt S| ≤ (1 + 4 / 2 ^ 53) * n := by
    have := abs_add_le (Real.sqrt S - n) n
    rw [sub_add_cancel, abs_of_nonneg hn] at this
    linarith
  have h6 := abs_sub_le (rnd (Real.sqrt S)) (Real.sqrt S) n
  have h7 : |Real.sqrt S| / 2 ^ 53 ≤ (1 + 4 / 2 ^ 53) * n / 2 ^ 53 := by gcongr
  norm_num at h4 h5 h6 h7 hq ⊢
  linarith

/-- C138: the Euler angles of a matrix near a rotation describe that rotation. The error grows as the pitch nears 90 degrees, whose cosine is `γ`. -/
theorem C138_matrix_angles (hr : ToNearest rnd) (hM : CMath.Close M) {R R₀ : M3} {ε γ : ℝ} (h : IsRotation R₀) (hR : Within ε R R₀) (hε : ε ≤ 1 / 8)
    (hγ : 0 < γ) (hγ2 : R₀ 2 1 ^ 2 + R₀ 2 2 ^ 2 = γ ^ 2) : Within (30 * ε / γ + 140 / 2 ^ 53) (zyx (matrixToEulerR rnd M R)) R₀ := by
  obtain ⟨e0, hγ1, e1, e2, cr, sr, cp, sp, cy, sy⟩ := angles_of_rotation h hγ hγ2
  have hε0 := (abs_nonneg _).trans (hR 0 0)
  have d1 := dir_dev (hR 2 2) (hR 2 1) hγ (by rw [← hγ2]; ring)
  have d2 := dir_dev (hR 0 0) (hR 1 0) hγ e1
  set n := Real.sqrt (R 2 1 ^ 2 + R 2 2 ^ 2) with hn
  have hn0 : 0 ≤ n := Real.sqrt_nonneg _
  have hnn : n ^ 2 = R 2 1 ^ 2 + R 2 2 ^ 2 := Real.sq_sqrt (by positivity)
  have hnγ := norm_dev (hR 2 1) (hR 2 2) hn0 hnn hγ.le hγ2
  have hx : |rnd (Real.sqrt (rnd (M.pow2 (R 2 1) + M.pow2 (R 2 2)))) - γ| ≤ 2 * ε + 8 / 2 ^ 53 := by
    have k1 := hypot_dev hr hM hn0 hnn
    have k2 := (abs_le.1 hnγ).2
    have k3 : 6 / 2 ^ 53 * n ≤ 8 / 2 ^ 53 := by
      norm_num
      linarith
    have := abs_sub_le (rnd (Real.sqrt (rnd (M.pow2 (R 2 1) + M.pow2 (R 2 2))))) n γ
    linarith
  have d3 := dir_dev hx ((hR 2 0).trans (by norm_num; linarith)) one_pos (by rw [e2]; norm_num)
  simp only [div_one] at d3
  have m := hM.atan2
  have hdiv : ε ≤ ε / γ := by
    rw [le_div_iff₀ hγ]
    nlinarith
  have hdiv3 : 3 * ε / γ = 3 * (ε / γ) := by ring
  have hdiv30 : 30 * ε / γ = 30 * (ε / γ) := by ring
  have key : NearAngles (6 * (ε / γ) + 28 / 2 ^ 53) (matrixToEulerR rnd M R) (matrixToEuler R₀) := by
    refine ⟨?_, ?_, ?_, ?_, ?_, ?_⟩
    · rw [cr]
      refine (cos_near_of (m _ _) d1.1).trans ?_
      norm_num
      linarith
    · rw [sr]
      refine (sin_near_of (m _ _) d1.2).trans ?_
      norm_num
      linarith
    · rw [cp]
      show |Real.cos (-_) - γ| ≤ _
      rw [Real.cos_neg]
      refine (cos_near_of (m _ _) d3.1).trans ?_
      norm_num
      linarith
    · rw [sp]
      show |Real.sin (-_) - -R₀ 2 0| ≤ _
      rw [Real.sin_neg, neg_sub_neg, abs_sub_comm]
      refine (sin_near_of (m _ _) d3.2).trans ?_
      norm_num
      linarith
    · rw [cy]
      refine (cos_near_of (m _ _) d2.1).trans ?_
      norm_num
      linarith
    · rw [sy]
      refine (sin_near_of (m _ _) d2.2).trans ?_
      norm_num
      linarith
  have := near_angles key
  rw [e0] at this
  intro i j
  refine (this i j).trans ?_
  rw [hdiv30]
  norm_num
  linarith

/-- The cosine of the arc sine away from 1. -/
theorem cos_arcsin_dev {a A γ ε : ℝ} (hγ : 0 < γ) (e2 : γ ^ 2 + A ^ 2 = 1) (ha : |a| ≤ 1) (hA : |A| ≤ 1) (h : |a - A| ≤ ε) :
    |Real.cos (Real.arcsin a) - γ| ≤ 2 * (ε / γ) := by
  have hε0 := (abs_nonneg _).trans h
  rw [Real.cos_arcsin]
  have ha2 : 0 ≤ 1 - a ^ 2 := by
    have := (sq_le_one_iff_abs_le_one a).2 ha
    linarith
  have hs2 := Real.sq_sqrt ha2
  have hs0 := Real.sqrt_nonneg (1 - a ^ 2)
  generalize Real.sqrt (1 - a ^ 2) = s at *
  have e : s - γ = (A - a) * (A + a) / (s + γ) := by
    rw [eq_div_iff (by positivity)]
    linear_combination hs2 - e2
  rw [e, abs_div, abs_of_pos (by positivity : 0 < s + γ), abs_mul, abs_sub_comm, div_le_iff₀ (by positivity)]
  have k1 : |A + a| ≤ 2 := (abs_add_le _ _).trans (by linarith)
  have k2 : |a - A| * |A + a| ≤ ε * 2 := mul_le_mul h k1 (abs_nonneg _) hε0
  have k3 : ε / γ * γ = ε := div_mul_cancel₀ _ hγ.ne'
  have k4 : 0 ≤ ε / γ * s := by positivity
  linarith

/-- C138, what holds of the Euler angles of a quaternion: away from pitches of 90 degrees the call succeeds and the angles describe the rotation. `γ` is
the cosine of the pitch. Missing: pitches within rounding of 90 degrees, see `C138_refuted`. -/
theorem C138_quaternion_angles_partial (hr : ToNearest rnd) (hM : CMath.Close M) {p q : Quat} {t η γ : ℝ} (hp : Spec.IsUnit p) (hq : Multiple t p q)
    (ht : |t ^ 2 - 1| ≤ η) (hη : η ≤ 1 / 16) (hγ : 0 < γ)
    (hγ2 : quaternionToMatrix p 2 1 ^ 2 + quaternionToMatrix p 2 2 ^ 2 = γ ^ 2) (hg : 2 * (η + 8 / 2 ^ 53) ≤ γ ^ 2) :
    ∃ e, quaternionToEulerR rnd M q = .ok e ∧ Within (15 * (η + 8 / 2 ^ 53) / γ + 20 / 2 ^ 53) (zyx e) (quaternionToMatrix p) := by
  have h := C56_quaternion p hp
  obtain ⟨e0, hγ1, e1, e2, cr, sr, cp, sp, cy, sy⟩ := angles_of_rotation h hγ hγ2
  have hR := C138_quaternion_rotation hr hp hq ht (by linarith)
  set R₀ := quaternionToMatrix p
  set ε := η + 8 / 2 ^ 53 with hε
  have hε0 := (abs_nonneg _).trans (hR 0 0)
  have d1 := dir_dev (hR 2 2) (hR 2 1) hγ (by rw [← hγ2]; ring)
  have d2 := dir_dev (hR 0 0) (hR 1 0) hγ e1
  set a := rnd (rnd (rnd (2 * q.x) * q.z) - rnd (rnd (2 * q.w) * q.y)) with ha
  have h20 : |a - R₀ 2 0| ≤ ε := hR 2 0
  have hA : |R₀ 2 0| ≤ 1 - ε := by
    refine abs_le_of_sq_le_sq ?_ ?_
    · nlinarith
    · nlinarith
  have ha1 : |a| ≤ 1 := by
    have := abs_add_le (a - R₀ 2 0) (R₀ 2 0)
    rw [sub_add_cancel] at this
    linarith
  have ha2 := abs_le.1 ha1
  have m := hM.atan2
  have hdiv : ε ≤ ε / γ := by
    rw [le_div_iff₀ hγ]
    nlinarith
  have hdiv3 : 3 * ε / γ = 3 * (ε / γ) := by ring
  have hdiv15 : 15 * ε / γ = 15 * (ε / γ) := by ring
  have hcos : |Real.cos (Real.arcsin a) - γ| ≤ 2 * (ε / γ) := cos_arcsin_dev hγ e2 ha1 (by linarith) h20
  refine ⟨⟨M.atan2 (quaternionToMatrixR rnd q 2 1) (quaternionToMatrixR rnd q 2 2), -M.asin a,
    M.atan2 (quaternionToMatrixR rnd q 1 0) (quaternionToMatrixR rnd q 0 0)⟩, ?_, ?_⟩
  · unfold quaternionToEulerR casinR
    simp only [← ha]
    rw [if_pos ha2]
    rfl
  have key : NearAngles (3 * (ε / γ) + 4 / 2 ^ 53) ⟨M.atan2 (quaternionToMatrixR rnd q 2 1) (quaternionToMatrixR rnd q 2 2), -M.asin a,
      M.atan2 (quaternionToMatrixR rnd q 1 0) (quaternionToMatrixR rnd q 0 0)⟩ (matrixToEuler R₀) := by
    have hm := hM.asin a ha2.1 ha2.2
    refine ⟨?_, ?_, ?_, ?_, ?_, ?_⟩
    · rw [cr]
      refine (cos_near_of (m _ _) d1.1).trans ?_
      norm_num
      linarith
    · rw [sr]
      refine (sin_near_of (m _ _) d1.2).trans ?_
      norm_num
      linarith
    · rw [cp]
      show |Real.cos (-_) - γ| ≤ _
      rw [Real.cos_neg]
      refine (cos_near_of hm hcos).trans ?_
      norm_num
      linarith
    · rw [sp]
      show |Real.sin (-_) - -R₀ 2 0| ≤ _
      rw [Real.sin_neg, neg_sub_neg, abs_sub_comm]
      refine (sin_near_of hm ((congrArg (fun z => |z - R₀ 2 0|) (Real.sin_arcsin ha2.1 ha2.2)).trans_le h20)).trans ?_
      norm_num
      linarith
    · rw [cy]
      refine (cos_near_of (m _ _) d2.1).trans ?_
      norm_num
      linarith
    · rw [sy]
      refine (sin_near_of (m _ _) d2.2).trans ?_
      norm_num
      linarith
  have := near_angles key
  rw [e0] at this
  intro i j
  refine (this i j).trans ?_
  rw [hdiv15]
  norm_num
  linarith

/-! ## Round trips -/

theorem zyx_last (e : Euler) : zyx e 2 0 = -Real.sin e.p ∧ zyx e 2 1 ^ 2 + zyx e 2 2 ^ 2 = Real.cos e.p ^ 2 := by
  rw [← C56_zyx]
  have h := Real.sin_sq_add_cos_sq e.r
  refine ⟨rfl, ?_⟩
  show (Real.cos e.p * Real.sin e.r) ^ 2 + (Real.cos e.p * Real.cos e.r) ^ 2 = _
  linear_combination Real.cos e.p ^ 2 * h

/-- C138: from Euler angles to a matrix and back, the rotation is the same up to about `800 / 2^53` divided by the cosine of the pitch. -/
theorem C138_round_trip_matrix (hr : ToNearest rnd) (hM : CMath.Close M) {e : Euler} (hp : Real.cos e.p ≠ 0) :
    Within (600 / 2 ^ 53 / |Real.cos e.p| + 140 / 2 ^ 53) (zyx (matrixToEulerR rnd M (eulerToMatrixR rnd M e))) (zyx e) := by
  have := C138_matrix_angles hr hM (zyx_rotation e) (C138_euler_matrix hr hM e) (by norm_num) (abs_pos.2 hp) (by rw [sq_abs]; exact (zyx_last e).2)
  intro i j
  refine (this i j).trans (le_of_eq ?_)
  ring

/-- C138, what holds: from Euler angles to a quaternion and back, the rotation is the same up to rounding divided by the cosine of the pitch, when that
cosine is above `2^(-20)`. Missing: pitches nearer to 90 degrees. -/
theorem C138_round_trip_quaternion_partial (hr : ToNearest rnd) (hM : CMath.Close M) {e : Euler} (he : DoubleE e) (hp : 1 / 2 ^ 20 ≤ |Real.cos e.p|) :
    ∃ e', quaternionToEulerR rnd M (eulerToQuaternionR rnd M e) = .ok e' ∧ Within (3000 / 2 ^ 53 / |Real.cos e.p| + 190 / 2 ^ 53) (zyx e') (zyx e) := by
  obtain ⟨p, h1, h2, h3⟩ := C138_euler_quaternion hr hM he
  obtain ⟨h4, h5⟩ := quat_dev h1 h3
  rw [h2] at h5
  set q := eulerToQuaternionR rnd M e
  have h4' : |normSq q - 1| ≤ 82 / 2 ^ 53 := h4.trans (by norm_num)
  have h5' : Within (82 / 2 ^ 53) (quaternionToMatrix q) (zyx e) := fun i j => (h5 i j).trans (by norm_num)
  have hN : 0 < normSq q := by
    have := (abs_le.1 h4').1
    norm_num at this
    linarith
  set t := Real.sqrt (normSq q) with ht
  have ht0 : 0 < t := Real.sqrt_pos.2 hN
  have ht2 : t ^ 2 = normSq q := Real.sq_sqrt hN.le
  have hm : Multiple t ⟨q.w / t, q.x / t, q.y / t, q.z / t⟩ q := by
    refine ⟨?_, ?_, ?_, ?_⟩ <;> simp only <;> field_simp
  have hu : Spec.IsUnit ⟨q.w / t, q.x / t, q.y / t, q.z / t⟩ := by
    unfold Spec.IsUnit
    simp only [div_pow]
    rw [← add_div, ← add_div, ← add_div, ht2]
    exact div_self hN.ne'
  set p' : Quat := ⟨q.w / t, q.x / t, q.y / t, q.z / t⟩
  have hrot := C56_quaternion p' hu
  have h6 : Within (164 / 2 ^ 53) (quaternionToMatrix p') (zyx e) := fun i j => by
    have k1 : |quaternionToMatrix q i j - quaternionToMatrix p' i j| ≤ 82 / 2 ^ 53 := by
      rw [multiple_matrix hm, Matrix.smul_apply, smul_eq_mul, ← sub_one_mul, abs_mul, ht2]
      exact (mul_le_of_le_one_right (abs_nonneg _) (rotation_le hrot i j)).trans h4'
    rw [abs_sub_comm] at k1
    refine (abs_sub_le _ _ _).trans ((add_le_add k1 (h5' i j)).trans (by norm_num))
  have hrow := hrot.row 2 2
  simp at hrow
  set A := quaternionToMatrix p' 2 0
  set c := |Real.cos e.p| with hc
  have hc0 : 0 < c := lt_of_lt_of_le (by norm_num) hp
  have hcc : c ^ 2 = 1 - Real.sin e.p ^ 2 := by
    rw [hc, sq_abs]
    linarith [Real.sin_sq_add_cos_sq e.p]
  have hA : |A - -Real.sin e.p| ≤ 164 / 2 ^ 53 := by
    have := h6 2 0
    rwa [(zyx_last e).1] at this
  have hA1 := rotation_le hrot 2 0
  have hAA : |A ^ 2 - Real.sin e.p ^ 2| ≤ 328 / 2 ^ 53 := by
    rw [show A ^ 2 - Real.sin e.p ^ 2 = (A - -Real.sin e.p) * (A + -Real.sin e.p) by ring, abs_mul]
    have k : |A + -Real.sin e.p| ≤ 2 := (abs_add_le _ _).trans (by rw [abs_neg]; linarith [Real.abs_sin_le_one e.p])
    exact (mul_le_mul hA k (abs_nonneg _) (by norm_num)).trans (by norm_num)
  have hp2 : (1 / 2 ^ 20) ^ 2 ≤ c ^ 2 := pow_le_pow_left₀ (by norm_num) hp 2
  have hγ2 : c ^ 2 / 4 ≤ 1 - A ^ 2 := by
    have := (abs_le.1 hAA).2
    norm_num at this hp2
    linarith
  have hγ0 : 0 < 1 - A ^ 2 := lt_of_lt_of_le (by positivity) hγ2
  set γ := Real.sqrt (1 - A ^ 2) with hγ
  have hγp : 0 < γ := Real.sqrt_pos.2 hγ0
  have hγs : γ ^ 2 = 1 - A ^ 2 := Real.sq_sqrt hγ0.le
  have hγc : c / 2 ≤ γ := by
    rw [hγ]
    refine Real.le_sqrt_of_sq_le ?_
    rw [div_pow]
    norm_num
    linarith
  obtain ⟨e', r1, r2⟩ := C138_quaternion_angles_partial (η := 82 / 2 ^ 53) hr hM hu hm (by rw [ht2]; exact h4') (by norm_num) hγp (by rw [hγs]; linarith) (by
    rw [hγs]
    norm_num at hp2 ⊢
    linarith)
  refine ⟨e', r1, fun i j => (abs_sub_le _ _ _).trans ((add_le_add (r2 i j) (h6 i j)).trans ?_)⟩
  have k : 15 * (82 / 2 ^ 53 + 8 / 2 ^ 53) / γ ≤ 3000 / 2 ^ 53 / c := by
    rw [div_le_div_iff₀ hγp hc0]
    norm_num
    linarith
  norm_num at k ⊢
  linarith

/-! ## Gimbal lock -/

/-- The square root of one half, to the nearest double. -/
theorem round_sqrt_half (hr : ToNearest rnd) : rnd (Real.sqrt (1 / 2)) = 6369051672525773 / 2 ^ 53 := by
  have := toNearest_eq hr (x := Real.sqrt (1 / 2)) 6369051672525773 (-53) (by norm_num) (by norm_num) (by
    have h1 : (6369051672525772.55 / 2 ^ 53 : ℝ) < Real.sqrt (1 / 2) := Real.lt_sqrt_of_sq_lt (by norm_num)
    have h2 : Real.sqrt (1 / 2) < (6369051672525773.4 / 2 ^ 53 : ℝ) := (Real.sqrt_lt' (by norm_num)).2 (by norm_num)
    rw [abs_lt]
    norm_num at h1 h2 ⊢
    constructor <;> linarith)
  rw [this]
  norm_num

/-- C138 fails for a pitch of 90 degrees: the quaternion of that rotation, each component rounded to the nearest double, gives no angle. -/
theorem C138_refuted : ∃ p : Quat, Spec.IsUnit p ∧ quaternionToMatrix p = zyx ⟨0, Real.pi / 2, 0⟩ ∧
    ∀ rnd M, ToNearest rnd → quaternionToEulerR rnd M ⟨rnd p.w, rnd p.x, rnd p.y, rnd p.z⟩ = .nonfinite := by
  refine ⟨eulerToQuaternion ⟨0, Real.pi / 2, 0⟩, C56_unit _, by rw [C57_euler_quaternion_matrix, C56_zyx], fun rnd M hr => ?_⟩
  have hs : Real.sqrt 2 / 2 = Real.sqrt (1 / 2) := by
    rw [Real.sqrt_div (by norm_num), Real.sqrt_one, div_eq_div_iff (by norm_num) (by positivity)]
    norm_num
  have e : eulerToQuaternion ⟨0, Real.pi / 2, 0⟩ = ⟨Real.sqrt (1 / 2), 0, Real.sqrt (1 / 2), 0⟩ := by
    unfold eulerToQuaternion
    have : Real.pi / 2 / 2 = Real.pi / 4 := by ring
    rw [← hs]
    simp [this, Real.cos_pi_div_four, Real.sin_pi_div_four]
  rw [e]
  simp only [round_sqrt_half hr, toNearest_double hr double_zero]
  set h : ℝ := 6369051672525773 / 2 ^ 53 with hh
  have hd : Double h := ⟨6369051672525773, -53, by norm_num, by rw [hh]; norm_num⟩
  have h1 : rnd (2 * h * h) = 1 + 1 / 2 ^ 52 := by
    have := toNearest_eq hr (x := 2 * h * h) 4503599627370497 (-52) (by norm_num) (by norm_num) (by
      rw [hh, abs_lt]
      norm_num)
    rw [this]
    norm_num
  have h2 : Double (-(1 + 1 / 2 ^ 52)) := double_neg ⟨4503599627370497, -52, by norm_num, by norm_num⟩
  unfold quaternionToEulerR casinR
  simp only [mul_zero, zero_mul, toNearest_double hr double_zero, toNearest_double hr (double_two_mul hd), h1, zero_sub, toNearest_double hr h2]
  rw [if_neg (by norm_num)]
  rfl

/-! ## Concrete cases -/

/-- A library that rounds the exact values to the nearest. -/
noncomputable def roundLib : CMath where
  cos t := roundNearest (Real.cos t)
  sin t := roundNearest (Real.sin t)
  asin t := roundNearest (Real.arcsin t)
  atan2 y x := roundNearest (Complex.arg ⟨x, y⟩)
  pow2 x := roundNearest (x ^ 2)

theorem roundLib_close : CMath.Close roundLib := by
  have k : ∀ {y b c : ℝ}, |y| ≤ b → b / 2 ^ 53 ≤ c → |roundNearest y - y| ≤ c := fun {y b c} h1 h2 => by
    have := toNearest_err roundNearest_toNearest y
    rw [abs_sub_comm]
    refine this.trans (le_trans ?_ h2)
    gcongr
  have hpi := Real.pi_lt_four
  refine ⟨fun t => k (Real.abs_cos_le_one t) (by norm_num), fun t => k (Real.abs_sin_le_one t) (by norm_num), fun t _ _ => ?_, fun y x => ?_, fun x => ?_⟩
  · refine k (b := 4) (abs_le.2 ⟨?_, ?_⟩) (by norm_num)
    · linarith [Real.neg_pi_div_two_le_arcsin t]
    · linarith [Real.arcsin_le_pi_div_two t]
  · exact k (b := 4) ((Complex.abs_arg_le_pi _).trans hpi.le) (by norm_num)
  · refine k (b := x ^ 2) (by rw [abs_of_nonneg (sq_nonneg x)]) ?_
    gcongr <;> norm_num

/-- Angles of 1/4, 1/2 and -3 radians: the matrix, the quaternion, its matrix and the angles of the matrix and of the quaternion. -/
example : Within (1 / 10 ^ 13) (eulerToMatrixR roundNearest roundLib ⟨1 / 4, 1 / 2, -3⟩) (zyx ⟨1 / 4, 1 / 2, -3⟩) ∧
    Within (1 / 10 ^ 13) (quaternionToMatrixR roundNearest (eulerToQuaternionR roundNearest roundLib ⟨1 / 4, 1 / 2, -3⟩)) (zyx ⟨1 / 4, 1 / 2, -3⟩) ∧
    Within (1 / 10 ^ 12) (zyx (matrixToEulerR roundNearest roundLib (eulerToMatrixR roundNearest roundLib ⟨1 / 4, 1 / 2, -3⟩))) (zyx ⟨1 / 4, 1 / 2, -3⟩) ∧
    ∃ e', quaternionToEulerR roundNearest roundLib (eulerToQuaternionR roundNearest roundLib ⟨1 / 4, 1 / 2, -3⟩) = .ok e' ∧
      Within (1 / 10 ^ 12) (zyx e') (zyx ⟨1 / 4, 1 / 2, -3⟩) := by
  have he : DoubleE ⟨1 / 4, 1 / 2, -3⟩ := ⟨⟨1, -2, by norm_num, by norm_num⟩, ⟨1, -1, by norm_num, by norm_num⟩, ⟨-3, 0, by norm_num, by norm_num⟩⟩
  have hc : 7 / 8 ≤ Real.cos (1 / 2) := by
    have := Real.one_sub_sq_div_two_le_cos (x := 1 / 2)
    norm_num at this ⊢
    linarith
  have hc' : |Real.cos (1 / 2)| = Real.cos (1 / 2) := abs_of_pos (by linarith)
  have hdiv : ∀ {b : ℝ}, 0 ≤ b → b / Real.cos (1 / 2) ≤ b / (7 / 8) := fun hb => div_le_div_of_nonneg_left hb (by norm_num) hc
  refine ⟨fun i j => (C138_euler_matrix roundNearest_toNearest roundLib_close _ i j).trans (by norm_num),
    fun i j => (C138_euler_quaternion_matrix roundNearest_toNearest roundLib_close he i j).trans (by norm_num), fun i j => ?_, ?_⟩
  · refine (C138_round_trip_matrix roundNearest_toNearest roundLib_close (e := ⟨1 / 4, 1 / 2, -3⟩) (by simp only; linarith) i j).trans ?_
    simp only
    rw [hc']
    have := hdiv (b := 600 / 2 ^ 53) (by norm_num)
    norm_num at this ⊢
    linarith
  · obtain ⟨e', h1, h2⟩ := C138_round_trip_quaternion_partial roundNearest_toNearest roundLib_close he (by simp only; rw [hc']; norm_num at hc ⊢; linarith)
    refine ⟨e', h1, fun i j => (h2 i j).trans ?_⟩
    simp only
    rw [hc']
    have := hdiv (b := 3000 / 2 ^ 53) (by norm_num)
    norm_num at this ⊢
    linarith

/-- A quaternion with a norm near one. -/
example : NearRotation (1 / 10 ^ 6) (quaternionToMatrixR roundNearest ⟨6 / 10 * (1 + 1 / 10 ^ 8), 0, 8 / 10 * (1 + 1 / 10 ^ 8), 0⟩) :=
  NearRotation.mono (C138_quaternion_orthogonal (p := ⟨6 / 10, 0, 8 / 10, 0⟩) (t := 1 + 1 / 10 ^ 8) (η := 3 / 10 ^ 8) roundNearest_toNearest
    (by norm_num [Spec.IsUnit]) ⟨mul_comm _ _, by simp, mul_comm _ _, by simp⟩ (by rw [abs_le]; norm_num) (by norm_num)) (by norm_num)

end MU
