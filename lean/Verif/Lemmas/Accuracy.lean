import Verif.Spec.Accuracy
import Verif.Lemmas.Chebyshev
import Mathlib.Analysis.Convex.Deriv
import Mathlib.Analysis.Calculus.LocalExtr.Rolle
import Mathlib.Analysis.Calculus.Deriv.Polynomial
import Mathlib.Analysis.SpecialFunctions.Trigonometric.Chebyshev.RootsExtrema
import Mathlib.Analysis.SpecialFunctions.Integrals.Basic

set_option linter.unusedSectionVars false

/-!
# The error of linear interpolation, of the trapezoidal rule and of Chebyshev interpolation
-/

namespace MU
open Spec Finset Polynomial

/-! ## Linear interpolation -/

theorem Spec.DerivBound.mono {k : Nat} {f : ℝ → ℝ} {S T : Set ℝ} {M : ℝ} (h : DerivBound k f S M) (hT : T ⊆ S) : DerivBound k f T M := by
  obtain ⟨d, h0, h1, h2⟩ := h
  exact ⟨d, fun t ht => h0 t (hT ht), fun j hj t ht => (h1 j hj t (hT ht)).mono hT, fun t ht => h2 t (hT ht)⟩

theorem Spec.DerivBound.neg {k : Nat} {f : ℝ → ℝ} {S : Set ℝ} {M : ℝ} (h : DerivBound k f S M) : DerivBound k (fun t => -f t) S M := by
  obtain ⟨d, h0, h1, h2⟩ := h
  exact ⟨fun j t => -d j t, fun t ht => by simp [h0 t ht], fun j hj t ht => (h1 j hj t ht).neg, fun t ht => by simpa using h2 t ht⟩

theorem Spec.DerivBound.nonneg {k : Nat} {f : ℝ → ℝ} {S : Set ℝ} {M : ℝ} (h : DerivBound k f S M) {t : ℝ} (ht : t ∈ S) : 0 ≤ M := by
  obtain ⟨d, h0, h1, h2⟩ := h
  exact (abs_nonneg _).trans (h2 t ht)

theorem Spec.DerivBound.continuousOn {k : Nat} {f : ℝ → ℝ} {S : Set ℝ} {M : ℝ} (h : DerivBound (k + 1) f S M) : ContinuousOn f S := by
  obtain ⟨d, h0, h1, h2⟩ := h
  refine ContinuousOn.congr (f := d 0) (fun t ht => (h1 0 (by omega) t ht).continuousWithinAt) (fun t ht => (h0 t ht).symm)

/-- The value of a convex function is below the chord. -/
theorem le_line_of_convexOn {f : ℝ → ℝ} {a b x : ℝ} (hab : a < b) (hf : ConvexOn ℝ (Set.Icc a b) f) (h0 : a ≤ x) (h1 : x ≤ b) :
    f x ≤ line a (f a) b (f b) x := by
  have hd : 0 < b - a := by linarith
  have ht : 0 ≤ (x - a) / (b - a) := div_nonneg (by linarith) hd.le
  have ht1 : (x - a) / (b - a) ≤ 1 := by rw [div_le_one hd]; linarith
  have := hf.2 (Set.left_mem_Icc.2 hab.le) (Set.right_mem_Icc.2 hab.le) (sub_nonneg.2 ht1) ht (by ring)
  simp only [smul_eq_mul] at this
  have hx : (1 - (x - a) / (b - a)) * a + (x - a) / (b - a) * b = x := by field_simp; ring
  rw [hx] at this
  unfold line
  simp only [smul_eq_mul]
  linarith

theorem sub_line_le {f : ℝ → ℝ} {a b x M : ℝ} (hab : a < b) (hf : DerivBound 2 f (Set.Icc a b) M) (h0 : a ≤ x) (h1 : x ≤ b) :
    f x - line a (f a) b (f b) x ≤ M / 2 * ((x - a) * (b - x)) := by
  obtain ⟨d, e0, e1, e2⟩ := hf
  have hd : b - a ≠ 0 := by linarith
  have hc : ConvexOn ℝ (Set.Icc a b) (fun t => d 0 t + M / 2 * t ^ 2) := by
    refine convexOn_of_hasDerivWithinAt2_nonneg (convex_Icc a b) (f' := fun t => d 1 t + M * t) (f'' := fun t => d 2 t + M) ?_ ?_ ?_ ?_
    · exact ContinuousOn.add (fun t ht => (e1 0 (by omega) t ht).continuousWithinAt) (by fun_prop)
    · intro t ht
      have := ((e1 0 (by omega) t (interior_subset ht)).mono interior_subset).add
        (((hasDerivAt_pow 2 t).const_mul (M / 2)).hasDerivWithinAt (s := interior (Set.Icc a b)))
      refine (this.congr_deriv ?_)
      simp
      ring
    · intro t ht
      have := ((e1 1 (by omega) t (interior_subset ht)).mono interior_subset).add
        (((hasDerivAt_id t).const_mul M).hasDerivWithinAt (s := interior (Set.Icc a b)))
      refine (this.congr_deriv ?_)
      simp
    · intro t ht
      have := (abs_le.1 (e2 t (interior_subset ht))).1
      show 0 ≤ d 2 t + M
      linarith
  have := le_line_of_convexOn hab hc h0 h1
  have ha := e0 a (Set.left_mem_Icc.2 hab.le)
  have hb := e0 b (Set.right_mem_Icc.2 hab.le)
  have hx := e0 x ⟨h0, h1⟩
  simp only [ha, hb, hx] at this
  have key : line a (f a + M / 2 * a ^ 2) b (f b + M / 2 * b ^ 2) x - M / 2 * x ^ 2 =
      line a (f a) b (f b) x + M / 2 * ((x - a) * (b - x)) := by
    unfold line
    simp only [smul_eq_mul]
    field_simp
    ring
  linarith

/-- The error of linear interpolation at a point. -/
theorem line_error {f : ℝ → ℝ} {a b x M : ℝ} (hab : a < b) (hf : DerivBound 2 f (Set.Icc a b) M) (h0 : a ≤ x) (h1 : x ≤ b) :
    |line a (f a) b (f b) x - f x| ≤ M / 2 * ((x - a) * (b - x)) := by
  rw [abs_le]
  have h := sub_line_le hab hf h0 h1
  have h' := sub_line_le hab hf.neg h0 h1
  have hn : line a (-f a) b (-f b) x = -line a (f a) b (f b) x := by unfold line; simp only [smul_eq_mul]; ring
  rw [hn] at h'
  constructor <;> linarith

theorem line_error_le {f : ℝ → ℝ} {a b x M : ℝ} (hab : a < b) (hf : DerivBound 2 f (Set.Icc a b) M) (h0 : a ≤ x) (h1 : x ≤ b) :
    |line a (f a) b (f b) x - f x| ≤ M * (b - a) ^ 2 / 8 := by
  have hM : 0 ≤ M := hf.nonneg (Set.left_mem_Icc.2 hab.le)
  refine (line_error hab hf h0 h1).trans ?_
  nlinarith [sq_nonneg ((x - a) - (b - x)), mul_nonneg hM (sq_nonneg ((x - a) - (b - x)))]

/-- The interpolant is a convex combination of the end values. -/
theorem abs_line_le {a b x u v E : ℝ} (hab : a < b) (h0 : a ≤ x) (h1 : x ≤ b) (hu : |u| ≤ E) (hv : |v| ≤ E) : |line a u b v x| ≤ E := by
  have hd : 0 < b - a := by linarith
  have ht : 0 ≤ (x - a) / (b - a) := div_nonneg (by linarith) hd.le
  have ht1 : (x - a) / (b - a) ≤ 1 := by rw [div_le_one hd]; linarith
  unfold line
  simp only [smul_eq_mul]
  generalize (x - a) / (b - a) = t at *
  rw [abs_le] at *
  constructor <;> nlinarith

theorem line_sub {a b x u v u' v' : ℝ} : line a u b v x - line a u' b v' x = line a (u - u') b (v - v') x := by
  unfold line
  simp only [smul_eq_mul]
  ring

/-! ## The trapezoidal rule -/

theorem integral_line {a b u v : ℝ} (hab : a < b) : ∫ t in a..b, line a u b v t = (b - a) * (u + v) / 2 := by
  have hd : b - a ≠ 0 := by linarith
  have : ∀ t, line a u b v t = (u - (v - u) / (b - a) * a) + (v - u) / (b - a) * t := by
    intro t
    unfold line
    simp only [smul_eq_mul]
    field_simp
    ring
  simp only [this]
  rw [intervalIntegral.integral_add (by simp) ((by fun_prop : Continuous _).intervalIntegrable a b),
      intervalIntegral.integral_const, intervalIntegral.integral_const_mul, integral_id]
  simp only [smul_eq_mul]
  field_simp
  ring

theorem continuous_line {a b u v : ℝ} : Continuous (fun t => line a u b v t) := by
  unfold line
  simp only [smul_eq_mul]
  fun_prop

theorem integral_bump (a b M : ℝ) : ∫ t in a..b, M / 2 * ((t - a) * (b - t)) = M * (b - a) ^ 3 / 12 := by
  have : ∀ t : ℝ, M / 2 * ((t - a) * (b - t)) = M / 2 * (a + b) * t + (-(M / 2)) * t ^ 2 + (-(M / 2 * (a * b))) := by intro t; ring
  simp only [this]
  rw [intervalIntegral.integral_add ((by fun_prop : Continuous _).intervalIntegrable a b) (by simp),
    intervalIntegral.integral_add ((by fun_prop : Continuous _).intervalIntegrable a b) ((by fun_prop : Continuous _).intervalIntegrable a b),
    intervalIntegral.integral_const_mul, intervalIntegral.integral_const_mul, intervalIntegral.integral_const, integral_id, integral_pow]
  simp only [smul_eq_mul]
  push_cast
  ring

/-- The error of one panel of the trapezoidal rule. -/
theorem panel_error {f : ℝ → ℝ} {a b M : ℝ} (hab : a < b) (hf : DerivBound 2 f (Set.Icc a b) M) :
    |(b - a) * (f a + f b) / 2 - ∫ t in a..b, f t| ≤ M * (b - a) ^ 3 / 12 := by
  have hci : IntervalIntegrable f MeasureTheory.volume a b := by
    refine ContinuousOn.intervalIntegrable ?_
    rw [Set.uIcc_of_le hab.le]
    exact hf.continuousOn
  rw [← integral_line hab, ← intervalIntegral.integral_sub (continuous_line.intervalIntegrable a b) hci, ← integral_bump]
  rw [← Real.norm_eq_abs]
  refine intervalIntegral.norm_integral_le_of_norm_le hab.le ?_ ((by fun_prop : Continuous _).intervalIntegrable a b)
  filter_upwards with t ht
  rw [Real.norm_eq_abs]
  exact line_error hab hf ht.1.le ht.2

/-! ## Chebyshev interpolation -/

/-- Rolle's theorem, repeated: if `d 0` vanishes at `m + 1` points of an interval then `d m` vanishes at a point of it. -/
theorem rolle_chain {S : Set ℝ} (hS : S.OrdConnected) : ∀ (m : Nat) (d : Nat → ℝ → ℝ) (z : Nat → ℝ),
    (∀ j, j < m → ∀ t ∈ S, HasDerivWithinAt (d j) (d (j + 1) t) S t) → (∀ i, i ≤ m → z i ∈ S) → (∀ i, i < m → z i < z (i + 1)) →
    (∀ i, i ≤ m → d 0 (z i) = 0) → ∃ t ∈ S, d m t = 0
  | 0, _, z, _, hz, _, h0 => ⟨z 0, hz 0 (le_refl _), h0 0 (le_refl _)⟩
  | m + 1, d, z, hd, hz, hlt, h0 => by
    have step : ∀ i, i < m + 1 → ∃ t, z i < t ∧ t < z (i + 1) ∧ d 1 t = 0 := by
      intro i hi
      have hsub : Set.Icc (z i) (z (i + 1)) ⊆ S := hS.out (hz i (by omega)) (hz (i + 1) (by omega))
      have hcont : ContinuousOn (d 0) (Set.Icc (z i) (z (i + 1))) :=
        fun t ht => ((hd 0 (by omega) t (hsub ht)).mono hsub).continuousWithinAt
      obtain ⟨t, ht, h⟩ := exists_hasDerivAt_eq_zero (f' := d 1) (hlt i hi) hcont (by rw [h0 i (by omega), h0 (i + 1) (by omega)]) (fun t ht =>
        ((hd 0 (by omega) t (hsub (Set.Ioo_subset_Icc_self ht))).mono hsub).hasDerivAt (Icc_mem_nhds ht.1 ht.2))
      exact ⟨t, ht.1, ht.2, h⟩
    choose! w hw1 hw2 hw3 using step
    refine rolle_chain hS m (fun j => d (j + 1)) w (fun j hj => hd (j + 1) (by omega)) (fun i hi => ?_) (fun i hi => ?_) (fun i hi => hw3 i (by omega))
    · exact hS.out (hz i (by omega)) (hz (i + 1) (by omega)) ⟨(hw1 i (by omega)).le, (hw2 i (by omega)).le⟩
    · exact (hw2 i (by omega)).trans (hw1 (i + 1) (by omega))

/-- The same with a finite set of zeros. -/
theorem rolle_finset {S : Set ℝ} (hS : S.OrdConnected) (m : Nat) (d : Nat → ℝ → ℝ) (hd : ∀ j, j < m → ∀ t ∈ S, HasDerivWithinAt (d j) (d (j + 1) t) S t)
    (Z : Finset ℝ) (hc : Z.card = m + 1) (hZ : ∀ t ∈ Z, t ∈ S) (h0 : ∀ t ∈ Z, d 0 t = 0) : ∃ t ∈ S, d m t = 0 := by
  let e := Z.orderEmbOfFin hc
  have he : ∀ i (hi : i ≤ m), e ⟨i, by omega⟩ ∈ Z := fun i hi => Z.orderEmbOfFin_mem hc _
  refine rolle_chain hS m d (fun i => if h : i ≤ m then e ⟨i, by omega⟩ else 0) hd (fun i hi => ?_) (fun i hi => ?_) (fun i hi => ?_)
  · simp only [hi, dite_true]
    exact hZ _ (he i hi)
  · have h1 : i ≤ m := by omega
    have h2 : i + 1 ≤ m := by omega
    simp only [h1, h2, dite_true]
    exact e.strictMono (by simp [Fin.lt_def])
  · simp only [hi, dite_true]
    exact h0 _ (he i hi)

theorem T_chebNode (n : Nat) {r : Nat} : (Chebyshev.T ℝ ((n + 1 : Nat) : ℤ)).eval (chebNode n r) = 0 := by
  unfold chebNode
  rw [Chebyshev.T_real_cos, Real.cos_eq_zero_iff]
  refine ⟨r, ?_⟩
  have hn : ((n : ℝ) + 1) ≠ 0 := by positivity
  push_cast
  field_simp

theorem chebInterp_eq_poly (n : Nat) (g : Nat → ℝ) : ∃ p : ℝ[X], p.natDegree ≤ n ∧ ∀ u, p.eval u = chebInterp n g u := by
  refine ⟨∑ i ∈ range (n + 1), C ((∑ r ∈ range (n + 1), g r * chebT i (chebNode n r)) * chebWeight n i) * Chebyshev.T ℝ i, ?_, ?_⟩
  · refine natDegree_sum_le_of_forall_le _ _ (fun i hi => ?_)
    refine natDegree_mul_le.trans ?_
    rw [natDegree_C, Chebyshev.natDegree_T]
    have := mem_range.1 hi
    simp
    omega
  · intro u
    rw [eval_finsetSum]
    exact sum_congr rfl (fun i _ => by rw [eval_mul, eval_C, chebT_eq])

/-- The error of interpolation at the Chebyshev nodes. -/
theorem chebInterp_error (n : Nat) {G : ℝ → ℝ} {S : Set ℝ} (hS : S.OrdConnected) (hSI : S ⊆ Set.Icc (-1) 1) (hnode : ∀ r, r ≤ n → chebNode n r ∈ S)
    {M : ℝ} (hG : DerivBound (n + 1) G S M) {u : ℝ} (hu : u ∈ S) :
    |chebInterp n (fun r => G (chebNode n r)) u - G u| ≤ M / (2 ^ n * (n + 1).factorial) := by
  have hM : 0 ≤ M := hG.nonneg hu
  by_cases hex : ∃ r, r ≤ n ∧ u = chebNode n r
  · obtain ⟨r, hr, rfl⟩ := hex
    rw [chebInterp_node n _ hr, sub_self, abs_zero]
    positivity
  push Not at hex
  obtain ⟨p, hp, hpe⟩ := chebInterp_eq_poly n (fun r => G (chebNode n r))
  obtain ⟨d, e0, e1, e2⟩ := hG
  set w : ℝ[X] := Chebyshev.T ℝ ((n + 1 : Nat) : ℤ) with hw
  have hwu : w.eval u ≠ 0 := by
    intro h
    have hne : w ≠ 0 := by
      intro h0
      have := Chebyshev.natDegree_T ℝ ((n + 1 : Nat) : ℤ)
      rw [← hw, h0, natDegree_zero] at this
      omega
    have hroot : u ∈ w.roots := (mem_roots hne).2 h
    rw [hw, Chebyshev.roots_T_real, Finset.mem_val] at hroot
    obtain ⟨r, hr, hru⟩ := mem_image.1 hroot
    refine hex r (by have := mem_range.mp hr; omega) ?_
    rw [← hru, ← unitNode_eq, unitNode]
    push_cast
    rfl
  set c : ℝ := (G u - p.eval u) / w.eval u with hc
  set q : ℝ[X] := p + C c * w with hq
  have hqn : ∀ r, r ≤ n → q.eval (chebNode n r) = G (chebNode n r) := by
    intro r hr
    rw [hq, eval_add, eval_mul, hw, T_chebNode, mul_zero, add_zero, hpe, chebInterp_node n _ hr]
  have hqu : q.eval u = G u := by
    rw [hq, eval_add, eval_mul, eval_C, hc, div_mul_cancel₀ _ hwu]
    ring
  obtain ⟨t, ht, h⟩ := rolle_finset hS (n + 1) (fun j t => d j t - ((derivative^[j]) q).eval t) (fun j hj t ht => by
    have := (e1 j hj t ht).sub ((((derivative^[j]) q).hasDerivAt t).hasDerivWithinAt (s := S))
    rw [Function.iterate_succ_apply']
    exact this) (insert u ((range (n + 1)).image (chebNode n))) (by
      rw [card_insert_of_notMem, card_image_of_injOn, card_range]
      · intro r hr s hs h
        exact chebNode_inj (by have := mem_range.mp hr; omega) (by have := mem_range.mp hs; omega) h
      · intro h
        obtain ⟨r, hr, h⟩ := mem_image.1 h
        exact hex r (by have := mem_range.mp hr; omega) h.symm) (by
      intro t ht
      rcases mem_insert.1 ht with rfl | ht
      · exact hu
      · obtain ⟨r, hr, rfl⟩ := mem_image.1 ht
        exact hnode r (by have := mem_range.mp hr; omega)) (by
      intro t ht
      simp only [Function.iterate_zero, id]
      rcases mem_insert.1 ht with rfl | ht
      · rw [e0 t hu, hqu, sub_self]
      · obtain ⟨r, hr, rfl⟩ := mem_image.1 ht
        have hr : r ≤ n := by have := mem_range.mp hr; omega
        rw [e0 _ (hnode r hr), hqn r hr, sub_self])
  have hder : ((derivative^[n + 1]) q).eval t = c * (2 ^ n * (n + 1).factorial) := by
    have h1 : (derivative^[n + 1]) p = 0 := iterate_derivative_eq_zero (by omega)
    have hdeg : w.natDegree = n + 1 := by rw [hw, Chebyshev.natDegree_T, Int.natAbs_natCast]
    have hlead : w.leadingCoeff = 2 ^ n := by rw [hw, Chebyshev.leadingCoeff_T, Int.natAbs_natCast, Nat.add_sub_cancel]
    have h2 : (derivative^[n + 1]) w = C (2 ^ n * ((n + 1).factorial : ℝ)) := by
      have h3 : ((derivative^[n + 1]) w).natDegree = 0 := by
        have := natDegree_iterate_derivative w (n + 1)
        omega
      rw [eq_C_of_natDegree_eq_zero h3, coeff_iterate_derivative, zero_add, Nat.descFactorial_self, ← hdeg, coeff_natDegree, hlead, hdeg, nsmul_eq_mul,
        mul_comm]
    rw [hq, iterate_map_add derivative, h1, zero_add, iterate_derivative_C_mul, h2, eval_mul, eval_C, eval_C]
  have hcM : |c| * (2 ^ n * (n + 1).factorial) ≤ M := by
    have := e2 t ht
    rw [sub_eq_zero] at h
    rw [h, hder, abs_mul, abs_of_pos (by positivity : (0 : ℝ) < 2 ^ n * (n + 1).factorial)] at this
    exact this
  have hval : |chebInterp n (fun r => G (chebNode n r)) u - G u| = |c| * |w.eval u| := by
    rw [← abs_mul, hc, div_mul_cancel₀ _ hwu, ← hpe, abs_sub_comm]
  rw [hval, le_div_iff₀ (by positivity)]
  have hw1 : |w.eval u| ≤ 1 := Chebyshev.abs_eval_T_real_le_one _ (abs_le.2 (hSI hu))
  calc |c| * |w.eval u| * (2 ^ n * (n + 1).factorial) = (|c| * (2 ^ n * (n + 1).factorial)) * |w.eval u| := by ring
    _ ≤ M * 1 := mul_le_mul hcM hw1 (abs_nonneg _) hM
    _ = M := mul_one M

/-- The values of the interpolant are at most `2 n + 1` times the largest datum. -/
theorem abs_chebInterp_le (n : Nat) {g : Nat → ℝ} {E : ℝ} (hg : ∀ r, r ≤ n → |g r| ≤ E) {u : ℝ} (hu : |u| ≤ 1) :
    |chebInterp n g u| ≤ (2 * n + 1) * E := by
  have hE : 0 ≤ E := (abs_nonneg _).trans (hg 0 (Nat.zero_le _))
  have hn : (0 : ℝ) < (n : ℝ) + 1 := by positivity
  have hT : ∀ (i : Nat) {v : ℝ}, |v| ≤ 1 → |chebT i v| ≤ 1 := by
    intro i v hv
    rw [chebT_eq]
    exact Chebyshev.abs_eval_T_real_le_one _ hv
  have hterm : ∀ i, |(∑ r ∈ range (n + 1), g r * chebT i (chebNode n r)) * chebWeight n i * chebT i u| ≤ ((n : ℝ) + 1) * E * chebWeight n i := by
    intro i
    have hw : 0 ≤ chebWeight n i := by unfold chebWeight; split_ifs <;> positivity
    have hs : |∑ r ∈ range (n + 1), g r * chebT i (chebNode n r)| ≤ ((n : ℝ) + 1) * E := by
      refine (abs_sum_le_sum_abs _ _).trans ?_
      calc ∑ r ∈ range (n + 1), |g r * chebT i (chebNode n r)| ≤ ∑ _r ∈ range (n + 1), E := by
            refine sum_le_sum (fun r hr => ?_)
            have hr : r ≤ n := by have := mem_range.mp hr; omega
            rw [abs_mul]
            calc |g r| * |chebT i (chebNode n r)| ≤ E * 1 :=
                  mul_le_mul (hg r hr) (hT i (abs_le.2 ⟨(neg_one_lt_chebNode hr).le, (chebNode_lt_one hr).le⟩)) (abs_nonneg _) hE
              _ = E := mul_one E
        _ = ((n : ℝ) + 1) * E := by rw [sum_const, card_range, nsmul_eq_mul]; push_cast; ring
    rw [abs_mul, abs_mul, abs_of_nonneg hw]
    calc |∑ r ∈ range (n + 1), g r * chebT i (chebNode n r)| * chebWeight n i * |chebT i u| ≤ ((n : ℝ) + 1) * E * chebWeight n i * 1 :=
          mul_le_mul (mul_le_mul_of_nonneg_right hs hw) (hT i hu) (abs_nonneg _) (by positivity)
      _ = ((n : ℝ) + 1) * E * chebWeight n i := mul_one _
  have hsum : ∑ i ∈ range (n + 1), chebWeight n i = (2 * n + 1) / ((n : ℝ) + 1) := by
    rw [sum_range_succ']
    have : ∀ i ∈ range n, chebWeight n (i + 1) = 2 / ((n : ℝ) + 1) := fun i _ => by unfold chebWeight; rw [if_neg (by omega)]
    rw [sum_congr rfl this, sum_const, card_range, chebWeight, if_pos rfl, nsmul_eq_mul]
    field_simp
  unfold chebInterp
  refine (abs_sum_le_sum_abs _ _).trans ((sum_le_sum (fun i _ => hterm i)).trans ?_)
  rw [← mul_sum, hsum]
  apply le_of_eq
  field_simp

theorem chebInterp_sub (n : Nat) (g g' : Nat → ℝ) (u : ℝ) : chebInterp n g u - chebInterp n g' u = chebInterp n (fun r => g r - g' r) u := by
  unfold chebInterp
  rw [← sum_sub_distrib]
  refine sum_congr rfl (fun i _ => ?_)
  rw [← sub_mul, ← sub_mul, ← sum_sub_distrib]
  congr 2
  exact sum_congr rfl (fun r _ => by ring)

end MU
