import Verif.Props.Integration1d
import Verif.Props.Convolution
import Verif.Props.PowerSeries
import Verif.Props.AccuracyChebyshev
import Verif.Props.ChebyshevAlgebra
import Verif.Props.TriangleAccuracy
import Verif.Props.Fft

/-!
# C225: errors in the data of sums, integrals and series

What becomes of errors of at most `e` in the ordinates, the signal, the coefficients or the function handed to the library. The interpolations are in C117 and C165.
-/

set_option linter.unusedSectionVars false

namespace MU
open Spec Finset

/-! ## Integrals of samples -/

section samples
variable {K : Type} [Field K] [LinearOrder K] [IsStrictOrderedRing K]

theorem abs_weighted_le {n : Nat} {w u v : Nat → K} {e : K} (h : ∀ i, i < n → |u i - v i| ≤ e) :
    |∑ i ∈ range n, w i * u i - ∑ i ∈ range n, w i * v i| ≤ (∑ i ∈ range n, |w i|) * e := by
  rw [← sum_sub_distrib, sum_mul]
  refine (abs_sum_le_sum_abs _ _).trans (sum_le_sum fun i hi => ?_)
  rw [← mul_sub, abs_mul]
  exact mul_le_mul_of_nonneg_left (h i (mem_range.1 hi)) (abs_nonneg _)

/-- C225: ordinates that differ by at most `e` have integrals that differ by at most `e` times the length of the range, for every increasing abscissae. -/
theorem C225_trapz (B : Build) {x y z : List K} {e : K} (h2 : 2 ≤ y.length) (h64 : y.length < 2 ^ 64) (hx : x.length = y.length) (hz : z.length = y.length)
    (hinc : ∀ i, i + 1 < x.length → x.getD i 0 ≤ x.getD (i + 1) 0) (he : ∀ i, i < y.length → |y.getD i 0 - z.getD i 0| ≤ e) :
    ∃ s t, trapz B x y = .ok s ∧ trapz B x z = .ok t ∧ |s - t| ≤ (x.getD (x.length - 1) 0 - x.getD 0 0) * e := by
  refine ⟨_, _, (C40_panels B x y 0 h2 h64).1 hx, (C40_panels B x z 0 (by omega) (by omega)).1 (by omega), ?_⟩
  rw [hz, ← sum_sub_distrib, hx, ← sum_range_sub (fun i => x.getD i 0), sum_mul]
  refine (abs_sum_le_sum_abs _ _).trans (sum_le_sum fun i hi => ?_)
  have hi := mem_range.1 hi
  have a := abs_le.1 (he i (by omega))
  have b := abs_le.1 (he (i + 1) (by omega))
  have c := hinc i (by omega)
  rw [show (x.getD (i + 1) 0 - x.getD i 0) * (y.getD i 0 + y.getD (i + 1) 0) / 2 - (x.getD (i + 1) 0 - x.getD i 0) * (z.getD i 0 + z.getD (i + 1) 0) / 2 =
    (x.getD (i + 1) 0 - x.getD i 0) * (((y.getD i 0 - z.getD i 0) + (y.getD (i + 1) 0 - z.getD (i + 1) 0)) / 2) by ring, abs_mul, abs_of_nonneg (by linarith)]
  refine mul_le_mul_of_nonneg_left (abs_le.2 ⟨?_, ?_⟩) (by linarith)
  · linarith [a.1, b.1]
  · linarith [a.2, b.2]

/-- The bound is attained: an error of `1` in each ordinate on a range of length 4 changes the integral by 4. -/
example : trapz ⟨true⟩ [(0 : ℚ), 1, 4] [5, 2, 7] = .ok 17 ∧ trapz ⟨true⟩ [(0 : ℚ), 1, 4] [6, 3, 8] = .ok 21 ∧
    (∀ i, i < 3 → |[(5 : ℚ), 2, 7].getD i 0 - [6, 3, 8].getD i 0| ≤ 1) ∧ (∀ i, i < 2 → [(0 : ℚ), 1, 4].getD i 0 ≤ [0, 1, 4].getD (i + 1) 0) := by
  decide +kernel

/-- C225, uniform samples, whatever the sign of the step. -/
theorem C225_trapz_uniform {y z : List K} {e : K} (dx : K) (h2 : 2 ≤ y.length) (h64 : y.length < 2 ^ 64) (hz : z.length = y.length)
    (he : ∀ i, i < y.length → |y.getD i 0 - z.getD i 0| ≤ e) :
    ∃ s t, trapzUniform y dx = .ok s ∧ trapzUniform z dx = .ok t ∧ |s - t| ≤ (y.length - 1 : Nat) * |dx| * e := by
  refine ⟨_, _, (C40_panels ⟨true⟩ [] y dx h2 h64).2, (C40_panels ⟨true⟩ [] z dx (by omega) (by omega)).2, ?_⟩
  rw [hz, ← sum_sub_distrib]
  refine (abs_sum_le_sum_abs _ _).trans ?_
  rw [mul_assoc, show ((y.length - 1 : Nat) : K) * (|dx| * e) = ∑ _i ∈ range (y.length - 1), |dx| * e by simp]
  refine sum_le_sum fun i hi => ?_
  have hi := mem_range.1 hi
  have a := abs_le.1 (he i (by omega))
  have b := abs_le.1 (he (i + 1) (by omega))
  rw [show dx * (y.getD i 0 + y.getD (i + 1) 0) / 2 - dx * (z.getD i 0 + z.getD (i + 1) 0) / 2 =
    dx * (((y.getD i 0 - z.getD i 0) + (y.getD (i + 1) 0 - z.getD (i + 1) 0)) / 2) by ring, abs_mul]
  refine mul_le_mul_of_nonneg_left (abs_le.2 ⟨?_, ?_⟩) (abs_nonneg _)
  · linarith [a.1, b.1]
  · linarith [a.2, b.2]

example : trapzUniform [(5 : ℚ), 2, 7] 2 = .ok 16 ∧ trapzUniform [(6 : ℚ), 3, 8] 2 = .ok 20 := by decide +kernel

/-- C225, convolution: errors of at most `e` in the signal change the result by at most `e |dt|` times the trapezoidal sum of the magnitudes of the kernel. -/
theorem C225_signal (B : Build) {kernel s s' : List K} {e : K} (dt : K) (reverse : Bool) (h2 : 2 ≤ kernel.length) (h64 : kernel.length < 2 ^ 64)
    (h : kernel.length ≤ s.length) (hs : s'.length = s.length) (he : ∀ i, i < s.length → |s.getD i 0 - s'.getD i 0| ≤ e) :
    ∃ p q, naiveConvolution B kernel s dt reverse = .ok p ∧ naiveConvolution B kernel s' dt reverse = .ok q ∧
      |p - q| ≤ |dt| * ((∑ i ∈ range kernel.length, trapzWeight kernel.length i * |kernel.getD i 0|) * e) := by
  refine ⟨_, _, C66_value B kernel s dt reverse h2 h64 h, C66_value B kernel s' dt reverse h2 h64 (by omega), ?_⟩
  rw [← mul_sub, abs_mul]
  refine mul_le_mul_of_nonneg_left ?_ (abs_nonneg _)
  simp only [← mul_assoc]
  refine (abs_weighted_le (w := fun i => trapzWeight kernel.length i * kernel.getD i 0)
    (u := fun i => s.getD (if reverse then i else kernel.length - 1 - i) 0) (v := fun i => s'.getD (if reverse then i else kernel.length - 1 - i) 0)
    (fun i hi => he _ (by split_ifs <;> omega))).trans (le_of_eq ?_)
  congr 1
  refine sum_congr rfl fun i _ => ?_
  rw [abs_mul, abs_of_nonneg (show (0 : K) ≤ trapzWeight kernel.length i by unfold trapzWeight; split_ifs <;> norm_num)]

/-- C225, convolution: errors of at most `e` in the kernel, the same with the magnitudes of the signal. -/
theorem C225_kernel (B : Build) {k k' s : List K} {e : K} (dt : K) (h2 : 2 ≤ k.length) (h64 : k.length < 2 ^ 64)
    (h : k.length ≤ s.length) (hk : k'.length = k.length) (he : ∀ i, i < k.length → |k.getD i 0 - k'.getD i 0| ≤ e) :
    ∃ p q, naiveConvolution B k s dt true = .ok p ∧ naiveConvolution B k' s dt true = .ok q ∧
      |p - q| ≤ |dt| * ((∑ i ∈ range k.length, trapzWeight k.length i * |s.getD i 0|) * e) := by
  refine ⟨_, _, C66_value B k s dt true h2 h64 h, C66_value B k' s dt true (by omega) (by omega) (by omega), ?_⟩
  rw [← mul_sub, abs_mul, hk]
  refine mul_le_mul_of_nonneg_left ?_ (abs_nonneg _)
  simp only [if_true, mul_comm (List.getD k _ _), mul_comm (List.getD k' _ _)]
  simp only [← mul_assoc]
  refine (abs_weighted_le (w := fun i => trapzWeight k.length i * s.getD i 0) (u := fun i => k.getD i 0) (v := fun i => k'.getD i 0)
    (fun i hi => he i hi)).trans (le_of_eq ?_)
  congr 1
  refine sum_congr rfl fun i _ => ?_
  rw [abs_mul, abs_of_nonneg (show (0 : K) ≤ trapzWeight k.length i by unfold trapzWeight; split_ifs <;> norm_num)]

example : naiveConvolution ⟨true⟩ [(1 : ℚ), -2, 3] [4, 5, 6, 100] (1 / 2) true = .ok (1 / 2) ∧
    naiveConvolution ⟨true⟩ [(1 : ℚ), -2, 3] [5, 4, 7, 100] (1 / 2) true = .ok (5 / 2) := by decide +kernel

/-! ## Polynomials -/

/-- C225: coefficients that differ by at most `e` give values that differ by at most `e` times the sum of the powers of `|x|`. -/
theorem C225_horner {c d : List K} {e : K} (hc : c ≠ []) (hd : d.length = c.length) (he : ∀ i, i < c.length → |c.getD i 0 - d.getD i 0| ≤ e) (x : K) :
    ∃ p q, horner c x = .ok p ∧ horner d x = .ok q ∧ |p - q| ≤ (∑ i ∈ range c.length, |x| ^ i) * e := by
  have hd0 : d ≠ [] := by
    rintro rfl
    exact hc (List.length_eq_zero_iff.1 (by simpa using hd.symm))
  refine ⟨_, _, (C27_horner c x).1 hc, (C27_horner d x).1 hd0, ?_⟩
  simp only [Algebra.algebraMap_self, RingHom.id_apply, hd, mul_comm _ (x ^ _)]
  refine (abs_weighted_le (w := fun i => x ^ i) (u := fun i => c.getD i 0) (v := fun i => d.getD i 0) he).trans (le_of_eq ?_)
  simp only [abs_pow]

/-- In particular by at most `e` times the number of coefficients on `[-1, 1]`. -/
theorem C225_horner_unit {c d : List K} {e : K} (hc : c ≠ []) (hd : d.length = c.length) (he : ∀ i, i < c.length → |c.getD i 0 - d.getD i 0| ≤ e) {x : K}
    (hx : |x| ≤ 1) :
    ∃ p q, horner c x = .ok p ∧ horner d x = .ok q ∧ |p - q| ≤ c.length * e := by
  obtain ⟨p, q, h1, h2, h3⟩ := C225_horner hc hd he x
  have h0 : 0 ≤ e := (abs_nonneg _).trans (he 0 (List.length_pos_of_ne_nil hc))
  refine ⟨p, q, h1, h2, h3.trans (mul_le_mul_of_nonneg_right ?_ h0)⟩
  calc ∑ i ∈ range c.length, |x| ^ i ≤ ∑ _i ∈ range c.length, (1 : K) := sum_le_sum fun i _ => pow_le_one₀ (abs_nonneg _) hx
    _ = c.length := by simp

/-- Both bounds are attained. -/
example : horner [(1 : ℚ), 2, 3] (10 : ℚ) = .ok 321 ∧ horner [(2 : ℚ), 3, 4] (10 : ℚ) = .ok 432 ∧ horner [(1 : ℚ), 2, 3] (1 : ℚ) = .ok 6 ∧
    horner [(2 : ℚ), 3, 4] (1 : ℚ) = .ok 9 := by decide +kernel

/-- C225, the derivative. -/
theorem C225_horner_derivative {c d : List K} {e : K} (hc : c ≠ []) (hd : d.length = c.length) (he : ∀ i, i < c.length → |c.getD i 0 - d.getD i 0| ≤ e) (x : K) :
    ∃ p q, hornerDerivative c x = .ok p ∧ hornerDerivative d x = .ok q ∧ |p - q| ≤ (∑ i ∈ range c.length, (i : K) * |x| ^ (i - 1)) * e := by
  have hd0 : d ≠ [] := by
    rintro rfl
    exact hc (List.length_eq_zero_iff.1 (by simpa using hd.symm))
  refine ⟨_, _, hornerDerivative_ok hc x, hornerDerivative_ok hd0 x, ?_⟩
  simp only [Algebra.algebraMap_self, RingHom.id_apply, hd, mul_right_comm _ _ (x ^ _)]
  refine (abs_weighted_le (w := fun i => (i : K) * x ^ (i - 1)) (u := fun i => c.getD i 0) (v := fun i => d.getD i 0) he).trans (le_of_eq ?_)
  simp only [abs_mul, abs_pow, Nat.abs_cast]

example : hornerDerivative [(1 : ℚ), 2, 3] (10 : ℚ) = .ok 62 ∧ hornerDerivative [(2 : ℚ), 3, 4] (10 : ℚ) = .ok 83 := by decide +kernel

theorem poly1_near {n : Nat} {b c : Nat → K} {e u : K} (he : ∀ i, i < n → |b i - c i| ≤ e) (h0 : 0 ≤ e) (hu : |u| ≤ 1) :
    |poly1 n b u - poly1 n c u| ≤ n * e := by
  unfold poly1
  simp only [mul_comm _ (u ^ _)]
  refine (abs_weighted_le (w := fun i => u ^ i) he).trans (mul_le_mul_of_nonneg_right ?_ h0)
  calc ∑ i ∈ range n, |u ^ i| ≤ ∑ _i ∈ range n, (1 : K) := sum_le_sum fun i _ => by rw [abs_pow]; exact pow_le_one₀ (abs_nonneg _) hu
    _ = n := by simp

theorem poly2_near {n m : Nat} {b c : Nat → Nat → K} {e u v : K} (he : ∀ i j, i < n → j < m → |b i j - c i j| ≤ e) (h0 : 0 ≤ e) (hu : |u| ≤ 1) (hv : |v| ≤ 1) :
    |poly2 n m b u v - poly2 n m c u v| ≤ n * (m * e) := by
  have h : ∀ b : Nat → Nat → K, poly2 n m b u v = poly1 n (fun i => poly1 m (b i) v) u := by
    intro b
    simp only [poly1, poly2, sum_mul]
    exact sum_congr rfl fun i _ => sum_congr rfl fun j _ => by ring
  rw [h, h]
  exact poly1_near (fun i hi => poly1_near (fun j hj => he i j hi hj) h0 hv) (by positivity) hu

theorem poly3_near {n m l : Nat} {b c : Nat → Nat → Nat → K} {e u v w : K} (he : ∀ i j k, i < n → j < m → k < l → |b i j k - c i j k| ≤ e) (h0 : 0 ≤ e)
    (hu : |u| ≤ 1) (hv : |v| ≤ 1) (hw : |w| ≤ 1) :
    |poly3 n m l b u v w - poly3 n m l c u v w| ≤ n * (m * (l * e)) := by
  have h : ∀ b : Nat → Nat → Nat → K, poly3 n m l b u v w = poly2 n m (fun i j => poly1 l (b i j) w) u v := by
    intro b
    simp only [poly1, poly2, poly3, sum_mul]
    exact sum_congr rfl fun i _ => sum_congr rfl fun j _ => sum_congr rfl fun k _ => by ring
  rw [h, h]
  exact poly2_near (fun i j hi hj => poly1_near (fun k hk => he i j k hi hj hk) h0 hw) (by positivity) hu hv

end samples

/-! ## Chebyshev series -/

theorem chebInterp_diff {n : Nat} {g h : Nat → ℝ} {e : ℝ} (he : ∀ r, r ≤ n → |g r - h r| ≤ e) {u : ℝ} (hu : |u| ≤ 1) :
    |chebInterp n g u - chebInterp n h u| ≤ (2 * n + 1) * e := by
  have := chebInterp_linear n g h 1 (-1) u
  rw [show chebInterp n g u - chebInterp n h u = 1 * chebInterp n g u + -1 * chebInterp n h u by ring, ← this]
  exact abs_chebInterp_le n (fun r hr => by rw [show 1 * g r + -1 * h r = g r - h r by ring]; exact he r hr) hu

theorem Spec.Domain.Mem.unit_abs {X : Domain ℝ} (hX : X.Usual) {x : ℝ} (hx : X.Mem x) : X.Defined x ∧ |X.unit x| ≤ 1 :=
  ⟨(Domain.mem_unit hX hx).1, abs_le.2 (Domain.unitSet_subset X (Domain.mem_unit hX hx).2)⟩

/-- C225: functions that differ by at most `e` on the domain have series of order `n` that differ there by at most `(2 n + 1) e`. -/
theorem C225_chebyshev_1d (B : Build) {F G : ℝ → ℝ} {n : Nat} {X : Domain ℝ} (hX : X.Usual) {s t : CS1 ℝ} (hs : Fresh1 F n s X) (ht : Fresh1 G n t X) {e : ℝ}
    (he : ∀ x, X.Mem x → |F x - G x| ≤ e) :
    ∃ s' t', s.computeAi B = .ok s' ∧ t.computeAi B = .ok t' ∧ ∀ x, X.Mem x →
      ∃ p q, s'.evaluate B x = .ok p ∧ t'.evaluate B x = .ok q ∧ |p - q| ≤ (2 * n + 1) * e := by
  obtain ⟨s', h1, h2⟩ := hs.series B
  obtain ⟨t', h3, h4⟩ := ht.series B
  refine ⟨s', t', h1, h3, fun x hx => ?_⟩
  obtain ⟨hd, hu⟩ := hx.unit_abs hX
  exact ⟨_, _, h2 x hd, h4 x hd, chebInterp_diff (fun r hr => he _ (((C37_nodes hX).1 r hr).1)) hu⟩

/-- C225, two variables: `(2 n + 1) (2 m + 1) e`. -/
theorem C225_chebyshev_2d (B : Build) {F G : ℝ → ℝ → ℝ} {n m : Nat} {X Y : Domain ℝ} (hX : X.Usual) (hY : Y.Usual) {s t : CS2 ℝ} (hs : Fresh2 F n m s X Y)
    (ht : Fresh2 G n m t X Y) {e : ℝ} (he : ∀ x y, X.Mem x → Y.Mem y → |F x y - G x y| ≤ e) :
    ∃ s' t', s.computeAij B = .ok s' ∧ t.computeAij B = .ok t' ∧ ∀ x y, X.Mem x → Y.Mem y →
      ∃ p q, s'.evaluate B x y = .ok p ∧ t'.evaluate B x y = .ok q ∧ |p - q| ≤ (2 * n + 1) * ((2 * m + 1) * e) := by
  obtain ⟨s', h1, h2⟩ := hs.series B
  obtain ⟨t', h3, h4⟩ := ht.series B
  refine ⟨s', t', h1, h3, fun x y hx hy => ?_⟩
  obtain ⟨hd, hu⟩ := hx.unit_abs hX
  obtain ⟨hd', hu'⟩ := hy.unit_abs hY
  exact ⟨_, _, h2 x y hd hd', h4 x y hd hd', chebInterp_diff (fun r hr => chebInterp_diff (fun q hq =>
    he _ _ (((C37_nodes hX).1 r hr).1) (((C37_nodes hY).1 q hq).1)) hu') hu⟩

/-- C225, three variables. -/
theorem C225_chebyshev_3d (B : Build) {F G : ℝ → ℝ → ℝ → ℝ} {n m l : Nat} {X Y Z : Domain ℝ} (hX : X.Usual) (hY : Y.Usual) (hZ : Z.Usual) {s t : CS3 ℝ}
    (hs : Fresh3 F n m l s X Y Z) (ht : Fresh3 G n m l t X Y Z) {e : ℝ} (he : ∀ x y z, X.Mem x → Y.Mem y → Z.Mem z → |F x y z - G x y z| ≤ e) :
    ∃ s' t', s.computeAijk B = .ok s' ∧ t.computeAijk B = .ok t' ∧ ∀ x y z, X.Mem x → Y.Mem y → Z.Mem z →
      ∃ p q, s'.evaluate B x y z = .ok p ∧ t'.evaluate B x y z = .ok q ∧ |p - q| ≤ (2 * l + 1) * ((2 * n + 1) * ((2 * m + 1) * e)) := by
  obtain ⟨s', h1, h2⟩ := hs.series B
  obtain ⟨t', h3, h4⟩ := ht.series B
  refine ⟨s', t', h1, h3, fun x y z hx hy hz => ?_⟩
  obtain ⟨hd, hu⟩ := hx.unit_abs hX
  obtain ⟨hd', hu'⟩ := hy.unit_abs hY
  obtain ⟨hd'', hu''⟩ := hz.unit_abs hZ
  exact ⟨_, _, h2 x y z hd hd' hd'', h4 x y z hd hd' hd'', chebInterp_diff (fun k hk => chebInterp_diff (fun r hr => chebInterp_diff (fun q hq =>
    he _ _ _ (((C37_nodes hX).1 r hr).1) (((C37_nodes hY).1 q hq).1) (((C37_nodes hZ).1 k hk).1)) hu') hu) hu''⟩

example : (Domain.segment (0 : ℝ) 1).Usual ∧ Fresh1 Real.exp 7 (CS1.closed Real.exp 0 1 7) (.segment 0 1) ∧
    Fresh1 (fun x => Real.exp x + 1 / 100) 7 (CS1.closed (fun x => Real.exp x + 1 / 100) 0 1 7) (.segment 0 1) ∧
    ∀ x : ℝ, |Real.exp x - (Real.exp x + 1 / 100)| ≤ 1 / 100 := by
  refine ⟨by show (0 : ℝ) < 1; norm_num, .closed 0 1, .closed 0 1, fun x => ?_⟩
  rw [sub_add_cancel_left, abs_neg]
  norm_num [abs_of_nonneg]

/-! ## Power series -/

/-- C225, power series of one variable: coefficients that differ by at most `e` give values that differ by at most `e` times their number, on the domain. -/
theorem C225_power_1d (B : Build) {b c : List ℝ} (hb : b ≠ []) (hc : c.length = b.length) {s t : PS1 ℝ} {X : Domain ℝ} (hX : X.Usual) (hs : Built1 b s X)
    (ht : Built1 c t X) {e : ℝ} (he : ∀ i, i < b.length → |b.getD i 0 - c.getD i 0| ≤ e) {x : ℝ} (hx : X.Mem x) :
    ∃ p q, s.evaluate B x = .ok p ∧ t.evaluate B x = .ok q ∧ |p - q| ≤ b.length * e := by
  have hl := List.length_pos_of_ne_nil hb
  obtain ⟨hd, hu⟩ := hx.unit_abs hX
  refine ⟨_, _, C29_evaluate_1d B hb hs hd, C29_evaluate_1d B (List.ne_nil_of_length_pos (by omega)) ht hd, ?_⟩
  rw [hc]
  exact poly1_near he ((abs_nonneg _).trans (he 0 hl)) hu

/-- C225, power series of two variables. -/
theorem C225_power_2d (B : Build) {b c : Mat ℝ} (hr : b.rows ≠ 0) (hcol : b.cols ≠ 0) (hr' : c.rows = b.rows) (hc' : c.cols = b.cols) {s t : PS2 ℝ}
    {X Y : Domain ℝ} (hX : X.Usual) (hY : Y.Usual) (hs : Built2 b s X Y) (ht : Built2 c t X Y) {e : ℝ}
    (he : ∀ i j, i < b.rows → j < b.cols → |b.entry i j - c.entry i j| ≤ e) {x y : ℝ} (hx : X.Mem x) (hy : Y.Mem y) :
    ∃ p q, s.evaluate B x y = .ok p ∧ t.evaluate B x y = .ok q ∧ |p - q| ≤ b.rows * (b.cols * e) := by
  obtain ⟨hd, hu⟩ := hx.unit_abs hX
  obtain ⟨hd', hu'⟩ := hy.unit_abs hY
  refine ⟨_, _, C29_evaluate_2d B hr hcol hs hd hd', C29_evaluate_2d B (by omega) (by omega) ht hd hd', ?_⟩
  rw [hr', hc']
  exact poly2_near he ((abs_nonneg _).trans (he 0 0 (by omega) (by omega))) hu hu'

/-- C225, power series of three variables. -/
theorem C225_power_3d (B : Build) {b c : List (Mat ℝ)} {n m l : Nat} {f g : Nat → Nat → Nat → ℝ} (hb : Cube b n m l f) (hc : Cube c n m l g) {s t : PS3 ℝ}
    {X Y Z : Domain ℝ} (hX : X.Usual) (hY : Y.Usual) (hZ : Z.Usual) (hs : Built3 b s X Y Z) (ht : Built3 c t X Y Z) {e : ℝ} (h0 : 0 ≤ e)
    (he : ∀ i j k, i < n → j < m → k < l → |f i j k - g i j k| ≤ e) {x y z : ℝ} (hx : X.Mem x) (hy : Y.Mem y) (hz : Z.Mem z) :
    ∃ p q, s.evaluate B x y z = .ok p ∧ t.evaluate B x y z = .ok q ∧ |p - q| ≤ n * (m * (l * e)) := by
  obtain ⟨hd, hu⟩ := hx.unit_abs hX
  obtain ⟨hd', hu'⟩ := hy.unit_abs hY
  obtain ⟨hd'', hu''⟩ := hz.unit_abs hZ
  exact ⟨_, _, C29_evaluate_3d B hb hs hd hd' hd'', C29_evaluate_3d B hc ht hd hd' hd'', poly3_near he h0 hu hu' hu''⟩

example : Built1 [(1 : ℝ), 2] (PS1.closed [1, 2] 0 4) (.segment 0 4) ∧ Built1 [(1 : ℝ), 5 / 2] (PS1.closed [1, 5 / 2] 0 4) (.segment 0 4) ∧
    (Domain.segment (0 : ℝ) 4).Usual ∧ (Domain.segment (0 : ℝ) 4).Mem 3 :=
  ⟨.closed 0 4, .closed 0 4, by show (0 : ℝ) < 4; norm_num, by constructor <;> norm_num⟩

/-! ## Fourier transform -/

/-- C225: samples that differ by at most `e` have spectra that differ by at most `e` times their number at each frequency, whatever the flags of the object. -/
theorem C225_fft (o : FFTObj) {v w : List ℝ} (hw : w.length = v.length) {e : ℝ} (he : ∀ i, i < v.length → |v.getD i 0 - w.getD i 0| ≤ e) :
    (o.fft w).length = (o.fft v).length ∧
    ∀ k (h : k < (o.fft v).length) (h' : k < (o.fft w).length), ‖(o.fft v)[k] - (o.fft w)[k]‖ ≤ v.length * e := by
  obtain ⟨lv, ev⟩ := C87_forward o v
  obtain ⟨lw, ew⟩ := C87_forward o w
  refine ⟨by rw [lv, lw, hw], fun k h h' => ?_⟩
  rw [ev k h, ew k h', hw, ← sum_sub_distrib]
  refine (norm_sum_le _ _).trans ?_
  rw [show (v.length : ℝ) * e = ∑ _i ∈ range v.length, e by simp]
  refine sum_le_sum fun j hj => ?_
  rw [← sub_mul, norm_mul, show (-(2 * Real.pi * Complex.I * j * k / v.length) : ℂ) = ((-(2 * Real.pi * j * k / v.length) : ℝ) : ℂ) * Complex.I by push_cast; ring,
    Complex.norm_exp_ofReal_mul_I, mul_one, ← Complex.ofReal_sub, Complex.norm_real]
  exact he j (mem_range.1 hj)

example : ∀ i, i < 3 → |[(1 : ℚ), 2, 3].getD i 0 - [2, 1, 4].getD i 0| ≤ 1 := by decide +kernel

/-! ## Quadrature on triangles -/

/-- C225: integrands that differ by at most `e` in the triangle have computed integrals that differ by at most `5/2` times the area times `e`, for every order. -/
theorem C225_triangle {k : Nat} (h1 : 1 ≤ k) (h8 : k ≤ 8) (F G : V3 → ℝ) (v1 v2 v3 : V3) {e : ℝ} (he : ∀ x, InTriangle v1 v2 v3 x → |F x - G x| ≤ e) :
    ∃ sF sG rF rG, Integration2dTriangle.new F k = .ok sF ∧ Integration2dTriangle.new G k = .ok sG ∧
      sF.compute v1 v2 v3 = .ok rF ∧ sG.compute v1 v2 v3 = .ok rG ∧ |rF - rG| ≤ area v1 v2 v3 * (5 / 2 * e) := by
  refine ⟨_, _, _, _, new_ok F h1 h8, new_ok G h1 h8, compute_ok F h1 h8 v1 v2 v3, compute_ok G h1 h8 v1 v2 v3, ?_⟩
  have hq := qsum_le h1 h8 (fun a b => F (barPoint v1 v2 v3 a b) - G (barPoint v1 v2 v3 a b)) (e := e)
    (fun a b ha hb hab => he _ ⟨a, b, ha, hb, hab, rfl⟩)
  have hs : qsum (tableOf k) (fun a b => F (barPoint v1 v2 v3 a b) - G (barPoint v1 v2 v3 a b))
      = qsum (tableOf k) (fun a b => F (barPoint v1 v2 v3 a b)) - qsum (tableOf k) (fun a b => G (barPoint v1 v2 v3 a b)) := by
    simp only [qsum, smul_eq_mul, mul_sub, sum_sub_distrib]
  rw [hs] at hq
  rw [smul_eq_mul, smul_eq_mul, ← mul_sub, abs_mul, abs_of_nonneg (area_nonneg v1 v2 v3)]
  exact mul_le_mul_of_nonneg_left hq (area_nonneg v1 v2 v3)

example : ∀ x : V3, |(fun x : V3 => x 0 * x 1) x - (fun x : V3 => x 0 * x 1 + 1 / 4) x| ≤ 1 / 4 := by
  intro x
  simp only [sub_add_cancel_left, abs_neg]
  norm_num [abs_of_nonneg]

end MU
