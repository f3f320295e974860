import Verif.Props.RoundedConversion
import Verif.Props.RoundedChebyshevCompute2

set_option linter.unusedSectionVars false

/-!
# From a function of two or three variables to its power series, in double arithmetic

C160: the computation of the Chebyshev coefficients, their conversion and the evaluation of the power series, all in double, against the function.
-/

namespace MU
open Spec Finset Polynomial

variable {rnd : ℝ → ℝ} {cosR : ℝ → ℝ} {TR : Nat → ℝ → ℝ}

theorem convErr_nonneg (k : Nat) {E : ℝ} (hE : 0 ≤ E) : 0 ≤ convErr k E := by
  have h6 : (0 : ℝ) ≤ (k : ℝ) / 2 ^ 53 := by positivity
  unfold convErr
  nlinarith

/-- The error of the conversion, of the coefficients and of the truncation add up. -/
theorem chain_total {v p q g E S S' a b : ℝ} (hE : 0 ≤ E) (h1 : |v - p| ≤ E * S) (hS : S ≤ S') (h2 : |p - q| ≤ a) (h3 : |q - g| ≤ b) :
    |v - g| ≤ b + a + E * S' := by
  have e1 := abs_sub_le v p g
  have e2 := abs_sub_le p q g
  have e3 := mul_le_mul_of_nonneg_left hS hE
  linarith

/-- C160, the whole chain in two variables: `Compute_aij`, `Compute_bij` and `Evaluate` of the power series, all in double, against the function. -/
theorem C160_accuracy_2d (hr : ToNearest rnd) (hc : CosClose cosR) (B : Build) {F G : ℝ → ℝ → ℝ} {n m : Nat} {s : CS2 ℝ} {X Y : Domain ℝ}
    (hs : Fresh2 F n m s X Y) (hn18 : n ≤ 18) (hm18 : m ≤ 18) (hX : X.Usual) (hY : Y.Usual) (hn : X.cond * ((n : ℝ) + 1) ^ 2 ≤ 2 ^ 40)
    (hm : Y.cond * ((m : ℝ) + 1) ^ 2 ≤ 2 ^ 40) {ε φ Lx Ly M Dx Dy : ℝ} (hT : PolyClose ε (max n m) TR) (hε : ε ≤ 1) (hF : Computes2 F G X Y φ Lx Ly M)
    (hGx : ∀ y, Y.Mem y → DerivBoundOn (n + 1) (fun x => G x y) X Dx)
    (hGy : ∀ x, X.Mem x → DerivBoundOn (m + 1) (fun y => G x y) Y Dy) :
    ∃ s' b, s.computeAijR rnd cosR TR B = .ok s' ∧ s'.computeBijR rnd B = .ok b ∧ ∀ ps, Built2 b ps X Y → ∀ x y, X.Mem x → Y.Mem y →
      ∃ v, ps.evaluateR rnd B x y = .ok v ∧
        |v - G x y| ≤ Dx / (2 ^ n * (n + 1).factorial) + (2 * n + 1) * (Dy / (2 ^ m * (m + 1).factorial)) +
          (n + 1) * ((m + 1) * coeffErr2 n m (X.cond * Lx + Y.cond * Ly) ε φ M) +
          convErr (n + m + 15) ((1 + powErr n X.cond) * (1 + powErr m Y.cond) - 1) *
            ∑ r ∈ range (n + 1), ∑ t ∈ range (m + 1), (4 * M + coeffErr2 n m (X.cond * Lx + Y.cond * Ly) ε φ M) * (1 + √2) ^ t * (1 + √2) ^ r := by
  have hnm : (n + 1) * (m + 1) ≤ 2 ^ 25 := (Nat.mul_le_mul (Nat.succ_le_succ hn18) (Nat.succ_le_succ hm18)).trans (by norm_num)
  obtain ⟨s₀, hs₀⟩ := hs.other G
  obtain ⟨s₁, h9, h10⟩ := C112_error_2d B hs₀ hX hY hGx hGy
  obtain ⟨sx, sy, rfl, rfl, h⟩ := hs.holds
  obtain ⟨sx₀, sy₀, ex₀, ey₀, h₀⟩ := hs₀.holds
  obtain ⟨t, x, hx, hx'⟩ := abscissaeR_ok hr hc hX hn
  obtain ⟨u, y, hy, hy'⟩ := abscissaeR_ok hr hc hY hm
  obtain ⟨s', h1, h2⟩ := CS2.computeAijR_ok (TR := TR) B h hx hy
  obtain ⟨s₀', h3, h4⟩ := CS2.computeAij_ok B h₀
  rw [h3] at h9
  injection h9 with h9
  obtain ⟨-, b2, b3, b4, b5, e0, b6, b7⟩ := h2
  obtain ⟨b, c1, c2⟩ := C160_error_2d hr B (s := s') (by rw [b6, b2]) (by rw [b6, b3]) (by omega) (by omega) (by rw [b4]; exact hX) (by rw [b5]; exact hY)
  refine ⟨s', b, h1, c1, fun ps hps p q hp hq => ?_⟩
  obtain ⟨v, v1, v2⟩ := c2 ps (by rw [b4, b5]; exact hps) p q (by rw [b4]; exact hp) (by rw [b5]; exact hq)
  refine ⟨v, v1, ?_⟩
  rw [b2, b3, b4, b5] at v2
  obtain ⟨w, w1, w2⟩ := h10 p q hp hq
  rw [← h9, CS2.evaluate_ok B h4 (by rw [ex₀]; exact (Domain.mem_unit hX hp).1) (by rw [ey₀]; exact (Domain.mem_unit hY hq).1)] at w1
  injection w1 with w1
  rw [← w1, ex₀, ey₀] at w2
  have hco : ∀ i j, i ≤ n → j ≤ m → |s'.m_aij.entry i j - CS2.next G n m sx.dom sy.dom (i, j) 0| ≤
      coeffErr2 n m (sx.dom.cond * Lx + sy.dom.cond * Ly) ε φ M := fun i j hi hj => by
    rw [b6]
    show |e0 (i, j) - _| ≤ _
    rw [b7 i j (by omega) (by omega)]
    exact coeff_close_2d hr hX hY hnm hT hε hF hx' hy' hi hj
  have hEx := powErr_nonneg n (Domain.cond_ge hX)
  have hEy := powErr_nonneg m (Domain.cond_ge hY)
  refine chain_total (convErr_nonneg _ (by nlinarith)) v2 ?_ ((cheb2_sub_le (unit_le hX hp) (unit_le hY hq) _ _ _ _).trans ?_) w2
  · refine sum_le_sum fun i hi => sum_le_sum fun j hj => mul_le_mul_of_nonneg_right (mul_le_mul_of_nonneg_right ?_ (by positivity)) (by positivity)
    have e1 := hco i j (by have := mem_range.1 hi; omega) (by have := mem_range.1 hj; omega)
    have e2 := abs_next_le_2d hX hY (n := n) (m := m) hF.bound i j
    have := abs_add_le (s'.m_aij.entry i j - CS2.next G n m sx.dom sy.dom (i, j) 0) (CS2.next G n m sx.dom sy.dom (i, j) 0)
    rw [sub_add_cancel] at this
    linarith
  · exact sum_range_le_const fun i hi => sum_range_le_const fun j hj => hco i j hi hj

/-- C160, the whole chain in three variables. -/
theorem C160_accuracy_3d (hr : ToNearest rnd) (hc : CosClose cosR) (B : Build) {F G : ℝ → ℝ → ℝ → ℝ} {n m l : Nat} {s : CS3 ℝ} {X Y Z : Domain ℝ}
    (hs : Fresh3 F n m l s X Y Z) (hn18 : n ≤ 18) (hm18 : m ≤ 18) (hl18 : l ≤ 18) (hX : X.Usual) (hY : Y.Usual) (hZ : Z.Usual)
    (hn : X.cond * ((n : ℝ) + 1) ^ 2 ≤ 2 ^ 40) (hm : Y.cond * ((m : ℝ) + 1) ^ 2 ≤ 2 ^ 40) (hl : Z.cond * ((l : ℝ) + 1) ^ 2 ≤ 2 ^ 40)
    {ε φ Lx Ly Lz M Dx Dy Dz : ℝ} (hT : PolyClose ε (max n (max m l)) TR) (hε : ε ≤ 1) (hF : Computes3 F G X Y Z φ Lx Ly Lz M)
    (hGx : ∀ y z, Y.Mem y → Z.Mem z → DerivBoundOn (n + 1) (fun x => G x y z) X Dx)
    (hGy : ∀ x z, X.Mem x → Z.Mem z → DerivBoundOn (m + 1) (fun y => G x y z) Y Dy)
    (hGz : ∀ x y, X.Mem x → Y.Mem y → DerivBoundOn (l + 1) (fun z => G x y z) Z Dz) :
    ∃ s' b, s.computeAijkR rnd cosR TR B = .ok s' ∧ s'.computeBijkR rnd B = .ok b ∧ ∀ ps, Built3 b ps X Y Z → ∀ x y z, X.Mem x → Y.Mem y → Z.Mem z →
      ∃ v, ps.evaluateR rnd B x y z = .ok v ∧
        |v - G x y z| ≤ Dz / (2 ^ l * (l + 1).factorial) +
            (2 * l + 1) * (Dx / (2 ^ n * (n + 1).factorial) + (2 * n + 1) * (Dy / (2 ^ m * (m + 1).factorial))) +
          (n + 1) * ((m + 1) * ((l + 1) * coeffErr3 n m l (X.cond * Lx + Y.cond * Ly + Z.cond * Lz) ε φ M)) +
          convErr (n + m + l + 22) ((1 + powErr n X.cond) * (1 + powErr m Y.cond) * (1 + powErr l Z.cond) - 1) *
            ∑ r ∈ range (n + 1), ∑ q ∈ range (m + 1), ∑ t ∈ range (l + 1),
              (8 * M + coeffErr3 n m l (X.cond * Lx + Y.cond * Ly + Z.cond * Lz) ε φ M) * (1 + √2) ^ t * (1 + √2) ^ q * (1 + √2) ^ r := by
  have hnm : (n + 1) * (m + 1) * (l + 1) ≤ 2 ^ 25 :=
    (Nat.mul_le_mul (Nat.mul_le_mul (Nat.succ_le_succ hn18) (Nat.succ_le_succ hm18)) (Nat.succ_le_succ hl18)).trans (by norm_num)
  obtain ⟨s₀, hs₀⟩ := hs.other G
  obtain ⟨s₁, h9, h10⟩ := C112_error_3d B hs₀ hX hY hZ hGx hGy hGz
  obtain ⟨sx, sy, sz, rfl, rfl, rfl, h⟩ := hs.holds
  obtain ⟨sx₀, sy₀, sz₀, ex₀, ey₀, ez₀, h₀⟩ := hs₀.holds
  obtain ⟨t, x, hx, hx'⟩ := abscissaeR_ok hr hc hX hn
  obtain ⟨u, y, hy, hy'⟩ := abscissaeR_ok hr hc hY hm
  obtain ⟨w, z, hz, hz'⟩ := abscissaeR_ok hr hc hZ hl
  obtain ⟨s', h1, h2⟩ := CS3.computeAijkR_ok (TR := TR) B h hx hy hz
  obtain ⟨s₀', h3, h4⟩ := CS3.computeAijk_ok B h₀
  rw [h3] at h9
  injection h9 with h9
  obtain ⟨-, b2, b3, b4, b5, b6, b7, e0, b8, b9⟩ := h2
  have hcube : Cube s'.m_aijk (s'.m_order_x + 1) (s'.m_order_y + 1) (s'.m_order_z + 1) (fun i j k => e0 (i, j, k)) := by
    rw [b8, b2, b3, b4]
    refine ⟨by simp, fun k A hA => ?_, by omega, by omega, by omega⟩
    rw [List.getElem?_map] at hA
    obtain ⟨k', hk, rfl⟩ := Option.map_eq_some_iff.1 hA
    obtain ⟨hk1, hk2⟩ := List.getElem?_eq_some_iff.1 hk
    rw [List.getElem_range] at hk2
    subst hk2
    exact ⟨rfl, rfl, fun i j _ _ => rfl⟩
  obtain ⟨b, c1, c2⟩ := C160_error_3d hr B hcube (by omega) (by omega) (by omega) (by rw [b5]; exact hX) (by rw [b6]; exact hY) (by rw [b7]; exact hZ)
  refine ⟨s', b, h1, c1, fun ps hps p q o hp hq ho => ?_⟩
  obtain ⟨v, v1, v2⟩ := c2 ps (by rw [b5, b6, b7]; exact hps) p q o (by rw [b5]; exact hp) (by rw [b6]; exact hq) (by rw [b7]; exact ho)
  refine ⟨v, v1, ?_⟩
  rw [b2, b3, b4, b5, b6, b7] at v2
  obtain ⟨w, w1, w2⟩ := h10 p q o hp hq ho
  rw [← h9, CS3.evaluate_ok B h4 (by rw [ex₀]; exact (Domain.mem_unit hX hp).1) (by rw [ey₀]; exact (Domain.mem_unit hY hq).1)
    (by rw [ez₀]; exact (Domain.mem_unit hZ ho).1)] at w1
  injection w1 with w1
  rw [← w1, ex₀, ey₀, ez₀] at w2
  have hco : ∀ i j k, i ≤ n → j ≤ m → k ≤ l → |e0 (i, j, k) - CS3.next G n m l sx.dom sy.dom sz.dom (i, j, k) 0| ≤
      coeffErr3 n m l (sx.dom.cond * Lx + sy.dom.cond * Ly + sz.dom.cond * Lz) ε φ M := fun i j k hi hj hk => by
    rw [b9 i j k (by omega) (by omega) (by omega)]
    exact coeff_close_3d hr hX hY hZ hnm hT hε hF hx' hy' hz' hi hj hk
  have hEx := powErr_nonneg n (Domain.cond_ge hX)
  have hEy := powErr_nonneg m (Domain.cond_ge hY)
  have hEz := powErr_nonneg l (Domain.cond_ge hZ)
  have hE : 0 ≤ (1 + powErr n sx.dom.cond) * (1 + powErr m sy.dom.cond) * (1 + powErr l sz.dom.cond) - 1 := by
    have h5 : 1 ≤ (1 + powErr n sx.dom.cond) * (1 + powErr m sy.dom.cond) := by nlinarith
    nlinarith
  refine chain_total (convErr_nonneg _ hE) v2 ?_ ((cheb3_sub_le (unit_le hX hp) (unit_le hY hq) (unit_le hZ ho) _ _ _ _ _).trans ?_) w2
  · refine sum_le_sum fun i hi => sum_le_sum fun j hj => sum_le_sum fun k hk =>
      mul_le_mul_of_nonneg_right (mul_le_mul_of_nonneg_right (mul_le_mul_of_nonneg_right ?_ (by positivity)) (by positivity)) (by positivity)
    have e1 := hco i j k (by have := mem_range.1 hi; omega) (by have := mem_range.1 hj; omega) (by have := mem_range.1 hk; omega)
    have e2 := abs_next_le_3d hX hY hZ (n := n) (m := m) (l := l) hF.bound i j k
    have := abs_add_le (e0 (i, j, k) - CS3.next G n m l sx.dom sy.dom sz.dom (i, j, k) 0) (CS3.next G n m l sx.dom sy.dom sz.dom (i, j, k) 0)
    rw [sub_add_cancel] at this
    linarith
  · exact sum_range_le_const fun i hi => sum_range_le_const fun j hj => sum_range_le_const fun k hk => hco i j k hi hj hk

/-- The sine of the sum of two variables of `[0, 2]` at orders 6 and 6: nodes, coefficients, conversion and value in double. -/
example (B : Build) : ∃ s' b, (CS2.closed (fun x y => roundNearest (Real.sin (x + y))) 0 2 0 2 6 6).computeAijR roundNearest
      (fun t => roundNearest (Real.cos t)) (fun i t => roundNearest ((Chebyshev.T ℝ i).eval t)) B = .ok s' ∧ s'.computeBijR roundNearest B = .ok b ∧
      ∀ ps, Built2 b ps (.segment 0 2) (.segment 0 2) → ∀ x y, (Domain.segment (0 : ℝ) 2).Mem x → (Domain.segment (0 : ℝ) 2).Mem y →
      ∃ v, ps.evaluateR roundNearest B x y = .ok v := by
  have hκ : (Domain.segment (0 : ℝ) 2).cond = 4 := by
    norm_num [Domain.cond]
  obtain ⟨s', b, h1, h2, h3⟩ := C160_accuracy_2d (n := 6) (m := 6) roundNearest_toNearest cosClose_round B (Fresh2.closed 0 2 0 2) (by norm_num) (by norm_num)
    (by norm_num [Domain.Usual]) (by norm_num [Domain.Usual]) (by rw [hκ]; norm_num) (by rw [hκ]; norm_num) (polyClose_round _) (by norm_num)
    sin_computes_2d (fun y _ => sin_shift_derivs 7 y) (fun x _ => by simpa only [add_comm] using sin_shift_derivs 7 x)
  refine ⟨s', b, h1, h2, fun ps hps x y hx hy => ?_⟩
  obtain ⟨v, h5, -⟩ := h3 ps hps x y hx hy
  exact ⟨v, h5⟩

/-- The sine of the sum of three variables of `[0, 2]` at orders 6. -/
example (B : Build) : ∃ s' b, (CS3.closed (fun x y z => roundNearest (Real.sin (x + y + z))) 0 2 0 2 0 2 6 6 6).computeAijkR roundNearest
      (fun t => roundNearest (Real.cos t)) (fun i t => roundNearest ((Chebyshev.T ℝ i).eval t)) B = .ok s' ∧ s'.computeBijkR roundNearest B = .ok b ∧
      ∀ ps, Built3 b ps (.segment 0 2) (.segment 0 2) (.segment 0 2) → ∀ x y z, (Domain.segment (0 : ℝ) 2).Mem x → (Domain.segment (0 : ℝ) 2).Mem y →
      (Domain.segment (0 : ℝ) 2).Mem z → ∃ v, ps.evaluateR roundNearest B x y z = .ok v := by
  have hκ : (Domain.segment (0 : ℝ) 2).cond = 4 := by
    norm_num [Domain.cond]
  obtain ⟨s', b, h1, h2, h3⟩ := C160_accuracy_3d (n := 6) (m := 6) (l := 6) roundNearest_toNearest cosClose_round B (Fresh3.closed 0 2 0 2 0 2)
    (by norm_num) (by norm_num) (by norm_num)
    (by norm_num [Domain.Usual]) (by norm_num [Domain.Usual]) (by norm_num [Domain.Usual]) (by rw [hκ]; norm_num) (by rw [hκ]; norm_num)
    (by rw [hκ]; norm_num) (polyClose_round _) (by norm_num)
    sin_computes_3d (fun y z _ _ => by simpa only [add_assoc] using sin_shift_derivs 7 (y + z))
    (fun x z _ _ => by simpa only [add_comm, add_left_comm] using sin_shift_derivs 7 (x + z)) (fun x y _ _ => by simpa only [add_comm] using sin_shift_derivs 7 (x + y))
  refine ⟨s', b, h1, h2, fun ps hps x y z hx hy hz => ?_⟩
  obtain ⟨v, h5, -⟩ := h3 ps hps x y z hx hy hz
  exact ⟨v, h5⟩

end MU
