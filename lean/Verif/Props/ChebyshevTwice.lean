import Verif.Props.Chebyshev
import Verif.Props.RoundedChebyshev

set_option linter.unusedSectionVars false

/-!
# C38, calling `Compute_ai`, `Compute_aij`, `Compute_aijk` several times

What any number of calls does, and when it is harmless.
-/

namespace MU
open Spec Finset

/-- `p` calls of `Compute_ai` one after the other. It stands for any user of /repo/src/MathUtils/ChebyshevSeries1d.h:43-69. -/
noncomputable def CS1.computeTimes (B : Build) (s : CS1 ℝ) : Nat → Res (CS1 ℝ)
  | 0 => .ok s
  | p + 1 => do
    let t ← CS1.computeTimes B s p
    t.computeAi B

/-- `p` calls of `Compute_aij`. It stands for any user of /repo/src/MathUtils/ChebyshevSeries2d.h:43-87. -/
noncomputable def CS2.computeTimes (B : Build) (s : CS2 ℝ) : Nat → Res (CS2 ℝ)
  | 0 => .ok s
  | p + 1 => do
    let t ← CS2.computeTimes B s p
    t.computeAij B

/-- `p` calls of `Compute_aijk`. It stands for any user of /repo/src/MathUtils/ChebyshevSeries3d.h:46-113. -/
noncomputable def CS3.computeTimes (B : Build) (s : CS3 ℝ) : Nat → Res (CS3 ℝ)
  | 0 => .ok s
  | p + 1 => do
    let t ← CS3.computeTimes B s p
    t.computeAijk B

/-- `1 + w + … + w^(p-1)`. -/
noncomputable def geomTo (w : ℝ) (p : Nat) : ℝ := ∑ q ∈ range p, w ^ q

theorem geomTo_step (c w : ℝ) (p : Nat) : (c * w * geomTo w p + c) * w = c * w * geomTo w (p + 1) := by
  unfold geomTo
  rw [sum_range_succ', pow_zero]
  simp only [pow_succ, ← sum_mul]
  ring

theorem geomTo_lt {w : ℝ} (hw : 0 < w) {p q : Nat} (h : p < q) : geomTo w p < geomTo w q := by
  unfold geomTo
  refine sum_lt_sum_of_subset (range_mono h.le) (mem_range.2 h) (by simp) (by positivity) (fun _ _ _ => by positivity)

theorem cheb1_sub (n : Nat) (c d : Nat → ℝ) (u : ℝ) : cheb1 n (fun i => c i - d i) u = cheb1 n c u - cheb1 n d u := by
  simp only [cheb1, sub_mul, sum_sub_distrib]

theorem cheb2_sub (n m : Nat) (c d : Nat → Nat → ℝ) (u v : ℝ) : cheb2 n m (fun i j => c i j - d i j) u v = cheb2 n m c u v - cheb2 n m d u v := by
  simp only [cheb2, sub_mul, sum_sub_distrib]

theorem cheb3_sub (n m l : Nat) (c d : Nat → Nat → Nat → ℝ) (u v w : ℝ) :
    cheb3 n m l (fun i j k => c i j k - d i j k) u v w = cheb3 n m l c u v w - cheb3 n m l d u v w := by
  simp only [cheb3, sub_mul, sum_sub_distrib]

theorem cheb2_zero {n m : Nat} {c : Nat → Nat → ℝ} (h : ∀ r t, r ≤ n → t ≤ m → cheb2 n m c (chebNode n r) (chebNode m t) = 0) {i j : Nat}
    (hi : i ≤ n) (hj : j ≤ m) : c i j = 0 := by
  refine cheb1_zero (c := c i) (fun t ht => ?_) hj
  refine cheb1_zero (c := fun i => cheb1 m (c i) (chebNode m t)) (fun r hr => ?_) hi
  rw [← cheb2_eq]
  exact h r t hr ht

theorem cheb3_zero {n m l : Nat} {c : Nat → Nat → Nat → ℝ}
    (h : ∀ r q t, r ≤ n → q ≤ m → t ≤ l → cheb3 n m l c (chebNode n r) (chebNode m q) (chebNode l t) = 0) {i j k : Nat}
    (hi : i ≤ n) (hj : j ≤ m) (hk : k ≤ l) : c i j k = 0 := by
  refine cheb1_zero (c := c i j) (fun t ht => ?_) hk
  refine cheb1_zero (c := fun j => cheb1 l (c i j) (chebNode l t)) (fun q hq => ?_) hj
  refine cheb1_zero (c := fun i => cheb1 m (fun j => cheb1 l (c i j) (chebNode l t)) (chebNode m q)) (fun r hr => ?_) hi
  rw [← cheb3_eq]
  exact h r q t hr hq ht

theorem CS1.computeTimes_ok (B : Build) {F : ℝ → ℝ} {n : Nat} {s : CS1 ℝ} {sx : Seg ℝ} (h : s.Holds F n sx (fun _ => 0)) (p : Nat) :
    ∃ s', s.computeTimes B p = .ok s' ∧ s'.Holds F n sx (fun i => CS1.next F n sx.dom i 0 * geomTo (chebWeight n i) p) := by
  induction p with
  | zero => exact ⟨s, rfl, by simpa [geomTo] using h⟩
  | succ p ih =>
    obtain ⟨t, h1, h2⟩ := ih
    obtain ⟨s', h3, h4⟩ := CS1.computeAi_ok B h2
    refine ⟨s', by rw [CS1.computeTimes, h1]; exact h3, ?_⟩
    have e : (fun i => CS1.next F n sx.dom i (CS1.next F n sx.dom i 0 * geomTo (chebWeight n i) p)) =
        fun i => CS1.next F n sx.dom i 0 * geomTo (chebWeight n i) (p + 1) := by
      funext i
      unfold CS1.next
      rw [zero_add]
      exact geomTo_step _ _ _
    rwa [e] at h4

theorem CS2.computeTimes_ok (B : Build) {F : ℝ → ℝ → ℝ} {n m : Nat} {s : CS2 ℝ} {sx sy : Seg ℝ} (h : s.Holds F n m sx sy (fun _ => 0)) (p : Nat) :
    ∃ s', s.computeTimes B p = .ok s' ∧
      s'.Holds F n m sx sy (fun k => CS2.next F n m sx.dom sy.dom k 0 * geomTo (chebWeight n k.1 * chebWeight m k.2) p) := by
  induction p with
  | zero => exact ⟨s, rfl, by simpa [geomTo] using h⟩
  | succ p ih =>
    obtain ⟨t, h1, h2⟩ := ih
    obtain ⟨s', h3, h4⟩ := CS2.computeAij_ok B h2
    refine ⟨s', by rw [CS2.computeTimes, h1]; exact h3, ?_⟩
    have e : (fun k => CS2.next F n m sx.dom sy.dom k (CS2.next F n m sx.dom sy.dom k 0 * geomTo (chebWeight n k.1 * chebWeight m k.2) p)) =
        fun k => CS2.next F n m sx.dom sy.dom k 0 * geomTo (chebWeight n k.1 * chebWeight m k.2) (p + 1) := by
      funext k
      unfold CS2.next
      rw [zero_add]
      exact geomTo_step _ _ _
    rwa [e] at h4

theorem CS3.computeTimes_ok (B : Build) {F : ℝ → ℝ → ℝ → ℝ} {n m l : Nat} {s : CS3 ℝ} {sx sy sz : Seg ℝ}
    (h : s.Holds F n m l sx sy sz (fun _ => 0)) (p : Nat) :
    ∃ s', s.computeTimes B p = .ok s' ∧ s'.Holds F n m l sx sy sz
      (fun k => CS3.next F n m l sx.dom sy.dom sz.dom k 0 * geomTo (chebWeight n k.1 * chebWeight m k.2.1 * chebWeight l k.2.2) p) := by
  induction p with
  | zero => exact ⟨s, rfl, by simpa [geomTo] using h⟩
  | succ p ih =>
    obtain ⟨t, h1, h2⟩ := ih
    obtain ⟨s', h3, h4⟩ := CS3.computeAijk_ok B h2
    refine ⟨s', by rw [CS3.computeTimes, h1]; exact h3, ?_⟩
    have e : (fun k => CS3.next F n m l sx.dom sy.dom sz.dom k (CS3.next F n m l sx.dom sy.dom sz.dom k 0 *
        geomTo (chebWeight n k.1 * chebWeight m k.2.1 * chebWeight l k.2.2) p)) =
        fun k => CS3.next F n m l sx.dom sy.dom sz.dom k 0 * geomTo (chebWeight n k.1 * chebWeight m k.2.1 * chebWeight l k.2.2) (p + 1) := by
      funext k
      unfold CS3.next
      rw [zero_add]
      exact geomTo_step _ _ _
    rwa [e] at h4

/-- The weight `1 / (n + 1)` of the coefficient 0 and `2 / (n + 1)` of the others. -/
theorem chebWeight_val (n i : Nat) : chebWeight n i = (if i = 0 then 1 else 2) / ((n : ℝ) + 1) := by
  unfold chebWeight
  split_ifs <;> rfl

/-- C38, what `p` calls of `Compute_ai` do to a new object: if the first call gives the series of coefficients `c i`, after `p` calls the coefficient
`i` is `c i (1 + w + … + w^(p-1))`, where `w` is `1/(n+1)` for `i = 0` and `2/(n+1)` for `i > 0`. Missing: that the series does not change. -/
theorem C38_calls_1d_partial (B : Build) {F : ℝ → ℝ} {n : Nat} {s : CS1 ℝ} {X : Domain ℝ} (hs : Fresh1 F n s X) :
    ∃ c : Nat → ℝ, ∀ p, ∃ s', s.computeTimes B p = .ok s' ∧ ∀ x, X.Defined x → s'.evaluate B x =
      .ok (cheb1 n (fun i => c i * ∑ q ∈ range p, ((if i = 0 then 1 else 2) / ((n : ℝ) + 1)) ^ q) (X.unit x)) := by
  obtain ⟨sx, rfl, h⟩ := hs.holds
  refine ⟨fun i => CS1.next F n sx.dom i 0, fun p => ?_⟩
  obtain ⟨s', h1, h2⟩ := CS1.computeTimes_ok B h p
  refine ⟨s', h1, fun x hx => ?_⟩
  rw [CS1.evaluate_ok B h2 hx]
  simp only [geomTo, chebWeight_val]

/-- C38, what `p` calls of `Compute_aij` do to a new object: the same, with the product of the two weights. -/
theorem C38_calls_2d_partial (B : Build) {F : ℝ → ℝ → ℝ} {n m : Nat} {s : CS2 ℝ} {X Y : Domain ℝ} (hs : Fresh2 F n m s X Y) :
    ∃ c : Nat → Nat → ℝ, ∀ p, ∃ s', s.computeTimes B p = .ok s' ∧ ∀ x y, X.Defined x → Y.Defined y → s'.evaluate B x y =
      .ok (cheb2 n m (fun i j => c i j * ∑ q ∈ range p,
        ((if i = 0 then 1 else 2) / ((n : ℝ) + 1) * ((if j = 0 then 1 else 2) / ((m : ℝ) + 1))) ^ q) (X.unit x) (Y.unit y)) := by
  obtain ⟨sx, sy, rfl, rfl, h⟩ := hs.holds
  refine ⟨fun i j => CS2.next F n m sx.dom sy.dom (i, j) 0, fun p => ?_⟩
  obtain ⟨s', h1, h2⟩ := CS2.computeTimes_ok B h p
  refine ⟨s', h1, fun x y hx hy => ?_⟩
  rw [CS2.evaluate_ok B h2 hx hy]
  simp only [geomTo, chebWeight_val]

/-- C38, what `p` calls of `Compute_aijk` do to a new object: the same, with the product of the three weights. -/
theorem C38_calls_3d_partial (B : Build) {F : ℝ → ℝ → ℝ → ℝ} {n m l : Nat} {s : CS3 ℝ} {X Y Z : Domain ℝ} (hs : Fresh3 F n m l s X Y Z) :
    ∃ c : Nat → Nat → Nat → ℝ, ∀ p, ∃ s', s.computeTimes B p = .ok s' ∧ ∀ x y z, X.Defined x → Y.Defined y → Z.Defined z → s'.evaluate B x y z =
      .ok (cheb3 n m l (fun i j k => c i j k * ∑ q ∈ range p, ((if i = 0 then 1 else 2) / ((n : ℝ) + 1) *
        ((if j = 0 then 1 else 2) / ((m : ℝ) + 1)) * ((if k = 0 then 1 else 2) / ((l : ℝ) + 1))) ^ q) (X.unit x) (Y.unit y) (Z.unit z)) := by
  obtain ⟨sx, sy, sz, rfl, rfl, rfl, h⟩ := hs.holds
  refine ⟨fun i j k => CS3.next F n m l sx.dom sy.dom sz.dom (i, j, k) 0, fun p => ?_⟩
  obtain ⟨s', h1, h2⟩ := CS3.computeTimes_ok B h p
  refine ⟨s', h1, fun x y z hx hy hz => ?_⟩
  rw [CS3.evaluate_ok B h2 hx hy hz]
  simp only [geomTo, chebWeight_val]

/-- C38, two variables, when further calls are harmless: only when the function is zero at all the nodes. -/
theorem C38_unchanged_2d_partial (B : Build) {F : ℝ → ℝ → ℝ} {n m : Nat} {s : CS2 ℝ} {X Y : Domain ℝ} (hs : Fresh2 F n m s X Y) (hX : X.Proper)
    (hY : Y.Proper) {p p' : Nat} (hp : p < p') :
    ∃ t t', s.computeTimes B p = .ok t ∧ s.computeTimes B p' = .ok t' ∧
      ((∀ x y, X.Defined x → Y.Defined y → t'.evaluate B x y = t.evaluate B x y) ↔
        ∀ r q, r ≤ n → q ≤ m → F (X.node n r) (Y.node m q) = 0) := by
  obtain ⟨sx, sy, rfl, rfl, h⟩ := hs.holds
  obtain ⟨t, h1, h2⟩ := CS2.computeTimes_ok B h p
  obtain ⟨t', h3, h4⟩ := CS2.computeTimes_ok B h p'
  refine ⟨t, t', h1, h3, fun hall => ?_, fun hz => ?_⟩
  · have hc : ∀ i j, i ≤ n → j ≤ m → CS2.next F n m sx.dom sy.dom (i, j) 0 = 0 := by
      intro i j hi hj
      have := cheb2_zero (c := fun i j => CS2.next F n m sx.dom sy.dom (i, j) 0 * geomTo (chebWeight n i * chebWeight m j) p' -
        CS2.next F n m sx.dom sy.dom (i, j) 0 * geomTo (chebWeight n i * chebWeight m j) p) (fun r q hr hq => by
        obtain ⟨hd, hu⟩ := node_defined hX hr
        obtain ⟨hd', hu'⟩ := node_defined hY hq
        have h5 := hall _ _ hd hd'
        rw [CS2.evaluate_ok B h4 hd hd', CS2.evaluate_ok B h2 hd hd', hu, hu'] at h5
        rw [cheb2_sub]
        exact sub_eq_zero.2 (Res.ok.inj h5)) hi hj
      rw [← mul_sub] at this
      rcases mul_eq_zero.1 this with h6 | h6
      · exact h6
      · exact absurd h6 (sub_ne_zero.2 (ne_of_gt (geomTo_lt (mul_pos (chebWeight_pos n i) (chebWeight_pos m j)) hp)))
    intro r q hr hq
    have h7 := cheb2_next F n m sx.dom sy.dom (chebNode n r) (chebNode m q)
    rw [chebInterp_node n _ hr, chebInterp_node m _ hq] at h7
    rw [← h7, cheb2]
    refine sum_eq_zero fun i hi => sum_eq_zero fun j hj => ?_
    rw [hc i j (by have := mem_range.1 hi; omega) (by have := mem_range.1 hj; omega)]
    ring
  · intro x y hx hy
    rw [CS2.evaluate_ok B h4 hx hy, CS2.evaluate_ok B h2 hx hy]
    have hc : ∀ k, CS2.next F n m sx.dom sy.dom k 0 = 0 := by
      intro k
      unfold CS2.next
      rw [sum_eq_zero fun r hr => sum_eq_zero fun q hq => by
        rw [hz r q (by have := (mem_Ico.1 hr).2; omega) (by have := (mem_Ico.1 hq).2; omega)]; ring]
      ring
    simp only [hc, zero_mul]

/-- C38, three variables, when further calls are harmless: only when the function is zero at all the nodes. -/
theorem C38_unchanged_3d_partial (B : Build) {F : ℝ → ℝ → ℝ → ℝ} {n m l : Nat} {s : CS3 ℝ} {X Y Z : Domain ℝ} (hs : Fresh3 F n m l s X Y Z)
    (hX : X.Proper) (hY : Y.Proper) (hZ : Z.Proper) {p p' : Nat} (hp : p < p') :
    ∃ t t', s.computeTimes B p = .ok t ∧ s.computeTimes B p' = .ok t' ∧
      ((∀ x y z, X.Defined x → Y.Defined y → Z.Defined z → t'.evaluate B x y z = t.evaluate B x y z) ↔
        ∀ r q k, r ≤ n → q ≤ m → k ≤ l → F (X.node n r) (Y.node m q) (Z.node l k) = 0) := by
  obtain ⟨sx, sy, sz, rfl, rfl, rfl, h⟩ := hs.holds
  obtain ⟨t, h1, h2⟩ := CS3.computeTimes_ok B h p
  obtain ⟨t', h3, h4⟩ := CS3.computeTimes_ok B h p'
  refine ⟨t, t', h1, h3, fun hall => ?_, fun hz => ?_⟩
  · have hc : ∀ i j k, i ≤ n → j ≤ m → k ≤ l → CS3.next F n m l sx.dom sy.dom sz.dom (i, j, k) 0 = 0 := by
      intro i j k hi hj hk
      have := cheb3_zero (c := fun i j k =>
        CS3.next F n m l sx.dom sy.dom sz.dom (i, j, k) 0 * geomTo (chebWeight n i * chebWeight m j * chebWeight l k) p' -
        CS3.next F n m l sx.dom sy.dom sz.dom (i, j, k) 0 * geomTo (chebWeight n i * chebWeight m j * chebWeight l k) p) (fun r q k hr hq hk => by
        obtain ⟨hd, hu⟩ := node_defined hX hr
        obtain ⟨hd', hu'⟩ := node_defined hY hq
        obtain ⟨hd'', hu''⟩ := node_defined hZ hk
        have h5 := hall _ _ _ hd hd' hd''
        rw [CS3.evaluate_ok B h4 hd hd' hd'', CS3.evaluate_ok B h2 hd hd' hd'', hu, hu', hu''] at h5
        rw [cheb3_sub]
        exact sub_eq_zero.2 (Res.ok.inj h5)) hi hj hk
      rw [← mul_sub] at this
      rcases mul_eq_zero.1 this with h6 | h6
      · exact h6
      · exact absurd h6 (sub_ne_zero.2 (ne_of_gt (geomTo_lt (mul_pos (mul_pos (chebWeight_pos n i) (chebWeight_pos m j)) (chebWeight_pos l k)) hp)))
    intro r q k hr hq hk
    have h7 := cheb3_next F n m l sx.dom sy.dom sz.dom (chebNode n r) (chebNode m q) (chebNode l k)
    rw [chebInterp_node l _ hk, chebInterp_node n _ hr, chebInterp_node m _ hq] at h7
    rw [← h7, cheb3]
    refine sum_eq_zero fun i hi => sum_eq_zero fun j hj => sum_eq_zero fun k hk => ?_
    rw [hc i j k (by have := mem_range.1 hi; omega) (by have := mem_range.1 hj; omega) (by have := mem_range.1 hk; omega)]
    ring
  · intro x y z hx hy hz'
    rw [CS3.evaluate_ok B h4 hx hy hz', CS3.evaluate_ok B h2 hx hy hz']
    have hc : ∀ k, CS3.next F n m l sx.dom sy.dom sz.dom k 0 = 0 := by
      intro k
      unfold CS3.next
      rw [sum_eq_zero fun r hr => sum_eq_zero fun q hq => sum_eq_zero fun t ht => by
        rw [hz r q t (by have := (mem_Ico.1 hr).2; omega) (by have := (mem_Ico.1 hq).2; omega) (by have := (mem_Ico.1 ht).2; omega)]; ring]
      ring
    simp only [hc, zero_mul]

example : Fresh2 (fun x y => x * y) 3 2 (CS2.opened (fun x y => x * y) 1 2 3 2) (.halfLine 1) (.halfLine 2) ∧ (Domain.halfLine (1 : ℝ)).Proper ∧
    (Domain.halfLine (2 : ℝ)).Proper := ⟨.opened 1 2, by norm_num [Domain.Proper], by norm_num [Domain.Proper]⟩

example : Fresh3 (fun x y z => x * y + z) 3 2 1 (CS3.closed (fun x y z => x * y + z) 0 1 0 1 0 1 3 2 1) (.segment 0 1) (.segment 0 1)
    (.segment 0 1) ∧ (Domain.segment (0 : ℝ) 1).Proper := ⟨.closed 0 1 0 1 0 1, by norm_num [Domain.Proper]⟩

end MU
