import Verif.Props.AccuracyChebyshev
import Mathlib.Analysis.SpecificLimits.Normed
import Mathlib.Analysis.Normed.Group.InfiniteSum
import Mathlib.Topology.Algebra.InfiniteSum.Order
import Mathlib.Analysis.Normed.Group.Tannery
import Mathlib.Analysis.Complex.Basic
import Mathlib.Analysis.Complex.Trigonometric
import Mathlib.Topology.Algebra.InfiniteSum.Ring
import Mathlib.Analysis.Complex.Exponential
import Mathlib.Analysis.SpecialFunctions.Trigonometric.Chebyshev.RootsExtrema

set_option linter.unusedSectionVars false

/-!
# Spectral accuracy of the Chebyshev series

C134: the error of the computed series for functions with an absolutely convergent Chebyshev expansion.
-/

namespace MU.Spec
open Polynomial

/-- On the domain `F` is the sum of the series `a_0 T_0 + a_1 T_1 + …` in the variable mapped to `[-1, 1]`, which converges absolutely. -/
def Expansion1 (a : ℕ → ℝ) (F : ℝ → ℝ) (X : Domain ℝ) : Prop :=
  Summable (fun k => |a k|) ∧ ∀ x, X.Mem x → HasSum (fun k : ℕ => a k * (Chebyshev.T ℝ k).eval (X.unit x)) (F x)

/-- The same in two variables. -/
def Expansion2 (a : ℕ × ℕ → ℝ) (F : ℝ → ℝ → ℝ) (X Y : Domain ℝ) : Prop :=
  Summable (fun k => |a k|) ∧ ∀ x y, X.Mem x → Y.Mem y →
    HasSum (fun k : ℕ × ℕ => a k * (Chebyshev.T ℝ k.1).eval (X.unit x) * (Chebyshev.T ℝ k.2).eval (Y.unit y)) (F x y)

/-- The same in three variables. -/
def Expansion3 (a : ℕ × ℕ × ℕ → ℝ) (F : ℝ → ℝ → ℝ → ℝ) (X Y Z : Domain ℝ) : Prop :=
  Summable (fun k => |a k|) ∧ ∀ x y z, X.Mem x → Y.Mem y → Z.Mem z →
    HasSum (fun k : ℕ × ℕ × ℕ => a k * (Chebyshev.T ℝ k.1).eval (X.unit x) * (Chebyshev.T ℝ k.2.1).eval (Y.unit y) *
      (Chebyshev.T ℝ k.2.2).eval (Z.unit z)) (F x y z)

end MU.Spec

namespace MU
open Spec Finset Polynomial

/-! ## Aliasing -/

/-- At the nodes of order `n` each Chebyshev polynomial takes the values of one of degree at most `n`, up to the sign, or zero. -/
theorem cheb_alias (n k : Nat) : ∃ p : ℝ[X], p.natDegree ≤ n ∧ (∀ r, r ≤ n → (Chebyshev.T ℝ k).eval (chebNode n r) = p.eval (chebNode n r)) ∧
    (∀ u : ℝ, |u| ≤ 1 → |p.eval u| ≤ 1) ∧ (k ≤ n → p = Chebyshev.T ℝ k) ∧
    ∃ (i : Nat) (c : ℝ), i ≤ k ∧ |c| ≤ 1 ∧ p = C c * Chebyshev.T ℝ i := by
  rcases Nat.lt_or_ge n k with hk | hk
  swap
  · exact ⟨Chebyshev.T ℝ k, by rw [Chebyshev.natDegree_T]; simpa using hk, fun _ _ => rfl,
      fun u hu => Chebyshev.abs_eval_T_real_le_one _ hu, fun _ => rfl, k, 1, le_rfl, by simp, by simp⟩
  set q := (k + (n + 1)) / (2 * (n + 1)) with hq
  obtain ⟨j, hj⟩ : ∃ j : ℤ, j = (k : ℤ) - 2 * (n + 1) * q := ⟨_, rfl⟩
  have hj1 : j.natAbs ≤ n + 1 := by
    have h1 := Nat.div_mul_le_self (k + (n + 1)) (2 * (n + 1))
    have h2 := Nat.lt_div_mul_add (a := k + (n + 1)) (show 0 < 2 * (n + 1) by omega)
    rw [← hq] at h1 h2
    zify at h1 h2
    have : q * (2 * ((n : ℤ) + 1)) = 2 * (n + 1) * q := by ring
    rw [this] at h1 h2
    omega
  have hcos : ∀ r, (Chebyshev.T ℝ k).eval (chebNode n r) = (-1) ^ q * (Chebyshev.T ℝ j).eval (chebNode n r) := by
    intro r
    have hn : (n : ℝ) + 1 ≠ 0 := by positivity
    unfold chebNode
    set θ := Real.pi / 2 * (2 * (r : ℝ) + 1) / ((n : ℝ) + 1) with hθ
    rw [Chebyshev.T_real_cos, Chebyshev.T_real_cos]
    have e : ((k : ℤ) : ℝ) * θ = (j : ℝ) * θ + ((q * (2 * r + 1) : ℕ) : ℝ) * Real.pi := by
      have h2 : ((k : ℤ) : ℝ) = (j : ℝ) + 2 * (n + 1) * q := by rw [hj]; push_cast; ring
      rw [h2, add_mul]
      congr 1
      rw [hθ]
      push_cast
      field_simp
    rw [e, Real.cos_add_nat_mul_pi, pow_mul', pow_add, pow_mul]
    simp
  rcases Nat.lt_or_ge n j.natAbs with h | h
  · refine ⟨0, by simp, fun r hr => ?_, fun u _ => by simp, fun h => absurd h (by omega), 0, 0, Nat.zero_le _, by simp, by simp⟩
    have hjn : j.natAbs = n + 1 := by omega
    rw [hcos]
    have hT : Chebyshev.T ℝ j = Chebyshev.T ℝ ((n + 1 : ℕ) : ℤ) := by
      rcases Int.natAbs_eq j with e | e
      · rw [e, hjn]
      · rw [e, hjn, Chebyshev.T_neg]
    rw [hT]
    unfold chebNode
    rw [Chebyshev.T_real_cos]
    have hn : (n : ℝ) + 1 ≠ 0 := by positivity
    have e : (((n + 1 : ℕ) : ℤ) : ℝ) * (Real.pi / 2 * (2 * (r : ℝ) + 1) / ((n : ℝ) + 1)) = Real.pi / 2 + (r : ℝ) * Real.pi := by
      push_cast
      field_simp
      ring
    rw [e, Real.cos_add_nat_mul_pi, Real.cos_pi_div_two]
    simp
  · refine ⟨C ((-1) ^ q) * Chebyshev.T ℝ j, ?_, fun r _ => by rw [hcos]; simp, fun u hu => ?_, fun h => absurd h (by omega),
      j.natAbs, (-1) ^ q, by omega, by simp, ?_⟩
    · refine (natDegree_C_mul_le _ _).trans ?_
      rw [Chebyshev.natDegree_T]
      exact h
    · rw [eval_mul, eval_C, abs_mul, abs_pow, abs_neg, abs_one, one_pow, one_mul]
      exact Chebyshev.abs_eval_T_real_le_one _ hu
    · rcases Int.natAbs_eq j with e | e
      · rw [← e]
      · rw [e, Chebyshev.T_neg, Int.natAbs_neg, Int.natAbs_natCast]

/-- The interpolant of `T_k`. -/
noncomputable def aliasT (n k : Nat) (u : ℝ) : ℝ := chebInterp n (fun r => (Chebyshev.T ℝ k).eval (chebNode n r)) u

theorem aliasT_eq {n k : Nat} (h : k ≤ n) (u : ℝ) : aliasT n k u = (Chebyshev.T ℝ k).eval u :=
  chebInterp_poly n _ (by rw [Chebyshev.natDegree_T]; simpa using h) u

theorem abs_aliasT_le (n k : Nat) {u : ℝ} (hu : |u| ≤ 1) : |aliasT n k u| ≤ 1 := by
  obtain ⟨p, h1, h2, h3, -⟩ := cheb_alias n k
  rw [aliasT, chebInterp_congr n (g' := fun r => p.eval (chebNode n r)) h2, chebInterp_poly n p h1]
  exact h3 u hu

/-- Interpolation term by term. -/
theorem chebInterp_hasSum {ι : Type} (n : Nat) {g : ι → Nat → ℝ} {G : Nat → ℝ} (h : ∀ r, r ≤ n → HasSum (fun k => g k r) (G r)) (u : ℝ) :
    HasSum (fun k => chebInterp n (g k) u) (chebInterp n G u) := by
  unfold chebInterp
  refine hasSum_sum fun i _ => ?_
  refine HasSum.mul_right _ (HasSum.mul_right _ (hasSum_sum fun r hr => ?_))
  exact (h r (by have := mem_range.1 hr; omega)).mul_right _

theorem chebInterp_mul (n : Nat) (c : ℝ) (g : Nat → ℝ) (u : ℝ) : chebInterp n (fun r => c * g r) u = c * chebInterp n g u := by
  unfold chebInterp
  rw [mul_sum]
  refine sum_congr rfl fun i _ => ?_
  rw [← mul_assoc, ← mul_assoc, mul_sum]
  congr 2
  exact sum_congr rfl fun r _ => by ring

theorem hasSum_congr_fun' {ι : Type} {f g : ι → ℝ} {P : ℝ} (h : HasSum f P) (e : ∀ k, f k = g k) : HasSum g P := by
  have : f = g := funext e
  rwa [← this]

theorem abs_mul_le_one {x y : ℝ} (hx : |x| ≤ 1) (hy : |y| ≤ 1) : |x * y| ≤ 1 := by
  rw [abs_mul]
  exact mul_le_one₀ hx (abs_nonneg _) hy

theorem tail_summable {ι : Type} {a : ι → ℝ} {good : ι → Prop} [DecidablePred good] (ha : Summable (fun k => |a k|)) :
    Summable (fun k => if good k then 0 else |a k|) := by
  refine Summable.of_nonneg_of_le (fun k => ?_) (fun k => ?_) ha
  · split_ifs
    · exact le_rfl
    · exact abs_nonneg _
  · split_ifs
    · exact abs_nonneg _
    · exact le_rfl

theorem tail_mono {ι : Type} {a : ι → ℝ} {g1 g2 : ι → Prop} [DecidablePred g1] [DecidablePred g2] (ha : Summable (fun k => |a k|))
    (h : ∀ k, g1 k → g2 k) : ∑' k, (if g2 k then 0 else |a k|) ≤ ∑' k, (if g1 k then 0 else |a k|) := by
  refine Summable.tsum_le_tsum (fun k => ?_) (tail_summable ha) (tail_summable ha)
  by_cases h1 : g1 k
  · rw [if_pos h1, if_pos (h k h1)]
  · rw [if_neg h1]
    split_ifs
    · exact abs_nonneg _
    · exact le_rfl

/-- If every index is left out in the end, the sum over the others tends to zero. -/
theorem tail_small {ι : Type} {a : ι → ℝ} (ha : Summable (fun k => |a k|)) {good : Nat → ι → Prop} [∀ n, DecidablePred (good n)]
    (h : ∀ k, ∃ N, ∀ n, N ≤ n → good n k) {ε : ℝ} (hε : 0 < ε) : ∃ N, ∀ n, N ≤ n → 2 * ∑' k, (if good n k then 0 else |a k|) ≤ ε := by
  have ht : Filter.Tendsto (fun n => ∑' k, (if good n k then 0 else |a k|)) Filter.atTop (nhds (∑' _ : ι, (0 : ℝ))) := by
    refine tendsto_tsum_of_dominated_convergence ha (fun k => ?_) (Filter.Eventually.of_forall fun n k => ?_)
    · obtain ⟨N, hN⟩ := h k
      refine tendsto_const_nhds.congr' ?_
      filter_upwards [Filter.eventually_ge_atTop N] with n hn
      rw [if_pos (hN n hn)]
    · rw [Real.norm_eq_abs]
      split_ifs
      · simp
      · rw [abs_abs]
  rw [tsum_zero] at ht
  obtain ⟨N, hN⟩ := Filter.eventually_atTop.1 (ht.eventually (gt_mem_nhds (show (0 : ℝ) < ε / 2 by linarith)))
  exact ⟨N, fun n hn => by have := hN n hn; linarith⟩

/-- Two sums with the same terms but for some, whose difference is at most twice a coefficient. -/
theorem hasSum_sub_le {ι : Type} {a f g : ι → ℝ} {P Q : ℝ} (good : ι → Prop) [DecidablePred good] (ha : Summable (fun k => |a k|))
    (hf : HasSum f P) (hg : HasSum g Q) (h1 : ∀ k, good k → f k = g k) (h2 : ∀ k, |f k - g k| ≤ 2 * |a k|) :
    |P - Q| ≤ 2 * ∑' k, if good k then 0 else |a k| := by
  have hs : Summable (fun k => if good k then 0 else |a k|) := by
    refine Summable.of_nonneg_of_le (fun k => ?_) (fun k => ?_) ha
    · split_ifs
      · exact le_rfl
      · exact abs_nonneg _
    · split_ifs
      · exact abs_nonneg _
      · exact le_rfl
  have h3 := hf.sub hg
  have h4 := (hs.hasSum).mul_left 2
  have := h3.norm_le_of_bounded h4 (fun k => by
    rw [Real.norm_eq_abs]
    split_ifs with hk
    · rw [h1 k hk]; simp
    · exact h2 k)
  rwa [Real.norm_eq_abs] at this

theorem domain_unit_le {X : Domain ℝ} (hX : X.Usual) {x : ℝ} (hx : X.Mem x) : |X.unit x| ≤ 1 :=
  abs_le.2 (Domain.unitSet_subset _ (Domain.mem_unit hX hx).2)

theorem node_mem_unit {X : Domain ℝ} (hX : X.Usual) {n r : Nat} (hr : r ≤ n) : X.Mem (X.node n r) ∧ X.unit (X.node n r) = chebNode n r :=
  ⟨((C37_nodes hX).1 r hr).1, (node_defined (Domain.usual_proper hX) hr).2⟩

/-! ## The interpolant of a sum -/

theorem expansion_interp_1d {F : ℝ → ℝ} {X : Domain ℝ} (hX : X.Usual) {a : ℕ → ℝ} (hF : Expansion1 a F X) (n : Nat) (u : ℝ) :
    HasSum (fun k => a k * aliasT n k u) (chebInterp n (fun r => F (X.node n r)) u) := by
  have := chebInterp_hasSum n (g := fun k r => a k * (Chebyshev.T ℝ k).eval (chebNode n r)) (G := fun r => F (X.node n r)) (fun r hr => by
    have := hF.2 _ (node_mem_unit hX hr).1
    rwa [(node_mem_unit hX hr).2] at this) u
  refine hasSum_congr_fun' this fun k => ?_
  rw [chebInterp_mul]
  rfl

theorem expansion_interp_2d {F : ℝ → ℝ → ℝ} {X Y : Domain ℝ} (hX : X.Usual) (hY : Y.Usual) {a : ℕ × ℕ → ℝ} (hF : Expansion2 a F X Y) (n m : Nat)
    (u v : ℝ) :
    HasSum (fun k : ℕ × ℕ => a k * (aliasT n k.1 u * aliasT m k.2 v))
      (chebInterp n (fun r => chebInterp m (fun t => F (X.node n r) (Y.node m t)) v) u) := by
  have := chebInterp_hasSum n (g := fun (k : ℕ × ℕ) r => a k * aliasT m k.2 v * (Chebyshev.T ℝ k.1).eval (chebNode n r))
    (G := fun r => chebInterp m (fun t => F (X.node n r) (Y.node m t)) v) (fun r hr => by
      have := chebInterp_hasSum m
        (g := fun (k : ℕ × ℕ) t => a k * (Chebyshev.T ℝ k.1).eval (chebNode n r) * (Chebyshev.T ℝ k.2).eval (chebNode m t))
        (G := fun t => F (X.node n r) (Y.node m t)) (fun t ht => by
          have := hF.2 _ _ (node_mem_unit hX hr).1 (node_mem_unit hY ht).1
          rwa [(node_mem_unit hX hr).2, (node_mem_unit hY ht).2] at this) v
      refine hasSum_congr_fun' this fun k => ?_
      rw [chebInterp_mul]
      show _ * aliasT m k.2 _ = _
      ring) u
  refine hasSum_congr_fun' this fun k => ?_
  rw [chebInterp_mul]
  show _ * aliasT n k.1 _ = _
  ring

theorem expansion_interp_3d {F : ℝ → ℝ → ℝ → ℝ} {X Y Z : Domain ℝ} (hX : X.Usual) (hY : Y.Usual) (hZ : Z.Usual) {a : ℕ × ℕ × ℕ → ℝ}
    (hF : Expansion3 a F X Y Z) (n m l : Nat) (u v w : ℝ) :
    HasSum (fun k : ℕ × ℕ × ℕ => a k * (aliasT n k.1 u * aliasT m k.2.1 v * aliasT l k.2.2 w))
      (chebInterp l (fun t => chebInterp n (fun r => chebInterp m (fun q => F (X.node n r) (Y.node m q) (Z.node l t))
        v) u) w) := by
  have := chebInterp_hasSum l
    (g := fun (k : ℕ × ℕ × ℕ) t => a k * aliasT n k.1 u * aliasT m k.2.1 v * (Chebyshev.T ℝ k.2.2).eval (chebNode l t))
    (G := fun t => chebInterp n (fun r => chebInterp m (fun q => F (X.node n r) (Y.node m q) (Z.node l t)) v)
      u) (fun t ht => by
      have := chebInterp_hasSum n (g := fun (k : ℕ × ℕ × ℕ) r => a k * aliasT m k.2.1 v *
          (Chebyshev.T ℝ k.2.2).eval (chebNode l t) * (Chebyshev.T ℝ k.1).eval (chebNode n r))
        (G := fun r => chebInterp m (fun q => F (X.node n r) (Y.node m q) (Z.node l t)) v) (fun r hr => by
          have := chebInterp_hasSum m (g := fun (k : ℕ × ℕ × ℕ) q => a k * (Chebyshev.T ℝ k.1).eval (chebNode n r) *
              (Chebyshev.T ℝ k.2.2).eval (chebNode l t) * (Chebyshev.T ℝ k.2.1).eval (chebNode m q))
            (G := fun q => F (X.node n r) (Y.node m q) (Z.node l t)) (fun q hq => by
              have := hF.2 _ _ _ (node_mem_unit hX hr).1 (node_mem_unit hY hq).1 (node_mem_unit hZ ht).1
              rw [(node_mem_unit hX hr).2, (node_mem_unit hY hq).2, (node_mem_unit hZ ht).2] at this
              exact hasSum_congr_fun' this fun k => by ring) v
          refine hasSum_congr_fun' this fun k => ?_
          rw [chebInterp_mul]
          show _ * aliasT m k.2.1 _ = _
          ring) u
      refine hasSum_congr_fun' this fun k => ?_
      rw [chebInterp_mul]
      show _ * aliasT n k.1 _ = _
      ring) w
  refine hasSum_congr_fun' this fun k => ?_
  rw [chebInterp_mul]
  show _ * aliasT l k.2.2 _ = _
  ring

/-! ## C134 -/

/-- C134, one variable: if `F` is the sum of an absolutely convergent Chebyshev series, the series computed at order `n` gives its values up to twice the
sum of the magnitudes of the coefficients after the first `n + 1`. -/
theorem C134_error_1d (B : Build) {F : ℝ → ℝ} {n : Nat} {s : CS1 ℝ} {X : Domain ℝ} (hs : Fresh1 F n s X) (hX : X.Usual) {a : ℕ → ℝ}
    (hF : Expansion1 a F X) :
    ∃ s', s.computeAi B = .ok s' ∧ ∀ x, X.Mem x → ∃ v, s'.evaluate B x = .ok v ∧ |v - F x| ≤ 2 * ∑' k, if k ≤ n then 0 else |a k| := by
  obtain ⟨sx, rfl, h⟩ := hs.holds
  obtain ⟨s', h1, h2⟩ := CS1.computeAi_ok B h
  refine ⟨s', h1, fun x hx => ⟨_, CS1.evaluate_ok B h2 (Domain.mem_unit hX hx).1, ?_⟩⟩
  rw [cheb1_next]
  have hu := domain_unit_le hX hx
  have e1 := expansion_interp_1d hX hF n (sx.dom.unit x)
  refine hasSum_sub_le (fun k => k ≤ n) hF.1 e1 (hF.2 x hx) (fun k hk => by rw [aliasT_eq hk]) (fun k => ?_)
  rw [← mul_sub, abs_mul, mul_comm]
  refine mul_le_mul_of_nonneg_right ?_ (abs_nonneg _)
  have b1 := abs_aliasT_le n k hu
  have b2 := Chebyshev.abs_eval_T_real_le_one k hu
  exact (abs_sub _ _).trans (by linarith)

/-- C134, two variables: twice the sum of the magnitudes of the coefficients of the pairs of degrees outside those computed. -/
theorem C134_error_2d (B : Build) {F : ℝ → ℝ → ℝ} {n m : Nat} {s : CS2 ℝ} {X Y : Domain ℝ} (hs : Fresh2 F n m s X Y) (hX : X.Usual) (hY : Y.Usual)
    {a : ℕ × ℕ → ℝ} (hF : Expansion2 a F X Y) :
    ∃ s', s.computeAij B = .ok s' ∧ ∀ x y, X.Mem x → Y.Mem y → ∃ v, s'.evaluate B x y = .ok v ∧
      |v - F x y| ≤ 2 * ∑' k : ℕ × ℕ, if k.1 ≤ n ∧ k.2 ≤ m then 0 else |a k| := by
  obtain ⟨sx, sy, rfl, rfl, h⟩ := hs.holds
  obtain ⟨s', h1, h2⟩ := CS2.computeAij_ok B h
  refine ⟨s', h1, fun x y hx hy => ⟨_, CS2.evaluate_ok B h2 (Domain.mem_unit hX hx).1 (Domain.mem_unit hY hy).1, ?_⟩⟩
  rw [cheb2_next]
  have hu := domain_unit_le hX hx
  have hv := domain_unit_le hY hy
  have e1 := expansion_interp_2d hX hY hF n m (sx.dom.unit x) (sy.dom.unit y)
  have e2 := hF.2 x y hx hy
  refine hasSum_sub_le (fun k : ℕ × ℕ => k.1 ≤ n ∧ k.2 ≤ m) hF.1 e1 e2 (fun k hk => by
    rw [aliasT_eq hk.1, aliasT_eq hk.2, mul_assoc]) (fun k => ?_)
  rw [mul_assoc (a k), ← mul_sub, abs_mul, mul_comm]
  refine mul_le_mul_of_nonneg_right ?_ (abs_nonneg _)
  have b1 := abs_mul_le_one (abs_aliasT_le n k.1 hu) (abs_aliasT_le m k.2 hv)
  have b2 := abs_mul_le_one (Chebyshev.abs_eval_T_real_le_one k.1 hu) (Chebyshev.abs_eval_T_real_le_one k.2 hv)
  exact (abs_sub _ _).trans (by linarith)

/-- C134, three variables. -/
theorem C134_error_3d (B : Build) {F : ℝ → ℝ → ℝ → ℝ} {n m l : Nat} {s : CS3 ℝ} {X Y Z : Domain ℝ} (hs : Fresh3 F n m l s X Y Z) (hX : X.Usual)
    (hY : Y.Usual) (hZ : Z.Usual) {a : ℕ × ℕ × ℕ → ℝ} (hF : Expansion3 a F X Y Z) :
    ∃ s', s.computeAijk B = .ok s' ∧ ∀ x y z, X.Mem x → Y.Mem y → Z.Mem z → ∃ v, s'.evaluate B x y z = .ok v ∧
      |v - F x y z| ≤ 2 * ∑' k : ℕ × ℕ × ℕ, if k.1 ≤ n ∧ k.2.1 ≤ m ∧ k.2.2 ≤ l then 0 else |a k| := by
  obtain ⟨sx, sy, sz, rfl, rfl, rfl, h⟩ := hs.holds
  obtain ⟨s', h1, h2⟩ := CS3.computeAijk_ok B h
  refine ⟨s', h1, fun x y z hx hy hz => ⟨_, CS3.evaluate_ok B h2 (Domain.mem_unit hX hx).1 (Domain.mem_unit hY hy).1 (Domain.mem_unit hZ hz).1, ?_⟩⟩
  rw [cheb3_next]
  have hu := domain_unit_le hX hx
  have hv := domain_unit_le hY hy
  have hw := domain_unit_le hZ hz
  have e1 := expansion_interp_3d hX hY hZ hF n m l (sx.dom.unit x) (sy.dom.unit y) (sz.dom.unit z)
  have e2 := hasSum_congr_fun' (hF.2 x y z hx hy hz) (g := fun k : ℕ × ℕ × ℕ => a k * ((Chebyshev.T ℝ k.1).eval (sx.dom.unit x) *
    (Chebyshev.T ℝ k.2.1).eval (sy.dom.unit y) * (Chebyshev.T ℝ k.2.2).eval (sz.dom.unit z))) fun k => by ring
  refine hasSum_sub_le (fun k : ℕ × ℕ × ℕ => k.1 ≤ n ∧ k.2.1 ≤ m ∧ k.2.2 ≤ l) hF.1 e1 e2 (fun k hk => by
    rw [aliasT_eq hk.1, aliasT_eq hk.2.1, aliasT_eq hk.2.2]) (fun k => ?_)
  rw [← mul_sub, abs_mul, mul_comm]
  refine mul_le_mul_of_nonneg_right ?_ (abs_nonneg _)
  have b1 := abs_mul_le_one (abs_mul_le_one (abs_aliasT_le n k.1 hu) (abs_aliasT_le m k.2.1 hv)) (abs_aliasT_le l k.2.2 hw)
  have b2 := abs_mul_le_one (abs_mul_le_one (Chebyshev.abs_eval_T_real_le_one k.1 hu) (Chebyshev.abs_eval_T_real_le_one k.2.1 hv))
    (Chebyshev.abs_eval_T_real_le_one k.2.2 hw)
  exact (abs_sub _ _).trans (by linarith)

/-- C134, convergence: with enough terms the computed series is as close to `F` as wanted, at every point of the domain at once. -/
theorem C134_converges_1d (B : Build) {F : ℝ → ℝ} {X : Domain ℝ} (hX : X.Usual) {a : ℕ → ℝ} (hF : Expansion1 a F X) {ε : ℝ} (hε : 0 < ε) :
    ∃ N, ∀ n, N ≤ n → ∀ s, Fresh1 F n s X → ∃ s', s.computeAi B = .ok s' ∧ ∀ x, X.Mem x → ∃ v, s'.evaluate B x = .ok v ∧ |v - F x| ≤ ε := by
  obtain ⟨N, hN⟩ := tail_small hF.1 (good := fun n k => k ≤ n) (fun k => ⟨k, fun n h => h⟩) hε
  refine ⟨N, fun n hn s hs => ?_⟩
  obtain ⟨s', h1, h2⟩ := C134_error_1d B hs hX hF
  refine ⟨s', h1, fun x hx => ?_⟩
  obtain ⟨v, h3, h4⟩ := h2 x hx
  exact ⟨v, h3, h4.trans (hN n hn)⟩

/-- C134, convergence in two variables, when both orders grow. -/
theorem C134_converges_2d (B : Build) {F : ℝ → ℝ → ℝ} {X Y : Domain ℝ} (hX : X.Usual) (hY : Y.Usual) {a : ℕ × ℕ → ℝ} (hF : Expansion2 a F X Y)
    {ε : ℝ} (hε : 0 < ε) :
    ∃ N, ∀ n m, N ≤ n → N ≤ m → ∀ s, Fresh2 F n m s X Y → ∃ s', s.computeAij B = .ok s' ∧ ∀ x y, X.Mem x → Y.Mem y →
      ∃ v, s'.evaluate B x y = .ok v ∧ |v - F x y| ≤ ε := by
  obtain ⟨N, hN⟩ := tail_small hF.1 (good := fun (n : Nat) (k : ℕ × ℕ) => k.1 ≤ n ∧ k.2 ≤ n)
    (fun k => ⟨max k.1 k.2, fun n h => ⟨(le_max_left _ _).trans h, (le_max_right _ _).trans h⟩⟩) hε
  refine ⟨N, fun n m hn hm s hs => ?_⟩
  obtain ⟨s', h1, h2⟩ := C134_error_2d B hs hX hY hF
  refine ⟨s', h1, fun x y hx hy => ?_⟩
  obtain ⟨v, h3, h4⟩ := h2 x y hx hy
  refine ⟨v, h3, h4.trans ((mul_le_mul_of_nonneg_left ?_ (by norm_num)).trans (hN N le_rfl))⟩
  exact tail_mono hF.1 fun k hk => ⟨hk.1.trans hn, hk.2.trans hm⟩

/-- C134, convergence in three variables, when the three orders grow. -/
theorem C134_converges_3d (B : Build) {F : ℝ → ℝ → ℝ → ℝ} {X Y Z : Domain ℝ} (hX : X.Usual) (hY : Y.Usual) (hZ : Z.Usual) {a : ℕ × ℕ × ℕ → ℝ}
    (hF : Expansion3 a F X Y Z) {ε : ℝ} (hε : 0 < ε) :
    ∃ N, ∀ n m l, N ≤ n → N ≤ m → N ≤ l → ∀ s, Fresh3 F n m l s X Y Z → ∃ s', s.computeAijk B = .ok s' ∧
      ∀ x y z, X.Mem x → Y.Mem y → Z.Mem z → ∃ v, s'.evaluate B x y z = .ok v ∧ |v - F x y z| ≤ ε := by
  obtain ⟨N, hN⟩ := tail_small hF.1 (good := fun (n : Nat) (k : ℕ × ℕ × ℕ) => k.1 ≤ n ∧ k.2.1 ≤ n ∧ k.2.2 ≤ n)
    (fun k => ⟨max k.1 (max k.2.1 k.2.2), fun n h => ⟨(le_max_left _ _).trans h, ((le_max_left _ _).trans (le_max_right _ _)).trans h,
      ((le_max_right _ _).trans (le_max_right _ _)).trans h⟩⟩) hε
  refine ⟨N, fun n m l hn hm hl s hs => ?_⟩
  obtain ⟨s', h1, h2⟩ := C134_error_3d B hs hX hY hZ hF
  refine ⟨s', h1, fun x y z hx hy hz => ?_⟩
  obtain ⟨v, h3, h4⟩ := h2 x y z hx hy hz
  refine ⟨v, h3, h4.trans ((mul_le_mul_of_nonneg_left ?_ (by norm_num)).trans (hN N le_rfl))⟩
  exact tail_mono hF.1 fun k hk => ⟨hk.1.trans hn, hk.2.1.trans hm, hk.2.2.trans hl⟩

/-- C134, rate: if the coefficients decrease like `M ρ^k`, so does the error: at order `n` it is at most `2 M ρ^(n+1) / (1 - ρ)`. -/
theorem C134_geometric_1d (B : Build) {F : ℝ → ℝ} {n : Nat} {s : CS1 ℝ} {X : Domain ℝ} (hs : Fresh1 F n s X) (hX : X.Usual) {a : ℕ → ℝ}
    (hF : Expansion1 a F X) {M ρ : ℝ} (hρ0 : 0 ≤ ρ) (hρ1 : ρ < 1) (ha : ∀ k, |a k| ≤ M * ρ ^ k) :
    ∃ s', s.computeAi B = .ok s' ∧ ∀ x, X.Mem x → ∃ v, s'.evaluate B x = .ok v ∧ |v - F x| ≤ 2 * M * ρ ^ (n + 1) / (1 - ρ) := by
  obtain ⟨s', h1, h2⟩ := C134_error_1d B hs hX hF
  refine ⟨s', h1, fun x hx => ?_⟩
  obtain ⟨v, h3, h4⟩ := h2 x hx
  refine ⟨v, h3, h4.trans ?_⟩
  have e1 : ∑' k, (if k ≤ n then 0 else |a k|) = ∑' k, |a (k + (n + 1))| := by
    have hs : Summable (fun k => if k ≤ n then 0 else |a k|) := tail_summable hF.1
    have h5 := hs.sum_add_tsum_nat_add (n + 1)
    rw [← h5, sum_eq_zero (fun k hk => if_pos (by have := mem_range.1 hk; omega)), zero_add]
    exact tsum_congr fun k => if_neg (by omega)
  have e2 : HasSum (fun k => M * ρ ^ (n + 1) * ρ ^ k) (M * ρ ^ (n + 1) * (1 - ρ)⁻¹) := (hasSum_geometric_of_lt_one hρ0 hρ1).mul_left _
  have e3 : ∑' k, |a (k + (n + 1))| ≤ M * ρ ^ (n + 1) * (1 - ρ)⁻¹ := by
    rw [← e2.tsum_eq]
    refine Summable.tsum_le_tsum (fun k => (ha _).trans (le_of_eq ?_)) ((summable_nat_add_iff (f := fun k => |a k|) (n + 1)).2 hF.1) e2.summable
    rw [pow_add]
    ring
  rw [e1, div_eq_mul_inv]
  linarith

/-! ## A function with such an expansion -/

/-- The generating function of the Chebyshev polynomials. -/
theorem cheb_generating {ρ u : ℝ} (hρ0 : 0 ≤ ρ) (hρ1 : ρ < 1) (hu : |u| ≤ 1) :
    HasSum (fun k : ℕ => ρ ^ k * (Chebyshev.T ℝ k).eval u) ((1 - ρ * u) / (1 - 2 * ρ * u + ρ ^ 2)) := by
  obtain ⟨θ, rfl⟩ : ∃ θ, u = Real.cos θ := ⟨Real.arccos u, (Real.cos_arccos (abs_le.1 hu).1 (abs_le.1 hu).2).symm⟩
  set z : ℂ := (ρ : ℂ) * Complex.exp (θ * Complex.I) with hz
  have hn : ‖z‖ < 1 := by
    rw [hz, norm_mul, Complex.norm_exp_ofReal_mul_I, mul_one, Complex.norm_real, Real.norm_eq_abs, abs_of_nonneg hρ0]
    exact hρ1
  have h1 := Complex.hasSum_re (hasSum_geometric_of_norm_lt_one hn)
  have hre : z.re = ρ * Real.cos θ := by rw [hz, Complex.re_ofReal_mul, Complex.exp_ofReal_mul_I_re]
  have him : z.im = ρ * Real.sin θ := by rw [hz, Complex.im_ofReal_mul, Complex.exp_ofReal_mul_I_im]
  have h2 : ((1 - z)⁻¹).re = (1 - ρ * Real.cos θ) / (1 - 2 * ρ * Real.cos θ + ρ ^ 2) := by
    rw [Complex.inv_re, Complex.normSq_apply, Complex.sub_re, Complex.sub_im, Complex.one_re, Complex.one_im, hre, him]
    congr 1
    nlinarith [Real.sin_sq_add_cos_sq θ]
  rw [h2] at h1
  refine hasSum_congr_fun' h1 fun k => ?_
  rw [Chebyshev.T_real_cos, hz, mul_pow, ← Complex.exp_nat_mul, ← Complex.ofReal_pow, Complex.re_ofReal_mul]
  congr 1
  have : (k : ℂ) * (θ * Complex.I) = ((k * θ : ℝ) : ℂ) * Complex.I := by push_cast; ring
  rw [this, Complex.exp_ofReal_mul_I_re]
  simp

/-- A rational function with the expansion `1 + T_1 / 2 + T_2 / 4 + …`. -/
theorem expansion_example : Expansion1 (fun k => (1 / 2 : ℝ) ^ k) (fun x => (1 - x / 2) / (5 / 4 - x)) (.segment (-1) 1) := by
  refine ⟨?_, fun x hx => ?_⟩
  · simpa using (summable_geometric_of_lt_one (r := (1 / 2 : ℝ)) (by norm_num) (by norm_num)).abs
  · have hu : (Domain.segment (-1 : ℝ) 1).unit x = x := by simp only [Domain.unit]; ring
    rw [hu]
    have := cheb_generating (ρ := 1 / 2) (u := x) (by norm_num) (by norm_num) (abs_le.2 hx)
    convert this using 1
    ring

/-- With eleven coefficients the series gives `(1 - x/2) / (5/4 - x)` within `2 / 2^10` on `[-1, 1]`. -/
example (B : Build) : ∃ s', (CS1.closed (fun x : ℝ => (1 - x / 2) / (5 / 4 - x)) (-1) 1 10).computeAi B = .ok s' ∧
    ∀ x, -1 ≤ x → x ≤ 1 → ∃ v, s'.evaluate B x = .ok v ∧ |v - (1 - x / 2) / (5 / 4 - x)| ≤ 1 / 2 ^ 9 := by
  obtain ⟨s', h1, h2⟩ := C134_geometric_1d B (Fresh1.closed (F := fun x : ℝ => (1 - x / 2) / (5 / 4 - x)) (n := 10) (-1) 1)
    (show (-1 : ℝ) < 1 by norm_num) expansion_example (M := 1) (ρ := 1 / 2) (by norm_num) (by norm_num)
    (fun k => by rw [abs_of_nonneg (by positivity), one_mul])
  refine ⟨s', h1, fun x hx0 hx1 => ?_⟩
  obtain ⟨v, h3, h4⟩ := h2 x ⟨hx0, hx1⟩
  exact ⟨v, h3, h4.trans (by norm_num)⟩

/-- The products of such functions have expansions in two and three variables. -/
theorem expansion2_example : Expansion2 (fun k => (1 / 2 : ℝ) ^ k.1 * (1 / 2) ^ k.2)
    (fun x y => (1 - x / 2) / (5 / 4 - x) * ((1 - y / 2) / (5 / 4 - y))) (.segment (-1) 1) (.segment (-1) 1) := by
  have hsum : Summable (fun k : ℕ => (1 / 2 : ℝ) ^ k) := summable_geometric_of_lt_one (by norm_num) (by norm_num)
  have hs : Summable (fun k : ℕ × ℕ => (1 / 2 : ℝ) ^ k.1 * (1 / 2) ^ k.2) :=
    hsum.mul_of_nonneg hsum (fun _ => by positivity) (fun _ => by positivity)
  refine ⟨hs.abs, fun x y hx hy => ?_⟩
  have ex := expansion_example.2 x hx
  have ey := expansion_example.2 y hy
  have hux := domain_unit_le (X := .segment (-1) 1) (show (-1 : ℝ) < 1 by norm_num) hx
  have huy := domain_unit_le (X := .segment (-1) 1) (show (-1 : ℝ) < 1 by norm_num) hy
  have hb : Summable (fun k : ℕ × ℕ => ((1 / 2 : ℝ) ^ k.1 * (Chebyshev.T ℝ k.1).eval ((Domain.segment (-1 : ℝ) 1).unit x)) *
      ((1 / 2) ^ k.2 * (Chebyshev.T ℝ k.2).eval ((Domain.segment (-1 : ℝ) 1).unit y))) := by
    refine Summable.of_norm_bounded hs fun k => ?_
    rw [Real.norm_eq_abs, mul_mul_mul_comm, abs_mul, abs_of_nonneg (show (0 : ℝ) ≤ (1 / 2) ^ k.1 * (1 / 2) ^ k.2 by positivity)]
    refine mul_le_of_le_one_right (by positivity) (abs_mul_le_one (Chebyshev.abs_eval_T_real_le_one _ hux) (Chebyshev.abs_eval_T_real_le_one _ huy))
  exact hasSum_congr_fun' (ex.mul ey hb) fun k => by ring

example (B : Build) {ε : ℝ} (hε : 0 < ε) : ∃ n s', (CS2.closed (fun x y : ℝ => (1 - x / 2) / (5 / 4 - x) * ((1 - y / 2) / (5 / 4 - y)))
    (-1) 1 (-1) 1 n n).computeAij B = .ok s' ∧ ∀ x y, -1 ≤ x → x ≤ 1 → -1 ≤ y → y ≤ 1 → ∃ v, s'.evaluate B x y = .ok v ∧
      |v - (1 - x / 2) / (5 / 4 - x) * ((1 - y / 2) / (5 / 4 - y))| ≤ ε := by
  have h : (Domain.segment (-1 : ℝ) 1).Usual := show (-1 : ℝ) < 1 by norm_num
  obtain ⟨N, hN⟩ := C134_converges_2d B h h expansion2_example hε
  obtain ⟨s', h1, h2⟩ := hN N N le_rfl le_rfl _ (Fresh2.closed _ _ _ _)
  exact ⟨N, s', h1, fun x y a b c d => h2 x y ⟨a, b⟩ ⟨c, d⟩⟩

theorem expansion3_example : Expansion3 (fun k => (1 / 2 : ℝ) ^ k.1 * ((1 / 2) ^ k.2.1 * (1 / 2) ^ k.2.2))
    (fun x y z => (1 - x / 2) / (5 / 4 - x) * ((1 - y / 2) / (5 / 4 - y) * ((1 - z / 2) / (5 / 4 - z))))
    (.segment (-1) 1) (.segment (-1) 1) (.segment (-1) 1) := by
  have hsum : Summable (fun k : ℕ => (1 / 2 : ℝ) ^ k) := summable_geometric_of_lt_one (by norm_num) (by norm_num)
  have hs2 : Summable (fun k : ℕ × ℕ => (1 / 2 : ℝ) ^ k.1 * (1 / 2) ^ k.2) :=
    hsum.mul_of_nonneg hsum (fun _ => by positivity) (fun _ => by positivity)
  have hs : Summable (fun k : ℕ × ℕ × ℕ => (1 / 2 : ℝ) ^ k.1 * ((1 / 2) ^ k.2.1 * (1 / 2) ^ k.2.2)) :=
    hsum.mul_of_nonneg hs2 (fun _ => by positivity) (fun _ => by positivity)
  refine ⟨hs.abs, fun x y z hx hy hz => ?_⟩
  have ex := expansion_example.2 x hx
  have eyz := expansion2_example.2 y z hy hz
  have hu : ∀ {t : ℝ}, (Domain.segment (-1 : ℝ) 1).Mem t → |(Domain.segment (-1 : ℝ) 1).unit t| ≤ 1 :=
    fun ht => domain_unit_le (X := .segment (-1) 1) (show (-1 : ℝ) < 1 by norm_num) ht
  have hb : Summable (fun k : ℕ × ℕ × ℕ => ((1 / 2 : ℝ) ^ k.1 * (Chebyshev.T ℝ k.1).eval ((Domain.segment (-1 : ℝ) 1).unit x)) *
      ((1 / 2) ^ k.2.1 * (1 / 2) ^ k.2.2 * (Chebyshev.T ℝ k.2.1).eval ((Domain.segment (-1 : ℝ) 1).unit y) *
        (Chebyshev.T ℝ k.2.2).eval ((Domain.segment (-1 : ℝ) 1).unit z))) := by
    refine Summable.of_norm_bounded hs fun k => ?_
    rw [Real.norm_eq_abs, mul_assoc ((1 / 2 : ℝ) ^ k.2.1 * (1 / 2) ^ k.2.2), mul_mul_mul_comm, abs_mul,
      abs_of_nonneg (show (0 : ℝ) ≤ (1 / 2) ^ k.1 * ((1 / 2) ^ k.2.1 * (1 / 2) ^ k.2.2) by positivity)]
    exact mul_le_of_le_one_right (by positivity) (abs_mul_le_one (Chebyshev.abs_eval_T_real_le_one _ (hu hx))
      (abs_mul_le_one (Chebyshev.abs_eval_T_real_le_one _ (hu hy)) (Chebyshev.abs_eval_T_real_le_one _ (hu hz))))
  exact hasSum_congr_fun' (ex.mul eyz hb) fun k => by ring

example (B : Build) {ε : ℝ} (hε : 0 < ε) : ∃ n s', (CS3.closed (fun x y z : ℝ => (1 - x / 2) / (5 / 4 - x) * ((1 - y / 2) / (5 / 4 - y) *
    ((1 - z / 2) / (5 / 4 - z)))) (-1) 1 (-1) 1 (-1) 1 n n n).computeAijk B = .ok s' ∧
    ∃ v, s'.evaluate B (1 / 2) (1 / 3) 1 = .ok v ∧ |v - 20 / 11| ≤ ε := by
  have h : (Domain.segment (-1 : ℝ) 1).Usual := show (-1 : ℝ) < 1 by norm_num
  obtain ⟨N, hN⟩ := C134_converges_3d B h h h expansion3_example hε
  obtain ⟨s', h1, h2⟩ := hN N N N le_rfl le_rfl le_rfl _ (Fresh3.closed _ _ _ _ _ _)
  obtain ⟨v, h3, h4⟩ := h2 (1 / 2) (1 / 3) 1 ⟨by norm_num, by norm_num⟩ ⟨by norm_num, by norm_num⟩ ⟨by norm_num, by norm_num⟩
  refine ⟨N, s', h1, v, h3, ?_⟩
  have e : (1 - 1 / 2 / 2) / (5 / 4 - 1 / 2) * ((1 - 1 / 3 / 2) / (5 / 4 - 1 / 3) * ((1 - 1 / 2) / (5 / 4 - 1))) = (20 / 11 : ℝ) := by norm_num
  rwa [e] at h4

end MU
