import Verif.Props.Chebyshev

/-!
# C200: Chebyshev series of sums, products, and of functions in other units

The series computed for `a F + b G` is `a` times that of `F` plus `b` times that of `G`; for a product of functions of one variable each, the product of their series; for the
function in other units, read in the other direction, or with its variables exchanged, the series of the first function.
-/

set_option linter.unusedSectionVars false

namespace MU
open Spec Finset Polynomial

theorem Spec.Fresh1.series (B : Build) {F : ℝ → ℝ} {n : Nat} {s : CS1 ℝ} {X : Domain ℝ} (hs : Fresh1 F n s X) :
    ∃ s', s.computeAi B = .ok s' ∧ ∀ x, X.Defined x → s'.evaluate B x = .ok (chebInterp n (fun r => F (X.node n r)) (X.unit x)) := by
  obtain ⟨sx, rfl, h⟩ := hs.holds
  obtain ⟨s', h1, h2⟩ := CS1.computeAi_ok B h
  exact ⟨s', h1, fun x hx => by rw [CS1.evaluate_ok B h2 hx, cheb1_next]⟩

theorem Spec.Fresh2.series (B : Build) {F : ℝ → ℝ → ℝ} {n m : Nat} {s : CS2 ℝ} {X Y : Domain ℝ} (hs : Fresh2 F n m s X Y) :
    ∃ s', s.computeAij B = .ok s' ∧ ∀ x y, X.Defined x → Y.Defined y →
      s'.evaluate B x y = .ok (chebInterp n (fun r => chebInterp m (fun t => F (X.node n r) (Y.node m t)) (Y.unit y)) (X.unit x)) := by
  obtain ⟨sx, sy, rfl, rfl, h⟩ := hs.holds
  obtain ⟨s', h1, h2⟩ := CS2.computeAij_ok B h
  exact ⟨s', h1, fun x y hx hy => by rw [CS2.evaluate_ok B h2 hx hy, cheb2_next]⟩

theorem Spec.Fresh3.series (B : Build) {F : ℝ → ℝ → ℝ → ℝ} {n m l : Nat} {s : CS3 ℝ} {X Y Z : Domain ℝ} (hs : Fresh3 F n m l s X Y Z) :
    ∃ s', s.computeAijk B = .ok s' ∧ ∀ x y z, X.Defined x → Y.Defined y → Z.Defined z →
      s'.evaluate B x y z = .ok (chebInterp l (fun t => chebInterp n (fun r => chebInterp m (fun q => F (X.node n r) (Y.node m q) (Z.node l t)) (Y.unit y)) (X.unit x)) (Z.unit z)) := by
  obtain ⟨sx, sy, sz, rfl, rfl, rfl, h⟩ := hs.holds
  obtain ⟨s', h1, h2⟩ := CS3.computeAijk_ok B h
  exact ⟨s', h1, fun x y z hx hy hz => by rw [CS3.evaluate_ok B h2 hx hy hz, cheb3_next]⟩

/-! ## Sums -/

theorem chebInterp_linear (n : Nat) (g h : Nat → ℝ) (a b u : ℝ) :
    chebInterp n (fun r => a * g r + b * h r) u = a * chebInterp n g u + b * chebInterp n h u := by
  unfold chebInterp
  rw [mul_sum, mul_sum, ← sum_add_distrib]
  refine sum_congr rfl (fun i _ => ?_)
  have : ∑ r ∈ range (n + 1), (a * g r + b * h r) * chebT i (chebNode n r) =
      a * ∑ r ∈ range (n + 1), g r * chebT i (chebNode n r) + b * ∑ r ∈ range (n + 1), h r * chebT i (chebNode n r) := by
    rw [mul_sum, mul_sum, ← sum_add_distrib]
    exact sum_congr rfl (fun r _ => by ring)
  rw [this]
  ring

theorem chebInterp_scale (n : Nat) (g : Nat → ℝ) (a u : ℝ) : chebInterp n (fun r => g r * a) u = chebInterp n g u * a := by
  have := chebInterp_linear n g g a 0 u
  simp only [zero_mul, add_zero] at this
  rw [mul_comm, ← this]
  exact chebInterp_congr n (fun r _ => mul_comm _ _) u

/-- C200: the series of a linear combination of two functions is the linear combination of their series, one variable. -/
theorem C200_linear_1d (B : Build) {F G : ℝ → ℝ} {n : Nat} {X : Domain ℝ} (a b : ℝ) {s t w : CS1 ℝ} (hs : Fresh1 F n s X) (ht : Fresh1 G n t X)
    (hw : Fresh1 (fun x => a * F x + b * G x) n w X) :
    ∃ s' t' w', s.computeAi B = .ok s' ∧ t.computeAi B = .ok t' ∧ w.computeAi B = .ok w' ∧ ∀ x, X.Defined x →
      ∃ p q, s'.evaluate B x = .ok p ∧ t'.evaluate B x = .ok q ∧ w'.evaluate B x = .ok (a * p + b * q) := by
  obtain ⟨s', h1, h2⟩ := hs.series B
  obtain ⟨t', h3, h4⟩ := ht.series B
  obtain ⟨w', h5, h6⟩ := hw.series B
  exact ⟨s', t', w', h1, h3, h5, fun x hx => ⟨_, _, h2 x hx, h4 x hx, by rw [h6 x hx, chebInterp_linear]⟩⟩

example : Fresh1 (fun x => 3 * Real.exp x + -2 * Real.sin x) 7 (CS1.closed (fun x => 3 * Real.exp x + -2 * Real.sin x) 0 1 7) (.segment 0 1) := .closed 0 1

/-- C200, two variables. -/
theorem C200_linear_2d (B : Build) {F G : ℝ → ℝ → ℝ} {n m : Nat} {X Y : Domain ℝ} (a b : ℝ) {s t w : CS2 ℝ} (hs : Fresh2 F n m s X Y) (ht : Fresh2 G n m t X Y)
    (hw : Fresh2 (fun x y => a * F x y + b * G x y) n m w X Y) :
    ∃ s' t' w', s.computeAij B = .ok s' ∧ t.computeAij B = .ok t' ∧ w.computeAij B = .ok w' ∧ ∀ x y, X.Defined x → Y.Defined y →
      ∃ p q, s'.evaluate B x y = .ok p ∧ t'.evaluate B x y = .ok q ∧ w'.evaluate B x y = .ok (a * p + b * q) := by
  obtain ⟨s', h1, h2⟩ := hs.series B
  obtain ⟨t', h3, h4⟩ := ht.series B
  obtain ⟨w', h5, h6⟩ := hw.series B
  refine ⟨s', t', w', h1, h3, h5, fun x y hx hy => ⟨_, _, h2 x y hx hy, h4 x y hx hy, ?_⟩⟩
  rw [h6 x y hx hy]
  simp only [chebInterp_linear]

/-- C200, three variables. -/
theorem C200_linear_3d (B : Build) {F G : ℝ → ℝ → ℝ → ℝ} {n m l : Nat} {X Y Z : Domain ℝ} (a b : ℝ) {s t w : CS3 ℝ} (hs : Fresh3 F n m l s X Y Z)
    (ht : Fresh3 G n m l t X Y Z) (hw : Fresh3 (fun x y z => a * F x y z + b * G x y z) n m l w X Y Z) :
    ∃ s' t' w', s.computeAijk B = .ok s' ∧ t.computeAijk B = .ok t' ∧ w.computeAijk B = .ok w' ∧ ∀ x y z, X.Defined x → Y.Defined y → Z.Defined z →
      ∃ p q, s'.evaluate B x y z = .ok p ∧ t'.evaluate B x y z = .ok q ∧ w'.evaluate B x y z = .ok (a * p + b * q) := by
  obtain ⟨s', h1, h2⟩ := hs.series B
  obtain ⟨t', h3, h4⟩ := ht.series B
  obtain ⟨w', h5, h6⟩ := hw.series B
  refine ⟨s', t', w', h1, h3, h5, fun x y z hx hy hz => ⟨_, _, h2 x y z hx hy hz, h4 x y z hx hy hz, ?_⟩⟩
  rw [h6 x y z hx hy hz]
  simp only [chebInterp_linear]

example : Fresh2 (fun x y => 3 * (x * y) + 1 * (x + y)) 4 5 (CS2.mixed (fun x y => 3 * (x * y) + 1 * (x + y)) 0 1 2 4 5) (.segment 0 1) (.halfLine 2) ∧
    Fresh3 (fun x y z => 3 * (x * y) + 1 * (x + z)) 4 5 6 (CS3.closed (fun x y z => 3 * (x * y) + 1 * (x + z)) 0 1 2 3 4 5 4 5 6) (.segment 0 1) (.segment 2 3) (.segment 4 5) :=
  ⟨.mixed 0 1 2, .closed 0 1 2 3 4 5⟩

/-! ## Products -/

/-- C200: the series of a product of a function of `x` and a function of `y` is the product of their series. -/
theorem C200_product_2d (B : Build) {f g : ℝ → ℝ} {n m : Nat} {X Y : Domain ℝ} {s t : CS1 ℝ} {w : CS2 ℝ} (hs : Fresh1 f n s X) (ht : Fresh1 g m t Y)
    (hw : Fresh2 (fun x y => f x * g y) n m w X Y) :
    ∃ s' t' w', s.computeAi B = .ok s' ∧ t.computeAi B = .ok t' ∧ w.computeAij B = .ok w' ∧ ∀ x y, X.Defined x → Y.Defined y →
      ∃ p q, s'.evaluate B x = .ok p ∧ t'.evaluate B y = .ok q ∧ w'.evaluate B x y = .ok (p * q) := by
  obtain ⟨s', h1, h2⟩ := hs.series B
  obtain ⟨t', h3, h4⟩ := ht.series B
  obtain ⟨w', h5, h6⟩ := hw.series B
  refine ⟨s', t', w', h1, h3, h5, fun x y hx hy => ⟨_, _, h2 x hx, h4 y hy, ?_⟩⟩
  rw [h6 x y hx hy, ← chebInterp_scale]
  refine congrArg _ (chebInterp_congr n (fun r _ => ?_) _)
  rw [mul_comm, ← chebInterp_scale]
  exact chebInterp_congr m (fun t _ => mul_comm _ _) _

/-- C200, product of three functions. -/
theorem C200_product_3d (B : Build) {f g h : ℝ → ℝ} {n m l : Nat} {X Y Z : Domain ℝ} {s t v : CS1 ℝ} {w : CS3 ℝ} (hs : Fresh1 f n s X) (ht : Fresh1 g m t Y)
    (hv : Fresh1 h l v Z) (hw : Fresh3 (fun x y z => f x * g y * h z) n m l w X Y Z) :
    ∃ s' t' v' w', s.computeAi B = .ok s' ∧ t.computeAi B = .ok t' ∧ v.computeAi B = .ok v' ∧ w.computeAijk B = .ok w' ∧
      ∀ x y z, X.Defined x → Y.Defined y → Z.Defined z →
      ∃ p q r, s'.evaluate B x = .ok p ∧ t'.evaluate B y = .ok q ∧ v'.evaluate B z = .ok r ∧ w'.evaluate B x y z = .ok (p * q * r) := by
  obtain ⟨s', h1, h2⟩ := hs.series B
  obtain ⟨t', h3, h4⟩ := ht.series B
  obtain ⟨v', h7, h8⟩ := hv.series B
  obtain ⟨w', h5, h6⟩ := hw.series B
  refine ⟨s', t', v', w', h1, h3, h7, h5, fun x y z hx hy hz => ⟨_, _, _, h2 x hx, h4 y hy, h8 z hz, ?_⟩⟩
  rw [h6 x y z hx hy hz, mul_comm _ (chebInterp l _ _), ← chebInterp_scale]
  refine congrArg _ (chebInterp_congr l (fun k _ => ?_) _)
  rw [show ∀ a b c : ℝ, c * (a * b) = a * (b * c) from fun a b c => by ring, ← chebInterp_scale]
  refine chebInterp_congr n (fun i _ => ?_) _
  rw [show ∀ a b c : ℝ, a * (b * c) = b * (a * c) from fun a b c => by ring, ← chebInterp_scale]
  exact chebInterp_congr m (fun j _ => by ring) _

example : Fresh2 (fun x y => Real.exp x * Real.sin y) 4 5 (CS2.closed (fun x y => Real.exp x * Real.sin y) 0 1 2 3 4 5) (.segment 0 1) (.segment 2 3) ∧
    Fresh1 Real.exp 4 (CS1.closed Real.exp 0 1 4) (.segment 0 1) ∧ Fresh1 Real.sin 5 (CS1.closed Real.sin 2 3 5) (.segment 2 3) :=
  ⟨.closed 0 1 2 3, .closed 0 1, .closed 2 3⟩

/-! ## Other units -/

/-- The domain in other units. -/
def Spec.Domain.inUnits (a b : ℝ) : Domain ℝ → Domain ℝ
  | .segment p q => .segment (a * p + b) (a * q + b)
  | .halfLine p => .halfLine (a * p + b)

theorem node_units {X : Domain ℝ} {a b : ℝ} (hb : (∃ p, X = .halfLine p) → b = 0) (n r : Nat) : (X.inUnits a b).node n r = a * X.node n r + b := by
  cases X with
  | segment p q =>
    simp only [Domain.inUnits, Domain.node]
    ring
  | halfLine p =>
    have := hb ⟨p, rfl⟩
    subst this
    simp only [Domain.inUnits, Domain.node]
    ring

theorem unit_units {X : Domain ℝ} {a b : ℝ} (ha : a ≠ 0) (hb : (∃ p, X = .halfLine p) → b = 0) (x : ℝ) : (X.inUnits a b).unit (a * x + b) = X.unit x := by
  cases X with
  | segment p q =>
    simp only [Domain.inUnits, Domain.unit]
    rw [show 2 * (a * x + b) - (a * p + b) - (a * q + b) = a * (2 * x - p - q) by ring, show a * q + b - (a * p + b) = a * (q - p) by ring,
      mul_div_mul_left _ _ ha]
  | halfLine p =>
    have := hb ⟨p, rfl⟩
    subst this
    simp only [Domain.inUnits, Domain.unit, add_zero]
    rw [show 2 * (a * p) = a * (2 * p) by ring, mul_div_mul_left _ _ ha]

theorem defined_units {X : Domain ℝ} {a b : ℝ} (ha : a ≠ 0) (hb : (∃ p, X = .halfLine p) → b = 0) {x : ℝ} (hx : X.Defined x) :
    (X.inUnits a b).Defined (a * x + b) := by
  cases X with
  | segment p q =>
    simp only [Domain.inUnits, Domain.Defined] at *
    intro h
    exact hx (mul_left_cancel₀ ha (by linarith))
  | halfLine p =>
    have := hb ⟨p, rfl⟩
    subst this
    simp only [Domain.inUnits, Domain.Defined, add_zero] at *
    exact mul_ne_zero ha hx

/-- C200: the series of a function in other units gives at the converted point what the series of the function gives. The factor may be negative: then a segment is given by its
right end first. On a half line the units have the same origin. -/
theorem C200_units_1d (B : Build) {F : ℝ → ℝ} {n : Nat} {X : Domain ℝ} {a b : ℝ} (ha : a ≠ 0) (hb : (∃ p, X = .halfLine p) → b = 0) {s t : CS1 ℝ}
    (hs : Fresh1 (fun x => F (a * x + b)) n s X) (ht : Fresh1 F n t (X.inUnits a b)) :
    ∃ s' t', s.computeAi B = .ok s' ∧ t.computeAi B = .ok t' ∧ ∀ x, X.Defined x → t'.evaluate B (a * x + b) = s'.evaluate B x := by
  obtain ⟨s', h1, h2⟩ := hs.series B
  obtain ⟨t', h3, h4⟩ := ht.series B
  refine ⟨s', t', h1, h3, fun x hx => ?_⟩
  rw [h2 x hx, h4 _ (defined_units ha hb hx), unit_units ha hb]
  simp only [node_units hb]

/-- C200: the same with two variables, each with its own units. -/
theorem C200_units_2d (B : Build) {F : ℝ → ℝ → ℝ} {n m : Nat} {X Y : Domain ℝ} {a b c d : ℝ} (ha : a ≠ 0) (hb : (∃ p, X = .halfLine p) → b = 0)
    (hc : c ≠ 0) (hd : (∃ p, Y = .halfLine p) → d = 0) {s t : CS2 ℝ}
    (hs : Fresh2 (fun x y => F (a * x + b) (c * y + d)) n m s X Y) (ht : Fresh2 F n m t (X.inUnits a b) (Y.inUnits c d)) :
    ∃ s' t', s.computeAij B = .ok s' ∧ t.computeAij B = .ok t' ∧ ∀ x y, X.Defined x → Y.Defined y →
      t'.evaluate B (a * x + b) (c * y + d) = s'.evaluate B x y := by
  obtain ⟨s', h1, h2⟩ := hs.series B
  obtain ⟨t', h3, h4⟩ := ht.series B
  refine ⟨s', t', h1, h3, fun x y hx hy => ?_⟩
  rw [h2 x y hx hy, h4 _ _ (defined_units ha hb hx) (defined_units hc hd hy), unit_units ha hb, unit_units hc hd]
  simp only [node_units hb, node_units hd]

example : Fresh1 (fun x => Real.exp (-2 * x + 5)) 4 (CS1.closed (fun x => Real.exp (-2 * x + 5)) 1 2 4) (.segment 1 2) ∧
    Fresh1 Real.exp 4 (CS1.closed Real.exp (-2 * 1 + 5) (-2 * 2 + 5) 4) ((Domain.segment 1 2).inUnits (-2) 5) := ⟨.closed 1 2, .closed _ _⟩

theorem chebT_neg (i : Nat) (u : ℝ) : chebT i (-u) = (-1) ^ i * chebT i u := by
  induction i using Nat.strong_induction_on with
  | _ i ih =>
    match i with
    | 0 => simp [chebT]
    | 1 => simp [chebT]
    | i + 2 =>
      simp only [chebT, ih (i + 1) (by omega), ih i (by omega)]
      ring

theorem chebNode_reflect {n r : Nat} (hr : r ≤ n) : chebNode n (n - r) = - chebNode n r := by
  unfold chebNode
  rw [← Real.cos_pi_sub]
  congr 1
  rw [Nat.cast_sub hr]
  have : (n : ℝ) + 1 ≠ 0 := by positivity
  field_simp
  ring

theorem chebInterp_reflect (n : Nat) (g : Nat → ℝ) (u : ℝ) : chebInterp n (fun r => g (n - r)) (-u) = chebInterp n g u := by
  unfold chebInterp
  refine sum_congr rfl (fun i _ => ?_)
  have h : ∑ r ∈ range (n + 1), g (n - r) * chebT i (chebNode n r) = (-1) ^ i * ∑ r ∈ range (n + 1), g r * chebT i (chebNode n r) := by
    rw [← sum_range_reflect, mul_sum]
    refine sum_congr rfl (fun r hr => ?_)
    have := mem_range.1 hr
    simp only [show n + 1 - 1 - r = n - r by omega, show n - (n - r) = r by omega, chebNode_reflect (show r ≤ n by omega), chebT_neg]
    ring
  rw [h, chebT_neg]
  have : ((-1 : ℝ) ^ i) * (-1) ^ i = 1 := by
    rw [← mul_pow]
    simp
  linear_combination (∑ r ∈ range (n + 1), g r * chebT i (chebNode n r)) * chebWeight n i * chebT i u * this

/-- C200: giving the ends of the segment in the other order does not change the series. -/
theorem C200_reversed (B : Build) (F : ℝ → ℝ) (n : Nat) {p q : ℝ} (hpq : p ≠ q) :
    ∃ s' t', (CS1.closed F p q n).computeAi B = .ok s' ∧ (CS1.closed F q p n).computeAi B = .ok t' ∧ ∀ x, t'.evaluate B x = s'.evaluate B x := by
  obtain ⟨s', h1, h2⟩ := (Fresh1.closed (F := F) (n := n) p q).series B
  obtain ⟨t', h3, h4⟩ := (Fresh1.closed (F := F) (n := n) q p).series B
  refine ⟨s', t', h1, h3, fun x => ?_⟩
  rw [h2 x hpq, h4 x hpq.symm]
  have e : (Domain.segment q p).unit x = - (Domain.segment p q).unit x := by
    simp only [Domain.unit]
    rw [← neg_div_neg_eq, ← neg_div]
    congr 1 <;> ring
  rw [e, ← chebInterp_reflect, neg_neg]
  refine congrArg _ ?_
  refine chebInterp_congr n (fun r hr => ?_) _
  congr 1
  simp only [Domain.node]
  have : unitNode n (n - r) = - unitNode n r := by
    have := chebNode_reflect hr
    have e : ∀ k, unitNode n k = chebNode n k := fun k => by
      unfold unitNode chebNode
      congr 1
      field_simp
    rw [e, e, this]
  rw [this]
  ring

example : (0 : ℝ) ≠ 1 := by norm_num

/-- C200: an even function on a segment around zero gives an even series, an odd function an odd one. -/
theorem C200_parity (B : Build) {F : ℝ → ℝ} (n : Nat) {c σ : ℝ} (hc : c ≠ 0) (hF : ∀ x, F (-x) = σ * F x) :
    ∃ s', (CS1.closed F (-c) c n).computeAi B = .ok s' ∧ ∀ x, ∃ v, s'.evaluate B x = .ok v ∧ s'.evaluate B (-x) = .ok (σ * v) := by
  obtain ⟨s', h1, h2⟩ := (Fresh1.closed (F := F) (n := n) (-c) c).series B
  have hd : ∀ x, (Domain.segment (-c) c).Defined x := fun x h => hc (by linarith)
  refine ⟨s', h1, fun x => ⟨_, h2 x (hd x), ?_⟩⟩
  rw [h2 (-x) (hd _)]
  have e : (Domain.segment (-c) c).unit (-x) = - (Domain.segment (-c) c).unit x := by
    simp only [Domain.unit]
    ring
  rw [e, ← chebInterp_reflect, neg_neg, mul_comm, ← chebInterp_scale]
  refine congrArg _ (chebInterp_congr n (fun r hr => ?_) _)
  have hn : (Domain.segment (-c) c).node n (n - r) = - (Domain.segment (-c) c).node n r := by
    have := chebNode_reflect hr
    have e : ∀ k, unitNode n k = chebNode n k := fun k => by
      unfold unitNode chebNode
      congr 1
      field_simp
    simp only [Domain.node, e, this]
    ring
  rw [hn, hF, mul_comm]

example : ∀ x : ℝ, Real.cos (-x) = 1 * Real.cos x ∧ Real.sin (-x) = -1 * Real.sin x := fun x => by simp

/-! ## Exchange of the variables -/

theorem chebInterp_comm (n m : Nat) (f : Nat → Nat → ℝ) (u v : ℝ) :
    chebInterp n (fun r => chebInterp m (fun t => f r t) v) u = chebInterp m (fun t => chebInterp n (fun r => f r t) u) v := by
  rw [← cheb2_interp, ← cheb2_interp]
  unfold cheb2
  rw [sum_comm]
  refine sum_congr rfl (fun j _ => sum_congr rfl (fun i _ => ?_))
  simp only []
  rw [sum_comm]
  have : ∑ y ∈ range (m + 1), ∑ x ∈ range (n + 1), f x y * chebT i (chebNode n x) * chebT j (chebNode m y) =
      ∑ r ∈ range (m + 1), ∑ t ∈ range (n + 1), f t r * chebT j (chebNode m r) * chebT i (chebNode n t) :=
    sum_congr rfl (fun r _ => sum_congr rfl (fun t _ => by ring))
  rw [this]
  ring

/-- C200: exchanging the two variables of the function exchanges the two variables of the series. -/
theorem C200_exchange_2d (B : Build) {F : ℝ → ℝ → ℝ} {n m : Nat} {X Y : Domain ℝ} {s t : CS2 ℝ} (hs : Fresh2 F n m s X Y)
    (ht : Fresh2 (fun y x => F x y) m n t Y X) :
    ∃ s' t', s.computeAij B = .ok s' ∧ t.computeAij B = .ok t' ∧ ∀ x y, X.Defined x → Y.Defined y → t'.evaluate B y x = s'.evaluate B x y := by
  obtain ⟨s', h1, h2⟩ := hs.series B
  obtain ⟨t', h3, h4⟩ := ht.series B
  refine ⟨s', t', h1, h3, fun x y hx hy => ?_⟩
  rw [h2 x y hx hy, h4 y x hy hx, chebInterp_comm]

example : Fresh2 (fun x y => x - y ^ 2) 4 5 (CS2.closed (fun x y => x - y ^ 2) 0 1 2 3 4 5) (.segment 0 1) (.segment 2 3) ∧
    Fresh2 (fun y x => x - y ^ 2) 5 4 (CS2.closed (fun y x => x - y ^ 2) 2 3 0 1 5 4) (.segment 2 3) (.segment 0 1) := ⟨.closed 0 1 2 3, .closed 2 3 0 1⟩

/-- C200: exchanging the first two variables of a function of three. -/
theorem C200_exchange_3d (B : Build) {F : ℝ → ℝ → ℝ → ℝ} {n m l : Nat} {X Y Z : Domain ℝ} {s t : CS3 ℝ} (hs : Fresh3 F n m l s X Y Z)
    (ht : Fresh3 (fun y x z => F x y z) m n l t Y X Z) :
    ∃ s' t', s.computeAijk B = .ok s' ∧ t.computeAijk B = .ok t' ∧ ∀ x y z, X.Defined x → Y.Defined y → Z.Defined z →
      t'.evaluate B y x z = s'.evaluate B x y z := by
  obtain ⟨s', h1, h2⟩ := hs.series B
  obtain ⟨t', h3, h4⟩ := ht.series B
  refine ⟨s', t', h1, h3, fun x y z hx hy hz => ?_⟩
  rw [h2 x y z hx hy hz, h4 y x z hy hx hz]
  exact congrArg _ (chebInterp_congr l (fun k _ => (chebInterp_comm n m (fun r q => F (X.node n r) (Y.node m q) (Z.node l k)) _ _).symm) _)

/-- C200: exchanging the last two variables of a function of three. -/
theorem C200_exchange_3d_last (B : Build) {F : ℝ → ℝ → ℝ → ℝ} {n m l : Nat} {X Y Z : Domain ℝ} {s t : CS3 ℝ} (hs : Fresh3 F n m l s X Y Z)
    (ht : Fresh3 (fun x z y => F x y z) n l m t X Z Y) :
    ∃ s' t', s.computeAijk B = .ok s' ∧ t.computeAijk B = .ok t' ∧ ∀ x y z, X.Defined x → Y.Defined y → Z.Defined z →
      t'.evaluate B x z y = s'.evaluate B x y z := by
  obtain ⟨s', h1, h2⟩ := hs.series B
  obtain ⟨t', h3, h4⟩ := ht.series B
  refine ⟨s', t', h1, h3, fun x y z hx hy hz => ?_⟩
  rw [h2 x y z hx hy hz, h4 x z y hx hz hy]
  refine congrArg _ ?_
  rw [chebInterp_comm]
  rw [chebInterp_comm l n]
  refine chebInterp_congr n (fun r _ => ?_) _
  rw [chebInterp_comm]

example : Fresh3 (fun x y z => x - y ^ 2 * z) 4 5 6 (CS3.closed (fun x y z => x - y ^ 2 * z) 0 1 2 3 4 5 4 5 6) (.segment 0 1) (.segment 2 3) (.segment 4 5) ∧
    Fresh3 (fun x z y => x - y ^ 2 * z) 4 6 5 (CS3.closed (fun x z y => x - y ^ 2 * z) 0 1 4 5 2 3 4 6 5) (.segment 0 1) (.segment 4 5) (.segment 2 3) :=
  ⟨.closed 0 1 2 3 4 5, .closed 0 1 4 5 2 3⟩

end MU
