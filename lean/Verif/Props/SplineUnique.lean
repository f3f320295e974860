import Verif.Props.Spline
import Verif.Spec.SplineFunction
import Mathlib.Analysis.Calculus.IteratedDeriv.Lemmas
import Mathlib.Analysis.Calculus.ContDiff.Polynomial

/-!
# C205: the spline is the only one through the points

`Spline` of the degree asked for, or of the number of points less one when this is smaller, is a spline on the break points of the specification,
passes through the points, and is the only function that does both. Hence a spline function is given back by its values at
the abscissas, and reading the points in the other direction gives the mirror image.
-/

set_option linter.unusedSectionVars false

open Polynomial

namespace MU
open SW

theorem iteratedDeriv_polynomial (r : ℕ) (q : ℝ[X]) : iteratedDeriv r (fun a => q.eval a) = fun a => (derivative^[r] q).eval a := by
  induction r with
  | zero => rw [iteratedDeriv_zero]; rfl
  | succ r ih =>
    rw [iteratedDeriv_succ, ih, Function.iterate_succ_apply']
    funext a
    exact Polynomial.deriv _

/-- The derivatives of a smooth function that is a polynomial on an interval are those of the polynomial, at the ends as well. -/
theorem derivatives_on {r : ℕ} {g : ℝ → ℝ} (hg : ContDiff ℝ r g) {q : ℝ[X]} {a b : ℝ} (hab : a < b)
    (h : ∀ t ∈ Set.Icc a b, g t = q.eval t) {t : ℝ} (ht : t ∈ Set.Icc a b) : iteratedDeriv r g t = (derivative^[r] q).eval t := by
  have hu := uniqueDiffOn_Icc hab
  rw [← iteratedDerivWithin_eq_iteratedDeriv hu hg.contDiffAt ht, iteratedDerivWithin_congr (g := fun a => q.eval a) h ht,
    iteratedDerivWithin_eq_iteratedDeriv hu (by simpa using (Polynomial.contDiff_aeval (𝕜 := ℝ) q r).contDiffAt) ht, iteratedDeriv_polynomial]

section
variable {solve : Mat ℝ → List ℝ → List ℝ} (hsol : Spec.SolvesRegular solve) (B : Build) {Deg : ℕ} (hD : 0 < Deg) {x y : List ℝ}
  (hn : 2 ≤ x.length) (hx : x.Pairwise (· < ·)) (hy : y.length = x.length)
include hsol hD hn hx hy

/-- C205: the object is a spline on the break points and passes through the points. -/
theorem C205_is_spline : ∃ (s : Spline) (f : ℝ → ℝ), Spline.make solve B Deg x y = .ok s ∧ (∀ a, Spline.call B s a = .ok (f a)) ∧
    Spec.IsSpline x (min (x.length - 1) Deg) f ∧ Spec.PassesThrough x y f := by
  obtain ⟨s, f, h1, h2, h3⟩ := C103_smooth hsol B hD hn hx hy
  obtain ⟨s', m, b, P, g1, g2, g3, g4, g5, g6, g7⟩ := C103_pieces hsol B hD hn hx hy
  obtain ⟨s'', k1, k2, k3⟩ := C102_interpolates hsol B hD hn hx hy
  rw [h1] at g1 k1
  cases g1; cases k1
  have hb : ∀ j, j ≤ m → b j = Spec.breakPoint x (min (x.length - 1) Deg) j := by
    intro j hj
    unfold Spec.breakPoint
    by_cases h0 : j = 0
    · rw [if_pos h0, h0, g3, getD_eq (by omega)]
    · rw [if_neg h0]
      by_cases hm : j < m
      · rw [if_pos (by omega), g6 j (by omega) hm]
      · rw [if_neg (by omega), show j = m by omega, g4, getD_eq (by omega)]
  refine ⟨s, f, h1, h2, ⟨h3, fun j hj => ⟨P j, (g7 j (by omega)).1, fun a ⟨a1, a2⟩ => ?_⟩⟩, fun i hx' hy' => ?_⟩
  · have := (g7 j (by omega)).2 a (by rw [hb j (by omega)]; exact a1) (by
      rw [hb (j + 1) (by omega)]
      exact a2.imp_left (fun h => by omega))
    rw [h2] at this
    injection this
  · have := k3 i hx'
    rw [h2] at this
    injection this

/-- C205: it is the only one. -/
theorem C205_unique {g : ℝ → ℝ} (hg : Spec.IsSpline x (min (x.length - 1) Deg) g) (hp : Spec.PassesThrough x y g) :
    ∃ s, Spline.make solve B Deg x y = .ok s ∧ ∀ a, Spline.call B s a = .ok (g a) := by
  have h : Increasing x := ⟨hn, hx⟩
  obtain ⟨m, ξ, hm, hξ, h0, h1, hmn, huniq, hmake⟩ := h.make_ok hD B hsol
  obtain ⟨s, P, s1, s2, s3, s4⟩ := hmake y hy
  refine ⟨s, s1, ?_⟩
  have hr := h.range_pos
  set p := min (x.length - 1) Deg with hpd
  set d := x.getD (x.length - 1) 0 - x.getD 0 0 with hd
  set o := x.getD 0 0 with ho
  have hb : ∀ j, j ≤ m → Spec.breakPoint x p j = o + d * ξ j := by
    intro j hj
    unfold Spec.breakPoint
    by_cases hj0 : j = 0
    · rw [if_pos hj0, hj0, h0, mul_zero, add_zero]
    · rw [if_neg hj0]
      by_cases hjm : j < m
      · have hpp : (p : ℝ) ≠ 0 := Nat.cast_ne_zero.2 (by omega)
        rw [if_pos (by omega), hmn.2 j (by omega) hjm]
        simp only [scaled, ← hd, ← ho]
        rw [← Finset.sum_div, Finset.sum_sub_distrib, Finset.sum_const, Finset.card_range, nsmul_eq_mul]
        field_simp
        ring
      · rw [if_neg (by omega), show j = m by omega, h1, mul_one, hd]
        ring
  have hs : ∀ a, o + d * scaled x a = a := by
    intro a
    unfold scaled
    rw [← hd, ← ho]
    field_simp
    ring
  choose! q q1 q2 using hg.pieces
  let Q : ℕ → ℝ[X] := fun j => (q j).comp (C d * X + C o)
  have hQ : ∀ j, j < m → ∀ u, Ext ξ m j u → g (o + d * u) = (Q j).eval u := by
    intro j hj u hu
    rw [q2 j (by omega) (o + d * u) ⟨?_, ?_⟩]
    · simp only [Q, eval_comp, eval_add, eval_mul, eval_C, eval_X]
      congr 1
      ring
    · rw [hb j (by omega)]
      exact hu.1.imp_right (fun h => by nlinarith)
    · rw [hb (j + 1) (by omega)]
      exact hu.2.imp (fun h => by omega) (fun h => by nlinarith)
  have hS : Smooth ξ m p Q := by
    refine ⟨fun j hj => ?_, fun r hr' j hj => ?_⟩
    · refine natDegree_comp_le.trans ?_
      have e1 : (C d * X + C o).natDegree ≤ 1 := natDegree_linear_le
      have e2 := q1 j (by omega)
      nlinarith
    · have hc : ContDiff ℝ r (fun u => g (o + d * u)) := by
        refine ContDiff.comp (g := g) (f := fun u => o + d * u) (hg.smooth.of_le ?_) (contDiff_const.add (contDiff_const.mul contDiff_id))
        exact_mod_cast (by omega : r ≤ p - 1)
      have l := hξ j (by omega)
      have l' := hξ (j + 1) (by omega)
      show (derivative^[r] (Q j)).eval _ = (derivative^[r] (Q (j + 1))).eval _
      rw [← derivatives_on hc l (fun t ht => hQ j (by omega) t ⟨.inr ht.1, .inr ht.2⟩) ⟨l.le, le_rfl⟩,
        ← derivatives_on hc l' (fun t ht => hQ (j + 1) (by omega) t ⟨.inr ht.1, .inr ht.2⟩) ⟨le_rfl, l'.le⟩]
  have hz := huniq (fun j => C 1 * P j + C (-1) * Q j) (s2.comb hS 1 (-1)) (fun i hi k hk hin => by
    have e := s3 i hi k hk hin
    have e2 := hQ k hk _ (Located.ext hξ hk (.inl hin))
    rw [hs] at e2
    have e3 := hp i hi (by omega)
    rw [← getD_eq hi 0, ← getD_eq (by omega : i < y.length) 0] at e3
    simp only [eval_add, eval_mul, eval_C, e, ← e2, e3]
    ring)
  intro a
  obtain ⟨j, hj, hl, hc⟩ := s4 a
  have : P j = Q j := by
    have := hz j hj
    simp only [C_1, one_mul, C_neg, neg_mul] at this
    rw [← sub_eq_add_neg, sub_eq_zero] at this
    exact this
  rw [hc, this, ← hQ j hj _ (hl.ext hξ hj), hs]

omit hy in
/-- C205: a spline function is given back by its values at the abscissas. -/
theorem C205_given_back {g : ℝ → ℝ} (hg : Spec.IsSpline x (min (x.length - 1) Deg) g) :
    ∃ s, Spline.make solve B Deg x (x.map g) = .ok s ∧ ∀ a, Spline.call B s a = .ok (g a) :=
  C205_unique hsol B hD hn hx (by simp) hg (fun i h1 h2 => by simp)

/-- C205: the points read in the other direction, the abscissas with the other sign, give the mirror image. -/
theorem C205_mirror : ∃ s s', Spline.make solve B Deg x y = .ok s ∧
    Spline.make solve B Deg (x.map (fun a => -a)).reverse y.reverse = .ok s' ∧ ∀ a, Spline.call B s' (-a) = Spline.call B s a := by
  obtain ⟨s, f, h1, h2, h3, h4⟩ := C205_is_spline hsol B hD hn hx hy
  set p := min (x.length - 1) Deg with hpd
  set x' := (x.map (fun a => -a)).reverse with hx'
  have hl : x'.length = x.length := by simp [hx']
  have hpx : p = min (x'.length - 1) Deg := by rw [hl]
  have hget : ∀ i, i < x.length → x'.getD i 0 = -x.getD (x.length - 1 - i) 0 := by
    intro i hi
    rw [getD_eq (by omega), getD_eq (by omega)]
    simp [hx', List.getElem_reverse]
  have hb : ∀ j, j + p ≤ x.length → Spec.breakPoint x' p j = -Spec.breakPoint x p (x.length - p - j) := by
    intro j hj
    unfold Spec.breakPoint
    rw [hl]
    by_cases hj0 : j = 0
    · rw [if_pos hj0, if_neg (by omega), if_neg (by omega), hget 0 (by omega), Nat.sub_zero]
    · rw [if_neg hj0]
      by_cases hjm : j + p < x.length
      · rw [if_pos hjm, if_neg (by omega), if_pos (by omega), ← neg_div, ← Finset.sum_neg_distrib, ← Finset.sum_range_reflect]
        congr 1
        refine Finset.sum_congr rfl (fun r hr => ?_)
        have := Finset.mem_range.1 hr
        rw [hget _ (by omega)]
        congr 2
        omega
      · rw [if_neg hjm, if_pos (by omega), hget _ (by omega)]
        congr 2
        omega
  have hsp : Spec.IsSpline x' p (fun a => f (-a)) := by
    refine ⟨h3.smooth.comp contDiff_neg, fun j hj => ?_⟩
    rw [hl] at hj
    obtain ⟨q, q1, q2⟩ := h3.pieces (x.length - p - 1 - j) (by omega)
    refine ⟨q.comp (-X), ?_, fun a ha => ?_⟩
    · refine natDegree_comp_le.trans ?_
      rw [natDegree_neg, natDegree_X, mul_one]
      exact q1
    · rw [eval_comp, eval_neg, eval_X]
      refine q2 (-a) ⟨?_, ?_⟩
      · rcases ha.2 with h | h
        · left; omega
        · right
          rw [hb (j + 1) (by omega), show x.length - p - (j + 1) = x.length - p - 1 - j by omega] at h
          linarith
      · rcases ha.1 with h | h
        · left; omega
        · right
          rw [hb j (by omega), show x.length - p - j = x.length - p - 1 - j + 1 by omega] at h
          linarith
  obtain ⟨s', k1, k2⟩ := C205_unique hsol B hD (x := x') (y := y.reverse) (by omega) (by
      rw [hx', List.pairwise_reverse, List.pairwise_map]
      exact hx.imp (fun h => by linarith)) (by simp [hl, hy]) (by rw [← hpx]; exact hsp) (fun i i1 i2 => by
      have := h4 (x.length - 1 - i) (by omega) (by omega)
      simp only [hx', List.getElem_reverse, List.getElem_map, List.length_map, neg_neg]
      rw [this]
      congr 1
      omega)
  exact ⟨s, s', h1, k1, fun a => by rw [k2, h2, neg_neg]⟩

/-- C205: points that lie symmetrically give a symmetric function. -/
theorem C205_symmetric {c : ℝ} (hsx : (x.map (fun a => 2 * c - a)).reverse = x) (hsy : y.reverse = y) :
    ∃ s, Spline.make solve B Deg x y = .ok s ∧ ∀ a, Spline.call B s (2 * c - a) = Spline.call B s a := by
  obtain ⟨s, s', h1, h2, h3⟩ := C205_mirror hsol B hD hn hx hy
  obtain ⟨s'', k1, k2⟩ := C103_rescale B (x := (x.map (fun a => -a)).reverse) (by simpa using hn) (by
      rw [List.pairwise_reverse, List.pairwise_map]
      exact hx.imp (fun h => by linarith)) (k := 1) (c := 2 * c) one_pos h2
  have e : ((x.map (fun a => -a)).reverse).map (fun a => 1 * a + 2 * c) = x := by
    conv_rhs => rw [← hsx]
    rw [List.map_reverse, List.map_map]
    congr 1
    refine List.map_congr_left (fun a _ => ?_)
    simp only [Function.comp]
    ring
  rw [e, hsy, h1] at k1
  cases k1
  refine ⟨s, h1, fun a => ?_⟩
  rw [← h3, ← k2]
  congr 1
  ring

end

/-- A concrete case: the square of the distance from 1, at five points around 1, and its mirror image. -/
example : ∃ solve, Spec.SolvesRegular solve ∧ ∃ s, Spline.make solve ⟨true⟩ 3 [-1, 0, 1, 2, 3] [4, 1, 0, 1, 4] = .ok s ∧
    ∀ a, Spline.call ⟨true⟩ s (2 * 1 - a) = Spline.call ⟨true⟩ s a := by
  obtain ⟨solve, hs⟩ := solvesRegular_exists
  refine ⟨solve, hs, ?_⟩
  exact C205_symmetric hs ⟨true⟩ (by norm_num) (by simp) (by norm_num [List.pairwise_cons]) (by simp) (by norm_num) (by simp)

/-- A concrete case: a spline function that is no polynomial, given back by its values at four points. The degree is 2, the one inner break point
is the mean 2 of the abscissas 1 and 3. -/
example : ∃ solve, Spec.SolvesRegular solve ∧ ∃ s, Spline.make solve ⟨true⟩ 2 [0, 1, 3, 4] [0, 0, 1, 4] = .ok s ∧
    ∀ a, Spline.call ⟨true⟩ s a = .ok (max (a - 2) 0 ^ 2) := by
  obtain ⟨solve, hs⟩ := solvesRegular_exists
  refine ⟨solve, hs, ?_⟩
  have hb1 : Spec.breakPoint [0, 1, 3, 4] 2 1 = 2 := by
    norm_num [Spec.breakPoint, Finset.sum_range_succ]
  obtain ⟨s, h1, h2⟩ := C205_given_back hs ⟨true⟩ (Deg := 2) (by norm_num) (x := [0, 1, 3, 4]) (by simp) (by norm_num [List.pairwise_cons])
    (g := fun a => max (a - 2) 0 ^ 2) (by
      show Spec.IsSpline [0, 1, 3, 4] 2 _
      refine ⟨?_, fun j hj => ?_⟩
      · show ContDiff ℝ (1 : ℕ) _
        refine Glue.contDiff (ξ := fun j => 2 * (j : ℝ)) (m := 2) (p := 2) (P := fun j => if j = 0 then 0 else (X - C 2) ^ 2) (by norm_num)
          (fun j _ => by push_cast; linarith) ⟨fun j _ => ?_, fun r hr j hj => ?_⟩ 1 0 _ (by norm_num) (fun u => ?_)
        · split_ifs
          · simp
          · compute_degree
        · obtain rfl : j = 0 := by omega
          interval_cases r <;> simp [pow_two]
        · rcases le_total u 2 with h | h
          · exact ⟨0, by norm_num, ⟨.inl rfl, .inr (by simpa using h)⟩, by simp [max_eq_right (by linarith : u - 2 ≤ 0)]⟩
          · exact ⟨1, by norm_num, ⟨.inr (by simpa using h), .inl rfl⟩, by simp [max_eq_left (by linarith : 0 ≤ u - 2)]⟩
      · simp only [List.length_cons, List.length_nil] at hj
        obtain rfl | rfl : j = 0 ∨ j = 1 := by omega
        · refine ⟨0, by simp, fun a ha => ?_⟩
          rcases ha.2 with h | h
          · simp at h
          · rw [zero_add, hb1] at h
            simp [max_eq_right (by linarith : a - 2 ≤ 0)]
        · refine ⟨(X - C 2) ^ 2, by compute_degree, fun a ha => ?_⟩
          rcases ha.1 with h | h
          · simp at h
          · rw [hb1] at h
            simp [max_eq_left (by linarith : 0 ≤ a - 2)])
  refine ⟨s, ?_, h2⟩
  rw [← h1]
  norm_num

end MU
