import Verif.Model.RoundedTriangle
import Verif.Lemmas.RoundedExpInt
import Verif.Props.TriangleAccuracy

/-!
# Integration over a triangle in double arithmetic (C144)
-/

set_option linter.unusedSectionVars false

namespace MU

open Spec Finset

namespace Spec

/-- `sum3` adds three numbers in one of the three possible orders, rounding each sum. -/
def AnyOrder (rnd : ℝ → ℝ) (sum3 : ℝ → ℝ → ℝ → ℝ) : Prop :=
  ∀ a b c, sum3 a b c = rnd (rnd (a + b) + c) ∨ sum3 a b c = rnd (a + rnd (b + c)) ∨ sum3 a b c = rnd (rnd (a + c) + b)

/-- The point `x` is within `η` of the triangle. -/
def NearTriangle (v1 v2 v3 : Fin 3 → ℝ) (η : ℝ) (x : Fin 3 → ℝ) : Prop := ∃ y, InTriangle v1 v2 v3 y ∧ dist3 x y ≤ η

end Spec

variable {rnd : ℝ → ℝ} {sum3 : ℝ → ℝ → ℝ → ℝ}

theorem anyOrder_near (hr : ToNearest rnd) (hs : AnyOrder rnd sum3) {k : ℕ} {Q1 Q2 Q3 P1 P2 P3 a b c : ℝ} (h1 : Near k Q1 P1 a) (h2 : Near k Q2 P2 b)
    (h3 : Near k Q3 P3 c) : Near (k + 2) (Q1 + Q2 + Q3) (P1 + P2 + P3) (sum3 a b c) := by
  have n1 := h1.upto (l := k + 1) (by omega)
  have n2 := h2.upto (l := k + 1) (by omega)
  have n3 := h3.upto (l := k + 1) (by omega)
  rcases hs a b c with h | h | h <;> rw [h]
  · exact (((h1.add h2).round hr).add n3).round hr
  · rw [add_assoc, add_assoc]
    exact (n1.add ((h2.add h3).round hr)).round hr
  · rw [show Q1 + Q2 + Q3 = Q1 + Q3 + Q2 by ring, show P1 + P2 + P3 = P1 + P3 + P2 by ring]
    exact (((h1.add h3).round hr).add n2).round hr

theorem sqrt_near {S n g : ℝ} (hn : 0 ≤ n) (hS0 : 0 ≤ S) (h3 : |S - n ^ 2| ≤ g * n ^ 2) : |Real.sqrt S - n| ≤ g * n := by
  have hs0 := Real.sqrt_nonneg S
  have hs2 := Real.sq_sqrt hS0
  rcases hn.eq_or_lt with h0 | h0
  · rw [← h0] at h3 ⊢
    have : S = 0 := by simpa using h3
    rw [this]
    simp
  · have e : Real.sqrt S - n = (S - n ^ 2) / (Real.sqrt S + n) := by
      rw [eq_div_iff (by positivity)]
      nlinarith
    have hg : 0 ≤ g := by
      have := (abs_nonneg _).trans h3
      have h2 : 0 < n ^ 2 := by positivity
      nlinarith
    rw [e, abs_div, abs_of_pos (by positivity : 0 < Real.sqrt S + n), div_le_iff₀ (by positivity)]
    refine h3.trans ?_
    nlinarith [mul_nonneg hg (mul_nonneg hn hs0)]

theorem v3norm_eq (a : V3) : V3.norm a = ‖WithLp.toLp 2 a‖ := by
  rw [EuclideanSpace.norm_eq]
  simp [V3.norm, Fin.sum_univ_three, sq_abs]

theorem v3norm_nonneg (a : V3) : 0 ≤ V3.norm a := Real.sqrt_nonneg _

theorem v3norm_sub (a b : V3) : |V3.norm a - V3.norm b| ≤ V3.norm (a - b) := by
  rw [v3norm_eq, v3norm_eq, v3norm_eq, WithLp.toLp_sub]
  exact abs_norm_sub_norm_le _ _

theorem v3norm_dist (a b : V3) : dist3 a b = V3.norm (a - b) := by
  rw [v3norm_eq, dist3_eq]

/-- The norm has a relative error of four roundings. -/
theorem norm_near (hr : ToNearest rnd) (hs : AnyOrder rnd sum3) (c : V3) : |V3.normR rnd sum3 c - V3.norm c| ≤ gam 4 * V3.norm c := by
  have hq : ∀ j, Near 1 (c j * c j) (c j * c j) (rnd (c j * c j)) := fun j => by
    have := (Near.exact (c j * c j)).round hr
    rwa [abs_of_nonneg (mul_self_nonneg _)] at this
  have h := anyOrder_near hr hs (hq 0) (hq 1) (hq 2)
  have hn := v3norm_nonneg c
  have e : c 0 * c 0 + c 1 * c 1 + c 2 * c 2 = V3.norm c ^ 2 := by
    unfold V3.norm
    rw [Real.sq_sqrt (by positivity)]
    ring
  rw [e] at h
  unfold V3.normR
  set S := sum3 (rnd (c 0 * c 0)) (rnd (c 1 * c 1)) (rnd (c 2 * c 2))
  have h1 := h.err
  have hS0 : 0 ≤ S := by
    have hg : gam 3 ≤ 1 := (gam_le (by norm_num)).trans (by unfold uround; norm_num)
    have := (abs_le.1 h1).1
    nlinarith [sq_nonneg (V3.norm c)]
  have h2 : Near 3 (V3.norm c) (V3.norm c) (Real.sqrt S) := ⟨sqrt_near hn hS0 h1, by rw [abs_of_nonneg hn]⟩
  exact (h2.round hr).err

theorem cross_le (x y z w : ℝ) : (|x| * |w| + |y| * |z|) ^ 2 ≤ 2 * (x ^ 2 * w ^ 2 + y ^ 2 * z ^ 2) := by
  have h := sq_nonneg (|x| * |w| - |y| * |z|)
  have e1 : (|x| * |w|) ^ 2 = x ^ 2 * w ^ 2 := by rw [mul_pow, sq_abs, sq_abs]
  have e2 : (|y| * |z|) ^ 2 = y ^ 2 * z ^ 2 := by rw [mul_pow, sq_abs, sq_abs]
  nlinarith

theorem cross_norm_le (a b : V3) : V3.norm (V3.cross a b) ≤ V3.norm a * V3.norm b := by
  unfold V3.norm
  rw [← Real.sqrt_mul (by positivity)]
  refine Real.sqrt_le_sqrt ?_
  simp [V3.cross]
  nlinarith [sq_nonneg (a 0 * b 0 + a 1 * b 1 + a 2 * b 2)]

/-- A vector product computed from rounded vectors. -/
theorem cross_near (hr : ToNearest rnd) {a b aR bR : V3} (na : ∀ j, Near 1 |a j| (a j) (aR j)) (nb : ∀ j, Near 1 |b j| (b j) (bR j)) :
    V3.norm (V3.crossR rnd aR bR - V3.cross a b) ≤ gam 4 * (3 / 2 * (V3.norm a * V3.norm b)) := by
  have hm : ∀ i j, Near 3 (|a i| * |b j|) (a i * b j) (rnd (aR i * bR j)) := fun i j => ((na i).mul (nb j)).round hr
  have hc : ∀ i j k l, Near 4 (|a i| * |b j| + |a k| * |b l|) (a i * b j - a k * b l) (rnd (rnd (aR i * bR j) - rnd (aR k * bR l))) :=
    fun i j k l => ((hm i j).sub (hm k l)).round hr
  have hg := gam_nonneg 4
  have e0 := (hc 1 2 2 1).err
  have e1 := (hc 2 0 0 2).err
  have e2 := (hc 0 1 1 0).err
  have hE : 0 ≤ gam 4 * (3 / 2 * (V3.norm a * V3.norm b)) := mul_nonneg hg (by have := v3norm_nonneg a; have := v3norm_nonneg b; positivity)
  have hsq : (V3.norm a * V3.norm b) ^ 2 = (a 0 ^ 2 + a 1 ^ 2 + a 2 ^ 2) * (b 0 ^ 2 + b 1 ^ 2 + b 2 ^ 2) := by
    unfold V3.norm
    rw [mul_pow, Real.sq_sqrt (by positivity), Real.sq_sqrt (by positivity)]
  have s : ∀ {x y : ℝ}, |x| ≤ gam 4 * y → x ^ 2 ≤ gam 4 ^ 2 * y ^ 2 := by
    intro x y h
    rw [← mul_pow, ← sq_abs x]
    exact pow_le_pow_left₀ (abs_nonneg _) h 2
  refine Real.sqrt_le_iff.2 ⟨hE, ?_⟩
  rw [mul_pow, mul_pow, hsq]
  simp only [V3.crossR, V3.cross, Pi.sub_apply, Matrix.cons_val_zero, Matrix.cons_val_one, Matrix.cons_val]
  have t0 := (s e0).trans (mul_le_mul_of_nonneg_left (cross_le (a 1) (a 2) (b 1) (b 2)) (sq_nonneg _))
  have t1 := (s e1).trans (mul_le_mul_of_nonneg_left (cross_le (a 2) (a 0) (b 2) (b 0)) (sq_nonneg _))
  have t2 := (s e2).trans (mul_le_mul_of_nonneg_left (cross_le (a 0) (a 1) (b 0) (b 1)) (sq_nonneg _))
  refine (add_le_add (add_le_add t0 t1) t2).trans ?_
  rw [← mul_add, ← mul_add]
  refine mul_le_mul_of_nonneg_left ?_ (sq_nonneg _)
  nlinarith [sq_nonneg (a 0 * b 0), sq_nonneg (a 1 * b 1), sq_nonneg (a 2 * b 2), sq_nonneg (a 0 * b 1), sq_nonneg (a 0 * b 2), sq_nonneg (a 1 * b 0),
    sq_nonneg (a 1 * b 2), sq_nonneg (a 2 * b 0), sq_nonneg (a 2 * b 1)]

/-- The length of a computed vector product. -/
theorem crossNorm_near (hr : ToNearest rnd) (hs : AnyOrder rnd sum3) {a b aR bR : V3} (na : ∀ j, Near 1 |a j| (a j) (aR j))
    (nb : ∀ j, Near 1 |b j| (b j) (bR j)) :
    Near 11 (V3.norm a * V3.norm b) (V3.norm (V3.cross a b)) (V3.normR rnd sum3 (V3.crossR rnd aR bR)) := by
  have h1 := cross_near hr na nb
  have h2 := norm_near hr hs (V3.crossR rnd aR bR)
  have h3 := v3norm_sub (V3.crossR rnd aR bR) (V3.cross a b)
  have h4 := cross_norm_le a b
  have hE : 0 ≤ V3.norm a * V3.norm b := mul_nonneg (v3norm_nonneg a) (v3norm_nonneg b)
  generalize V3.normR rnd sum3 (V3.crossR rnd aR bR) = r at *
  generalize V3.norm (V3.crossR rnd aR bR) = p at *
  have h0 := v3norm_nonneg (V3.cross a b)
  generalize V3.norm (V3.cross a b) = q at *
  generalize V3.norm a * V3.norm b = E at *
  refine ⟨?_, by rwa [abs_of_nonneg h0]⟩
  have h5 : |p - q| ≤ gam 4 * (3 / 2 * E) := h3.trans h1
  have h6 := abs_sub_le r p q
  have hg := gam_nonneg 4
  have h7 : p ≤ E + gam 4 * (3 / 2 * E) := by linarith [(abs_le.1 h5).2]
  have h8 : gam 4 * p ≤ gam 4 * (E + gam 4 * (3 / 2 * E)) := mul_le_mul_of_nonneg_left h7 hg
  have h9 : gam 4 + gam 4 * (3 / 2 * gam 4) + 3 / 2 * gam 4 ≤ gam 11 := by
    have : gam 11 = gam 4 + gam 7 + gam 4 * gam 7 := gam_add 4 7
    have h7 : gam 7 = gam 4 + gam 3 + gam 4 * gam 3 := gam_add 4 3
    have h3 : gam 4 = gam 2 + gam 2 + gam 2 * gam 2 := gam_add 2 2
    have h2 : gam 3 = gam 2 + gam 1 + gam 2 * gam 1 := gam_add 2 1
    have h1 : gam 2 = gam 1 + gam 1 + gam 1 * gam 1 := gam_add 1 1
    have hp := gam_nonneg 1
    have hs : gam 1 ≤ 1 / 1000 := by rw [gam_one]; unfold uround; norm_num
    generalize gam 1 = g at *
    have g4 : gam 4 = 4 * g + 6 * g ^ 2 + 4 * g ^ 3 + g ^ 4 := by rw [h3, h1]; ring
    have g7 : 7 * g + 21 * g ^ 2 ≤ gam 7 := by
      rw [h7, h2, h3, h1]
      nlinarith [pow_nonneg hp 2, pow_nonneg hp 3, pow_nonneg hp 4, pow_nonneg hp 5, pow_nonneg hp 6, pow_nonneg hp 7]
    have g4' : gam 4 ≤ 4 * g + 7 * g ^ 2 := by
      rw [g4]
      nlinarith [pow_nonneg hp 2, pow_nonneg hp 3, mul_nonneg (pow_nonneg hp 2) (sub_nonneg.2 hs), mul_nonneg (pow_nonneg hp 3) (sub_nonneg.2 hs)]
    have q0 : 3 / 2 * gam 4 ≤ gam 7 := by nlinarith [pow_nonneg hp 2]
    have q1 : gam 4 * (3 / 2 * gam 4) ≤ gam 4 * gam 7 := mul_le_mul_of_nonneg_left q0 hg
    rw [this]
    linarith
  have h10 := mul_le_mul_of_nonneg_right h9 hE
  linarith

/-- The computed Gauss points are near the exact ones. -/
theorem gaussPoint_near (hr : ToNearest rnd) {a b V : ℝ} (ha : 0 ≤ a) (hb : 0 ≤ b) (hab : a + b ≤ 1) {v1 v2 v3 : V3} (h1 : ∀ j, |v1 j| ≤ V)
    (h2 : ∀ j, |v2 j| ≤ V) (h3 : ∀ j, |v3 j| ≤ V) : dist3 (gaussPointR rnd (rnd a) (rnd b) v1 v2 v3) (barPoint v1 v2 v3 a b) ≤ 45 / 2 ^ 53 * V := by
  have hV : 0 ≤ V := (abs_nonneg _).trans (h1 0)
  have na : Near 1 a a (rnd a) := by simpa [abs_of_nonneg ha] using (Near.exact a).round hr
  have nb : Near 1 b b (rnd b) := by simpa [abs_of_nonneg hb] using (Near.exact b).round hr
  have n1 : Near 1 1 1 1 := by simpa using (Near.exact 1).upto (l := 1) (by omega)
  have nc := (((n1.sub na).round hr).sub (nb.upto (l := 2) (by omega))).round hr
  have hj : ∀ j, |gaussPointR rnd (rnd a) (rnd b) v1 v2 v3 j - barPoint v1 v2 v3 a b j| ≤ 21 / 2 ^ 53 * V + 3 / 2 ^ 53 * V := by
    intro j
    have m1 := ((nc.mul (Near.exact (v1 j))).round hr)
    have m2 := ((na.mul (Near.exact (v2 j))).round hr).upto (l := 4) (by omega)
    have m3 := ((nb.mul (Near.exact (v3 j))).round hr).upto (l := 5) (by omega)
    have m := (((m1.add m2).round hr).add m3).round hr
    refine (m.sum_le (by norm_num)).trans ?_
    have q : (1 + a + b) * |v1 j| + a * |v2 j| + b * |v3 j| ≤ 3 * V := by
      have q1 : (1 + a + b) * |v1 j| ≤ (1 + a + b) * V := by gcongr; exact h1 j
      have q2 : a * |v2 j| ≤ a * V := by gcongr; exact h2 j
      have q3 : b * |v3 j| ≤ b * V := by gcongr; exact h3 j
      nlinarith
    have := mul_le_mul_of_nonneg_left q (by norm_num : (0 : ℝ) ≤ 7 / 2 ^ 53)
    norm_num at this ⊢
    linarith
  unfold dist3
  refine Real.sqrt_le_iff.2 ⟨by positivity, ?_⟩
  rw [Fin.sum_univ_three]
  have s : ∀ j, (gaussPointR rnd (rnd a) (rnd b) v1 v2 v3 j - barPoint v1 v2 v3 a b j) ^ 2 ≤ (24 / 2 ^ 53 * V) ^ 2 := by
    intro j
    rw [← sq_abs]
    refine pow_le_pow_left₀ (abs_nonneg _) ((hj j).trans (le_of_eq ?_)) 2
    ring
  have s0 := s 0
  have s1 := s 1
  have s2 := s 2
  have : (24 / 2 ^ 53 * V) ^ 2 + (24 / 2 ^ 53 * V) ^ 2 + (24 / 2 ^ 53 * V) ^ 2 ≤ (45 / 2 ^ 53 * V) ^ 2 := by
    rw [mul_pow, mul_pow]
    have := sq_nonneg V
    norm_num
    nlinarith
  linarith

/-- The sum over the Gauss points with each operation rounded. -/
noncomputable def gaussSumR (rnd : ℝ → ℝ) (w g : Nat → ℝ) : Nat → ℝ
  | 0 => rnd (rnd (w 0) * g 0)
  | i + 1 => rnd (gaussSumR rnd w g i + rnd (g (i + 1) * rnd (w (i + 1))))

theorem gaussSum_near (hr : ToNearest rnd) (w g : Nat → ℝ) (n : Nat) :
    Near (n + 2) (∑ i ∈ range (n + 1), |w i| * |g i|) (∑ i ∈ range (n + 1), w i * g i) (gaussSumR rnd w g n) := by
  have h : ∀ i, Near 2 (|w i| * |g i|) (w i * g i) (rnd (rnd (w i) * g i)) := fun i => (((Near.exact (w i)).round hr).mul (Near.exact (g i))).round hr
  induction n with
  | zero => simpa [gaussSumR] using h 0
  | succ n ih =>
    rw [sum_range_succ, sum_range_succ _ (n + 1)]
    have := (ih.add ((h (n + 1)).upto (l := n + 2) (by omega))).round hr
    rw [mul_comm (rnd _)] at this
    exact this

theorem standardR_ok (F : V3 → ℝ) {k : Nat} (h1 : 1 ≤ k) (h8 : k ≤ 8) (v1 v2 v3 : V3) :
    Integration2dTriangle.computeOverStandardTriangleR rnd ⟨F, k, triangleTables⟩ v1 v2 v3
      = .ok (rnd (gaussSumR rnd (fun i => ((tableOf k).weight.getD i 0 : ℚ))
          (fun i => F (gaussPointR rnd (rnd ((tableOf k).alpha.getD i 0 : ℚ)) (rnd ((tableOf k).beta.getD i 0 : ℚ)) v1 v2 v3))
          ((tableOf k).weight.length - 1) * (1 / 2))) := by
  obtain ⟨ha, hb, hw, hla, hlb, hpos⟩ := tables_read h1 h8
  unfold Integration2dTriangle.computeOverStandardTriangleR
  simp only [ha, hb, hw, Res.ok_bind]
  set t := tableOf k with ht
  set w : Nat → ℝ := fun i => ((t.weight.getD i 0 : ℚ) : ℝ) with hw'
  set g : Nat → ℝ := fun i => F (gaussPointR rnd (rnd (t.alpha.getD i 0 : ℚ)) (rnd (t.beta.getD i 0 : ℚ)) v1 v2 v3) with hg
  have hloop := forRange_ok (Nat.zero_le t.weight.length)
    (f := fun i result => (do
      let a ← vAt t.alpha i
      let b ← vAt t.beta i
      let x := gaussPointR rnd (rnd a) (rnd b) v1 v2 v3
      let w ← vAt t.weight i
      if i = 0 then return some (rnd (rnd w * F x))
      else do
        let r ← readVar result
        return some (rnd (r + rnd (F x * rnd w))) : Res (Option ℝ)))
    (fun i => if i = 0 then none else some (gaussSumR rnd w g (i - 1))) (by
      intro i _ hi
      simp only [triVAt (show i < t.alpha.length by omega), triVAt (show i < t.beta.length by omega), triVAt hi, Res.ok_bind]
      cases i with
      | zero => simp [hg, hw', gaussSumR]
      | succ i =>
        simp only [Nat.succ_ne_zero, if_false, readVar, Res.ok_bind, Nat.add_sub_cancel, gaussSumR]
        rfl)
  simp only [if_true] at hloop
  rw [hloop]
  simp only [show t.weight.length ≠ 0 by omega, if_false, readVar, Res.ok_bind]
  rfl

theorem weight_length {k : Nat} (h1 : 1 ≤ k) (h8 : k ≤ 8) : (tableOf k).weight.length ≤ 16 := by
  interval_cases k <;> decide

/-- C144: the result in double is the result in exact arithmetic up to the errors of the integrand and a few roundings. -/
theorem C144_rounding (hr : ToNearest rnd) (hs : AnyOrder rnd sum3) {k : Nat} (h1 : 1 ≤ k) (h8 : k ≤ 8) {F f : V3 → ℝ} {v1 v2 v3 : V3} {V η ε L Y : ℝ}
    (hV : ∀ j, |v1 j| ≤ V ∧ |v2 j| ≤ V ∧ |v3 j| ≤ V) (hη : 45 / 2 ^ 53 * V ≤ η) (hL0 : 0 ≤ L)
    (hL : ∀ x y, NearTriangle v1 v2 v3 η x → InTriangle v1 v2 v3 y → |f x - f y| ≤ L * dist3 x y)
    (hF : ∀ x, NearTriangle v1 v2 v3 η x → |F x - f x| ≤ ε) (hY : ∀ x, NearTriangle v1 v2 v3 η x → |F x| ≤ Y) :
    ∃ sF sf r r', Integration2dTriangle.new F k = .ok sF ∧ Integration2dTriangle.new f k = .ok sf ∧
      sF.computeR rnd sum3 v1 v2 v3 = .ok r ∧ sf.compute v1 v2 v3 = .ok r' ∧
      |r - r'| ≤ 5 / 2 * area v1 v2 v3 * (ε + L * η) + 45 / 2 ^ 53 * (dist3 v1 v3 * dist3 v2 v3) * Y := by
  set pR : Nat → V3 := fun i => gaussPointR rnd (rnd ((tableOf k).alpha.getD i 0 : ℚ)) (rnd ((tableOf k).beta.getD i 0 : ℚ)) v1 v2 v3 with hpR
  set w : Nat → ℝ := fun i => ((tableOf k).weight.getD i 0 : ℚ) with hw
  set p : Nat → V3 := fun i => barPoint v1 v2 v3 ((tableOf k).alpha.getD i 0 : ℚ) ((tableOf k).beta.getD i 0 : ℚ) with hp
  refine ⟨_, _, rnd (rnd (gaussSumR rnd w (fun i => F (pR i)) ((tableOf k).weight.length - 1) * (1 / 2)) *
      rnd (2 * rnd (1 / 2 * V3.normR rnd sum3 (V3.crossR rnd (fun j => rnd (v1 j - v3 j)) (fun j => rnd (v2 j - v3 j)))))), _, new_ok F h1 h8, new_ok f h1 h8, ?_,
    compute_ok f h1 h8 v1 v2 v3, ?_⟩
  · unfold Integration2dTriangle.computeR
    rw [standardR_ok F h1 h8]
    rfl
  obtain ⟨-, -, -, -, -, hpos⟩ := tables_read h1 h8
  have hl := weight_length h1 h8
  obtain ⟨n, hn⟩ : ∃ n, (tableOf k).weight.length = n + 1 := ⟨_, (Nat.succ_pred_eq_of_pos hpos).symm⟩
  have hins : ∀ i, i < n + 1 → InTriangle v1 v2 v3 (p i) := fun i hi => inTriangle_gauss h1 h8 (by omega) v1 v2 v3
  have hdist : ∀ i, i < n + 1 → dist3 (pR i) (p i) ≤ η := by
    intro i hi
    obtain ⟨a0, b0, ab⟩ := inside h1 h8 (i := i) (by omega) v1 v2 v3
    exact (gaussPoint_near hr a0 b0 ab (fun j => (hV j).1) (fun j => (hV j).2.1) (fun j => (hV j).2.2)).trans hη
  have hnear : ∀ i, i < n + 1 → NearTriangle v1 v2 v3 η (pR i) := fun i hi => ⟨p i, hins i hi, hdist i hi⟩
  have hw2 : ∑ i ∈ range (n + 1), |w i| ≤ 5 / 2 := by
    have := labs_check k (mem8 h1 h8)
    rw [labs_eq, hn] at this
    have h' : ((∑ i ∈ range (n + 1), |(tableOf k).weight.getD i 0| : ℚ) : ℝ) ≤ ((5 / 2 : ℚ) : ℝ) := Rat.cast_le.2 this
    push_cast at h'
    exact h'
  have hY0 : 0 ≤ Y := (abs_nonneg _).trans (hY _ (hnear 0 (by omega)))
  -- the rounded sum
  have hsum := (gaussSum_near hr w (fun i => F (pR i)) n).upto (l := 17) (by omega)
  have hsumQ : ∑ i ∈ range (n + 1), |w i| * |F (pR i)| ≤ 5 / 2 * Y := by
    calc ∑ i ∈ range (n + 1), |w i| * |F (pR i)| ≤ ∑ i ∈ range (n + 1), |w i| * Y :=
          sum_le_sum fun i hi => mul_le_mul_of_nonneg_left (hY _ (hnear i (mem_range.1 hi))) (abs_nonneg _)
      _ = (∑ i ∈ range (n + 1), |w i|) * Y := by rw [sum_mul]
      _ ≤ 5 / 2 * Y := by gcongr
  have hhalf : Near 0 (1 / 2) (1 / 2 : ℝ) (1 / 2) := by simpa using Near.exact (1 / 2)
  have htwo : Near 0 2 (2 : ℝ) 2 := by simpa using Near.exact 2
  have hst := ((hsum.mono le_rfl hsumQ).mul hhalf).round hr
  have hN := crossNorm_near hr hs (a := v1 - v3) (b := v2 - v3) (fun j => (Near.exact ((v1 - v3) j)).round hr) (fun j => (Near.exact ((v2 - v3) j)).round hr)
  rw [← v3norm_dist, ← v3norm_dist] at hN
  have hA := (htwo.mul ((hhalf.mul hN).round hr)).round hr
  have hT := (hst.mul hA).round hr
  have hb := hT.sum_le (by norm_num)
  rw [hn, Nat.add_sub_cancel]
  rw [show 1 / 2 * V3.norm (V3.cross (v1 - v3) (v2 - v3)) = area v1 v2 v3 from gram_cross v1 v2 v3] at hb
  have ha := area_nonneg v1 v2 v3
  -- the displaced points and the error of the integrand
  have hd : |∑ i ∈ range (n + 1), w i * F (pR i) - ∑ i ∈ range (n + 1), w i * f (p i)| ≤ 5 / 2 * (ε + L * η) := by
    have hε0 : 0 ≤ ε := (abs_nonneg _).trans (hF _ (hnear 0 (by omega)))
    have hη0 : 0 ≤ η := (Real.sqrt_nonneg _).trans (hdist 0 (by omega))
    rw [← sum_sub_distrib]
    refine (abs_sum_le_sum_abs _ _).trans ?_
    calc ∑ i ∈ range (n + 1), |w i * F (pR i) - w i * f (p i)| ≤ ∑ i ∈ range (n + 1), |w i| * (ε + L * η) := by
          refine sum_le_sum fun i hi => ?_
          rw [← mul_sub, abs_mul]
          refine mul_le_mul_of_nonneg_left ?_ (abs_nonneg _)
          have hi := mem_range.1 hi
          have t1 := hF _ (hnear i hi)
          have t2 := (hL _ _ (hnear i hi) (hins i hi)).trans (mul_le_mul_of_nonneg_left (hdist i hi) hL0)
          have := abs_sub_le (F (pR i)) (f (pR i)) (f (p i))
          linarith
      _ = (∑ i ∈ range (n + 1), |w i|) * (ε + L * η) := by rw [sum_mul]
      _ ≤ 5 / 2 * (ε + L * η) := by gcongr
  have hq : area v1 v2 v3 • qsum (tableOf k) (fun a b => f (barPoint v1 v2 v3 a b)) = area v1 v2 v3 * ∑ i ∈ range (n + 1), w i * f (p i) := by
    unfold qsum
    rw [hn]
    rfl
  rw [hq]
  have hd' := mul_le_mul_of_nonneg_left hd ha
  rw [← abs_of_nonneg ha, ← abs_mul, abs_of_nonneg ha, mul_sub] at hd'
  have := abs_sub_le (rnd (rnd (gaussSumR rnd w (fun i => F (pR i)) n * (1 / 2)) *
      rnd (2 * rnd (1 / 2 * V3.normR rnd sum3 (V3.crossR rnd (fun j => rnd (v1 j - v3 j)) (fun j => rnd (v2 j - v3 j)))))))
    (area v1 v2 v3 * ∑ i ∈ range (n + 1), w i * F (pR i)) (area v1 v2 v3 * ∑ i ∈ range (n + 1), w i * f (p i))
  refine this.trans ?_
  have hb' : |rnd (rnd (gaussSumR rnd w (fun i => F (pR i)) n * (1 / 2)) *
      rnd (2 * rnd (1 / 2 * V3.normR rnd sum3 (V3.crossR rnd (fun j => rnd (v1 j - v3 j)) (fun j => rnd (v2 j - v3 j)))))) -
      area v1 v2 v3 * ∑ i ∈ range (n + 1), w i * F (pR i)| ≤ 45 / 2 ^ 53 * (dist3 v1 v3 * dist3 v2 v3) * Y := by
    have e : (∑ i ∈ range (n + 1), w i * F (pR i)) * (1 / 2) * (2 * area v1 v2 v3) = area v1 v2 v3 * ∑ i ∈ range (n + 1), w i * F (pR i) := by ring
    rw [e] at hb
    refine hb.trans ?_
    have hE : 0 ≤ dist3 v1 v3 * dist3 v2 v3 * Y := by
      have := Real.sqrt_nonneg (∑ j, (v1 j - v3 j) ^ 2)
      have := Real.sqrt_nonneg (∑ j, (v2 j - v3 j) ^ 2)
      unfold dist3
      positivity
    push_cast
    nlinarith
  linarith

/-- C144: the result in double of an integrand within `ε` of a function `f`, itself within `e` of a polynomial of the degree of the rule in the
barycentric coordinates, is the integral of `f`. -/
theorem C144_accuracy (hr : ToNearest rnd) (hs : AnyOrder rnd sum3) {k : Nat} (h1 : 1 ≤ k) (h8 : k ≤ 8) {F f : V3 → ℝ} {v1 v2 v3 : V3} {V η ε L Y e : ℝ}
    (hV : ∀ j, |v1 j| ≤ V ∧ |v2 j| ≤ V ∧ |v3 j| ≤ V) (hη : 45 / 2 ^ 53 * V ≤ η) (hL0 : 0 ≤ L)
    (hL : ∀ x y, NearTriangle v1 v2 v3 η x → InTriangle v1 v2 v3 y → |f x - f y| ≤ L * dist3 x y)
    (hF : ∀ x, NearTriangle v1 v2 v3 η x → |F x - f x| ≤ ε) (hY : ∀ x, NearTriangle v1 v2 v3 η x → |F x| ≤ Y)
    (hf : Continuous f) (c : Nat → Nat → ℝ) (he : ∀ a b, 0 ≤ a → 0 ≤ b → a + b ≤ 1 → |f (barPoint v1 v2 v3 a b) - triPoly k c a b| ≤ e) :
    ∃ s r, Integration2dTriangle.new F k = .ok s ∧ s.computeR rnd sum3 v1 v2 v3 = .ok r ∧
      |r - triangleIntegral f v1 v2 v3| ≤ area v1 v2 v3 * (7 / 2 * e + 3 / 10 ^ 14 * coefSum k c + 5 / 2 * (ε + L * η))
        + 45 / 2 ^ 53 * (dist3 v1 v3 * dist3 v2 v3) * Y := by
  obtain ⟨sF, sf, r, r', n1, n2, c1, c2, hb⟩ := C144_rounding hr hs h1 h8 hV hη hL0 hL hF hY
  obtain ⟨s, r'', n3, c3, hb'⟩ := C130_approximation h1 h8 f hf c he
  rw [n2] at n3
  injection n3 with n3
  rw [← n3, c2] at c3
  injection c3 with c3
  rw [← c3] at hb'
  refine ⟨sF, r, n1, c1, ?_⟩
  have := abs_sub_le r r' (triangleIntegral f v1 v2 v3)
  linarith

/-- C144: the order of the quadrature is checked as in exact arithmetic, and the three orders of addition exist. -/
example : AnyOrder roundNearest (fun a b c => roundNearest (roundNearest (a + b) + c)) ∧ AnyOrder roundNearest (fun a b c => roundNearest (a + roundNearest (b + c))) :=
  ⟨fun _ _ _ => Or.inl rfl, fun _ _ _ => Or.inr (Or.inl rfl)⟩

theorem abs_coord_le (x y : V3) (j : Fin 3) : |x j - y j| ≤ dist3 x y := by
  rw [← Real.sqrt_sq_eq_abs]
  refine Real.sqrt_le_sqrt ?_
  exact single_le_sum (f := fun j => (x j - y j) ^ 2) (fun i _ => sq_nonneg _) (mem_univ j)

/-- C144: the hypotheses are met: the rounded first coordinate over a right-angled triangle with the rule of order 2. -/
example : ∃ rnd sum3, ToNearest rnd ∧ AnyOrder rnd sum3 ∧ ∃ s r, Integration2dTriangle.new (fun x => rnd (x 0)) 2 = .ok s ∧
    s.computeR rnd sum3 ![0, 0, 0] ![3, 0, 0] ![0, 4, 0] = .ok r ∧ |r - triangleIntegral (fun x => x 0) ![0, 0, 0] ![3, 0, 0] ![0, 4, 0]| ≤ 1 / 10 ^ 11 := by
  have hr := roundNearest_toNearest
  have hs : AnyOrder roundNearest (fun a b c => roundNearest (roundNearest (a + b) + c)) := fun _ _ _ => Or.inl rfl
  refine ⟨_, _, hr, hs, ?_⟩
  have hx : ∀ x, NearTriangle ![0, 0, 0] ![3, 0, 0] ![0, 4, 0] (180 / 2 ^ 53) x → |x 0| ≤ 4 := by
    rintro x ⟨y, ⟨a, b, ha, hb, hab, rfl⟩, hd⟩
    have h := (abs_coord_le x _ 0).trans hd
    simp only [barPoint, Matrix.cons_val_zero, mul_zero, zero_add, add_zero] at h
    rw [abs_le] at h ⊢
    norm_num at h
    constructor <;> linarith [h.1, h.2]
  have ha : area ![0, 0, 0] ![3, 0, 0] ![0, 4, 0] = 6 := by
    simp [area, dot3, Fin.sum_univ_three]
    norm_num
  have d1 : dist3 ![0, 0, 0] ![0, 4, 0] = 4 := by
    simp [dist3, Fin.sum_univ_three]
  have d2 : dist3 ![3, 0, 0] ![0, 4, 0] = 5 := by
    simp [dist3, Fin.sum_univ_three]
    rw [show (3 ^ 2 + 4 ^ 2 : ℝ) = 5 ^ 2 by norm_num, Real.sqrt_sq (by norm_num)]
  have he : ∀ x, NearTriangle ![0, 0, 0] ![3, 0, 0] ![0, 4, 0] (180 / 2 ^ 53) x → |roundNearest (x 0) - x 0| ≤ 4 / 2 ^ 53 := by
    intro x h
    have := toNearest_err hr (x 0)
    rw [abs_sub_comm] at this
    refine this.trans ?_
    gcongr
    exact hx x h
  obtain ⟨s, r, h1, h2, h3⟩ := C144_accuracy hr hs (k := 2) (by norm_num) (by norm_num) (F := fun x => roundNearest (x 0)) (f := fun x => x 0)
    (v1 := ![0, 0, 0]) (v2 := ![3, 0, 0]) (v3 := ![0, 4, 0]) (V := 4) (η := 180 / 2 ^ 53) (ε := 4 / 2 ^ 53) (L := 1) (Y := 5) (e := 0)
    (fun j => by fin_cases j <;> norm_num) (by norm_num) (by norm_num) (fun x y _ _ => by rw [one_mul]; exact abs_coord_le x y 0) he
    (fun x h => by
      have h1 := he x h
      have h2 := hx x h
      have := abs_sub_abs_le_abs_sub (roundNearest (x 0)) (x 0)
      norm_num at h1
      linarith) (by fun_prop) (fun p q => if p = 1 ∧ q = 0 then 3 else 0) (fun a b _ _ _ => by
      simp [triPoly, barPoint, sum_range_succ]
      ring)
  refine ⟨s, r, h1, h2, h3.trans ?_⟩
  rw [ha, d1, d2]
  simp [coefSum, sum_range_succ]
  norm_num

end MU
