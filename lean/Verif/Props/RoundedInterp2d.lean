import Verif.Model.RoundedInterp2d
import Verif.Lemmas.Interp2d
import Verif.Lemmas.Rounding
import Verif.Lemmas.Angles
import Verif.Props.Rounded

/-!
# C131: interpolation in two variables in double arithmetic
-/

set_option linter.unusedSectionVars false
set_option linter.unusedSimpArgs false

namespace MU

open Spec

variable {rnd : ℝ → ℝ}

namespace Interp2d

/-- The four coefficients of a cell, as computed. -/
noncomputable def coefsOf (rnd : ℝ → ℝ) (x1 x2 y1 y2 d11 d12 d21 d22 : ℝ) : ℝ × ℝ × ℝ × ℝ :=
  let inv_dx := rnd (1 / rnd (x2 - x1))
  let inv_dy := rnd (1 / rnd (y2 - y1))
  (rnd (rnd (rnd (rnd (rnd (rnd (rnd (d11 * x2) * y2) - rnd (rnd (d12 * x2) * y1)) - rnd (rnd (d21 * x1) * y2)) + rnd (rnd (d22 * x1) * y1)) *
      inv_dx) * inv_dy),
   rnd (rnd (rnd (rnd (rnd (rnd (-d11 * y2) + rnd (d12 * y1)) + rnd (d21 * y2)) - rnd (d22 * y1)) * inv_dx) * inv_dy),
   rnd (rnd (rnd (rnd (rnd (rnd (-d11 * x2) + rnd (d12 * x2)) + rnd (d21 * x1)) - rnd (d22 * x1)) * inv_dx) * inv_dy),
   rnd (rnd (rnd (rnd (rnd (d11 - d12) - d21) + d22) * inv_dx) * inv_dy))

/-- The four coefficients of cell `(i, j)`, as computed. -/
noncomputable def coefsR (rnd : ℝ → ℝ) (xs ys d : List ℝ) (i j : Nat) : ℝ × ℝ × ℝ × ℝ :=
  coefsOf rnd (xs.getD i 0) (xs.getD (i + 1) 0) (ys.getD j 0) (ys.getD (j + 1) 0) (d.getD (ys.length * i + j) 0)
    (d.getD (ys.length * i + (j + 1)) 0) (d.getD (ys.length * (i + 1) + j) 0) (d.getD (ys.length * (i + 1) + (j + 1)) 0)

/-- Coefficients of the `k`-th cell in storage order. -/
noncomputable def coefsAtR (rnd : ℝ → ℝ) (xs ys d : List ℝ) (k : Nat) : ℝ × ℝ × ℝ × ℝ :=
  coefsR rnd xs ys d (k / (ys.length - 1)) (k % (ys.length - 1))

/-- The object left by `Initialize` after `n` cells. -/
noncomputable def builtR (rnd : ℝ → ℝ) (xs ys d : List ℝ) (hx : 0 < xs.length) (hy : 0 < ys.length) (n : Nat) : Interp2d ℝ :=
  { xcoord := some xs, ycoord := some ys, mdata := some d, nx := xs.length, xmin := some xs[0],
    xmax := some (xs[xs.length - 1]'(by omega)), ny := ys.length, ymin := some ys[0],
    ymax := some (ys[ys.length - 1]'(by omega)), ndata := xs.length * ys.length,
    a1 := (List.range n).map (fun k => (coefsAtR rnd xs ys d k).1),
    a2 := (List.range n).map (fun k => (coefsAtR rnd xs ys d k).2.1),
    a3 := (List.range n).map (fun k => (coefsAtR rnd xs ys d k).2.2.1),
    a4 := (List.range n).map (fun k => (coefsAtR rnd xs ys d k).2.2.2) }

theorem run_initializeInnerR (hr : ToNearest rnd) {xs ys d : List ℝ} (hx : 0 < xs.length) (hy : 0 < ys.length) (hys : ys.Pairwise (· < ·))
    (hd : d.length = xs.length * ys.length) (i j : Nat) (hi : i + 1 < xs.length) (hj : j + 1 < ys.length) :
    (initializeInnerR rnd (some d) ys.length (i + 1) xs[i] xs[i + 1] (rnd (1 / rnd (xs[i + 1] - xs[i]))) (j + 1)).run
      (builtR rnd xs ys d hx hy (i * (ys.length - 1) + j)) =
    (.ok (), builtR rnd xs ys d hx hy (i * (ys.length - 1) + (j + 1))) := by
  have hdy : rnd (ys[j + 1] - ys[j]) ≠ 0 :=
    toNearest_ne_zero hr (sub_ne_zero.mpr (ne_of_gt (getElem_lt_of_pairwise hys (Nat.lt_succ_self j) hj)))
  have l11 : ys.length * i + j < d.length := by rw [hd]; exact idx_lt (by omega) (by omega)
  have l12 : ys.length * i + (j + 1) < d.length := by rw [hd]; exact idx_lt (by omega) (by omega)
  have l21 : ys.length * (i + 1) + j < d.length := by rw [hd]; exact idx_lt (by omega) (by omega)
  have l22 : ys.length * (i + 1) + (j + 1) < d.length := by rw [hd]; exact idx_lt (by omega) (by omega)
  simp only [initializeInnerR, Act.run_bind, Act.run_get, Act.run_lift, builtR, deref_some, Nat.add_sub_cancel,
    vAt_lt hj, vAt_lt (show j < ys.length by omega), fdiv_ok hdy, vAt_lt l11, vAt_lt l12, vAt_lt l21, vAt_lt l22, Act.run_update]
  have hdiv : (i * (ys.length - 1) + j) / (ys.length - 1) = i := by
    rw [mul_comm, Nat.mul_add_div (by omega), Nat.div_eq_of_lt (by omega), add_zero]
  have hmod : (i * (ys.length - 1) + j) % (ys.length - 1) = j := by
    rw [mul_comm, Nat.mul_add_mod, Nat.mod_eq_of_lt (by omega)]
  have e3 : i < xs.length := by omega
  have e4 : j < ys.length := by omega
  congr 1
  simp only [← add_assoc, List.range_succ, List.map_append, List.map_cons, List.map_nil, coefsAtR, hdiv, hmod, coefsR, coefsOf,
    List.getD_eq_getElem?_getD, hi, hj, e3, e4, List.getElem?_eq_getElem, Option.getD_some, l11, l12, l21, l22, List.append_assoc]
  simp only [add_assoc, l12, l22, List.getElem?_eq_getElem, Option.getD_some]

theorem run_initializeOuterR (hr : ToNearest rnd) {xs ys d : List ℝ} (hx : 0 < xs.length) (hy : 0 < ys.length) (hxs : xs.Pairwise (· < ·))
    (hys : ys.Pairwise (· < ·)) (hd : d.length = xs.length * ys.length) (i : Nat) (hi : i + 1 < xs.length) :
    (initializeOuterR rnd (some d) ys.length (i + 1)).run (builtR rnd xs ys d hx hy (i * (ys.length - 1))) =
    (.ok (), builtR rnd xs ys d hx hy ((i + 1) * (ys.length - 1))) := by
  have hdx : rnd (xs[i + 1] - xs[i]) ≠ 0 :=
    toNearest_ne_zero hr (sub_ne_zero.mpr (ne_of_gt (getElem_lt_of_pairwise hxs (Nat.lt_succ_self i) hi)))
  unfold initializeOuterR
  rw [Act.run_bind_ok (Act.run_get _),
    Act.run_bind_ok (a := xs) (s' := builtR rnd xs ys d hx hy (i * (ys.length - 1))) (by simp [builtR]),
    Act.run_bind_ok (a := xs[i]) (s' := builtR rnd xs ys d hx hy (i * (ys.length - 1)))
      (by simp [vAt_lt (show i < xs.length by omega)]),
    Act.run_bind_ok (a := xs[i + 1]) (s' := builtR rnd xs ys d hx hy (i * (ys.length - 1))) (by simp [vAt_lt hi]),
    Act.run_bind_ok (a := 1 / rnd (xs[i + 1] - xs[i])) (s' := builtR rnd xs ys d hx hy (i * (ys.length - 1))) (by simp [fdiv_ok hdx])]
  have := Act.loop_ok (lo := 1) (hi := ys.length) (by omega) (fun j => builtR rnd xs ys d hx hy (i * (ys.length - 1) + (j - 1)))
    (f := initializeInnerR rnd (some d) ys.length (i + 1) xs[i] xs[i + 1] (rnd (1 / rnd (xs[i + 1] - xs[i]))))
    (fun j h1 h2 => by
      obtain ⟨j, rfl⟩ : ∃ t, j = t + 1 := ⟨j - 1, by omega⟩
      simpa using run_initializeInnerR hr hx hy hys hd i j hi h2)
  simp only [Nat.sub_self, add_zero] at this
  rw [Nat.succ_mul]
  exact this

theorem run_initR (hr : ToNearest rnd) (B : Build) {xs ys d : List ℝ} (hx : 0 < xs.length) (hy : 0 < ys.length) (hxs : xs.Pairwise (· < ·))
    (hys : ys.Pairwise (· < ·)) (hd : d.length = xs.length * ys.length) :
    (initR rnd B (some xs) (some ys) (some d)).run (fresh ℝ) =
      (.ok (), builtR rnd xs ys d hx hy ((xs.length - 1) * (ys.length - 1))) := by
  have h0 : built (fresh ℝ) xs ys d hx hy 0 = builtR rnd xs ys d hx hy 0 := rfl
  rw [initR, Act.run_bind_ok (run_initializeBase B hx hy (pairwise_lt_le hxs) (pairwise_lt_le hys) (fresh ℝ)),
    Act.run_bind_ok (Act.run_get _), h0]
  have := Act.loop_ok (lo := 1) (hi := xs.length) (by omega) (fun i => builtR rnd xs ys d hx hy ((i - 1) * (ys.length - 1)))
    (f := initializeOuterR rnd (some d) ys.length)
    (fun i h1 h2 => by
      obtain ⟨i, rfl⟩ : ∃ t, i = t + 1 := ⟨i - 1, by omega⟩
      simpa using run_initializeOuterR hr hx hy hxs hys hd i h2)
  simp only [Nat.sub_self, zero_mul] at this
  exact this

/-- The value of a cell, as computed. -/
noncomputable def cellR (rnd : ℝ → ℝ) (a : ℝ × ℝ × ℝ × ℝ) (x y : ℝ) : ℝ :=
  rnd (rnd (rnd (a.1 + rnd (a.2.1 * x)) + rnd (a.2.2.1 * y)) + rnd (rnd (a.2.2.2 * x) * y))

/-- In the cell `(i, j)`, without its left and lower sides unless they are on the boundary. -/
theorem interp2dR_eq (hr : ToNearest rnd) (B : Build) {xs ys d : List ℝ} (g : Grid xs ys d) {i j : Nat} (hi : i + 1 < xs.length)
    (hj : j + 1 < ys.length) {x y : ℝ} (hx0 : xs[i] < x ∨ i = 0 ∧ xs[i] = x) (hx1 : x ≤ xs[i + 1]) (hy0 : ys[j] < y ∨ j = 0 ∧ ys[j] = y)
    (hy1 : y ≤ ys[j + 1]) : interp2dR rnd B .LINEAR xs ys d x y = .ok (cellR rnd (coefsR rnd xs ys d i j) x y) := by
  have hx : 0 < xs.length := by omega
  have hy : 0 < ys.length := by omega
  have hx0' : xs[i] ≤ x := by rcases hx0 with h | h; exacts [h.le, h.2.le]
  have hy0' : ys[j] ≤ y := by rcases hy0 with h | h; exacts [h.le, h.2.le]
  obtain ⟨p, hp, hpc⟩ := Interp1d.lowerBound_cell g.incx hi hx0' hx1
  obtain ⟨q, hq, hqc⟩ := Interp1d.lowerBound_cell g.incy hj hy0' hy1
  have rx := Interp1d.range_of_cell g.incx hi hx0' hx1
  have ry := Interp1d.range_of_cell g.incy hj hy0' hy1
  have hp' : p - 1 = i := by
    rcases hpc with h | ⟨h, he⟩
    · omega
    · rcases hx0 with h' | h'
      · linarith
      · omega
  have hq' : q - 1 = j := by
    rcases hqc with h | ⟨h, he⟩
    · omega
    · rcases hy0 with h' | h'
      · linarith
      · omega
  have hpl : i < xs.length - 1 := by omega
  have hql : j < ys.length - 1 := by omega
  have hn : j + i * (ys.length - 1) < (xs.length - 1) * (ys.length - 1) := by
    have := idx_lt hpl hql
    rw [mul_comm i, add_comm]; exact this
  have ha : evalAsserts B (builtR rnd xs ys d hx hy ((xs.length - 1) * (ys.length - 1))) x y = .ok () :=
    evalAsserts_ok B (d := d) (fresh ℝ) hx hy ((xs.length - 1) * (ys.length - 1)) rx.1 rx.2 ry.1 ry.2
  simp only [interp2dR, make, Res.ok_bind, run_initR hr B hx hy g.incx g.incy g.size]
  rw [evalR, ha]
  have e : (if q = 0 then 1 else q) + ((if p = 0 then 1 else p) - 1) * (ys.length - 1) - 1 = j + i * (ys.length - 1) := by
    have e1 : (if p = 0 then 1 else p) - 1 = i := by split <;> omega
    rw [e1]
    split <;> omega
  simp only [Res.ok_bind, builtR, deref_some, hp, hq, e]
  rw [vAt_lt (by simpa using hn), vAt_lt (by simpa using hn), vAt_lt (by simpa using hn), vAt_lt (by simpa using hn)]
  have hdiv : (j + i * (ys.length - 1)) / (ys.length - 1) = i := by
    rw [add_comm, mul_comm, Nat.mul_add_div (by omega), Nat.div_eq_of_lt (by omega), add_zero]
  have hmod : (j + i * (ys.length - 1)) % (ys.length - 1) = j := by
    rw [add_comm, mul_comm, Nat.mul_add_mod, Nat.mod_eq_of_lt (by omega)]
  simp [coefsAtR, hdiv, hmod, cellR]

end Interp2d

/-- `1. / d` in double. -/
theorem Near.recip (hr : ToNearest rnd) {d : ℝ} (hd : 0 < d) : Near 3 d⁻¹ d⁻¹ (rnd (1 / rnd d)) := by
  have := (Near.inv_round hr (d := d)).round hr
  rwa [abs_of_pos (inv_pos.2 hd), ← one_div (rnd d)] at this

/-- The value of a cell, as computed, with the number of roundings each term goes through. -/
theorem cell_near (hr : ToNearest rnd) {x1 x2 y1 y2 d11 d12 d21 d22 x y X Y D : ℝ} (hx : x1 < x2) (hy : y1 < y2) (hx0 : x1 ≤ x) (hx1 : x ≤ x2)
    (hy0 : y1 ≤ y) (hy1 : y ≤ y2) (X1 : |x1| ≤ X) (X2 : |x2| ≤ X) (Y1 : |y1| ≤ Y) (Y2 : |y2| ≤ Y) (D11 : |d11| ≤ D) (D12 : |d12| ≤ D)
    (D21 : |d21| ≤ D) (D22 : |d22| ≤ D) :
    Near 16 (16 * D * X * Y / ((x2 - x1) * (y2 - y1))) (bilinear x1 x2 y1 y2 d11 d21 d12 d22 x y)
      (Interp2d.cellR rnd (Interp2d.coefsOf rnd x1 x2 y1 y2 d11 d12 d21 d22) x y) := by
  have hX : |x| ≤ X := abs_le.2 ⟨(abs_le.1 X1).1.trans hx0, hx1.trans (abs_le.1 X2).2⟩
  have hY : |y| ≤ Y := abs_le.2 ⟨(abs_le.1 Y1).1.trans hy0, hy1.trans (abs_le.1 Y2).2⟩
  have ix := Near.recip hr (sub_pos.2 hx)
  have iy := Near.recip hr (sub_pos.2 hy)
  have nX : 0 ≤ X := (abs_nonneg _).trans X1
  have nY : 0 ≤ Y := (abs_nonneg _).trans Y1
  have nD : 0 ≤ D := (abs_nonneg _).trans D11
  have c : ∀ {P B : ℝ}, |P| ≤ B → Near 0 B P P := fun h => (Near.exact _).mono le_rfl h
  have m3 : ∀ {d x y : ℝ}, |d| ≤ D → |x| ≤ X → |y| ≤ Y → Near 2 (D * X * Y) (d * x * y) (rnd (rnd (d * x) * y)) := fun h h' h'' =>
    ((((c h).mul (c h')).round hr).mul (c h'')).round hr
  have m2 : ∀ {d x B : ℝ}, |d| ≤ D → |x| ≤ B → Near 1 (D * B) (d * x) (rnd (d * x)) := fun h h' => ((c h).mul (c h')).round hr
  have D11' : |(-d11)| ≤ D := by rwa [abs_neg]
  -- a1
  have A1 := ((((((((((m3 D11 X2 Y2).sub (m3 D12 X2 Y1)).round hr).sub ((m3 D21 X1 Y2).upto (by norm_num : 2 ≤ 3))).round hr).add
    ((m3 D22 X1 Y1).upto (by norm_num : 2 ≤ 4))).round hr).mul ix).round hr).mul iy).round hr
  have A2 := ((((((((((((m2 D11' Y2).add (m2 D12 Y1)).round hr).add ((m2 D21 Y2).upto (by norm_num : 1 ≤ 2))).round hr).sub
    ((m2 D22 Y1).upto (by norm_num : 1 ≤ 3))).round hr).mul ix).round hr).mul iy).round hr).mul (c hX)).round hr
  have A3 := ((((((((((((m2 D11' X2).add (m2 D12 X2)).round hr).add ((m2 D21 X1).upto (by norm_num : 1 ≤ 2))).round hr).sub
    ((m2 D22 X1).upto (by norm_num : 1 ≤ 3))).round hr).mul ix).round hr).mul iy).round hr).mul (c hY)).round hr
  have A4 := ((((((((((((((c D11).sub (c D12)).round hr).sub ((c D21).upto (by norm_num : 0 ≤ 1))).round hr).add
    ((c D22).upto (by norm_num : 0 ≤ 2))).round hr).mul ix).round hr).mul iy).round hr).mul (c hX)).round hr).mul (c hY)).round hr
  have T := (((((A1.add A2).round hr).add (A3.upto (by norm_num : 13 ≤ 14))).round hr).add (A4.upto (by norm_num : 13 ≤ 15))).round hr
  unfold Interp2d.cellR Interp2d.coefsOf
  have hdx : x2 - x1 ≠ 0 := (sub_pos.2 hx).ne'
  have hdy : y2 - y1 ≠ 0 := (sub_pos.2 hy).ne'
  convert T using 1
  · field_simp
    ring
  · simp only [bilinear, line, smul_eq_mul]
    field_simp
    ring

open Interp2d in
/-- C131 (in part: up to an error): interpolation in two variables in double arithmetic. In the cell `[x1, x2] × [y1, y2]` the result differs from the
bilinear interpolant by at most `17u * 16 D X Y / ((x2 - x1) (y2 - y1))`, where `D` bounds the data of the corners and `X`, `Y` their coordinates.
Missing: a result between the data of the corners, and the data at the nodes, see `C131_refuted`. -/
theorem C131_error_partial (hr : ToNearest rnd) (B : Build) {xs ys data : List ℝ} (g : Grid xs ys data) {i j : Nat} (hi : i + 1 < xs.length)
    (hj : j + 1 < ys.length) {x y : ℝ} (hx0 : xs[i] < x ∨ i = 0 ∧ xs[i] = x) (hx1 : x ≤ xs[i + 1]) (hy0 : ys[j] < y ∨ j = 0 ∧ ys[j] = y)
    (hy1 : y ≤ ys[j + 1]) {X Y D : ℝ} (X1 : |xs[i]| ≤ X) (X2 : |xs[i + 1]| ≤ X) (Y1 : |ys[j]| ≤ Y) (Y2 : |ys[j + 1]| ≤ Y)
    (D11 : |g.at i j (by omega) (by omega)| ≤ D) (D12 : |g.at i (j + 1) (by omega) hj| ≤ D) (D21 : |g.at (i + 1) j hi (by omega)| ≤ D)
    (D22 : |g.at (i + 1) (j + 1) hi hj| ≤ D) :
    ∃ v, interp2dR rnd B .LINEAR xs ys data x y = .ok v ∧
      |v - bilinear xs[i] xs[i + 1] ys[j] ys[j + 1] (g.at i j (by omega) (by omega)) (g.at (i + 1) j hi (by omega))
        (g.at i (j + 1) (by omega) hj) (g.at (i + 1) (j + 1) hi hj) x y|
        ≤ 17 / 2 ^ 53 * (16 * D * X * Y / ((xs[i + 1] - xs[i]) * (ys[j + 1] - ys[j]))) := by
  refine ⟨_, interp2dR_eq hr B g hi hj hx0 hx1 hy0 hy1, ?_⟩
  have lx := getElem_lt_of_pairwise g.incx (Nat.lt_succ_self i) hi
  have ly := getElem_lt_of_pairwise g.incy (Nat.lt_succ_self j) hj
  have hx0' : xs[i] ≤ x := by rcases hx0 with h | h; exacts [h.le, h.2.le]
  have hy0' : ys[j] ≤ y := by rcases hy0 with h | h; exacts [h.le, h.2.le]
  have h := cell_near hr lx ly hx0' hx1 hy0' hy1 X1 X2 Y1 Y2 D11 D12 D21 D22
  have e : coefsR rnd xs ys data i j = coefsOf rnd xs[i] xs[i + 1] ys[j] ys[j + 1] (g.at i j (by omega) (by omega)) (g.at i (j + 1) (by omega) hj)
      (g.at (i + 1) j hi (by omega)) (g.at (i + 1) (j + 1) hi hj) := by
    have hd := g.size
    have l11 : ys.length * i + j < data.length := by rw [hd]; exact idx_lt (by omega) (by omega)
    have l12 : ys.length * i + (j + 1) < data.length := by rw [hd]; exact idx_lt (by omega) (by omega)
    have l21 : ys.length * (i + 1) + j < data.length := by rw [hd]; exact idx_lt (by omega) (by omega)
    have l22 : ys.length * (i + 1) + (j + 1) < data.length := by rw [hd]; exact idx_lt (by omega) (by omega)
    have e3 : i < xs.length := by omega
    have e4 : j < ys.length := by omega
    simp only [coefsR, Grid.at, List.getD_eq_getElem?_getD, hi, hj, e3, e4, l11, l12, l21, l22,
      List.getElem?_eq_getElem, Option.getD_some, ← mul_comm ys.length]
  rw [e]
  refine h.err.trans (mul_le_mul_of_nonneg_right ?_ h.nonneg)
  have := gam_le (k := 16) (by norm_num)
  unfold uround at this
  norm_num at this ⊢
  linarith

open Interp2d in
/-- C131 is false: a table of constants, `0.2` at the corners of `[2^52, 2^52 + 1] × [0, 1]`, is interpolated by `0.25` at every point of its range. -/
theorem C131_refuted (hr : ToNearest rnd) (B : Build) {x y : ℝ} (h0 : 2 ^ 52 ≤ x) (h1 : x ≤ 2 ^ 52 + 1) (h2 : 0 ≤ y) (h3 : y ≤ 1) :
    let c : ℝ := 7205759403792794 * (2 : ℝ) ^ (-55 : ℤ)
    |c - 1 / 5| < 1 / 2 ^ 55 ∧ Double c ∧ Double (2 ^ 52) ∧ Double (2 ^ 52 + 1) ∧
      interp2dR rnd B .LINEAR [2 ^ 52, 2 ^ 52 + 1] [0, 1] [c, c, c, c] x y = .ok (1 / 4) := by
  intro c
  have dc : Double c := ⟨7205759403792794, -55, by norm_num, by simp only [c]; norm_num⟩
  have d0 : Double (2 ^ 52) := ⟨2 ^ 52, 0, by norm_num, by norm_num⟩
  have d1 : Double (2 ^ 52 + 1) := ⟨2 ^ 52 + 1, 0, by norm_num, by norm_num⟩
  refine ⟨by simp only [c]; norm_num [abs_lt], dc, d0, d1, ?_⟩
  have g : Grid [(2 : ℝ) ^ 52, 2 ^ 52 + 1] [(0 : ℝ), 1] [c, c, c, c] := ⟨by simp, by simp, by simp, by simp, by simp⟩
  rw [interp2dR_eq hr B g (i := 0) (j := 0) (by simp) (by simp) (by
    rcases eq_or_lt_of_le h0 with h | h
    · exact Or.inr ⟨rfl, h⟩
    · exact Or.inl h) (by simpa using h1) (by
    rcases eq_or_lt_of_le h2 with h | h
    · exact Or.inr ⟨rfl, h⟩
    · exact Or.inl h) (by simpa using h3)]
  have r0 : rnd 0 = 0 := toNearest_double hr double_zero
  have r1 : rnd 1 = 1 := toNearest_double hr ⟨1, 0, by norm_num, by norm_num⟩
  have rc : rnd c = c := toNearest_double hr dc
  have rnc : rnd (-c) = -c := toNearest_double hr (double_neg dc)
  have hlo : rnd (c * 2 ^ 52) = 7205759403792794 * (2 : ℝ) ^ (-3 : ℤ) := by
    rw [toNearest_double hr ⟨7205759403792794, -3, by norm_num, by simp only [c]; norm_num⟩]
    simp only [c]
    norm_num
  have hhi : rnd (c * (2 ^ 52 + 1)) = ((7205759403792796 : ℤ) : ℝ) * (2 : ℝ) ^ (-3 : ℤ) :=
    toNearest_eq hr 7205759403792796 (-3) (by norm_num) (by norm_num) (by simp only [c]; norm_num [abs_lt])
  have hneg : rnd (-c * (2 ^ 52 + 1)) = -(((7205759403792796 : ℤ) : ℝ) * (2 : ℝ) ^ (-3 : ℤ)) := by
    have := toNearest_eq hr (x := -c * (2 ^ 52 + 1)) (-7205759403792796) (-3) (by norm_num) (by norm_num) (by simp only [c]; norm_num [abs_lt])
    rw [this]
    push_cast
    ring
  have dlo : Double (7205759403792794 * (2 : ℝ) ^ (-3 : ℤ)) := ⟨7205759403792794, -3, by norm_num, by norm_num⟩
  have dhi : Double (((7205759403792796 : ℤ) : ℝ) * (2 : ℝ) ^ (-3 : ℤ)) := ⟨7205759403792796, -3, by norm_num, by norm_num⟩
  have rlo := toNearest_double hr dlo
  have rhi := toNearest_double hr dhi
  have hq : rnd (1 / 4) = 1 / 4 := toNearest_double hr ⟨1, -2, by norm_num, by norm_num⟩
  have hdiff : ((7205759403792796 : ℤ) : ℝ) * (2 : ℝ) ^ (-3 : ℤ) - 7205759403792794 * (2 : ℝ) ^ (-3 : ℤ) = 1 / 4 := by norm_num
  have hc : coefsR rnd [(2 : ℝ) ^ 52, 2 ^ 52 + 1] [(0 : ℝ), 1] [c, c, c, c] 0 0 = (1 / 4, 0, 0, 0) := by
    simp only [coefsR, coefsOf, List.getD_cons_succ, List.getD_cons_zero, List.length_cons, List.length_nil, Nat.mul_zero, Nat.zero_add, Nat.add_zero,
      Nat.mul_one, Nat.reduceAdd, mul_one, mul_zero, r0, sub_zero, add_zero, add_sub_cancel_left, r1, div_one, rc, rnc, hlo, hhi, hneg, rlo, rhi,
      sub_self, neg_add_cancel, zero_add, zero_mul, hdiff, hq, zero_sub]
  rw [hc]
  simp only [cellR, zero_mul, r0, add_zero, hq]

/-- C131: the hypotheses are met. -/
example : ∃ rnd, ToNearest rnd ∧ ∃ v, interp2dR rnd ⟨true⟩ .LINEAR [0, 1, 3] [0, 2] [1, 2, 3, 4, 5, 10] 2 1 = .ok v ∧ |v - 11 / 2| < 1 / 2 ^ 40 := by
  refine ⟨_, roundNearest_toNearest, ?_⟩
  have g : Grid ([0, 1, 3] : List ℝ) ([0, 2] : List ℝ) ([1, 2, 3, 4, 5, 10] : List ℝ) := ⟨by simp, by simp, by simp, by simp, by simp⟩
  obtain ⟨v, hv, he⟩ := C131_error_partial roundNearest_toNearest ⟨true⟩ g (i := 1) (j := 0) (x := 2) (y := 1) (by simp) (by simp)
    (Or.inl (by norm_num)) (by norm_num) (Or.inl (by norm_num)) (by norm_num) (X := 3) (Y := 2) (D := 10) (by norm_num) (by norm_num) (by norm_num)
    (by norm_num) (by norm_num [Grid.at]) (by norm_num [Grid.at]) (by norm_num [Grid.at]) (by norm_num [Grid.at])
  refine ⟨v, hv, ?_⟩
  simp only [Grid.at, List.getElem_cons_succ, List.getElem_cons_zero, bilinear, line] at he
  norm_num at he ⊢
  exact he.trans_lt (by norm_num)

end MU
