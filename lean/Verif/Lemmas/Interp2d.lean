import Verif.Model.Interp2d
import Verif.Lemmas.Interp1d

/-! What `Initialize` leaves in a 2D interpolator, and how it is evaluated. -/

set_option linter.unusedSectionVars false
set_option linter.unusedSimpArgs false

namespace MU.Interp2d

open MU.Spec

variable {K : Type} [Field K] [LinearOrder K] [IsStrictOrderedRing K]

/-- The four coefficients of cell `(i, j)`. -/
def coefs (xs ys d : List K) (i j : Nat) : K × K × K × K :=
  let x1 := xs.getD i 0
  let x2 := xs.getD (i + 1) 0
  let y1 := ys.getD j 0
  let y2 := ys.getD (j + 1) 0
  let d11 := d.getD (ys.length * i + j) 0
  let d12 := d.getD (ys.length * i + (j + 1)) 0
  let d21 := d.getD (ys.length * (i + 1) + j) 0
  let d22 := d.getD (ys.length * (i + 1) + (j + 1)) 0
  ((d11 * x2 * y2 - d12 * x2 * y1 - d21 * x1 * y2 + d22 * x1 * y1) * (1 / (x2 - x1)) * (1 / (y2 - y1)),
   (-d11 * y2 + d12 * y1 + d21 * y2 - d22 * y1) * (1 / (x2 - x1)) * (1 / (y2 - y1)),
   (-d11 * x2 + d12 * x2 + d21 * x1 - d22 * x1) * (1 / (x2 - x1)) * (1 / (y2 - y1)),
   (d11 - d12 - d21 + d22) * (1 / (x2 - x1)) * (1 / (y2 - y1)))

/-- Coefficients of the `k`-th cell in storage order. -/
def coefsAt (xs ys d : List K) (k : Nat) : K × K × K × K :=
  coefs xs ys d (k / (ys.length - 1)) (k % (ys.length - 1))

/-- The object left by `Initialize` after `n` cells. -/
def built (s : Interp2d K) (xs ys d : List K) (hx : 0 < xs.length) (hy : 0 < ys.length) (n : Nat) : Interp2d K :=
  { xcoord := some xs, ycoord := some ys, mdata := some d, nx := xs.length, xmin := some xs[0],
    xmax := some (xs[xs.length - 1]'(by omega)), ny := ys.length, ymin := some ys[0],
    ymax := some (ys[ys.length - 1]'(by omega)), ndata := xs.length * ys.length,
    a1 := s.a1 ++ (List.range n).map (fun k => (coefsAt xs ys d k).1),
    a2 := s.a2 ++ (List.range n).map (fun k => (coefsAt xs ys d k).2.1),
    a3 := s.a3 ++ (List.range n).map (fun k => (coefsAt xs ys d k).2.2.1),
    a4 := s.a4 ++ (List.range n).map (fun k => (coefsAt xs ys d k).2.2.2) }

theorem run_initializeBase (B : Build) {xs ys d : List K} (hx : 0 < xs.length) (hy : 0 < ys.length)
    (hxs : xs.Pairwise (· ≤ ·)) (hys : ys.Pairwise (· ≤ ·)) (s : Interp2d K) :
    (initializeBase B (some xs) (some ys) (some d)).run s = (.ok (), built s xs ys d hx hy 0) := by
  simp only [initializeBase, Act.run_bind, Act.run_lift, deref_some, cassert_true B _ hxs, cassert_true B _ hys,
    Act.run_update, vAt_lt hx, vAt_lt hy, vAt_lt (show xs.length - 1 < xs.length by omega),
    vAt_lt (show ys.length - 1 < ys.length by omega)]
  simp [built]

theorem idx_lt {nx ny i j : Nat} (hi : i < nx) (hj : j < ny) : ny * i + j < nx * ny := by
  calc ny * i + j < ny * i + ny := by omega
    _ = (i + 1) * ny := by ring
    _ ≤ nx * ny := Nat.mul_le_mul_right _ hi

theorem run_initializeInner {xs ys d : List K} (hx : 0 < xs.length) (hy : 0 < ys.length) (hys : ys.Pairwise (· < ·))
    (hd : d.length = xs.length * ys.length) (s : Interp2d K) (i j : Nat) (hi : i + 1 < xs.length) (hj : j + 1 < ys.length)
    :
    (initializeInner (some d) ys.length (i + 1) xs[i] xs[i + 1] (1 / (xs[i + 1] - xs[i])) (j + 1)).run
      (built s xs ys d hx hy (i * (ys.length - 1) + j)) =
    (.ok (), built s xs ys d hx hy (i * (ys.length - 1) + (j + 1))) := by
  have hdy : ys[j + 1] - ys[j] ≠ 0 :=
    sub_ne_zero.mpr (ne_of_gt (getElem_lt_of_pairwise hys (Nat.lt_succ_self j) hj))
  have l11 : ys.length * i + j < d.length := by rw [hd]; exact idx_lt (by omega) (by omega)
  have l12 : ys.length * i + (j + 1) < d.length := by rw [hd]; exact idx_lt (by omega) (by omega)
  have l21 : ys.length * (i + 1) + j < d.length := by rw [hd]; exact idx_lt (by omega) (by omega)
  have l22 : ys.length * (i + 1) + (j + 1) < d.length := by rw [hd]; exact idx_lt (by omega) (by omega)
  simp only [initializeInner, Act.run_bind, Act.run_get, Act.run_lift, built, deref_some, Nat.add_sub_cancel,
    vAt_lt hj, vAt_lt (show j < ys.length by omega), fdiv_ok hdy, vAt_lt l11, vAt_lt l12, vAt_lt l21, vAt_lt l22, Act.run_update]
  have hdiv : (i * (ys.length - 1) + j) / (ys.length - 1) = i := by
    rw [mul_comm, Nat.mul_add_div (by omega), Nat.div_eq_of_lt (by omega), add_zero]
  have hmod : (i * (ys.length - 1) + j) % (ys.length - 1) = j := by
    rw [mul_comm, Nat.mul_add_mod, Nat.mod_eq_of_lt (by omega)]
  have e3 : i < xs.length := by omega
  have e4 : j < ys.length := by omega
  congr 1
  simp only [← add_assoc, List.range_succ, List.map_append, List.map_cons, List.map_nil, coefsAt, hdiv, hmod, coefs,
    List.getD_eq_getElem?_getD, hi, hj, e3, e4, List.getElem?_eq_getElem, Option.getD_some, l11, l12, l21, l22, List.append_assoc]
  simp only [add_assoc, l12, l22, List.getElem?_eq_getElem, Option.getD_some]

theorem run_initializeOuter {xs ys d : List K} (hx : 0 < xs.length) (hy : 0 < ys.length) (hxs : xs.Pairwise (· < ·))
    (hys : ys.Pairwise (· < ·)) (hd : d.length = xs.length * ys.length) (s : Interp2d K) (i : Nat) (hi : i + 1 < xs.length) :
    (initializeOuter (some d) ys.length (i + 1)).run (built s xs ys d hx hy (i * (ys.length - 1))) =
    (.ok (), built s xs ys d hx hy ((i + 1) * (ys.length - 1))) := by
  have hdx : xs[i + 1] - xs[i] ≠ 0 :=
    sub_ne_zero.mpr (ne_of_gt (getElem_lt_of_pairwise hxs (Nat.lt_succ_self i) hi))
  unfold initializeOuter
  rw [Act.run_bind_ok (Act.run_get _),
    Act.run_bind_ok (a := xs) (s' := built s xs ys d hx hy (i * (ys.length - 1))) (by simp [built]),
    Act.run_bind_ok (a := xs[i]) (s' := built s xs ys d hx hy (i * (ys.length - 1)))
      (by simp [vAt_lt (show i < xs.length by omega)]),
    Act.run_bind_ok (a := xs[i + 1]) (s' := built s xs ys d hx hy (i * (ys.length - 1))) (by simp [vAt_lt hi]),
    Act.run_bind_ok (a := 1 / (xs[i + 1] - xs[i])) (s' := built s xs ys d hx hy (i * (ys.length - 1))) (by simp [fdiv_ok hdx])]
  have := Act.loop_ok (lo := 1) (hi := ys.length) (by omega) (fun j => built s xs ys d hx hy (i * (ys.length - 1) + (j - 1)))
    (f := initializeInner (some d) ys.length (i + 1) xs[i] xs[i + 1] (1 / (xs[i + 1] - xs[i])))
    (fun j h1 h2 => by
      obtain ⟨j, rfl⟩ : ∃ t, j = t + 1 := ⟨j - 1, by omega⟩
      simpa using run_initializeInner hx hy hys hd s i j hi h2)
  simp only [Nat.sub_self, add_zero] at this
  rw [Nat.succ_mul]
  exact this

theorem run_init (B : Build) {xs ys d : List K} (hx : 0 < xs.length) (hy : 0 < ys.length) (hxs : xs.Pairwise (· < ·))
    (hys : ys.Pairwise (· < ·)) (hd : d.length = xs.length * ys.length) (s : Interp2d K) :
    (init B (some xs) (some ys) (some d)).run s =
      (.ok (), built s xs ys d hx hy ((xs.length - 1) * (ys.length - 1))) := by
  rw [init, Act.run_bind_ok (run_initializeBase B hx hy (pairwise_lt_le hxs) (pairwise_lt_le hys) s),
    Act.run_bind_ok (Act.run_get _)]
  have := Act.loop_ok (lo := 1) (hi := xs.length) (by omega) (fun i => built s xs ys d hx hy ((i - 1) * (ys.length - 1)))
    (f := initializeOuter (some d) ys.length)
    (fun i h1 h2 => by
      obtain ⟨i, rfl⟩ : ∃ t, i = t + 1 := ⟨i - 1, by omega⟩
      simpa using run_initializeOuter hx hy hxs hys hd s i h2)
  simp only [Nat.sub_self, zero_mul] at this
  exact this

/-- The value computed from the coefficients of a cell is the bilinear interpolant. -/
theorem coefs_eq {xs ys d : List K} (g : Grid xs ys d) {i j : Nat} (hi : i + 1 < xs.length) (hj : j + 1 < ys.length) (x y : K) :
    (coefs xs ys d i j).1 + (coefs xs ys d i j).2.1 * x + (coefs xs ys d i j).2.2.1 * y + (coefs xs ys d i j).2.2.2 * x * y =
      g.cell i j hi hj x y := by
  have hdx : xs[i + 1] - xs[i] ≠ 0 :=
    sub_ne_zero.mpr (ne_of_gt (getElem_lt_of_pairwise g.incx (Nat.lt_succ_self i) hi))
  have hdy : ys[j + 1] - ys[j] ≠ 0 :=
    sub_ne_zero.mpr (ne_of_gt (getElem_lt_of_pairwise g.incy (Nat.lt_succ_self j) hj))
  have hd := g.size
  have l11 : ys.length * i + j < d.length := by rw [hd]; exact idx_lt (by omega) (by omega)
  have l12 : ys.length * i + (j + 1) < d.length := by rw [hd]; exact idx_lt (by omega) (by omega)
  have l21 : ys.length * (i + 1) + j < d.length := by rw [hd]; exact idx_lt (by omega) (by omega)
  have l22 : ys.length * (i + 1) + (j + 1) < d.length := by rw [hd]; exact idx_lt (by omega) (by omega)
  have e3 : i < xs.length := by omega
  have e4 : j < ys.length := by omega
  simp only [coefs, Grid.cell, bilinear, line, smul_eq_mul, Grid.at, List.getD_eq_getElem?_getD, hi, hj, e3, e4, l11, l12, l21, l22,
    List.getElem?_eq_getElem, Option.getD_some, ← mul_comm ys.length]
  simp only [l11, l12, l21, l22, add_assoc, List.getElem?_eq_getElem, Option.getD_some]
  field_simp
  ring

theorem bilinear_x1 {x0 x1 y0 y1 f00 f10 f01 f11 y : K} (h : x1 - x0 ≠ 0) :
    bilinear x0 x1 y0 y1 f00 f10 f01 f11 x1 y = line y0 f10 y1 f11 y := by
  simp only [bilinear, Interp1d.line_right h]

theorem bilinear_x0 {x0 x1 y0 y1 f00 f10 f01 f11 y : K} :
    bilinear x0 x1 y0 y1 f00 f10 f01 f11 x0 y = line y0 f00 y1 f01 y := by
  simp only [bilinear, Interp1d.line_left]

theorem bilinear_y1 {x0 x1 y0 y1 f00 f10 f01 f11 x : K} (h : y1 - y0 ≠ 0) :
    bilinear x0 x1 y0 y1 f00 f10 f01 f11 x y1 = line x0 f01 x1 f11 x := by
  simp only [bilinear, Interp1d.line_right h]

theorem bilinear_y0 {x0 x1 y0 y1 f00 f10 f01 f11 x : K} :
    bilinear x0 x1 y0 y1 f00 f10 f01 f11 x y0 = line x0 f00 x1 f10 x := by
  simp only [bilinear, Interp1d.line_left]

/-- Neighbouring cells agree on a shared vertical edge. -/
theorem cell_shared_x {xs ys d : List K} (g : Grid xs ys d) {i j : Nat} (hi : i + 2 < xs.length) (hj : j + 1 < ys.length) (y : K) :
    g.cell i j (by omega) hj xs[i + 1] y = g.cell (i + 1) j hi hj xs[i + 1] y := by
  have hdx : xs[i + 1] - xs[i] ≠ 0 :=
    sub_ne_zero.mpr (ne_of_gt (getElem_lt_of_pairwise g.incx (Nat.lt_succ_self i) (by omega)))
  simp only [Grid.cell, bilinear_x1 hdx, bilinear_x0]

/-- Neighbouring cells agree on a shared horizontal edge. -/
theorem cell_shared_y {xs ys d : List K} (g : Grid xs ys d) {i j : Nat} (hi : i + 1 < xs.length) (hj : j + 2 < ys.length) (x : K) :
    g.cell i j hi (by omega) x ys[j + 1] = g.cell i (j + 1) hi hj x ys[j + 1] := by
  have hdy : ys[j + 1] - ys[j] ≠ 0 :=
    sub_ne_zero.mpr (ne_of_gt (getElem_lt_of_pairwise g.incy (Nat.lt_succ_self j) (by omega)))
  simp only [Grid.cell, bilinear_y1 hdy, bilinear_y0]

/-- Evaluation of an object initialised once, in terms of the positions found by the binary searches. -/
theorem eval_built (B : Build) {xs ys d : List K} (s : Interp2d K) (h1 : s.a1 = []) (h2 : s.a2 = []) (h3 : s.a3 = [])
    (h4 : s.a4 = []) (hx : 0 < xs.length) (hy : 0 < ys.length) {x y : K} {p q : Nat}
    (hp : lowerBound xs x = .ok p) (hq : lowerBound ys y = .ok q) (n : Nat)
    (hn : (q - 1) + (p - 1) * (ys.length - 1) < n)
    (ha : evalAsserts B (built s xs ys d hx hy n) x y = .ok ()) :
    eval B (built s xs ys d hx hy n) x y =
      .ok ((coefsAt xs ys d ((q - 1) + (p - 1) * (ys.length - 1))).1 +
        (coefsAt xs ys d ((q - 1) + (p - 1) * (ys.length - 1))).2.1 * x +
        (coefsAt xs ys d ((q - 1) + (p - 1) * (ys.length - 1))).2.2.1 * y +
        (coefsAt xs ys d ((q - 1) + (p - 1) * (ys.length - 1))).2.2.2 * x * y) := by
  rw [eval, ha]
  have e1 : ∀ t : Nat, (if p = 0 then 1 else p) - 1 = p - 1 := fun _ => by split <;> omega
  have e : (if q = 0 then 1 else q) + ((if p = 0 then 1 else p) - 1) * (ys.length - 1) - 1 =
      (q - 1) + (p - 1) * (ys.length - 1) := by
    rw [e1 0]; split <;> omega
  simp only [Res.ok_bind, built, deref_some, hp, hq, h1, h2, h3, h4, List.nil_append, e]
  rw [vAt_lt (by simpa using hn), vAt_lt (by simpa using hn), vAt_lt (by simpa using hn), vAt_lt (by simpa using hn)]
  simp

theorem evalAsserts_ok (B : Build) {xs ys d : List K} (s : Interp2d K) (hx : 0 < xs.length) (hy : 0 < ys.length) (n : Nat) {x y : K}
    (hx0 : xs[0] ≤ x) (hx1 : x ≤ xs[xs.length - 1]) (hy0 : ys[0] ≤ y) (hy1 : y ≤ ys[ys.length - 1]) :
    evalAsserts B (built s xs ys d hx hy n) x y = .ok () := by
  unfold evalAsserts
  split
  · simp only [built, readVar_some, Res.ok_bind, cassert_true B _ (And.intro hx0 hx1), cassert_true B _ (And.intro hy0 hy1)]
  · rfl

/-- Evaluation inside the range. -/
theorem eval_range (B : Build) {xs ys d : List K} (g : Grid xs ys d) (hx : 0 < xs.length) (hy : 0 < ys.length)
    {i j : Nat} (hi : i + 1 < xs.length) (hj : j + 1 < ys.length) {x y : K}
    (hx0 : xs[i] ≤ x) (hx1 : x ≤ xs[i + 1]) (hy0 : ys[j] ≤ y) (hy1 : y ≤ ys[j + 1]) :
    eval B (built (fresh K) xs ys d hx hy ((xs.length - 1) * (ys.length - 1))) x y = .ok (g.cell i j hi hj x y) := by
  obtain ⟨p, hp, hpc⟩ := Interp1d.lowerBound_cell g.incx hi hx0 hx1
  obtain ⟨q, hq, hqc⟩ := Interp1d.lowerBound_cell g.incy hj hy0 hy1
  have rx := Interp1d.range_of_cell g.incx hi hx0 hx1
  have ry := Interp1d.range_of_cell g.incy hj hy0 hy1
  have hpl : p - 1 < xs.length - 1 := by omega
  have hql : q - 1 < ys.length - 1 := by omega
  have hn : (q - 1) + (p - 1) * (ys.length - 1) < (xs.length - 1) * (ys.length - 1) := by
    have := idx_lt hpl hql
    rw [mul_comm (p - 1), add_comm]; exact this
  rw [eval_built B _ rfl rfl rfl rfl hx hy hp hq _ hn (evalAsserts_ok B _ hx hy _ rx.1 rx.2 ry.1 ry.2)]
  have hdiv : ((q - 1) + (p - 1) * (ys.length - 1)) / (ys.length - 1) = p - 1 := by
    rw [add_comm, mul_comm, Nat.mul_add_div (by omega), Nat.div_eq_of_lt (by omega), add_zero]
  have hmod : ((q - 1) + (p - 1) * (ys.length - 1)) % (ys.length - 1) = q - 1 := by
    rw [add_comm, mul_comm, Nat.mul_add_mod, Nat.mod_eq_of_lt (by omega)]
  simp only [coefsAt, hdiv, hmod]
  rw [coefs_eq g (i := p - 1) (j := q - 1) (by omega) (by omega)]
  congr 1
  -- reduce both directions to cell (i, j)
  have stepx : ∀ (b : Nat) (hb : b + 1 < ys.length), g.cell (p - 1) b (by omega) hb x y = g.cell i b hi hb x y := by
    intro b hb
    rcases hpc with rfl | ⟨rfl, hxi⟩
    · rfl
    · rcases Nat.eq_zero_or_pos p with h | h
      · subst h; rfl
      · obtain ⟨t, rfl⟩ : ∃ t, p = t + 1 := ⟨p - 1, by omega⟩
        subst hxi
        exact cell_shared_x g hi hb y
  have stepy : g.cell i (q - 1) hi (by omega) x y = g.cell i j hi hj x y := by
    rcases hqc with rfl | ⟨rfl, hyi⟩
    · rfl
    · rcases Nat.eq_zero_or_pos q with h | h
      · subst h; rfl
      · obtain ⟨t, rfl⟩ : ∃ t, q = t + 1 := ⟨q - 1, by omega⟩
        subst hyi
        exact cell_shared_y g hi hj x
  rw [stepx _ (by omega), stepy]

/-- What the client program computes, for a grid. -/
theorem interp2d_eq (B : Build) {xs ys d : List K} (g : Grid xs ys d) (x y : K) :
    interp2d B .LINEAR xs ys d x y =
      eval B (built (fresh K) xs ys d (by have := g.twox; omega) (by have := g.twoy; omega)
        ((xs.length - 1) * (ys.length - 1))) x y := by
  simp only [interp2d, make, Res.ok_bind,
    run_init B (show 0 < xs.length by have := g.twox; omega) (show 0 < ys.length by have := g.twoy; omega) g.incx g.incy g.size]

end MU.Interp2d
