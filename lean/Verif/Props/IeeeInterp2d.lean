import Verif.Model.IeeeInterp2d
import Verif.Lemmas.IeeeNear
import Verif.Lemmas.Interp2d
import Verif.Props.RoundedInterp2d

/-!
# C189: interpolation in two variables in binary64, with overflow and underflow
-/

set_option linter.unusedSectionVars false
set_option linter.unusedSimpArgs false

namespace MU

open Spec Dbl

variable {fl : ℝ → Option ℝ}

namespace Interp2dI

/-- `1. / (b - a)`, as computed. -/
noncomputable def invI (fl : ℝ → Option ℝ) (a b : ℝ) : Dbl ℝ :=
  match fquot fl (num 1) (fsub fl (num b) (num a)) with
  | .ok v => v
  | _ => nan

theorem invI_eq (h : Ieee fl) {a b : ℝ} (ha : Double64 a) (hb : Double64 b) (hab : a < b) :
    fquot fl (num 1) (fsub fl (num b) (num a)) = .ok (invI fl a b) := by
  unfold invI
  rcases lt_or_ge |b - a| overflow64 with ho | ho
  · obtain ⟨ε, e1, -, e3⟩ := fsub_ok h hb ha ho
    have hu : uround ≤ 1 / 100 := by unfold uround; norm_num
    have : (b - a) * (1 + ε) ≠ 0 := mul_ne_zero (sub_ne_zero.2 hab.ne') (by have := (abs_le.1 e1).1; linarith)
    rw [e3]
    simp [fquot, this]
  · rw [abs_of_pos (sub_pos.2 hab)] at ho
    have : fsub fl (num b) (num a) = pinf := by
      rw [← ofReal_pinf h ho, sub_eq_add_neg]; rfl
    rw [this]
    rfl

/-- The four coefficients of a cell, as computed. -/
noncomputable def coefsOf (fl : ℝ → Option ℝ) (x1 x2 y1 y2 d11 d12 d21 d22 : ℝ) : Dbl ℝ × Dbl ℝ × Dbl ℝ × Dbl ℝ :=
  (fmul fl (fmul fl (fadd fl (fsub fl (fsub fl (fmul fl (fmul fl (num d11) (num x2)) (num y2))
    (fmul fl (fmul fl (num d12) (num x2)) (num y1))) (fmul fl (fmul fl (num d21) (num x1)) (num y2))) (fmul fl (fmul fl (num d22) (num x1)) (num y1)))
      (invI fl x1 x2)) (invI fl y1 y2),
   fmul fl (fmul fl (fsub fl (fadd fl (fadd fl (fmul fl (num (-d11)) (num y2)) (fmul fl (num d12) (num y1)))
    (fmul fl (num d21) (num y2))) (fmul fl (num d22) (num y1))) (invI fl x1 x2)) (invI fl y1 y2),
   fmul fl (fmul fl (fsub fl (fadd fl (fadd fl (fmul fl (num (-d11)) (num x2)) (fmul fl (num d12) (num x2)))
    (fmul fl (num d21) (num x1))) (fmul fl (num d22) (num x1))) (invI fl x1 x2)) (invI fl y1 y2),
   fmul fl (fmul fl (fadd fl (fsub fl (fsub fl (num d11) (num d12)) (num d21)) (num d22)) (invI fl x1 x2)) (invI fl y1 y2))

/-- The four coefficients of cell `(i, j)`, as computed. -/
noncomputable def coefsI (fl : ℝ → Option ℝ) (xs ys d : List ℝ) (i j : Nat) : Dbl ℝ × Dbl ℝ × Dbl ℝ × Dbl ℝ :=
  coefsOf fl (xs.getD i 0) (xs.getD (i + 1) 0) (ys.getD j 0) (ys.getD (j + 1) 0) (d.getD (ys.length * i + j) 0)
    (d.getD (ys.length * i + (j + 1)) 0) (d.getD (ys.length * (i + 1) + j) 0) (d.getD (ys.length * (i + 1) + (j + 1)) 0)

/-- Coefficients of the `k`-th cell in storage order. -/
noncomputable def coefsAtI (fl : ℝ → Option ℝ) (xs ys d : List ℝ) (k : Nat) : Dbl ℝ × Dbl ℝ × Dbl ℝ × Dbl ℝ :=
  coefsI fl xs ys d (k / (ys.length - 1)) (k % (ys.length - 1))

/-- The object left by `Initialize` after `n` cells. -/
noncomputable def builtI (fl : ℝ → Option ℝ) (xs ys d : List ℝ) (hx : 0 < xs.length) (hy : 0 < ys.length) (n : Nat) : Interp2dI :=
  { base := Interp2d.built (Interp2d.fresh ℝ) xs ys d hx hy 0,
    a1 := (List.range n).map (fun k => (coefsAtI fl xs ys d k).1),
    a2 := (List.range n).map (fun k => (coefsAtI fl xs ys d k).2.1),
    a3 := (List.range n).map (fun k => (coefsAtI fl xs ys d k).2.2.1),
    a4 := (List.range n).map (fun k => (coefsAtI fl xs ys d k).2.2.2) }

open Interp2d (idx_lt)

theorem run_initializeInnerI (h : Ieee fl) {xs ys d : List ℝ} (hx : 0 < xs.length) (hy : 0 < ys.length) (hys : ys.Pairwise (· < ·)) (hyd : ∀ a ∈ ys, Double64 a)
    (hd : d.length = xs.length * ys.length) (i j : Nat) (hi : i + 1 < xs.length) (hj : j + 1 < ys.length) :
    (initializeInnerI fl (some d) ys.length (i + 1) xs[i] xs[i + 1] (invI fl xs[i] xs[i + 1]) (j + 1)).run
      (builtI fl xs ys d hx hy (i * (ys.length - 1) + j)) =
    (.ok (), builtI fl xs ys d hx hy (i * (ys.length - 1) + (j + 1))) := by
  have hq := invI_eq h (hyd _ (List.getElem_mem (show j < ys.length by omega))) (hyd _ (List.getElem_mem hj)) (getElem_lt_of_pairwise hys (Nat.lt_succ_self j) hj)
  have l11 : ys.length * i + j < d.length := by rw [hd]; exact idx_lt (by omega) (by omega)
  have l12 : ys.length * i + (j + 1) < d.length := by rw [hd]; exact idx_lt (by omega) (by omega)
  have l21 : ys.length * (i + 1) + j < d.length := by rw [hd]; exact idx_lt (by omega) (by omega)
  have l22 : ys.length * (i + 1) + (j + 1) < d.length := by rw [hd]; exact idx_lt (by omega) (by omega)
  simp only [initializeInnerI, Act.run_bind, Act.run_get, Act.run_lift, builtI, Interp2d.built, deref_some, Nat.add_sub_cancel,
    vAt_lt hj, vAt_lt (show j < ys.length by omega), hq, vAt_lt l11, vAt_lt l12, vAt_lt l21, vAt_lt l22, Act.run_update]
  have hdiv : (i * (ys.length - 1) + j) / (ys.length - 1) = i := by
    rw [mul_comm, Nat.mul_add_div (by omega), Nat.div_eq_of_lt (by omega), add_zero]
  have hmod : (i * (ys.length - 1) + j) % (ys.length - 1) = j := by
    rw [mul_comm, Nat.mul_add_mod, Nat.mod_eq_of_lt (by omega)]
  have e3 : i < xs.length := by omega
  have e4 : j < ys.length := by omega
  congr 1
  simp only [← add_assoc, List.range_succ, List.map_append, List.map_cons, List.map_nil, coefsAtI, hdiv, hmod, coefsI, coefsOf,
    List.getD_eq_getElem?_getD, hi, hj, e3, e4, List.getElem?_eq_getElem, Option.getD_some, l11, l12, l21, l22, List.append_assoc]
  simp only [add_assoc, l12, l22, List.getElem?_eq_getElem, Option.getD_some]

theorem run_initializeOuterI (h : Ieee fl) {xs ys d : List ℝ} (hx : 0 < xs.length) (hy : 0 < ys.length) (hxs : xs.Pairwise (· < ·))
    (hys : ys.Pairwise (· < ·)) (hxd : ∀ a ∈ xs, Double64 a) (hyd : ∀ a ∈ ys, Double64 a) (hd : d.length = xs.length * ys.length) (i : Nat) (hi : i + 1 < xs.length) :
    (initializeOuterI fl (some d) ys.length (i + 1)).run (builtI fl xs ys d hx hy (i * (ys.length - 1))) =
    (.ok (), builtI fl xs ys d hx hy ((i + 1) * (ys.length - 1))) := by
  have hq := invI_eq h (hxd _ (List.getElem_mem (show i < xs.length by omega))) (hxd _ (List.getElem_mem hi)) (getElem_lt_of_pairwise hxs (Nat.lt_succ_self i) hi)
  unfold initializeOuterI
  rw [Act.run_bind_ok (Act.run_get _),
    Act.run_bind_ok (a := xs) (s' := builtI fl xs ys d hx hy (i * (ys.length - 1))) (by simp [builtI, Interp2d.built]),
    Act.run_bind_ok (a := xs[i]) (s' := builtI fl xs ys d hx hy (i * (ys.length - 1)))
      (by simp [vAt_lt (show i < xs.length by omega)]),
    Act.run_bind_ok (a := xs[i + 1]) (s' := builtI fl xs ys d hx hy (i * (ys.length - 1))) (by simp [vAt_lt hi]),
    Act.run_bind_ok (a := invI fl xs[i] xs[i + 1]) (s' := builtI fl xs ys d hx hy (i * (ys.length - 1))) (by simp [hq])]
  have := Act.loop_ok (lo := 1) (hi := ys.length) (by omega) (fun j => builtI fl xs ys d hx hy (i * (ys.length - 1) + (j - 1)))
    (f := initializeInnerI fl (some d) ys.length (i + 1) xs[i] xs[i + 1] (invI fl xs[i] xs[i + 1]))
    (fun j h1 h2 => by
      obtain ⟨j, rfl⟩ : ∃ t, j = t + 1 := ⟨j - 1, by omega⟩
      simpa using run_initializeInnerI h hx hy hys hyd hd i j hi h2)
  simp only [Nat.sub_self, add_zero] at this
  rw [Nat.succ_mul]
  exact this

theorem run_initI (h : Ieee fl) (B : Build) {xs ys d : List ℝ} (hx : 0 < xs.length) (hy : 0 < ys.length) (hxs : xs.Pairwise (· < ·))
    (hys : ys.Pairwise (· < ·)) (hxd : ∀ a ∈ xs, Double64 a) (hyd : ∀ a ∈ ys, Double64 a) (hd : d.length = xs.length * ys.length) :
    (initI fl B (some xs) (some ys) (some d)).run ⟨Interp2d.fresh ℝ, [], [], [], []⟩ =
      (.ok (), builtI fl xs ys d hx hy ((xs.length - 1) * (ys.length - 1))) := by
  have hb := Interp2d.run_initializeBase B (d := d) hx hy (pairwise_lt_le hxs) (pairwise_lt_le hys) (Interp2d.fresh ℝ)
  rw [initI, Act.run_bind_ok (a := ()) (s' := builtI fl xs ys d hx hy 0) (by
    show (((Interp2d.initializeBase B (some xs) (some ys) (some d)).run (Interp2d.fresh ℝ)).1,
      (⟨((Interp2d.initializeBase B (some xs) (some ys) (some d)).run (Interp2d.fresh ℝ)).2, [], [], [], []⟩ : Interp2dI)) = _
    rw [hb]
    rfl), Act.run_bind_ok (Act.run_get _)]
  have := Act.loop_ok (lo := 1) (hi := xs.length) (by omega) (fun i => builtI fl xs ys d hx hy ((i - 1) * (ys.length - 1)))
    (f := initializeOuterI fl (some d) ys.length)
    (fun i h1 h2 => by
      obtain ⟨i, rfl⟩ : ∃ t, i = t + 1 := ⟨i - 1, by omega⟩
      simpa using run_initializeOuterI h hx hy hxs hys hxd hyd hd i h2)
  simp only [Nat.sub_self, zero_mul] at this
  exact this

/-- The value of a cell, as computed. -/
noncomputable def cellI (fl : ℝ → Option ℝ) (a : Dbl ℝ × Dbl ℝ × Dbl ℝ × Dbl ℝ) (x y : ℝ) : Dbl ℝ :=
  fadd fl (fadd fl (fadd fl a.1 (fmul fl a.2.1 (num x))) (fmul fl a.2.2.1 (num y))) (fmul fl (fmul fl a.2.2.2 (num x)) (num y))

/-- In the cell `(i, j)`, without its left and lower sides unless they are on the boundary. -/
theorem interp2dI_eq (h : Ieee fl) (B : Build) {xs ys d : List ℝ} (g : Grid xs ys d) (hxd : ∀ a ∈ xs, Double64 a) (hyd : ∀ a ∈ ys, Double64 a) {i j : Nat}
    (hi : i + 1 < xs.length) (hj : j + 1 < ys.length) {x y : ℝ} (hx0 : xs[i] < x ∨ i = 0 ∧ xs[i] = x) (hx1 : x ≤ xs[i + 1]) (hy0 : ys[j] < y ∨ j = 0 ∧ ys[j] = y)
    (hy1 : y ≤ ys[j + 1]) : interp2dI fl B .LINEAR xs ys d x y = .ok (cellI fl (coefsI fl xs ys d i j) x y) := by
  have hx : 0 < xs.length := by omega
  have hy : 0 < ys.length := by omega
  have hx0' : xs[i] ≤ x := by rcases hx0 with h | h; exacts [h.le, h.2.le]
  have hy0' : ys[j] ≤ y := by rcases hy0 with h | h; exacts [h.le, h.2.le]
  obtain ⟨p, hp, hpc⟩ := Interp1d.lowerBound_cell g.incx hi hx0' hx1
  obtain ⟨q, hq, hqc⟩ := Interp1d.lowerBound_cell g.incy hj hy0' hy1
  have rx := Interp1d.range_of_cell g.incx hi hx0' hx1
  have ry := Interp1d.range_of_cell g.incy hj hy0' hy1
  have hp' : p - 1 = i := by
    rcases hpc with h | ⟨h, he⟩
    · omega
    · rcases hx0 with h' | h'
      · linarith
      · omega
  have hq' : q - 1 = j := by
    rcases hqc with h | ⟨h, he⟩
    · omega
    · rcases hy0 with h' | h'
      · linarith
      · omega
  have hpl : i < xs.length - 1 := by omega
  have hql : j < ys.length - 1 := by omega
  have hn : j + i * (ys.length - 1) < (xs.length - 1) * (ys.length - 1) := by
    have := idx_lt hpl hql
    rw [mul_comm i, add_comm]; exact this
  have ha := Interp2d.evalAsserts_ok B (d := d) (Interp2d.fresh ℝ) hx hy 0 rx.1 rx.2 ry.1 ry.2
  simp only [interp2dI, Interp2d.make, Res.ok_bind, run_initI h B hx hy g.incx g.incy hxd hyd g.size]
  rw [evalI]
  have e : (if q = 0 then 1 else q) + ((if p = 0 then 1 else p) - 1) * (ys.length - 1) - 1 = j + i * (ys.length - 1) := by
    have e1 : (if p = 0 then 1 else p) - 1 = i := by split <;> omega
    rw [e1]
    split <;> omega
  simp only [builtI, ha]
  simp only [Res.ok_bind, Interp2d.built, deref_some, hp, hq, e]
  rw [vAt_lt (by simpa using hn), vAt_lt (by simpa using hn), vAt_lt (by simpa using hn), vAt_lt (by simpa using hn)]
  have hdiv : (j + i * (ys.length - 1)) / (ys.length - 1) = i := by
    rw [add_comm, mul_comm, Nat.mul_add_div (by omega), Nat.div_eq_of_lt (by omega), add_zero]
  have hmod : (j + i * (ys.length - 1)) % (ys.length - 1) = j := by
    rw [add_comm, mul_comm, Nat.mul_add_mod, Nat.mod_eq_of_lt (by omega)]
  simp [coefsAtI, hdiv, hmod, cellI]

end Interp2dI

/-- A computed number with at most `k` roundings, terms of total size `Q ≤ 2^u` and underflows of total size at most `2^m` times the unit of underflow. -/
def PNear (k u m : ℕ) (Q P : ℝ) (d : Dbl ℝ) : Prop := ∃ A, FNear k A Q P d ∧ Q ≤ 2 ^ u ∧ A ≤ tiny * 2 ^ m

namespace PNear

variable {k l u u' m m' n v : ℕ} {Q Q' P P' : ℝ} {d d' : Dbl ℝ}

theorem tiny_pow {m : ℕ} (hm : m ≤ 1075) : tiny * 2 ^ m ≤ 1 := by
  unfold tiny
  rw [← zpow_natCast, ← zpow_add₀ (by norm_num)]
  exact zpow_le_one_of_nonpos₀ (by norm_num) (by omega)

theorem pow_lt_overflow {n : ℕ} (h : n ≤ 1023) : (2 : ℝ) ^ n < overflow64 := by
  refine (pow_le_pow_right₀ (by norm_num) h).trans_lt ?_
  have h2 : (2 : ℝ) ^ 1024 = 2 * 2 ^ 1023 := by rw [show (1024 : ℕ) = 1 + 1023 by norm_num, pow_add]; norm_num
  have h3 : (2 : ℝ) ^ 970 < 2 ^ 1023 := pow_lt_pow_right₀ (by norm_num) (by norm_num)
  unfold overflow64
  rw [h2]
  generalize (2 : ℝ) ^ 1023 = a at *
  generalize (2 : ℝ) ^ 970 = b at *
  linarith only [h3]

theorem exact {P B : ℝ} (h : Double64 P) (hB : |P| ≤ B) (hu : B ≤ 2 ^ u) : PNear 0 u 0 B P (num P) := by
  refine ⟨0, ?_, hu, by rw [pow_zero, mul_one]; exact tiny_pos.le⟩
  obtain ⟨r, h1, h2, h3⟩ := FNear.exact h
  refine ⟨r, h1, h2, ?_, h3.size.trans hB, le_rfl⟩
  have := h3.err
  simpa [gam] using this

theorem upto (h : PNear k u m Q P d) (hk : k ≤ l) (hm : m ≤ n) : PNear l u n Q P d := by
  obtain ⟨A, h1, h2, h3⟩ := h
  exact ⟨A, h1.upto hk, h2, h3.trans (mul_le_mul_of_nonneg_left (pow_le_pow_right₀ (by norm_num) hm) tiny_pos.le)⟩

theorem facts (h : PNear k u m Q P d) (hm : m ≤ 1075) : ∃ A, FNear k A Q P d ∧ Q ≤ 2 ^ u ∧ A ≤ tiny * 2 ^ m ∧ 0 ≤ A ∧ 0 ≤ Q ∧ Q + A ≤ 2 ^ (u + 1) := by
  obtain ⟨A, h1, h2, h3⟩ := h
  obtain ⟨r, -, -, h4⟩ := id h1
  refine ⟨A, h1, h2, h3, h4.pos, h4.nonneg, ?_⟩
  have h5 := h3.trans (tiny_pow hm)
  have h6 : (1 : ℝ) ≤ 2 ^ u := one_le_pow₀ (by norm_num)
  rw [pow_succ]
  linarith

theorem add (hfl : Ieee fl) (a : PNear k u m Q P d) (b : PNear k u m Q' P' d') (hk : k ≤ 2 ^ 52) (hu : u ≤ 1020) (hm : m ≤ 1075) :
    PNear (k + 1) (u + 1) (m + 1) (Q + Q') (P + P') (fadd fl d d') := by
  obtain ⟨A, a1, a2, a3, a4, a5, a6⟩ := a.facts hm
  obtain ⟨A', b1, b2, b3, b4, b5, b6⟩ := b.facts hm
  refine ⟨A + A', a1.add hfl b1 ?_, by rw [pow_succ]; linarith, by rw [pow_succ]; linarith⟩
  have h1 := gam_le_one hk
  have h2 := gam_nonneg k
  have h3 : (1 + gam k) * (Q + A + (Q' + A')) ≤ 2 * (2 ^ (u + 1) + 2 ^ (u + 1)) :=
    mul_le_mul (by linarith) (by linarith) (by linarith) (by norm_num)
  refine h3.trans_lt ?_
  rw [show (2 : ℝ) * (2 ^ (u + 1) + 2 ^ (u + 1)) = 2 ^ (u + 3) by ring]
  exact pow_lt_overflow (by omega)

theorem sub (hfl : Ieee fl) (a : PNear k u m Q P d) (b : PNear k u m Q' P' d') (hk : k ≤ 2 ^ 52) (hu : u ≤ 1020) (hm : m ≤ 1075) :
    PNear (k + 1) (u + 1) (m + 1) (Q + Q') (P - P') (fsub fl d d') := by
  obtain ⟨A, a1, a2, a3, a4, a5, a6⟩ := a.facts hm
  obtain ⟨A', b1, b2, b3, b4, b5, b6⟩ := b.facts hm
  refine ⟨A + A', a1.sub hfl b1 ?_, by rw [pow_succ]; linarith, by rw [pow_succ]; linarith⟩
  have h1 := gam_le_one hk
  have h2 := gam_nonneg k
  have h3 : (1 + gam k) * (Q + A + (Q' + A')) ≤ 2 * (2 ^ (u + 1) + 2 ^ (u + 1)) :=
    mul_le_mul (by linarith) (by linarith) (by linarith) (by norm_num)
  refine h3.trans_lt ?_
  rw [show (2 : ℝ) * (2 ^ (u + 1) + 2 ^ (u + 1)) = 2 ^ (u + 3) by ring]
  exact pow_lt_overflow (by omega)

theorem mul (hfl : Ieee fl) (a : PNear k u m Q P d) (b : PNear l u' m' Q' P' d') (hk : k + l ≤ 2 ^ 52) (hu : u + u' ≤ 1020) (hm : m ≤ 1075) (hm' : m' ≤ 1075)
    (h1 : m + u' + 2 ≤ n) (h2 : m' + u + 2 ≤ n) : PNear (k + l + 1) (u + u') n (Q * Q') (P * P') (fmul fl d d') := by
  obtain ⟨A, a1, a2, a3, a4, a5, a6⟩ := a.facts hm
  obtain ⟨A', b1, b2, b3, b4, b5, b6⟩ := b.facts hm'
  have ht := tiny_pos
  refine ⟨_, a1.mul hfl b1 ?_, ?_, ?_⟩
  · have h3 := gam_le_one hk
    have h4 := gam_nonneg (k + l)
    have h5 : (Q + A) * (Q' + A') ≤ 2 ^ (u + 1) * 2 ^ (u' + 1) := mul_le_mul a6 b6 (by linarith) (by positivity)
    have h6 : (1 + gam (k + l)) * ((Q + A) * (Q' + A')) ≤ 2 * (2 ^ (u + 1) * 2 ^ (u' + 1)) :=
      mul_le_mul (by linarith) h5 (mul_nonneg (by linarith) (by linarith)) (by norm_num)
    refine h6.trans_lt ?_
    rw [show (2 : ℝ) * (2 ^ (u + 1) * 2 ^ (u' + 1)) = 2 ^ (u + u' + 3) by ring]
    exact pow_lt_overflow (by omega)
  · rw [pow_add]
    exact mul_le_mul a2 b2 b5 (by positivity)
  · obtain ⟨q, rfl⟩ : ∃ q, n = q + 2 := ⟨n - 2, by omega⟩
    have c1 : A * Q' ≤ tiny * 2 ^ q := by
      refine (mul_le_mul a3 b2 b5 (mul_nonneg ht.le (by positivity))).trans ?_
      rw [mul_assoc, ← pow_add]
      exact mul_le_mul_of_nonneg_left (pow_le_pow_right₀ (by norm_num) (by omega)) ht.le
    have c2 : Q * A' ≤ tiny * 2 ^ q := by
      refine (mul_le_mul a2 b3 b4 (by positivity)).trans ?_
      rw [mul_left_comm, ← pow_add]
      exact mul_le_mul_of_nonneg_left (pow_le_pow_right₀ (by norm_num) (by omega)) ht.le
    have c3 : A * A' ≤ tiny * 2 ^ q := by
      refine (mul_le_of_le_one_right a4 (b3.trans (tiny_pow hm'))).trans (a3.trans ?_)
      exact mul_le_mul_of_nonneg_left (pow_le_pow_right₀ (by norm_num) (by omega)) ht.le
    have c4 : tiny ≤ tiny * 2 ^ q := le_mul_of_one_le_right ht.le (one_le_pow₀ (by norm_num))
    rw [pow_add]
    linarith

/-- `1. / (b - a)`. -/
theorem recip (hfl : Ieee fl) {a b : ℝ} (ha : Double64 a) (hb : Double64 b) (hab : a < b) (ho : b - a < overflow64) (hu : (b - a)⁻¹ ≤ 2 ^ u) (hu' : u ≤ 1020) :
    PNear 3 u 0 (b - a)⁻¹ (b - a)⁻¹ (Interp2dI.invI fl a b) := by
  have hd : 0 < b - a := sub_pos.2 hab
  obtain ⟨ε, e1, -, e3⟩ := fsub_ok hfl hb ha (by rwa [abs_of_pos hd])
  have hu1 : uround ≤ 1 / 100 := by unfold uround; norm_num
  have hu0 := uround_pos
  have e1' := abs_le.1 e1
  have hp : 0 < 1 + ε := by linarith
  have hD : 0 < (b - a) * (1 + ε) := mul_pos hd hp
  -- the inverse of the rounded width
  have hinv : NearA 2 0 (b - a)⁻¹ (b - a)⁻¹ ((b - a) * (1 + ε))⁻¹ := by
    refine ⟨?_, (abs_of_pos (inv_pos.2 hd)).le, le_rfl⟩
    have e : ((b - a) * (1 + ε))⁻¹ - (b - a)⁻¹ = (b - a)⁻¹ * (-ε / (1 + ε)) := by
      field_simp
      ring
    rw [e, abs_mul, abs_of_pos (inv_pos.2 hd), abs_div, abs_neg, abs_of_pos hp, mul_zero, add_zero, mul_comm]
    refine mul_le_mul_of_nonneg_right ?_ (inv_pos.2 hd).le
    rw [div_le_iff₀ hp]
    have : gam 2 = 2 * uround + uround * uround := by unfold gam; ring
    rw [this]
    nlinarith
  have hob : |1 * ((b - a) * (1 + ε))⁻¹| < overflow64 := by
    rw [one_mul]
    have h1 := hinv.abs_le
    have h2 := gam_le_one (k := 2) (by norm_num)
    have h3 : (1 + gam 2) * ((b - a)⁻¹ + 0) ≤ 2 * 2 ^ u := by
      rw [add_zero]
      exact mul_le_mul (by linarith) hu (inv_pos.2 hd).le (by norm_num)
    refine (h1.trans h3).trans_lt ?_
    rw [← pow_succ']
    exact pow_lt_overflow (by omega)
  obtain ⟨ε', η, f1, f2, f3, f4⟩ := fquot_ok hfl hD.ne' hob
  refine ⟨tiny, ⟨_, ?_, f3, ?_⟩, hu, by rw [pow_zero, mul_one]⟩
  · have := Interp2dI.invI_eq hfl ha hb hab
    rw [e3, f4] at this
    exact (Res.ok.inj this).symm
  · have := hinv.round f1 f2
    rwa [zero_add, ← one_mul ((b - a) * (1 + ε))⁻¹] at this

theorem lift (h : PNear k u m Q P d) (hk : k ≤ l) (hu : u ≤ v) (hm : m ≤ n) : PNear l v n Q P d := by
  obtain ⟨A, h1, h2, h3⟩ := h.upto hk hm
  exact ⟨A, h1, h2.trans (pow_le_pow_right₀ (by norm_num) hu), h3⟩

end PNear

/-- The value of a cell, as computed, with the number of roundings each term goes through. -/
theorem cell_pnear (hr : Ieee fl) {x1 x2 y1 y2 d11 d12 d21 d22 x y X Y D : ℝ} {p q c a b : ℕ} (hs : p + q + c + a + b ≤ 1014) (hx : x1 < x2) (hy : y1 < y2) (hx0 : x1 ≤ x) (hx1 : x ≤ x2)
    (hy0 : y1 ≤ y) (hy1 : y ≤ y2) (X1 : |x1| ≤ X) (X2 : |x2| ≤ X) (Y1 : |y1| ≤ Y) (Y2 : |y2| ≤ Y) (D11 : |d11| ≤ D) (D12 : |d12| ≤ D)
    (D21 : |d21| ≤ D) (D22 : |d22| ≤ D) (fx1 : Double64 x1) (fx2 : Double64 x2) (fy1 : Double64 y1) (fy2 : Double64 y2) (f11 : Double64 d11) (f12 : Double64 d12)
    (f21 : Double64 d21) (f22 : Double64 d22) (fx : Double64 x) (fy : Double64 y) (hX : X ≤ 2 ^ p) (hY : Y ≤ 2 ^ q) (hD : D ≤ 2 ^ c)
    (wx : (x2 - x1)⁻¹ ≤ 2 ^ a) (wy : (y2 - y1)⁻¹ ≤ 2 ^ b) :
    PNear 16 (p + q + c + a + b + 6) (p + q + c + a + b + 14) (16 * D * X * Y / ((x2 - x1) * (y2 - y1))) (bilinear x1 x2 y1 y2 d11 d21 d12 d22 x y)
      (Interp2dI.cellI fl (Interp2dI.coefsOf fl x1 x2 y1 y2 d11 d12 d21 d22) x y) := by
  have xX : |x| ≤ X := abs_le.2 ⟨(abs_le.1 X1).1.trans hx0, hx1.trans (abs_le.1 X2).2⟩
  have yY : |y| ≤ Y := abs_le.2 ⟨(abs_le.1 Y1).1.trans hy0, hy1.trans (abs_le.1 Y2).2⟩
  have big : ∀ {a b C : ℝ} {p : ℕ}, p ≤ 1014 → |a| ≤ C → |b| ≤ C → C ≤ 2 ^ p → b - a < overflow64 := by
    intro a b C p h0 h1 h2 h3
    refine lt_of_le_of_lt ?_ (PNear.pow_lt_overflow (show p + 1 ≤ 1023 by omega))
    have := (abs_le.1 h1).1
    have := (abs_le.1 h2).2
    rw [pow_succ']
    linarith
  have ix := PNear.recip hr fx1 fx2 hx (big (by omega) X1 X2 hX) wx (by omega)
  have iy := PNear.recip hr fy1 fy2 hy (big (by omega) Y1 Y2 hY) wy (by omega)
  have cx : ∀ {a : ℝ}, Double64 a → |a| ≤ X → PNear 0 p 0 X a (num a) := fun h h' => .exact h h' hX
  have cy : ∀ {a : ℝ}, Double64 a → |a| ≤ Y → PNear 0 q 0 Y a (num a) := fun h h' => .exact h h' hY
  have cd : ∀ {a : ℝ}, Double64 a → |a| ≤ D → PNear 0 c 0 D a (num a) := fun h h' => .exact h h' hD
  have mx : ∀ {d x : ℝ}, Double64 d → Double64 x → |d| ≤ D → |x| ≤ X → PNear 1 (c + p) (c + p + 2) (D * X) (d * x) (fmul fl (num d) (num x)) := fun h1 h2 h3 h4 =>
    (cd h1 h3).mul hr (cx h2 h4) (by omega) (by omega) (by omega) (by omega) (by omega) (by omega)
  have my : ∀ {d y : ℝ}, Double64 d → Double64 y → |d| ≤ D → |y| ≤ Y → PNear 1 (c + q) (c + q + 2) (D * Y) (d * y) (fmul fl (num d) (num y)) := fun h1 h2 h3 h4 =>
    (cd h1 h3).mul hr (cy h2 h4) (by omega) (by omega) (by omega) (by omega) (by omega) (by omega)
  have m3 : ∀ {d x y : ℝ}, Double64 d → Double64 x → Double64 y → |d| ≤ D → |x| ≤ X → |y| ≤ Y →
      PNear 2 (c + p + q) (c + p + q + 4) (D * X * Y) (d * x * y) (fmul fl (fmul fl (num d) (num x)) (num y)) := fun h1 h2 h3 h4 h5 h6 =>
    (mx h1 h2 h4 h5).mul hr (cy h3 h6) (by omega) (by omega) (by omega) (by omega) (by omega) (by omega)
  have f11' : Double64 (-d11) := by
    obtain ⟨m, e, h1, h2, h3, h4⟩ := f11
    exact ⟨-m, e, by rwa [abs_neg], h2, h3, by rw [h4]; push_cast; ring⟩
  have D11' : |(-d11)| ≤ D := by rwa [abs_neg]
  -- the coefficients, multiplied by the coordinates
  have s1 := (m3 f11 fx2 fy2 D11 X2 Y2).sub hr (m3 f12 fx2 fy1 D12 X2 Y1) (by omega) (by omega) (by omega)
  have s2 := s1.sub hr ((m3 f21 fx1 fy2 D21 X1 Y2).lift (by omega) (by omega) (by omega)) (by omega) (by omega) (by omega)
  have s3 := s2.add hr ((m3 f22 fx1 fy1 D22 X1 Y1).lift (by omega) (by omega) (by omega)) (by omega) (by omega) (by omega)
  have s4 := s3.mul hr ix (n := p + c + q + a + 9) (by omega) (by omega) (by omega) (by omega) (by omega) (by omega)
  have A1 := s4.mul hr iy (n := p + c + q + a + b + 11) (by omega) (by omega) (by omega) (by omega) (by omega) (by omega)
  have t1 := (my f11' fy2 D11' Y2).add hr (my f12 fy1 D12 Y1) (by omega) (by omega) (by omega)
  have t2 := t1.add hr ((my f21 fy2 D21 Y2).lift (by omega) (by omega) (by omega)) (by omega) (by omega) (by omega)
  have t3 := t2.sub hr ((my f22 fy1 D22 Y1).lift (by omega) (by omega) (by omega)) (by omega) (by omega) (by omega)
  have t4 := t3.mul hr ix (n := c + q + a + 7) (by omega) (by omega) (by omega) (by omega) (by omega) (by omega)
  have t5 := t4.mul hr iy (n := c + q + a + b + 9) (by omega) (by omega) (by omega) (by omega) (by omega) (by omega)
  have A2 := t5.mul hr (cx fx xX) (n := p + c + q + a + b + 11) (by omega) (by omega) (by omega) (by omega) (by omega) (by omega)
  have u1 := (mx f11' fx2 D11' X2).add hr (mx f12 fx2 D12 X2) (by omega) (by omega) (by omega)
  have u2 := u1.add hr ((mx f21 fx1 D21 X1).lift (by omega) (by omega) (by omega)) (by omega) (by omega) (by omega)
  have u3 := u2.sub hr ((mx f22 fx1 D22 X1).lift (by omega) (by omega) (by omega)) (by omega) (by omega) (by omega)
  have u4 := u3.mul hr ix (n := c + p + a + 7) (by omega) (by omega) (by omega) (by omega) (by omega) (by omega)
  have u5 := u4.mul hr iy (n := c + p + a + b + 9) (by omega) (by omega) (by omega) (by omega) (by omega) (by omega)
  have A3 := u5.mul hr (cy fy yY) (n := p + c + q + a + b + 11) (by omega) (by omega) (by omega) (by omega) (by omega) (by omega)
  have v1 := (cd f11 D11).sub hr (cd f12 D12) (by omega) (by omega) (by omega)
  have v2 := v1.sub hr ((cd f21 D21).lift (by omega) (by omega) (by omega)) (by omega) (by omega) (by omega)
  have v3 := v2.add hr ((cd f22 D22).lift (by omega) (by omega) (by omega)) (by omega) (by omega) (by omega)
  have v4 := v3.mul hr ix (n := c + a + 5) (by omega) (by omega) (by omega) (by omega) (by omega) (by omega)
  have v5 := v4.mul hr iy (n := c + a + b + 7) (by omega) (by omega) (by omega) (by omega) (by omega) (by omega)
  have v6 := v5.mul hr (cx fx xX) (n := c + a + b + p + 9) (by omega) (by omega) (by omega) (by omega) (by omega) (by omega)
  have A4 := v6.mul hr (cy fy yY) (n := p + c + q + a + b + 11) (by omega) (by omega) (by omega) (by omega) (by omega) (by omega)
  have w1 := A1.add hr (A2.lift (by omega) (by omega) (by omega)) (by omega) (by omega) (by omega)
  have w2 := w1.add hr (A3.lift (by omega) (by omega) (by omega)) (by omega) (by omega) (by omega)
  have T := (w2.add hr (A4.lift (by omega) (by omega) (by omega)) (by omega) (by omega) (by omega)).lift (l := 16) (v := p + q + c + a + b + 6)
    (n := p + q + c + a + b + 14) (by omega) (by omega) (by omega)
  unfold Interp2dI.cellI Interp2dI.coefsOf
  have hdx : x2 - x1 ≠ 0 := (sub_pos.2 hx).ne'
  have hdy : y2 - y1 ≠ 0 := (sub_pos.2 hy).ne'
  clear * - T hdx hdy
  convert T using 1
  · field_simp
    ring
  · simp only [bilinear, line, smul_eq_mul]
    field_simp
    ring

open Interp2dI in
/-- C189 (in part: in a range of sizes): on finite data the interpolant in two variables is a finite number, the bilinear interpolant up to the rounding error of C131 and the underflow.
The coordinates are at most `2^p` and `2^q` and the data at most `2^c` in magnitude, the cell is at least `2^-a` wide and `2^-b` high, and `p + q + c + a + b` is at most `1014`;
the underflow is at most `2^(p + q + c + a + b - 1060)`. Missing: other sizes, where the intermediate products overflow, see `C189_refuted`. -/
theorem C189_finite_partial (hr : Ieee fl) (B : Build) {xs ys data : List ℝ} (g : Grid xs ys data) (hxd : ∀ a ∈ xs, Double64 a) (hyd : ∀ a ∈ ys, Double64 a)
    (hdd : ∀ a ∈ data, Double64 a) {i j : Nat} (hi : i + 1 < xs.length)
    (hj : j + 1 < ys.length) {x y : ℝ} (fx : Double64 x) (fy : Double64 y) (hx0 : xs[i] < x ∨ i = 0 ∧ xs[i] = x) (hx1 : x ≤ xs[i + 1]) (hy0 : ys[j] < y ∨ j = 0 ∧ ys[j] = y)
    (hy1 : y ≤ ys[j + 1]) {X Y D : ℝ} (X1 : |xs[i]| ≤ X) (X2 : |xs[i + 1]| ≤ X) (Y1 : |ys[j]| ≤ Y) (Y2 : |ys[j + 1]| ≤ Y)
    (D11 : |g.at i j (by omega) (by omega)| ≤ D) (D12 : |g.at i (j + 1) (by omega) hj| ≤ D) (D21 : |g.at (i + 1) j hi (by omega)| ≤ D)
    (D22 : |g.at (i + 1) (j + 1) hi hj| ≤ D) {p q c a b : ℕ} (hs : p + q + c + a + b ≤ 1014)
    (hX : X ≤ 2 ^ p) (hY : Y ≤ 2 ^ q) (hD : D ≤ 2 ^ c)
    (wx : 1 / 2 ^ a ≤ xs[i + 1] - xs[i]) (wy : 1 / 2 ^ b ≤ ys[j + 1] - ys[j]) :
    ∃ v, interp2dI fl B .LINEAR xs ys data x y = .ok (num v) ∧ Double64 v ∧
      |v - bilinear xs[i] xs[i + 1] ys[j] ys[j + 1] (g.at i j (by omega) (by omega)) (g.at (i + 1) j hi (by omega))
        (g.at i (j + 1) (by omega) hj) (g.at (i + 1) (j + 1) hi hj) x y|
        ≤ 17 / 2 ^ 53 * (16 * D * X * Y / ((xs[i + 1] - xs[i]) * (ys[j + 1] - ys[j]))) + 2 ^ (p + q + c + a + b) / 2 ^ 1060 := by
  rw [interp2dI_eq hr B g hxd hyd hi hj hx0 hx1 hy0 hy1]
  have lx := getElem_lt_of_pairwise g.incx (Nat.lt_succ_self i) hi
  have ly := getElem_lt_of_pairwise g.incy (Nat.lt_succ_self j) hj
  have hx0' : xs[i] ≤ x := by rcases hx0 with h | h; exacts [h.le, h.2.le]
  have hy0' : ys[j] ≤ y := by rcases hy0 with h | h; exacts [h.le, h.2.le]
  have inv : ∀ {w : ℝ} {a : ℕ}, 1 / 2 ^ a ≤ w → w⁻¹ ≤ 2 ^ a := by
    intro w a hw
    have := inv_anti₀ (by positivity) hw
    rwa [one_div, inv_inv] at this
  have e : coefsI fl xs ys data i j = coefsOf fl xs[i] xs[i + 1] ys[j] ys[j + 1] (g.at i j (by omega) (by omega)) (g.at i (j + 1) (by omega) hj)
      (g.at (i + 1) j hi (by omega)) (g.at (i + 1) (j + 1) hi hj) := by
    have hd := g.size
    have l11 : ys.length * i + j < data.length := by rw [hd]; exact Interp2d.idx_lt (by omega) (by omega)
    have l12 : ys.length * i + (j + 1) < data.length := by rw [hd]; exact Interp2d.idx_lt (by omega) (by omega)
    have l21 : ys.length * (i + 1) + j < data.length := by rw [hd]; exact Interp2d.idx_lt (by omega) (by omega)
    have l22 : ys.length * (i + 1) + (j + 1) < data.length := by rw [hd]; exact Interp2d.idx_lt (by omega) (by omega)
    have e3 : i < xs.length := by omega
    have e4 : j < ys.length := by omega
    simp only [coefsI, Grid.at, List.getD_eq_getElem?_getD, hi, hj, e3, e4, l11, l12, l21, l22,
      List.getElem?_eq_getElem, Option.getD_some, ← mul_comm ys.length]
  rw [e]
  obtain ⟨A, ⟨r, h1, h2, h3⟩, -, h5⟩ := cell_pnear hr hs lx ly hx0' hx1 hy0' hy1 X1 X2 Y1 Y2 D11 D12 D21 D22 (hxd _ (List.getElem_mem _)) (hxd _ (List.getElem_mem _))
    (hyd _ (List.getElem_mem _)) (hyd _ (List.getElem_mem _)) (hdd _ (List.getElem_mem _)) (hdd _ (List.getElem_mem _)) (hdd _ (List.getElem_mem _))
    (hdd _ (List.getElem_mem _)) fx fy hX hY hD (inv wx) (inv wy)
  rw [h1]
  refine ⟨r, rfl, h2, h3.err.trans (add_le_add (mul_le_mul_of_nonneg_right ?_ h3.nonneg) ?_)⟩
  · have := gam_le (k := 16) (by norm_num)
    unfold uround at this
    norm_num at this ⊢
    linarith
  · have g1 := gam_le_one (k := 16) (by norm_num)
    have g0 := gam_nonneg 16
    have ht := tiny_pos
    refine (mul_le_mul (show 1 + gam 16 ≤ 2 by linarith) h5 h3.pos (by norm_num)).trans (le_of_eq ?_)
    unfold tiny
    rw [show (-1075 : ℤ) = -15 + -1060 by norm_num, zpow_add₀ (by norm_num), zpow_neg _ 1060, show ((2 : ℝ) ^ (1060 : ℤ)) = 2 ^ 1060 from zpow_natCast _ _,
      pow_add 2 _ 14, div_eq_mul_inv]
    norm_num
    ring

/-- C189: for finite tables of every size, `Initialize` and `Eval` in the range of the table complete, without exception or undefined behaviour, with or without assertions. -/
theorem C189_completes (hr : Ieee fl) (B : Build) {xs ys data : List ℝ} (g : Grid xs ys data) (hxd : ∀ a ∈ xs, Double64 a) (hyd : ∀ a ∈ ys, Double64 a)
    {i j : Nat} (hi : i + 1 < xs.length) (hj : j + 1 < ys.length) {x y : ℝ} (hx0 : xs[i] < x ∨ i = 0 ∧ xs[i] = x) (hx1 : x ≤ xs[i + 1])
    (hy0 : ys[j] < y ∨ j = 0 ∧ ys[j] = y) (hy1 : y ≤ ys[j + 1]) : ∃ d, interp2dI fl B .LINEAR xs ys data x y = .ok d :=
  ⟨_, Interp2dI.interp2dI_eq hr B g hxd hyd hi hj hx0 hx1 hy0 hy1⟩

open Interp2dI in
/-- C189: out of the range of the table, a build with assertions refuses the point, whatever the sizes of the numbers. -/
theorem C189_refused (hr : Ieee fl) {xs ys data : List ℝ} (g : Grid xs ys data) (hxd : ∀ a ∈ xs, Double64 a) (hyd : ∀ a ∈ ys, Double64 a) {x y : ℝ}
    (h : x < xs[0]'(by have := g.twox; omega) ∨ xs[xs.length - 1]'(by have := g.twox; omega) < x ∨
      y < ys[0]'(by have := g.twoy; omega) ∨ ys[ys.length - 1]'(by have := g.twoy; omega) < y) :
    interp2dI fl ⟨true⟩ .LINEAR xs ys data x y = .aborts := by
  have hx0 := g.twox
  have hy0 := g.twoy
  have hx : 0 < xs.length := by omega
  have hy : 0 < ys.length := by omega
  simp only [interp2dI, Interp2d.make, Res.ok_bind, run_initI hr ⟨true⟩ hx hy g.incx g.incy hxd hyd g.size]
  rw [evalI]
  simp only [builtI, Interp2d.evalAsserts, Interp2d.built, readVar_some, Res.ok_bind, if_true]
  by_cases hx : xs[0]'(by have := g.twox; omega) ≤ x ∧ x ≤ xs[xs.length - 1]'(by have := g.twox; omega)
  · have hy : ¬ (ys[0]'(by have := g.twoy; omega) ≤ y ∧ y ≤ ys[ys.length - 1]'(by have := g.twoy; omega)) := by
      rintro ⟨q1, q2⟩
      rcases h with h | h | h | h
      exacts [absurd hx.1 (not_le.mpr h), absurd hx.2 (not_le.mpr h), absurd q1 (not_le.mpr h), absurd q2 (not_le.mpr h)]
    rw [cassert_true _ _ hx, cassert_false _ hy]; rfl
  · rw [cassert_false _ hx]; rfl

theorem nan_fadd (d : Dbl ℝ) : fadd fl nan d = nan := by cases d <;> rfl

theorem nan_fsub (d : Dbl ℝ) : fsub fl nan d = nan := by cases d <;> rfl

theorem nan_fmul (d : Dbl ℝ) : fmul fl nan d = nan := by cases d <;> rfl

open Interp2dI in
/-- C189 is false: the table of ones on `[2^600, 2^601] × [2^600, 2^601]` is interpolated by NaN, at every point of its range. -/
theorem C189_refuted (hr : Ieee fl) (B : Build) {x y : ℝ} (h0 : 2 ^ 600 ≤ x) (h1 : x ≤ 2 ^ 601) (h2 : 2 ^ 600 ≤ y) (h3 : y ≤ 2 ^ 601) :
    Double64 (1 : ℝ) ∧ Double64 ((2 : ℝ) ^ 600) ∧ Double64 ((2 : ℝ) ^ 601) ∧
      interp2dI fl B .LINEAR [2 ^ 600, 2 ^ 601] [2 ^ 600, 2 ^ 601] [1, 1, 1, 1] x y = .ok nan := by
  have d1 : Double64 (1 : ℝ) := by simpa using double64_int 1 (by norm_num)
  have dp : ∀ n : ℕ, n ≤ 971 → Double64 ((2 : ℝ) ^ n) := fun n hn => by
    have := double64_pow (e := (n : ℤ)) (by omega) (by omega)
    rwa [zpow_natCast] at this
  have da := dp 600 (by norm_num)
  have db := dp 601 (by norm_num)
  have lt : (2 : ℝ) ^ 600 < 2 ^ 601 := pow_lt_pow_right₀ (by norm_num) (by norm_num)
  have ov : ∀ n : ℕ, 1024 ≤ n → overflow64 ≤ (2 : ℝ) ^ n := fun n hn => by
    refine le_trans ?_ (pow_le_pow_right₀ (by norm_num) hn)
    have : (0 : ℝ) ≤ 2 ^ 970 := pow_nonneg (by norm_num) _
    unfold overflow64
    generalize (2 : ℝ) ^ 970 = Q at *
    linarith only [this]
  have o1 := ov (601 + 601) (by norm_num)
  have o2 := ov (601 + 600) (by norm_num)
  rw [pow_add] at o1 o2
  refine ⟨d1, da, db, ?_⟩
  clear ov dp
  generalize (2 : ℝ) ^ 600 = a at *
  generalize (2 : ℝ) ^ 601 = b at *
  have g : Grid [a, b] [a, b] [(1 : ℝ), 1, 1, 1] := ⟨by simp, by simp, by simpa using lt, by simpa using lt, by simp⟩
  have hd : ∀ c ∈ [a, b], Double64 c := by
    intro c hc
    simp only [List.mem_cons, List.not_mem_nil, or_false] at hc
    rcases hc with rfl | rfl <;> assumption
  rw [interp2dI_eq hr B g hd hd (i := 0) (j := 0) (by simp) (by simp) (by
    rcases eq_or_lt_of_le h0 with h | h
    · exact Or.inr ⟨rfl, h⟩
    · exact Or.inl h) (by simpa using h1) (by
    rcases eq_or_lt_of_le h2 with h | h
    · exact Or.inr ⟨rfl, h⟩
    · exact Or.inl h) (by simpa using h3)]
  have e0 : fmul fl (num 1) (num b) = num b := by
    show ofReal fl (1 * b) = num b
    rw [one_mul, ofReal_some (ieee_double hr db)]
  have e1 : fmul fl (num b) (num b) = pinf := ofReal_pinf hr o1
  have e2 : fmul fl (num b) (num a) = pinf := ofReal_pinf hr o2
  have e3 : fsub fl pinf pinf = nan := rfl
  simp [coefsI, coefsOf, cellI, e0, e1, e2, e3, nan_fadd, nan_fsub, nan_fmul]

example : ∃ fl, Ieee fl ∧ ∃ v, interp2dI fl ⟨true⟩ .LINEAR [1, 3] [0, 1] [1, 1, 5, 5] 2 (1 / 2) = .ok (num v) ∧ |v - 3| ≤ 1 / 10 ^ 10 := by
  have dn : ∀ n : ℤ, |n| < 2 ^ 53 → Double64 (n : ℝ) := double64_int
  have d0 := double64_zero
  have d1 : Double64 (1 : ℝ) := by simpa using dn 1 (by norm_num)
  have d2 : Double64 (2 : ℝ) := by simpa using dn 2 (by norm_num)
  have d3 : Double64 (3 : ℝ) := by simpa using dn 3 (by norm_num)
  have d5 : Double64 (5 : ℝ) := by simpa using dn 5 (by norm_num)
  have dh : Double64 (1 / 2 : ℝ) := by
    have := double64_pow (e := -1) (by norm_num) (by norm_num)
    rwa [show ((2 : ℝ) ^ (-1 : ℤ)) = 1 / 2 by norm_num] at this
  have g : Grid [(1 : ℝ), 3] [(0 : ℝ), 1] [(1 : ℝ), 1, 5, 5] := ⟨by simp, by simp, by norm_num, by norm_num, by simp⟩
  obtain ⟨v, h1, -, h3⟩ := C189_finite_partial fl64_ieee ⟨true⟩ g (by simp [d1, d3]) (by simp [d0, d1]) (by simp [d1, d5]) (i := 0) (j := 0) (by simp) (by simp) d2 dh
    (Or.inl (by norm_num)) (by norm_num) (Or.inl (by norm_num)) (by norm_num) (X := 3) (Y := 1) (D := 5) (by norm_num) (by norm_num) (by norm_num) (by norm_num)
    (by norm_num [Grid.at]) (by norm_num [Grid.at]) (by norm_num [Grid.at]) (by norm_num [Grid.at])
    (p := 2) (q := 0) (c := 3) (a := 0) (b := 0) (by norm_num) (by norm_num) (by norm_num) (by norm_num) (by norm_num) (by norm_num)
  refine ⟨_, fl64_ieee, v, h1, ?_⟩
  have h4 : (2 : ℝ) ^ (2 + 0 + 3 + 0 + 0) / 2 ^ 1060 ≤ (2 ^ 53)⁻¹ := by
    rw [show (1060 : ℕ) = 5 + 53 + 1002 by norm_num, pow_add _ (5 + 53), pow_add _ 5]
    have : (1 : ℝ) ≤ 2 ^ 1002 := one_le_pow₀ (by norm_num)
    generalize (2 : ℝ) ^ 1002 = w at *
    rw [div_le_iff₀ (by positivity)]
    norm_num
    linarith
  refine (h3.trans (add_le_add le_rfl h4)).trans' ?_ |>.trans ?_
  · norm_num [bilinear, line, Grid.at]
  · norm_num [bilinear, line, Grid.at]

end MU
