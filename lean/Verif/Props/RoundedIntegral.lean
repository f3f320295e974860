import Verif.Props.Rounded

/-!
# Double arithmetic: C108

`rnd` is any rounding to nearest (`Spec.ToNearest`, with any rule for ties).
-/

set_option linter.unusedSectionVars false

namespace MU

open Spec Finset

variable {rnd : ℝ → ℝ}

/-! ## C108 -/

namespace Integrate1d

/-- The argument of the integrand at the call `i`. -/
noncomputable def pointR (rnd : ℝ → ℝ) (a dx : ℝ) : Nat → ℝ
  | 0 => a
  | i + 1 => rnd (pointR rnd a dx i + dx)

theorem sampleR_ok (F : ℝ → ℝ) (a dx : ℝ) (n k : Nat) (Y : List ℝ) :
    sampleR rnd F dx n (Y, pointR rnd a dx k) = (Y ++ (List.range n).map (fun i => F (pointR rnd a dx (k + i))), pointR rnd a dx (k + n)) := by
  induction n generalizing k Y with
  | zero => simp [sampleR]
  | succ n ih =>
    rw [sampleR]
    have := ih (k + 1) (Y ++ [F (pointR rnd a dx k)])
    rw [pointR] at this
    rw [this, List.range_succ_eq_map]
    have e : ∀ i, k + 1 + i = k + (i + 1) := fun i => by omega
    simp only [e]
    simp [Function.comp_def]

/-- The step, as computed. -/
noncomputable def stepR (rnd : ℝ → ℝ) (a b : ℝ) (n : Nat) : ℝ := rnd (rnd (b - a) / ((n + 1 : Nat) : ℝ))

/-- The sum of the inner ordinates, as computed. -/
noncomputable def innerR (rnd : ℝ → ℝ) (y : Nat → ℝ) (k : Nat) : ℝ :=
  Nat.rec (motive := fun _ => ℝ) 0 (fun j s => rnd (s + y (j + 1))) (k - 1)

theorem getR_aux (F : ℝ → ℝ) (a b : ℝ) {N m : Nat} (hu : usub 32 N 1 = m) (hu2 : usub 64 N 1 = m) (hm : 1 ≤ m) (hN : m < N) {d : ℝ}
    (hd : rnd (rnd (b - a) / (m : ℝ)) = d) :
    ((getR rnd).run (ofFunction F a b N)).1 = .ok
      (rnd (rnd (rnd (F (pointR rnd a d 0) + F (pointR rnd a d m)) + rnd (2 * innerR rnd (fun i => F (pointR rnd a d i)) m)) * rnd (1 / 2 * d))) := by
  have hne : (m : ℝ) ≠ 0 := Nat.cast_ne_zero.2 (by omega)
  have hs := sampleR_ok (rnd := rnd) F a d N 0 []
  rw [pointR] at hs
  obtain ⟨Y, hdef⟩ : ∃ Y, Y = (List.range N).map (fun i => F (pointR rnd a d i)) := ⟨_, rfl⟩
  have hY : ∀ i, i < N → vIdx Y i = .ok (F (pointR rnd a d i)) := by
    intro i hi
    rw [vIdx_lt (show i < Y.length by simp [hdef, hi])]
    simp [hdef]
  have hlen : Y.length = N := by simp [hdef]
  have hs' : (sampleR rnd F d N ([], a)).1 = Y := by rw [hs, hdef]; simp
  have hloop : forRange 1 m (fun i sum => do
      let yi ← vIdx Y i
      return rnd (sum + yi)) 0 = .ok (innerR rnd (fun i => F (pointR rnd a d i)) m) :=
    forRange_ok (lo := 1) (hi := m) hm (innerR rnd (fun i => F (pointR rnd a d i))) (by
      intro i h1 h2
      rw [hY i (by omega)]
      obtain ⟨j, rfl⟩ : ∃ j, i = j + 1 := ⟨i - 1, by omega⟩
      rfl)
  unfold getR
  rw [Act.run_get_bind, if_neg (by simp [ofFunction])]
  have hc : (computeTrapzR rnd).run (ofFunction F a b N) = (.ok (), { ofFunction F a b N with
      m_Y := Y, c_Result := rnd (rnd (rnd (F (pointR rnd a d 0) + F (pointR rnd a d m)) + rnd (2 * innerR rnd (fun i => F (pointR rnd a d i)) m))
        * rnd (1 / 2 * d)) }) := by
    unfold computeTrapzR
    rw [Act.run_get_bind]
    simp only [ofFunction]
    rw [hu, fdiv_ok hne, Act.run_lift_ok_bind]
    simp only [hd]
    rw [if_pos trivial, deref_some, Act.run_lift_ok_bind, Act.run_update_bind]
    simp only [hs']
    rw [Act.run_get_bind]
    simp only [hlen]
    rw [hu, hloop, Act.run_lift_ok_bind, hY 0 (by omega), Act.run_lift_ok_bind, hu2, hY m hN, Act.run_lift_ok_bind, Act.run_update_bind, Act.run_update]
  have hc2 : (computeR rnd).run (ofFunction F a b N) = (.ok (), { ofFunction F a b N with
      m_Y := Y, c_Computed := true, c_Result := rnd (rnd (rnd (F (pointR rnd a d 0) + F (pointR rnd a d m)) + rnd (2 * innerR rnd (fun i => F (pointR rnd a d i)) m))
        * rnd (1 / 2 * d)) }) := by
    unfold computeR
    rw [Act.run_get_bind]
    simp only [ofFunction]
    simp only [ofFunction] at hc
    rw [Act.run_bind_ok hc, Act.run_update]
  rw [Act.run_bind_ok hc2, Act.run_get_bind, Act.run_pure]

/-- What `Get` returns on a function. -/
theorem getR_ok (F : ℝ → ℝ) (a b : ℝ) {n : Nat} (hn : n + 2 < 2 ^ 32) :
    ((getR rnd).run (ofFunction F a b (n + 2))).1 = .ok
      (rnd (rnd (rnd (F (pointR rnd a (stepR rnd a b n) 0) + F (pointR rnd a (stepR rnd a b n) (n + 1)))
        + rnd (2 * innerR rnd (fun i => F (pointR rnd a (stepR rnd a b n) i)) (n + 1))) * rnd (1 / 2 * stepR rnd a b n))) := by
  have h64 : n + 2 < 2 ^ 64 := hn.trans (by norm_num)
  have hu : usub 32 (n + 2) 1 = n + 1 := by rw [usub_of_le (w := 32) (a := n + 2) (b := 1) (by omega) hn]; omega
  have hu2 : usub 64 (n + 2) 1 = n + 1 := by rw [usub_of_le (w := 64) (a := n + 2) (b := 1) (by omega) h64]; omega
  exact getR_aux F a b hu hu2 (by omega) (by omega) rfl

theorem stepR_near (hr : ToNearest rnd) (a b : ℝ) (n : Nat) :
    Near 2 (|b - a| * (n + 1 : ℝ)⁻¹) ((b - a) * (n + 1 : ℝ)⁻¹) (stepR rnd a b n) := by
  have h := (((Near.exact (b - a)).round hr).mul (Near.exact ((n : ℝ) + 1)⁻¹)).round hr
  rw [abs_of_nonneg (show (0 : ℝ) ≤ ((n : ℝ) + 1)⁻¹ by positivity)] at h
  have e : stepR rnd a b n = rnd (rnd (b - a) * ((n : ℝ) + 1)⁻¹) := by simp only [stepR, div_eq_mul_inv]; push_cast; rfl
  rw [e]
  exact h

theorem pointR_near (hr : ToNearest rnd) (a b : ℝ) (n i : Nat) :
    Near (i + 2) (|a| + i * (|b - a| * (n + 1 : ℝ)⁻¹)) (a + i * ((b - a) * (n + 1 : ℝ)⁻¹)) (pointR rnd a (stepR rnd a b n) i) := by
  induction i with
  | zero => simpa [pointR] using (Near.exact a).upto (Nat.zero_le 2)
  | succ i ih =>
    have h := (ih.add ((stepR_near hr a b n).upto (by omega))).round hr
    rw [pointR]
    push_cast
    convert h using 1 <;> ring

end Integrate1d

open Integrate1d in
/-- C108 (in part: up to an error): `Integrate1d` of a function in double arithmetic. The integrand is called at `NbPoints` points, the point `i` within
`(1+u)^(i+2) - 1` times `|xmin| + i h` of its place `xmin + i h`, and the result is the trapezoidal sum of these values, up to a relative error of
`(1+u)^(NbPoints+5) - 1` of the sum of the magnitudes. Missing: that the points are in the interval, see `C108_refuted`. -/
theorem C108_error_partial (hr : ToNearest rnd) (F : ℝ → ℝ) {a b : ℝ} (hab : a ≤ b) {N : Nat} (h2 : 2 ≤ N) (h32 : N < 2 ^ 32) :
    let h := (b - a) / (N - 1)
    ∃ (p : Nat → ℝ) (v : ℝ), ((getR rnd).run (ofFunction F a b N)).1 = .ok v ∧ p 0 = a ∧
      (∀ i : Nat, |p i - (a + i * h)| ≤ ((1 + 1 / 2 ^ 53) ^ (i + 2) - 1) * (|a| + i * h)) ∧
      |v - panels (N - 1) (fun i => a + i * h) (fun i => F (p i))|
        ≤ ((1 + 1 / 2 ^ 53) ^ (N + 5) - 1) * panels (N - 1) (fun i => a + i * h) (fun i => |F (p i)|) := by
  obtain ⟨n, rfl⟩ : ∃ n, N = n + 2 := ⟨N - 2, by omega⟩
  intro h
  have hh : h = (b - a) * (n + 1 : ℝ)⁻¹ := by
    simp only [h]
    rw [div_eq_mul_inv]
    push_cast
    congr 2
    ring
  have h0 : 0 ≤ h := by
    rw [hh]
    exact mul_nonneg (by linarith) (by positivity)
  have hst := stepR_near hr a b n
  rw [abs_of_nonneg (by linarith), ← hh] at hst
  have hpt := fun i => pointR_near hr a b n i
  rw [abs_of_nonneg (show 0 ≤ b - a by linarith), ← hh] at hpt
  refine ⟨pointR rnd a (stepR rnd a b n), _, getR_ok F a b h32, rfl, fun i => ?_, ?_⟩
  · rw [← gam_def]
    exact (hpt i).err
  rw [← gam_def]
  generalize hy : (fun i => F (pointR rnd a (stepR rnd a b n) i)) = y
  have hy' : ∀ i, F (pointR rnd a (stepR rnd a b n) i) = y i := fun i => by rw [← hy]
  simp only [hy']
  have hsum := sumR_near hr (hi := n + 1) (by omega) 0 y y (fun i => |y i|) (fun i _ _ => Near.exact _) (innerR rnd y) rfl (by
    intro i h1 _
    obtain ⟨j, rfl⟩ : ∃ j, i = j + 1 := ⟨i - 1, by omega⟩
    rfl)
  have hd := ((Near.exact (2 : ℝ)).mul hsum).round hr
  have hends := ((Near.exact (y 0)).add (Near.exact (y (n + 1)))).round hr
  have htot := (((hends.upto (show _ ≤ n + 2 by omega)).add (hd.upto (show _ ≤ n + 2 by omega))).round hr |>.mul
    (((Near.exact (1 / 2 : ℝ)).mul hst).round hr)).round hr
  rw [show n + 2 - 1 = n + 1 by omega, panels_uniform n _ _ h (fun i _ => by push_cast; ring), panels_uniform n _ _ h (fun i _ => by push_cast; ring)]
  have hnn := htot.nonneg
  have := htot.err
  rw [abs_half, abs_of_nonneg (show (0 : ℝ) ≤ 2 by norm_num)] at this hnn
  have e : ∀ u w z : ℝ, (u + w + 2 * z) * (1 / 2 * h) = h * (z + 1 / 2 * (u + w)) := fun u w z => by ring
  rw [e, e] at this
  rw [e] at hnn
  exact this.trans (mul_le_mul_of_nonneg_right (gam_mono (by omega)) hnn)

open Integrate1d in
/-- C108 is false: between 2 and 3, with 4 points, the last of the points is past 3: the integral of a function that is zero on the whole of
`[2, 3]` is not zero but about `1/6`. -/
theorem C108_refuted (hr : ToNearest rnd) :
    let F : ℝ → ℝ := fun x => if x ≤ 3 then 0 else 1
    (∀ x ∈ Set.Icc (2 : ℝ) 3, F x = 0) ∧ ∃ v, ((getR rnd).run (ofFunction F 2 3 4)).1 = .ok v ∧ 1 / 7 < v := by
  intro F
  refine ⟨fun x hx => if_pos hx.2, _, getR_ok F 2 3 (n := 2) (by norm_num), ?_⟩
  have r0 : rnd 0 = 0 := toNearest_double hr double_zero
  have r1 : rnd 1 = 1 := toNearest_double hr ⟨1, 0, by norm_num, by norm_num⟩
  have hst : stepR rnd 2 3 2 = ((6004799503160661 : ℤ) : ℝ) * (2 : ℝ) ^ (-54 : ℤ) := by
    unfold stepR
    rw [show (3 : ℝ) - 2 = 1 by norm_num, r1]
    exact toNearest_eq hr 6004799503160661 (-54) (by norm_num) (by norm_num) (by norm_num [abs_lt])
  have p1 : pointR rnd 2 (stepR rnd 2 3 2) 1 = ((5254199565265579 : ℤ) : ℝ) * (2 : ℝ) ^ (-51 : ℤ) := by
    rw [pointR, pointR, hst]
    exact toNearest_eq hr 5254199565265579 (-51) (by norm_num) (by norm_num) (by norm_num [abs_lt])
  have p2 : pointR rnd 2 (stepR rnd 2 3 2) 2 = ((6004799503160662 : ℤ) : ℝ) * (2 : ℝ) ^ (-51 : ℤ) := by
    rw [pointR, p1, hst]
    exact toNearest_eq hr 6004799503160662 (-51) (by norm_num) (by norm_num) (by norm_num [abs_lt])
  have p3 : pointR rnd 2 (stepR rnd 2 3 2) (2 + 1) = ((6755399441055745 : ℤ) : ℝ) * (2 : ℝ) ^ (-51 : ℤ) := by
    rw [pointR, p2, hst]
    exact toNearest_eq hr 6755399441055745 (-51) (by norm_num) (by norm_num) (by norm_num [abs_lt])
  have f0 : F (pointR rnd 2 (stepR rnd 2 3 2) 0) = 0 := by
    rw [pointR]
    exact if_pos (by norm_num)
  have f1 : F (pointR rnd 2 (stepR rnd 2 3 2) 1) = 0 := by
    rw [p1]
    exact if_pos (by norm_num)
  have f2 : F (pointR rnd 2 (stepR rnd 2 3 2) 2) = 0 := by
    rw [p2]
    exact if_pos (by norm_num)
  have f3 : F (pointR rnd 2 (stepR rnd 2 3 2) (2 + 1)) = 1 := by
    rw [p3]
    exact if_neg (by norm_num)
  have hin : innerR rnd (fun i => F (pointR rnd 2 (stepR rnd 2 3 2) i)) (2 + 1) = 0 := by
    show rnd (rnd (0 + F (pointR rnd 2 (stepR rnd 2 3 2) 1)) + F (pointR rnd 2 (stepR rnd 2 3 2) 2)) = 0
    rw [f1, f2, add_zero, add_zero, r0, r0]
  have hhalf : rnd (1 / 2 * stepR rnd 2 3 2) = 1 / 2 * stepR rnd 2 3 2 := by
    rw [hst]
    exact toNearest_double hr ⟨6004799503160661, -55, by norm_num, by norm_num⟩
  rw [f0, f3, hin, mul_zero, r0, zero_add, r1, add_zero, r1, one_mul, hhalf, hhalf, hst]
  norm_num

/-- C108: the hypotheses are met. -/
example : ∃ rnd, ToNearest rnd ∧ ∃ (p : Nat → ℝ) (v : ℝ), ((Integrate1d.getR rnd).run (Integrate1d.ofFunction (fun x => x ^ 2) 0 1 11)).1 = .ok v ∧
    p 0 = 0 ∧ |v - panels 10 (fun i : Nat => (i / 10 : ℝ)) (fun i => p i ^ 2)| ≤ 17 / 2 ^ 53 * panels 10 (fun i : Nat => (i / 10 : ℝ)) (fun i => |p i ^ 2|) := by
  refine ⟨_, roundNearest_toNearest, ?_⟩
  obtain ⟨p, v, h1, h2, _, h3⟩ := C108_error_partial roundNearest_toNearest (fun x => x ^ 2) (a := 0) (b := 1) (by norm_num) (N := 11) (by norm_num)
    (by norm_num)
  refine ⟨p, v, h1, h2, ?_⟩
  have e : (fun i : Nat => (0 : ℝ) + i * ((1 - 0) / (((11 : Nat) : ℝ) - 1))) = fun i : Nat => (i : ℝ) / 10 := by
    funext i
    push_cast
    ring
  rw [e] at h3
  refine h3.trans (mul_le_mul_of_nonneg_right ?_ ?_)
  · norm_num
  · unfold panels
    refine sum_nonneg fun i _ => ?_
    have : (((i + 1 : Nat) : ℝ) / 10 - (i : ℝ) / 10) = 1 / 10 := by push_cast; ring
    simp only [this]
    positivity

end MU
