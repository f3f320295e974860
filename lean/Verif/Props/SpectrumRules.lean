import Verif.Props.Filtering

set_option linter.unusedSectionVars false

/-!
# C215: what a spectrum says about a signal

`o.fft v` is `fft` and `o.ifft X` is `ifft` of an `FFT` object with the flags `o`.
-/

namespace MU

open Finset Spec

/-- C215: the spectrum determines the samples, for every setting of the flags and every number of samples. -/
theorem C215_determined (o : FFTObj) {v w : List ℝ} (h : v.length = w.length) (he : o.fft v = o.fft w) : v = w := by
  set n := v.length with hn
  have hbin : ∀ k, k < n / 2 + 1 → k < n → dft n (fun j => v.getD j 0) k = dft n (fun j => w.getD j 0) k := by
    intro k hk hkn
    have lv := (C87_forward o v).1
    have lw := (C87_forward o w).1
    have h1 : k < (o.fft v).length := by rw [lv]; split_ifs <;> omega
    have h2 : k < (o.fft w).length := by rw [lw]; split_ifs <;> omega
    have e1 := fft_getElem o v h1
    have e2 := fft_getElem o w h2
    rw [← h] at e2
    rw [← hn] at e1
    rw [← e1, ← e2]
    simp only [he]
  have hall : ∀ k, k < n → dft n (fun j => v.getD j 0) k = dft n (fun j => w.getD j 0) k := by
    intro k hk
    by_cases h2 : k < n / 2 + 1
    · exact hbin k h2 hk
    · rw [← dft_conj n _ k hk.le (by omega), ← dft_conj n _ k hk.le (by omega), hbin (n - k) (by omega) (by omega)]
  refine List.ext_getElem h fun j h1 h2 => ?_
  have hn0 : n ≠ 0 := by omega
  have e1 := inverse_dft n hn0 (fun j => v.getD j 0) j h1
  have e2 := inverse_dft n hn0 (fun j => w.getD j 0) j h1
  rw [sum_congr rfl (fun k hk => by rw [hall k (mem_range.1 hk)]), e2] at e1
  have hn' : (n : ℂ) ≠ 0 := by exact_mod_cast hn0
  have := mul_left_cancel₀ hn' e1
  have : w.getD j 0 = v.getD j 0 := by exact_mod_cast this
  rw [List.getD, List.getD, List.getElem?_eq_getElem h1, List.getElem?_eq_getElem h2] at this
  exact this.symm

theorem sum_back {n : ℕ} (hn : n ≠ 0) (Y : ℕ → ℂ) {m : ℕ} (hm : m < n) :
    ∑ j ∈ range n, (∑ k ∈ range n, Y k * Complex.exp (2 * Real.pi * Complex.I * j * k / n)) * Complex.exp (-(2 * Real.pi * Complex.I * j * m / n)) = n * Y m := by
  simp only [sum_mul]
  rw [sum_comm]
  have : ∀ k ∈ range n, ∑ j ∈ range n, Y k * Complex.exp (2 * Real.pi * Complex.I * j * k / n) * Complex.exp (-(2 * Real.pi * Complex.I * j * m / n)) =
      Y k * (if m = k then (n : ℂ) else 0) := by
    intro k hk
    rw [← sum_roots n hn m k hm (mem_range.1 hk), mul_sum]
    refine sum_congr rfl fun j _ => ?_
    rw [show (2 * Real.pi * Complex.I * m * j / n : ℂ) = 2 * Real.pi * Complex.I * j * m / n by ring,
      show (2 * Real.pi * Complex.I * k * j / n : ℂ) = 2 * Real.pi * Complex.I * j * k / n by ring]
    ring
  rw [sum_congr rfl this]
  simp [hm, mul_comm]

theorem dft_back {n : ℕ} (hn : n ≠ 0) (Y : ℕ → ℂ) (h0 : (starRingEnd ℂ) (Y 0) = Y 0) (hs : ∀ m, 0 < m → m < n → (starRingEnd ℂ) (Y (n - m)) = Y m) {m : ℕ} (hm : m < n) :
    dft n (fun j => (∑ k ∈ range n, Y k * Complex.exp (2 * Real.pi * Complex.I * j * k / n)).re) m = n * Y m := by
  unfold dft
  set z : ℕ → ℂ := fun j => ∑ k ∈ range n, Y k * Complex.exp (2 * Real.pi * Complex.I * j * k / n) with hz
  have e1 : ∑ j ∈ range n, z j * Complex.exp (-(2 * Real.pi * Complex.I * j * m / n)) = n * Y m := sum_back hn Y hm
  have e2 : ∑ j ∈ range n, (starRingEnd ℂ) (z j) * Complex.exp (-(2 * Real.pi * Complex.I * j * m / n)) = n * Y m := by
    have hc : ∀ j : ℕ, Complex.exp (-(2 * Real.pi * Complex.I * j * m / n)) = (starRingEnd ℂ) (Complex.exp (2 * Real.pi * Complex.I * j * m / n)) := by
      intro j
      rw [← exp_conj_neg, Complex.conj_conj]
    have : ∑ j ∈ range n, (starRingEnd ℂ) (z j) * Complex.exp (-(2 * Real.pi * Complex.I * j * m / n)) =
        (starRingEnd ℂ) (∑ j ∈ range n, z j * Complex.exp (2 * Real.pi * Complex.I * j * m / n)) := by
      rw [map_sum]
      exact sum_congr rfl fun j _ => by rw [map_mul, hc j]
    rw [this]
    rcases Nat.eq_zero_or_pos m with rfl | hpos
    · have e := sum_back hn Y (m := 0) hm
      simp only [Nat.cast_zero, mul_zero, zero_div, neg_zero] at e ⊢
      rw [e, map_mul, h0, Complex.conj_natCast]
    · have e := sum_back hn Y (m := n - m) (by omega)
      have hc' : (n : ℂ) * Y m = (starRingEnd ℂ) ((n : ℂ) * Y (n - m)) := by rw [map_mul, hs m hpos hm, Complex.conj_natCast]
      rw [hc', ← e]
      congr 1
      refine sum_congr rfl fun j _ => ?_
      rw [exp_reflect n j m hn hm.le]
  have e3 : ∀ j, ((z j).re : ℂ) = (z j + (starRingEnd ℂ) (z j)) / 2 := fun j => by
    rw [Complex.add_conj]; push_cast; ring
  have : ∑ j ∈ range n, ((z j).re : ℂ) * Complex.exp (-(2 * Real.pi * Complex.I * j * m / n)) =
      (∑ j ∈ range n, z j * Complex.exp (-(2 * Real.pi * Complex.I * j * m / n)) +
        ∑ j ∈ range n, (starRingEnd ℂ) (z j) * Complex.exp (-(2 * Real.pi * Complex.I * j * m / n))) / 2 := by
    rw [← sum_add_distrib, div_eq_mul_inv, sum_mul]
    exact sum_congr rfl fun j _ => by rw [e3 j]; ring
  rw [this, e1, e2]
  ring

theorem dft_smul (n : ℕ) (c : ℝ) (f : ℕ → ℝ) (k : ℕ) : dft n (fun j => f j * c) k = c * dft n f k := by
  unfold dft
  rw [mul_sum]
  exact sum_congr rfl fun j _ => by push_cast; ring

/-- C215: a full spectrum that a real signal can have (a real first bin, conjugate bins at mirrored places) is given back by `fft` after `ifft`, `n` times without scaling. -/
theorem C215_synthesis (o : FFTObj) (hh : o.halfSpectrum = false) (X : List ℂ) (h0 : (X.getD 0 0).im = 0)
    (hs : ∀ m, 0 < m → m < X.length → X.getD (X.length - m) 0 = (starRingEnd ℂ) (X.getD m 0)) :
    o.fft (o.ifft X) = if o.unscaled then X.map (fun z => (X.length : ℂ) * z) else X := by
  set n := X.length with hn
  have hlen : (o.ifft X).length = n := by simp [FFTObj.ifft, eigenInv, hh, hn]
  have hl : (o.fft (o.ifft X)).length = n := by rw [(C87_forward o _).1, hh]; simpa using hlen
  refine List.ext_getElem (by rw [hl]; split_ifs <;> simp [hn]) fun m h1 h2 => ?_
  have hm : m < n := by omega
  have hn0 : n ≠ 0 := by omega
  have hrefl : ∀ k, k < n → reflected n X k = X.getD k 0 := by
    intro k hk
    unfold reflected
    split_ifs with h
    · rfl
    · rw [hs k (by omega) hk, Complex.conj_conj]
  rw [fft_getElem o _ h1, hlen]
  have hj : ∀ j, j < n → (o.ifft X).getD j 0 =
      (∑ k ∈ range n, X.getD k 0 * Complex.exp (2 * Real.pi * Complex.I * j * k / n)).re * (if o.unscaled then (1 : ℝ) else 1 / (n : ℝ)) := by
    intro j hj
    simp only [FFTObj.ifft, eigenInv, hh, ← hn, Bool.false_eq_true, if_false]
    rw [getD_map_range n _ hj, sum_congr rfl (fun k hk => by rw [hrefl k (mem_range.1 hk)])]
    split_ifs <;> simp
  rw [dft_congr hj, dft_smul, dft_back hn0 (fun k => X.getD k 0) (Complex.conj_eq_iff_im.2 h0) (fun m p q => by rw [hs m p q, Complex.conj_conj]) hm]
  have hn' : (n : ℂ) ≠ 0 := by exact_mod_cast hn0
  have hX : X.getD m 0 = X[m]'(by omega) := by rw [List.getD, List.getElem?_eq_getElem (by omega)]; rfl
  simp only [hX]
  split_ifs with hu
  · simp
  · push_cast
    field_simp

/-- C215: with the half spectrum, any list of at least two bins whose first and last are real is given back by `fft` after `ifft`. -/
theorem C215_synthesis_half (o : FFTObj) (hh : o.halfSpectrum = true) (X : List ℂ) (h2 : 2 ≤ X.length) (h0 : (X.getD 0 0).im = 0) (hl : (X.getD (X.length - 1) 0).im = 0) :
    o.fft (o.ifft X) = if o.unscaled then X.map (fun z => ((2 * (X.length - 1) : ℕ) : ℂ) * z) else X := by
  set n := 2 * (X.length - 1) with hn
  have hlen : (o.ifft X).length = n := by simp [FFTObj.ifft, eigenInv, hh, hn]
  have hlf : (o.fft (o.ifft X)).length = X.length := by
    rw [(C87_forward o _).1, hh, hlen]
    simp only [if_true]
    omega
  refine List.ext_getElem (by rw [hlf]; split_ifs <;> simp) fun m h1 h3 => ?_
  have hmX : m < X.length := by omega
  have hm : m < n := by omega
  have hn0 : n ≠ 0 := by omega
  rw [fft_getElem o _ h1, hlen]
  have hj : ∀ j, j < n → (o.ifft X).getD j 0 =
      (∑ k ∈ range n, reflected n X k * Complex.exp (2 * Real.pi * Complex.I * j * k / n)).re * (if o.unscaled then (1 : ℝ) else 1 / (n : ℝ)) := by
    intro j hj
    simp only [FFTObj.ifft, eigenInv, hh, if_true, ← hn]
    rw [getD_map_range n _ hj]
    split_ifs <;> simp
  have hY0 : (starRingEnd ℂ) (reflected n X 0) = reflected n X 0 := by
    unfold reflected
    rw [if_pos (by omega)]
    exact Complex.conj_eq_iff_im.2 h0
  have hYs : ∀ m, 0 < m → m < n → (starRingEnd ℂ) (reflected n X (n - m)) = reflected n X m := by
    intro m p q
    unfold reflected
    by_cases c1 : m < n / 2 + 1
    · rw [if_pos c1]
      by_cases c2 : n - m < n / 2 + 1
      · rw [if_pos c2]
        have : n - m = X.length - 1 ∧ m = X.length - 1 := by omega
        rw [this.1, this.2]
        exact Complex.conj_eq_iff_im.2 hl
      · rw [if_neg c2, Complex.conj_conj, show n - (n - m) = m by omega]
    · rw [if_neg c1, if_pos (by omega)]
  rw [dft_congr hj, dft_smul, dft_back hn0 (reflected n X) hY0 hYs hm]
  have hn' : (n : ℂ) ≠ 0 := by exact_mod_cast hn0
  have hX : reflected n X m = X[m]'(by omega) := by
    unfold reflected
    rw [if_pos (by omega), List.getD, List.getElem?_eq_getElem (by omega)]; rfl
  simp only [hX]
  split_ifs with hu
  · simp
  · push_cast
    field_simp

/-- C215: a pulse at the sample `d` has the bins `exp(-2πi d k / n)`, all of magnitude one. -/
theorem C215_impulse (o : FFTObj) {n d : ℕ} (hd : d < n) {k : ℕ} (hk : k < (o.fft ((List.range n).map fun j => if j = d then (1 : ℝ) else 0)).length) :
    (o.fft ((List.range n).map fun j => if j = d then (1 : ℝ) else 0))[k] = Complex.exp (-(2 * Real.pi * Complex.I * d * k / n)) ∧
    ‖(o.fft ((List.range n).map fun j => if j = d then (1 : ℝ) else 0))[k]‖ = 1 := by
  have e : (o.fft ((List.range n).map fun j => if j = d then (1 : ℝ) else 0))[k] = Complex.exp (-(2 * Real.pi * Complex.I * d * k / n)) := by
    rw [fft_getElem o _ hk]
    simp only [List.length_map, List.length_range]
    rw [dft_congr (g := fun j => if j = d then (1 : ℝ) else 0) (fun j hj => getD_map_range n _ hj)]
    unfold dft
    rw [sum_eq_single d]
    · simp
    · intro b _ hb
      simp [hb]
    · intro h
      exact absurd (mem_range.2 hd) h
  refine ⟨e, ?_⟩
  rw [e, show (-(2 * Real.pi * Complex.I * d * k / n) : ℂ) = ((-(2 * Real.pi * d * k / n) : ℝ) : ℂ) * Complex.I by push_cast; ring, Complex.norm_exp_ofReal_mul_I]

/-- C215: a periodic signal run backwards has the conjugate bins. -/
theorem C215_reversed (o : FFTObj) (v : List ℝ) {k : ℕ} (h1 : k < (o.fft ((List.range v.length).map fun j => v.getD ((v.length - j) % v.length) 0)).length)
    (h2 : k < (o.fft v).length) :
    (o.fft ((List.range v.length).map fun j => v.getD ((v.length - j) % v.length) 0))[k] = (starRingEnd ℂ) (o.fft v)[k] := by
  set n := v.length with hn
  rw [fft_getElem o _ h1, fft_getElem o _ h2]
  simp only [List.length_map, List.length_range, ← hn]
  rw [dft_congr (g := fun j => v.getD ((n - j) % n) 0) (fun j hj => getD_map_range n _ hj)]
  rcases Nat.eq_zero_or_pos n with h | h
  · simp [h, dft]
  unfold dft
  rw [map_sum]
  -- the sample `j` of the one is the sample `(n - j) % n` of the other
  refine sum_nbij' (fun j => (n - j) % n) (fun j => (n - j) % n) (fun j _ => mem_range.2 (Nat.mod_lt _ h)) (fun j _ => mem_range.2 (Nat.mod_lt _ h)) ?_ ?_ ?_
  · intro j hj
    have := mem_range.1 hj
    beta_reduce
    rcases Nat.eq_zero_or_pos j with rfl | hp
    · simp
    · rw [Nat.mod_eq_of_lt (show n - j < n by omega), show n - (n - j) = j by omega, Nat.mod_eq_of_lt this]
  · intro j hj
    have := mem_range.1 hj
    beta_reduce
    rcases Nat.eq_zero_or_pos j with rfl | hp
    · simp
    · rw [Nat.mod_eq_of_lt (show n - j < n by omega), show n - (n - j) = j by omega, Nat.mod_eq_of_lt this]
  · intro j hj
    have hj' := mem_range.1 hj
    beta_reduce
    rw [map_mul, Complex.conj_ofReal, exp_conj_neg]
    congr 1
    rcases Nat.eq_zero_or_pos j with rfl | hp
    · simp
    · rw [Nat.mod_eq_of_lt (show n - j < n by omega)]
      have h' : (n : ℂ) ≠ 0 := by exact_mod_cast h.ne'
      rw [Nat.cast_sub hj'.le, Complex.exp_eq_exp_iff_exists_int]
      exact ⟨-k, by push_cast; field_simp; ring⟩

/-- C215: zeros added at the end, up to `r` times the number of samples, refine the spectrum: each bin stays, at `r` times its place. -/
theorem C215_padded (o : FFTObj) (v : List ℝ) {r : ℕ} (hr : 0 < r) {k : ℕ} (h1 : r * k < (o.fft (v ++ List.replicate ((r - 1) * v.length) 0)).length) (h2 : k < (o.fft v).length) :
    (o.fft (v ++ List.replicate ((r - 1) * v.length) 0))[r * k] = (o.fft v)[k] := by
  set n := v.length with hn
  have hlen : (v ++ List.replicate ((r - 1) * n) (0 : ℝ)).length = n + (r - 1) * n := by simp [hn]
  rw [fft_getElem o _ h1, fft_getElem o _ h2, hlen, ← hn]
  unfold dft
  rw [sum_range_add]
  have hz : ∑ x ∈ range ((r - 1) * n), (((v ++ List.replicate ((r - 1) * n) (0 : ℝ)).getD (n + x) 0 : ℝ) : ℂ) *
      Complex.exp (-(2 * Real.pi * Complex.I * ((n + x : ℕ) : ℂ) * ((r * k : ℕ) : ℂ) / ((n + (r - 1) * n : ℕ) : ℂ))) = 0 := by
    refine sum_eq_zero fun x hx => ?_
    have : (v ++ List.replicate ((r - 1) * n) (0 : ℝ)).getD (n + x) 0 = 0 := by
      rw [List.getD, List.getElem?_append_right (by omega)]
      simp [List.getElem?_replicate]
      split_ifs <;> rfl
    rw [this]; simp
  rw [hz, add_zero]
  refine sum_congr rfl fun j hj => ?_
  have hj' := mem_range.1 hj
  have e1 : (v ++ List.replicate ((r - 1) * n) (0 : ℝ)).getD j 0 = v.getD j 0 := by
    rw [List.getD, List.getD, List.getElem?_append_left (by omega)]
  beta_reduce
  rw [e1]
  congr 2
  have hr' : (r : ℂ) ≠ 0 := by exact_mod_cast hr.ne'
  have hn' : (n : ℂ) ≠ 0 := by exact_mod_cast (show n ≠ 0 by omega)
  rw [show n + (r - 1) * n = r * n by obtain ⟨s, rfl⟩ : ∃ s, r = s + 1 := ⟨r - 1, by omega⟩; simp; ring]
  push_cast
  field_simp

theorem sum_blocks (n r : ℕ) (f : ℕ → ℂ) : ∑ j ∈ range (r * n), f j = ∑ q ∈ range r, ∑ i ∈ range n, f (q * n + i) := by
  induction r with
  | zero => simp
  | succ r ih => rw [Nat.succ_mul, sum_range_add, ih, sum_range_succ]

/-- C215: a signal repeated `r` times has `r` times the bins of the signal at every `r`-th place and zeros between. -/
theorem C215_repeated (o : FFTObj) (v : List ℝ) {r : ℕ} (hr : 0 < r) {k : ℕ} (h1 : k < (o.fft ((List.range (r * v.length)).map fun j => v.getD (j % v.length) 0)).length) :
    (¬ r ∣ k → (o.fft ((List.range (r * v.length)).map fun j => v.getD (j % v.length) 0))[k] = 0) ∧
    ∀ m (h2 : m < (o.fft v).length), k = r * m → (o.fft ((List.range (r * v.length)).map fun j => v.getD (j % v.length) 0))[k] = r * (o.fft v)[m] := by
  set n := v.length with hn
  have hr' : (r : ℂ) ≠ 0 := by exact_mod_cast hr.ne'
  rcases Nat.eq_zero_or_pos n with h | h
  · have hv : v = [] := List.length_eq_zero_iff.1 (by omega)
    constructor
    · intro _
      rw [fft_getElem o _ h1]
      simp [h, dft]
    · intro m h2 hk
      rw [fft_getElem o _ h1, fft_getElem o _ h2]
      simp [h, ← hn, dft]
  have hn' : (n : ℂ) ≠ 0 := by exact_mod_cast h.ne'
  have e : (o.fft ((List.range (r * n)).map fun j => v.getD (j % n) 0))[k] =
      (∑ q ∈ range r, Complex.exp (-(2 * Real.pi * Complex.I * q * k / r))) *
        ∑ i ∈ range n, ((v.getD i 0 : ℝ) : ℂ) * Complex.exp (-(2 * Real.pi * Complex.I * i * k / ((r * n : ℕ) : ℂ))) := by
    rw [fft_getElem o _ h1]
    simp only [List.length_map, List.length_range]
    rw [dft_congr (g := fun j => v.getD (j % n) 0) (fun j hj => getD_map_range (r * n) _ hj)]
    unfold dft
    rw [sum_blocks, sum_mul]
    refine sum_congr rfl fun q _ => ?_
    rw [mul_sum]
    refine sum_congr rfl fun i hi => ?_
    beta_reduce
    rw [show (q * n + i) % n = i by rw [Nat.add_comm, Nat.add_mul_mod_self_right, Nat.mod_eq_of_lt (mem_range.1 hi)], mul_left_comm, ← Complex.exp_add]
    congr 2
    push_cast
    field_simp
    ring
  constructor
  · intro hnd
    have hs : ∑ q ∈ range r, Complex.exp (-(2 * Real.pi * Complex.I * q * k / r)) = 0 := by
      have := sum_roots r hr.ne' (k % r) 0 (Nat.mod_lt _ hr) hr
      rw [if_neg (fun h0 => hnd (Nat.dvd_of_mod_eq_zero h0))] at this
      rw [← this]
      refine sum_congr rfl fun q _ => ?_
      rw [← Complex.exp_add, Complex.exp_eq_exp_iff_exists_int]
      refine ⟨-(((k / r : ℕ) : ℤ) * q), ?_⟩
      have hk : ((k : ℕ) : ℂ) = (r : ℂ) * ((k / r : ℕ) : ℂ) + ((k % r : ℕ) : ℂ) := by exact_mod_cast (Nat.div_add_mod k r).symm
      rw [hk, Int.cast_neg, Int.cast_mul, Int.cast_natCast, Int.cast_natCast, Nat.cast_zero]
      generalize ((k / r : ℕ) : ℂ) = a
      generalize ((k % r : ℕ) : ℂ) = b
      field_simp
      ring
    rw [e, hs, zero_mul]
  · intro m h2 hk
    rw [e, fft_getElem o _ h2]
    congr 1
    · have : ∀ q ∈ range r, Complex.exp (-(2 * Real.pi * Complex.I * q * k / r)) = 1 := by
        intro q _
        rw [Complex.exp_eq_one_iff]
        exact ⟨-((q : ℤ) * m), by rw [hk]; push_cast; field_simp⟩
      rw [sum_congr rfl this]
      simp
    · unfold dft
      refine sum_congr rfl fun i _ => ?_
      congr 2
      rw [hk, ← hn]
      push_cast
      field_simp

/-- C215: sinusoids whose frequencies differ by a multiple of the sampling frequency have the same samples, hence the same spectrum; so have those whose frequencies add up to a
multiple of it, with opposite phases. -/
theorem C215_aliases (o : FFTObj) (n : ℕ) (A f φ fs : ℝ) (hfs : fs ≠ 0) (q : ℤ) (unit : FrequencyUnit) :
    (o.fftFrequencies ((List.range n).map (fun j : ℕ => A * Real.cos (2 * Real.pi * (f + q * fs) * (j / fs) + φ))) fs unit =
      o.fftFrequencies ((List.range n).map (fun j : ℕ => A * Real.cos (2 * Real.pi * f * (j / fs) + φ))) fs unit) ∧
    (o.fftFrequencies ((List.range n).map (fun j : ℕ => A * Real.cos (2 * Real.pi * (q * fs - f) * (j / fs) - φ))) fs unit =
      o.fftFrequencies ((List.range n).map (fun j : ℕ => A * Real.cos (2 * Real.pi * f * (j / fs) + φ))) fs unit) := by
  have h1 : ∀ j : ℕ, Real.cos (2 * Real.pi * (f + q * fs) * (j / fs) + φ) = Real.cos (2 * Real.pi * f * (j / fs) + φ) := by
    intro j
    rw [← Real.cos_add_int_mul_two_pi (2 * Real.pi * f * (j / fs) + φ) (q * j)]
    congr 1
    push_cast
    field_simp
    ring
  have h2 : ∀ j : ℕ, Real.cos (2 * Real.pi * (q * fs - f) * (j / fs) - φ) = Real.cos (2 * Real.pi * f * (j / fs) + φ) := by
    intro j
    rw [← Real.cos_neg (2 * Real.pi * f * (j / fs) + φ), ← Real.cos_add_int_mul_two_pi (-(2 * Real.pi * f * (j / fs) + φ)) (q * j)]
    congr 1
    push_cast
    field_simp
    ring
  constructor
  · simp only [h1]
  · simp only [h2]

/-- C215: constant samples fill the first bin alone; samples of alternating sign fill the bin `n / 2` alone. -/
theorem C215_ends (o : FFTObj) {n : ℕ} (hn : 0 < n) (c : ℝ) :
    (∀ k (h : k < (o.fft (List.replicate n c)).length), (o.fft (List.replicate n c))[k] = if k = 0 then (n : ℂ) * c else 0) ∧
    (n % 2 = 0 → ∀ k (h : k < (o.fft ((List.range n).map fun j => (-1) ^ j * c)).length),
      (o.fft ((List.range n).map fun j => (-1) ^ j * c))[k] = if k = n / 2 then (n : ℂ) * c else 0) := by
  have hlt : ∀ v : List ℝ, v.length = n → ∀ k, k < (o.fft v).length → k < n := by
    intro v hv k h
    rw [(C87_forward o v).1, hv] at h
    split_ifs at h
    · rcases Nat.lt_or_ge k n with hk | hk
      · exact hk
      · omega
    · exact h
  have hn' : (n : ℂ) ≠ 0 := by exact_mod_cast hn.ne'
  constructor
  · intro k h
    have hk := hlt _ (by simp) k h
    rw [fft_getElem o _ h]
    simp only [List.length_replicate]
    rw [dft_congr (g := fun _ => c) (fun j hj => by simp [List.getD, hj])]
    unfold dft
    rw [← mul_sum]
    have := sum_roots n hn.ne' k 0 hk hn
    have e : ∑ j ∈ range n, Complex.exp (-(2 * Real.pi * Complex.I * j * k / n)) = if k = 0 then (n : ℂ) else 0 := by
      rw [← this]
      refine sum_congr rfl fun j _ => ?_
      rw [show (2 * Real.pi * Complex.I * ((0 : ℕ) : ℂ) * j / n : ℂ) = 0 by simp, Complex.exp_zero, mul_one]
      congr 2
      ring
    rw [e]
    split_ifs <;> ring
  · intro he k h
    have hk := hlt _ (by simp) k h
    rw [fft_getElem o _ h]
    simp only [List.length_map, List.length_range]
    rw [dft_congr (g := fun j => (-1) ^ j * c) (fun j hj => getD_map_range n _ hj)]
    unfold dft
    have := sum_roots n hn.ne' k (n / 2) hk (by omega)
    have hh : ((n / 2 : ℕ) : ℂ) = (n : ℂ) / 2 := by
      have : (n : ℂ) = 2 * ((n / 2 : ℕ) : ℂ) := by exact_mod_cast (show n = 2 * (n / 2) by omega)
      rw [this]
      push_cast
      ring_nf
    have e : ∑ j ∈ range n, (((-1) ^ j * c : ℝ) : ℂ) * Complex.exp (-(2 * Real.pi * Complex.I * j * k / n)) = c * if k = n / 2 then (n : ℂ) else 0 := by
      rw [← this, mul_sum]
      refine sum_congr rfl fun j _ => ?_
      have hpow : Complex.exp (2 * Real.pi * Complex.I * ((n / 2 : ℕ) : ℂ) * j / n) = (-1) ^ j := by
        rw [hh, show (2 * Real.pi * Complex.I * ((n : ℂ) / 2) * j / n : ℂ) = j * (Real.pi * Complex.I) by field_simp, Complex.exp_nat_mul, Complex.exp_pi_mul_I]
      rw [hpow, show (2 * Real.pi * Complex.I * j * k / n : ℂ) = 2 * Real.pi * Complex.I * k * j / n by ring]
      push_cast
      ring
    rw [e]
    split_ifs <;> ring

/-! ## Non-vacuity -/

/-- A spectrum of three bins that a real signal has. -/
example : ([6, ⟨1, 2⟩, ⟨1, -2⟩] : List ℂ).getD 0 0 = 6 ∧ ((([6, ⟨1, 2⟩, ⟨1, -2⟩] : List ℂ).getD 0 0).im = 0) ∧
    ∀ m, 0 < m → m < ([6, ⟨1, 2⟩, ⟨1, -2⟩] : List ℂ).length →
      ([6, ⟨1, 2⟩, ⟨1, -2⟩] : List ℂ).getD (([6, ⟨1, 2⟩, ⟨1, -2⟩] : List ℂ).length - m) 0 = (starRingEnd ℂ) (([6, ⟨1, 2⟩, ⟨1, -2⟩] : List ℂ).getD m 0) := by
  refine ⟨rfl, by simp, fun m h1 h2 => ?_⟩
  have : m = 1 ∨ m = 2 := by simp at h2; omega
  rcases this with rfl | rfl <;> simp [Complex.ext_iff]

/-- Half a spectrum: three bins of which the first and the last are real. -/
example : (FFTObj.mk true false).fft ((FFTObj.mk true false).ifft [6, ⟨1, 2⟩, 4]) = [6, ⟨1, 2⟩, 4] := by
  have := C215_synthesis_half ⟨true, false⟩ rfl [6, ⟨1, 2⟩, 4] (by simp) (by simp) (by simp)
  simpa using this

/-- Three samples and the half spectrum, where `ifft` does not give them back (C87): the spectrum still tells them apart from all others. -/
example (w : List ℝ) (h : w.length = 3) (he : (FFTObj.mk true false).fft [1, 2, 3] = (FFTObj.mk true false).fft w) : w = [1, 2, 3] :=
  (C215_determined ⟨true, false⟩ (by simp [h]) he).symm

/-- A pulse among four samples; four samples repeated three times, and filled with zeros to twelve. -/
example : (2 : ℕ) < 4 ∧ 1 < ((FFTObj.mk false false).fft ((List.range 4).map fun j => if j = 2 then (1 : ℝ) else 0)).length ∧
    5 < ((FFTObj.mk false false).fft ((List.range (3 * [(1 : ℝ), 2, 3, 4].length)).map fun j => [(1 : ℝ), 2, 3, 4].getD (j % [(1 : ℝ), 2, 3, 4].length) 0)).length ∧
    3 * 2 < ((FFTObj.mk false false).fft ([(1 : ℝ), 2, 3, 4] ++ List.replicate ((3 - 1) * [(1 : ℝ), 2, 3, 4].length) 0)).length := by
  simp [FFTObj.fft, eigenFwd]

end MU
