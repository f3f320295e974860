import Verif.Props.Fft

/-!
# C118: the spectrum of a real signal
-/

set_option linter.unusedSectionVars false

namespace MU
open Finset Spec

/-- C118: the spectrum is linear in the samples. -/
theorem C118_linear (o : FFTObj) (a b : ℝ) (v w : List ℝ) (h : v.length = w.length) :
    o.fft (List.zipWith (fun x y => a * x + b * y) v w) = List.zipWith (fun x y => (a : ℂ) * x + b * y) (o.fft v) (o.fft w) := by
  obtain ⟨lv, ev⟩ := C87_forward o v
  obtain ⟨lw, ew⟩ := C87_forward o w
  obtain ⟨lz, ez⟩ := C87_forward o (List.zipWith (fun x y => a * x + b * y) v w)
  have hz : (List.zipWith (fun x y => a * x + b * y) v w).length = v.length := by simp [h]
  have hl : (o.fft v).length = (o.fft w).length := by rw [lv, lw, h]
  rw [hz, ← lv] at lz
  apply List.ext_getElem
  · rw [List.length_zipWith, lz, ← hl, Nat.min_self]
  · intro k h1 h2
    have hk : k < (o.fft v).length := by rw [← lz]; exact h1
    rw [List.getElem_zipWith, ez k h1, ev k hk, ew k (by rw [← hl]; exact hk), hz, ← h, mul_sum, mul_sum, ← sum_add_distrib]
    refine sum_congr rfl fun j hj => ?_
    have hj : j < v.length := mem_range.1 hj
    have hj' : j < w.length := by rw [← h]; exact hj
    have e : (List.zipWith (fun x y => a * x + b * y) v w).getD j 0 = a * v.getD j 0 + b * w.getD j 0 := by
      simp [List.getD, List.getElem?_zipWith, List.getElem?_eq_getElem hj, List.getElem?_eq_getElem hj']
    rw [e]
    push_cast
    ring

/-- C118: the full spectrum of real samples is conjugate symmetric. -/
theorem C118_symmetric (o : FFTObj) (hh : o.halfSpectrum = false) (v : List ℝ) {k : Nat} (hk0 : 0 < k) (hk : k < (o.fft v).length)
    (hk' : (o.fft v).length - k < (o.fft v).length) : (o.fft v)[(o.fft v).length - k] = (starRingEnd ℂ) (o.fft v)[k] := by
  obtain ⟨lv, ev⟩ := C87_forward o v
  rw [hh] at lv
  simp only [Bool.false_eq_true, if_false] at lv
  rw [lv] at hk
  have hn : v.length ≠ 0 := by omega
  have e := dft_conj v.length (fun j => v.getD j 0) k hk.le hn
  rw [ev, ev]
  have e1 : ∑ j ∈ range v.length, (v.getD j 0 : ℂ) * Complex.exp (-(2 * Real.pi * Complex.I * j * k / v.length)) = dft v.length (fun j => v.getD j 0) k := rfl
  rw [e1, ← e, Complex.conj_conj, lv]
  rfl

theorem sum_map_range' (f : Nat → ℝ) (n : Nat) : ((List.range n).map f).sum = ∑ k ∈ range n, f k := by
  induction n with
  | zero => simp
  | succ n ih => rw [List.range_succ, List.map_append, List.sum_append, ih, sum_range_succ]; simp

/-- C118, Parseval: the energies of the full spectrum and of the signal agree. -/
theorem C118_parseval (o : FFTObj) (hh : o.halfSpectrum = false) (v : List ℝ) :
    ((o.fft v).map Complex.normSq).sum = v.length * (v.map (fun x => x ^ 2)).sum := by
  obtain ⟨lv, ev⟩ := C87_forward o v
  rw [hh] at lv
  simp only [Bool.false_eq_true, if_false] at lv
  rcases Nat.eq_zero_or_pos v.length with h0 | h0
  · have h1 : o.fft v = [] := List.length_eq_zero_iff.1 (by rw [lv, h0])
    simp [h1, h0]
  have hn : v.length ≠ 0 := by omega
  set f : Nat → ℝ := fun j => v.getD j 0 with hf
  have hX : o.fft v = (List.range v.length).map (fun k => dft v.length f k) := by
    apply List.ext_getElem
    · simp [lv]
    · intro k h1 h2
      rw [ev k h1]
      simp only [List.getElem_map, List.getElem_range]
      rfl
  have hv : v.map (fun x => x ^ 2) = (List.range v.length).map (fun j => f j ^ 2) := by
    apply List.ext_getElem
    · simp
    · intro k h1 h2
      have : k < v.length := by simpa using h1
      simp [hf, List.getElem?_eq_getElem this]
  have e1 : ((o.fft v).map Complex.normSq).sum = ∑ k ∈ range v.length, Complex.normSq (dft v.length f k) := by
    rw [hX, List.map_map, sum_map_range']
    rfl
  have e2 : (v.map (fun x => x ^ 2)).sum = ∑ j ∈ range v.length, f j ^ 2 := by
    rw [hv, sum_map_range']
  rw [e1, e2]
  have key : ((∑ k ∈ range v.length, Complex.normSq (dft v.length f k) : ℝ) : ℂ) = ((v.length * ∑ j ∈ range v.length, f j ^ 2 : ℝ) : ℂ) := by
    push_cast
    have c : ∀ k, (Complex.normSq (dft v.length f k) : ℂ) =
        ∑ j ∈ range v.length, (f j : ℂ) * (dft v.length f k * Complex.exp (2 * Real.pi * Complex.I * j * k / v.length)) := by
      intro k
      rw [← Complex.mul_conj]
      conv_lhs => rw [show (starRingEnd ℂ) (dft v.length f k) = ∑ j ∈ range v.length, (f j : ℂ) * Complex.exp (2 * Real.pi * Complex.I * j * k / v.length) by
        unfold dft
        rw [map_sum]
        refine sum_congr rfl fun j _ => ?_
        rw [map_mul, Complex.conj_ofReal, exp_conj_neg]]
      rw [mul_sum]
      exact sum_congr rfl fun j _ => by ring
    rw [sum_congr rfl (fun k _ => c k), sum_comm, mul_sum]
    refine sum_congr rfl fun j hj => ?_
    rw [← mul_sum, inverse_dft _ hn _ _ (mem_range.1 hj)]
    ring
  exact_mod_cast key

/-- C118, sinusoids: `n` samples at the sampling frequency `fs` of `A cos(2π f t + φ)`, where `f = m fs / n` is one of the frequencies strictly between 0 and `fs / 2`, give a
spectrum whose bin at the frequency `f` is `(n/2) A exp(iφ)`, and whose other bins up to `fs / 2` vanish. -/
theorem C118_sinusoid (o : FFTObj) (n m : Nat) (hn32 : n < 2 ^ 32) (hm : 0 < m) (hmn : 2 * m < n) (A φ fs : ℝ) (hfs : 0 < fs) :
    ∃ X out, o.fftFrequencies ((List.range n).map (fun j : Nat => A * Real.cos (2 * Real.pi * (m * fs / n) * (j / fs) + φ))) fs .HERTZ = .ok (X, out) ∧
      out[m]? = some (m * fs / n) ∧ X[m]? = some (n / 2 * A * Complex.exp (Complex.I * φ)) ∧ ∀ k, 2 * k ≤ n → k < n → k ≠ m → X[k]? = some 0 := by
  set v : List ℝ := (List.range n).map (fun j : Nat => A * Real.cos (2 * Real.pi * (m * fs / n) * (j / fs) + φ)) with hv
  have hlen : v.length = n := by simp [hv]
  have hn : n ≠ 0 := by omega
  have hnC : (n : ℂ) ≠ 0 := by exact_mod_cast hn
  obtain ⟨out, h1, h2, h3⟩ := C65_bins o v (by rw [hlen]; omega) (by rw [hlen]; exact hn32) fs .HERTZ (by decide)
  obtain ⟨out', g1, g2, g3⟩ := C65_frequencies o v.length (by rw [hlen]; omega) fs .HERTZ (by decide)
  rw [h3] at g1
  cases g1
  obtain ⟨lv, ev⟩ := C87_forward o v
  have hX : ∀ k, 2 * k ≤ n → k < n → k < (o.fft v).length := by
    intro k h1 h2
    rw [lv, hlen]
    split <;> omega
  have bin : ∀ k, 2 * k ≤ n → k < n → (o.fft v)[k]? = some (if k = m then n / 2 * A * Complex.exp (Complex.I * φ) else 0) := by
    intro k hk1 hk2
    rw [List.getElem?_eq_getElem (hX k hk1 hk2), ev k (hX k hk1 hk2), hlen]
    congr 1
    have term : ∀ j ∈ range n, (v.getD j 0 : ℂ) * Complex.exp (-(2 * Real.pi * Complex.I * j * k / n)) =
        A / 2 * Complex.exp (Complex.I * φ) * (Complex.exp (-(2 * Real.pi * Complex.I * k * j / n)) * Complex.exp (2 * Real.pi * Complex.I * m * j / n)) +
        A / 2 * Complex.exp (-(Complex.I * φ)) *
          (Complex.exp (-(2 * Real.pi * Complex.I * k * j / n)) * Complex.exp (2 * Real.pi * Complex.I * ((n - m : Nat) : ℂ) * j / n)) := by
      intro j hj
      have hj : j < n := mem_range.1 hj
      have e1 : v.getD j 0 = A * Real.cos (2 * Real.pi * m * j / n + φ) := by
        simp only [hv, List.getD, List.getElem?_map, List.getElem?_range hj, Option.map_some, Option.getD_some]
        congr 2
        field_simp
      have e2 : Complex.exp (2 * Real.pi * Complex.I * ((n - m : Nat) : ℂ) * j / n) = Complex.exp (-(2 * Real.pi * Complex.I * m * j / n)) := by
        have := exp_reflect n j (n - m) hn (by omega)
        rw [show n - (n - m) = m by omega] at this
        rw [show 2 * Real.pi * Complex.I * ((n - m : Nat) : ℂ) * j / n = 2 * Real.pi * Complex.I * j * ((n - m : Nat) : ℂ) / n by ring, ← this]
        congr 1
        ring
      rw [e1, e2]
      push_cast
      rw [Complex.cos]
      have p1 : Complex.exp ((2 * Real.pi * m * j / n + φ) * Complex.I) = Complex.exp (Complex.I * φ) * Complex.exp (2 * Real.pi * Complex.I * m * j / n) := by
        rw [← Complex.exp_add]; congr 1; ring
      have p2 : Complex.exp (-(2 * Real.pi * m * j / n + φ) * Complex.I) =
          Complex.exp (-(Complex.I * φ)) * Complex.exp (-(2 * Real.pi * Complex.I * m * j / n)) := by
        rw [← Complex.exp_add]; congr 1; ring
      rw [p1, p2, show (2 * Real.pi * Complex.I * j * k / n : ℂ) = 2 * Real.pi * Complex.I * k * j / n by ring]
      ring
    rw [sum_congr rfl term, sum_add_distrib, ← mul_sum, ← mul_sum, sum_roots n hn k m hk2 (by omega), sum_roots n hn k (n - m) hk2 (by omega)]
    have hne : k ≠ n - m := by omega
    rw [if_neg hne]
    split
    · ring
    · ring
  refine ⟨_, _, h1, ?_, ?_, ?_⟩
  · have hm' : m < out.length := by rw [h2]; exact hX m (by omega) (by omega)
    rw [List.getElem?_eq_getElem hm', ← (g3 m hm').2 (m * fs / n) (by simp [turnsPerSecond, hlen])]
  · rw [bin m (by omega) (by omega), if_pos rfl]
  · intro k k1 k2 k3
    rw [bin k k1 k2, if_neg k3]

example (o : FFTObj) : ∃ (X : List ℂ) (out : List ℝ),
    o.fftFrequencies ((List.range 8).map (fun j : Nat => (3 : ℝ) * Real.cos (2 * Real.pi * ((1 : ℕ) * 100 / (8 : ℕ)) * (j / 100) + 1))) 100 .HERTZ = .ok (X, out) ∧
    out[1]? = some (25 / 2) ∧ X[3]? = some 0 := by
  obtain ⟨X, out, h1, h2, -, h3⟩ := C118_sinusoid o 8 1 (by norm_num) (by norm_num) (by norm_num) 3 1 100 (by norm_num)
  exact ⟨X, out, h1, by rw [h2]; norm_num, h3 3 (by norm_num) (by norm_num) (by norm_num)⟩

example : ((FFTObj.mk false false).fft [1, 2, 3] |>.map Complex.normSq).sum = 42 := by
  rw [C118_parseval _ rfl]
  norm_num

example (o : FFTObj) : o.fft (List.zipWith (fun x y => 2 * x + 3 * y) [1, 2] [4, 5]) =
    List.zipWith (fun x y => ((2 : ℝ) : ℂ) * x + ((3 : ℝ) : ℂ) * y) (o.fft [1, 2]) (o.fft [4, 5]) := C118_linear o 2 3 _ _ rfl

example : ((FFTObj.mk false false).fft [1, 2, 4])[3 - 1]'(by simp [FFTObj.fft, eigenFwd]) =
    (starRingEnd ℂ) (((FFTObj.mk false false).fft [1, 2, 4])[1]'(by simp [FFTObj.fft, eigenFwd])) :=
  C118_symmetric ⟨false, false⟩ rfl [1, 2, 4] (k := 1) (by norm_num) (by simp [FFTObj.fft, eigenFwd]) (by simp [FFTObj.fft, eigenFwd])

end MU
