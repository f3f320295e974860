import Verif.Spec.Signal
import Verif.Props.Unit
import Mathlib.RingTheory.RootsOfUnity.Complex
import Mathlib.Tactic.Ring
import Mathlib.Tactic.Linarith
import Mathlib.Tactic.FieldSimp

/-!
# Fourier transforms (C65, C87, C88)
-/

set_option linter.unusedSectionVars false

namespace MU
open Finset Spec

/-! ## Frequencies -/

theorem frequencyLoop_ok (df : ℝ) (unit : FrequencyUnit) (n : Nat) (c : Nat → ℝ) (hc : ∀ i : Nat, i < n → convertFrequency (i * df) .HERTZ unit = .ok (c i)) :
    frequencyLoop df unit n = .ok ((List.range n).map c, n * df) := by
  unfold frequencyLoop
  have := forRange_ok (lo := 0) (hi := n) (Nat.zero_le _) (f := fun _ (s : List ℝ × ℝ) => do
    let c ← convertFrequency s.2 .HERTZ unit
    return (s.1 ++ [c], s.2 + df)) (fun m => ((List.range m).map c, (m : ℝ) * df)) (by
      intro i _ hi
      simp only [hc i hi, Res.ok_bind, Res.pure_eq, List.range_succ, List.map_append, List.map_cons, List.map_nil]
      congr 2
      push_cast
      ring)
  simpa using this

/-- **C65**: for every unit but the period, the vector has `nfft` elements (`nfft/2 + 1` with the half spectrum), and the element `i` is the only number
that means `i * fs / nfft` turns per second in that unit. -/
theorem C65_frequencies (o : FFTObj) (nfft : Nat) (h1 : 1 ≤ nfft) (fs : ℝ) (unit : FrequencyUnit) (hu : unit ≠ .S) :
    ∃ out, o.getFrequencyVector nfft fs unit = .ok out ∧ out.length = (if o.halfSpectrum then nfft / 2 + 1 else nfft) ∧
      ∀ i (h : i < out.length), turnsPerSecond unit out[i] = i * fs / nfft ∧ ∀ z, turnsPerSecond unit z = i * fs / nfft → z = out[i] := by
  have hn : (nfft : ℝ) ≠ 0 := by exact_mod_cast (by omega : nfft ≠ 0)
  have key : ∀ i : Nat, ∃ y, convertFrequency (i * (fs / nfft)) .HERTZ unit = .ok y ∧ turnsPerSecond unit y = i * fs / nfft ∧
      ∀ z, turnsPerSecond unit z = i * fs / nfft → z = y := by
    intro i
    obtain ⟨y, h1, h2, -, h3⟩ := C64_frequency (i * (fs / nfft)) .HERTZ unit (.inr ⟨by decide, hu⟩)
    have e : turnsPerSecond .HERTZ (i * (fs / nfft)) = i * fs / nfft := by
      rw [turnsPerSecond, mul_div_assoc]
    rw [e] at h2 h3
    exact ⟨y, h1, h2, h3⟩
  choose c hc1 hc2 hc3 using key
  refine ⟨(List.range (if o.halfSpectrum then nfft / 2 + 1 else nfft)).map c, ?_, ?_, ?_⟩
  · unfold FFTObj.getFrequencyVector
    rw [rdiv_ok hn, Res.ok_bind]
    simp only
    rw [frequencyLoop_ok _ _ _ c (fun i _ => hc1 i)]
    rfl
  · simp
  · intro i h
    simp only [List.getElem_map, List.getElem_range]
    exact ⟨hc2 i, hc3 i⟩

/-- C65, what is missing for the period: the zero frequency has no finite period, so that no vector of finite numbers is returned. -/
theorem C65_period (o : FFTObj) (nfft : Nat) (h1 : 1 ≤ nfft) (fs : ℝ) : o.getFrequencyVector nfft fs .S = .nonfinite := by
  have hn : (nfft : ℝ) ≠ 0 := by exact_mod_cast (by omega : nfft ≠ 0)
  unfold FFTObj.getFrequencyVector
  rw [rdiv_ok hn, Res.ok_bind]
  obtain ⟨m, hm⟩ : ∃ m, (if o.halfSpectrum then nfft / 2 + 1 else nfft) = m + 1 := by
    split
    · exact ⟨_, rfl⟩
    · exact ⟨nfft - 1, by omega⟩
  have e : convertFrequency 0 .HERTZ .S = .nonfinite := by
    simp [convertFrequency, frequencyToPivot, frequencyFromPivot, HZ2S, rdiv_zero]
  simp only [hm, frequencyLoop, forRange, Nat.sub_zero, forN, e]
  rfl

example : ∃ out, (FFTObj.mk true false).getFrequencyVector 5 10 .HERTZ = .ok out ∧ out.length = 3 := by
  obtain ⟨out, h1, h2, -⟩ := C65_frequencies ⟨true, false⟩ 5 (by norm_num) 10 .HERTZ (by decide)
  exact ⟨out, h1, by simpa using h2⟩

/-- **C65**: the two results of `fft` have the same length, so that a frequency is attached to every bin. -/
theorem C65_bins (o : FFTObj) (v : List ℝ) (h1 : 1 ≤ v.length) (h32 : v.length < 2 ^ 32) (fs : ℝ) (unit : FrequencyUnit) (hu : unit ≠ .S) :
    ∃ out, o.fftFrequencies v fs unit = .ok (o.fft v, out) ∧ out.length = (o.fft v).length ∧ o.getFrequencyVector v.length fs unit = .ok out := by
  obtain ⟨out, h2, h3, -⟩ := C65_frequencies o v.length h1 fs unit hu
  refine ⟨out, ?_, ?_, h2⟩
  · rw [FFTObj.fftFrequencies, Nat.mod_eq_of_lt h32, h2]
    rfl
  · rw [h3, FFTObj.fft, eigenFwd]
    cases o.halfSpectrum <;> simp

example : 1 ≤ [(1 : ℝ), 2, 3].length ∧ [(1 : ℝ), 2, 3].length < 2 ^ 32 := by simp

/-! ## The transforms -/

theorem exp_conj_neg (a b n : Nat) :
    (starRingEnd ℂ) (Complex.exp (-(2 * Real.pi * Complex.I * a * b / n))) = Complex.exp (2 * Real.pi * Complex.I * a * b / n) := by
  rw [← Complex.exp_conj]
  congr 1
  have h2 : (starRingEnd ℂ) 2 = 2 := Complex.conj_ofNat 2
  simp [Complex.conj_ofReal, h2, neg_div]

theorem exp_reflect (n j k : Nat) (hn : n ≠ 0) (hk : k ≤ n) :
    Complex.exp (-(2 * Real.pi * Complex.I * j * ((n - k : Nat) : ℂ) / n)) = Complex.exp (2 * Real.pi * Complex.I * j * k / n) := by
  have h : (n : ℂ) ≠ 0 := by exact_mod_cast hn
  rw [Nat.cast_sub hk, Complex.exp_eq_exp_iff_exists_int]
  exact ⟨-j, by push_cast; field_simp; ring⟩

theorem dft_conj (n : Nat) (v : Nat → ℝ) (k : Nat) (hk : k ≤ n) (hn : n ≠ 0) : (starRingEnd ℂ) (dft n v (n - k)) = dft n v k := by
  unfold dft
  rw [map_sum]
  refine sum_congr rfl fun j _ => ?_
  rw [map_mul, Complex.conj_ofReal, exp_reflect n j k hn hk]
  congr 1
  have := exp_conj_neg j k n
  rw [← this, Complex.conj_conj]

theorem fwdBin_dft (v : List ℝ) (k : Nat) : fwdBin v k = dft v.length (fun j => v.getD j 0) k := rfl

/-- **C87**, the forward transform: `n` bins, or `n/2 + 1` with the half spectrum, and the bin `k` is the discrete Fourier transform. -/
theorem C87_forward (o : FFTObj) (v : List ℝ) :
    (o.fft v).length = (if o.halfSpectrum then v.length / 2 + 1 else v.length) ∧
    ∀ k (h : k < (o.fft v).length), (o.fft v)[k] = ∑ j ∈ range v.length, (v.getD j 0 : ℂ) * Complex.exp (-(2 * Real.pi * Complex.I * j * k / v.length)) := by
  unfold FFTObj.fft eigenFwd
  cases o.halfSpectrum
  · refine ⟨by simp, ?_⟩
    intro k h
    have hk : k < v.length := by simpa using h
    simp only [Bool.false_eq_true, if_false, List.getElem_map, List.getElem_range, fwdBin_dft]
    change _ = dft v.length (fun j => v.getD j 0) k
    split
    · rfl
    · exact dft_conj _ _ _ hk.le (by omega)
  · refine ⟨by simp, ?_⟩
    intro k h
    simp only [if_true, List.getElem_map, List.getElem_range]
    rfl

theorem sum_roots (n : Nat) (hn : n ≠ 0) (a b : Nat) (ha : a < n) (hb : b < n) :
    ∑ k ∈ range n, Complex.exp (-(2 * Real.pi * Complex.I * a * k / n)) * Complex.exp (2 * Real.pi * Complex.I * b * k / n) =
      if a = b then (n : ℂ) else 0 := by
  have hn' : (n : ℂ) ≠ 0 := by exact_mod_cast hn
  have e : ∀ k : Nat, Complex.exp (-(2 * Real.pi * Complex.I * a * k / n)) * Complex.exp (2 * Real.pi * Complex.I * b * k / n) =
      (Complex.exp (2 * Real.pi * Complex.I * (((b : ℂ) - a) / n))) ^ k := by
    intro k
    rw [← Complex.exp_add, ← Complex.exp_nat_mul]
    congr 1
    field_simp
    ring
  simp only [e]
  by_cases h : a = b
  · subst h
    simp
  · rw [if_neg h]
    set z := Complex.exp (2 * Real.pi * Complex.I * (((b : ℂ) - a) / n)) with hz
    have hzn : z ^ n = 1 := by
      rw [hz, ← Complex.exp_nat_mul, Complex.exp_eq_one_iff]
      exact ⟨(b : ℤ) - a, by push_cast; field_simp⟩
    have hz1 : z ≠ 1 := by
      intro h1
      rw [hz, Complex.exp_eq_one_iff] at h1
      obtain ⟨m, hm⟩ := h1
      have h2 : ((b : ℂ) - a) / n = m := by
        have h3 : (2 * Real.pi * Complex.I : ℂ) ≠ 0 := Complex.two_pi_I_ne_zero
        have := hm
        rw [mul_comm (m : ℂ)] at this
        exact mul_left_cancel₀ h3 this
      rw [div_eq_iff hn'] at h2
      have h4 : (b : ℤ) - a = m * n := by exact_mod_cast h2
      have h5 : m = 0 := by
        by_contra h6
        have h7 : 1 ≤ |m| := Int.one_le_abs h6
        have h8 : |(b : ℤ) - a| < n := by rw [abs_lt]; constructor <;> omega
        rw [h4, abs_mul, Nat.abs_cast] at h8
        have h9 : (1 : ℤ) * n ≤ |m| * n := mul_le_mul_of_nonneg_right h7 (by omega)
        omega
      rw [h5] at h4
      omega
    have := mul_neg_geom_sum z n
    rw [hzn, sub_self] at this
    exact (mul_eq_zero.1 this).resolve_left (sub_ne_zero.2 hz1.symm)

theorem inverse_dft (n : Nat) (hn : n ≠ 0) (v : Nat → ℝ) (j : Nat) (hj : j < n) :
    ∑ k ∈ range n, dft n v k * Complex.exp (2 * Real.pi * Complex.I * j * k / n) = n * v j := by
  unfold dft
  simp only [sum_mul]
  rw [sum_comm]
  have : ∀ i ∈ range n, ∑ k ∈ range n, (v i : ℂ) * Complex.exp (-(2 * Real.pi * Complex.I * i * k / n)) *
      Complex.exp (2 * Real.pi * Complex.I * j * k / n) = if i = j then (n : ℂ) * v j else 0 := by
    intro i hi
    simp only [mul_assoc ((v i : ℂ)), ← mul_sum]
    rw [sum_roots n hn i j (mem_range.1 hi) hj]
    split
    · rename_i h
      subst h
      ring
    · simp
  rw [sum_congr rfl this]
  simp [hj]

theorem eigenInv_ok (half unscaled : Bool) (v : List ℝ) (h0 : v ≠ []) (h : half = true → v.length % 2 = 0) :
    eigenInv half unscaled (eigenFwd half v) = if unscaled then v.map (fun x => (v.length : ℝ) * x) else v := by
  have hn : v.length ≠ 0 := by simpa using h0
  have hlen : (if half then 2 * ((eigenFwd half v).length - 1) else (eigenFwd half v).length) = v.length := by
    cases half
    · simp [eigenFwd]
    · have := h rfl
      simp [eigenFwd]
      omega
  have hbin : ∀ k, k < v.length / 2 + 1 → (eigenFwd half v).getD k 0 = dft v.length (fun j => v.getD j 0) k := by
    intro k hk
    cases half
    · have hk' : k < v.length ∨ v.length = 1 ∧ k = 1 ∨ v.length = 0 := by omega
      rcases hk' with hk' | hk' | hk'
      · simp only [eigenFwd, Bool.false_eq_true, if_false, List.getD, List.getElem?_map, List.getElem?_range hk', Option.map_some, Option.getD_some,
          if_pos hk, fwdBin_dft]
      · omega
      · omega
    · simp [eigenFwd, List.getD, hk, fwdBin_dft]
  unfold eigenInv
  simp only [hlen]
  have hr : ∀ k, k < v.length → reflected v.length (eigenFwd half v) k = dft v.length (fun j => v.getD j 0) k := by
    intro k hk
    unfold reflected
    split
    · rename_i h1
      exact hbin k h1
    · rw [hbin _ (by omega)]
      exact dft_conj _ _ _ hk.le hn
  have hs : ∀ j, j < v.length → (∑ k ∈ range v.length, reflected v.length (eigenFwd half v) k *
      Complex.exp (2 * Real.pi * Complex.I * j * k / v.length)).re = v.length * v.getD j 0 := by
    intro j hj
    rw [sum_congr rfl (fun k hk => by rw [hr k (mem_range.1 hk)]), inverse_dft _ hn _ _ hj, ← Complex.ofReal_natCast, ← Complex.ofReal_mul,
      Complex.ofReal_re]
  have hn' : (v.length : ℝ) ≠ 0 := by exact_mod_cast hn
  apply List.ext_getElem
  · cases unscaled <;> simp
  · intro j h1 h2
    have hj : j < v.length := by simpa using h1
    have e : v.getD j 0 = v[j] := by simp [List.getD, List.getElem?_eq_getElem hj]
    cases unscaled
    · simp only [List.getElem_map, List.getElem_range, Bool.false_eq_true, if_false, hs j hj, e]
      field_simp
    · simp only [List.getElem_map, List.getElem_range, if_true, hs j hj, e]

/-- **C87**, the round trip: with the full spectrum, and with the half spectrum for an even number of samples, `ifft` after `fft` gives the samples back
(with scaling; `n` times the samples without). -/
theorem C87_round_trip_partial (o : FFTObj) (v : List ℝ) (h0 : v ≠ []) (h : o.halfSpectrum = true → v.length % 2 = 0) :
    o.ifft (o.fft v) = if o.unscaled then v.map (fun x => (v.length : ℝ) * x) else v := eigenInv_ok _ _ v h0 h

example : [(1 : ℝ), 2, 3] ≠ [] ∧ ((FFTObj.mk false false).halfSpectrum = true → [(1 : ℝ), 2, 3].length % 2 = 0) := by simp

/-- C87, what is missing: with the half spectrum, no odd number of samples survives the round trip: one sample is lost. -/
theorem C87_refuted (o : FFTObj) (v : List ℝ) (hh : o.halfSpectrum = true) (h : v.length % 2 = 1) :
    (o.ifft (o.fft v)).length = v.length - 1 ∧ o.ifft (o.fft v) ≠ v := by
  have : (o.ifft (o.fft v)).length = v.length - 1 := by
    simp [FFTObj.ifft, FFTObj.fft, eigenInv, eigenFwd, hh]
    omega
  exact ⟨this, fun he => by rw [he] at this; omega⟩

example : (FFTObj.mk true false).halfSpectrum = true ∧ [(1 : ℝ), 2, 3].length % 2 = 1 := by simp

/-- **C87**, the flags: after any sequence of calls, the spectrum is halved exactly when the last of the calls about it was `HalfSpectrumON`, and the
result is unscaled exactly when the last of the calls about it was `ScalingOFF`. -/
theorem C87_flags (o : FFTObj) (h : List FFTObj.Call) :
    (h.foldl FFTObj.call o).halfSpectrum = ((h.reverse.find? fun c => c = .halfSpectrumON ∨ c = .halfSpectrumOFF).elim o.halfSpectrum
      fun c => decide (c = .halfSpectrumON)) ∧
    (h.foldl FFTObj.call o).unscaled = ((h.reverse.find? fun c => c = .scalingON ∨ c = .scalingOFF).elim o.unscaled
      fun c => decide (c = .scalingOFF)) := by
  induction h using List.reverseRecOn with
  | nil => simp
  | append_singleton l c ih =>
    rw [List.foldl_append, List.reverse_append]
    cases c <;> simp_all [FFTObj.call]

/-- **C88**: `Pow2(p)` is `2^p` for `p < 32`, and undefined beyond. -/
theorem C88_pow2 (p : Nat) : (p < 32 → pow2 p = .ok (2 ^ p)) ∧ (32 ≤ p → pow2 p = .ub) := by
  unfold pow2
  constructor
  · intro h
    rw [if_pos h, Nat.one_shiftLeft]
  · intro h
    rw [if_neg (by omega)]

example : pow2 9 = .ok 512 ∧ pow2 31 = .ok 2147483648 := by decide

end MU
