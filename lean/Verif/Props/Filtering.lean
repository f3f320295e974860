import Verif.Props.Fft
import Verif.Props.Spectrum

set_option linter.unusedSectionVars false

/-!
# C185: filtering through the spectrum

What products, phases and sums of the bins of a spectrum mean for the signal.
-/

namespace MU

open Finset Spec

/-- The circular convolution of two signals of `n` samples. -/
def Spec.circular (n : ℕ) (v w : List ℝ) : List ℝ :=
  (List.range n).map fun j => ∑ i ∈ range n, v.getD i 0 * w.getD ((j + n - i) % n) 0

/-- The convolution of two sequences: the coefficients of the product of the polynomials whose coefficients they are. -/
def Spec.convolved (f g : List ℝ) (j : ℕ) : ℝ := ∑ i ∈ range (j + 1), f.getD i 0 * g.getD (j - i) 0

/-- The phase `exp(-2πi a k / n)`. -/
noncomputable def ez (n k a : ℕ) : ℂ := Complex.exp (-(2 * Real.pi * Complex.I * a * k / n))

theorem ez_add (n k a b : ℕ) : ez n k (a + b) = ez n k a * ez n k b := by
  unfold ez
  rw [← Complex.exp_add]
  congr 1
  push_cast
  ring

theorem ez_turns {n : ℕ} (hn : n ≠ 0) (k q : ℕ) : ez n k (n * q) = 1 := by
  unfold ez
  have h : (n : ℂ) ≠ 0 := by exact_mod_cast hn
  rw [Complex.exp_eq_one_iff]
  exact ⟨-(q * k), by push_cast; field_simp⟩

theorem ez_mod {n : ℕ} (hn : n ≠ 0) (k a : ℕ) : ez n k (a % n) = ez n k a := by
  conv_rhs => rw [← Nat.div_add_mod a n, ez_add, ez_turns hn, one_mul]

/-- A delay multiplies the bins by a phase. -/
theorem dft_shift {n : ℕ} (w : ℕ → ℝ) (k i : ℕ) (hi : i < n) :
    dft n (fun j => w ((j + n - i) % n)) k = ez n k i * dft n w k := by
  have hn : n ≠ 0 := by omega
  unfold dft
  rw [mul_sum]
  refine sum_nbij' (fun j => (j + n - i) % n) (fun l => (l + i) % n) ?_ ?_ ?_ ?_ ?_
  · intro j _
    exact mem_range.2 (Nat.mod_lt _ (by omega))
  · intro l _
    exact mem_range.2 (Nat.mod_lt _ (by omega))
  · intro j hj
    have hj := mem_range.1 hj
    have : ((j + n - i) % n + i) % n = (j + n - i + i) % n := by rw [Nat.mod_add_mod]
    change ((j + n - i) % n + i) % n = j
    rw [this, show j + n - i + i = j + n by omega, Nat.add_mod_right, Nat.mod_eq_of_lt hj]
  · intro l hl
    have hl := mem_range.1 hl
    change ((l + i) % n + n - i) % n = l
    rcases Nat.lt_or_ge (l + i) n with h | h
    · rw [Nat.mod_eq_of_lt h, show l + i + n - i = l + n by omega, Nat.add_mod_right, Nat.mod_eq_of_lt hl]
    · have : (l + i) % n = l + i - n := by
        rw [Nat.mod_eq_sub_mod h, Nat.mod_eq_of_lt (by omega)]
      rw [this, show l + i - n + n - i = l by omega, Nat.mod_eq_of_lt hl]
  · intro j hj
    have hj := mem_range.1 hj
    change (w ((j + n - i) % n) : ℂ) * ez n k j = ez n k i * ((w ((j + n - i) % n) : ℂ) * ez n k ((j + n - i) % n))
    have e : ez n k j = ez n k i * ez n k ((j + n - i) % n) := by
      rw [ez_mod hn, ← ez_add, show i + (j + n - i) = j + n * 1 by omega, ez_add, ez_turns hn, mul_one]
    rw [e]
    ring

theorem fft_getElem (o : FFTObj) (v : List ℝ) {k : ℕ} (h : k < (o.fft v).length) : (o.fft v)[k] = dft v.length (fun j => v.getD j 0) k :=
  (C87_forward o v).2 k h

theorem getD_map_range (n : ℕ) (f : ℕ → ℝ) {j : ℕ} (hj : j < n) : ((List.range n).map f).getD j 0 = f j := by
  simp [List.getD, hj]

theorem dft_congr {n : ℕ} {f g : ℕ → ℝ} (h : ∀ j, j < n → f j = g j) (k : ℕ) : dft n f k = dft n g k := by
  unfold dft
  exact sum_congr rfl fun j hj => by rw [h j (mem_range.1 hj)]

/-- **C185**, products: the product of the spectra of two signals of the same length is the spectrum of their circular convolution. -/
theorem C185_product (o : FFTObj) (v w : List ℝ) (h : v.length = w.length) :
    o.fft (circular v.length v w) = List.zipWith (fun x y => x * y) (o.fft v) (o.fft w) := by
  set n := v.length with hn
  have hc : (circular n v w).length = n := by simp [circular]
  have lc := (C87_forward o (circular n v w)).1
  have lv := (C87_forward o v).1
  have lw := (C87_forward o w).1
  rw [hc] at lc
  rw [← hn] at lv
  rw [← h] at lw
  apply List.ext_getElem
  · rw [List.length_zipWith, lc, lv, lw, min_self]
  · intro k h1 h2
    rw [fft_getElem, List.getElem_zipWith, fft_getElem, fft_getElem, hc, ← h]
    rw [dft_congr (f := fun j => (circular n v w).getD j 0) (g := fun j => ∑ i ∈ range n, v.getD i 0 * w.getD ((j + n - i) % n) 0)
      (fun j hj => getD_map_range n _ hj)]
    have e : ∀ i ∈ range n, (v.getD i 0 : ℂ) * (ez n k i * dft n (fun j => w.getD j 0) k) =
        ∑ j ∈ range n, ((v.getD i 0 * w.getD ((j + n - i) % n) 0 : ℝ) : ℂ) * ez n k j := by
      intro i hi
      rw [← dft_shift (fun j => w.getD j 0) k i (mem_range.1 hi)]
      unfold dft
      rw [mul_sum]
      refine sum_congr rfl fun j _ => ?_
      unfold ez
      push_cast
      ring
    calc dft n (fun j => ∑ i ∈ range n, v.getD i 0 * w.getD ((j + n - i) % n) 0) k
        = ∑ j ∈ range n, ∑ i ∈ range n, ((v.getD i 0 * w.getD ((j + n - i) % n) 0 : ℝ) : ℂ) * ez n k j := by
          unfold dft
          refine sum_congr rfl fun j _ => ?_
          rw [Complex.ofReal_sum, sum_mul]
          rfl
      _ = ∑ i ∈ range n, ∑ j ∈ range n, ((v.getD i 0 * w.getD ((j + n - i) % n) 0 : ℝ) : ℂ) * ez n k j := sum_comm
      _ = ∑ i ∈ range n, (v.getD i 0 : ℂ) * (ez n k i * dft n (fun j => w.getD j 0) k) := (sum_congr rfl e).symm
      _ = dft n (fun j => v.getD j 0) k * dft n (fun j => w.getD j 0) k := by
          conv_rhs => rw [dft, sum_mul]
          refine sum_congr rfl fun i _ => ?_
          unfold ez
          ring

/-- **C185**, filtering: transforming two signals of the same length, multiplying the spectra bin by bin and transforming back gives their circular
convolution (`n` times that without scaling). With the half spectrum the number of samples must be even. -/
theorem C185_filter (o : FFTObj) (v w : List ℝ) (h : v.length = w.length) (h0 : v ≠ []) (he : o.halfSpectrum = true → v.length % 2 = 0) :
    o.ifft (List.zipWith (fun x y => x * y) (o.fft v) (o.fft w)) =
      if o.unscaled then (circular v.length v w).map (fun x => (v.length : ℝ) * x) else circular v.length v w := by
  have hc : (circular v.length v w).length = v.length := by simp [circular]
  rw [← C185_product o v w h, C87_round_trip_partial o _ (by intro h1; rw [h1] at hc; exact h0 (List.length_eq_zero_iff.1 hc.symm)) (by rw [hc]; exact he), hc]

/-- **C185**, padding: two signals filled with zeros to a common length of at least the sum of their lengths less one have for circular convolution
their convolution. -/
theorem C185_padding (o : FFTObj) (f g : List ℝ) {N : ℕ} (hN : f.length + g.length ≤ N + 1) (hf : f ≠ []) (hg : g ≠ [])
    (he : o.halfSpectrum = true → N % 2 = 0) (hu : o.unscaled = false) :
    o.ifft (List.zipWith (fun x y => x * y) (o.fft (f ++ List.replicate (N - f.length) 0)) (o.fft (g ++ List.replicate (N - g.length) 0))) =
      (List.range N).map (convolved f g) := by
  have f1 : 1 ≤ f.length := List.length_pos_iff.2 hf
  have g1 : 1 ≤ g.length := List.length_pos_iff.2 hg
  have l1 : (f ++ List.replicate (N - f.length) 0).length = N := by simp; omega
  have l2 : (g ++ List.replicate (N - g.length) 0).length = N := by simp; omega
  have pad : ∀ (u : List ℝ) m i, (u ++ List.replicate m 0).getD i 0 = u.getD i 0 := by
    intro u m i
    rcases Nat.lt_or_ge i u.length with h | h
    · simp [List.getD, List.getElem?_append_left h]
    · simp only [List.getD, List.getElem?_append_right h, List.getElem?_replicate, List.getElem?_eq_none h, Option.getD_none]
      split <;> rfl
  have big : ∀ (u : List ℝ) {i}, u.length ≤ i → u.getD i 0 = 0 := by
    intro u i h
    simp [List.getD, List.getElem?_eq_none h]
  rw [C185_filter o _ _ (l1.trans l2.symm) (by intro h; rw [h] at l1; simp at l1; omega) (by rw [l1]; exact he), hu, l1]
  simp only [Bool.false_eq_true, if_false]
  unfold circular
  refine List.map_congr_left fun j hj => ?_
  have hj : j < N := List.mem_range.1 hj
  simp only [pad]
  unfold convolved
  rw [← sum_subset (range_subset_range.2 (show j + 1 ≤ N by omega))]
  · refine sum_congr rfl fun i hi => ?_
    have hi := mem_range.1 hi
    rw [show j + N - i = (j - i) + N by omega, Nat.add_mod_right, Nat.mod_eq_of_lt (by omega)]
  · intro i h1 h2
    have h1 := mem_range.1 h1
    have h2 : j + 1 ≤ i := by simpa using h2
    rw [Nat.mod_eq_of_lt (by omega)]
    rcases Nat.lt_or_ge i f.length with h | h
    · rw [big g (by omega), mul_zero]
    · rw [big f h, zero_mul]

/-- **C185**, delays: delaying a periodic signal by `d` samples multiplies the bin `k` by `exp(-2πi d k / n)`. -/
theorem C185_delay (o : FFTObj) (v : List ℝ) {d : ℕ} (hd : d < v.length) :
    (o.fft ((List.range v.length).map fun j => v.getD ((j + v.length - d) % v.length) 0)).length = (o.fft v).length ∧
    ∀ k (h1 : k < (o.fft ((List.range v.length).map fun j => v.getD ((j + v.length - d) % v.length) 0)).length) (h2 : k < (o.fft v).length),
      (o.fft ((List.range v.length).map fun j => v.getD ((j + v.length - d) % v.length) 0))[k] =
        Complex.exp (-(2 * Real.pi * Complex.I * d * k / v.length)) * (o.fft v)[k] := by
  have hl : ((List.range v.length).map fun j => v.getD ((j + v.length - d) % v.length) 0).length = v.length := by simp
  refine ⟨?_, fun k h1 h2 => ?_⟩
  · rw [(C87_forward o _).1, (C87_forward o v).1, hl]
  · rw [fft_getElem, fft_getElem, hl, dft_congr (fun j hj => getD_map_range v.length _ hj)]
    exact dft_shift (fun j => v.getD j 0) k d hd

/-- **C185**, the mean and the size of the bins: the bin 0 is the sum of the samples, and no bin is larger than the sum of their magnitudes. -/
theorem C185_mean (o : FFTObj) (v : List ℝ) (h0 : v ≠ []) :
    (o.fft v)[0]? = some ((v.sum : ℝ) : ℂ) ∧ ∀ X ∈ o.fft v, ‖X‖ ≤ (v.map fun x => |x|).sum := by
  have hn : 1 ≤ v.length := List.length_pos_iff.2 h0
  have hs : ∀ (u : List ℝ), u.sum = ∑ j ∈ range u.length, u.getD j 0 := by
    intro u
    rw [← sum_map_range']
    congr 1
    apply List.ext_getElem
    · simp
    · intro i h1 h2
      simp [List.getD, List.getElem?_eq_getElem h1]
  have hlen : 0 < (o.fft v).length := by
    rw [(C87_forward o v).1]
    split <;> omega
  constructor
  · rw [List.getElem?_eq_getElem hlen, fft_getElem, hs v]
    unfold dft
    simp
  · intro X hX
    obtain ⟨k, hk, rfl⟩ := List.getElem_of_mem hX
    rw [fft_getElem, hs]
    unfold dft
    refine (norm_sum_le _ _).trans ?_
    rw [List.length_map]
    refine sum_le_sum fun j hj => ?_
    have hj := mem_range.1 hj
    rw [norm_mul, Complex.norm_exp]
    have : (-(2 * (Real.pi : ℂ) * Complex.I * j * k / v.length)).re = 0 := by
      rw [show (-(2 * (Real.pi : ℂ) * Complex.I * j * k / v.length)) = ((-(2 * Real.pi * j * k / v.length) : ℝ) : ℂ) * Complex.I by push_cast; ring]
      simp
    rw [this, Real.exp_zero, mul_one]
    simp [List.getD, hj]

/-- The sum over a symmetric spectrum from its first half. -/
theorem sum_symmetric {n : ℕ} (hn : 1 ≤ n) (E : ℕ → ℝ) (hE : ∀ k, 0 < k → k < n → E (n - k) = E k) :
    ∑ k ∈ range n, E k = ∑ k ∈ range (n / 2 + 1), (if k = 0 ∨ 2 * k = n then 1 else 2) * E k := by
  have h1 : ∑ k ∈ range n, E k = ∑ k ∈ range (n / 2 + 1), E k + ∑ k ∈ Ico (n / 2 + 1) n, E k := by
    rw [range_eq_Ico, range_eq_Ico, sum_Ico_consecutive _ (by omega)]
    omega
  have h2 : ∑ k ∈ Ico (n / 2 + 1) n, E k = ∑ k ∈ Ico 1 (n - n / 2), E k := by
    refine sum_nbij' (fun k => n - k) (fun k => n - k) ?_ ?_ ?_ ?_ ?_
    · intro k hk
      have := mem_Ico.1 hk
      exact mem_Ico.2 ⟨by omega, by omega⟩
    · intro k hk
      have := mem_Ico.1 hk
      exact mem_Ico.2 ⟨by omega, by omega⟩
    · intro k hk
      have := mem_Ico.1 hk
      change n - (n - k) = k
      omega
    · intro k hk
      have := mem_Ico.1 hk
      change n - (n - k) = k
      omega
    · intro k hk
      have := mem_Ico.1 hk
      exact (hE k (by omega) (by omega)).symm
  have h3 : ∑ k ∈ range (n / 2 + 1), (if k = 0 ∨ 2 * k = n then 1 else 2) * E k =
      ∑ k ∈ range (n / 2 + 1), E k + ∑ k ∈ range (n / 2 + 1), if k = 0 ∨ 2 * k = n then 0 else E k := by
    rw [← sum_add_distrib]
    refine sum_congr rfl fun k _ => ?_
    split_ifs <;> ring
  have h4 : ∑ k ∈ range (n / 2 + 1), (if k = 0 ∨ 2 * k = n then 0 else E k) = ∑ k ∈ Ico 1 (n - n / 2), E k := by
    rw [← sum_subset (s₁ := Ico 1 (n - n / 2)) (s₂ := range (n / 2 + 1))]
    · refine sum_congr rfl fun k hk => ?_
      have := mem_Ico.1 hk
      rw [if_neg (by omega)]
    · intro k hk
      have := mem_Ico.1 hk
      exact mem_range.2 (by omega)
    · intro k hk hk'
      have := mem_range.1 hk
      have h5 : ¬ (1 ≤ k ∧ k < n - n / 2) := fun h => hk' (mem_Ico.2 h)
      rw [if_pos (by omega)]
  rw [h1, h2, h3, h4]

/-- **C185**, the energy of a half spectrum: the bins count twice, except the first one and, for an even number of samples, the last one. -/
theorem C185_energy (o : FFTObj) (hh : o.halfSpectrum = true) (v : List ℝ) (h0 : v ≠ []) :
    ∑ k ∈ range (v.length / 2 + 1), (if k = 0 ∨ 2 * k = v.length then 1 else 2) * Complex.normSq ((o.fft v).getD k 0) =
      v.length * (v.map (fun x => x ^ 2)).sum := by
  have hn : 1 ≤ v.length := List.length_pos_iff.2 h0
  have hf := C118_parseval ⟨false, false⟩ rfl v
  have l1 := (C87_forward ⟨false, false⟩ v).1
  have l2 := (C87_forward o v).1
  rw [hh] at l2
  simp only [Bool.false_eq_true, if_false, if_true] at l1 l2
  set E : ℕ → ℝ := fun k => Complex.normSq (dft v.length (fun j => v.getD j 0) k) with hE
  have e1 : (((FFTObj.mk false false).fft v).map Complex.normSq).sum = ∑ k ∈ range v.length, E k := by
    rw [← sum_map_range']
    congr 1
    apply List.ext_getElem
    · simp [l1]
    · intro k h1 h2
      rw [List.getElem_map, fft_getElem]
      simp [hE]
  have e2 : ∀ k ∈ range (v.length / 2 + 1), (if k = 0 ∨ 2 * k = v.length then 1 else 2) * Complex.normSq ((o.fft v).getD k 0) =
      (if k = 0 ∨ 2 * k = v.length then 1 else 2) * E k := by
    intro k hk
    have hk : k < (o.fft v).length := by rw [l2]; exact mem_range.1 hk
    rw [List.getD, List.getElem?_eq_getElem hk, Option.getD_some, fft_getElem]
  rw [sum_congr rfl e2, ← sum_symmetric hn E, ← e1, hf]
  intro k h1 h2
  simp only [hE]
  rw [← dft_conj v.length (fun j => v.getD j 0) k h2.le (by omega), Complex.normSq_conj]

/-- Convolution of two short signals by the transforms of four samples. -/
example (o : FFTObj) (hu : o.unscaled = false) :
    o.ifft (List.zipWith (fun x y => x * y) (o.fft [1, 2, 0, 0]) (o.fft [3, 4, 5, 0])) = [3, 10, 13, 10] := by
  have := C185_padding o [1, 2] [3, 4, 5] (N := 4) (by norm_num) (by simp) (by simp) (by intro; norm_num) hu
  simp only [List.length_cons, List.length_nil, List.replicate, List.cons_append, List.nil_append] at this
  norm_num [List.replicate] at this
  rw [this]
  simp [List.range_succ, convolved, Finset.sum_range_succ, List.getD]
  norm_num

example (o : FFTObj) (hh : o.halfSpectrum = true) : ∑ k ∈ range (4 / 2 + 1), (if k = 0 ∨ 2 * k = 4 then 1 else 2) *
    Complex.normSq ((o.fft [1, 0, 2, -1]).getD k 0) = 4 * 6 := by
  have := C185_energy o hh [1, 0, 2, -1] (by simp)
  norm_num at this ⊢
  exact this

end MU
