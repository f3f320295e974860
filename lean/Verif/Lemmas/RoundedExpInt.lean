import Verif.Model.RoundedSpecialFunctions
import Verif.Lemmas.ExpIntModel
import Verif.Lemmas.Rounding
import Verif.Props.Rounded

/-!
# Rounding errors of the exponential integrals
-/

set_option linter.unusedSectionVars false

namespace MU
open Spec

/-- The inverse of a number known up to `k` roundings. -/
theorem Near.inv_near {k : ℕ} (hk : k ≤ 2 ^ 24) {D d : ℝ} (h : |d - D| ≤ gam k * |D|) : Near (k + 1) |D⁻¹| D⁻¹ d⁻¹ := by
  refine ⟨?_, le_rfl⟩
  rcases eq_or_ne D 0 with h0 | h0
  · rw [h0] at h ⊢
    simp at h
    rw [h]
    simp
  have hD : 0 < |D| := abs_pos.2 h0
  have hu := uround_pos
  have hg0 := gam_nonneg k
  have hg : gam k ≤ (2 ^ 24 + 1) * uround := (gam_le (hk.trans (by norm_num))).trans (by
    gcongr
    exact_mod_cast hk)
  have hg1 : gam k ≤ 1 / 4 := hg.trans (by unfold uround; norm_num)
  have hgg : gam k * gam k * (1 + uround) ≤ uround := by
    calc gam k * gam k * (1 + uround) ≤ gam k * ((2 ^ 24 + 1) * uround) * 2 := by
          gcongr
          unfold uround
          norm_num
      _ ≤ ((2 ^ 24 + 1) * uround) * ((2 ^ 24 + 1) * uround) * 2 := by gcongr
      _ ≤ uround := by unfold uround; norm_num
  have h3 : (1 - gam k) * |D| ≤ |d| := by
    have := abs_add_le (D - d) d
    rw [sub_add_cancel, abs_sub_comm] at this
    linarith
  have h4 : 0 < |d| := lt_of_lt_of_le (by apply mul_pos <;> linarith) h3
  have h5 : d ≠ 0 := abs_pos.1 h4
  rw [show d⁻¹ - D⁻¹ = (D - d) * d⁻¹ * D⁻¹ by field_simp, abs_mul, abs_mul, abs_inv d, abs_sub_comm]
  refine mul_le_mul_of_nonneg_right ?_ (abs_nonneg _)
  rw [← div_eq_mul_inv, div_le_iff₀ h4]
  refine h.trans ?_
  have h6 : gam (k + 1) = gam k + uround + gam k * uround := by rw [gam_add, gam_one]
  have h7 : gam (k + 1) * ((1 - gam k) * |D|) ≤ gam (k + 1) * |d| := mul_le_mul_of_nonneg_left h3 (gam_nonneg _)
  have h8 : gam k ≤ gam (k + 1) * (1 - gam k) := by rw [h6]; nlinarith
  nlinarith

theorem Near.literal {rnd : ℝ → ℝ} (hr : ToNearest rnd) (c : ℝ) : Near 1 |c| c (rnd c) := (Near.exact c).round hr

theorem Near.sum_le {k : ℕ} {Q P r : ℝ} (h : Near k Q P r) (hk : k ≤ 2 ^ 26) : |r - P| ≤ (k + 1) / 2 ^ 53 * Q := by
  refine h.err.trans (mul_le_mul_of_nonneg_right ((gam_le hk).trans (le_of_eq ?_)) h.nonneg)
  unfold uround
  ring

namespace ExpInt
open PolyCheck

/-- `exp` and `log` within one unit in the last place. -/
def _root_.MU.ELib.Close (M : ELib) : Prop :=
  (∀ t, |M.exp t - Real.exp t| ≤ Real.exp t / 2 ^ 52) ∧ ∀ t, 0 < t → |M.log t - Real.log t| ≤ |Real.log t| / 2 ^ 52

theorem gam_two_le : 1 / 2 ^ 52 ≤ gam 2 := by
  have : gam 2 = 2 * uround + uround ^ 2 := by unfold gam; ring
  rw [this]
  have := sq_nonneg uround
  unfold uround at *
  linarith

variable {rnd : ℝ → ℝ} {M : ELib}

theorem exp_near (hM : ELib.Close M) (t : ℝ) : Near 2 (Real.exp t) (Real.exp t) (M.exp t) := by
  refine ⟨(hM.1 t).trans ?_, by rw [abs_of_pos (Real.exp_pos t)]⟩
  rw [div_eq_mul_one_div, mul_comm]
  exact mul_le_mul_of_nonneg_right gam_two_le (Real.exp_pos t).le

theorem log_near (hM : ELib.Close M) {t : ℝ} (ht : 0 < t) : Near 2 |Real.log t| (Real.log t) (M.log t) := by
  refine ⟨(hM.2 t ht).trans ?_, le_rfl⟩
  rw [div_eq_mul_one_div, mul_comm]
  exact mul_le_mul_of_nonneg_right gam_two_le (abs_nonneg _)

/-! ## Sums of powers -/

/-- The polynomial and the sum of its terms in magnitude. -/
noncomputable def psum (l : List ℝ) (x : ℝ) : ℝ := ∑ i ∈ Finset.range l.length, l.getD i 0 * x ^ i
noncomputable def psize (l : List ℝ) (x : ℝ) : ℝ := ∑ i ∈ Finset.range l.length, |l.getD i 0| * |x| ^ i

theorem getD_map_rnd (hr : ToNearest rnd) (l : List ℝ) (i : Nat) : (l.map rnd).getD i 0 = rnd (l.getD i 0) := by
  have h0 : rnd 0 = 0 := toNearest_double hr double_zero
  by_cases h : i < l.length
  · simp [List.getD, h]
  · simp [List.getD, not_lt.1 h, h0]

theorem horner_near (hr : ToNearest rnd) {l : List ℝ} (h : l ≠ []) (x : ℝ) :
    ∃ v, hornerR rnd (l.map rnd) x = .ok v ∧ Near (2 * (l.length - 1) + 1) (psize l x) (psum l x) v := by
  obtain ⟨v, hv, he⟩ := C104_horner hr (cs := l.map rnd) (by simpa using h) x
  refine ⟨v, hv, ?_⟩
  rw [List.length_map] at he
  have hg : ((1 + 1 / 2 ^ 53) ^ (2 * (l.length - 1)) - 1 : ℝ) = gam (2 * (l.length - 1)) := rfl
  rw [hg] at he
  set k := 2 * (l.length - 1)
  have hu := uround_nonneg
  have hs : |psum l x| ≤ psize l x := by
    refine (Finset.abs_sum_le_sum_abs _ _).trans (Finset.sum_le_sum fun i _ => ?_)
    rw [abs_mul, abs_pow]
  have h1 : ∀ i, |rnd (l.getD i 0) - l.getD i 0| ≤ uround * |l.getD i 0| := fun i => by
    have := (Near.literal hr (l.getD i 0)).err
    rwa [gam_one] at this
  have h2 : |∑ i ∈ Finset.range l.length, (l.map rnd).getD i 0 * x ^ i - psum l x| ≤ uround * psize l x := by
    rw [psum, ← Finset.sum_sub_distrib, psize, Finset.mul_sum]
    refine (Finset.abs_sum_le_sum_abs _ _).trans (Finset.sum_le_sum fun i _ => ?_)
    rw [getD_map_rnd hr, ← sub_mul, abs_mul, abs_pow, ← mul_assoc]
    exact mul_le_mul_of_nonneg_right (h1 i) (by positivity)
  have h3 : ∑ i ∈ Finset.range l.length, |(l.map rnd).getD i 0| * |x| ^ i ≤ (1 + uround) * psize l x := by
    rw [psize, Finset.mul_sum]
    refine Finset.sum_le_sum fun i _ => ?_
    rw [getD_map_rnd hr, ← mul_assoc]
    refine mul_le_mul_of_nonneg_right ?_ (by positivity)
    have := abs_add_le (rnd (l.getD i 0) - l.getD i 0) (l.getD i 0)
    rw [sub_add_cancel] at this
    linarith [h1 i]
  refine ⟨?_, hs⟩
  have h4 := abs_sub_le v (∑ i ∈ Finset.range l.length, (l.map rnd).getD i 0 * x ^ i) (psum l x)
  have h5 := mul_le_mul_of_nonneg_left h3 (gam_nonneg k)
  rw [gam_add, gam_one]
  linarith

/-- The powers of `1 / x` of the loop. -/
noncomputable def invPow (rnd : ℝ → ℝ) (x : ℝ) : Nat → ℝ
  | 0 => 1
  | k + 1 => rnd (invPow rnd x k / x)

/-- The partial sums of the loop. -/
noncomputable def invSum (rnd : ℝ → ℝ) (l : List ℝ) (x : ℝ) : Nat → ℝ
  | 0 => 0
  | k + 1 => rnd (invSum rnd l x k + rnd (rnd (l.getD k 0) * invPow rnd x k))

theorem invPow_near (hr : ToNearest rnd) (x : ℝ) (k : Nat) : Near k (|x⁻¹| ^ k) (x⁻¹ ^ k) (invPow rnd x k) := by
  induction k with
  | zero => simpa [invPow] using Near.exact (1 : ℝ)
  | succ k ih =>
    have := (ih.mul (Near.exact x⁻¹)).round hr
    rw [← pow_succ, ← pow_succ, ← div_eq_mul_inv] at this
    exact this

theorem invSum_near (hr : ToNearest rnd) (l : List ℝ) (x : ℝ) (k : Nat) :
    Near (k + 2) (∑ i ∈ Finset.range k, |l.getD i 0| * |x⁻¹| ^ i) (∑ i ∈ Finset.range k, l.getD i 0 * x⁻¹ ^ i) (invSum rnd l x k) := by
  induction k with
  | zero => exact ⟨by simp [invSum], by simp⟩
  | succ k ih =>
    have h1 := (((Near.literal hr (l.getD k 0)).mul (invPow_near hr x k)).round hr).upto (l := k + 2) (by omega)
    have := (ih.add h1).round hr
    rw [Finset.sum_range_succ, Finset.sum_range_succ]
    exact this

theorem inverse_near (hr : ToNearest rnd) {l : List ℝ} {n : Nat} (h : l.length = n + 1) {x : ℝ} (hx : x ≠ 0) :
    ∃ v, inverseSumR rnd (l.map rnd) x n = .ok v ∧ Near (n + 3) (psize l x⁻¹) (psum l x⁻¹) v := by
  refine ⟨invSum rnd l x (n + 1), ?_, ?_⟩
  · unfold inverseSumR
    have := forRange_ok (lo := 0) (hi := n + 1) (Nat.zero_le _) (f := fun j (s : ℝ × ℝ) => do
      let cj ← vAt (l.map rnd) j
      let xn ← rdivR rnd s.2 x
      return (rnd (s.1 + rnd (cj * s.2)), xn)) (fun m => (invSum rnd l x m, invPow rnd x m)) (by
        intro i _ hi
        rw [vAt_getD (by rw [List.length_map]; omega), Res.ok_bind, getD_map_rnd hr, rdivR, rdiv_ok hx, Res.ok_bind]
        rfl)
    simp only [invSum, invPow] at this ⊢
    rw [this]
    rfl
  · rw [psize, psum, h]
    exact invSum_near hr l x (n + 1)

theorem psum_map {l : List ℝ} {L : List ℤ} {c : ℝ} (hl : l = L.map fun (a : ℤ) => (a : ℝ) / c) (hc : c ≠ 0) (x : ℝ) : psum l x = pev L x / c := by
  rw [← sum_map_pev c L x hc, psum, hl, List.length_map]

theorem psize_pos {l : List ℝ} (h : ∀ a ∈ l, 0 ≤ a) {x : ℝ} (hx : 0 ≤ x) : psize l x = psum l x := by
  refine Finset.sum_congr rfl fun i hi => ?_
  rw [abs_of_nonneg hx, abs_of_nonneg]
  have hi := Finset.mem_range.1 hi
  have : l.getD i 0 = l[i] := by simp [List.getD, hi]
  rw [this]
  exact h _ (List.getElem_mem hi)

theorem psize_neg {l : List ℝ} (h : ∀ a ∈ l, a ≤ 0) {x : ℝ} (hx : 0 ≤ x) : psize l x = -psum l x := by
  rw [psum, ← Finset.sum_neg_distrib]
  refine Finset.sum_congr rfl fun i hi => ?_
  have hi := Finset.mem_range.1 hi
  rw [abs_of_nonneg hx, abs_of_nonpos, neg_mul]
  have : l.getD i 0 = l[i] := by simp [List.getD, hi]
  rw [this]
  exact h _ (List.getElem_mem hi)

/-- A quotient, rounded. -/
theorem div_near (hr : ToNearest rnd) {j k : ℕ} (hk : k ≤ 2 ^ 24) {Q N n D d : ℝ} (hN : Near j Q N n) (hD : Near k |D| D d) (h0 : D ≠ 0) :
    rdivR rnd n d = .ok (rnd (n / d)) ∧ Near (j + (k + 1) + 1) (Q / |D|) (N / D) (rnd (n / d)) := by
  have hi := Near.inv_near hk hD.err
  have hd : d ≠ 0 := by
    intro h
    have h1 := hD.err
    rw [h, zero_sub, abs_neg] at h1
    have h2 : gam k < 1 := lt_of_le_of_lt (gam_le (hk.trans (by norm_num))) (by
      have : (k : ℝ) ≤ 2 ^ 24 := by exact_mod_cast hk
      calc ((k : ℝ) + 1) * uround ≤ (2 ^ 24 + 1) * uround := by gcongr; exact uround_nonneg
        _ < 1 := by unfold uround; norm_num)
    have h3 := abs_pos.2 h0
    nlinarith
  refine ⟨by rw [rdivR, rdiv_ok hd]; rfl, ?_⟩
  have := (hN.mul hi).round hr
  rwa [abs_inv, ← div_eq_mul_inv, ← div_eq_mul_inv, ← div_eq_mul_inv] at this

theorem isCloseZeroR_iff (hr : ToNearest rnd) {x : ℝ} (hx : Double x) : isCloseZeroR rnd x ↔ |x| ≤ rnd 1e-8 := by
  have h0 : rnd 0 = 0 := toNearest_double hr double_zero
  rw [isCloseZeroR, sub_zero, toNearest_double hr hx, abs_zero, mul_zero, h0, add_zero, toNearest_double hr (hr _).1]

end ExpInt
end MU
