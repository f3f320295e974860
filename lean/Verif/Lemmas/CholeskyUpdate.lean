import Verif.Model.CholeskyUpdate
import Verif.Lemmas.Cholesky
import Mathlib.Tactic.FieldSimp

/-!
# The update of a Cholesky factor
-/

set_option linter.unusedSectionVars false

namespace MU

open Finset

theorem lltContent_of_some {n : Nat} {a : Nat → Nat → ℝ} (k : Nat) {c : Nat → Nat → ℝ} (h : lltN n a k = some c) :
    lltContent n a k = (c, true) := by
  induction k generalizing c with
  | zero => cases h; rfl
  | succ k ih =>
    simp only [lltN] at h
    cases hb : lltN n a k with
    | none => rw [hb] at h; cases h
    | some b =>
      rw [hb] at h
      have h : lltStep n k b = some c := h
      simp only [lltContent, ih hb, if_true, h]

/-- The columns `< j` are those of the new factor; for the others the products of the old columns have to be completed by `ρ w wᵀ`. -/
structure UpdInv (n : Nat) (a' : Nat → Nat → ℝ) (ρ : ℝ) (m : Nat → Nat → ℝ) (w : Nat → ℝ) (j : Nat) : Prop where
  pos : ∀ l, l < n → 0 < m l l
  done : ∀ i k, k < j → k ≤ i → i < n → ∑ t ∈ range (k + 1), m i t * m k t = a' i k
  rest : ∀ i k, j ≤ k → k ≤ i → i < n → ∑ t ∈ range (k + 1), m i t * m k t + ρ * (w i * w k) = a' i k

/-- One more column. -/
theorem updInv_step {n j : Nat} {a' : Nat → Nat → ℝ} {ρ ρ' : ℝ} {m m' : Nat → Nat → ℝ} {w w' : Nat → ℝ} (hj : j < n)
    (h : UpdInv n a' ρ m w j) (same : ∀ r c, c ≠ j → m' r c = m r c) (pos : 0 < m' j j)
    (col : ∀ i, j ≤ i → i < n → m' i j * m' j j = m i j * m j j + ρ * (w i * w j))
    (tail : ∀ i k, j < k → k ≤ i → i < n → m' i j * m' k j + ρ' * (w' i * w' k) = m i j * m k j + ρ * (w i * w k)) :
    UpdInv n a' ρ' m' w' (j + 1) := by
  have low : ∀ i k, k < j → ∑ t ∈ range (k + 1), m' i t * m' k t = ∑ t ∈ range (k + 1), m i t * m k t := fun i k hk =>
    sum_congr rfl fun t ht => by
      have := mem_range.1 ht
      rw [same i t (by omega), same k t (by omega)]
  constructor
  · intro l hl
    by_cases e : l = j
    · rw [e]; exact pos
    · rw [same l l e]; exact h.pos l hl
  · intro i k hk hki hi
    by_cases e : k = j
    · subst e
      have hr := h.rest i k le_rfl hki hi
      rw [sum_range_succ] at hr ⊢
      have e2 : ∑ t ∈ range k, m' i t * m' k t = ∑ t ∈ range k, m i t * m k t :=
        sum_congr rfl fun t ht => by
          have := mem_range.1 ht
          rw [same i t (by omega), same k t (by omega)]
      rw [e2, col i hki hi]
      linarith
    · rw [low i k (by omega)]
      exact h.done i k (by omega) hki hi
  · intro i k hk hki hi
    have hr := h.rest i k (by omega) hki hi
    have e : ∑ t ∈ range (k + 1), m' i t * m' k t = ∑ t ∈ range (k + 1), m i t * m k t + (m' i j * m' k j - m i j * m k j) := by
      have hmem : j ∈ range (k + 1) := mem_range.2 (by omega)
      rw [← add_sum_erase _ _ hmem, ← add_sum_erase (range (k + 1)) (fun t => m i t * m k t) hmem]
      have : ∑ t ∈ (range (k + 1)).erase j, m' i t * m' k t = ∑ t ∈ (range (k + 1)).erase j, m i t * m k t :=
        sum_congr rfl fun t ht => by rw [same i t (ne_of_mem_erase ht), same k t (ne_of_mem_erase ht)]
      rw [this]
      ring
    rw [e]
    have := tail i k (by omega) hki hi
    linarith

theorem givens_spec {p : ℝ} (t : ℝ) (hp : 0 < p) :
    ∃ c s r, givens p (-t) = (c, s, r) ∧ 0 < r ∧ c * r = p ∧ s * r = t ∧ c ^ 2 + s ^ 2 = 1 := by
  unfold givens
  by_cases h : -t = 0
  · have ht : t = 0 := by linarith
    refine ⟨1, 0, p, ?_, hp, by ring, by rw [ht]; ring, by ring⟩
    rw [if_pos h, if_neg (by linarith), abs_of_pos hp]
  · rw [if_neg h, neg_neg, neg_sq]
    have hpos : 0 < p ^ 2 + t ^ 2 := by positivity
    have hsq := Real.sq_sqrt hpos.le
    have hsp := Real.sqrt_pos.2 hpos
    generalize Real.sqrt (p ^ 2 + t ^ 2) = r at *
    refine ⟨p / r, t / r, r, rfl, hsp, by field_simp, by field_simp, ?_⟩
    field_simp
    linarith

theorem updateStep_inv {n j : Nat} {a' : Nat → Nat → ℝ} {s : Upd} (hj : j < n) (h : UpdInv n a' 1 s.mat s.temp j) :
    UpdInv n a' 1 (updateStep n j s).mat (updateStep n j s).temp (j + 1) := by
  obtain ⟨c, q, r, hg, hr, hc, hs, h1⟩ := givens_spec (s.temp j) (h.pos j hj)
  have mjj : (updateStep n j s).mat j j = r := by simp [updateStep, hg]
  have mij : ∀ i, j < i → i < n → (updateStep n j s).mat i j = c * s.mat i j + q * s.temp i := fun i h1 h2 => by
    simp only [updateStep, hg, if_true]
    rw [if_neg (by omega), if_pos ⟨h1, h2⟩]
  have wi : ∀ i, j < i → i < n → (updateStep n j s).temp i = -q * s.mat i j + c * s.temp i := fun i h1 h2 => by
    simp only [updateStep, hg]
    rw [if_pos ⟨h1, h2⟩]
  refine updInv_step hj h (fun r c hc => by simp [updateStep, hc]) (by rw [mjj]; exact hr) ?_ ?_
  · intro i hji hi
    rw [mjj]
    by_cases e : i = j
    · subst e
      rw [mjj, ← hc, ← hs]
      linear_combination (-r ^ 2) * h1
    · rw [mij i (by omega) hi, ← hc, ← hs]
      ring
  · intro i k hjk hki hi
    rw [mij i (by omega) hi, mij k hjk (by omega), wi i (by omega) hi, wi k hjk (by omega)]
    linear_combination (s.mat i j * s.mat k j + s.temp i * s.temp k) * h1

theorem updateLoop_inv {n : Nat} {a' : Nat → Nat → ℝ} {s : Upd} (h : UpdInv n a' 1 s.mat s.temp 0) (k : Nat) (hk : k ≤ n) :
    UpdInv n a' 1 (updateLoop n k s).mat (updateLoop n k s).temp k := by
  induction k with
  | zero => exact h
  | succ k ih => exact updateStep_inv (by omega) (ih (by omega))

/-- The pivot met by the update is that of the factorisation of the new matrix. -/
theorem updInv_pivot {n j : Nat} {a' : Nat → Nat → ℝ} {ρ : ℝ} {m : Nat → Nat → ℝ} {w : Nat → ℝ} (hj : j < n) (h : UpdInv n a' ρ m w j)
    (hp : ∀ v : Nat → ℝ, (∃ i < n, v i ≠ 0) → 0 < ∑ i ∈ range n, ∑ k ∈ range n, v i * symLow a' i k * v k) :
    0 < m j j ^ 2 + ρ * w j ^ 2 := by
  by_contra hx
  rw [not_lt] at hx
  have inv : LltInv n a' (fun i k => if k < j then m i k else a' i k) j := by
    refine ⟨fun l hl => ?_, fun i k hk hki hi => ?_, fun i k hk => if_neg (by omega)⟩
    · simp only [hl, if_true]
      exact h.pos l (by omega)
    · rw [← h.done i k hk hki hi]
      refine sum_congr rfl fun t ht => ?_
      have := mem_range.1 ht
      rw [if_pos (by omega), if_pos (by omega)]
  have hnone : lltStep n j (fun i k => if k < j then m i k else a' i k) = none := by
    unfold lltStep
    simp only
    refine if_pos ?_
    rw [if_neg (lt_irrefl j)]
    have e : ∑ l ∈ range j, (if l < j then m j l else a' j l) ^ 2 = ∑ l ∈ range j, m j l * m j l :=
      sum_congr rfl fun l hl => by rw [if_pos (mem_range.1 hl), sq]
    rw [e]
    have hr := h.rest j j le_rfl le_rfl hj
    rw [sum_range_succ] at hr
    nlinarith
  obtain ⟨v, hv, hle⟩ := llt_not_posDef hj inv hnone
  exact absurd (hp v hv) (not_lt.2 hle)

theorem down_col {L b t x y q σ : ℝ} (hL : 0 < L) (hb : 0 < b) (hg : 0 < L ^ 2 * b + σ * t ^ 2) (hq : q ^ 2 = L ^ 2 + σ / b * t ^ 2) (hqp : 0 < q) :
    (q / L * x + q * σ * t / (L ^ 2 * b + σ * t ^ 2) * (y - t / L * x)) * q = x * L + σ / b * (y * t) := by
  have hq2 : L ^ 2 * b + σ * t ^ 2 = b * q ^ 2 := by rw [hq]; field_simp
  have hq3 : σ * t ^ 2 = b * q ^ 2 - L ^ 2 * b := by linarith
  rw [hq2]
  field_simp
  linear_combination (-x) * hq3

theorem down_tail {L b t x y u v q σ : ℝ} (hL : 0 < L) (hb : 0 < b) (hg : 0 < L ^ 2 * b + σ * t ^ 2) (hq : q ^ 2 = L ^ 2 + σ / b * t ^ 2) (hqp : 0 < q) :
    (q / L * x + q * σ * t / (L ^ 2 * b + σ * t ^ 2) * (y - t / L * x)) * (q / L * u + q * σ * t / (L ^ 2 * b + σ * t ^ 2) * (v - t / L * u)) +
      σ / ((L ^ 2 * b + σ * t ^ 2) / L ^ 2) * ((y - t / L * x) * (v - t / L * u)) = x * u + σ / b * (y * v) := by
  have hq2 : L ^ 2 * b + σ * t ^ 2 = b * q ^ 2 := by rw [hq]; field_simp
  have hq3 : σ * t ^ 2 = b * q ^ 2 - L ^ 2 * b := by linarith
  rw [hq2]
  have e1 : ∀ x y : ℝ, q / L * x + q * σ * t / (b * q ^ 2) * (y - t / L * x) = (x * L + σ / b * (y * t)) / q := fun x y => by
    rw [eq_div_iff hqp.ne', ← hq2]
    exact down_col hL hb hg hq hqp
  rw [e1, e1]
  field_simp
  linear_combination (x * b * u + σ * y * v) * hq2

theorem downStep_ok {n j : Nat} {sigma : ℝ} {a' : Nat → Nat → ℝ} {s : Upd} (hj : j < n) (hb : 0 < s.beta)
    (h : UpdInv n a' (sigma / s.beta) s.mat s.temp j) (hx : 0 < s.mat j j ^ 2 + sigma / s.beta * s.temp j ^ 2) :
    ∃ s', downStep n sigma j s = .ok (s', true) ∧ 0 < s'.beta ∧ UpdInv n a' (sigma / s'.beta) s'.mat s'.temp (j + 1) := by
  have hL := h.pos j hj
  have rd : ∀ {a b : ℝ}, b ≠ 0 → rdiv a b = .ok (a / b) := fun hb => by simp [rdiv, hb]
  have hxe : s.mat j j ^ 2 + sigma * s.temp j ^ 2 / s.beta = s.mat j j ^ 2 + sigma / s.beta * s.temp j ^ 2 := by ring
  have hg : s.mat j j ^ 2 * s.beta + sigma * s.temp j ^ 2 = s.beta * (s.mat j j ^ 2 + sigma / s.beta * s.temp j ^ 2) := by
    field_simp
  have hgp : 0 < s.mat j j ^ 2 * s.beta + sigma * s.temp j ^ 2 := by rw [hg]; positivity
  unfold downStep
  simp only [rd hb.ne', Res.ok_bind, hxe]
  rw [if_neg (not_le.2 hx), rd (pow_ne_zero 2 hL.ne'), Res.ok_bind, rd hL.ne', Res.ok_bind, rd hL.ne', Res.ok_bind, if_neg hgp.ne', rd hgp.ne', Res.ok_bind]
  have hsq := Real.sq_sqrt hx.le
  have hsp := Real.sqrt_pos.2 hx
  have hbeta : s.beta + sigma * s.temp j ^ 2 / s.mat j j ^ 2 = (s.mat j j ^ 2 * s.beta + sigma * s.temp j ^ 2) / s.mat j j ^ 2 := by
    field_simp
  refine ⟨_, rfl, ?_, ?_⟩
  · show 0 < s.beta + sigma * s.temp j ^ 2 / s.mat j j ^ 2
    rw [hbeta]
    positivity
  · refine updInv_step (ρ := sigma / s.beta) hj h (fun r c hc => if_neg hc) ?_ ?_ ?_
    · simpa using hsp
    · intro i hji hi
      simp only [if_true]
      by_cases e : i = j
      · subst e
        rw [if_pos rfl]
        linear_combination hsq
      · rw [if_neg e, if_pos ⟨by omega, hi, hgp.ne'⟩, if_pos ⟨by omega, hi⟩]
        exact down_col hL hb hgp hsq hsp
    · intro i k hjk hki hi
      simp only [if_true]
      have hki' : j < i := by omega
      have hk' : k < n := by omega
      rw [if_neg hki'.ne', if_neg hjk.ne', if_pos ⟨hki', hi, hgp.ne'⟩, if_pos ⟨hki', hi⟩, if_pos ⟨hjk, hk', hgp.ne'⟩, if_pos ⟨hjk, hk'⟩, hbeta]
      exact down_tail hL hb hgp hsq hsp

theorem downLoop_ok {n : Nat} {sigma : ℝ} {a' : Nat → Nat → ℝ} {s : Upd} (hb : 0 < s.beta) (h : UpdInv n a' (sigma / s.beta) s.mat s.temp 0)
    (hp : ∀ v : Nat → ℝ, (∃ i < n, v i ≠ 0) → 0 < ∑ i ∈ range n, ∑ k ∈ range n, v i * symLow a' i k * v k) (k : Nat) (hk : k ≤ n) :
    ∃ s', downLoop n sigma k s = .ok (s', true) ∧ 0 < s'.beta ∧ UpdInv n a' (sigma / s'.beta) s'.mat s'.temp k := by
  induction k with
  | zero => exact ⟨s, rfl, hb, h⟩
  | succ k ih =>
    obtain ⟨s1, e, hb1, h1⟩ := ih (by omega)
    obtain ⟨s2, e2, h2⟩ := downStep_ok (by omega) hb1 h1 (updInv_pivot (by omega) h1 hp)
    refine ⟨s2, ?_, h2⟩
    simp only [downLoop, e, Res.ok_bind, if_true]
    exact e2

/-- The update of the factor of `a`: the factor of `a + σ v vᵀ`, when that is positive definite. -/
theorem rankUpdate_ok {n : Nat} {a m : Nat → Nat → ℝ} {v : Nat → ℝ} {sigma : ℝ} (h : LltInv n a m n)
    (hp : ∀ u : Nat → ℝ, (∃ i < n, u i ≠ 0) → 0 < ∑ i ∈ range n, ∑ k ∈ range n, u i * symLow (fun i k => a i k + sigma * (v i * v k)) i k * u k) :
    ∃ m', rankUpdate n m v sigma = .ok m' ∧ (∀ l, l < n → 0 < m' l l) ∧
      ∀ i k, k ≤ i → i < n → ∑ t ∈ range (k + 1), m' i t * m' k t = a i k + sigma * (v i * v k) := by
  unfold rankUpdate
  by_cases hs : 0 < sigma
  · rw [if_pos hs]
    have h0 : UpdInv n (fun i k => a i k + sigma * (v i * v k)) 1 m (fun r => Real.sqrt sigma * v r) 0 := by
      refine ⟨h.pos, fun i k hk => absurd hk (by omega), fun i k _ hki hi => ?_⟩
      rw [h.prod i k (by omega) hki hi]
      have := Real.mul_self_sqrt hs.le
      linear_combination (v i * v k) * this
    have h1 := updateLoop_inv (s := ⟨m, fun r => Real.sqrt sigma * v r, 1⟩) h0 n le_rfl
    exact ⟨_, rfl, h1.pos, fun i k hki hi => h1.done i k (by omega) hki hi⟩
  · rw [if_neg hs]
    have h0 : UpdInv n (fun i k => a i k + sigma * (v i * v k)) (sigma / 1) m v 0 := by
      refine ⟨h.pos, fun i k hk => absurd hk (by omega), fun i k _ hki hi => ?_⟩
      rw [h.prod i k (by omega) hki hi]
      simp
    obtain ⟨s', e, _, h1⟩ := downLoop_ok (s := ⟨m, v, 1⟩) one_pos h0 hp n le_rfl
    refine ⟨s'.mat, ?_, h1.pos, fun i k hki hi => h1.done i k (by omega) hki hi⟩
    rw [e]
    rfl

end MU
