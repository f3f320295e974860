import Verif.Props.Integration1d
import Verif.Props.Vectors

/-!
# C213: integrals of sampled steps, windows, impulses and ramps
-/

set_option linter.unusedSectionVars false

namespace MU
open Spec Finset

/-- The values that `linspace` returns: `N` equal steps of length `dt` from `a`. -/
structure Even (x : List ℝ) (a dt : ℝ) (N : Nat) : Prop where
  len : x.length = N + 1
  val : ∀ i, i ≤ N → x.getD i 0 = a + i * dt

theorem even_linspace (B : Build) {a b : ℝ} {N : Nat} (hN : 1 ≤ N) (hN2 : N + 1 < 2 ^ 32) (hab : a ≤ b) : ∃ x, linspace B a b (N + 1) = .ok x ∧ Even x a ((b - a) / N) N := by
  obtain ⟨l, h1, h2, h3, -, -, -⟩ := C49_linspace B (start := a) (stop := b) (num := N + 1) (by omega) hN2 hab
  refine ⟨l, h1, h2, fun i hi => ?_⟩
  rw [List.getD, h3 i (by omega)]
  push_cast
  rw [add_sub_cancel_right, mul_div_assoc]
  rfl

theorem Even.trapz {x y : List ℝ} {a dt : ℝ} {N : Nat} (hx : Even x a dt N) (B : Build) (hN : 1 ≤ N) (h64 : N + 1 < 2 ^ 64) {f : ℝ → ℝ} (hy : y = x.map f) (g : Nat → ℝ)
    (hg : ∀ i, i ≤ N → f (a + i * dt) = g i) {T : ℝ} (hT : dt * ∑ i ∈ range N, (g i + g (i + 1)) / 2 = T) : MU.trapz B x y = .ok T ∧ trapzUniform y dt = .ok T := by
  have hl : y.length = N + 1 := by rw [hy, List.length_map, hx.len]
  have hv : ∀ i, i ≤ N → y.getD i 0 = g i := fun i hi => by
    have h1 : i < x.length := by rw [hx.len]; omega
    have := hx.val i hi
    rw [List.getD, List.getElem?_eq_getElem h1, Option.getD_some] at this
    rw [hy, List.getD, List.getElem?_map, List.getElem?_eq_getElem h1, Option.map_some, Option.getD_some, this, hg i hi]
  obtain ⟨e1, e2⟩ := C40_panels B x y dt (by omega) (by omega)
  rw [e1 (by rw [hl, hx.len]), e2, hl, Nat.add_sub_cancel, ← hT, mul_sum]
  constructor
  · refine congrArg _ (sum_congr rfl fun i hi => ?_)
    have hi := mem_range.1 hi
    rw [hv i hi.le, hv (i + 1) hi, hx.val i hi.le, hx.val (i + 1) hi]
    push_cast
    ring
  · refine congrArg _ (sum_congr rfl fun i hi => ?_)
    have hi := mem_range.1 hi
    rw [hv i hi.le, hv (i + 1) hi]
    ring

/-- The step at index `p`. -/
noncomputable def istep (p i : Nat) : ℝ := if i < p then 0 else if i = p then 1 / 2 else 1

theorem sum_istep {p : Nat} (hp : 0 < p) (k : Nat) : ∑ i ∈ range k, (istep p i + istep p (i + 1)) / 2 = if k < p then 0 else if k = p then 1 / 4 else (k : ℝ) - p := by
  induction k with
  | zero => simp [hp]
  | succ k ih =>
    rw [sum_range_succ, ih]
    unfold istep
    rcases lt_trichotomy (k + 1) p with h | h | h
    · simp [h, show k < p by omega]
    · subst h
      simp
      norm_num
    · rcases Nat.lt_or_ge k (p + 1) with h' | h'
      · obtain rfl : k = p := by omega
        simp
        norm_num
      · have h1 : ¬ k < p := by omega
        have h2 : k ≠ p := by omega
        have h3 : ¬ k + 1 < p := by omega
        have h4 : k + 1 ≠ p := by omega
        simp only [if_neg h1, if_neg h2, if_neg h3, if_neg h4]
        push_cast
        ring

theorem Even.order {x : List ℝ} {a dt : ℝ} {N : Nat} (hdt : 0 < dt) (i p : Nat) : (a + i * dt < a + p * dt ↔ i < p) ∧ (a + i * dt = a + p * dt ↔ i = p) := by
  constructor
  · rw [add_lt_add_iff_left, mul_lt_mul_iff_left₀ hdt, Nat.cast_lt]
  · rw [add_right_inj, mul_left_inj' hdt.ne', Nat.cast_inj]

theorem step_index {a dt : ℝ} (hdt : 0 < dt) (i p : Nat) : step (a + p * dt) (a + i * dt) = istep p i := by
  have h := Even.order (x := []) (a := a) (N := 0) hdt i p
  unfold step istep
  simp only [h.1, h.2]

theorem dt_pos {a b : ℝ} {N : Nat} (hN : 1 ≤ N) (hab : a < b) : 0 < (b - a) / N := div_pos (sub_pos.2 hab) (by exact_mod_cast hN)

theorem dt_mul {a b : ℝ} {N : Nat} (hN : 1 ≤ N) : N * ((b - a) / N) = b - a := mul_div_cancel₀ _ (by exact_mod_cast (by omega : N ≠ 0))

/-- C213: a `Heaviside` step at an inner sample of a `linspace`, integrated by either trapezoidal rule, gives exactly the length after the step. -/
theorem C213_step (B : Build) {a b : ℝ} {N p : Nat} (hN2 : N + 1 < 2 ^ 32) (hab : a < b) (hp : 0 < p) (hpN : p < N) :
    ∃ x y, linspace B a b (N + 1) = .ok x ∧ heaviside x (x.getD p 0) = .ok y ∧ trapz B x y = .ok (b - x.getD p 0) ∧ trapzUniform y ((b - a) / N) = .ok (b - x.getD p 0) := by
  have hN : 1 ≤ N := by omega
  obtain ⟨x, hx, he⟩ := even_linspace B hN hN2 hab.le
  have hd := dt_pos hN hab
  refine ⟨x, _, hx, C52_heaviside x _, ?_⟩
  refine he.trapz B hN (by omega) rfl (istep p) (fun i _ => by rw [he.val p hpN.le]; exact step_index hd i p) ?_
  rw [sum_istep hp, if_neg (by omega), if_neg (by omega), he.val p hpN.le]
  have := dt_mul (a := a) (b := b) hN
  linarith

/-- C213: a `Door` between two inner samples gives exactly the height times the width. -/
theorem C213_window (B : Build) {a b : ℝ} {N p q : Nat} (hN2 : N + 1 < 2 ^ 32) (hab : a < b) (hp : 0 < p) (hpq : p < q) (hqN : q < N) (h : ℝ) :
    ∃ x y, linspace B a b (N + 1) = .ok x ∧ door B x (x.getD p 0) (x.getD q 0) h = .ok y ∧ trapz B x y = .ok (h * (x.getD q 0 - x.getD p 0)) ∧
      trapzUniform y ((b - a) / N) = .ok (h * (x.getD q 0 - x.getD p 0)) := by
  have hN : 1 ≤ N := by omega
  obtain ⟨x, hx, he⟩ := even_linspace B hN hN2 hab.le
  have hd := dt_pos hN hab
  have hlt : x.getD p 0 < x.getD q 0 := by
    rw [he.val p (by omega), he.val q (by omega)]
    exact (Even.order (x := []) (N := 0) hd p q).1.2 hpq
  refine ⟨x, _, hx, C52_door B x hlt h, ?_⟩
  refine he.trapz B hN (by omega) rfl (fun i => h * (istep p i - istep q i)) (fun i _ => ?_) ?_
  · rw [he.val p (by omega), he.val q (by omega)]
    have h1 := Even.order (x := []) (a := a) (N := 0) hd i p
    have h2 := Even.order (x := []) (a := a) (N := 0) hd q i
    have h3 := Even.order (x := []) (a := a) (N := 0) hd i q
    unfold window istep
    simp only [h1.1, h1.2, h2.1, h3.2]
    rcases lt_trichotomy i p with c | c | c
    · simp [c, show i < q by omega]
    · subst c
      simp [hpq, show ¬ q < i by omega]
      ring
    · rcases lt_trichotomy i q with d | d | d
      · simp [show ¬ i < p by omega, show i ≠ p by omega, d, show ¬ q < i by omega, show i ≠ q by omega]
      · subst d
        simp [show ¬ i < p by omega, show i ≠ p by omega]
        ring
      · simp [show ¬ i < p by omega, show i ≠ p by omega, d, show ¬ i < q by omega, show i ≠ q by omega]
  · have : ∑ i ∈ range N, (h * (istep p i - istep q i) + h * (istep p (i + 1) - istep q (i + 1))) / 2 =
        h * (∑ i ∈ range N, (istep p i + istep p (i + 1)) / 2 - ∑ i ∈ range N, (istep q i + istep q (i + 1)) / 2) := by
      rw [← sum_sub_distrib, mul_sum]
      exact sum_congr rfl fun i _ => by ring
    rw [this, sum_istep hp, sum_istep (by omega), if_neg (by omega), if_neg (by omega), if_neg (by omega), if_neg (by omega), he.val p (by omega), he.val q (by omega)]
    ring

theorem sum_impulse {j : Nat} (hj : 0 < j) (h : ℝ) (k : Nat) :
    ∑ i ∈ range k, ((if i = j then h else 0) + (if i + 1 = j then h else 0)) / 2 = if k < j then 0 else if k = j then h / 2 else h := by
  induction k with
  | zero => simp [hj]
  | succ k ih =>
    rw [sum_range_succ, ih]
    rcases lt_trichotomy (k + 1) j with c | c | c
    · simp [c, show k < j by omega, show k ≠ j by omega, show k + 1 ≠ j by omega]
    · subst c
      simp
    · rcases Nat.lt_or_ge k (j + 1) with d | d
      · obtain rfl : k = j := by omega
        simp
      · simp [show ¬ k < j by omega, show k ≠ j by omega, show ¬ k + 1 < j by omega, show k + 1 ≠ j by omega]

theorem evenStep (x : List ℝ) {a dt : ℝ} {N : Nat} (he : Even x a dt N) (hN : 1 ≤ N) (h2 : 2 ≤ x.length) : x[1] - x[0] = dt := by
  have h1 := he.val 1 hN
  have h0 := he.val 0 (by omega)
  rw [List.getD, List.getElem?_eq_getElem (by omega), Option.getD_some] at h0 h1
  rw [h1, h0]
  push_cast
  ring

/-- C213: a `Dirac` impulse that is less than half a step from an inner sample gives exactly the height times the step. -/
theorem C213_impulse (B : Build) {a b t h : ℝ} {N j : Nat} (hN2 : N + 1 < 2 ^ 32) (hab : a < b) (hj : 0 < j) (hjN : j < N) (ht : |a + j * ((b - a) / N) - t| < (b - a) / N / 2) :
    ∃ x y, linspace B a b (N + 1) = .ok x ∧ dirac x t h = .ok y ∧ trapz B x y = .ok (h * ((b - a) / N)) ∧ trapzUniform y ((b - a) / N) = .ok (h * ((b - a) / N)) := by
  have hN : 1 ≤ N := by omega
  obtain ⟨x, hx, he⟩ := even_linspace B hN hN2 hab.le
  have hd := dt_pos hN hab
  have h2 : 2 ≤ x.length := by rw [he.len]; omega
  refine ⟨x, _, hx, C52_dirac x h2 t h, ?_⟩
  rw [evenStep x he hN h2]
  generalize hdt : (b - a) / N = dt at *
  refine he.trapz B hN (by omega) rfl (fun i => if i = j then h else 0) (fun i _ => ?_) ?_
  · by_cases c : i = j
    · subst c
      rw [if_pos ht, if_pos rfl]
    · rw [if_neg c, if_neg]
      intro hc
      have h1 := abs_lt.1 hc
      have h3 := abs_lt.1 ht
      rcases Nat.lt_or_gt_of_ne c with d | d
      · have : (i : ℝ) + 1 ≤ j := by exact_mod_cast d
        nlinarith
      · have : (j : ℝ) + 1 ≤ i := by exact_mod_cast d
        nlinarith
  · rw [sum_impulse hj, if_neg (by omega), if_neg (by omega), mul_comm]

/-- C213: an impulse half way between two samples is lost: all the values are 0. -/
theorem C213_impulse_lost (B : Build) {a b h : ℝ} {N j : Nat} (hN2 : N + 1 < 2 ^ 32) (hab : a < b) (hjN : j < N) :
    ∃ x, linspace B a b (N + 1) = .ok x ∧ dirac x ((x.getD j 0 + x.getD (j + 1) 0) / 2) h = .ok (List.replicate (N + 1) 0) := by
  have hN : 1 ≤ N := by omega
  obtain ⟨x, hx, he⟩ := even_linspace B hN hN2 hab.le
  have hd := dt_pos hN hab
  have h2 : 2 ≤ x.length := by rw [he.len]; omega
  refine ⟨x, hx, ?_⟩
  rw [C52_dirac x h2, evenStep x he hN h2, he.val j hjN.le, he.val (j + 1) hjN]
  generalize hdt : (b - a) / N = dt at *
  refine congrArg _ (List.ext_getElem (by rw [List.length_map, List.length_replicate, he.len]) fun i h1 h3 => ?_)
  rw [List.getElem_map, List.getElem_replicate]
  have hi : i < x.length := by simpa using h1
  have hv := he.val i (by rw [he.len] at hi; omega)
  rw [List.getD, List.getElem?_eq_getElem hi, Option.getD_some] at hv
  rw [hv, if_neg]
  intro hc
  have h4 := abs_lt.1 hc
  push_cast at h4
  rcases Nat.lt_or_ge j i with d | d
  · have : (j : ℝ) + 1 ≤ i := by exact_mod_cast d
    nlinarith
  · have : (i : ℝ) ≤ j := by exact_mod_cast d
    nlinarith

/-- The ramp between the indices `p` and `q`. -/
noncomputable def iramp (p q : Nat) (yl yr : ℝ) (i : Nat) : ℝ := if i ≤ p then yl else if i ≤ q then yl + (i - p) * (yr - yl) / (q - p) else yr

theorem sum_iramp {p q : Nat} (hpq : p < q) (yl yr : ℝ) (k : Nat) : ∑ i ∈ range k, (iramp p q yl yr i + iramp p q yl yr (i + 1)) / 2 =
    if k ≤ p then k * yl else if k ≤ q then k * yl + (k - p) ^ 2 * (yr - yl) / (2 * (q - p)) else p * yl + (q - p) * (yl + yr) / 2 + (k - q) * yr := by
  have hqp : (q : ℝ) - p ≠ 0 := by
    have : (p : ℝ) < q := by exact_mod_cast hpq
    linarith
  induction k with
  | zero => simp
  | succ k ih =>
    rw [sum_range_succ, ih]
    unfold iramp
    rcases Nat.lt_or_ge k p with c | c
    · simp only [if_pos c.le, if_pos (show k + 1 ≤ p by omega)]
      push_cast
      ring
    · rcases Nat.lt_or_ge k q with d | d
      · rw [if_neg (show ¬ k + 1 ≤ p by omega), if_neg (show ¬ k + 1 ≤ p by omega), if_pos (show k + 1 ≤ q by omega), if_pos (show k + 1 ≤ q by omega)]
        rcases Nat.lt_or_ge p k with e | e
        · rw [if_neg (show ¬ k ≤ p by omega), if_pos d.le, if_neg (show ¬ k ≤ p by omega), if_pos d.le]
          push_cast
          field_simp
          ring
        · obtain rfl : k = p := by omega
          rw [if_pos le_rfl, if_pos le_rfl]
          push_cast
          field_simp
          ring
      · rw [if_neg (show ¬ k ≤ p by omega), if_neg (show ¬ k ≤ p by omega), if_neg (show ¬ k + 1 ≤ p by omega), if_neg (show ¬ k + 1 ≤ p by omega),
          if_neg (show ¬ k + 1 ≤ q by omega), if_neg (show ¬ k + 1 ≤ q by omega)]
        rcases Nat.lt_or_ge q k with e | e
        · rw [if_neg (by omega), if_neg (by omega)]
          push_cast
          ring
        · obtain rfl : k = q := by omega
          rw [if_pos le_rfl, if_pos le_rfl]
          push_cast
          field_simp
          ring

/-- C213: a `Ramp` between two samples (the ends included) gives exactly the area under the ramp. -/
theorem C213_ramp (B : Build) {a b yl yr : ℝ} {N p q : Nat} (hN2 : N + 1 < 2 ^ 32) (hab : a < b) (hpq : p < q) (hqN : q ≤ N) :
    ∃ x y, linspace B a b (N + 1) = .ok x ∧ ramp B x (x.getD p 0) (x.getD q 0) yl yr = .ok y ∧
      trapz B x y = .ok (yl * (x.getD p 0 - a) + (yl + yr) / 2 * (x.getD q 0 - x.getD p 0) + yr * (b - x.getD q 0)) ∧
      trapzUniform y ((b - a) / N) = .ok (yl * (x.getD p 0 - a) + (yl + yr) / 2 * (x.getD q 0 - x.getD p 0) + yr * (b - x.getD q 0)) := by
  have hN : 1 ≤ N := by omega
  obtain ⟨x, hx, he⟩ := even_linspace B hN hN2 hab.le
  have hd := dt_pos hN hab
  have hx0 : x ≠ [] := fun h => by have := he.len; rw [h] at this; simp at this
  have ep := he.val p (by omega)
  have eq' := he.val q hqN
  have hord := fun i j => Even.order (x := []) (a := a) (N := 0) hd i j
  have hle : ∀ i j : Nat, a + i * ((b - a) / N) ≤ a + j * ((b - a) / N) ↔ i ≤ j := fun i j => by
    rw [← not_lt, (hord j i).1, not_lt]
  have hhead : x.head hx0 = x.getD 0 0 := by
    rw [List.head_eq_getElem, List.getD, List.getElem?_eq_getElem (List.length_pos_iff.2 hx0), Option.getD_some]
  have hlast : x.getLast hx0 = x.getD N 0 := by
    rw [List.getLast_eq_getElem, List.getD, List.getElem?_eq_getElem (by rw [he.len]; omega), Option.getD_some]
    simp only [he.len, Nat.add_sub_cancel]
  refine ⟨x, _, hx, C52_ramp B x hx0 (by rw [he.len]; omega) (by rw [ep, eq', hle]; exact hpq.le) (by rw [hhead, he.val 0 (by omega), ep, hle]; omega)
    (by rw [hlast, he.val N le_rfl, eq', hle]; exact hqN), ?_⟩
  refine he.trapz B hN (by omega) rfl (iramp p q yl yr) (fun i _ => ?_) ?_
  · rw [ep, eq']
    unfold iramp
    simp only [hle]
    split_ifs
    · rfl
    · have hqp : (q : ℝ) - p ≠ 0 := by
        have : (p : ℝ) < q := by exact_mod_cast hpq
        linarith
      rw [show a + i * ((b - a) / N) - (a + p * ((b - a) / N)) = (b - a) / N * (i - p) by ring, show a + q * ((b - a) / N) - (a + p * ((b - a) / N)) = (b - a) / N * (q - p) by ring,
        mul_assoc, mul_div_mul_left _ _ hd.ne']
    · rfl
  · have hm := dt_mul (a := a) (b := b) hN
    rw [sum_iramp hpq, if_neg (by omega), ep, eq']
    have hqp : (q : ℝ) - p ≠ 0 := by
      have : (p : ℝ) < q := by exact_mod_cast hpq
      linarith
    rw [show b - (a + q * ((b - a) / N)) = (N - q) * ((b - a) / N) by linarith]
    split_ifs with c
    · obtain rfl : N = q := by omega
      field_simp
      ring
    · ring

/-- C213: a step at the first or the last sample is a quarter of a step off. -/
theorem C213_step_at_the_ends (B : Build) {a b : ℝ} {N : Nat} (hN : 1 ≤ N) (hN2 : N + 1 < 2 ^ 32) (hab : a < b) :
    (∃ x y, linspace B a b (N + 1) = .ok x ∧ heaviside x a = .ok y ∧ trapz B x y = .ok (b - a - (b - a) / N / 4)) ∧
    ∃ x y, linspace B a b (N + 1) = .ok x ∧ heaviside x b = .ok y ∧ trapz B x y = .ok ((b - a) / N / 4) := by
  obtain ⟨x, hx, he⟩ := even_linspace B hN hN2 hab.le
  have hd := dt_pos hN hab
  have hm := dt_mul (a := a) (b := b) hN
  refine ⟨⟨x, _, hx, C52_heaviside x _, ?_⟩, ⟨x, _, hx, C52_heaviside x _, ?_⟩⟩
  · refine (he.trapz B hN (by omega) rfl (istep 0) (fun i _ => ?_) ?_).1
    · have := step_index (a := a) hd i 0
      simpa using this
    · have : ∀ k, ∑ i ∈ range (k + 1), (istep 0 i + istep 0 (i + 1)) / 2 = k + 3 / 4 := fun k => by
        induction k with
        | zero => simp [istep]; norm_num
        | succ k ih => rw [sum_range_succ, ih]; simp [istep]; ring
      obtain ⟨k, rfl⟩ : ∃ k, N = k + 1 := ⟨N - 1, by omega⟩
      rw [this]
      push_cast at hm ⊢
      linarith
  · refine (he.trapz B hN (by omega) rfl (istep N) (fun i _ => ?_) ?_).1
    · have := step_index (a := a) hd i N
      rwa [hm, add_sub_cancel] at this
    · rw [sum_istep (by omega), if_neg (by omega), if_pos rfl]
      ring

/-- Five samples of `[0, 4]`: a window from 1 to 3 of height 2. -/
example : (do
    let x ← linspace ⟨true⟩ (0 : ℚ) 4 5
    let y ← door ⟨true⟩ x 1 3 2
    trapz ⟨true⟩ x y) = .ok 4 := by decide +kernel
example : (do
    let x ← linspace ⟨true⟩ (0 : ℚ) 4 5
    dirac x (5 / 2) 7) = .ok [0, 0, 0, 0, 0] := by decide +kernel
example : 4 + 1 < 2 ^ 32 ∧ (0 : ℝ) < 4 ∧ 0 < 1 ∧ 1 < 3 ∧ 3 < 4 ∧ |(0 : ℝ) + (1 : ℕ) * ((4 - 0) / (4 : ℕ)) - 5 / 4| < (4 - 0) / (4 : ℕ) / 2 := by
  refine ⟨by norm_num, by norm_num, by norm_num, by norm_num, by norm_num, ?_⟩
  norm_num [abs_lt]

end MU
