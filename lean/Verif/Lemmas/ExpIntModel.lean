import Verif.Model.SpecialFunctions
import Verif.Lemmas.Polynomial
import Verif.Lemmas.ExpIntChain

/-!
# The approximations of the code as rational functions

Each range of `Ei_approximation`, `expEi` and `E1_approximation` evaluates the rational function of `ExpIntCert.lean` with the code's own table.
-/

namespace MU.ExpInt
open Filter Topology Set Spec PolyCheck

/-! ## Sums of powers -/

theorem sum_map_pev (c : ℝ) (l : List ℤ) (x : ℝ) (hc : c ≠ 0) :
    ∑ i ∈ Finset.range l.length, ((l.map fun (a : ℤ) => (a : ℝ) / c).getD i 0) * x ^ i = pev l x / c := by
  induction l with
  | nil => simp [pev]
  | cons a l ih =>
    rw [List.length_cons, Finset.sum_range_succ', pev]
    simp only [List.map_cons, List.getD_cons_succ, List.getD_cons_zero, pow_succ, pow_zero, mul_one]
    have : ∑ i ∈ Finset.range l.length, (l.map fun (a : ℤ) => (a : ℝ) / c).getD i 0 * (x ^ i * x) = x * (pev l x / c) := by
      rw [← ih, Finset.mul_sum]
      exact Finset.sum_congr rfl fun i _ => by ring
    rw [this]
    field_simp
    ring

theorem pev_append (l m : List ℤ) (x : ℝ) : pev (l ++ m) x = pev l x + x ^ l.length * pev m x := by
  induction l with
  | nil => simp [pev]
  | cons a l ih =>
    rw [List.cons_append, pev, pev, ih, List.length_cons, pow_succ]
    ring

/-- A sum of inverse powers is the reversed polynomial. -/
theorem pev_reverse (l : List ℤ) {x : ℝ} (hx : x ≠ 0) : pev l x⁻¹ * x ^ l.length = x * pev l.reverse x := by
  induction l with
  | nil => simp [pev]
  | cons a l ih =>
    rw [List.reverse_cons, pev_append, List.length_reverse, pev, pev, pev, List.length_cons, pow_succ]
    have : x⁻¹ * (x ^ l.length * x) = x ^ l.length := by field_simp
    calc (↑a + x⁻¹ * pev l x⁻¹) * (x ^ l.length * x) = a * (x ^ l.length * x) + (pev l x⁻¹ * x ^ l.length) * (x⁻¹ * x) := by ring
      _ = _ := by
        rw [ih, inv_mul_cancel₀ hx]
        ring

theorem inverseSum_loop {l : List ℝ} {n : Nat} (h : n = l.length) (x : ℝ) :
    inverseSum l x (n - 1) = if n = 0 then .throws .outOfRange else .ok (∑ i ∈ Finset.range n, l.getD i 0 * x⁻¹ ^ i) := by
  subst h
  unfold inverseSum
  by_cases h0 : l.length = 0
  · rw [List.length_eq_zero_iff] at h0
    subst h0
    rfl
  · rw [if_neg h0, show l.length - 1 + 1 = l.length by omega]
    have := forRange_ok (lo := 0) (hi := l.length) (Nat.zero_le _) (f := fun j (s : ℝ × ℝ) => do
      let cj ← vAt l j
      return (s.1 + cj * s.2, s.2 / x)) (fun m => (∑ i ∈ Finset.range m, l.getD i 0 * x⁻¹ ^ i, x⁻¹ ^ m)) (by
        intro i _ hi
        simp [vAt, List.getElem?_eq_getElem hi, Finset.sum_range_succ, pow_succ, div_eq_mul_inv, List.getD])
    simp only [Finset.sum_range_zero, pow_zero] at this
    rw [this]
    rfl

theorem inverseSum_ok {l : List ℝ} {L : List ℤ} {c : ℝ} {n : Nat} (hl : l = L.map fun (a : ℤ) => (a : ℝ) / c) (hc : c ≠ 0) (hn : n + 1 = L.length) (x : ℝ) :
    inverseSum l x n = .ok (pev L x⁻¹ / c) := by
  have h := inverseSum_loop (l := l) (n := n + 1) (by rw [hl, List.length_map, hn]) x
  rw [Nat.add_sub_cancel, if_neg (by omega), hn] at h
  rw [h, hl, sum_map_pev c L _ hc]

theorem horner_pev {l : List ℝ} {L : List ℤ} {c : ℝ} (hl : l = L.map fun (a : ℤ) => (a : ℝ) / c) (hc : c ≠ 0) (hn : L ≠ []) (x : ℝ) :
    horner l x = .ok (pev L x / c) := by
  have hne : l ≠ [] := by rw [hl]; simpa using hn
  rw [horner_ok hne, ← sum_map_pev c L x hc, ← hl, hl, List.length_map, ← hl]
  rfl

/-! ## Continued fractions -/

/-- `e` is `p / q`, infinite when `q = 0`. -/
def Rep (e : Ext) (p q : ℝ) : Prop := (p ≠ 0 ∨ q ≠ 0) ∧ (q ≠ 0 → e = .fin (p / q)) ∧ (q = 0 → e = .inf)

theorem Rep_zero : Rep (.fin 0) 0 1 := ⟨Or.inr one_ne_zero, fun _ => by simp, fun h => absurd h one_ne_zero⟩

theorem Rep_step {e : Ext} {p q a b c x : ℝ} (hb : b ≠ 0) (hc : c ≠ 0) (h : Rep e p q) :
    Rep (Ext.div (b / c) (Ext.add (a / c + x) e)) (b * q) ((a + c * x) * q + c * p) := by
  obtain ⟨h0, h1, h2⟩ := h
  by_cases hq : q = 0
  · have hp : p ≠ 0 := h0.resolve_right (by simpa using hq)
    rw [h2 hq, hq]
    refine ⟨Or.inr (by simp [hc, hp]), fun _ => by simp [Ext.add, Ext.div], fun h => absurd h (by simp [hc, hp])⟩
  · rw [h1 hq]
    have e1 : a / c + x + p / q = ((a + c * x) * q + c * p) / (c * q) := by field_simp
    have hbc : b / c ≠ 0 := div_ne_zero hb hc
    refine ⟨Or.inl (mul_ne_zero hb hq), fun h => ?_, fun h => ?_⟩
    · have : a / c + x + p / q ≠ 0 := by rw [e1]; exact div_ne_zero h (mul_ne_zero hc hq)
      rw [Ext.add, Ext.div, if_neg this, e1]
      congr 1
      field_simp
    · have : a / c + x + p / q = 0 := by rw [e1, h, zero_div]
      rw [Ext.add, Ext.div, if_pos this, if_neg hbc]

/-- The continued fraction by recursion. -/
noncomputable def cfExt (x : ℝ) : List ℝ → List ℝ → Ext
  | a :: as, b :: bs => Ext.div b (Ext.add (a + x) (cfExt x as bs))
  | _, _ => .fin 0

theorem fractionLoop_eq (as bs pa : List ℝ) (x : ℝ) (a0 : ℝ) (pb : List ℝ) (h : as.length = bs.length) (hp : pa.length = pb.length) (n : Nat)
    (hn : n = pb.length + bs.length) : fractionLoop (a0 :: (pa ++ as)) (pb ++ bs) x n (.fin 0) =
      fractionLoop (a0 :: (pa ++ as)) (pb ++ bs) x pb.length (cfExt x as bs) := by
  induction as generalizing bs pa pb with
  | nil =>
    have : bs = [] := List.length_eq_zero_iff.1 h.symm
    subst this
    rw [hn]
    rfl
  | cons a as ih =>
    obtain ⟨b, bs, rfl⟩ : ∃ b bs', bs = b :: bs' := by
      cases bs with
      | nil => simp at h
      | cons b bs => exact ⟨b, bs, rfl⟩
    have h' : as.length = bs.length := by simpa using h
    have := ih bs (pa ++ [a]) (pb ++ [b]) h' (by simp [hp]) (by simp at hn ⊢; omega)
    rw [List.append_assoc, List.append_assoc] at this
    simp only [List.singleton_append] at this
    rw [this, List.length_append, List.length_singleton, fractionLoop, cfExt]
    have e1 : vAt (pb ++ b :: bs) pb.length = .ok b := by simp [vAt]
    have e2 : vAt (a0 :: (pa ++ a :: as)) (pb.length + 1) = .ok a := by simp [vAt, ← hp]
    rw [e1, e2]
    rfl

theorem cfExt_rep (c : ℤ) (hc : c ≠ 0) (x : ℝ) (as bs : List ℤ) (h : as.length = bs.length) (hb : ∀ b ∈ bs, b ≠ 0) :
    Rep (cfExt x (as.map fun (a : ℤ) => (a : ℝ) / c) (bs.map fun (a : ℤ) => (a : ℝ) / c)) (pev (cfPair c as bs).1 x) (pev (cfPair c as bs).2 x) := by
  induction as generalizing bs with
  | nil =>
    have : bs = [] := List.length_eq_zero_iff.1 h.symm
    subst this
    have := Rep_zero
    simpa [cfExt, cfPair, pev] using this
  | cons a as ih =>
    obtain ⟨b, bs, rfl⟩ : ∃ b bs', bs = b :: bs' := by
      cases bs with
      | nil => simp at h
      | cons b bs => exact ⟨b, bs, rfl⟩
    have hc' : (c : ℝ) ≠ 0 := by exact_mod_cast hc
    have hb' : (b : ℝ) ≠ 0 := by exact_mod_cast hb b (by simp)
    have := Rep_step (a := (a : ℝ)) (x := x) hb' hc' (ih bs (by simpa using h) fun b' hm => hb b' (by simp [hm]))
    simp only [List.map_cons, cfExt, cfPair, pev_pscale, pev_padd, pev_pmul]
    have e : pev [a, c] x = a + c * x := by simp [pev]; ring
    rw [e]
    exact this

theorem continuedFraction_ok (B : Build) {al be : List ℝ} {A Bt : List ℤ} {c : ℤ} (x : ℝ) (hA : al = A.map fun (a : ℤ) => (a : ℝ) / c)
    (hB : be = Bt.map fun (a : ℤ) => (a : ℝ) / c) (hc : c ≠ 0) (h : A.length = 10 ∧ Bt.length = 9 ∧ ∀ b ∈ Bt, b ≠ 0) (hq : pev (cfDen c A Bt) x ≠ 0) :
    continuedFraction B al be x = .ok (rat (cfNum c A Bt) (cfDen c A Bt) x) := by
  obtain ⟨h1, h2, h3⟩ := h
  obtain ⟨a0, as, rfl⟩ : ∃ a0 as, A = a0 :: as := by
    cases A with
    | nil => simp at h1
    | cons a as => exact ⟨a, as, rfl⟩
  have h1' : as.length = 9 := by simpa using h1
  have hc' : (c : ℝ) ≠ 0 := by exact_mod_cast hc
  have hrep := cfExt_rep c hc x as Bt (by omega) h3
  have hloop := fractionLoop_eq (as.map fun (a : ℤ) => (a : ℝ) / c) (Bt.map fun (a : ℤ) => (a : ℝ) / c) [] x (a0 / c) [] (by simp; omega) rfl 9 (by simp [h2])
  simp only [List.nil_append, List.length_nil] at hloop
  unfold continuedFraction
  rw [hA, hB, cassert_true _ _ (by simp; omega), Res.ok_bind, List.map_cons, hloop, fractionLoop, Res.ok_bind]
  have hd : pev (cfPair c as Bt).2 x ≠ 0 := by
    intro h
    rw [cfDen, List.tail_cons, pev_pscale, h, mul_zero] at hq
    exact hq rfl
  rw [hrep.2.1 hd]
  simp only [vAt, List.getElem?_cons_zero, Res.ok_bind, Ext.add, Ext.get]
  rw [rat, cfNum, cfDen, pev_padd, pev_pscale, pev_pscale, pev_pscale, List.tail_cons, List.headD_cons]
  congr 1
  field_simp

/-! ## Chebyshev sums -/

theorem chebPoly_ok (j : Nat) (x : ℝ) : pev (chebPoly j) x = 3 ^ j * chebyshevShifted j (x / 6) := by
  unfold chebyshevShifted
  induction j using Nat.strong_induction_on with
  | _ j ih =>
    match j with
    | 0 => simp [chebPoly, pev, chebyshevT]
    | 1 => simp [chebPoly, pev, chebyshevT]; ring
    | n + 2 =>
      rw [chebPoly, pev_psub, pev_pscale, pev_pmul, pev_pscale, ih (n + 1) (by omega), ih n (by omega), chebyshevT]
      simp [pev]
      ring

theorem chebyshevSum_ok {l : List ℝ} {L : List ℤ} {c : ℝ} (hl : l = L.map fun (a : ℤ) => (a : ℝ) / c) (hn : L.length = 10) (x : ℝ) :
    chebyshevSum l x = .ok (pev (chebInt L) x / (2 * 3 ^ 9 * c)) := by
  subst hl
  match L, hn with
  | [a0, a1, a2, a3, a4, a5, a6, a7, a8, a9], _ =>
    have e : chebInt [a0, a1, a2, a3, a4, a5, a6, a7, a8, a9] =
      padd (padd (padd (padd (padd (padd (padd (padd (padd [a0 * 3 ^ 9] (pscale (2 * a1 * 3 ^ 8) (chebPoly 1))) (pscale (2 * a2 * 3 ^ 7) (chebPoly 2)))
        (pscale (2 * a3 * 3 ^ 6) (chebPoly 3))) (pscale (2 * a4 * 3 ^ 5) (chebPoly 4))) (pscale (2 * a5 * 3 ^ 4) (chebPoly 5)))
        (pscale (2 * a6 * 3 ^ 3) (chebPoly 6))) (pscale (2 * a7 * 3 ^ 2) (chebPoly 7))) (pscale (2 * a8 * 3 ^ 1) (chebPoly 8)))
        (pscale (2 * a9 * 3 ^ 0) (chebPoly 9)) := rfl
    rw [e]
    simp only [pev_padd, pev_pscale, chebPoly_ok]
    simp only [chebyshevSum, forRange, forN, vAt, List.map_cons, List.map_nil, List.getElem?_cons_zero, List.getElem?_cons_succ, Res.ok_bind, Res.pure_eq]
    have e0 : chebyshevShifted 0 (x / 6) = 1 := rfl
    rw [e0]
    simp only [pev]
    push_cast
    norm_num
    ring

/-! ## The ranges -/

theorem not_refused {x : ℝ} (hx : 1e-8 < x) : ¬ (isClose x 0 1e-5 1e-8 = true ∨ x < 0) := by
  have h0 : (0 : ℝ) < x := lt_trans (by norm_num) hx
  rintro (h | h)
  · simp only [isClose, sub_zero, abs_zero, mul_zero, add_zero, decide_eq_true_eq, abs_of_pos h0] at h
    linarith
  · linarith

theorem refused {x : ℝ} (hx : x ≤ 1e-8) : isClose x 0 1e-5 1e-8 = true ∨ x < 0 := by
  by_cases h0 : x < 0
  · exact Or.inr h0
  · left
    simp only [isClose, sub_zero, abs_zero, mul_zero, add_zero, decide_eq_true_eq, abs_of_nonneg (not_lt.1 h0)]
    exact hx

theorem rdiv_ok {a b : ℝ} (h : b ≠ 0) : rdiv a b = .ok (a / b) := by simp [rdiv, h]

theorem ei_below_six (B : Build) {x : ℝ} (hx : 1e-8 < x) (hx' : x < 6) : eiApproximation B x = .ok (Real.log (x / eiX0) + rat ei6N ei6M x) := by
  have h0 : (0 : ℝ) < x := lt_trans (by norm_num) hx
  have hp : ei6_pj = ei6P.map fun (a : ℤ) => (a : ℝ) / 10 ^ 20 := by norm_num [ei6_pj, ei6P]
  have hq : ei6_qj = ei6Q.map fun (a : ℤ) => (a : ℝ) / 10 ^ 20 := by norm_num [ei6_qj, ei6Q]
  have hne := ei6_ne h0.le hx'.le
  have hne' : pev (chebInt ei6Q) x ≠ 0 := by
    intro h
    rw [ei6M, pev_pscale, h, mul_zero] at hne
    exact hne rfl
  unfold eiApproximation
  rw [if_neg (not_refused hx), if_pos ⟨h0, hx'⟩, cassert_true _ _ (by simp [ei6_pj, ei6_qj]), Res.ok_bind]
  simp only []
  rw [chebyshevSum_ok hp rfl, Res.ok_bind, chebyshevSum_ok hq rfl, Res.ok_bind, rdiv_ok (div_ne_zero hne' (by norm_num)), Res.ok_bind, Res.pure_eq]
  congr 1
  rw [rat, ei6N, ei6M, pev_pmul, pev_pscale]
  have e : pev [-372507410781366634461991866580, 10 ^ 30] x = 10 ^ 30 * (x - eiX0) := by
    simp [pev, eiX0]
    norm_num
    ring
  rw [e, eiX0]
  push_cast
  field_simp
  norm_num
  ring

theorem ei_six_twelve (B : Build) {x : ℝ} (hx : 6 ≤ x) (hx' : x < 12) : eiApproximation B x = .ok (Real.exp x * rat ei12N ei12M x) := by
  have h0 : (0 : ℝ) < x := by linarith
  have ha : ei12_alphaj = ei12A.map fun (a : ℤ) => (a : ℝ) / ((10 ^ 25 : ℤ) : ℝ) := by norm_num [ei12_alphaj, ei12A]
  have hb : ei12_betaj = ei12B.map fun (a : ℤ) => (a : ℝ) / ((10 ^ 25 : ℤ) : ℝ) := by norm_num [ei12_betaj, ei12B]
  have hne := posOn_sound ei12_pos_code (x := x) (by norm_num; exact hx) (by norm_num; exact hx'.le)
  have hq : pev (cfDen (10 ^ 25) ei12A ei12B) x ≠ 0 := by
    intro h
    rw [pev_pscale, ei12M, pev, h] at hne
    simp at hne
  unfold eiApproximation
  rw [if_neg (not_refused (by linarith)), if_neg (by rintro ⟨_, h⟩; linarith), if_pos ⟨hx, hx'⟩,
    continuedFraction_ok B x ha hb (by norm_num) (by decide) hq, Res.ok_bind, Res.pure_eq, rat, rat, ei12N, ei12M, pev]
  congr 1
  generalize pev (cfDen (10 ^ 25) ei12A ei12B) x = d at hq ⊢
  generalize pev (cfNum (10 ^ 25) ei12A ei12B) x = n
  have hx0 : x ≠ 0 := h0.ne'
  push_cast
  simp only [zero_add]
  field_simp

theorem ei_twelve_twentyfour (B : Build) {x : ℝ} (hx : 12 ≤ x) (hx' : x < 24) : eiApproximation B x = .ok (Real.exp x * rat ei24N ei24M x) := by
  have h0 : (0 : ℝ) < x := by linarith
  have ha : ei24_alphaj = ei24A.map fun (a : ℤ) => (a : ℝ) / ((10 ^ 22 : ℤ) : ℝ) := by norm_num [ei24_alphaj, ei24A]
  have hb : ei24_betaj = ei24B.map fun (a : ℤ) => (a : ℝ) / ((10 ^ 22 : ℤ) : ℝ) := by norm_num [ei24_betaj, ei24B]
  have hne := ei24_ne hx hx'.le
  have hq : pev (cfDen (10 ^ 22) ei24A ei24B) x ≠ 0 := by
    intro h
    rw [ei24M, pev, h] at hne
    simp at hne
  unfold eiApproximation
  rw [if_neg (not_refused (by linarith)), if_neg (by rintro ⟨_, h⟩; linarith), if_neg (by rintro ⟨_, h⟩; linarith), if_pos ⟨hx, hx'⟩,
    continuedFraction_ok B x ha hb (by norm_num) (by decide) hq, Res.ok_bind, Res.pure_eq, rat, rat, ei24N, ei24M, pev]
  congr 1
  generalize pev (cfDen (10 ^ 22) ei24A ei24B) x = d at hq ⊢
  generalize pev (cfNum (10 ^ 22) ei24A ei24B) x = n
  have hx0 : x ≠ 0 := h0.ne'
  push_cast
  simp only [zero_add]
  field_simp

theorem eiInf_den {x : ℝ} (hx : 24 ≤ x) : pev (cfDen (10 ^ 20) eiInfA eiInfB) x ≠ 0 := by
  have hne := eiInf_ne hx
  intro h
  rw [eiInfM, pev, pev, h] at hne
  simp at hne

theorem ei_from_twentyfour (B : Build) {x : ℝ} (hx : 24 ≤ x) : eiApproximation B x = .ok (Real.exp x * rat eiInfN eiInfM x) := by
  have h0 : (0 : ℝ) < x := by linarith
  have ha : eiInf_alphaj = eiInfA.map fun (a : ℤ) => (a : ℝ) / ((10 ^ 20 : ℤ) : ℝ) := by norm_num [eiInf_alphaj, eiInfA]
  have hb : eiInf_betaj = eiInfB.map fun (a : ℤ) => (a : ℝ) / ((10 ^ 20 : ℤ) : ℝ) := by norm_num [eiInf_betaj, eiInfB]
  have hq := eiInf_den hx
  unfold eiApproximation
  rw [if_neg (not_refused (by linarith)), if_neg (by rintro ⟨_, h⟩; linarith), if_neg (by rintro ⟨_, h⟩; linarith),
    if_neg (by rintro ⟨_, h⟩; linarith), continuedFraction_ok B x ha hb (by norm_num) (by decide) hq, Res.ok_bind, Res.pure_eq, rat, rat, eiInfN, eiInfM,
    pev_padd, pev, pev, pev]
  congr 1
  generalize pev (cfDen (10 ^ 20) eiInfA eiInfB) x = d at hq ⊢
  generalize pev (cfNum (10 ^ 20) eiInfA eiInfB) x = n
  have hx0 : x ≠ 0 := h0.ne'
  push_cast
  simp only [zero_add]
  field_simp

theorem expEi_from_twentyfour (expint : ℝ → Res ℝ) (B : Build) {x : ℝ} (hx : 24 ≤ x) : expEi expint B x = .ok (rat eiInfN eiInfM x) := by
  have h0 : (0 : ℝ) < x := by linarith
  have ha : expEi_alphaj = eiInfA.map fun (a : ℤ) => (a : ℝ) / ((10 ^ 20 : ℤ) : ℝ) := by norm_num [expEi_alphaj, eiInfA]
  have hb : expEi_betaj = eiInfB.map fun (a : ℤ) => (a : ℝ) / ((10 ^ 20 : ℤ) : ℝ) := by norm_num [expEi_betaj, eiInfB]
  have hq := eiInf_den hx
  unfold expEi
  rw [if_neg (by linarith), continuedFraction_ok B x ha hb (by norm_num) (by decide) hq, Res.ok_bind, Res.pure_eq, rat, rat, eiInfN, eiInfM,
    pev_padd, pev, pev, pev]
  congr 1
  generalize pev (cfDen (10 ^ 20) eiInfA eiInfB) x = d at hq ⊢
  generalize pev (cfNum (10 ^ 20) eiInfA eiInfB) x = n
  have hx0 : x ≠ 0 := h0.ne'
  push_cast
  simp only [zero_add]
  field_simp

theorem e1_below_one (B : Build) {x : ℝ} (hx : 1e-8 < x) (hx' : x < 1) : e1Approximation B x = .ok (-Real.log x + rat e1aP e1aQ x) := by
  have h0 : (0 : ℝ) < x := lt_trans (by norm_num) hx
  have hp : e1a_pj = e1aP.map fun (a : ℤ) => (a : ℝ) / 10 ^ 21 := by norm_num [e1a_pj, e1aP]
  have hq : e1a_qj = e1aQ.map fun (a : ℤ) => (a : ℝ) / 10 ^ 21 := by norm_num [e1a_qj, e1aQ]
  have hne := (e1a_ne h0.le hx'.le).ne'
  unfold e1Approximation
  rw [if_neg (not_refused hx), if_pos ⟨h0, hx'⟩, cassert_true _ _ (by simp [e1a_pj, e1a_qj]), Res.ok_bind, horner_pev hp (by norm_num) (by simp [e1aP]),
    Res.ok_bind, horner_pev hq (by norm_num) (by simp [e1aQ]), Res.ok_bind, rdiv_ok (div_ne_zero hne (by norm_num)), Res.ok_bind, Res.pure_eq, rat]
  congr 1
  field_simp

theorem e1_one_four (B : Build) {x : ℝ} (hx : 1 ≤ x) (hx' : x < 4) : e1Approximation B x = .ok (Real.exp (-x) * rat e1bP.reverse e1bQ.reverse x) := by
  have h0 : (0 : ℝ) < x := by linarith
  have hp : e1b_pj = e1bP.map fun (a : ℤ) => (a : ℝ) / 10 ^ 29 := by norm_num [e1b_pj, e1bP]
  have hq : e1b_qj = e1bQ.map fun (a : ℤ) => (a : ℝ) / 10 ^ 29 := by norm_num [e1b_qj, e1bQ]
  have hne := (e1b_ne hx hx'.le).ne'
  have r1 := pev_reverse e1bP h0.ne'
  have r2 := pev_reverse e1bQ h0.ne'
  have l1 : e1bP.length = 9 := rfl
  have l2 : e1bQ.length = 9 := rfl
  rw [l1] at r1
  rw [l2] at r2
  have hne2 : pev e1bQ x⁻¹ ≠ 0 := by
    intro h
    rw [h, zero_mul] at r2
    exact mul_ne_zero h0.ne' hne r2.symm
  unfold e1Approximation
  rw [if_neg (not_refused (by linarith)), if_neg (by rintro ⟨_, h⟩; linarith), if_pos ⟨hx, hx'⟩, cassert_true _ _ (by simp [e1b_pj, e1b_qj]), Res.ok_bind,
    inverseSum_ok (n := 8) hp (by norm_num) rfl, Res.ok_bind, inverseSum_ok (n := 8) hq (by norm_num) rfl, Res.ok_bind, rdiv_ok (div_ne_zero hne2 (by norm_num)),
    Res.ok_bind, Res.pure_eq, rat]
  congr 2
  have e1 : pev e1bP.reverse x = pev e1bP x⁻¹ * x ^ 8 := by
    have : x * pev e1bP.reverse x = x * (pev e1bP x⁻¹ * x ^ 8) := by rw [← r1]; ring
    exact mul_left_cancel₀ h0.ne' this
  have e2 : pev e1bQ.reverse x = pev e1bQ x⁻¹ * x ^ 8 := by
    have : x * pev e1bQ.reverse x = x * (pev e1bQ x⁻¹ * x ^ 8) := by rw [← r2]; ring
    exact mul_left_cancel₀ h0.ne' this
  rw [e1, e2]
  field_simp

theorem e1_from_four (B : Build) {x : ℝ} (hx : 4 ≤ x) : e1Approximation B x = .ok (Real.exp (-x) * rat (tailN e1cP e1cQ) (tailM e1cQ) x) := by
  have h0 : (0 : ℝ) < x := by linarith
  have hp : e1c_pj = e1cP.map fun (a : ℤ) => (a : ℝ) / 10 ^ 23 := by norm_num [e1c_pj, e1cP]
  have hq : e1c_qj = e1cQ.map fun (a : ℤ) => (a : ℝ) / 10 ^ 23 := by norm_num [e1c_qj, e1cQ]
  have hne : pev e1cQ.reverse x ≠ 0 := by
    have := posFrom_sound e1c_pos_code (x := x) (by norm_num; exact hx)
    intro h
    rw [tailM, pev, pev, h] at this
    simp at this
  have r1 := pev_reverse e1cP h0.ne'
  have r2 := pev_reverse e1cQ h0.ne'
  have l1 : e1cP.length = 10 := rfl
  have l2 : e1cQ.length = 10 := rfl
  rw [l1] at r1
  rw [l2] at r2
  have hne2 : pev e1cQ x⁻¹ ≠ 0 := by
    intro h
    rw [h, zero_mul] at r2
    exact mul_ne_zero h0.ne' hne r2.symm
  unfold e1Approximation
  rw [if_neg (not_refused (by linarith)), if_neg (by rintro ⟨_, h⟩; linarith), if_neg (by rintro ⟨_, h⟩; linarith),
    cassert_true _ _ (by simp [e1c_pj, e1c_qj]), Res.ok_bind,
    inverseSum_ok (n := 9) hp (by norm_num) rfl, Res.ok_bind, inverseSum_ok (n := 9) hq (by norm_num) rfl, Res.ok_bind, rdiv_ok (div_ne_zero hne2 (by norm_num)),
    Res.ok_bind, Res.pure_eq, rat, tailN, tailM, pev_padd, pev, pev, pev]
  have e1 : pev e1cP.reverse x = pev e1cP x⁻¹ * x ^ 9 := by
    have : x * pev e1cP.reverse x = x * (pev e1cP x⁻¹ * x ^ 9) := by rw [← r1]; ring
    exact mul_left_cancel₀ h0.ne' this
  have e2 : pev e1cQ.reverse x = pev e1cQ x⁻¹ * x ^ 9 := by
    have : x * pev e1cQ.reverse x = x * (pev e1cQ x⁻¹ * x ^ 9) := by rw [← r2]; ring
    exact mul_left_cancel₀ h0.ne' this
  rw [e1, e2]
  congr 1
  generalize pev e1cQ x⁻¹ = q at hne2 ⊢
  generalize pev e1cP x⁻¹ = p
  have hx0 : x ≠ 0 := h0.ne'
  push_cast
  simp only [zero_add]
  field_simp

end MU.ExpInt
