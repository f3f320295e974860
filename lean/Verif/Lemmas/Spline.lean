import Verif.Lemmas.BSpline
import Verif.Lemmas.Search
import Verif.Model.Spline
import Verif.Spec.Spline

/-!
Lemmas on Model/Spline.lean: Eigen's algorithms compute B-splines, and the matrix of the interpolation is regular.
-/

set_option linter.unusedSectionVars false

namespace MU
namespace SW

open Polynomial Finset

theorem mapM_ok' {α β : Type} (f : α → Res β) (g : α → β) : ∀ (l : List α), (∀ a ∈ l, f a = .ok (g a)) → l.mapM f = .ok (l.map g)
  | [], _ => by simp
  | a :: l, h => by
    rw [List.mapM_cons, h a (by simp), Res.ok_bind, mapM_ok' f g l (fun b hb => h b (by simp [hb])), Res.ok_bind]
    rfl

/-- The sum of a stretch of a list. -/
theorem sum_stretch (τ : List ℝ) : ∀ (p j : ℕ), j + p ≤ τ.length →
    ((τ.drop j).take p).sum = ∑ r ∈ range p, τ.getD (j + r) 0 := by
  intro p
  induction p with
  | zero => intro j _; simp
  | succ p ih =>
    intro j h
    rw [List.take_succ, List.sum_append, ih j (by omega), sum_range_succ, List.getElem?_drop,
      List.getElem?_eq_getElem (by omega), List.getD_eq_getElem?_getD, List.getElem?_eq_getElem (by omega)]
    simp

/-- What is known of the parameters: strictly increasing from 0 to 1. -/
structure Params (τ : List ℝ) (p : ℕ) : Prop where
  pos : 0 < p
  size : p + 1 ≤ τ.length
  mono : ∀ i j, i < j → j < τ.length → τ.getD i 0 < τ.getD j 0
  first : τ.getD 0 0 = 0
  last : τ.getD (τ.length - 1) 0 = 1

/-- The mean of `p` parameters from number `j`. -/
noncomputable def mean (τ : List ℝ) (p j : ℕ) : ℝ := (∑ r ∈ range p, τ.getD (j + r) 0) / p

/-- The knots as a function: one beyond the end. -/
noncomputable def knot (τ : List ℝ) (p k : ℕ) : ℝ :=
  if k ≤ p then 0 else if k < τ.length then mean τ p (k - p) else 1

/-- The list of knots. -/
noncomputable def knotList (τ : List ℝ) (p : ℕ) : List ℝ := (List.range (τ.length + p + 1)).map (knot τ p)

theorem knotList_length (τ : List ℝ) (p : ℕ) : (knotList τ p).length = τ.length + p + 1 := by simp [knotList]

theorem knotList_getD {τ : List ℝ} {p k : ℕ} (h : k < τ.length + p + 1) (d : ℝ) : (knotList τ p).getD k d = knot τ p k := by
  rw [List.getD_eq_getElem?_getD, knotList, List.getElem?_map, List.getElem?_range h]; rfl

theorem knotList_getElem {τ : List ℝ} {p k : ℕ} (h : k < (knotList τ p).length) : (knotList τ p)[k] = knot τ p k := by
  simp [knotList]

theorem knotAveraging_ok {τ : List ℝ} {p : ℕ} (h : Params τ p) : knotAveraging τ p = .ok (knotList τ p) := by
  have hp : (p : ℝ) ≠ 0 := by have := h.pos; positivity
  rw [knotAveraging, mapM_ok' _ (fun j => mean τ p (j + 1)), Res.ok_bind, Res.pure_eq]
  · congr 1
    have hs := h.size
    apply List.ext_getElem
    · simp [knotList_length]; omega
    · intro k h1 h2
      rw [knotList_getElem]
      simp only [List.length_append, List.length_replicate, List.length_map, List.length_range] at h1
      unfold knot
      by_cases c1 : k ≤ p
      · rw [if_pos c1, List.getElem_append_left (by simp; omega), List.getElem_append_left (by simp; omega)]
        simp
      · rw [if_neg c1]
        by_cases c2 : k < τ.length
        · rw [if_pos c2, List.getElem_append_left (by simp; omega), List.getElem_append_right (by simp; omega)]
          simp only [List.getElem_map, List.getElem_range, List.length_replicate]
          congr 1
          omega
        · rw [if_neg c2, List.getElem_append_right (by simp; omega)]
          simp
  · intro j hj
    rw [fdiv_ok hp, sum_stretch _ _ _ (by have := List.mem_range.mp hj; omega)]
    rfl

section
variable {τ : List ℝ} {p : ℕ}

theorem Params.le (h : Params τ p) {i j : ℕ} (hij : i ≤ j) (hj : j < τ.length) : τ.getD i 0 ≤ τ.getD j 0 := by
  rcases Nat.lt_or_eq_of_le hij with h1 | h1
  · exact (h.mono i j h1 hj).le
  · rw [h1]

theorem Params.zero_le (h : Params τ p) {i : ℕ} (hi : i < τ.length) : 0 ≤ τ.getD i 0 :=
  calc (0 : ℝ) = τ.getD 0 0 := h.first.symm
    _ ≤ _ := h.le (by omega) hi

theorem Params.zero_lt (h : Params τ p) {i : ℕ} (h0 : 0 < i) (hi : i < τ.length) : 0 < τ.getD i 0 :=
  calc (0 : ℝ) = τ.getD 0 0 := h.first.symm
    _ < _ := h.mono _ _ h0 hi

theorem Params.le_one (h : Params τ p) {i : ℕ} (hi : i < τ.length) : τ.getD i 0 ≤ 1 :=
  calc τ.getD i 0 ≤ τ.getD (τ.length - 1) 0 := h.le (by omega) (by omega)
    _ = 1 := h.last

theorem Params.mean_bounds (h : Params τ p) {j : ℕ} (hj : j + p ≤ τ.length) :
    τ.getD j 0 ≤ mean τ p j ∧ mean τ p j ≤ τ.getD (j + p - 1) 0 := by
  have hp : (0 : ℝ) < p := by have := h.pos; positivity
  constructor
  · rw [mean, le_div_iff₀ hp, mul_comm]
    calc (p : ℝ) * τ.getD j 0 = ∑ _r ∈ range p, τ.getD j 0 := by simp
      _ ≤ _ := sum_le_sum (fun r hr => h.le (by omega) (by have := mem_range.mp hr; omega))
  · rw [mean, div_le_iff₀ hp, mul_comm]
    calc _ ≤ ∑ _r ∈ range p, τ.getD (j + p - 1) 0 :=
          sum_le_sum (fun r hr => h.le (by have := mem_range.mp hr; omega) (by have := h.pos; omega))
      _ = (p : ℝ) * τ.getD (j + p - 1) 0 := by simp

theorem Params.mean_lt (h : Params τ p) {j : ℕ} (hj : j + 1 + p ≤ τ.length) : mean τ p j < mean τ p (j + 1) := by
  have hp : (0 : ℝ) < p := by have := h.pos; positivity
  rw [mean, mean, div_lt_div_iff_of_pos_right hp]
  refine sum_lt_sum_of_nonempty (by simpa using h.pos.ne') (fun r hr => h.mono _ _ (by omega) (by have := mem_range.mp hr; omega))

theorem knot_low {k : ℕ} (hk : k ≤ p) : knot τ p k = 0 := by rw [knot, if_pos hk]
theorem knot_mid {k : ℕ} (h1 : p < k) (h2 : k < τ.length) : knot τ p k = mean τ p (k - p) := by
  rw [knot, if_neg (by omega), if_pos h2]
theorem knot_high {k : ℕ} (hs : p + 1 ≤ τ.length) (h2 : τ.length ≤ k) : knot τ p k = 1 := by
  rw [knot, if_neg (by omega), if_neg (by omega)]

theorem Params.knot_strict (h : Params τ p) {k : ℕ} (h1 : p ≤ k) (h2 : k < τ.length) : knot τ p k < knot τ p (k + 1) := by
  have hs := h.size
  have hp := h.pos
  rcases Nat.lt_or_eq_of_le h1 with c1 | c1
  · rw [knot_mid c1 h2]
    by_cases c2 : k + 1 < τ.length
    · rw [knot_mid (by omega) c2, show k + 1 - p = k - p + 1 by omega]
      exact h.mean_lt (by omega)
    · rw [knot_high hs (by omega)]
      refine (h.mean_bounds (by omega)).2.trans_lt ?_
      rw [← h.last]
      exact h.mono _ _ (by omega) (by omega)
  · subst c1
    rw [knot_low le_rfl]
    by_cases c2 : p + 1 < τ.length
    · rw [knot_mid (by omega) c2, ← h.first]
      exact (h.mono 0 (p + 1 - p) (by omega) (by omega)).trans_le (h.mean_bounds (by omega)).1
    · rw [knot_high hs (by omega)]; norm_num

theorem Params.knot_mono (h : Params τ p) : Monotone (knot τ p) := by
  refine monotone_nat_of_le_succ (fun k => ?_)
  by_cases h1 : p ≤ k
  · by_cases h2 : k < τ.length
    · exact (h.knot_strict h1 h2).le
    · rw [knot_high h.size (by omega), knot_high h.size (by omega)]
  · rw [knot_low (by omega), knot_low (by omega)]

/-- Where `Span` puts a parameter. -/
theorem Params.span_ok (h : Params τ p) (B : Build) (u : ℝ) : ∃ i, ESpline.span B u p (knotList τ p) = .ok i ∧ p ≤ i ∧ i < τ.length ∧
    (u ≤ 0 ∧ i = p ∨ 0 < u ∧ knot τ p i ≤ u ∧ (u < knot τ p (i + 1) ∨ i = τ.length - 1 ∧ 1 ≤ u)) := by
  have hs := h.size
  have hp := h.pos
  have hl := knotList_length τ p
  unfold ESpline.span
  rw [eAt_lt (by rw [hl]; omega), Res.ok_bind, knotList_getElem, knot_low (by omega)]
  by_cases hu : u ≤ 0
  · rw [if_pos hu]
    exact ⟨p, rfl, le_rfl, by omega, Or.inl ⟨hu, rfl⟩⟩
  · rw [if_neg hu, if_neg (by rw [hl]; omega)]
    push Not at hu
    set l := ((knotList τ p).take ((knotList τ p).length - p - 1)).drop (p - 1) with hl2
    have hlen : l.length = τ.length - p + 1 := by
      simp only [hl2, List.length_drop, List.length_take, hl]; omega
    have hget : ∀ j (hj : j < l.length), l[j] = knot τ p (p - 1 + j) := by
      intro j hj
      simp only [hl2, List.getElem_drop, List.getElem_take]
      rw [knotList_getElem]
    have hsorted : l.Pairwise (· ≤ ·) := by
      rw [List.pairwise_iff_getElem]
      intro i j hi hj hij
      rw [hget i hi, hget j hj]
      exact h.knot_mono (by omega)
    obtain ⟨k, k1, k2, k3⟩ := upperBound_spec hsorted u
    rw [k1, Res.ok_bind, Res.pure_eq]
    have hk1 : 1 < k := by
      rw [k3 1 (by omega), hget, knot_low (by omega)]; exact hu.le
    refine ⟨p - 1 + k - 1, rfl, by omega, by omega, Or.inr ⟨hu, ?_, ?_⟩⟩
    · have := (k3 (k - 1) (by omega)).mp (by omega)
      rw [hget, show p - 1 + (k - 1) = p - 1 + k - 1 by omega] at this
      exact this
    · by_cases hk : k < l.length
      · left
        have := (k3 k hk).not.mp (lt_irrefl _)
        rw [hget] at this
        rw [show p - 1 + k - 1 + 1 = p - 1 + k by omega]
        exact not_le.mp this
      · by_cases h1 : u < 1
        · left
          rw [knot_high hs (by omega)]; exact h1
        · exact Or.inr ⟨by omega, not_lt.mp h1⟩

theorem update_eq' (f : ℕ → ℝ) (k : ℕ) (a : ℝ) : Function.update f k a = fun j => if j = k then a else f j := by
  funext j
  by_cases h : j = k
  · subst h; simp
  · simp [h]

/-- `BasisFunctions` computes the B-splines that do not vanish on the interval. -/
theorem Params.basis_ok (h : Params τ p) (B : Build) {u : ℝ} {i : ℕ} (hi : ESpline.span B u p (knotList τ p) = .ok i)
    (h1 : p ≤ i) (h2 : i < τ.length) : ∃ N, basisFunctions B u p (knotList τ p) = .ok N ∧
      ∀ r ≤ p, N r = (bs (knot τ p) i p (i - p + r)).eval u := by
  have hlen := knotList_length τ p
  set t := knot τ p with ht
  have hmono : Monotone t := h.knot_mono
  have hstr : t i < t (i + 1) := h.knot_strict h1 h2
  unfold basisFunctions
  rw [hi, Res.ok_bind, if_pos ⟨by omega, by rw [hlen]; omega⟩]
  -- the value of element `r` after stage `j`, zero beyond
  let E : ℕ → ℕ → ℝ := fun j r => if r ≤ j then (bs t i j (i - j + r)).eval u else 0
  refine ⟨E p, ?_, fun r hr => by simp [E, hr]⟩
  have h0 : (fun r => if r = 0 then (1 : ℝ) else 0) = E 0 := by
    funext r
    by_cases hr : r = 0
    · subst hr; simp [E, bs_nought]
    · simp [E, hr]
  simp only
  rw [h0]
  refine forRange_ok (lo := 1) (hi := p + 1) (by omega) (fun j => E (j - 1)) ?_
  intro j hj1 hj2
  -- the inner loop
  let L : ℕ → ℝ := fun m => u - (knotList τ p).getD (i + 1 - m) 0
  let R : ℕ → ℝ := fun m => (knotList τ p).getD (i + m) 0 - u
  have hL : ∀ r < j, L (j - r) = u - t (i - j + r + 1) := by
    intro r hr
    simp only [L]
    rw [knotList_getD (by omega)]
    congr 2; omega
  have hR : ∀ r < j, R (r + 1) = t (i - j + r + 1 + j) - u := by
    intro r hr
    simp only [R]
    rw [knotList_getD (by omega)]
    congr 2; omega
  let S : ℕ → (ℕ → ℝ) × ℝ := fun r => (fun k => if k < r then E j k else E (j - 1) k,
    if r = 0 then 0 else wt t j (i - j + r) * (u - t (i - j + r)) * (bs t i (j - 1) (i - j + r)).eval u)
  have hloop : forRange 0 j (basisStep L R j) (E (j - 1), 0) = .ok (S j) := by
    have hS0 : (E (j - 1), (0 : ℝ)) = S 0 := by simp [S]
    rw [hS0]
    refine forRange_ok (by omega) S ?_
    intro r _ hr
    have hden : t (i - j + r + 1 + j) - t (i - j + r + 1) ≠ 0 := by
      have m1 : t (i - j + r + 1) ≤ t i := hmono (by omega)
      have m2 : t (i + 1) ≤ t (i - j + r + 1 + j) := hmono (by omega)
      linarith
    have hsum : R (r + 1) + L (j - r) = t (i - j + r + 1 + j) - t (i - j + r + 1) := by rw [hL r hr, hR r hr]; ring
    have hold : (S r).1 r = (bs t i (j - 1) (i - j + r + 1)).eval u := by
      simp only [S, lt_irrefl, if_false, E]
      rw [if_pos (by omega)]
      congr 2
      omega
    unfold basisStep
    rw [hsum, fdiv_ok hden, Res.ok_bind, Res.pure_eq, hold, hL r hr, hR r hr]
    congr 1
    have hj' : j = (j - 1) + 1 := by omega
    refine Prod.ext ?_ ?_
    · simp only [update_eq']
      funext k
      by_cases hk : k = r
      · subst hk
        simp only [S, if_true, Nat.lt_succ_self, E]
        rw [if_pos (show k ≤ j by omega)]
        -- the recursion
        have hrec : (bs t i j (i - j + k)).eval u = wt t j (i - j + k) * (u - t (i - j + k)) * (bs t i (j - 1) (i - j + k)).eval u +
            wt t j (i - j + k + 1) * (t (i - j + k + 1 + j) - u) * (bs t i (j - 1) (i - j + k + 1)).eval u := by
          conv_lhs => rw [hj', bs_succ]
          simp only [eval_add, eval_mul, eval_C, eval_sub, eval_X]
          rw [← hj', show i - j + k + (j - 1) + 2 = i - j + k + 1 + j by omega]
        rw [hrec]
        have hsav : (if k = 0 then 0 else wt t j (i - j + k) * (u - t (i - j + k)) * (bs t i (j - 1) (i - j + k)).eval u) =
            wt t j (i - j + k) * (u - t (i - j + k)) * (bs t i (j - 1) (i - j + k)).eval u := by
          by_cases hk0 : k = 0
          · subst hk0
            rw [if_pos rfl, bs_zero (by omega)]; simp
          · rw [if_neg hk0]
        rw [hsav, wt]
        rw [div_eq_mul_inv]
        unfold wt
        ring
      · simp only [S, hk, if_false]
        by_cases hk2 : k < r
        · rw [if_pos hk2, if_pos (by omega)]
        · rw [if_neg hk2, if_neg (by omega)]
    · simp only [S]
      rw [if_neg (by omega), show i - j + (r + 1) = i - j + r + 1 by omega, wt, div_eq_mul_inv]
      ring
  show (forRange 0 j (basisStep L R j) (E (j - 1), 0) >>= fun s => pure (Function.update s.1 j s.2)) = _
  rw [hloop, Res.ok_bind, Res.pure_eq]
  congr 1
  simp only [S, update_eq']
  funext k
  rw [show j + 1 - 1 = j by omega]
  by_cases hk : k = j
  · subst hk
    rw [if_pos rfl, if_neg (by omega)]
    simp only [E, le_refl, if_true]
    rw [show i - k + k = i by omega]
    conv_rhs => rw [show k = (k - 1) + 1 by omega, bs_succ]
    simp only [eval_add, eval_mul, eval_C, eval_sub, eval_X]
    rw [bs_zero (k := i + 1) (by omega), show k - 1 + 1 = k by omega]
    simp
  · rw [if_neg hk]
    by_cases hk2 : k < j
    · rw [if_pos hk2]
    · rw [if_neg hk2]
      simp only [E]
      rw [if_neg (by omega), if_neg (by omega)]

/-- At the left end only the first B-spline of the interval does not vanish. -/
theorem bs_left {t : ℕ → ℝ} {i : ℕ} (h1 : t i < t (i + 1)) {q : ℕ} (hq : q ≤ i) (he : ∀ k, i < k + q → k ≤ i → t k = t i) (k : ℕ) :
    (bs t i q k).eval (t i) = if k + q = i then 1 else 0 := by
  induction q generalizing k with
  | zero => rw [bs_nought]; simp only [Nat.add_zero]; split_ifs <;> simp
  | succ q ih =>
    have ih := ih (by omega) (fun k a b => he k (by omega) b)
    rw [bs_succ]
    simp only [eval_add, eval_mul, eval_C, eval_sub, eval_X, ih]
    have z1 : wt t (q + 1) k * (t i - t k) * (if k + q = i then 1 else 0) = 0 := by
      split_ifs with hk
      · rw [he k (by omega) (by omega)]; simp
      · simp
    rw [z1, zero_add]
    by_cases hk : k + (q + 1) = i
    · rw [if_pos (by omega), if_pos hk, mul_one, wt, he (k + 1) (by omega) (by omega), show k + 1 + (q + 1) = i + 1 by omega,
        show k + q + 2 = i + 1 by omega]
      exact inv_mul_cancel₀ (by linarith)
    · rw [if_neg (by omega), if_neg hk, mul_zero]

/-- At the right end only the last B-spline of the interval does not vanish. -/
theorem bs_right {t : ℕ → ℝ} {i : ℕ} (h1 : t i < t (i + 1)) {q : ℕ} (he : ∀ k, i < k → k ≤ i + q → t k = t (i + 1)) (k : ℕ) :
    (bs t i q k).eval (t (i + 1)) = if k = i then 1 else 0 := by
  induction q generalizing k with
  | zero => rw [bs_nought]; split_ifs <;> simp
  | succ q ih =>
    have ih := ih (fun k a b => he k a (by omega))
    rw [bs_succ]
    simp only [eval_add, eval_mul, eval_C, eval_sub, eval_X, ih]
    have z1 : wt t (q + 1) (k + 1) * (t (k + q + 2) - t (i + 1)) * (if k + 1 = i then 1 else 0) = 0 := by
      split_ifs with hk
      · rw [he (k + q + 2) (by omega) (by omega)]; simp
      · simp
    rw [z1, add_zero]
    by_cases hk : k = i
    · subst hk
      rw [if_pos rfl, mul_one, wt, he (k + (q + 1)) (by omega) (by omega)]
      exact inv_mul_cancel₀ (by linarith)
    · rw [if_neg hk, mul_zero]

/-- Only `p + 1` terms of a spline count on an interval. -/
theorem sp_eval_eq {t : ℕ → ℝ} {n i q : ℕ} (h1 : q ≤ i) (h2 : i < n) (c : ℕ → ℝ) (u : ℝ) :
    (sp t n i q c).eval u = ∑ r ∈ range (q + 1), (bs t i q (i - q + r)).eval u * c (i - q + r) := by
  rw [sp, eval_finsetSum]
  have hsub : ∑ k ∈ range n, (C (c k) * bs t i q k).eval u = ∑ k ∈ (range (q + 1)).image (fun r => i - q + r), (C (c k) * bs t i q k).eval u := by
    symm
    apply sum_subset
    · intro k hk
      obtain ⟨r, hr, rfl⟩ := mem_image.mp hk
      rw [mem_range] at hr ⊢
      omega
    · intro k _ hk
      rw [bs_zero (t := t) (i := i) (q := q) (k := k), mul_zero, eval_zero]
      by_contra hc
      exact hk (mem_image.mpr ⟨k - (i - q), mem_range.mpr (by omega), by omega⟩)
  rw [hsub, sum_image (fun a _ b _ hab => by simpa using hab)]
  refine sum_congr rfl (fun r _ => ?_)
  rw [eval_mul, eval_C, mul_comm]

/-- The interval that `Span` chooses for a parameter. -/
noncomputable def spanOf (B : Build) (τ : List ℝ) (p : ℕ) (u : ℝ) : ℕ :=
  match ESpline.span B u p (knotList τ p) with
  | .ok i => i
  | _ => 0

theorem Params.spanOf_ok (h : Params τ p) (B : Build) (u : ℝ) : ESpline.span B u p (knotList τ p) = .ok (spanOf B τ p u) ∧
    p ≤ spanOf B τ p u ∧ spanOf B τ p u < τ.length ∧
    (u ≤ 0 ∧ spanOf B τ p u = p ∨ 0 < u ∧ knot τ p (spanOf B τ p u) ≤ u ∧
      (u < knot τ p (spanOf B τ p u + 1) ∨ spanOf B τ p u = τ.length - 1 ∧ 1 ≤ u)) := by
  obtain ⟨i, h1, h2, h3, h4⟩ := h.span_ok B u
  have : spanOf B τ p u = i := by rw [spanOf, h1]
  rw [this]
  exact ⟨h1, h2, h3, h4⟩

/-- The matrix of the interpolation conditions. -/
noncomputable def collMat (B : Build) (τ : List ℝ) (p : ℕ) (i k : ℕ) : ℝ :=
  if i = 0 then (if k = 0 then 1 else 0)
  else if i = τ.length - 1 then (if k = τ.length - 1 then 1 else 0)
  else (bs (knot τ p) (spanOf B τ p (τ.getD i 0)) p k).eval (τ.getD i 0)

theorem Params.collocation_ok (h : Params τ p) (B : Build) : ∃ A, collocation B τ p (knotList τ p) τ.length = .ok A ∧
    A.rows = τ.length ∧ A.cols = τ.length ∧ ∀ i < τ.length, ∀ k < τ.length, A.entry i k = collMat B τ p i k := by
  have hs := h.size
  have hp := h.pos
  let F : ℕ → Mat ℝ := fun j => ⟨τ.length, τ.length, fun i k => if 1 ≤ i ∧ i < j then
    (if spanOf B τ p (τ.getD i 0) - p ≤ k ∧ k ≤ spanOf B τ p (τ.getD i 0) then
      (bs (knot τ p) (spanOf B τ p (τ.getD i 0)) p k).eval (τ.getD i 0) else 0) else 0⟩
  have hloop : forRange 1 (τ.length - 1) (collocationRow B τ p (knotList τ p)) ⟨τ.length, τ.length, fun _ _ => 0⟩ =
      .ok (F (τ.length - 1)) := by
    have h0 : (⟨τ.length, τ.length, fun _ _ => 0⟩ : Mat ℝ) = F 1 := by
      simp only [F]
      congr 1
      funext i k
      rw [if_neg (by omega)]
    rw [h0]
    refine forRange_ok (by omega) F ?_
    intro j j1 j2
    have hu : τ[j]'(by omega) = τ.getD j 0 := by
      rw [List.getD_eq_getElem?_getD, List.getElem?_eq_getElem (by omega)]; rfl
    obtain ⟨s1, s2, s3, _⟩ := h.spanOf_ok B (τ.getD j 0)
    obtain ⟨N, n1, n2⟩ := h.basis_ok B s1 s2 s3
    unfold collocationRow
    rw [eAt_lt (by omega), hu, Res.ok_bind, s1, Res.ok_bind, n1, Res.ok_bind, if_pos ⟨s2, s3⟩, Res.pure_eq]
    congr 1
    simp only [F]
    congr 1
    funext i k
    by_cases hi : i = j
    · subst hi
      rw [if_pos (show 1 ≤ i ∧ i < i + 1 by omega)]
      by_cases hk : spanOf B τ p (τ.getD i 0) - p ≤ k ∧ k ≤ spanOf B τ p (τ.getD i 0)
      · rw [if_pos ⟨rfl, hk⟩, if_pos hk, n2 _ (by omega)]
        congr 2
        omega
      · rw [if_neg (fun h => hk h.2), if_neg (fun h => absurd h.2 (lt_irrefl _)), if_neg hk]
    · rw [if_neg (fun h => hi h.1)]
      by_cases hi2 : 1 ≤ i ∧ i < j
      · rw [if_pos hi2, if_pos (show 1 ≤ i ∧ i < j + 1 by omega)]
      · rw [if_neg hi2, if_neg (show ¬ (1 ≤ i ∧ i < j + 1) by omega)]
  unfold collocation
  rw [hloop, Res.ok_bind]
  unfold Mat.set
  rw [if_pos (show 0 < (F (τ.length - 1)).rows ∧ 0 < (F (τ.length - 1)).cols from ⟨by simp only [F]; omega, by simp only [F]; omega⟩),
    Res.ok_bind, if_pos (by simp only [F]; omega)]
  refine ⟨_, rfl, rfl, rfl, ?_⟩
  intro i hi k hk
  simp only [F, collMat]
  by_cases h1 : i = 0
  · subst h1
    rw [if_neg (by omega), if_pos rfl]
    by_cases h2 : k = 0
    · rw [if_pos ⟨rfl, h2⟩, if_pos h2]
    · rw [if_neg (by tauto), if_neg (by omega), if_neg h2]
  · rw [if_neg h1]
    by_cases h3 : i = τ.length - 1
    · rw [if_pos h3]
      by_cases h2 : k = τ.length - 1
      · rw [if_pos ⟨h3, h2⟩, if_pos h2]
      · rw [if_neg (by tauto), if_neg (by tauto), if_neg (by omega), if_neg h2]
    · rw [if_neg h3, if_neg (by tauto), if_neg (by tauto), if_pos (by omega)]
      split_ifs with hk2
      · rfl
      · rw [bs_zero (t := knot τ p) (by have := (h.spanOf_ok B (τ.getD i 0)).2.1; omega), eval_zero]

/-- The break points and pieces of the spline with control points `c`. -/
noncomputable def brk (τ : List ℝ) (p j : ℕ) : ℝ := knot τ p (p + j)
noncomputable def piece (τ : List ℝ) (p : ℕ) (c : ℕ → ℝ) (j : ℕ) : ℝ[X] := sp (knot τ p) τ.length (p + j) p c

theorem Params.brk_lt (h : Params τ p) : ∀ j < τ.length - p, brk τ p j < brk τ p (j + 1) := by
  intro j hj
  exact h.knot_strict (by omega) (by omega)

theorem Params.brk_zero : brk τ p 0 = 0 := knot_low le_rfl

theorem Params.brk_last (h : Params τ p) : brk τ p (τ.length - p) = 1 := knot_high h.size (by have := h.size; omega)

theorem Params.smooth (h : Params τ p) (c : ℕ → ℝ) : Smooth (brk τ p) (τ.length - p) p (piece τ p c) := by
  have hs := h.size
  have := sp_smooth (m := τ.length - p) (p := p) h.knot_mono (fun j hj => h.knot_strict (by omega) (by omega)) c
  rw [show τ.length - p + p = τ.length by omega] at this
  exact this

/-- A smooth piecewise polynomial has one value at each point. -/
theorem value_unique {ξ : ℕ → ℝ} {m : ℕ} {Q : ℕ → ℝ[X]} (hξ : ∀ j < m, ξ j < ξ (j + 1)) (hQ : Joined ξ m Q) {k k' : ℕ} {x : ℝ}
    (hk : k < m) (hk' : k' < m) (h : In ξ k x) (h' : In ξ k' x) : (Q k).eval x = (Q k').eval x := by
  wlog hle : k ≤ k' generalizing k k'
  · exact (this hk' hk h' h (by omega)).symm
  rcases Nat.lt_or_eq_of_le hle with hlt | heq
  · have : k' = k + 1 := by
      by_contra hc
      have h1 := xi_lt hξ (i := k + 1) (j := k') (by omega) hk'.le
      have := h.2
      have := h'.1
      linarith
    subst this
    have hx : x = ξ (k + 1) := le_antisymm h.2 h'.1
    rw [hx]
    exact hQ k hk'
  · rw [heq]

/-- The interval chosen by `Span` contains the parameter, for parameters between 0 and 1. -/
theorem Params.span_in (h : Params τ p) (B : Build) {u : ℝ} (h0 : 0 ≤ u) (h1 : u ≤ 1) : In (brk τ p) (spanOf B τ p u - p) u := by
  obtain ⟨_, s2, s3, s4⟩ := h.spanOf_ok B u
  have hs := h.size
  unfold In brk
  rw [show p + (spanOf B τ p u - p) = spanOf B τ p u by omega,
    show p + (spanOf B τ p u - p + 1) = spanOf B τ p u + 1 by omega]
  rcases s4 with ⟨s5, s6⟩ | ⟨s5, s6, s7⟩
  · have : u = 0 := le_antisymm s5 h0
    have hst := h.knot_strict (k := p) le_rfl (by omega)
    rw [s6, this]
    rw [knot_low le_rfl] at hst ⊢
    exact ⟨le_rfl, hst.le⟩
  · refine ⟨s6, ?_⟩
    rcases s7 with s7 | ⟨s7, s8⟩
    · exact s7.le
    · rw [s7, knot_high hs (by omega)]; exact h1

/-- A row of the matrix evaluates the spline at a parameter. -/
theorem Params.row_eval (h : Params τ p) (B : Build) (c : ℕ → ℝ) {i : ℕ} (hi : i < τ.length) {j : ℕ} (hj : j < τ.length - p)
    (hin : In (brk τ p) j (τ.getD i 0)) :
    ∑ k ∈ range τ.length, collMat B τ p i k * c k = (piece τ p c j).eval (τ.getD i 0) := by
  have hs := h.size
  have hp := h.pos
  have hjoin := (h.smooth c).joined 0 hp
  have h01 : 0 ≤ τ.getD i 0 ∧ τ.getD i 0 ≤ 1 := by
    exact ⟨h.zero_le hi, h.le_one hi⟩
  have hval : ∀ j', j' < τ.length - p → In (brk τ p) j' (τ.getD i 0) →
      (piece τ p c j).eval (τ.getD i 0) = (piece τ p c j').eval (τ.getD i 0) :=
    fun j' a b => value_unique h.brk_lt hjoin hj a hin b
  unfold collMat
  by_cases h1 : i = 0
  · subst h1
    simp only [if_true]
    rw [hval 0 (by omega) ⟨by rw [Params.brk_zero]; exact h01.1, by
      have := h.brk_lt 0 (by omega); rw [Params.brk_zero] at this; rw [h.first]; exact this.le⟩, piece, sp, eval_finsetSum, h.first]
    refine sum_congr rfl (fun k _ => ?_)
    have := bs_left (t := knot τ p) (i := p) (h.knot_strict le_rfl (by omega)) (q := p) le_rfl
      (fun k a b => by rw [knot_low b, knot_low le_rfl]) k
    rw [knot_low le_rfl] at this
    rw [eval_mul, eval_C, Nat.add_zero, this, mul_comm]
    congr 1
    by_cases hk : k = 0
    · rw [if_pos hk, if_pos (by omega)]
    · rw [if_neg hk, if_neg (by omega)]
  · simp only [h1, if_false]
    by_cases h2 : i = τ.length - 1
    · subst h2
      simp only [if_true]
      have hb := h.brk_last
      rw [hval (τ.length - p - 1) (by omega) ⟨by
          rw [h.last, ← hb]; exact xi_le h.brk_lt (by omega) le_rfl, by
          rw [h.last, show τ.length - p - 1 + 1 = τ.length - p by omega, hb]⟩, piece, sp, eval_finsetSum, h.last,
        show p + (τ.length - p - 1) = τ.length - 1 by omega]
      refine sum_congr rfl (fun k _ => ?_)
      have := bs_right (t := knot τ p) (i := τ.length - 1) (h.knot_strict (by omega) (by omega)) (q := p)
        (fun k a b => by rw [knot_high hs (by omega), knot_high hs (by omega)]) k
      rw [knot_high hs (by omega)] at this
      rw [eval_mul, eval_C, this, mul_comm]
    · simp only [h2, if_false]
      obtain ⟨_, s2, s3, _⟩ := h.spanOf_ok B (τ.getD i 0)
      rw [hval (spanOf B τ p (τ.getD i 0) - p) (by omega) (h.span_in B h01.1 h01.2), piece, sp, eval_finsetSum,
        show p + (spanOf B τ p (τ.getD i 0) - p) = spanOf B τ p (τ.getD i 0) by omega]
      refine sum_congr rfl (fun k _ => ?_)
      rw [eval_mul, eval_C, mul_comm]

/-- A smooth piecewise polynomial on the break points that vanishes at the parameters is zero. -/
theorem Params.unique (h : Params τ p) {P : ℕ → ℝ[X]} (hP : Smooth (brk τ p) (τ.length - p) p P)
    (h0 : ∀ i < τ.length, ∀ k < τ.length - p, In (brk τ p) k (τ.getD i 0) → (P k).eval (τ.getD i 0) = 0) :
    ∀ k < τ.length - p, P k = 0 := by
  have hs := h.size
  have hp := h.pos
  have hn : τ.length - p + p = τ.length := by omega
  refine schoenberg_whitney (τ := fun i => τ.getD i 0) h.brk_lt hp hP ?_ ?_ ?_ ?_ ?_
  · intro i hi
    exact h.mono _ _ (by omega) (by omega)
  · intro i hi
    rw [Params.brk_zero, h.brk_last]
    exact ⟨h.zero_le (by omega), h.le_one (by omega)⟩
  · intro i j hj hji hi
    by_cases hj0 : j = 0
    · subst hj0
      rw [Params.brk_zero]
      exact h.zero_lt (by omega) (by omega)
    · unfold brk
      rw [knot_mid (by omega) (by omega), show p + j - p = j by omega]
      exact (h.mean_bounds (by omega)).2.trans_lt (h.mono _ _ (by omega) (by omega))
  · intro i j hij hj
    unfold brk
    rw [knot_mid (by omega) (by omega), show p + j - p = j by omega]
    exact (h.mono _ _ hij (by omega)).trans_le (h.mean_bounds (by omega)).1
  · intro i hi
    exact h0 i (by omega)

/-- The matrix of the interpolation is regular. -/
theorem Params.regular (h : Params τ p) (B : Build) {c : ℕ → ℝ}
    (hc : ∀ i < τ.length, ∑ k ∈ range τ.length, collMat B τ p i k * c k = 0) : ∀ k < τ.length, c k = 0 := by
  have hs := h.size
  have hz := h.unique (h.smooth c) (fun i hi k hk hin => by rw [← h.row_eval B c hi hk hin, hc i hi])
  intro k hk
  have h1 := hz (max k p - p) (by omega)
  unfold piece at h1
  refine sp_inj h.knot_mono (i := p + (max k p - p)) (by omega) (h.knot_strict (by omega) (by omega)) (by omega) h1 (by omega) (by omega)

theorem sum_map_range (f : ℕ → ℝ) (n : ℕ) : ((List.range n).map f).sum = ∑ r ∈ range n, f r := by
  induction n with
  | zero => simp
  | succ n ih => rw [List.range_succ, List.map_append, List.sum_append, ih, sum_range_succ]; simp

/-- The evaluation of the spline. -/
theorem Params.eval_ok (h : Params τ p) (B : Build) {ctrls : List ℝ} (hc : ctrls.length = τ.length) (u : ℝ) :
    ESpline.eval B ⟨knotList τ p, ctrls⟩ u =
      .ok ((piece τ p (fun k => ctrls.getD k 0) (spanOf B τ p u - p)).eval u) := by
  have hs := h.size
  obtain ⟨s1, s2, s3, _⟩ := h.spanOf_ok B u
  obtain ⟨N, n1, n2⟩ := h.basis_ok B s1 s2 s3
  unfold ESpline.eval
  simp only [knotList_length, hc]
  rw [show τ.length + p + 1 - τ.length - 1 = p by omega, s1, Res.ok_bind, n1, Res.ok_bind, if_pos ⟨s2, s3⟩, Res.pure_eq, piece,
    show p + (spanOf B τ p u - p) = spanOf B τ p u by omega, sp_eval_eq s2 s3, sum_map_range]
  congr 1
  refine sum_congr rfl (fun r hr => ?_)
  rw [n2 r (by have := mem_range.mp hr; omega)]

/-- Where a parameter is with respect to the pieces: inside one, or beyond an end. -/
def Located (ξ : ℕ → ℝ) (m j : ℕ) (u : ℝ) : Prop := In ξ j u ∨ u < ξ 0 ∧ j = 0 ∨ ξ m < u ∧ j + 1 = m

theorem Params.located (h : Params τ p) (B : Build) (u : ℝ) : Located (brk τ p) (τ.length - p) (spanOf B τ p u - p) u := by
  have hs := h.size
  obtain ⟨_, s2, s3, s4⟩ := h.spanOf_ok B u
  unfold Located
  rw [Params.brk_zero, h.brk_last]
  rcases lt_or_ge u 0 with h0 | h0
  · right; left
    rcases s4 with ⟨_, s5⟩ | ⟨s5, _⟩
    · exact ⟨h0, by omega⟩
    · linarith
  · rcases le_or_gt u 1 with h1 | h1
    · left; exact h.span_in B h0 h1
    · right; right
      refine ⟨h1, ?_⟩
      rcases s4 with ⟨s5, _⟩ | ⟨_, s5, s6⟩
      · linarith
      · rcases s6 with s6 | ⟨s6, _⟩
        · have := h.knot_mono (show spanOf B τ p u + 1 ≤ τ.length by omega)
          rw [knot_high hs le_rfl] at this
          linarith
        · omega

/-- The fitting: control points whose spline takes the given values at the parameters. -/
theorem Params.interpolate_ok (h : Params τ p) (B : Build) {solve : Mat ℝ → List ℝ → List ℝ} (hsol : Spec.SolvesRegular solve)
    {y : List ℝ} (hy : y.length = τ.length) : ∃ ctrls, ESpline.interpolate solve B y p τ = .ok ⟨knotList τ p, ctrls⟩ ∧
      ctrls.length = τ.length ∧ ∀ i < τ.length, ∀ k < τ.length - p, In (brk τ p) k (τ.getD i 0) →
        (piece τ p (fun k => ctrls.getD k 0) k).eval (τ.getD i 0) = y.getD i 0 := by
  obtain ⟨A, a1, a2, a3, a4⟩ := h.collocation_ok B
  have hrow : ∀ c i, i < τ.length → Spec.rowTimes A c i = ∑ k ∈ range τ.length, collMat B τ p i k * c k := by
    intro c i hi
    unfold Spec.rowTimes
    rw [a3]
    refine sum_congr rfl (fun k hk => ?_)
    rw [a4 i hi k (mem_range.mp hk)]
  have hreg : Spec.IsRegular A := by
    intro c hc
    rw [a2] at hc
    rw [a3]
    exact h.regular B (fun i hi => by rw [← hrow c i hi]; exact hc i hi)
  obtain ⟨l, e⟩ := hsol A y (by rw [a2, a3]) (by rw [a2, hy]) hreg
  rw [a3] at l
  rw [a2] at e
  refine ⟨solve A y, ?_, l, ?_⟩
  · unfold ESpline.interpolate
    rw [knotAveraging_ok h, Res.ok_bind, hy, a1, Res.ok_bind]
    rfl
  · intro i hi k hk hin
    rw [← h.row_eval B _ hi hk hin, ← e i hi, hrow _ i hi]

end

/-- The abscissas given to `Spline`: at least two, strictly increasing. -/
structure Increasing (x : List ℝ) : Prop where
  two : 2 ≤ x.length
  lt : x.Pairwise (· < ·)

theorem getD_eq {x : List ℝ} {i : ℕ} (h : i < x.length) (d : ℝ) : x.getD i d = x[i] := by
  rw [List.getD_eq_getElem?_getD, List.getElem?_eq_getElem h]; rfl

theorem foldl_min_eq {a : ℝ} : ∀ (l : List ℝ), (∀ b ∈ l, a ≤ b) → l.foldl min a = a
  | [], _ => rfl
  | b :: l, h => by
    rw [List.foldl_cons, min_eq_left (h b (by simp))]
    exact foldl_min_eq l (fun c hc => h c (by simp [hc]))

theorem foldl_max_last : ∀ (l : List ℝ) (a : ℝ), (a :: l).Pairwise (· < ·) → l.foldl max a = (a :: l).getD l.length 0
  | [], _, _ => rfl
  | b :: l, a, h => by
    rw [List.pairwise_cons] at h
    rw [List.foldl_cons, max_eq_right (h.1 b (by simp)).le, foldl_max_last l b h.2]
    simp

section
variable {x : List ℝ}

theorem Increasing.minC (h : Increasing x) (B : Build) : minCoeff B x = .ok (x.getD 0 0) := by
  obtain ⟨two, lt⟩ := h
  match x, two, lt with
  | a :: l, _, lt =>
    rw [minCoeff, foldl_min_eq l (fun b hb => ((List.pairwise_cons.mp lt).1 b hb).le)]
    rfl

theorem Increasing.maxC (h : Increasing x) (B : Build) : maxCoeff B x = .ok (x.getD (x.length - 1) 0) := by
  obtain ⟨two, lt⟩ := h
  match x, two, lt with
  | a :: l, _, lt =>
    rw [maxCoeff, foldl_max_last l a lt]
    rfl

theorem Increasing.get_lt (h : Increasing x) {i j : ℕ} (hij : i < j) (hj : j < x.length) : x.getD i 0 < x.getD j 0 := by
  rw [getD_eq (by omega), getD_eq hj]
  exact List.pairwise_iff_getElem.mp h.lt i j (by omega) hj hij

/-- The scaled abscissas. -/
noncomputable def scaled (x : List ℝ) (a : ℝ) : ℝ := (a - x.getD 0 0) / (x.getD (x.length - 1) 0 - x.getD 0 0)

theorem Increasing.range_pos (h : Increasing x) : 0 < x.getD (x.length - 1) 0 - x.getD 0 0 := by
  have := h.get_lt (i := 0) (j := x.length - 1) (by have := h.two; omega) (by have := h.two; omega)
  linarith

theorem Increasing.scaled_ok (h : Increasing x) (a : ℝ) :
    scaledValue (x.getD 0 0) (x.getD (x.length - 1) 0) a = .ok (scaled x a) := by
  rw [scaledValue, fdiv_ok h.range_pos.ne']; rfl

theorem Increasing.params (h : Increasing x) {Deg : ℕ} (hD : 0 < Deg) : Params (x.map (scaled x)) (min (x.length - 1) Deg) := by
  have h2 := h.two
  have hr := h.range_pos
  have hget : ∀ i, i < x.length → (x.map (scaled x)).getD i 0 = scaled x (x.getD i 0) := by
    intro i hi
    rw [List.getD_eq_getElem?_getD, List.getElem?_map, List.getElem?_eq_getElem hi, getD_eq hi]; rfl
  refine ⟨by omega, by simp; omega, ?_, ?_, ?_⟩
  · intro i j hij hj
    simp only [List.length_map] at hj
    rw [hget i (by omega), hget j hj, scaled, scaled, div_lt_div_iff_of_pos_right hr]
    have := h.get_lt hij hj
    linarith
  · rw [hget 0 (by omega), scaled, sub_self, zero_div]
  · rw [List.length_map, hget _ (by omega), scaled, div_self hr.ne']

/-- Everything about a spline on increasing abscissas: the break points `ξ` and the number `m` of pieces depend only on the abscissas and the degree;
the spline is a smooth piecewise polynomial, which takes the given values and is evaluated by `operator()`; and such a piecewise polynomial is
determined by its values at the abscissas. -/
theorem Increasing.make_ok (h : Increasing x) {Deg : ℕ} (hD : 0 < Deg) (B : Build) {solve : Mat ℝ → List ℝ → List ℝ}
    (hsol : Spec.SolvesRegular solve) : ∃ (m : ℕ) (ξ : ℕ → ℝ), 0 < m ∧ (∀ j < m, ξ j < ξ (j + 1)) ∧ ξ 0 = 0 ∧ ξ m = 1 ∧
      (m + min (x.length - 1) Deg = x.length ∧ ∀ j, 0 < j → j < m →
        ξ j = (∑ r ∈ range (min (x.length - 1) Deg), scaled x (x.getD (j + r) 0)) / (min (x.length - 1) Deg : ℕ)) ∧
      (∀ P, Smooth ξ m (min (x.length - 1) Deg) P →
        (∀ i < x.length, ∀ k < m, In ξ k (scaled x (x.getD i 0)) → (P k).eval (scaled x (x.getD i 0)) = 0) → ∀ k < m, P k = 0) ∧
      ∀ y : List ℝ, y.length = x.length → ∃ (s : Spline) (P : ℕ → ℝ[X]), Spline.make solve B Deg x y = .ok s ∧
        Smooth ξ m (min (x.length - 1) Deg) P ∧
        (∀ i < x.length, ∀ k < m, In ξ k (scaled x (x.getD i 0)) → (P k).eval (scaled x (x.getD i 0)) = y.getD i 0) ∧
        ∀ a, ∃ j < m, Located ξ m j (scaled x a) ∧ Spline.call B s a = .ok ((P j).eval (scaled x a)) := by
  have hp := h.params hD
  have h2 := h.two
  set p := min (x.length - 1) Deg with hpdef
  set τ := x.map (scaled x) with hτ
  have hlen : τ.length = x.length := by simp [hτ]
  have hget : ∀ i, i < x.length → τ.getD i 0 = scaled x (x.getD i 0) := by
    intro i hi
    rw [List.getD_eq_getElem?_getD, hτ, List.getElem?_map, List.getElem?_eq_getElem hi, getD_eq hi]; rfl
  refine ⟨x.length - p, brk τ p, by omega, ?_, Params.brk_zero, ?_, ⟨by omega, fun j hj hm => ?_⟩, ?_, ?_⟩
  · rw [← hlen]; exact hp.brk_lt
  · rw [← hlen]; exact hp.brk_last
  · rw [brk, knot_mid (by omega) (by omega), mean, Nat.add_sub_cancel_left]
    exact congrArg (· / (p : ℝ)) (sum_congr rfl (fun r hr => hget _ (by have := mem_range.1 hr; omega)))
  · intro P hP h0
    rw [← hlen] at hP h0 ⊢
    exact hp.unique hP (fun i hi k hk hin => by
      rw [hget i (by omega)] at hin ⊢
      exact h0 i (by omega) k (by omega) hin)
  · intro y hy
    obtain ⟨ctrls, c1, c2, c3⟩ := hp.interpolate_ok B hsol (y := y) (by omega)
    refine ⟨⟨x.getD 0 0, x.getD (x.length - 1) 0, ⟨knotList τ p, ctrls⟩⟩, piece τ p (fun k => ctrls.getD k 0), ?_, ?_, ?_, ?_⟩
    · unfold Spline.make scaledValues
      rw [h.minC, Res.ok_bind, h.maxC, Res.ok_bind, mapM_ok' _ (scaled x) x (fun a _ => h.scaled_ok a), Res.ok_bind, ← hpdef, ← hτ, c1,
        Res.ok_bind]
      rfl
    · rw [← hlen]; exact hp.smooth _
    · intro i hi k hk hin
      rw [← hget i hi] at hin ⊢
      exact c3 i (by omega) k (by omega) hin
    · intro a
      have hs := hp.spanOf_ok B (scaled x a)
      refine ⟨spanOf B τ p (scaled x a) - p, by omega, ?_, ?_⟩
      · rw [← hlen]; exact hp.located B _
      · unfold Spline.call
        rw [h.scaled_ok, Res.ok_bind]
        exact hp.eval_ok B c2 _

end

end SW
end MU
